import Verif.Asn.Model
/-
The types that are decoded. Generated by tools/asn_gen.py from the type descriptors.
-/
namespace Verif.Asn

/-- src/asn1/asn1c/ANY.c:31-39 `asn_DEF_ANY` -/
def anyTy : Ty :=
  .str .any [] []

/-- src/asn1/asn1c/ContentType.c:17-30 `asn_DEF_ContentType` -/
def contentTypeTy : Ty :=
  .prim .plain [24]

/-- src/asn1/asn1c/ContentInfo.c:95-109 `asn_DEF_ContentInfo`,
src/asn1/asn1c/ContentInfo.c:61-80 `asn_MBR_ContentInfo_1`,
src/asn1/asn1c/ContentInfo.c:84-87 `asn_MAP_ContentInfo_tag2el_1` -/
def contentInfoTy : Ty :=
  .seq [64] <|
    .cons ⟨some 24, .none, false, false, [24]⟩ contentTypeTy <|
    .cons ⟨some 2, .explicit, false, false, [2]⟩ anyTy <|
    .nil

/-- src/asn1/asn1c/CMSAttributeValue.c:14-25 `asn_DEF_CMSAttributeValue` -/
def cmsAttributeValueTy : Ty :=
  .str .any [] []

/-- src/asn1/asn1c/CMSAttribute.c:98-112 `asn_DEF_attrValues_3`,
src/asn1/asn1c/CMSAttribute.c:78-88 `asn_MBR_attrValues_3` -/
def attrValuesTy : Ty :=
  .setOf [68] none cmsAttributeValueTy

/-- src/asn1/asn1c/OBJECT_IDENTIFIER.c:34-47 `asn_DEF_OBJECT_IDENTIFIER` -/
def objectIDENTIFIERTy : Ty :=
  .prim .plain [24]

/-- src/asn1/asn1c/CMSAttribute.c:148-162 `asn_DEF_CMSAttribute`,
src/asn1/asn1c/CMSAttribute.c:114-133 `asn_MBR_CMSAttribute_1`,
src/asn1/asn1c/CMSAttribute.c:137-140 `asn_MAP_CMSAttribute_tag2el_1` -/
def cmsAttributeTy : Ty :=
  .seq [64] <|
    .cons ⟨some 24, .none, false, false, [24]⟩ objectIDENTIFIERTy <|
    .cons ⟨some 68, .none, false, false, [68]⟩ attrValuesTy <|
    .nil

/-- src/asn1/asn1c/UnsignedAttributes.c:29-43 `asn_DEF_UnsignedAttributes`,
src/asn1/asn1c/UnsignedAttributes.c:10-20 `asn_MBR_UnsignedAttributes_1` -/
def unsignedAttributesTy : Ty :=
  .setOf [68] (some 64) cmsAttributeTy

/-- src/asn1/asn1c/SignatureValue.c:17-30 `asn_DEF_SignatureValue` -/
def signatureValueTy : Ty :=
  .str .octets [16] [16]

/-- src/asn1/asn1c/SignatureAlgorithmIdentifier.c:17-31 `asn_DEF_SignatureAlgorithmIdentifier`,
src/asn1/asn1c/AlgorithmIdentifier.c:10-29 `asn_MBR_AlgorithmIdentifier_1`,
src/asn1/asn1c/AlgorithmIdentifier.c:33-35 `asn_MAP_AlgorithmIdentifier_tag2el_1` -/
def signatureAlgorithmIdentifierTy : Ty :=
  .seq [64] <|
    .cons ⟨some 24, .none, false, false, [24]⟩ objectIDENTIFIERTy <|
    .cons ⟨none, .none, true, true, []⟩ anyTy <|
    .nil

/-- src/asn1/asn1c/SignedAttributes.c:29-43 `asn_DEF_SignedAttributes`,
src/asn1/asn1c/SignedAttributes.c:10-20 `asn_MBR_SignedAttributes_1` -/
def signedAttributesTy : Ty :=
  .setOf [68] (some 64) cmsAttributeTy

/-- src/asn1/asn1c/DigestAlgorithmIdentifier.c:17-31 `asn_DEF_DigestAlgorithmIdentifier`,
src/asn1/asn1c/AlgorithmIdentifier.c:10-29 `asn_MBR_AlgorithmIdentifier_1`,
src/asn1/asn1c/AlgorithmIdentifier.c:33-35 `asn_MAP_AlgorithmIdentifier_tag2el_1` -/
def digestAlgorithmIdentifierTy : Ty :=
  .seq [64] <|
    .cons ⟨some 24, .none, false, false, [24]⟩ objectIDENTIFIERTy <|
    .cons ⟨none, .none, true, true, []⟩ anyTy <|
    .nil

/-- src/asn1/asn1c/CMSSubjectKeyIdentifier.c:17-30 `asn_DEF_CMSSubjectKeyIdentifier` -/
def cmsSubjectKeyIdentifierTy : Ty :=
  .str .octets [16] [16]

/-- src/asn1/asn1c/CertificateSerialNumber.c:17-30 `asn_DEF_CertificateSerialNumber` -/
def certificateSerialNumberTy : Ty :=
  .prim .plain [8]

/-- src/asn1/asn1c/AttributeValue.c:14-25 `asn_DEF_AttributeValue` -/
def attributeValueTy : Ty :=
  .str .any [] []

/-- src/asn1/asn1c/AttributeType.c:17-30 `asn_DEF_AttributeType` -/
def attributeTypeTy : Ty :=
  .prim .plain [24]

/-- src/asn1/asn1c/AttributeTypeAndValue.c:43-57 `asn_DEF_AttributeTypeAndValue`,
src/asn1/asn1c/AttributeTypeAndValue.c:10-29 `asn_MBR_AttributeTypeAndValue_1`,
src/asn1/asn1c/AttributeTypeAndValue.c:33-35 `asn_MAP_AttributeTypeAndValue_tag2el_1` -/
def attributeTypeAndValueTy : Ty :=
  .seq [64] <|
    .cons ⟨some 24, .none, false, false, [24]⟩ attributeTypeTy <|
    .cons ⟨none, .none, false, true, []⟩ attributeValueTy <|
    .nil

/-- src/asn1/asn1c/RelativeDistinguishedName.c:29-43 `asn_DEF_RelativeDistinguishedName`,
src/asn1/asn1c/RelativeDistinguishedName.c:10-20 `asn_MBR_RelativeDistinguishedName_1` -/
def relativeDistinguishedNameTy : Ty :=
  .setOf [68] (some 64) attributeTypeAndValueTy

/-- src/asn1/asn1c/RDNSequence.c:31-45 `asn_DEF_RDNSequence`,
src/asn1/asn1c/RDNSequence.c:12-22 `asn_MBR_RDNSequence_1` -/
def rdnSequenceTy : Ty :=
  .setOf [64] (some 68) relativeDistinguishedNameTy

/-- src/asn1/asn1c/Name.c:33-45 `asn_DEF_Name`,
src/asn1/asn1c/Name.c:10-20 `asn_MBR_Name_1`,
src/asn1/asn1c/Name.c:21-23 `asn_MAP_Name_tag2el_1` -/
def nameTy : Ty :=
  .choice [] <|
    .cons ⟨some 64, .none, false, false, [64]⟩ rdnSequenceTy <|
    .nil

/-- src/asn1/asn1c/IssuerAndSerialNumber.c:44-58 `asn_DEF_IssuerAndSerialNumber`,
src/asn1/asn1c/IssuerAndSerialNumber.c:10-29 `asn_MBR_IssuerAndSerialNumber_1`,
src/asn1/asn1c/IssuerAndSerialNumber.c:33-36 `asn_MAP_IssuerAndSerialNumber_tag2el_1` -/
def issuerAndSerialNumberTy : Ty :=
  .seq [64] <|
    .cons ⟨none, .none, false, false, [64]⟩ nameTy <|
    .cons ⟨some 8, .none, false, false, [8]⟩ certificateSerialNumberTy <|
    .nil

/-- src/asn1/asn1c/SignerIdentifier.c:43-55 `asn_DEF_SignerIdentifier`,
src/asn1/asn1c/SignerIdentifier.c:10-29 `asn_MBR_SignerIdentifier_1`,
src/asn1/asn1c/SignerIdentifier.c:30-33 `asn_MAP_SignerIdentifier_tag2el_1` -/
def signerIdentifierTy : Ty :=
  .choice [] <|
    .cons ⟨some 64, .none, false, false, [64]⟩ issuerAndSerialNumberTy <|
    .cons ⟨some 2, .implicit, false, false, [2]⟩ cmsSubjectKeyIdentifierTy <|
    .nil

/-- src/asn1/asn1c/CMSVersion.c:17-30 `asn_DEF_CMSVersion` -/
def cmsVersionTy : Ty :=
  .prim .plain [8]

/-- src/asn1/asn1c/SignerInfo.c:95-109 `asn_DEF_SignerInfo`,
src/asn1/asn1c/SignerInfo.c:10-74 `asn_MBR_SignerInfo_1`,
src/asn1/asn1c/SignerInfo.c:78-87 `asn_MAP_SignerInfo_tag2el_1` -/
def signerInfoTy : Ty :=
  .seq [64] <|
    .cons ⟨some 8, .none, false, false, [8]⟩ cmsVersionTy <|
    .cons ⟨none, .none, false, false, [64, 2]⟩ signerIdentifierTy <|
    .cons ⟨some 64, .none, false, false, [64]⟩ digestAlgorithmIdentifierTy <|
    .cons ⟨some 2, .implicit, true, false, [2]⟩ signedAttributesTy <|
    .cons ⟨some 64, .none, false, false, [64]⟩ signatureAlgorithmIdentifierTy <|
    .cons ⟨some 16, .none, false, false, [16]⟩ signatureValueTy <|
    .cons ⟨some 6, .implicit, true, false, [6]⟩ unsignedAttributesTy <|
    .nil

/-- src/asn1/asn1c/SignerInfos.c:29-43 `asn_DEF_SignerInfos`,
src/asn1/asn1c/SignerInfos.c:10-20 `asn_MBR_SignerInfos_1` -/
def signerInfosTy : Ty :=
  .setOf [68] (some 64) signerInfoTy

/-- src/asn1/asn1c/OtherRevocationInfoFormat.c:43-57 `asn_DEF_OtherRevocationInfoFormat`,
src/asn1/asn1c/OtherRevocationInfoFormat.c:10-29 `asn_MBR_OtherRevocationInfoFormat_1`,
src/asn1/asn1c/OtherRevocationInfoFormat.c:33-35 `asn_MAP_OtherRevocationInfoFormat_tag2el_1` -/
def otherRevocationInfoFormatTy : Ty :=
  .seq [64] <|
    .cons ⟨some 24, .none, false, false, [24]⟩ objectIDENTIFIERTy <|
    .cons ⟨none, .none, false, true, []⟩ anyTy <|
    .nil

/-- src/asn1/asn1c/BIT_STRING.c:34-47 `asn_DEF_BIT_STRING` -/
def bitSTRINGTy : Ty :=
  .str .bits [12] [12]

/-- src/asn1/asn1c/AlgorithmIdentifier.c:43-57 `asn_DEF_AlgorithmIdentifier`,
src/asn1/asn1c/AlgorithmIdentifier.c:10-29 `asn_MBR_AlgorithmIdentifier_1`,
src/asn1/asn1c/AlgorithmIdentifier.c:33-35 `asn_MAP_AlgorithmIdentifier_tag2el_1` -/
def algorithmIdentifierTy : Ty :=
  .seq [64] <|
    .cons ⟨some 24, .none, false, false, [24]⟩ objectIDENTIFIERTy <|
    .cons ⟨none, .none, true, true, []⟩ anyTy <|
    .nil

/-- src/asn1/asn1c/OCTET_STRING.c:42-55 `asn_DEF_OCTET_STRING` -/
def octetSTRINGTy : Ty :=
  .str .octets [16] [16]

/-- src/asn1/asn1c/BOOLEAN.c:27-38 `asn_DEF_BOOLEAN` -/
def booleanTy : Ty :=
  .prim .bool [4]

/-- src/asn1/asn1c/Extension.c:79-93 `asn_DEF_Extension`,
src/asn1/asn1c/Extension.c:34-63 `asn_MBR_Extension_1`,
src/asn1/asn1c/Extension.c:67-71 `asn_MAP_Extension_tag2el_1` -/
def extensionTy : Ty :=
  .seq [64] <|
    .cons ⟨some 24, .none, false, false, [24]⟩ objectIDENTIFIERTy <|
    .cons ⟨some 4, .none, true, false, [4]⟩ booleanTy <|
    .cons ⟨some 16, .none, false, false, [16]⟩ octetSTRINGTy <|
    .nil

/-- src/asn1/asn1c/Extensions.c:31-45 `asn_DEF_Extensions`,
src/asn1/asn1c/Extensions.c:12-22 `asn_MBR_Extensions_1` -/
def extensionsTy : Ty :=
  .setOf [64] (some 64) extensionTy

/-- src/asn1/asn1c/GeneralizedTime.c:68-81 `asn_DEF_GeneralizedTime` -/
def generalizedTimeTy : Ty :=
  .str .octets [96] [96, 104, 16]

/-- src/asn1/asn1c/UTCTime.c:36-49 `asn_DEF_UTCTime` -/
def utcTimeTy : Ty :=
  .str .octets [92] [92, 104, 16]

/-- src/asn1/asn1c/Time.c:43-55 `asn_DEF_Time`,
src/asn1/asn1c/Time.c:10-29 `asn_MBR_Time_1`,
src/asn1/asn1c/Time.c:30-33 `asn_MAP_Time_tag2el_1` -/
def timeTy : Ty :=
  .choice [] <|
    .cons ⟨some 92, .none, false, false, [92]⟩ utcTimeTy <|
    .cons ⟨some 96, .none, false, false, [96]⟩ generalizedTimeTy <|
    .nil

/-- src/asn1/asn1c/TBSCertList.c:58-72 `asn_DEF_Member_8`,
src/asn1/asn1c/TBSCertList.c:12-40 `asn_MBR_Member_8`,
src/asn1/asn1c/TBSCertList.c:44-49 `asn_MAP_Member_tag2el_8` -/
def memberTy : Ty :=
  .seq [64] <|
    .cons ⟨some 8, .none, false, false, [8]⟩ certificateSerialNumberTy <|
    .cons ⟨none, .none, false, false, [92, 96]⟩ timeTy <|
    .cons ⟨some 64, .none, true, false, [64]⟩ extensionsTy <|
    .nil

/-- src/asn1/asn1c/TBSCertList.c:94-108 `asn_DEF_revokedCertificates_7`,
src/asn1/asn1c/TBSCertList.c:74-84 `asn_MBR_revokedCertificates_7` -/
def revokedCertificatesTy : Ty :=
  .setOf [64] (some 64) memberTy

/-- src/asn1/asn1c/Version.c:17-30 `asn_DEF_Version` -/
def versionTy : Ty :=
  .prim .plain [8]

/-- src/asn1/asn1c/TBSCertList.c:196-210 `asn_DEF_TBSCertList`,
src/asn1/asn1c/TBSCertList.c:110-174 `asn_MBR_TBSCertList_1`,
src/asn1/asn1c/TBSCertList.c:178-188 `asn_MAP_TBSCertList_tag2el_1` -/
def tbsCertListTy : Ty :=
  .seq [64] <|
    .cons ⟨some 8, .none, true, false, [8]⟩ versionTy <|
    .cons ⟨some 64, .none, false, false, [64]⟩ algorithmIdentifierTy <|
    .cons ⟨none, .none, false, false, [64]⟩ nameTy <|
    .cons ⟨none, .none, false, false, [92, 96]⟩ timeTy <|
    .cons ⟨none, .none, true, false, [92, 96]⟩ timeTy <|
    .cons ⟨some 64, .none, true, false, [64]⟩ revokedCertificatesTy <|
    .cons ⟨some 2, .explicit, true, false, [2]⟩ extensionsTy <|
    .nil

/-- src/asn1/asn1c/CertificateList.c:54-68 `asn_DEF_CertificateList`,
src/asn1/asn1c/CertificateList.c:10-38 `asn_MBR_CertificateList_1`,
src/asn1/asn1c/CertificateList.c:42-46 `asn_MAP_CertificateList_tag2el_1` -/
def certificateListTy : Ty :=
  .seq [64] <|
    .cons ⟨some 64, .none, false, false, [64]⟩ tbsCertListTy <|
    .cons ⟨some 64, .none, false, false, [64]⟩ algorithmIdentifierTy <|
    .cons ⟨some 12, .none, false, false, [12]⟩ bitSTRINGTy <|
    .nil

/-- src/asn1/asn1c/RevocationInfoChoice.c:43-55 `asn_DEF_RevocationInfoChoice`,
src/asn1/asn1c/RevocationInfoChoice.c:10-29 `asn_MBR_RevocationInfoChoice_1`,
src/asn1/asn1c/RevocationInfoChoice.c:30-33 `asn_MAP_RevocationInfoChoice_tag2el_1` -/
def revocationInfoChoiceTy : Ty :=
  .choice [] <|
    .cons ⟨some 64, .none, false, false, [64]⟩ certificateListTy <|
    .cons ⟨some 6, .implicit, false, false, [6]⟩ otherRevocationInfoFormatTy <|
    .nil

/-- src/asn1/asn1c/RevocationInfoChoices.c:29-43 `asn_DEF_RevocationInfoChoices`,
src/asn1/asn1c/RevocationInfoChoices.c:10-20 `asn_MBR_RevocationInfoChoices_1` -/
def revocationInfoChoicesTy : Ty :=
  .setOf [68] none revocationInfoChoiceTy

/-- src/asn1/asn1c/CertificateSet.c:73-87 `asn_DEF_CertificateSet`,
src/asn1/asn1c/CertificateSet.c:54-64 `asn_MBR_CertificateSet_1` -/
def certificateSetTy : Ty :=
  .setOf [68] none anyTy

/-- src/asn1/asn1c/EncapsulatedContentInfo.c:105-119 `asn_DEF_EncapsulatedContentInfo`,
src/asn1/asn1c/EncapsulatedContentInfo.c:71-90 `asn_MBR_EncapsulatedContentInfo_1`,
src/asn1/asn1c/EncapsulatedContentInfo.c:94-97 `asn_MAP_EncapsulatedContentInfo_tag2el_1` -/
def encapsulatedContentInfoTy : Ty :=
  .seq [64] <|
    .cons ⟨some 24, .none, false, false, [24]⟩ contentTypeTy <|
    .cons ⟨some 2, .explicit, true, false, [2]⟩ octetSTRINGTy <|
    .nil

/-- src/asn1/asn1c/DigestAlgorithmIdentifiers.c:31-45 `asn_DEF_DigestAlgorithmIdentifiers`,
src/asn1/asn1c/DigestAlgorithmIdentifiers.c:12-22 `asn_MBR_DigestAlgorithmIdentifiers_1` -/
def digestAlgorithmIdentifiersTy : Ty :=
  .setOf [68] (some 64) digestAlgorithmIdentifierTy

/-- src/asn1/asn1c/SignedData.c:84-98 `asn_DEF_SignedData`,
src/asn1/asn1c/SignedData.c:10-65 `asn_MBR_SignedData_1`,
src/asn1/asn1c/SignedData.c:69-76 `asn_MAP_SignedData_tag2el_1` -/
def signedDataTy : Ty :=
  .seq [64] <|
    .cons ⟨some 8, .none, false, false, [8]⟩ cmsVersionTy <|
    .cons ⟨some 68, .none, false, false, [68]⟩ digestAlgorithmIdentifiersTy <|
    .cons ⟨some 64, .none, false, false, [64]⟩ encapsulatedContentInfoTy <|
    .cons ⟨some 2, .implicit, true, false, [2]⟩ certificateSetTy <|
    .cons ⟨some 6, .implicit, true, false, [6]⟩ revocationInfoChoicesTy <|
    .cons ⟨some 68, .none, false, false, [68]⟩ signerInfosTy <|
    .nil

/-- src/asn1/asn1c/EncapsulatedContentInfoPKCS7.c:44-58 `asn_DEF_EncapsulatedContentInfoPKCS7`,
src/asn1/asn1c/EncapsulatedContentInfoPKCS7.c:10-29 `asn_MBR_EncapsulatedContentInfoPKCS7_1`,
src/asn1/asn1c/EncapsulatedContentInfoPKCS7.c:33-36 `asn_MAP_EncapsulatedContentInfoPKCS7_tag2el_1` -/
def encapsulatedContentInfoPKCS7Ty : Ty :=
  .seq [64] <|
    .cons ⟨some 24, .none, false, false, [24]⟩ contentTypeTy <|
    .cons ⟨some 2, .explicit, true, false, [2]⟩ anyTy <|
    .nil

/-- src/asn1/asn1c/SignedDataPKCS7.c:84-98 `asn_DEF_SignedDataPKCS7`,
src/asn1/asn1c/SignedDataPKCS7.c:10-65 `asn_MBR_SignedDataPKCS7_1`,
src/asn1/asn1c/SignedDataPKCS7.c:69-76 `asn_MAP_SignedDataPKCS7_tag2el_1` -/
def signedDataPKCS7Ty : Ty :=
  .seq [64] <|
    .cons ⟨some 8, .none, false, false, [8]⟩ cmsVersionTy <|
    .cons ⟨some 68, .none, false, false, [68]⟩ digestAlgorithmIdentifiersTy <|
    .cons ⟨some 64, .none, false, false, [64]⟩ encapsulatedContentInfoPKCS7Ty <|
    .cons ⟨some 2, .implicit, true, false, [2]⟩ certificateSetTy <|
    .cons ⟨some 6, .implicit, true, false, [6]⟩ revocationInfoChoicesTy <|
    .cons ⟨some 68, .none, false, false, [68]⟩ signerInfosTy <|
    .nil

/-- src/asn1/asn1c/MessageDigest.c:17-30 `asn_DEF_MessageDigest` -/
def messageDigestTy : Ty :=
  .str .octets [16] [16]

/-- src/asn1/asn1c/ContentTypePKCS7.c:17-30 `asn_DEF_ContentTypePKCS7` -/
def contentTypePKCS7Ty : Ty :=
  .str .octets [16] [16]

/-- src/asn1/asn1c/INTEGER.c:30-41 `asn_DEF_INTEGER` -/
def integerTy : Ty :=
  .prim .plain [8]

/-- src/asn1/asn1c/IPAddress.c:17-30 `asn_DEF_IPAddress` -/
def ipAddressTy : Ty :=
  .str .bits [12] [12]

/-- src/asn1/asn1c/ROAIPAddress.c:44-58 `asn_DEF_ROAIPAddress`,
src/asn1/asn1c/ROAIPAddress.c:10-29 `asn_MBR_ROAIPAddress_1`,
src/asn1/asn1c/ROAIPAddress.c:33-36 `asn_MAP_ROAIPAddress_tag2el_1` -/
def roaipAddressTy : Ty :=
  .seq [64] <|
    .cons ⟨some 12, .none, false, false, [12]⟩ ipAddressTy <|
    .cons ⟨some 8, .none, true, false, [8]⟩ integerTy <|
    .nil

/-- src/asn1/asn1c/ROAIPAddressFamily.c:199-213 `asn_DEF_addresses_3`,
src/asn1/asn1c/ROAIPAddressFamily.c:179-189 `asn_MBR_addresses_3` -/
def addressesTy : Ty :=
  .setOf [64] (some 64) roaipAddressTy

/-- src/asn1/asn1c/ROAIPAddressFamily.c:249-263 `asn_DEF_ROAIPAddressFamily`,
src/asn1/asn1c/ROAIPAddressFamily.c:215-234 `asn_MBR_ROAIPAddressFamily_1`,
src/asn1/asn1c/ROAIPAddressFamily.c:238-241 `asn_MAP_ROAIPAddressFamily_tag2el_1` -/
def roaipAddressFamilyTy : Ty :=
  .seq [64] <|
    .cons ⟨some 16, .none, false, false, [16]⟩ octetSTRINGTy <|
    .cons ⟨some 64, .none, false, false, [64]⟩ addressesTy <|
    .nil

/-- src/asn1/asn1c/RouteOriginAttestation.c:83-97 `asn_DEF_ipAddrBlocks_4`,
src/asn1/asn1c/RouteOriginAttestation.c:63-73 `asn_MBR_ipAddrBlocks_4` -/
def ipAddrBlocksTy : Ty :=
  .setOf [64] (some 64) roaipAddressFamilyTy

/-- src/asn1/asn1c/ASId.c:17-30 `asn_DEF_ASId` -/
def asIdTy : Ty :=
  .prim .plain [8]

/-- src/asn1/asn1c/RouteOriginAttestation.c:144-158 `asn_DEF_RouteOriginAttestation`,
src/asn1/asn1c/RouteOriginAttestation.c:99-128 `asn_MBR_RouteOriginAttestation_1`,
src/asn1/asn1c/RouteOriginAttestation.c:132-136 `asn_MAP_RouteOriginAttestation_tag2el_1` -/
def routeOriginAttestationTy : Ty :=
  .seq [64] <|
    .cons ⟨some 2, .explicit, true, false, [2]⟩ integerTy <|
    .cons ⟨some 8, .none, false, false, [8]⟩ asIdTy <|
    .cons ⟨some 64, .none, false, false, [64]⟩ ipAddrBlocksTy <|
    .nil

/-- src/asn1/asn1c/IA5String.c:24-37 `asn_DEF_IA5String` -/
def ia5StringTy : Ty :=
  .str .octets [88] [88, 16]

/-- src/asn1/asn1c/FileAndHash.c:44-58 `asn_DEF_FileAndHash`,
src/asn1/asn1c/FileAndHash.c:10-29 `asn_MBR_FileAndHash_1`,
src/asn1/asn1c/FileAndHash.c:33-36 `asn_MAP_FileAndHash_tag2el_1` -/
def fileAndHashTy : Ty :=
  .seq [64] <|
    .cons ⟨some 88, .none, false, false, [88]⟩ ia5StringTy <|
    .cons ⟨some 12, .none, false, false, [12]⟩ bitSTRINGTy <|
    .nil

/-- src/asn1/asn1c/Manifest.c:103-117 `asn_DEF_fileList_7`,
src/asn1/asn1c/Manifest.c:83-93 `asn_MBR_fileList_7` -/
def fileListTy : Ty :=
  .setOf [64] (some 64) fileAndHashTy

/-- src/asn1/asn1c/Manifest.c:194-208 `asn_DEF_Manifest`,
src/asn1/asn1c/Manifest.c:119-175 `asn_MBR_Manifest_1`,
src/asn1/asn1c/Manifest.c:179-186 `asn_MAP_Manifest_tag2el_1` -/
def manifestTy : Ty :=
  .seq [64] <|
    .cons ⟨some 2, .explicit, true, false, [2]⟩ integerTy <|
    .cons ⟨some 8, .none, false, false, [8]⟩ integerTy <|
    .cons ⟨some 96, .none, false, false, [96]⟩ generalizedTimeTy <|
    .cons ⟨some 96, .none, false, false, [96]⟩ generalizedTimeTy <|
    .cons ⟨some 24, .none, false, false, [24]⟩ objectIDENTIFIERTy <|
    .cons ⟨some 64, .none, false, false, [64]⟩ fileListTy <|
    .nil

/-- src/asn1/asn1c/IPAddressRange.c:44-58 `asn_DEF_IPAddressRange`,
src/asn1/asn1c/IPAddressRange.c:10-29 `asn_MBR_IPAddressRange_1`,
src/asn1/asn1c/IPAddressRange.c:33-36 `asn_MAP_IPAddressRange_tag2el_1` -/
def ipAddressRangeTy : Ty :=
  .seq [64] <|
    .cons ⟨some 12, .none, false, false, [12]⟩ ipAddressTy <|
    .cons ⟨some 12, .none, false, false, [12]⟩ ipAddressTy <|
    .nil

/-- src/asn1/asn1c/IPAddressOrRange.c:43-55 `asn_DEF_IPAddressOrRange`,
src/asn1/asn1c/IPAddressOrRange.c:10-29 `asn_MBR_IPAddressOrRange_1`,
src/asn1/asn1c/IPAddressOrRange.c:30-33 `asn_MAP_IPAddressOrRange_tag2el_1` -/
def ipAddressOrRangeTy : Ty :=
  .choice [] <|
    .cons ⟨some 12, .none, false, false, [12]⟩ ipAddressTy <|
    .cons ⟨some 64, .none, false, false, [64]⟩ ipAddressRangeTy <|
    .nil

/-- src/asn1/asn1c/IPAddressChoice.c:32-46 `asn_DEF_addressesOrRanges_3`,
src/asn1/asn1c/IPAddressChoice.c:12-22 `asn_MBR_addressesOrRanges_3` -/
def addressesOrRangesTy : Ty :=
  .setOf [64] none ipAddressOrRangeTy

/-- src/asn1/asn1c/NULL.c:27-38 `asn_DEF_NULL` -/
def nullTy : Ty :=
  .prim .null [20]

/-- src/asn1/asn1c/IPAddressChoice.c:81-93 `asn_DEF_IPAddressChoice`,
src/asn1/asn1c/IPAddressChoice.c:48-67 `asn_MBR_IPAddressChoice_1`,
src/asn1/asn1c/IPAddressChoice.c:68-71 `asn_MAP_IPAddressChoice_tag2el_1` -/
def ipAddressChoiceTy : Ty :=
  .choice [] <|
    .cons ⟨some 20, .none, false, false, [20]⟩ nullTy <|
    .cons ⟨some 64, .none, false, false, [64]⟩ addressesOrRangesTy <|
    .nil

/-- src/asn1/asn1c/IPAddressFamily.c:71-85 `asn_DEF_IPAddressFamily`,
src/asn1/asn1c/IPAddressFamily.c:36-55 `asn_MBR_IPAddressFamily_1`,
src/asn1/asn1c/IPAddressFamily.c:59-63 `asn_MAP_IPAddressFamily_tag2el_1` -/
def ipAddressFamilyTy : Ty :=
  .seq [64] <|
    .cons ⟨some 16, .none, false, false, [16]⟩ octetSTRINGTy <|
    .cons ⟨none, .none, false, false, [20, 64]⟩ ipAddressChoiceTy <|
    .nil

/-- src/asn1/asn1c/IPAddrBlocks.c:31-45 `asn_DEF_IPAddrBlocks`,
src/asn1/asn1c/IPAddrBlocks.c:12-22 `asn_MBR_IPAddrBlocks_1` -/
def ipAddrBlocksExtTy : Ty :=
  .setOf [64] (some 64) ipAddressFamilyTy

/-- src/asn1/asn1c/ASRange.c:44-58 `asn_DEF_ASRange`,
src/asn1/asn1c/ASRange.c:10-29 `asn_MBR_ASRange_1`,
src/asn1/asn1c/ASRange.c:33-36 `asn_MAP_ASRange_tag2el_1` -/
def asRangeTy : Ty :=
  .seq [64] <|
    .cons ⟨some 8, .none, false, false, [8]⟩ asIdTy <|
    .cons ⟨some 8, .none, false, false, [8]⟩ asIdTy <|
    .nil

/-- src/asn1/asn1c/ASIdOrRange.c:43-55 `asn_DEF_ASIdOrRange`,
src/asn1/asn1c/ASIdOrRange.c:10-29 `asn_MBR_ASIdOrRange_1`,
src/asn1/asn1c/ASIdOrRange.c:30-33 `asn_MAP_ASIdOrRange_tag2el_1` -/
def asIdOrRangeTy : Ty :=
  .choice [] <|
    .cons ⟨some 8, .none, false, false, [8]⟩ asIdTy <|
    .cons ⟨some 64, .none, false, false, [64]⟩ asRangeTy <|
    .nil

/-- src/asn1/asn1c/ASIdentifierChoice.c:32-46 `asn_DEF_asIdsOrRanges_3`,
src/asn1/asn1c/ASIdentifierChoice.c:12-22 `asn_MBR_asIdsOrRanges_3` -/
def asIdsOrRangesTy : Ty :=
  .setOf [64] none asIdOrRangeTy

/-- src/asn1/asn1c/ASIdentifierChoice.c:81-93 `asn_DEF_ASIdentifierChoice`,
src/asn1/asn1c/ASIdentifierChoice.c:48-67 `asn_MBR_ASIdentifierChoice_1`,
src/asn1/asn1c/ASIdentifierChoice.c:68-71 `asn_MAP_ASIdentifierChoice_tag2el_1` -/
def asIdentifierChoiceTy : Ty :=
  .choice [] <|
    .cons ⟨some 20, .none, false, false, [20]⟩ nullTy <|
    .cons ⟨some 64, .none, false, false, [64]⟩ asIdsOrRangesTy <|
    .nil

/-- src/asn1/asn1c/ASIdentifiers.c:44-58 `asn_DEF_ASIdentifiers`,
src/asn1/asn1c/ASIdentifiers.c:10-29 `asn_MBR_ASIdentifiers_1`,
src/asn1/asn1c/ASIdentifiers.c:33-36 `asn_MAP_ASIdentifiers_tag2el_1` -/
def asIdentifiersTy : Ty :=
  .seq [64] <|
    .cons ⟨some 2, .explicit, true, false, [2]⟩ asIdentifierChoiceTy <|
    .cons ⟨some 6, .explicit, true, false, [6]⟩ asIdentifierChoiceTy <|
    .nil

end Verif.Asn
