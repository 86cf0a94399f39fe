import Verif.Asn.ModelCon
/-
The constraints of the types that are decoded. Generated by tools/asn_gen.py from the type descriptors.
-/
namespace Verif.Asn

/-- src/asn1/asn1c/ANY.c:31-39 `asn_DEF_ANY` -/
def anyCon : Con :=
  .none

/-- src/asn1/asn1c/ContentType.c:17-30 `asn_DEF_ContentType` -/
def contentTypeCon : Con :=
  .oid

/-- src/asn1/asn1c/ContentInfo.c:95-109 `asn_DEF_ContentInfo` -/
def contentInfoCon : Con :=
  .seq <|
    .cons false false contentTypeCon <|
    .cons false false anyCon <|
    .nil

/-- src/asn1/asn1c/CMSAttributeValue.c:14-25 `asn_DEF_CMSAttributeValue` -/
def cmsAttributeValueCon : Con :=
  .none

/-- src/asn1/asn1c/CMSAttribute.c:98-112 `asn_DEF_attrValues_3` -/
def attrValuesCon : Con :=
  .setOf cmsAttributeValueCon

/-- src/asn1/asn1c/OBJECT_IDENTIFIER.c:34-47 `asn_DEF_OBJECT_IDENTIFIER` -/
def objectIDENTIFIERCon : Con :=
  .oid

/-- src/asn1/asn1c/CMSAttribute.c:148-162 `asn_DEF_CMSAttribute` -/
def cmsAttributeCon : Con :=
  .seq <|
    .cons false false objectIDENTIFIERCon <|
    .cons false false attrValuesCon <|
    .nil

/-- src/asn1/asn1c/UnsignedAttributes.c:29-43 `asn_DEF_UnsignedAttributes` -/
def unsignedAttributesCon : Con :=
  .setOf cmsAttributeCon

/-- src/asn1/asn1c/SignatureValue.c:17-30 `asn_DEF_SignatureValue` -/
def signatureValueCon : Con :=
  .none

/-- src/asn1/asn1c/SignatureAlgorithmIdentifier.c:17-31 `asn_DEF_SignatureAlgorithmIdentifier` -/
def signatureAlgorithmIdentifierCon : Con :=
  .seq <|
    .cons false false objectIDENTIFIERCon <|
    .cons true false anyCon <|
    .nil

/-- src/asn1/asn1c/SignedAttributes.c:29-43 `asn_DEF_SignedAttributes` -/
def signedAttributesCon : Con :=
  .setOf cmsAttributeCon

/-- src/asn1/asn1c/DigestAlgorithmIdentifier.c:17-31 `asn_DEF_DigestAlgorithmIdentifier` -/
def digestAlgorithmIdentifierCon : Con :=
  .seq <|
    .cons false false objectIDENTIFIERCon <|
    .cons true false anyCon <|
    .nil

/-- src/asn1/asn1c/CMSSubjectKeyIdentifier.c:17-30 `asn_DEF_CMSSubjectKeyIdentifier` -/
def cmsSubjectKeyIdentifierCon : Con :=
  .none

/-- src/asn1/asn1c/CertificateSerialNumber.c:17-30 `asn_DEF_CertificateSerialNumber` -/
def certificateSerialNumberCon : Con :=
  .none

/-- src/asn1/asn1c/AttributeValue.c:14-25 `asn_DEF_AttributeValue` -/
def attributeValueCon : Con :=
  .none

/-- src/asn1/asn1c/AttributeType.c:17-30 `asn_DEF_AttributeType` -/
def attributeTypeCon : Con :=
  .oid

/-- src/asn1/asn1c/AttributeTypeAndValue.c:43-57 `asn_DEF_AttributeTypeAndValue` -/
def attributeTypeAndValueCon : Con :=
  .seq <|
    .cons false false attributeTypeCon <|
    .cons false false attributeValueCon <|
    .nil

/-- src/asn1/asn1c/RelativeDistinguishedName.c:29-43 `asn_DEF_RelativeDistinguishedName` -/
def relativeDistinguishedNameCon : Con :=
  .setOf attributeTypeAndValueCon

/-- src/asn1/asn1c/RDNSequence.c:31-45 `asn_DEF_RDNSequence` -/
def rdnSequenceCon : Con :=
  .setOf relativeDistinguishedNameCon

/-- src/asn1/asn1c/Name.c:33-45 `asn_DEF_Name` -/
def nameCon : Con :=
  .choice <|
    .cons false false rdnSequenceCon <|
    .nil

/-- src/asn1/asn1c/IssuerAndSerialNumber.c:44-58 `asn_DEF_IssuerAndSerialNumber` -/
def issuerAndSerialNumberCon : Con :=
  .seq <|
    .cons false false nameCon <|
    .cons false false certificateSerialNumberCon <|
    .nil

/-- src/asn1/asn1c/SignerIdentifier.c:43-55 `asn_DEF_SignerIdentifier` -/
def signerIdentifierCon : Con :=
  .choice <|
    .cons false false issuerAndSerialNumberCon <|
    .cons false false cmsSubjectKeyIdentifierCon <|
    .nil

/-- src/asn1/asn1c/CMSVersion.c:17-30 `asn_DEF_CMSVersion` -/
def cmsVersionCon : Con :=
  .none

/-- src/asn1/asn1c/SignerInfo.c:95-109 `asn_DEF_SignerInfo` -/
def signerInfoCon : Con :=
  .seq <|
    .cons false false cmsVersionCon <|
    .cons false false signerIdentifierCon <|
    .cons false false digestAlgorithmIdentifierCon <|
    .cons true false signedAttributesCon <|
    .cons false false signatureAlgorithmIdentifierCon <|
    .cons false false signatureValueCon <|
    .cons true false unsignedAttributesCon <|
    .nil

/-- src/asn1/asn1c/SignerInfos.c:29-43 `asn_DEF_SignerInfos` -/
def signerInfosCon : Con :=
  .setOf signerInfoCon

/-- src/asn1/asn1c/OtherRevocationInfoFormat.c:43-57 `asn_DEF_OtherRevocationInfoFormat` -/
def otherRevocationInfoFormatCon : Con :=
  .seq <|
    .cons false false objectIDENTIFIERCon <|
    .cons false false anyCon <|
    .nil

/-- src/asn1/asn1c/BIT_STRING.c:34-47 `asn_DEF_BIT_STRING` -/
def bitSTRINGCon : Con :=
  .bits

/-- src/asn1/asn1c/AlgorithmIdentifier.c:43-57 `asn_DEF_AlgorithmIdentifier` -/
def algorithmIdentifierCon : Con :=
  .seq <|
    .cons false false objectIDENTIFIERCon <|
    .cons true false anyCon <|
    .nil

/-- src/asn1/asn1c/OCTET_STRING.c:42-55 `asn_DEF_OCTET_STRING` -/
def octetSTRINGCon : Con :=
  .none

/-- src/asn1/asn1c/BOOLEAN.c:27-38 `asn_DEF_BOOLEAN` -/
def booleanCon : Con :=
  .none

/-- src/asn1/asn1c/Extension.c:79-93 `asn_DEF_Extension` -/
def extensionCon : Con :=
  .seq <|
    .cons false false objectIDENTIFIERCon <|
    .cons true false booleanCon <|
    .cons false false octetSTRINGCon <|
    .nil

/-- src/asn1/asn1c/Extensions.c:31-45 `asn_DEF_Extensions` -/
def extensionsCon : Con :=
  .setOf extensionCon

/-- src/asn1/asn1c/GeneralizedTime.c:68-81 `asn_DEF_GeneralizedTime` -/
def generalizedTimeCon : Con :=
  .gtime

/-- src/asn1/asn1c/UTCTime.c:36-49 `asn_DEF_UTCTime` -/
def utcTimeCon : Con :=
  .utime

/-- src/asn1/asn1c/Time.c:43-55 `asn_DEF_Time` -/
def timeCon : Con :=
  .choice <|
    .cons false false utcTimeCon <|
    .cons false false generalizedTimeCon <|
    .nil

/-- src/asn1/asn1c/TBSCertList.c:58-72 `asn_DEF_Member_8` -/
def memberCon : Con :=
  .seq <|
    .cons false false certificateSerialNumberCon <|
    .cons false false timeCon <|
    .cons true false extensionsCon <|
    .nil

/-- src/asn1/asn1c/TBSCertList.c:94-108 `asn_DEF_revokedCertificates_7` -/
def revokedCertificatesCon : Con :=
  .setOf memberCon

/-- src/asn1/asn1c/Version.c:17-30 `asn_DEF_Version` -/
def versionCon : Con :=
  .none

/-- src/asn1/asn1c/TBSCertList.c:196-210 `asn_DEF_TBSCertList` -/
def tbsCertListCon : Con :=
  .seq <|
    .cons true false versionCon <|
    .cons false false algorithmIdentifierCon <|
    .cons false false nameCon <|
    .cons false false timeCon <|
    .cons true false timeCon <|
    .cons true false revokedCertificatesCon <|
    .cons true false extensionsCon <|
    .nil

/-- src/asn1/asn1c/CertificateList.c:54-68 `asn_DEF_CertificateList` -/
def certificateListCon : Con :=
  .seq <|
    .cons false false tbsCertListCon <|
    .cons false false algorithmIdentifierCon <|
    .cons false false bitSTRINGCon <|
    .nil

/-- src/asn1/asn1c/RevocationInfoChoice.c:43-55 `asn_DEF_RevocationInfoChoice` -/
def revocationInfoChoiceCon : Con :=
  .choice <|
    .cons false false certificateListCon <|
    .cons false false otherRevocationInfoFormatCon <|
    .nil

/-- src/asn1/asn1c/RevocationInfoChoices.c:29-43 `asn_DEF_RevocationInfoChoices` -/
def revocationInfoChoicesCon : Con :=
  .setOf revocationInfoChoiceCon

/-- src/asn1/asn1c/CertificateSet.c:73-87 `asn_DEF_CertificateSet` -/
def certificateSetCon : Con :=
  .setOf anyCon

/-- src/asn1/asn1c/EncapsulatedContentInfo.c:105-119 `asn_DEF_EncapsulatedContentInfo` -/
def encapsulatedContentInfoCon : Con :=
  .seq <|
    .cons false false contentTypeCon <|
    .cons true false octetSTRINGCon <|
    .nil

/-- src/asn1/asn1c/DigestAlgorithmIdentifiers.c:31-45 `asn_DEF_DigestAlgorithmIdentifiers` -/
def digestAlgorithmIdentifiersCon : Con :=
  .setOf digestAlgorithmIdentifierCon

/-- src/asn1/asn1c/SignedData.c:84-98 `asn_DEF_SignedData` -/
def signedDataCon : Con :=
  .seq <|
    .cons false false cmsVersionCon <|
    .cons false false digestAlgorithmIdentifiersCon <|
    .cons false false encapsulatedContentInfoCon <|
    .cons true false certificateSetCon <|
    .cons true false revocationInfoChoicesCon <|
    .cons false false signerInfosCon <|
    .nil

/-- src/asn1/asn1c/EncapsulatedContentInfoPKCS7.c:44-58 `asn_DEF_EncapsulatedContentInfoPKCS7` -/
def encapsulatedContentInfoPKCS7Con : Con :=
  .seq <|
    .cons false false contentTypeCon <|
    .cons true false anyCon <|
    .nil

/-- src/asn1/asn1c/SignedDataPKCS7.c:84-98 `asn_DEF_SignedDataPKCS7` -/
def signedDataPKCS7Con : Con :=
  .seq <|
    .cons false false cmsVersionCon <|
    .cons false false digestAlgorithmIdentifiersCon <|
    .cons false false encapsulatedContentInfoPKCS7Con <|
    .cons true false certificateSetCon <|
    .cons true false revocationInfoChoicesCon <|
    .cons false false signerInfosCon <|
    .nil

/-- src/asn1/asn1c/MessageDigest.c:17-30 `asn_DEF_MessageDigest` -/
def messageDigestCon : Con :=
  .none

/-- src/asn1/asn1c/ContentTypePKCS7.c:17-30 `asn_DEF_ContentTypePKCS7` -/
def contentTypePKCS7Con : Con :=
  .none

/-- src/asn1/asn1c/INTEGER.c:30-41 `asn_DEF_INTEGER` -/
def integerCon : Con :=
  .none

/-- src/asn1/asn1c/IPAddress.c:17-30 `asn_DEF_IPAddress` -/
def ipAddressCon : Con :=
  .bits

/-- src/asn1/asn1c/ROAIPAddress.c:44-58 `asn_DEF_ROAIPAddress` -/
def roaipAddressCon : Con :=
  .seq <|
    .cons false false ipAddressCon <|
    .cons true false integerCon <|
    .nil

/-- src/asn1/asn1c/ROAIPAddressFamily.c:199-213 `asn_DEF_addresses_3` -/
def addressesCon : Con :=
  .setOf roaipAddressCon

/-- src/asn1/asn1c/ROAIPAddressFamily.c:249-263 `asn_DEF_ROAIPAddressFamily`,
src/asn1/asn1c/ROAIPAddressFamily.c:153-177 `memb_addresses_constraint_1`,
src/asn1/asn1c/ROAIPAddressFamily.c:127-151 `memb_addressFamily_constraint_1` -/
def roaipAddressFamilyCon : Con :=
  .seq <|
    .cons false true (.size 2 3) <|
    .cons false true (.filled addressesCon) <|
    .nil

/-- src/asn1/asn1c/RouteOriginAttestation.c:83-97 `asn_DEF_ipAddrBlocks_4` -/
def ipAddrBlocksCon : Con :=
  .setOf roaipAddressFamilyCon

/-- src/asn1/asn1c/ASId.c:17-30 `asn_DEF_ASId` -/
def asIdCon : Con :=
  .none

/-- src/asn1/asn1c/RouteOriginAttestation.c:144-158 `asn_DEF_RouteOriginAttestation`,
src/asn1/asn1c/RouteOriginAttestation.c:13-37 `memb_ipAddrBlocks_constraint_1` -/
def routeOriginAttestationCon : Con :=
  .seq <|
    .cons true false integerCon <|
    .cons false false asIdCon <|
    .cons false true (.filled ipAddrBlocksCon) <|
    .nil

/-- src/asn1/asn1c/IA5String.c:24-37 `asn_DEF_IA5String` -/
def ia5StringCon : Con :=
  .ia5

/-- src/asn1/asn1c/FileAndHash.c:44-58 `asn_DEF_FileAndHash` -/
def fileAndHashCon : Con :=
  .seq <|
    .cons false false ia5StringCon <|
    .cons false false bitSTRINGCon <|
    .nil

/-- src/asn1/asn1c/Manifest.c:103-117 `asn_DEF_fileList_7` -/
def fileListCon : Con :=
  .setOf fileAndHashCon

/-- src/asn1/asn1c/Manifest.c:194-208 `asn_DEF_Manifest`,
src/asn1/asn1c/Manifest.c:40-57 `memb_fileList_constraint_1`,
src/asn1/asn1c/Manifest.c:13-38 `memb_manifestNumber_constraint_1` -/
def manifestCon : Con :=
  .seq <|
    .cons true false integerCon <|
    .cons false true .nonneg <|
    .cons false false generalizedTimeCon <|
    .cons false false generalizedTimeCon <|
    .cons false false objectIDENTIFIERCon <|
    .cons false true (.same fileListCon) <|
    .nil

/-- src/asn1/asn1c/IPAddressRange.c:44-58 `asn_DEF_IPAddressRange` -/
def ipAddressRangeCon : Con :=
  .seq <|
    .cons false false ipAddressCon <|
    .cons false false ipAddressCon <|
    .nil

/-- src/asn1/asn1c/IPAddressOrRange.c:43-55 `asn_DEF_IPAddressOrRange` -/
def ipAddressOrRangeCon : Con :=
  .choice <|
    .cons false false ipAddressCon <|
    .cons false false ipAddressRangeCon <|
    .nil

/-- src/asn1/asn1c/IPAddressChoice.c:32-46 `asn_DEF_addressesOrRanges_3` -/
def addressesOrRangesCon : Con :=
  .setOf ipAddressOrRangeCon

/-- src/asn1/asn1c/NULL.c:27-38 `asn_DEF_NULL` -/
def nullCon : Con :=
  .none

/-- src/asn1/asn1c/IPAddressChoice.c:81-93 `asn_DEF_IPAddressChoice` -/
def ipAddressChoiceCon : Con :=
  .choice <|
    .cons false false nullCon <|
    .cons false false addressesOrRangesCon <|
    .nil

/-- src/asn1/asn1c/IPAddressFamily.c:71-85 `asn_DEF_IPAddressFamily`,
src/asn1/asn1c/IPAddressFamily.c:10-34 `memb_addressFamily_constraint_1` -/
def ipAddressFamilyCon : Con :=
  .seq <|
    .cons false true (.size 2 3) <|
    .cons false false ipAddressChoiceCon <|
    .nil

/-- src/asn1/asn1c/IPAddrBlocks.c:31-45 `asn_DEF_IPAddrBlocks` -/
def ipAddrBlocksExtCon : Con :=
  .setOf ipAddressFamilyCon

/-- src/asn1/asn1c/ASRange.c:44-58 `asn_DEF_ASRange` -/
def asRangeCon : Con :=
  .seq <|
    .cons false false asIdCon <|
    .cons false false asIdCon <|
    .nil

/-- src/asn1/asn1c/ASIdOrRange.c:43-55 `asn_DEF_ASIdOrRange` -/
def asIdOrRangeCon : Con :=
  .choice <|
    .cons false false asIdCon <|
    .cons false false asRangeCon <|
    .nil

/-- src/asn1/asn1c/ASIdentifierChoice.c:32-46 `asn_DEF_asIdsOrRanges_3` -/
def asIdsOrRangesCon : Con :=
  .setOf asIdOrRangeCon

/-- src/asn1/asn1c/ASIdentifierChoice.c:81-93 `asn_DEF_ASIdentifierChoice` -/
def asIdentifierChoiceCon : Con :=
  .choice <|
    .cons false false nullCon <|
    .cons false false asIdsOrRangesCon <|
    .nil

/-- src/asn1/asn1c/ASIdentifiers.c:44-58 `asn_DEF_ASIdentifiers` -/
def asIdentifiersCon : Con :=
  .seq <|
    .cons true false asIdentifierChoiceCon <|
    .cons true false asIdentifierChoiceCon <|
    .nil

end Verif.Asn
