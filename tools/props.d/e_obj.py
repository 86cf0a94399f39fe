p("C176","Routers are told what ROAs say",
 "A ROA whose content an issuer wrote as RFC 6482 and DER prescribe, in a correct signed object, is accepted if and only if all its prefixes belong to its certificate; then it yields exactly one VRP for each prefix, with the AS number, the prefix and the maximum length that the issuer meant.", "all ROAs, all resources of the certificate, all bytes that follow", "All objects, of all sizes, through decoder and validation.",
 ["src/object/roa.c:decode_roa","src/object/roa.c:handle_roa_v4","src/object/roa.c:handle_roa_v6","src/object/roa.c:roa_traverse","src/asn1/decode.c:asn1_decode"], "An encoder (SpecEnc, SpecObj) independent of the code; its output is DER of the generated types, so C172 applies; then C21 and C26.")
p("C177","Bits after the length of a prefix",
 "A ROA whose prefix has bits set after its length is refused.", "all ROAs", "All inputs.",
 ["src/object/roa.c:handle_roa_v4","src/types/address.c:prefix4_decode","src/asn1/asn1c/BIT_STRING.c:BIT_STRING_constraint"], "Refuted: unused bits of the last octet are ignored, in the decoder and after it. Partial: the VRPs are those of a BER encoding of a ROA.")
p("C178","What the program reads in decoded objects is there",
 "For all bytes, decoding a ROA, a manifest or a resource extension ends, and yields an error or an object in which each member that the rest of the program reads is there and of its type.", "all byte strings", "All inputs.",
 ["src/object/roa.c:decode_roa","src/object/manifest.c:decode_manifest","src/object/certificate.c:handle_ip_extension","src/object/certificate.c:handle_asn_extension"], "The views that the other models have of decoded values are total on values of the generated types (C174).")
p("C179","Certificates have the resources that issuers write",
 "A certificate with correct resource extensions, in any order among other extensions, is accepted if and only if the issuer has all the resources that it lists, and then it has exactly these resources (those of the issuer, where it inherits); and a ROA signed with such a certificate is accepted if and only if moreover its prefixes are among them.", "all resources, all issuers, all orders of extensions", "All objects and all resource sets.",
 ["src/object/certificate.c:certificate_get_resources","src/object/certificate.c:handle_ip_extension","src/object/certificate.c:handle_asn_extension","src/resource.c:resources_add_ip","src/resource.c:resources_add_asn"], "Encoder for RFC 3779; DER of the generated types; then the model of resources (Res).")
p("C180","Trust anchors have the resources that they list",
 "A trust anchor with correct resource extensions, none of which inherits, is accepted, and has exactly the resources that are written.", "all resources", "All objects.",
 ["src/object/certificate.c:certificate_get_resources","src/object/certificate.c:handle_ip_extension","src/object/certificate.c:handle_asn_extension"], "As C179.")
p("C181","Manifests vouch for the files that issuers list",
 "With a strict configuration, a manifest written as RFC 6486 and DER prescribe is accepted if and only if all listed files are in the cache with the listed hashes, exactly one of them is a CRL, the CRL and the signature are good, the certificate names the CRL and the manifest, and the time is between thisUpdate and nextUpdate; and the publication point consists of the listed files.", "all manifests, caches, random numbers and dates", "All objects, of all sizes, and all random numbers.",
 ["src/object/manifest.c:decode_manifest","src/object/manifest.c:build_rpp","src/object/manifest.c:validate_manifest","src/object/manifest.c:handle_manifest"], "Encoder for RFC 6486; DER of the generated types; then C49, C50 and C89.")
