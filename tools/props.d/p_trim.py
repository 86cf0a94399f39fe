p("C206","Certificates with the policy of RFC 8360 have what they share with their issuers",
 "A certificate with the policy of RFC 8360 and correct resource extensions, in any order among other extensions, is accepted, and its resources are those that it lists and its issuer has too (those of the issuer, where it inherits); and a ROA signed with such a certificate is accepted if and only if its prefixes are among them.",
 "all resources of the certificate, all chains of issuers that a validation can reach, all orders of the extensions; all ROAs",
 "Which part of each range the issuer has depends on the whole chain; there are as many cases as certificates.",
 ["src/object/certificate.c:certificate_get_resources","src/resource.c:resources_add_ip","src/resource.c:resources_add_asn","src/resource.c:add_prefix4","src/resource.c:add_range4","src/resource.c:add_prefix6","src/resource.c:add_range6","src/resource.c:add_asn","src/object/roa.c:roa_traverse"],
 "As C179: DER of RFC 3779, then the model of resources. Invariant of the stack of certificates: a set is NULL if and only if it's empty.")
