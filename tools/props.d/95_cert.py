p("C121","Names have one common name and at most one serial number",
 "The issuer or subject of a certificate is decoded if and only if it has exactly one common name, at most one serial number and nothing else; the result is that name, and no memory is lost.", "all lists of attributes", "All lists of attributes, of any length.",
 ["src/object/name.c:x509_name_decode","src/object/name.c:x509_name_put"], "Decoder modelled with the buffers it allocates. The code violates it (refuted: repeated attributes); proved: exactly what's accepted, and the property for conforming names.")
p("C122","The issuer of a certificate or CRL is its parent's subject",
 "A certificate (other than a trust anchor) or CRL is accepted only if its issuer is the subject of the certificate at the top of the stack; comparing never reads NULL.", "all pairs of names", "All pairs of names, including NULs and repetitions.",
 ["src/object/name.c:validate_issuer_name","src/object/name.c:x509_name_equals","src/object/certificate.c:validate_issuer"], "Specification by relations on the attributes. The code violates it (refuted: names with NULs); proved exactly when it accepts, and the property for conforming names.")
p("C123","A trust anchor's key is the TAL's",
 "The key of a trust anchor's certificate is accepted if and only if it's a good RSA key, the bytes in the TAL decode entirely to that very key, and the certificate is signed with it; the key is marked valid or invalid accordingly.", "all TALs, certificates and keys", "All byte strings; lengths that differ, trailing bytes.",
 ["src/object/certificate.c:validate_public_key","src/object/certificate.c:validate_spki","src/object/certificate.c:decode_spki","src/object/certificate.c:spki_cmp"], "memcmp has explicit bounds; libcrypto's decoder is a parameter.")
p("C124","Keys follow the algorithms' profile, whatever the version of OpenSSL",
 "An RSA key is accepted if and only if it has at least 2048 bits and its exponent is 65537, both with OpenSSL 1 and 3; a router's key if and only if it's on prime256v1.", "all keys", "All sizes and exponents; both implementations must agree.",
 ["src/object/certificate.c:validate_subject_public_key","src/algorithm.c:validate_certificate_public_key_algorithm_bgpsec"], "Both variants are modelled (the decimal string of one of them included) and proved equivalent to the same condition.")
p("C125","A certificate passes the field checks exactly if it has the RFC 6487 profile",
 "The checks on version, serial number, signature algorithm, issuer, subject and public key succeed if and only if all of them are as the profile says, independently of what was validated before, and never access memory they shouldn't.", "all certificates, types, parents and states", "All combinations of fields.",
 ["src/object/certificate.c:certificate_validate_rfc6487"], "Each check is characterised, then composed.")
p("C126","Repeated serial numbers among siblings are reported",
 "Among the children of a certificate each serial number is kept once and every repetition causes exactly one warning that mentions a sibling with that number; nothing is rejected because of it; numbers are either kept or released.", "all sequences of children", "All sequences, by induction.",
 ["src/cert_stack.c:x509stack_store_serial"], "Invariant over the sequence of calls.")
p("C127","A CRL is accepted exactly if it has the profile",
 "A CRL is loaded if and only if it's version 2, RSA with SHA-256, its issuer is the parent, every entry has number and date and no extensions, and its extensions are the parent's key identifier and a CRL number (once, not critical) with no other critical ones; a rejected CRL is released.", "all CRLs and parents", "All lists of entries and extensions.",
 ["src/object/crl.c:crl_load","src/object/crl.c:crl_validate","src/object/crl.c:validate_revoked","src/object/crl.c:validate_extensions"], "Reuses the table of extension handlers (C61).")
p("C128","A certificate's chain is accepted exactly if libcrypto verifies it, and stale CRLs only if configured",
 "The chain is accepted if and only if it's a trust anchor's, or libcrypto verifies it, or the only complaint is that the CRL expired, the configuration tolerates it, and it's verified once the last CRL's nextUpdate is postponed. The CRLs are restored afterwards, and contexts and copies are released.", "all answers of libcrypto and configurations", "All combinations of failures.",
 ["src/object/certificate.c:certificate_validate_chain","src/object/certificate.c:verify_cert_crl_stale","src/object/certificate.c:update_crl_time","src/object/certificate.c:complain_crl_stale"], "libcrypto's answers are parameters; allocations are counted.")
