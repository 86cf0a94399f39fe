p("C84","The signature that is checked covers the signed attributes",
 "For every well-formed encoding of a signed object, the bytes whose signature is checked are the signed attributes as encoded, with the SET OF tag in place of the implicit one.", "all BER encodings of signed objects", "All encodings: definite, indefinite and long-form lengths, any nesting.",
 ["src/object/certificate.c:certificate_validate_signature","src/asn1/asn1c/ber_tlv_length.c:ber_fetch_length"], "Byte-level model of the walk to the attributes against an inductive grammar of BER; refuted for indefinite lengths (one octet is covered), proved for definite ones.")
p("C85","Object identifiers are compared exactly",
 "An object identifier is taken for a known one exactly when it encodes the known one's arcs.", "all encoded object identifiers", "Arcs of any length.",
 ["src/asn1/oid.c:oid2arcs","src/asn1/asn1c/OBJECT_IDENTIFIER.c:OBJECT_IDENTIFIER_get_single_arc"], "Base-128 model: proved equal modulo 2^32; refuted beyond; proved exact for short arcs.")
p("C86","A signed object is accepted exactly when it complies with RFC 6488",
 "A signed object is accepted exactly when it has one signer, one certificate, version 3, SHA-256, RSA, no CRLs, no unsigned attributes, exactly the three signed attributes (in any order) that fit the content, its certificate is good, and the signature verifies.", "all decoded objects", "All combinations of fields and attribute orders.",
 ["src/asn1/signed_data.c:signed_data_validate","src/object/signed_object.c:signed_object_validate","src/algorithm.c:validate_cms_signature_algorithm"], "Decision procedure proved equivalent to a declarative profile; certificate checks, hash and signature are parameters.")
p("C87","The content of an accepted object is what its key signed",
 "In an accepted object, the key of its certificate signed the attributes, these contain the hash of the content, and replacing the content (or its type) makes it rejected.", "all objects and all modifications of the content", "All modifications.",
 ["src/asn1/signed_data.c:validate_signed_attrs","src/asn1/signed_data.c:validate_message_digest_attribute","src/object/certificate.c:certificate_validate_signature"], "From C84 and C86; tampering proved rejected up to hash collisions; the signature part is refuted for indefinite lengths.")
