DEC="src/asn1/decode.c:asn1_decode"
p("C169","Decoding ends",
 "Decoding any bytes as an object of any of the types that are decoded (content info, signed data, ROA, manifest, the resource extensions of certificates, and parts of these) ends.", "all byte strings, all ten types", "All inputs.",
 [DEC,"src/asn1/asn1c/constr_CHOICE.c:CHOICE_decode_ber","src/asn1/asn1c/constr_SEQUENCE.c:SEQUENCE_decode_ber","src/asn1/asn1c/OCTET_STRING.c:OCTET_STRING_decode_ber"], "A decoder over types that are generated from the type descriptors (tools/asn_gen.py); loops have fuel, running out of it is the outcome `hang`, and is proved not to happen. Refuted for tagged CHOICEs.")
p("C170","Decoding is memory safe",
 "Whatever the bytes are, decoding them, and checking the constraints of the result, reads nothing outside of the buffer, and no assertion fails.", "all byte strings, all ten types", "All inputs.",
 [DEC,"src/asn1/asn1c/ber_decoder.c:ber_check_tags","src/asn1/asn1c/constr_SEQUENCE.c:SEQUENCE_decode_ber","src/asn1/asn1c/constr_SET_OF.c:SET_OF_decode_ber","src/asn1/asn1c/OCTET_STRING.c:OCTET_STRING_decode_ber","src/asn1/asn1c/UTCTime.c:UTCTime_constraint"], "`crash` and `abort` are outcomes of the model; induction over the types. UTCTime_constraint() aborts: it is proved to be out of reach.")
p("C171","The decoded object is the one that is encoded",
 "If bytes are accepted as an object, then they begin with a BER encoding of that object: all tags, lengths and contents are those of the values.", "all byte strings, all ten types", "All inputs.",
 [DEC,"src/asn1/asn1c/ber_decoder.c:ber_check_tags","src/asn1/asn1c/constr_SEQUENCE.c:SEQUENCE_decode_ber","src/asn1/asn1c/constr_CHOICE.c:CHOICE_decode_ber","src/asn1/asn1c/constr_SET_OF.c:SET_OF_decode_ber","src/asn1/asn1c/OCTET_STRING.c:OCTET_STRING_decode_ber","src/asn1/asn1c/asn_codecs_prim.c:ber_decode_primitive"], "`Ber` relates types, values and bytes as X.690 does; the decoder is sound for it, by induction over the types and, in loops, over the bytes.")
p("C172","DER encodings are decoded",
 "The DER encoding of any object is decoded to that object, whatever follows; and so DER encodings are unambiguous.", "all objects of all ten types, in less than 2^62 bytes", "All objects, all sizes.",
 [DEC,"src/asn1/asn1c/ber_decoder.c:ber_check_tags","src/asn1/asn1c/constr_SEQUENCE.c:SEQUENCE_decode_ber","src/asn1/asn1c/constr_CHOICE.c:CHOICE_decode_ber","src/asn1/asn1c/constr_SET_OF.c:SET_OF_decode_ber"], "Completeness of the decoder for `Der`, for types whose tags say what is next (`Clear`, computed for the ten).")
p("C173","Only DER is accepted",
 "An object is accepted only if the bytes are its DER encoding, and nothing else (RFC 6488, 3.1.l).", "all byte strings", "All inputs.",
 [DEC,"src/asn1/content_info.c:decode"], "Refuted: trailing bytes, indefinite lengths, long lengths, unused bits. Partial: BER, and no confusion with DER.")
p("C174","Decoded objects are complete",
 "An accepted object has all its mandatory members, exactly one alternative of each CHOICE, and fewer than 8 unused bits in each bit string; so the program finds what it reads.", "all byte strings, all ten types", "All inputs.",
 [DEC,"src/asn1/asn1c/constr_SEQUENCE.c:SEQUENCE_decode_ber"], "Corollary of C171: the values that `Ber` relates to a type have its shape.")
p("C175","Accepted objects comply with their ASN.1 modules' constraints",
 "An accepted object complies with the constraints of its ASN.1 module: at least one address block in a ROA, at least one address in a block, two or three octets in an address family, no negative manifest number, ASCII file names.", "all byte strings, all ten types", "All inputs.",
 [DEC,"src/asn1/asn1c/constr_SEQUENCE.c:SEQUENCE_constraint","src/asn1/asn1c/constr_SET_OF.c:SET_OF_constraint","src/asn1/asn1c/RouteOriginAttestation.c:memb_ipAddrBlocks_constraint_1","src/asn1/asn1c/Manifest.c:memb_manifestNumber_constraint_1"], "Refuted: SEQUENCE_constraint() returns after the first member without a constraint of its own. Partial: the types for which this has no effect.")
