p("C182","What is accepted was signed",
 "If a signed object is accepted, then the key of its certificate signed octets which, decoded on their own, are exactly three attributes that name the object's type and the SHA-256 digest of the content that the program goes on with.", "all files, all certificates and signatures", "All byte strings: the signed octets are found by a second, hand-written parser which must agree with the decoder on every accepted file.",
 ["src/asn1/signed_data.c:find_signedAttrs","src/asn1/signed_data.c:signed_data_decode","src/asn1/signed_data.c:signed_data_validate","src/object/signed_object.c:signed_object_decode","src/object/signed_object.c:signed_object_validate","src/asn1/content_info.c:content_info_load"], "Every accepted encoding is a list of complete TLVs (Tlvs, DecTlvs); find_signedAttrs walks those of the decoder (Walk); the decoder does not look at what follows (SameAll), so the attributes decode alone to the same value. Refuted where the attributes have indefinite length: then only one octet is verified.")
p("C183","A signature is for one content",
 "Signed octets stand for one type and one digest, so files that are accepted on the strength of the same signed octets have the same type and the same content digest; and if nothing was signed, no file is accepted.", "all files, all signed octets", "All pairs of byte strings.",
 ["src/asn1/signed_data.c:find_signedAttrs","src/asn1/signed_data.c:validate_signed_attrs","src/object/signed_object.c:signed_object_validate"], "From C182 and that decoding is a function of the octets.")
p("C184","No signed object crashes or hangs the program",
 "For every file: decoding, the checks, the decoding of attribute values and the search for the signed octets end, read no byte outside of the buffers, and follow no null pointer.", "all files below 1 GiB", "All byte strings.",
 ["src/asn1/signed_data.c:find_signedAttrs","src/asn1/signed_data.c:signed_data_decode","src/asn1/signed_data.c:signed_data_decode_pkcs7","src/asn1/signed_data.c:validate_content_type_attribute","src/asn1/signed_data.c:validate_message_digest_attribute","src/asn1/content_info.c:content_info_load"], "C169, C170 and C174 for the types; the walk of find_signedAttrs over what was decoded never leaves it.")
p("C186","Where an object ends",
 "Each accepted encoding ends at one place, which is known from the bytes before it: with other bytes after it the result is the same, a file that stops before it is refused, and no encoding is the beginning of another one.", "all byte strings, all types that are decoded", "All byte strings and all continuations.",
 ["src/asn1/decode.c:asn1_decode","src/asn1/asn1c/ber_decoder.c:ber_decode","src/asn1/asn1c/constr_SEQUENCE.c:SEQUENCE_decode_ber","src/asn1/asn1c/constr_SET_OF.c:SET_OF_decode_ber","src/asn1/asn1c/constr_CHOICE.c:CHOICE_decode_ber","src/asn1/asn1c/OCTET_STRING.c:OCTET_STRING_decode_ber"], "By induction over types: the result of each decoder depends only on the bytes that it consumes.")
p("C185","Correct signed objects are accepted",
 "A signed object written as RFC 5652 and RFC 6488 prescribe, with its three attributes in any order and whatever follows it in the file, is accepted if and only if its digest is the content's, its certificate is accepted and the certificate's key signed the attributes; then the program goes on with exactly the content that the issuer wrote.", "all contents, certificates, digests, signatures and attribute orders", "All objects of all sizes: each length can need any number of octets.",
 ["src/object/signed_object.c:signed_object_decode","src/object/signed_object.c:signed_object_validate","src/asn1/signed_data.c:signed_data_validate","src/asn1/signed_data.c:find_signedAttrs","src/asn1/content_info.c:content_info_load"], "An encoder of signed objects, independent of the decoder; C172 decodes what it wrote, the layout theorem of C84 finds the attributes.")
p("C187","From the file of a ROA to the VRPs",
 "The VRPs that come out of a ROA's file are exactly those its issuer wrote, and they come out if and only if the CRL was loaded, the digest is the content's, the certificate passes and its key signed the attributes, its references are right, and its issuer has the resources. Whatever the file is: if VRPs come out, the key of an accepted certificate signed the digest of a ROA that lists them.", "all files, ROAs, certificates and resource stacks", "All byte strings.",
 ["src/object/roa.c:roa_traverse","src/object/roa.c:decode_roa","src/object/roa.c:__handle_roa","src/object/signed_object.c:signed_object_decode","src/object/signed_object.c:signed_object_validate"], "C185 composed with C177 and C179; for arbitrary files C182 with C177.")
p("C188","From the file of a manifest to the publication point",
 "With strict incidences, a manifest's file is accepted if and only if the listed files are in the cache with the listed hashes, exactly one is a CRL and it is good, the digest is the content's, the certificate passes according to that CRL and its key signed the attributes, it names the CRL and the manifest, and now is between thisUpdate and nextUpdate; the files that the program goes on with are the listed ones. Whatever the file is: if it is accepted, the key of an accepted certificate signed the digest of a manifest that lists these files.", "all files, manifests, certificates and caches", "All byte strings.",
 ["src/object/manifest.c:handle_manifest","src/object/manifest.c:decode_manifest","src/object/manifest.c:build_rpp","src/object/signed_object.c:signed_object_decode","src/object/signed_object.c:signed_object_validate"], "C185 composed with C181; for arbitrary files C182 with C89.")
