p("C141","Print mode recognises files by their first bytes",
 "Without the option that says the type, print mode takes a file for a signed object, a certificate or a CRL if and only if its first bytes are that kind's, and never looks outside of what it read.", "all files, and all contents of uninitialised memory", "All 32-byte headers, all lengths of files, and whatever the stack has.",
 ["src/print_file.c:guess_file_type","src/print_file.c:skip_sequence","src/print_file.c:skip_integer"], "The header buffer is the file's bytes and then stack contents; the cursor is an offset. Refuted for crafted lengths (read outside of the buffer), for short files (answer depends on stack contents), and for v1 certificates; proved for files of RFC 5280's and 5652's shape, and, for files of 32 bytes or more, that what's recognised has it.")
p("C142","What print mode decodes is the file",
 "Every parser gets exactly the bytes of the file, in order, however it reads them; and every signed object that the decoder accepts in one piece is accepted.", "all files, all sequences of reads, all places where reads end", "All positions of read boundaries relative to the tags and lengths of the file.",
 ["src/types/bio_seq.c:bioseq_read","src/print_file.c:bio2ci","src/asn1/asn1c/OCTET_STRING.c:OCTET_STRING_decode_ber"], "The BIO as a pair of byte lists; the decoder of ANY as a resumable stack machine, proved to accept every BER element and to be resumable. Refuted: bio2ci drops the bytes that the decoder left for the next call. Proved if no read ends within a tag or length.")
p("C143","Print mode shows certificates",
 "Every certificate that libcrypto can parse and whose strings are text is printed, and what is printed is what the certificate says.", "all certificates, extensions included, and all failures of allocations", "All shapes of extensions, names, and resources.",
 ["src/asn1/asn1c/Certificate.c:Certificate_bio2json","src/extension.c:ext2json_unknown","src/libcrypto_util.c:asn1int2json"], "The JSON builders with an allocation oracle, against a separate specification of the document. Refuted for policy qualifiers and for RFC 8360's extensions; proved otherwise.")
p("C144","Print mode shows CRLs",
 "Every CRL that libcrypto can parse and whose strings are text is printed, and what is printed is what the CRL says.", "all CRLs, revocation lists and extensions, and all failures of allocations", "All lists and extensions.",
 ["src/asn1/asn1c/CRL.c:CRL_bio2json","src/libcrypto_util.c:name2json"], "As C143. Refuted for object identifiers whose text doesn't fit in 64 characters; proved otherwise.")
p("C145","Print mode never does anything undefined with a certificate or a CRL",
 "Whatever a certificate or CRL contains and whichever allocations fail, printing it stays within its buffers.", "all certificates and CRLs, all failures of allocations", "Attackers choose the contents.",
 ["src/libcrypto_util.c:oid2json","src/extension.c:p2json","src/asn1/asn1c/Certificate.c:x509_to_json"], "Undefined behaviour is an outcome of the model. Refuted for prefixes of more than 16 bytes (written past a buffer) and for long object identifiers (read past one); proved otherwise.")
p("C146","Print mode doesn't leak documents",
 "Whichever allocations fail, what is left allocated is the document that is returned and nothing else.", "all certificates and CRLs, all failures of allocations", "Every allocation can be the one that fails.",
 ["src/json_util.c:json_object_add","src/json_util.c:json_array_add","src/libcrypto_util.c:name2json"], "The model counts live nodes. Refuted for policy qualifiers; proved otherwise.")
p("C147","What print mode writes can be read back",
 "The text of a number, of a byte string and of a prefix determines the number, the byte string and the prefix.", "all numbers, byte strings and prefixes", "All values.",
 ["src/libcrypto_util.c:asn1int2json","src/libcrypto_util.c:asn1str2json","src/extension.c:p2json"], "Readers of the texts are defined separately and proved to be inverses. Refuted for prefixes with more unused bits than bits.")
p("C148","Print mode shows signed objects",
 "Every signed object that can be decoded and whose strings are text is printed, and what is printed is what it says: the signed data, the content (of ROAs: the AS, and each prefix, length and maximum length; of manifests: number, times, files and hashes), the certificates and the signers; nothing undefined happens and nothing is leaked.", "all signed objects, ROAs and manifests, and all failures of allocations", "All shapes of contents, all integers, all optional fields.",
 ["src/asn1/asn1c/ContentInfo.c:ContentInfo_encode_json","src/asn1/asn1c/EncapsulatedContentInfo.c:EncapsulatedContentInfo_encode_json","src/asn1/asn1c/ROAIPAddressFamily.c:ROAIPAddressFamily_encode_json","src/asn1/asn1c/constr_SEQUENCE.c:SEQUENCE_encode_json","src/asn1/asn1c/INTEGER.c:INTEGER_encode_json"], "As C143: the asn1c JSON encoders as builders over decoded trees, against a separate specification of the document. Refuted for ROAs without maximum lengths, for numbers of more than 64 bits, for missing contents, and for identifiers libcrypto doesn't know; proved otherwise.")
p("C149","Print mode shows the times of signed objects",
 "A GeneralizedTime or UTCTime is shown as YYYY-MM-DD hh:mm:ssZ, the same instant (the century of a UTCTime is the one RFC 5280 says), and what isn't a time isn't shown.", "all texts", "All dates, all garbage.",
 ["src/asn1/asn1c/GeneralizedTime.c:GeneralizedTime_encode_json","src/asn1/asn1c/GeneralizedTime.c:asn_tm2str","src/asn1/asn1c/UTCTime.c:UTCTime_encode_json","src/asn1/asn1c/UTCTime.c:asn_UT2time"], "The parser of C88 and the printf, with the assertion on its length. Refuted for UTCTimes of 1950 to 1959 and for days and minutes that don't exist; proved for all other times, and that the assertion holds.")
p("C150","Print mode's exit status tells whether the document was written",
 "Print mode exits with 0 if and only if the whole document reached its standard output.", "all documents, buffer sizes and amounts of space", "All points where the device gets full.",
 ["src/print_file.c:print_file","src/print_file.c:__print_file"], "A buffered stream over a device with limited room. Refuted: nothing checks whether the last buffer could be written, and a failure without errno counts as success. Proved when it fits, and that every failure that's noticed is reported.")
