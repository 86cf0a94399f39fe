p("C205","Validating certificates, CRLs and signed objects returns the memory it takes",
 "Whatever certificates, CRLs, manifests, ROAs and Ghostbusters records a repository has, and wherever their validation fails: the thread that validates them never uses or releases memory that isn't allocated and never follows NULL, and in the end it has released everything it allocated on the way (decoded structures, names, numbers, dates, OIDs, hashes, buffers, open files, OpenSSL contexts, certificates, CRLs and stacks); in between, what's allocated is its stack of certificates and the CRLs of its publication points.",
 "all sequences of files, in all orders in which certificates are pushed and popped and publication points come and go; all contents, outcomes of library functions and points of failure; with and without debug messages", "There are hundreds of allocations and of ways to fail, and the files are chosen by others; the sequences are unbounded.",
 ["src/object/certificate.c:certificate_traverse","src/object/certificate.c:certificate_validate_chain","src/object/certificate.c:verify_cert_crl_stale","src/object/signed_object.c:signed_object_validate","src/asn1/signed_data.c:signed_data_validate","src/asn1/signed_data.c:signed_data_decode_pkcs7","src/object/name.c:x509_name_decode","src/object/crl.c:crl_load","src/rpp.c:rpp_crl","src/cert_stack.c:x509stack_store_serial","src/libcrypto_util.c:asn1time2str"],
 "A heap with an oracle (as C204); Hoare triples that say who owns what; facts about the files (repeated attributes, dates that can't be printed) are part of the operations.")
