p("C195","The validation of a TAL does not misuse memory",
 "Whatever the TAL, the cache, the repositories, the servers and the libraries contain or do: the thread that validates a TAL does not use something that it has released (be it to print its name in a message), doesn't release anything twice, doesn't use a NULL pointer or one that was never initialised, and its stacks are never found empty or inconsistent (which would abort it); be it until the end, or until any number of certificates has been handled.", "all sequences of outcomes of every check, lookup, download and allocation of an object; any number of URIs, certificates, files, extensions, deltas", "Every path through the error handling of about sixty functions, and their combinations; over trees of any size.",
 ["src/types/uri.c:uri_refget","src/types/uri.c:uri_refput","src/rpp.c:rpp_refput","src/cert_stack.c:deferstack_pop","src/cert_stack.c:x509stack_cancel","src/object/certificate.c:certificate_traverse","src/object/manifest.c:handle_manifest","src/rrdp.c:rrdp_update","src/cache/local_cache.c:cache_download","src/object/tal.c:do_file_validation","src/state.c:validation_destroy"], "A state with the number of references of each object, and who has them; everything else is an oracle. Hoare triples whose assertions say which references the active functions own (a separation logic of counts), by structural induction over the functions.")
p("C196","The validation of a TAL releases everything",
 "When the thread that validates a TAL ends, it has released every reference that it took and every object that it created: URIs, publication points, certificates, CRLs, resources, serial numbers, nodes of the cache, RRDP's notifications; whichever errors there were.", "all sequences of outcomes of every check, lookup, download and allocation of an object; any number of URIs, certificates, files, extensions, deltas", "Every path through the error handling; a leak has no visible effect in a test.",
 ["src/types/uri.c:uri_refput","src/rpp.c:rpp_refput","src/cert_stack.c:certstack_destroy","src/object/certificate.c:certificate_traverse","src/object/manifest.c:build_rpp","src/rrdp.c:parse_notification","src/cache/local_cache.c:cache_destroy","src/object/tal.c:do_file_validation"], "The same triples; at the end, nobody owns anything.")
