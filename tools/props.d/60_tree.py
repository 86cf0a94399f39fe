p("C48","Manifest entries are visited in a random order that loses nothing",
 "For every stream of random numbers, the shuffled file list is a permutation of the manifest's; and an empty manifest is handled without undefined behaviour.", "all lists and random streams", "n! orders.",
 ["src/object/manifest.c:build_rpp"], "Fisher-Yates with explicit swaps and unsigned loop bound; permutation by invariant; the empty list is refuted.")
p("C49","A publication point is used only with exactly one CRL and all hashes good",
 "A manifest yields a publication point only if exactly one CRL is listed and every listed file passed the hash check (or was skipped by configuration).", "all manifests", "All lists.",
 ["src/object/manifest.c:build_rpp","src/rpp.c:rpp_add_crl"], "Fold over entries with a hash oracle.")
p("C50","Manifests are valid only inside their time window",
 "A manifest is used only if thisUpdate <= now and thisUpdate <= nextUpdate, and now <= nextUpdate unless stale manifests are tolerated by configuration.", "all time triples", "All times.",
 ["src/object/manifest.c:validate_dates","src/object/manifest.c:tm_cmp"], "Lexicographic comparison model proved to be a total order.")
p("C51","Each CA is validated under exactly its issuer's chain",
 "During the traversal, when a deferred certificate is popped, the certificate stack consists of exactly the accepted ancestors of that certificate, in order; and the traversal ends with an empty stack.", "all certificate trees", "All tree shapes and failure patterns.",
 ["src/cert_stack.c:deferstack_pop","src/cert_stack.c:x509stack_push","src/cert_stack.c:deferstack_push"],
 "Machine model of the defer stack with separators; simulation of a recursive tree walk by induction.")
p("C52","Chains deeper than the configured maximum are cut",
 "No certificate is validated with more than max-depth-1 ancestors, so certificate loops terminate.", "all trees/graphs", "Unbounded depth.",
 ["src/object/certificate.c:certificate_traverse"], "Depth invariant and termination bound on graphs with cycles.")
p("C53","The result is the union over all TALs or nothing",
 "A validation cycle yields the union of all trust anchors' payloads if every trust anchor validated, and nothing at all if any failed, whatever the thread completion order.", "all TAL sets and outcomes", "All outcomes and orders.",
 ["src/object/tal.c:perform_standalone_validation"], "Fold over joined threads.")
p("C54","Thread pool runs every task once, in FIFO order, and wait means done",
 "Every task pushed to a pool that is not being destroyed is executed exactly once; tasks are claimed in push order; when thread_pool_wait returns on a running pool no task is queued or running; no wake-up is lost.", "all schedules, numbers of workers and tasks", "All interleavings.",
 ["src/thread/thread_pool.c:tasks_poll","src/thread/thread_pool.c:thread_pool_push","src/thread/thread_pool.c:thread_pool_wait","src/thread/thread_pool.c:thread_pool_destroy"],
 "Small-step interleaving semantics with mutex and condition variables; inductive invariants.")
p("C88","Malformed times are rejected",
 "A manifest's thisUpdate/nextUpdate is accepted only if its text is a GeneralizedTime of an existing moment, and is then compared as that moment.", "all byte strings", "All texts.",
 ["src/asn1/asn1c/GeneralizedTime.c:asn_GT2time_frac"], "Byte-level model of the parser with out-of-range values as they are; exact on well-formed texts; refuted for texts naming no moment.")
p("C89","A manifest is used exactly when it is sound, signed and its certificate names its CRL and URI",
 "A manifest object yields a publication point only if its contents validate, its signature and EE certificate validate under the listed CRL, and the EE certificate's CRL and signedObject URIs are the listed CRL and the manifest itself; every failure releases the publication point.", "all manifests and outcomes of each step", "All combinations of outcomes.",
 ["src/object/manifest.c:handle_manifest","src/object/manifest.c:validate_manifest","src/certificate_refs.c:refs_validate_ee"], "Function-by-function model with oracles for decoding and signatures.")
p("C90","Publication points are neither leaked nor used after they're freed",
 "Whatever the tree and whatever fails, the traversal never touches a publication point that was released, never aborts on an inconsistent stack, and has released all of them when it ends.", "all trees, failures and lengths of execution", "All tree shapes and failure patterns.",
 ["src/rpp.c:rpp_refget","src/rpp.c:rpp_refput","src/cert_stack.c:deferstack_pop","src/cert_stack.c:x509stack_cancel","src/object/tal.c:handle_tal_uri"], "Heap with explicit reference counts in the machine model; freed objects cannot be read.")
p("C91","Every object is checked against its own publication point's CRL",
 "Every certificate, ROA and Ghostbusters record other than the root is validated with the CRL that the manifest listing it lists; only the root is validated without a CRL.", "all trees and failures", "All tree shapes.",
 ["src/rpp.c:rpp_crl","src/object/certificate.c:certificate_traverse","src/object/roa.c:roa_traverse"], "Log of the machine model; corollary of the simulation.")
p("C92","A bad subtree does not affect its siblings",
 "The files looked at below a certificate, and their order (depth first), are the same whatever happens to the certificate's siblings.", "all trees and failures", "All tree shapes and failure patterns.",
 ["src/rpp.c:rpp_traverse","src/object/tal.c:handle_tal_uri"], "The log equals a recursive definition, one certificate at a time.")
p("C93","A publication point's CRL is loaded once, and nothing is accepted without it",
 "Asking a publication point for its CRL again yields what it yielded the first time, success or failure, whatever happened to the file since; and if it failed, no certificate, ROA or Ghostbusters record of that publication point is looked at.", "all states, files and environments", "All histories.",
 ["src/rpp.c:rpp_crl","src/object/certificate.c:certificate_traverse","src/object/roa.c:roa_traverse"], "Contracts of the single functions for arbitrary states, not only reachable ones.")
p("C94","A traversal can be abandoned anywhere",
 "Destroying the certificate stack, whatever it still holds, drops exactly the references held by deferred certificates and frees a publication point exactly if no other reference remains.", "all stacks and reference counts", "All stacks.",
 ["src/cert_stack.c:certstack_destroy","src/cert_stack.c:defer_destroy","src/rpp.c:rpp_refput"], "Induction over the defer stack with exact counts.")
p("C95","A thread pool that can't be created leaves nothing behind",
 "thread_pool_create yields a pool with exactly the number of threads asked for, or an error after which no thread uses the pool's memory.", "all patterns of pthread_create failures", "All failure patterns.",
 ["src/thread/thread_pool.c:thread_pool_create","src/thread/thread_pool.c:spawn_threads"], "Exact characterisation; refuted for failures past the first thread.")
