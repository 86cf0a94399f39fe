p("C204","RRDP updates return the memory they take",
 "However many RRDP updates there are, and whatever notifications, snapshots and deltas servers give: as long as the XML library enforces the schema that the program gives it, no update uses or releases memory that isn't allocated, or follows NULL, and each update releases everything it allocated (texts and numbers taken from the documents, hashes, contents, open files, XML readers and references to URIs), whether it succeeds or fails, and wherever it fails.",
 "all sequences of updates, documents, outcomes of library functions and points of failure", "Each update has hundreds of allocations and of ways to fail; the combinations, and the documents, are unbounded.",
 ["src/rrdp.c:rrdp_update","src/rrdp.c:parse_notification","src/rrdp.c:parse_session","src/rrdp.c:parse_file_metadata","src/rrdp.c:sort_deltas","src/rrdp.c:handle_publish","src/rrdp.c:base64_read","src/xml/relax_ng.c:relax_ng_parse"],
 "A heap with an oracle (as C197, C198); Hoare triples that say who owns what; an invariant on the notification and the nodes that were read, given the schema's facts.")
