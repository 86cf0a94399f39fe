p("C44","RRDP delta lists are accepted only when contiguous",
 "A notification's delta list is accepted exactly when its serials are, in some order, max-n+1..max where max is the notification serial; it is then processed in ascending order.", "all delta lists", "All permutations of any length.",
 ["src/rrdp.c:sort_deltas","src/rrdp.c:swap_until_sorted"], "In-place cycle sort model with explicit indexes; termination, permutation and completeness proofs.")
p("C45","RRDP updates apply exactly the missing deltas, else the snapshot",
 "On a session match with old serial o and new serial n, exactly the deltas o+1..n are applied in ascending order; an unknown session, missing deltas, too many deltas or any delta error leads to the snapshot; an unchanged serial does nothing.", "all notifications and local states", "All combinations.",
 ["src/rrdp.c:handle_deltas","src/rrdp.c:rrdp_update"], "Effect list model over the sorted delta list.")
p("C46","A failed RRDP update is retried",
 "If an update fails (delta and snapshot), the next cycle does not consider the local copy current.", "all two-cycle histories", "Needs a failure then an unchanged server.",
 ["src/rrdp.c:rrdp_update","src/http/http.c:http_download"], "Two-cycle model: the notification file is replaced before the update is applied; refuted.")
p("C47","Hexadecimal hashes are parsed exactly",
 "A hash attribute is accepted exactly when it is 64 hexadecimal digits (any case), and yields the corresponding 32 bytes.", "all strings", "All strings.",
 ["src/rrdp.c:hexstr2sha256"], "Round trip and rejection theorem.")
p("C79","A damaged notification does not block later updates",
 "If one download of a notification gives a document that cannot be parsed, a later cycle still asks the server and recovers.", "all servers and histories", "Needs a damaged document followed by arbitrarily many good cycles.",
 ["src/rrdp.c:get_metadata","src/rrdp.c:rrdp_update"], "Any-length history of cycles in which the server recovered: refuted, with the general reason.")
p("C80","A published file's content is the element's text, decoded",
 "The file stored for a publish element is the base64 decoding of the element's whole character content.", "all documents", "All documents, including ones with comments and split text.",
 ["src/rrdp.c:parse_publish","src/rrdp.c:base64_sanitize","src/rrdp.c:write_from_uri"], "Node list model; refuted by a comment, proved for single text nodes.")
p("C81","An RRDP update touches only its own repository",
 "Whatever the documents say, an update writes and deletes files only under its own notification's RRDP directory, besides downloaded files; and an update of one repository does not change the outcome of another's.", "all documents and file systems", "All (hostile) documents, all paths.",
 ["src/rrdp.c:rrdp_update","src/rrdp.c:handle_publish","src/rrdp.c:handle_withdraw","src/types/uri.c:uri_create_caged"], "Path containment by invariant over the model; isolation refuted (a snapshot URL can be another's notification URL).")
p("C82","A successful RRDP update leaves the repository up to date",
 "If an update reports success then the local files are those of the serial in the server's current notification.", "all servers and histories", "All histories, including failures.",
 ["src/rrdp.c:rrdp_update","src/cache/local_cache.c:cache_download"], "Refuted: a failed update followed by a second request in the same cycle; proved along failure-free histories (C45).")
p("C83","No document makes an RRDP update crash",
 "For every sequence of HTTP answers and XML documents, an update does not dereference null or reach an abort, given what the RELAX NG schema enforces.", "all documents, schedules and file systems", "All documents.",
 ["src/rrdp.c:rrdp_update","src/rrdp.c:parse_notification","src/rrdp.c:validate_session","src/xml/relax_ng.c:relax_ng_parse"], "Undefined behaviour is an outcome of the model; a safety proof, and a witness that the schema facts are needed.")
