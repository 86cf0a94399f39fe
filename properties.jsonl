{"id": "C01", "title": "Serial numbers are ordered by RFC 1982", "statement": "For any two 32-bit serials, `serial_lt(a,b)` is true exactly when going forward from a to b (mod 2^32) takes between 1 and 2^31-1 steps; so it is irreflexive, asymmetric, and leaves exactly the pairs at distance 2^31 (and equal pairs) unordered.", "quantifier": "all pairs of 32-bit serial numbers, including wrap-around", "why_tests_cant": "2^64 pairs; the interesting ones sit at the wrap-around and at distance 2^31.", "anchors": ["src/types/serial.c:serial_lt"]}
{"id": "C02", "title": "The VRP table is a set", "statement": "After any sequence of additions, joins and removals, the table contains exactly the payloads that the sequence of set operations says it contains, each once, and its counters equal the number of distinct payloads.", "quantifier": "all sequences of table operations and all payloads", "why_tests_cant": "Histories are unbounded and duplicates may arise at any point.", "anchors": ["src/rtr/db/db_table.c:rtrhandler_handle_roa_v4", "src/rtr/db/db_table.c:db_table_join", "src/rtr/db/db_table.c:db_table_remove_roa"]}
{"id": "C03", "title": "A delta is the exact difference of two tables", "statement": "The delta computed between two validation results announces exactly the payloads of new missing from old, withdraws exactly those of old missing from new, mentions each payload once, and is absent exactly when both results hold the same payloads. A router applying it to old obtains new.", "quantifier": "all pairs of tables", "why_tests_cant": "All pairs of finite tables.", "anchors": ["src/rtr/db/db_table.c:compute_deltas", "src/rtr/db/delta.c:deltas_foreach"]}
{"id": "C04", "title": "The delta history keeps the last `deltas.lifetime` deltas in order", "statement": "For a lifetime of at least one, after any number of updates the history holds the min(updates, lifetime) newest deltas; asking for the last n visits exactly the n newest ones, oldest first, and asking for more than stored is an error. No slot outside the array is touched.", "quantifier": "all lifetimes 1 <= L < 2^31, all numbers of updates, all n", "why_tests_cant": "The circular index arithmetic (unsigned wrap) depends on the position of the write cursor, which takes lifetime-many values.", "anchors": ["src/rtr/db/deltas_array.c:darray_add", "src/rtr/db/deltas_array.c:darray_foreach_since"]}
{"id": "C05", "title": "A configured delta lifetime never makes the server touch memory outside the history", "statement": "For every value of server.deltas.lifetime the configuration accepts, storing a delta stays inside the allocated history.", "quantifier": "all accepted lifetimes, including 0", "why_tests_cant": "The failing value is a single boundary of a 2^32 range.", "anchors": ["src/config.c:server.deltas.lifetime", "src/rtr/db/deltas_array.c:darray_create", "src/rtr/db/deltas_array.c:darray_add"]}
{"id": "C06", "title": "Incremental synchronization is exact", "statement": "A router that holds the data set of an earlier serial s of this session and sends a Serial Query for s either is told to reset, or receives announcements and withdrawals which, applied in the order sent by a strict router, never announce a record it already has, never withdraw one it does not have, and leave it with exactly the data set of the serial named in End of Data.", "quantifier": "all histories of validation results, all earlier serials, all lifetimes", "why_tests_cant": "Quantifies over all histories; cancellation across several deltas has unboundedly many patterns.", "anchors": ["src/rtr/db/vrps.c:vrps_foreach_delta_since", "src/rtr/db/vrps.c:vrp_ovrd_remove", "src/rtr/db/vrps.c:__vrps_update"]}
{"id": "C07", "title": "A serial outside the delta window is answered with Cache Reset", "statement": "A Serial Query whose serial is not the current one nor one of the stored predecessors gets a Cache Reset, never an (empty) success.", "quantifier": "all current serials, all stored counts, all requested serials", "why_tests_cant": "2^32 serials times all counts; only one distance misbehaves.", "anchors": ["src/rtr/db/vrps.c:vrps_foreach_delta_since"]}
{"id": "C08", "title": "The serial changes exactly when the data changes", "statement": "An update cycle that fails, or yields the same payloads as before, leaves serial, data and delta history untouched and reports no change; otherwise the serial grows by one (mod 2^32), the data becomes the new result, and a change is reported. The first success has serial 1.", "quantifier": "all sequences of update cycles with arbitrary results and failures", "why_tests_cant": "Unbounded histories with failures anywhere.", "anchors": ["src/rtr/db/vrps.c:__vrps_update"]}
{"id": "C09", "title": "End of Data is only sent after every payload was sent", "statement": "If sending some payload PDU of a response fails, the response is abandoned: the End of Data PDU that would declare the router synchronized is not sent.", "quantifier": "all responses and all positions of the failing send", "why_tests_cant": "The failing position ranges over all PDUs of arbitrarily long responses.", "anchors": ["src/rtr/pdu_handler.c:handle_serial_query_pdu", "src/rtr/pdu_handler.c:handle_reset_query_pdu", "src/rtr/db/vrps.c:vrps_foreach_delta_since"]}
{"id": "C10", "title": "A Reset Query response is one consistent snapshot", "statement": "The payloads and the serial in the End of Data of a Reset Query response belong to the same validation result, whatever updates run concurrently.", "quantifier": "all interleavings of one Reset Query with any number of updates", "why_tests_cant": "A two-lock race window; the schedule has to place an update between two lock acquisitions.", "anchors": ["src/rtr/pdu_handler.c:handle_reset_query_pdu", "src/rtr/db/vrps.c:get_last_serial_number", "src/rtr/db/vrps.c:vrps_foreach_base"]}
{"id": "C11", "title": "Session IDs identify the protocol version's session", "statement": "The session IDs of version 0 and version 1 always differ, never change during a run, and a Serial Query with another session ID gets a Corrupt Data error and no payload.", "quantifier": "all start times, all requests", "why_tests_cant": "All 2^16 IDs and all times; includes the wrap at 0.", "anchors": ["src/rtr/db/vrps.c:vrps_init", "src/rtr/db/vrps.c:get_current_session_id", "src/rtr/pdu_handler.c:handle_serial_query_pdu"]}
{"id": "C12", "title": "Responses follow the RTR grammar", "statement": "Every response to a query is one of: Cache Response, payloads, End of Data; Cache Reset; one Error Report - or, if a send fails, a prefix of one of these (Serial Query: up to the discarded errors of C09). Version 0 routers never receive router keys; every PDU carries the negotiated version.", "quantifier": "all databases, versions, requests", "why_tests_cant": "All database contents and requests.", "anchors": ["src/rtr/pdu_handler.c:handle_serial_query_pdu", "src/rtr/pdu_handler.c:handle_reset_query_pdu", "src/rtr/pdu_sender.c:send_router_key_pdu"]}
{"id": "C13", "title": "Sent PDUs have the RFC byte layout", "statement": "Every PDU written to a router has a length field equal to the number of bytes written, and an independent RFC 8210 decoder recovers exactly the version, type, flags, lengths, address, ASN, keys, serial and timers it was built from.", "quantifier": "all field values", "why_tests_cant": "All 32-bit/128-bit field values.", "anchors": ["src/rtr/pdu_sender.c:serialize_hdr", "src/rtr/pdu_sender.c:send_prefix_pdu", "src/rtr/pdu_sender.c:send_router_key_pdu", "src/rtr/pdu_sender.c:send_end_of_data_pdu", "src/rtr/primitive_writer.c:write_uint32"]}
{"id": "C14", "title": "Error Reports embed a bounded prefix of the offending PDU", "statement": "The encapsulated PDU of an Error Report is a prefix of the received bytes, at most 123 bytes long and never longer than what was received, and all three length fields of the report are consistent.", "quantifier": "all received byte strings and messages", "why_tests_cant": "All byte strings, including lying length fields.", "anchors": ["src/rtr/pdu_sender.c:compute_error_pdu_len", "src/rtr/pdu_sender.c:send_error_report_pdu"]}
{"id": "C15", "title": "Request parsing does not depend on how TCP fragments the stream", "statement": "For a client that sends well-formed queries, how the byte stream is cut into reads (one call) or across calls does not lose, duplicate or corrupt PDUs: each call returns the last complete query received so far and leaves the incomplete rest for later.", "quantifier": "all byte streams, all fragmentations", "why_tests_cant": "Exponentially many fragmentations.", "anchors": ["src/rtr/pdu_stream.c:pdustream_next", "src/rtr/pdu_stream.c:update_buffer"]}
{"id": "C16", "title": "The protocol version is fixed by the first PDU", "statement": "Once a stream has accepted a PDU its version never changes, only versions 0 and 1 are ever accepted, and a PDU with another version ends the session with error 8 (other known version) or 4 (unknown version).", "quantifier": "all byte streams", "why_tests_cant": "All streams.", "anchors": ["src/rtr/pdu_stream.c:validate_rtr_version"]}
{"id": "C17", "title": "An Error Report is never answered with an Error Report", "statement": "No byte sequence starting with an Error Report header makes the server send an Error Report about it.", "quantifier": "all byte strings", "why_tests_cant": "All byte strings.", "anchors": ["src/rtr/err_pdu.c:err_pdu_send", "src/rtr/pdu_stream.c:pdustream_next"]}
{"id": "C18", "title": "Parsing a request never reads outside the receive buffer", "statement": "Whatever bytes an RTR client sends, the parser reads only bytes it has received.", "quantifier": "all byte streams and fragmentations", "why_tests_cant": "Requires specific, adversarial length fields near the end of the buffer.", "anchors": ["src/rtr/pdu_stream.c:load_error_report", "src/rtr/pdu_stream.c:read_string", "src/rtr/err_pdu.c:err_pdu_send"]}
{"id": "C19", "title": "Router-supplied error text is cut to valid UTF-8", "statement": "The text logged for a received Error Report is the longest prefix of the received text that consists of structurally complete UTF-8 sequences, and the terminator is written within the allocated string.", "quantifier": "all byte strings", "why_tests_cant": "All byte strings.", "anchors": ["src/rtr/pdu_stream.c:place_null_character", "src/rtr/pdu_stream.c:get_octets"]}
{"id": "C20", "title": "A router key certificate yields one key per AS, for any AS range", "statement": "For an AS range [min,max] the router-key handler registers exactly the keys for AS min..max and terminates, also when max = 2^32-1.", "quantifier": "all AS ranges", "why_tests_cant": "The overflow case only shows at the very end of the range.", "anchors": ["src/rtr/db/vrps.c:handle_router_key"]}
{"id": "C21", "title": "IP prefixes decode only from canonical encodings", "statement": "An IPv4 (IPv6) prefix is accepted exactly when its BIT STRING has at most 32 (128) bits, fewer than 8 unused bits, and no bit beyond the prefix length is set; the result is the address padded with zeros and the length.", "quantifier": "all BIT STRINGs", "why_tests_cant": "All byte strings and unused-bit counts.", "anchors": ["src/types/address.c:prefix4_decode", "src/types/address.c:prefix6_decode"]}
{"id": "C22", "title": "IP ranges decode only if ordered and not a prefix", "statement": "An address range is accepted exactly when min <= max and the range cannot be written as a prefix; min is padded with zeros and max with ones.", "quantifier": "all BIT STRING pairs", "why_tests_cant": "All pairs.", "anchors": ["src/types/address.c:range4_decode", "src/types/address.c:range6_decode", "src/types/address.c:check_encoding4"]}
{"id": "C23", "title": "Resource sets stay sorted, disjoint and non-adjacent", "statement": "A resource set accepted from a certificate lists ranges in increasing order, with a gap between neighbours; anything else (out of order, overlapping, adjacent, inverted) is rejected.", "quantifier": "all sequences of ranges", "why_tests_cant": "Unbounded lists.", "anchors": ["src/sorted_array.c:sarray_add", "src/resource/asn.c:asn_cmp", "src/resource/ip4.c:r4_cmp", "src/resource/ip6.c:r6_cmp"]}
{"id": "C24", "title": "Containment lookup is exact", "statement": "On a resource set built through the API, the containment query answers yes exactly when some stored range covers the requested range (equivalently, every requested number is in the set), and it terminates.", "quantifier": "all resource sets, all ranges", "why_tests_cant": "Binary search over all sizes; boundary elements.", "anchors": ["src/sorted_array.c:sarray_contains", "src/resource/asn.c:rasn_contains", "src/resource/ip4.c:res4_contains_range"]}
{"id": "C25", "title": "Certificates never gain resources their issuer lacks", "statement": "For every chain of certificates accepted from the trust anchor down, under either policy, the AS, IPv4 and IPv6 resources of each certificate are a subset of its issuer's, hence of the trust anchor's.", "quantifier": "all chains of any depth, all resource extensions, both policies, inherit or explicit", "why_tests_cant": "Arbitrary depth and content.", "anchors": ["src/resource.c:resources_add_ip", "src/resource.c:resources_add_asn", "src/resource.c:add_aors4"]}
{"id": "C26", "title": "RFC 8360 trims overclaims, RFC 6484 rejects them", "statement": "An element not covered by the issuer makes an RFC 6484 certificate invalid, and is dropped (keeping all other elements) under RFC 8360.", "quantifier": "all element lists and issuer sets", "why_tests_cant": "Arbitrary lists.", "anchors": ["src/resource.c:add_prefix4", "src/resource.c:add_range4", "src/resource.c:add_asn"]}
{"id": "C27", "title": "AS ranges are within 0..2^32-1 and not inverted", "statement": "An AS number or range is accepted only if it fits 32 bits and min <= max.", "quantifier": "all ASN.1 integers", "why_tests_cant": "All integers of any size.", "anchors": ["src/resource.c:add_asn", "src/resource.c:ASId2ulong"]}
{"id": "C28", "title": "Every VRP is well-formed and covered by the ROA's certificate", "statement": "Every VRP handed to the RTR database from a ROA has prefix length <= max length <= 32 (128), a canonical prefix, and a prefix contained in the resources of the ROA's EE certificate.", "quantifier": "all ROAs and certificates", "why_tests_cant": "All ROA contents.", "anchors": ["src/object/roa.c:____handle_roa_v4", "src/object/roa.c:____handle_roa_v6", "src/object/roa.c:__handle_roa"]}
{"id": "C29", "title": "A rejected ROA contributes no VRPs", "statement": "If a ROA is rejected, none of its prefixes becomes a VRP.", "quantifier": "all ROAs", "why_tests_cant": "The failing element can be at any position.", "anchors": ["src/object/roa.c:__handle_roa", "src/object/roa.c:roa_traverse"]}
{"id": "C30", "title": "SLURM prefix filters match as RFC 8416 says", "statement": "A VRP is removed by a prefix filter exactly when every member present in the filter matches: the filter's prefix equals or covers the VRP's prefix (same family), and the filter's ASN equals the VRP's ASN.", "quantifier": "all filters and VRPs", "why_tests_cant": "All pairs.", "anchors": ["src/slurm/db_slurm.c:db_slurm_vrp_is_filtered", "src/slurm/db_slurm.c:prefix_filtered_by", "src/types/vrp.c:vrp_prefix_cov", "src/types/address.c:ipv4_covered"]}
{"id": "C31", "title": "SLURM BGPsec filters match as RFC 8416 says", "statement": "A router key is removed by a BGPsec filter exactly when every member present (ASN, SKI) matches.", "quantifier": "all filters and keys", "why_tests_cant": "All pairs.", "anchors": ["src/slurm/db_slurm.c:bgpsec_filtered_by"]}
{"id": "C32", "title": "Applying SLURM yields (validated minus filtered) plus assertions", "statement": "After SLURM is applied the table is exactly: the validated payloads not matched by any filter, plus all assertions - assertions are never filtered.", "quantifier": "all tables and SLURM contents", "why_tests_cant": "All tables and filter lists.", "anchors": ["src/slurm/slurm_loader.c:__slurm_load_done", "src/slurm/slurm_loader.c:slurm_apply"]}
{"id": "C33", "title": "A broken SLURM keeps the last valid one", "statement": "If the SLURM files are not good, the last successfully loaded SLURM (if any) is applied; if there is none, validated data goes unmodified; if SLURM is not configured or empty nothing is applied. If the files cannot even be read the cycle fails, nothing is published, and the kept SLURM stays.", "quantifier": "all histories of load results", "why_tests_cant": "Unbounded histories.", "anchors": ["src/slurm/slurm_loader.c:update_slurm", "src/slurm/slurm_loader.c:slurm_apply"]}
{"id": "C34", "title": "A changed SLURM is noticed", "statement": "If the multiset of SLURM files' contents changed since the last load, the SLURM is reloaded.", "quantifier": "all pairs of checksum lists", "why_tests_cant": "Needs particular duplicated files.", "anchors": ["src/slurm/slurm_loader.c:are_csum_lists_equals"]}
{"id": "C35", "title": "Conflicting SLURM files are rejected", "statement": "A set of SLURM files is loaded, as the union of their rules, exactly when all are good and no two different files conflict (share an address in prefix rules or an AS number in BGPsec rules); otherwise nothing of any file is used.", "quantifier": "all file sequences", "why_tests_cant": "All sequences.", "anchors": ["src/slurm/db_slurm.c:db_slurm_add_prefix_filter", "src/slurm/db_slurm.c:db_slurm_flush_cache"]}
{"id": "C36", "title": "SLURM JSON members are range- and type-checked", "statement": "ASN members fit 32 bits, prefixes are canonical, maxPrefixLength is between the prefix length and the family maximum, no unknown member is accepted, and no malformed member crashes the parser.", "quantifier": "all JSON values", "why_tests_cant": "All JSON documents.", "anchors": ["src/slurm/slurm_parser.c:parse_prefix", "src/slurm/slurm_parser.c:set_prefix", "src/slurm/slurm_parser.c:load_single_prefix", "src/json_util.c:json_get_u32"]}
{"id": "C37", "title": "Cache paths never leave the TAL's directory", "statement": "For every URL that is accepted, the local path is <repository>/<tal>/<scheme>/ followed by components none of which is empty, '.' or '..'; so no URL can address a file outside its TAL's directory.", "quantifier": "all URL strings", "why_tests_cant": "All strings.", "anchors": ["src/types/uri.c:append_guri", "src/types/uri.c:map_simple", "src/types/uri.c:map_caged"]}
{"id": "C38", "title": "Path builder operations compose like component lists", "statement": "Appending components and popping them are inverse; the buffer never exceeds its capacity and the resulting string is the components joined by '/'.", "quantifier": "all sequences of appends and pops", "why_tests_cant": "All sequences, growth boundaries.", "anchors": ["src/data_structure/path_builder.c:pb_appendn", "src/data_structure/path_builder.c:pb_pop"]}
{"id": "C39", "title": "Manifest file names cannot escape the manifest's directory", "statement": "A file name accepted from a manifest has at least 5 characters, only [A-Za-z0-9_-] before the dot, a three-letter extension, no '/' - so the referenced file is a sibling of the manifest.", "quantifier": "all names", "why_tests_cant": "All strings.", "anchors": ["src/types/uri.c:validate_mft_file", "src/types/uri.c:str2global"]}
{"id": "C40", "title": "Distinct RRDP repositories cannot overwrite each other's files", "statement": "Files published under different RRDP notification URLs are stored under different local paths.", "quantifier": "all pairs of notification and object URLs", "why_tests_cant": "Needs related URLs.", "anchors": ["src/types/uri.c:map_caged"]}
{"id": "C41", "title": "Each URL is fetched at most once per validation cycle", "statement": "Within one cycle, however often and in whatever order URLs are requested, each distinct download target is attempted at most once, and every later request returns the result of that attempt, as long as the system's clock is not set back before the cycle's start.", "quantifier": "all request sequences", "why_tests_cant": "All sequences.", "anchors": ["src/cache/local_cache.c:cache_check"]}
{"id": "C42", "title": "When downloads fail the best cached alternative is used", "statement": "If none of the alternatives of a repository can be downloaded, the alternative with a usable (successfully downloaded earlier) cached copy whose success is most recent is used; none is used if none was ever successful.", "quantifier": "all node states", "why_tests_cant": "All combinations.", "anchors": ["src/cache/local_cache.c:choose_better", "src/cache/local_cache.c:find_node"]}
{"id": "C43", "title": "Alternatives are tried in priority order, stopping at the first success", "statement": "Among the URLs of a repository, those of the higher-priority protocol are tried first (in listed order on ties), each at most once, and no further URL is tried once one yields a result or a fatal answer.", "quantifier": "all URL lists and outcomes", "why_tests_cant": "All lists.", "anchors": ["src/cache/local_cache.c:cache_download_alt", "src/cache/local_cache.c:__cache_download_alt"]}
{"id": "C44", "title": "RRDP delta lists are accepted only when contiguous", "statement": "A notification's delta list is accepted exactly when its serials are, in some order, max-n+1..max where max is the notification serial; it is then processed in ascending order.", "quantifier": "all delta lists", "why_tests_cant": "All permutations of any length.", "anchors": ["src/rrdp.c:sort_deltas", "src/rrdp.c:swap_until_sorted"]}
{"id": "C45", "title": "RRDP updates apply exactly the missing deltas, else the snapshot", "statement": "On a session match with old serial o and new serial n, exactly the deltas o+1..n are applied in ascending order; an unknown session, missing deltas, too many deltas or any delta error leads to the snapshot; an unchanged serial does nothing.", "quantifier": "all notifications and local states", "why_tests_cant": "All combinations.", "anchors": ["src/rrdp.c:handle_deltas", "src/rrdp.c:rrdp_update"]}
{"id": "C46", "title": "A failed RRDP update is retried", "statement": "If an update fails (delta and snapshot), the next cycle does not consider the local copy current.", "quantifier": "all two-cycle histories", "why_tests_cant": "Needs a failure then an unchanged server.", "anchors": ["src/rrdp.c:rrdp_update", "src/http/http.c:http_download"]}
{"id": "C47", "title": "Hexadecimal hashes are parsed exactly", "statement": "A hash attribute is accepted exactly when it is 64 hexadecimal digits (any case), and yields the corresponding 32 bytes.", "quantifier": "all strings", "why_tests_cant": "All strings.", "anchors": ["src/rrdp.c:hexstr2sha256"]}
{"id": "C48", "title": "Manifest entries are visited in a random order that loses nothing", "statement": "For every stream of random numbers, the shuffled file list is a permutation of the manifest's; and an empty manifest is handled without undefined behaviour.", "quantifier": "all lists and random streams", "why_tests_cant": "n! orders.", "anchors": ["src/object/manifest.c:build_rpp"]}
{"id": "C49", "title": "A publication point is used only with exactly one CRL and all hashes good", "statement": "A manifest yields a publication point only if exactly one CRL is listed and every listed file passed the hash check (or was skipped by configuration).", "quantifier": "all manifests", "why_tests_cant": "All lists.", "anchors": ["src/object/manifest.c:build_rpp", "src/rpp.c:rpp_add_crl"]}
{"id": "C50", "title": "Manifests are valid only inside their time window", "statement": "A manifest is used only if thisUpdate <= now and thisUpdate <= nextUpdate, and now <= nextUpdate unless stale manifests are tolerated by configuration.", "quantifier": "all time triples", "why_tests_cant": "All times.", "anchors": ["src/object/manifest.c:validate_dates", "src/object/manifest.c:tm_cmp"]}
{"id": "C51", "title": "Each CA is validated under exactly its issuer's chain", "statement": "During the traversal, when a deferred certificate is popped, the certificate stack consists of exactly the accepted ancestors of that certificate, in order; and the traversal ends with an empty stack.", "quantifier": "all certificate trees", "why_tests_cant": "All tree shapes and failure patterns.", "anchors": ["src/cert_stack.c:deferstack_pop", "src/cert_stack.c:x509stack_push", "src/cert_stack.c:deferstack_push"]}
{"id": "C52", "title": "Chains deeper than the configured maximum are cut", "statement": "No certificate is validated with more than max-depth-1 ancestors, so certificate loops terminate.", "quantifier": "all trees/graphs", "why_tests_cant": "Unbounded depth.", "anchors": ["src/object/certificate.c:certificate_traverse"]}
{"id": "C53", "title": "The result is the union over all TALs or nothing", "statement": "A validation cycle yields the union of all trust anchors' payloads if every trust anchor validated, and nothing at all if any failed, whatever the thread completion order.", "quantifier": "all TAL sets and outcomes", "why_tests_cant": "All outcomes and orders.", "anchors": ["src/object/tal.c:perform_standalone_validation"]}
{"id": "C54", "title": "Thread pool runs every task once, in FIFO order, and wait means done", "statement": "Every task pushed to a pool that is not being destroyed is executed exactly once; tasks are claimed in push order; when thread_pool_wait returns on a running pool no task is queued or running; no wake-up is lost.", "quantifier": "all schedules, numbers of workers and tasks", "why_tests_cant": "All interleavings.", "anchors": ["src/thread/thread_pool.c:tasks_poll", "src/thread/thread_pool.c:thread_pool_push", "src/thread/thread_pool.c:thread_pool_wait", "src/thread/thread_pool.c:thread_pool_destroy"]}
{"id": "C55", "title": "TAL key text survives line re-wrapping", "statement": "Re-wrapping the base64 key of a TAL preserves every non-newline character in order, writes within the allocated buffer, and produces lines of bounded length.", "quantifier": "all key texts", "why_tests_cant": "All texts and line break positions.", "anchors": ["src/object/tal.c:base64_sanitize", "src/rrdp.c:base64_sanitize"]}
{"id": "C56", "title": "base64url conversion is an exact translation", "statement": "Converting to base64url and back restores the original base64 text, for all inputs; output contains no '+', '/' or '='.", "quantifier": "all byte strings", "why_tests_cant": "All strings.", "anchors": ["src/crypto/base64.c:base64url_decode", "src/crypto/base64.c:to_base64url"]}
{"id": "C57", "title": "Downloads are retried a bounded number of times", "statement": "An HTTP (rsync) download is attempted at most retry-count+1 times, retried only on retriable failures, and reports success only if the last attempt succeeded.", "quantifier": "all outcome sequences", "why_tests_cant": "All sequences.", "anchors": ["src/http/http.c:do_retries", "src/rsync/rsync.c:rsync_download"]}
{"id": "C58", "title": "A download never stores more than the configured size", "statement": "Whatever chunks arrive, at most http.max-file-size bytes are written to disk and any larger download is an error.", "quantifier": "all chunk sequences", "why_tests_cant": "All sequences.", "anchors": ["src/http/http.c:write_callback", "src/http/http.c:validate_file_size"]}
{"id": "C59", "title": "TAL files are parsed as comments, URLs, blank line, key", "statement": "A TAL is accepted only as optional '#' lines, at least one rsync/https URL line, a blank line and the key; comment lines are only allowed before the URLs.", "quantifier": "all files", "why_tests_cant": "All line sequences.", "anchors": ["src/object/tal.c:read_uris", "src/line_file.c:lfile_read"]}
{"id": "C60", "title": "Text lines containing NUL are rejected", "statement": "A line read from a file is returned without its line terminator (LF or CRLF) and only if it contains no NUL byte.", "quantifier": "all byte streams", "why_tests_cant": "All streams.", "anchors": ["src/line_file.c:lfile_read"]}
{"id": "C61", "title": "Duplicate, wrongly critical, unknown critical or missing extensions reject a certificate", "statement": "A certificate passes extension validation exactly when each extension that its type (TA, CA, EE) knows appears at most once, has the required criticality and has the contents the profile requires, the extensions that are not known are not critical, and every mandatory one is present; what is taken from the certificate (publication point, manifest, policy, CRL distribution point, issuer, signed object) does not depend on the order of the extensions. No list of extensions ends the process.", "quantifier": "all extension lists of trust anchors, CAs and EEs", "why_tests_cant": "All lists, in all orders.", "anchors": ["src/extension.c:handle_extensions", "src/extension.c:handle_extension", "src/object/certificate.c:certificate_validate_extensions_ta", "src/object/certificate.c:certificate_validate_extensions_ca", "src/object/certificate.c:certificate_validate_extensions_ee"]}
{"id": "C62", "title": "At most one URL per access method is used", "statement": "From an SIA/AIA extension, exactly the only URL of the expected type is taken for each access method; several usable ones, or an unusable one of that type, reject the certificate; locations that aren't URLs or have other schemes are ignored; a missing mandatory one rejects it.", "quantifier": "all access description lists", "why_tests_cant": "All lists.", "anchors": ["src/object/certificate.c:handle_ad", "src/object/certificate.c:uri_create_ad"]}
{"id": "C63", "title": "Key usage must be exactly what the certificate type requires", "statement": "CA certificates are accepted only with exactly keyCertSign and cRLSign set, EE certificates only with digitalSignature.", "quantifier": "all bit strings", "why_tests_cant": "All bit strings.", "anchors": ["src/object/certificate.c:handle_ku"]}
{"id": "C64", "title": "Numeric options are in range", "statement": "A numeric option is stored only if the whole text (or JSON value) is a number within the option's documented bounds, and then that number is what is stored; anything else stops the program.", "quantifier": "all strings and JSON values, for each numeric option", "why_tests_cant": "All strings, including signs, white space and numbers of any length.", "anchors": ["src/config/uint.c:parse_argv_uint", "src/config/uint.c:parse_json_uint", "src/config.c:options"]}
{"id": "C65", "title": "A PDU send that reports success wrote the whole PDU", "statement": "When sending a PDU reports success, all its bytes were handed to the socket; when it reports an error, none were.", "quantifier": "all poll/write outcomes, all PDUs", "why_tests_cant": "Short writes only happen under back-pressure.", "anchors": ["src/rtr/pdu_sender.c:send_response"]}
{"id": "C66", "title": "End to end: a router that processes the bytes it receives ends with exactly the published data", "statement": "A router that decodes the bytes of a complete response by RFC 8210 and processes them strictly ends with exactly the newest published data set and its serial, whatever data set it had before, provided that the server still has the deltas.", "quantifier": "all histories of validation cycles, all data sets, both protocol versions, both query kinds", "why_tests_cant": "All histories and data sets.", "anchors": ["src/rtr/pdu_handler.c:handle_serial_query_pdu", "src/rtr/pdu_handler.c:handle_reset_query_pdu", "src/rtr/pdu_sender.c:send_prefix_pdu", "src/rtr/db/vrps.c:vrps_foreach_delta_since"]}
{"id": "C67", "title": "The request parser terminates whatever arrives", "statement": "A call of the request parser returns after at most as many rounds of reading as there are bytes available on the socket.", "quantifier": "all byte streams, all ways the socket delivers them, all parser states", "why_tests_cant": "Only a bug for particular fragmentations would show as an endless loop.", "anchors": ["src/rtr/pdu_stream.c:pdustream_next", "src/rtr/pdu_stream.c:update_buffer"]}
{"id": "C68", "title": "Error Reports carry a version the server speaks", "statement": "Every Error Report the request parser sends has version 0 or 1.", "quantifier": "all byte streams, all parser states", "why_tests_cant": "Needs a first PDU with both an unknown version and an excessive length.", "anchors": ["src/rtr/pdu_stream.c:pdustream_next", "src/rtr/pdu_stream.c:validate_rtr_version"]}
{"id": "C69", "title": "No certificate content aborts the validator", "statement": "Whatever the resource extensions of a certificate contain, reading them ends with success or with an error for this certificate; it does not end the process.", "quantifier": "all certificates of all types, all issuers", "why_tests_cant": "All extension contents in all states.", "anchors": ["src/resource.c:inherit_aors", "src/resource.c:inherit_asiors", "src/object/certificate.c:__certificate_get_resources"]}
{"id": "C70", "title": "Objects that must inherit have no resources of their own", "statement": "The end entity certificate of a Ghostbusters record is given no AS number or address other than by inheriting all of its issuer's.", "quantifier": "all certificates, all issuers", "why_tests_cant": "All extension contents.", "anchors": ["src/resource.c:add_aors", "src/resource.c:add_asiors", "src/object/ghostbusters.c:ghostbusters_traverse"]}
{"id": "C71", "title": "A VRP says what the ROA says", "statement": "An accepted ROA yields exactly one VRP per address, in order, each with the AS number, the prefix and the max length that the ROA encodes.", "quantifier": "all accepted ROAs", "why_tests_cant": "All contents and lengths.", "anchors": ["src/object/roa.c:__handle_roa"]}
{"id": "C72", "title": "Only profile-compliant resource extensions are accepted", "statement": "The resources of a certificate are accepted only if: there is an IP or AS extension of the certificate's policy, none twice, none of the other policy; each is critical; IP: one block, or IPv4 then IPv6; AS: numbers present, no routing domain identifiers, no inheritance in BGPsec certificates; lists are not empty.", "quantifier": "all certificates", "why_tests_cant": "All extension lists.", "anchors": ["src/object/certificate.c:__certificate_get_resources", "src/object/certificate.c:handle_ip_extension", "src/resource.c:resources_add_asn"]}
{"id": "C73", "title": "Asserted router keys are announced as written", "statement": "The router key announced for a BGPsec assertion has the AS number, the key identifier and the key of the SLURM file, and reading it stays in bounds.", "quantifier": "all BGPsec assertions", "why_tests_cant": "All keys of all lengths.", "anchors": ["src/slurm/slurm_parser.c:set_router_pub_key", "src/slurm/slurm_loader.c:slurm_bgpsec_assertions_add", "src/types/router_key.c:router_key_init", "src/crypto/base64.c:base64url_decode"]}
{"id": "C74", "title": "What is downloaded for an rsync URL contains the requested file", "statement": "Rsync URLs are widened to their module before they are downloaded. The local file of the URL that was requested is always inside the local directory that is downloaded.", "quantifier": "all rsync URLs, repositories and TAL names", "why_tests_cant": "All URLs, including those with dot segments.", "anchors": ["src/cache/local_cache.c:get_url", "src/types/uri.c:__uri_create"]}
{"id": "C75", "title": "Cleaning up never deletes what was downloaded recently", "statement": "The cleanup at the end of a cycle keeps every cache entry that was attempted in the last week and has its file in place, along with all of its files (for an RRDP notification, those of its repository too).", "quantifier": "all caches, file systems and clock values", "why_tests_cant": "All combinations of overlapping paths.", "anchors": ["src/cache/local_cache.c:cache_cleanup", "src/cache/local_cache.c:cleanup_node", "src/cache/local_cache.c:delete_node_and_cage"]}
{"id": "C76", "title": "The cache's index survives a restart", "statement": "The index written at the end of a cycle, when read at the start of the next one, yields the same entries: URLs, kinds, local paths, timestamps and results.", "quantifier": "all caches", "why_tests_cant": "All entries and values.", "anchors": ["src/cache/local_cache.c:node2json", "src/cache/local_cache.c:json2node", "src/cache/local_cache.c:build_tal_json", "src/cache/local_cache.c:load_tal_json"]}
{"id": "C77", "title": "Cleaning up deletes the right things, inside of the TAL's directory only", "statement": "The cleanup creates nothing, touches nothing outside of the TAL's directory, removes every entry that is expired or has lost its file along with all its files, and leaves no file that belongs to no entry.", "quantifier": "all caches, file systems and clock values", "why_tests_cant": "All file systems.", "anchors": ["src/cache/local_cache.c:cache_cleanup", "src/cache/local_cache.c:delete_unknown_files", "src/cache/local_cache.c:is_cached", "src/file.c:file_rm_rf"]}
{"id": "C78", "title": "Temporary files never share a name", "statement": "Temporary files requested less than 2^32 requests apart, by any threads, have different names, all directly in the cache's tmp directory.", "quantifier": "all request histories and initial counter values", "why_tests_cant": "All interleavings and counter values, including wrap around.", "anchors": ["src/cache/local_cache.c:cache_tmpfile", "src/data_structure/path_builder.c:pb_append_u32"]}
{"id": "C79", "title": "A damaged notification does not block later updates", "statement": "If one download of a notification gives a document that cannot be parsed, a later cycle still asks the server and recovers.", "quantifier": "all servers and histories", "why_tests_cant": "Needs a damaged document followed by arbitrarily many good cycles.", "anchors": ["src/rrdp.c:get_metadata", "src/rrdp.c:rrdp_update"]}
{"id": "C80", "title": "A published file's content is the element's text, decoded", "statement": "The file stored for a publish element is the base64 decoding of the element's whole character content.", "quantifier": "all documents", "why_tests_cant": "All documents, including ones with comments and split text.", "anchors": ["src/rrdp.c:parse_publish", "src/rrdp.c:base64_sanitize", "src/rrdp.c:write_from_uri"]}
{"id": "C81", "title": "An RRDP update touches only its own repository", "statement": "Whatever the documents say, an update writes and deletes files only under its own notification's RRDP directory, besides downloaded files; and an update of one repository does not change the outcome of another's.", "quantifier": "all documents and file systems", "why_tests_cant": "All (hostile) documents, all paths.", "anchors": ["src/rrdp.c:rrdp_update", "src/rrdp.c:handle_publish", "src/rrdp.c:handle_withdraw", "src/types/uri.c:uri_create_caged"]}
{"id": "C82", "title": "A successful RRDP update leaves the repository up to date", "statement": "If an update reports success then the local files are those of the serial in the server's current notification.", "quantifier": "all servers and histories", "why_tests_cant": "All histories, including failures.", "anchors": ["src/rrdp.c:rrdp_update", "src/cache/local_cache.c:cache_download"]}
{"id": "C83", "title": "No document makes an RRDP update crash", "statement": "For every sequence of HTTP answers and XML documents, an update does not dereference null or reach an abort, given what the RELAX NG schema enforces.", "quantifier": "all documents, schedules and file systems", "why_tests_cant": "All documents.", "anchors": ["src/rrdp.c:rrdp_update", "src/rrdp.c:parse_notification", "src/rrdp.c:validate_session", "src/xml/relax_ng.c:relax_ng_parse"]}
{"id": "C84", "title": "The signature that is checked covers the signed attributes", "statement": "For every well-formed encoding of a signed object, the bytes whose signature is checked are the signed attributes as encoded, with the SET OF tag in place of the implicit one.", "quantifier": "all BER encodings of signed objects", "why_tests_cant": "All encodings: definite, indefinite and long-form lengths, any nesting.", "anchors": ["src/object/certificate.c:certificate_validate_signature", "src/asn1/asn1c/ber_tlv_length.c:ber_fetch_length"]}
{"id": "C85", "title": "Object identifiers are compared exactly", "statement": "An object identifier is taken for a known one exactly when it encodes the known one's arcs.", "quantifier": "all encoded object identifiers", "why_tests_cant": "Arcs of any length.", "anchors": ["src/asn1/oid.c:oid2arcs", "src/asn1/asn1c/OBJECT_IDENTIFIER.c:OBJECT_IDENTIFIER_get_single_arc"]}
{"id": "C86", "title": "A signed object is accepted exactly when it complies with RFC 6488", "statement": "A signed object is accepted exactly when it has one signer, one certificate, version 3, SHA-256, RSA, no CRLs, no unsigned attributes, exactly the three signed attributes (in any order) that fit the content, its certificate is good, and the signature verifies.", "quantifier": "all decoded objects", "why_tests_cant": "All combinations of fields and attribute orders.", "anchors": ["src/asn1/signed_data.c:signed_data_validate", "src/object/signed_object.c:signed_object_validate", "src/algorithm.c:validate_cms_signature_algorithm"]}
{"id": "C87", "title": "The content of an accepted object is what its key signed", "statement": "In an accepted object, the key of its certificate signed the attributes, these contain the hash of the content, and replacing the content (or its type) makes it rejected.", "quantifier": "all objects and all modifications of the content", "why_tests_cant": "All modifications.", "anchors": ["src/asn1/signed_data.c:validate_signed_attrs", "src/asn1/signed_data.c:validate_message_digest_attribute", "src/object/certificate.c:certificate_validate_signature"]}
{"id": "C88", "title": "Malformed times are rejected", "statement": "A manifest's thisUpdate/nextUpdate is accepted only if its text is a GeneralizedTime of an existing moment, and is then compared as that moment.", "quantifier": "all byte strings", "why_tests_cant": "All texts.", "anchors": ["src/asn1/asn1c/GeneralizedTime.c:asn_GT2time_frac"]}
{"id": "C89", "title": "A manifest is used exactly when it is sound, signed and its certificate names its CRL and URI", "statement": "A manifest object yields a publication point only if its contents validate, its signature and EE certificate validate under the listed CRL, and the EE certificate's CRL and signedObject URIs are the listed CRL and the manifest itself; every failure releases the publication point.", "quantifier": "all manifests and outcomes of each step", "why_tests_cant": "All combinations of outcomes.", "anchors": ["src/object/manifest.c:handle_manifest", "src/object/manifest.c:validate_manifest", "src/certificate_refs.c:refs_validate_ee"]}
{"id": "C90", "title": "Publication points are neither leaked nor used after they're freed", "statement": "Whatever the tree and whatever fails, the traversal never touches a publication point that was released, never aborts on an inconsistent stack, and has released all of them when it ends.", "quantifier": "all trees, failures and lengths of execution", "why_tests_cant": "All tree shapes and failure patterns.", "anchors": ["src/rpp.c:rpp_refget", "src/rpp.c:rpp_refput", "src/cert_stack.c:deferstack_pop", "src/cert_stack.c:x509stack_cancel", "src/object/tal.c:handle_tal_uri"]}
{"id": "C91", "title": "Every object is checked against its own publication point's CRL", "statement": "Every certificate, ROA and Ghostbusters record other than the root is validated with the CRL that the manifest listing it lists; only the root is validated without a CRL.", "quantifier": "all trees and failures", "why_tests_cant": "All tree shapes.", "anchors": ["src/rpp.c:rpp_crl", "src/object/certificate.c:certificate_traverse", "src/object/roa.c:roa_traverse"]}
{"id": "C92", "title": "A bad subtree does not affect its siblings", "statement": "The files looked at below a certificate, and their order (depth first), are the same whatever happens to the certificate's siblings.", "quantifier": "all trees and failures", "why_tests_cant": "All tree shapes and failure patterns.", "anchors": ["src/rpp.c:rpp_traverse", "src/object/tal.c:handle_tal_uri"]}
{"id": "C93", "title": "A publication point's CRL is loaded once, and nothing is accepted without it", "statement": "Asking a publication point for its CRL again yields what it yielded the first time, success or failure, whatever happened to the file since; and if it failed, no certificate, ROA or Ghostbusters record of that publication point is looked at.", "quantifier": "all states, files and environments", "why_tests_cant": "All histories.", "anchors": ["src/rpp.c:rpp_crl", "src/object/certificate.c:certificate_traverse", "src/object/roa.c:roa_traverse"]}
{"id": "C94", "title": "A traversal can be abandoned anywhere", "statement": "Destroying the certificate stack, whatever it still holds, drops exactly the references held by deferred certificates and frees a publication point exactly if no other reference remains.", "quantifier": "all stacks and reference counts", "why_tests_cant": "All stacks.", "anchors": ["src/cert_stack.c:certstack_destroy", "src/cert_stack.c:defer_destroy", "src/rpp.c:rpp_refput"]}
{"id": "C95", "title": "A thread pool that can't be created leaves nothing behind", "statement": "thread_pool_create yields a pool with exactly the number of threads asked for, or an error after which no thread uses the pool's memory.", "quantifier": "all patterns of pthread_create failures", "why_tests_cant": "All failure patterns.", "anchors": ["src/thread/thread_pool.c:thread_pool_create", "src/thread/thread_pool.c:spawn_threads"]}
{"id": "C96", "title": "A downloaded file is replaced only by a complete response", "statement": "An HTTP download leaves the cached file as it was unless it succeeds, in which case the file is the complete body of a successful response; temporary files are removed in all other cases; and 'changed' is reported exactly if the file was replaced.", "quantifier": "all sequences of server responses, file system errors and retries", "why_tests_cant": "All interleavings of failures, including failures to flush.", "anchors": ["src/http/http.c:http_download", "src/http/http.c:http_fetch", "src/http/http.c:write_callback"]}
{"id": "C97", "title": "rsync's descriptors and processes are released", "statement": "After each rsync execution both pipe ends were closed exactly once, and the child process was waited for.", "quantifier": "all sequences of poll, read and waitpid results", "why_tests_cant": "All sequences.", "anchors": ["src/rsync/rsync.c:exhaust_read_fds", "src/rsync/rsync.c:rsync_download"]}
{"id": "C98", "title": "rsync output is consumed until its end, within the configured time", "statement": "Reading the child's output succeeds exactly if both streams end, without errors, within the configured time; a signal doesn't make it fail; a transfer that timed out is not a success.", "quantifier": "all event sequences and timeouts", "why_tests_cant": "All sequences and all timeouts.", "anchors": ["src/rsync/rsync.c:exhaust_read_fds"]}
{"id": "C99", "title": "rsync is executed with exactly the configured arguments", "statement": "The rsync process receives the configured arguments in order, with $REMOTE and $LOCAL replaced by the URL and the path, each of which remains a single argument.", "quantifier": "all configured arguments, URLs and paths", "why_tests_cant": "All strings.", "anchors": ["src/rsync/rsync.c:prepare_rsync"]}
{"id": "C100", "title": "Certificates name the CRL and the file they belong to", "statement": "The CRL distribution point of an accepted certificate is the URL of the CRL of its publication point, and the signedObject of the EE certificate of an accepted object is the object's URL.", "quantifier": "all certificates, CRL URLs and object URLs", "why_tests_cant": "All strings, including ones with NULs.", "anchors": ["src/certificate_refs.c:refs_validate_ca", "src/certificate_refs.c:refs_validate_ee", "src/object/certificate.c:handle_cdp"]}
{"id": "C101", "title": "Certificate files are TAs, CAs or router certificates", "statement": "The certificate of a TAL is a trust anchor; any other certificate file is a CA exactly if libcrypto says so, a router certificate (ignored) if it has that extended key usage, and else is rejected.", "quantifier": "all answers of libcrypto, all key purposes", "why_tests_cant": "All combinations.", "anchors": ["src/object/certificate.c:get_certificate_type", "src/object/certificate.c:has_bgpsec_router_eku"]}
{"id": "C102", "title": "The program starts only with a sane configuration", "statement": "Whatever the command line and the configuration files, if the program starts then all numeric options are in their documented ranges and, unless it only prints a file, the expire interval is not less than the refresh and retry intervals, the TAL exists, and the SLURM file, if configured, exists.", "quantifier": "all sequences of command line options, all JSON files, all file systems", "why_tests_cant": "Files and arguments can override each other in any order; the bounds must hold of the result.", "anchors": ["src/config.c:handle_flags_config", "src/config.c:validate_config", "src/json_handler.c:set_config_from_file"]}
{"id": "C103", "title": "Offline means offline", "statement": "If work-offline is set, then neither rsync nor HTTP is used.", "quantifier": "all command lines and files", "why_tests_cant": "Depends on the order in which options are applied.", "anchors": ["src/config/work_offline.c:parse_json_offline", "src/config/work_offline.c:parse_argv_offline", "src/config.c:options"]}
{"id": "C104", "title": "Configuration parsing is memory safe", "statement": "For every command line and every JSON file, reading the configuration does not dereference NULL or leave a buffer.", "quantifier": "all command lines, JSON values", "why_tests_cant": "All JSON types for all options.", "anchors": ["src/config.c:handle_flags_config", "src/json_handler.c:set_config_from_file", "src/config/mode.c:parse_json_mode", "src/config/str.c:string_parse_json"]}
{"id": "C105", "title": "The last setting of an option wins", "statement": "The value of each option is the meaning of the last setting of it on the command line or in configuration files, in the order given, and its documented default if there is none.", "quantifier": "all sequences of options, files and values", "why_tests_cant": "All orders.", "anchors": ["src/config.c:handle_opt", "src/json_handler.c:set_config_from_file", "src/config.c:set_default_values"]}
{"id": "C106", "title": "Lists of addresses are split at the commas", "statement": "server.address on the command line is the list of the non-empty pieces between commas, if there are at most 50, and is rejected otherwise.", "quantifier": "all strings", "why_tests_cant": "All strings; the array is allocated by one pass and filled by another.", "anchors": ["src/config/string_array.c:string_array_parse_argv", "src/str_token.c:token_read", "src/config.c:options"]}
{"id": "C107", "title": "Incidences have the configured actions", "statement": "If the program starts then each incidence has the action of the last element of the configuration files that names it, or its default; unknown names or actions stop the program.", "quantifier": "all JSON files", "why_tests_cant": "All sequences of elements.", "anchors": ["src/incidence/incidence.c:incidence_update", "src/incidence/incidence.c:init_action"]}
{"id": "C108", "title": "The command line tables are complete and within bounds", "statement": "The tables passed to getopt contain exactly the command line options, are terminated, and are written within their buffers.", "quantifier": "all tables of options", "why_tests_cant": "Two passes must agree for every table.", "anchors": ["src/config.c:construct_getopt_options"]}
{"id": "C109", "title": "The exit status says whether there was an error", "statement": "The exit status is zero exactly if there was no error, and never one of the values a shell reserves.", "quantifier": "all int error codes", "why_tests_cant": "All 2^32 values.", "anchors": ["src/main.c:convert_to_result"]}
{"id": "C110", "title": "Each round of the server keeps exactly the healthy connections and queues exactly the requests received", "statement": "After poll reports activity, the connections are the ones that had no error and whose stream is neither ended nor invalid, in the same order, followed by the newly accepted ones; each request that arrived on a healthy connection is queued once; exactly the failed connections and listening sockets are closed; no array is accessed out of bounds.", "quantifier": "all answers of poll, accept, fcntl and the streams, all numbers of servers and clients", "why_tests_cant": "All combinations of events over arrays of any size; compaction happens in place while accept appends.", "anchors": ["src/rtr/rtr.c:fddb_poll", "src/rtr/rtr.c:apply_pollfds", "src/rtr/rtr.c:delete_dead_clients", "src/rtr/rtr.c:accept_new_client"]}
{"id": "C111", "title": "The server closes each of its sockets exactly once", "statement": "In any execution, whenever the server closes a descriptor, that descriptor is still the one of the socket meant; requests are queued only while their connection is open; and once the server has stopped none of its sockets remains open.", "quantifier": "all numbers of rounds, all answers of the system, all interleavings with the response threads and the rest of the program", "why_tests_cant": "Descriptor reuse depends on the interleaving.", "anchors": ["src/rtr/rtr.c:server_cb", "src/rtr/rtr.c:destroy_db", "src/rtr/rtr.c:apply_pollfds"]}
{"id": "C112", "title": "A response is received only by the router that asked for it", "statement": "Every message of a response goes to the connection that made the request (or is lost), never to another connection or to a file.", "quantifier": "all interleavings", "why_tests_cant": "Needs a descriptor to be reused between two messages of a response.", "anchors": ["src/rtr/rtr.c:handle_client_request", "src/rtr/rtr.c:apply_pollfds", "src/rtr/pdu_stream.c:pdustream_next"]}
{"id": "C113", "title": "Responses to a router aren't mixed", "statement": "The messages of a response to a router are contiguous: responses to the same connection are sent in the order of the requests.", "quantifier": "all interleavings and numbers of threads", "why_tests_cant": "Depends on the schedule.", "anchors": ["src/rtr/rtr.c:handle_client_request", "src/thread/thread_pool.c:thread_pool_push"]}
{"id": "C114", "title": "The server keeps accepting connections", "statement": "A listening socket is given up only if it's broken: errors that aren't its own (of a client, or of temporary scarcity) and signals don't close it or end the server.", "quantifier": "all sequences of rounds and errors", "why_tests_cant": "All error sequences; the effect is permanent.", "anchors": ["src/rtr/rtr.c:handle_accept_result", "src/rtr/rtr.c:fddb_poll"]}
{"id": "C115", "title": "Every connected router is notified of new data once, in its protocol version", "statement": "When there's new data each connected router gets exactly one Serial Notify, with the router's version, the session of that version and the current serial number.", "quantifier": "all lists of clients, versions, sessions and serials", "why_tests_cant": "All values.", "anchors": ["src/rtr/rtr.c:rtr_notify", "src/rtr/pdu_sender.c:send_serial_notify_pdu"]}
{"id": "C116", "title": "Notifying routers while others connect is safe", "statement": "The thread that notifies never accesses freed memory, and visits each client once.", "quantifier": "all interleavings of the notification with accepted connections", "why_tests_cant": "Data race: depends on the schedule.", "anchors": ["src/rtr/rtr.c:rtr_notify", "src/rtr/rtr.c:accept_new_client", "src/data_structure/array_list.h:name##_add"]}
{"id": "C117", "title": "Listening addresses are split at the last #", "statement": "host#port is split at the last '#'; the port defaults to server.port if there's no '#'; it's an error exactly if the string ends with '#'.", "quantifier": "all strings", "why_tests_cant": "All strings.", "anchors": ["src/rtr/rtr.c:parse_address"]}
{"id": "C118", "title": "The server starts on all the addresses or on none", "statement": "The start succeeds exactly if all the addresses parse and resolve, and all their sockets and threads can be created; otherwise each descriptor opened is closed, once.", "quantifier": "all lists of addresses and all failures", "why_tests_cant": "All failure points.", "anchors": ["src/rtr/rtr.c:rtr_start", "src/rtr/rtr.c:init_server_fds", "src/rtr/rtr.c:create_server_socket"]}
{"id": "C119", "title": "Array lists keep what's added to them", "statement": "After any sequence of additions a loop visits exactly the elements added, in order, and nothing is written or read out of the allocated memory.", "quantifier": "all sequences of additions", "why_tests_cant": "All lengths (reallocations).", "anchors": ["src/data_structure/array_list.h:name##_add", "src/data_structure/array_list.h:ARRAYLIST_FOREACH"]}
{"id": "C120", "title": "Routers are notified after exactly the validations that changed something", "statement": "The server notifies the routers after the first successful validation and after each later one that succeeded with changes, only then; failures after the first validation don't end the program, unless it's interrupted.", "quantifier": "all sequences of validation results", "why_tests_cant": "All sequences.", "anchors": ["src/main.c:fort_server"]}
{"id": "C121", "title": "Names have one common name and at most one serial number", "statement": "The issuer or subject of a certificate is decoded if and only if it has exactly one common name, at most one serial number and nothing else; the result is that name, and no memory is lost.", "quantifier": "all lists of attributes", "why_tests_cant": "All lists of attributes, of any length.", "anchors": ["src/object/name.c:x509_name_decode", "src/object/name.c:x509_name_put"]}
{"id": "C122", "title": "The issuer of a certificate or CRL is its parent's subject", "statement": "A certificate (other than a trust anchor) or CRL is accepted only if its issuer is the subject of the certificate at the top of the stack; comparing never reads NULL.", "quantifier": "all pairs of names", "why_tests_cant": "All pairs of names, including NULs and repetitions.", "anchors": ["src/object/name.c:validate_issuer_name", "src/object/name.c:x509_name_equals", "src/object/certificate.c:validate_issuer"]}
{"id": "C123", "title": "A trust anchor's key is the TAL's", "statement": "The key of a trust anchor's certificate is accepted if and only if it's a good RSA key, the bytes in the TAL decode entirely to that very key, and the certificate is signed with it; the key is marked valid or invalid accordingly.", "quantifier": "all TALs, certificates and keys", "why_tests_cant": "All byte strings; lengths that differ, trailing bytes.", "anchors": ["src/object/certificate.c:validate_public_key", "src/object/certificate.c:validate_spki", "src/object/certificate.c:decode_spki", "src/object/certificate.c:spki_cmp"]}
{"id": "C124", "title": "Keys follow the algorithms' profile, whatever the version of OpenSSL", "statement": "An RSA key is accepted if and only if it has at least 2048 bits and its exponent is 65537, both with OpenSSL 1 and 3; a router's key if and only if it's on prime256v1.", "quantifier": "all keys", "why_tests_cant": "All sizes and exponents; both implementations must agree.", "anchors": ["src/object/certificate.c:validate_subject_public_key", "src/algorithm.c:validate_certificate_public_key_algorithm_bgpsec"]}
{"id": "C125", "title": "A certificate passes the field checks exactly if it has the RFC 6487 profile", "statement": "The checks on version, serial number, signature algorithm, issuer, subject and public key succeed if and only if all of them are as the profile says, independently of what was validated before, and never access memory they shouldn't.", "quantifier": "all certificates, types, parents and states", "why_tests_cant": "All combinations of fields.", "anchors": ["src/object/certificate.c:certificate_validate_rfc6487"]}
{"id": "C126", "title": "Repeated serial numbers among siblings are reported", "statement": "Among the children of a certificate each serial number is kept once and every repetition causes exactly one warning that mentions a sibling with that number; nothing is rejected because of it; numbers are either kept or released.", "quantifier": "all sequences of children", "why_tests_cant": "All sequences, by induction.", "anchors": ["src/cert_stack.c:x509stack_store_serial"]}
{"id": "C127", "title": "A CRL is accepted exactly if it has the profile", "statement": "A CRL is loaded if and only if it's version 2, RSA with SHA-256, its issuer is the parent, every entry has number and date and no extensions, and its extensions are the parent's key identifier and a CRL number (once, not critical) with no other critical ones; a rejected CRL is released.", "quantifier": "all CRLs and parents", "why_tests_cant": "All lists of entries and extensions.", "anchors": ["src/object/crl.c:crl_load", "src/object/crl.c:crl_validate", "src/object/crl.c:validate_revoked", "src/object/crl.c:validate_extensions"]}
{"id": "C128", "title": "A certificate's chain is accepted exactly if libcrypto verifies it, and stale CRLs only if configured", "statement": "The chain is accepted if and only if it's a trust anchor's, or libcrypto verifies it, or the only complaint is that the CRL expired, the configuration tolerates it, and it's verified once the last CRL's nextUpdate is postponed. The CRLs are restored afterwards, and contexts and copies are released.", "quantifier": "all answers of libcrypto and configurations", "why_tests_cant": "All combinations of failures.", "anchors": ["src/object/certificate.c:certificate_validate_chain", "src/object/certificate.c:verify_cert_crl_stale", "src/object/certificate.c:update_crl_time", "src/object/certificate.c:complain_crl_stale"]}
{"id": "C129", "title": "A Ghostbusters record is accepted exactly if its vCard has the accepted shape, whatever the bytes", "statement": "The vCard of a Ghostbusters record is accepted if and only if, once unfolded, its lines are BEGIN:VCARD, VERSION:4.0, any number of FN:, ORG:, ADR;, TEL;, EMAIL: and EMAIL; properties with at least one FN: and one of the others, and END:VCARD, with nothing after it; letters' case doesn't matter. The parser always ends, and never reads or writes outside of its buffers.", "quantifier": "all byte strings", "why_tests_cant": "All lengths, folds (also at buffer boundaries), embedded NULs and truncations.", "anchors": ["src/object/vcard.c:handle_ghostbusters_vcard", "src/object/vcard.c:__handle_ghostbusters_vcard", "src/object/vcard.c:line_next", "src/object/vcard.c:line_validate", "src/object/vcard.c:line_starts_with"]}
{"id": "C130", "title": "Every record with the profile of RFC 6493 is accepted, and nothing else", "statement": "A Ghostbusters record whose vCard follows the profile (properties may have parameters) is accepted, and a record that's accepted follows it.", "quantifier": "all byte strings", "why_tests_cant": "All combinations of properties and parameters.", "anchors": ["src/object/vcard.c:__handle_ghostbusters_vcard"]}
{"id": "C131", "title": "The CSV output describes the table exactly", "statement": "With --output.format=csv, the ROA output is a header and one row per VRP (ASN, prefix/length, maximum length), the router key output a header and one row per key (ASN and the base64url of SKI and SPKI), in the table's order, and can be read back without loss. Only configured destinations are written, \"-\" is standard output and is never closed, files that can't be opened stay as they were, and no stream is left open.", "quantifier": "all tables, configurations and file systems", "why_tests_cant": "All tables; each buffering schedule of stdio.", "anchors": ["src/output_printer.c:output_print_data", "src/output_printer.c:print_roas", "src/output_printer.c:print_router_keys", "src/output_printer.c:print_roa_csv", "src/output_printer.c:print_router_key_csv", "src/output_printer.c:load_output_file", "src/file.c:file_write"]}
{"id": "C132", "title": "The JSON output is valid JSON and describes the table exactly", "statement": "With --output.format=json, each output is a JSON text: an object whose only member is an array with one object per VRP (asn, prefix, maxLength) or router key (asn, ski, spki), in the table's order; also for empty tables.", "quantifier": "all tables, configurations and file systems", "why_tests_cant": "All tables, including empty ones, and keys that are skipped in any position.", "anchors": ["src/output_printer.c:print_roa_json", "src/output_printer.c:print_router_key_json", "src/output_printer.c:print_roas", "src/output_printer.c:print_router_keys"]}
{"id": "C133", "title": "Output files are never seen half written", "statement": "Whenever the program dies, or the disk fills up, each output file has its previous content or the complete new one.", "quantifier": "all tables, configurations, crash points and failed writes", "why_tests_cant": "All crash points and buffering schedules.", "anchors": ["src/output_printer.c:load_output_file", "src/output_printer.c:print_roas", "src/output_printer.c:print_router_keys", "src/file.c:file_write"]}
{"id": "C134", "title": "What's printed is what's served", "statement": "After a successful update the printed table has exactly the VRPs and router keys that RTR clients are served from then on; when validation or SLURM fail nothing is printed and nothing changes.", "quantifier": "all states and validation results", "why_tests_cant": "All histories of updates.", "anchors": ["src/rtr/db/vrps.c:__vrps_update", "src/output_printer.c:output_print_data"]}
{"id": "C135", "title": "Creating a directory makes it", "statement": "If creating a path of directories succeeds then the directory exists; nothing but it and the directories above it is created, and it succeeds if nothing is in the way.", "quantifier": "all file systems and paths", "why_tests_cant": "All shapes of paths (repeated and trailing slashes), existing files, and permissions.", "anchors": ["src/common.c:mkdir_p", "src/common.c:create_dir", "src/common.c:dir_exists"]}
{"id": "C136", "title": "A file's hash is the hash of everything in it", "statement": "A file is accepted only if it was read to its end without errors and the SHA-256 of its whole content is the expected one; if nothing fails, every such file is accepted; every resource is released on every path.", "quantifier": "all files, block sizes, digests, failures of reads and of libcrypto", "why_tests_cant": "All lengths relative to the block size, and all points where reading fails.", "anchors": ["src/crypto/hash.c:hash_local_file", "src/crypto/hash.c:hash_validate_file", "src/file.c:file_open"]}
{"id": "C137", "title": "A loaded file is whole", "statement": "Loading a file yields exactly as many bytes as it had when it was opened, from its start, or an error with nothing held; it only fails if the file can't be read or shrank.", "quantifier": "all files and failures", "why_tests_cant": "Files change while they are read.", "anchors": ["src/file.c:file_load", "src/file.c:file_open", "src/file.c:file_close"]}
{"id": "C138", "title": "Base64 texts are decoded whole", "statement": "Decoding ends, never writes outside of the buffer, and yields what the text means, whole, for the key of every TAL and every file published by RRDP, regardless of how libcrypto splits its answers.", "quantifier": "all texts, buffer sizes, decoders and splits", "why_tests_cant": "All texts and all sequences of partial reads.", "anchors": ["src/crypto/base64.c:base64_decode", "src/object/tal.c:read_spki", "src/rrdp.c:base64_read"]}
{"id": "C139", "title": "A published file that counts as written is complete", "statement": "If writing a file from an RRDP snapshot or delta succeeds then the file has exactly its content.", "quantifier": "all contents and failures", "why_tests_cant": "All failures of buffered writes.", "anchors": ["src/rrdp.c:write_file", "src/file.c:file_write", "src/file.c:file_close"]}
{"id": "C140", "title": "The cache outlives crashes, and only its own version uses it", "statement": "What runs of a version stored is kept for later runs of the same version, whenever they die; what other versions stored is removed before anything else.", "quantifier": "all histories of runs, versions and crash points", "why_tests_cant": "All histories and crash points.", "anchors": ["src/cache/local_cache.c:init_cache_metafile", "src/cache/local_cache.c:cache_setup", "src/cache/local_cache.c:cache_teardown", "src/cache/local_cache.c:write_simple_file"]}
{"id": "C141", "title": "Print mode recognises files by their first bytes", "statement": "Without the option that says the type, print mode takes a file for a signed object, a certificate or a CRL if and only if its first bytes are that kind's, and never looks outside of what it read.", "quantifier": "all files, and all contents of uninitialised memory", "why_tests_cant": "All 32-byte headers, all lengths of files, and whatever the stack has.", "anchors": ["src/print_file.c:guess_file_type", "src/print_file.c:skip_sequence", "src/print_file.c:skip_integer"]}
{"id": "C142", "title": "What print mode decodes is the file", "statement": "Every parser gets exactly the bytes of the file, in order, however it reads them; and every signed object that the decoder accepts in one piece is accepted.", "quantifier": "all files, all sequences of reads, all places where reads end", "why_tests_cant": "All positions of read boundaries relative to the tags and lengths of the file.", "anchors": ["src/types/bio_seq.c:bioseq_read", "src/print_file.c:bio2ci", "src/asn1/asn1c/OCTET_STRING.c:OCTET_STRING_decode_ber"]}
{"id": "C143", "title": "Print mode shows certificates", "statement": "Every certificate that libcrypto can parse and whose strings are text is printed, and what is printed is what the certificate says.", "quantifier": "all certificates, extensions included, and all failures of allocations", "why_tests_cant": "All shapes of extensions, names, and resources.", "anchors": ["src/asn1/asn1c/Certificate.c:Certificate_bio2json", "src/extension.c:ext2json_unknown", "src/libcrypto_util.c:asn1int2json"]}
{"id": "C144", "title": "Print mode shows CRLs", "statement": "Every CRL that libcrypto can parse and whose strings are text is printed, and what is printed is what the CRL says.", "quantifier": "all CRLs, revocation lists and extensions, and all failures of allocations", "why_tests_cant": "All lists and extensions.", "anchors": ["src/asn1/asn1c/CRL.c:CRL_bio2json", "src/libcrypto_util.c:name2json"]}
{"id": "C145", "title": "Print mode never does anything undefined with a certificate or a CRL", "statement": "Whatever a certificate or CRL contains and whichever allocations fail, printing it stays within its buffers.", "quantifier": "all certificates and CRLs, all failures of allocations", "why_tests_cant": "Attackers choose the contents.", "anchors": ["src/libcrypto_util.c:oid2json", "src/extension.c:p2json", "src/asn1/asn1c/Certificate.c:x509_to_json"]}
{"id": "C146", "title": "Print mode doesn't leak documents", "statement": "Whichever allocations fail, what is left allocated is the document that is returned and nothing else.", "quantifier": "all certificates and CRLs, all failures of allocations", "why_tests_cant": "Every allocation can be the one that fails.", "anchors": ["src/json_util.c:json_object_add", "src/json_util.c:json_array_add", "src/libcrypto_util.c:name2json"]}
{"id": "C147", "title": "What print mode writes can be read back", "statement": "The text of a number, of a byte string and of a prefix determines the number, the byte string and the prefix.", "quantifier": "all numbers, byte strings and prefixes", "why_tests_cant": "All values.", "anchors": ["src/libcrypto_util.c:asn1int2json", "src/libcrypto_util.c:asn1str2json", "src/extension.c:p2json"]}
{"id": "C148", "title": "Print mode shows signed objects", "statement": "Every signed object that can be decoded and whose strings are text is printed, and what is printed is what it says: the signed data, the content (of ROAs: the AS, and each prefix, length and maximum length; of manifests: number, times, files and hashes), the certificates and the signers; nothing undefined happens and nothing is leaked.", "quantifier": "all signed objects, ROAs and manifests, and all failures of allocations", "why_tests_cant": "All shapes of contents, all integers, all optional fields.", "anchors": ["src/asn1/asn1c/ContentInfo.c:ContentInfo_encode_json", "src/asn1/asn1c/EncapsulatedContentInfo.c:EncapsulatedContentInfo_encode_json", "src/asn1/asn1c/ROAIPAddressFamily.c:ROAIPAddressFamily_encode_json", "src/asn1/asn1c/constr_SEQUENCE.c:SEQUENCE_encode_json", "src/asn1/asn1c/INTEGER.c:INTEGER_encode_json"]}
{"id": "C149", "title": "Print mode shows the times of signed objects", "statement": "A GeneralizedTime or UTCTime is shown as YYYY-MM-DD hh:mm:ssZ, the same instant (the century of a UTCTime is the one RFC 5280 says), and what isn't a time isn't shown.", "quantifier": "all texts", "why_tests_cant": "All dates, all garbage.", "anchors": ["src/asn1/asn1c/GeneralizedTime.c:GeneralizedTime_encode_json", "src/asn1/asn1c/GeneralizedTime.c:asn_tm2str", "src/asn1/asn1c/UTCTime.c:UTCTime_encode_json", "src/asn1/asn1c/UTCTime.c:asn_UT2time"]}
{"id": "C150", "title": "Print mode's exit status tells whether the document was written", "statement": "Print mode exits with 0 if and only if the whole document reached its standard output.", "quantifier": "all documents, buffer sizes and amounts of space", "why_tests_cant": "All points where the device gets full.", "anchors": ["src/print_file.c:print_file", "src/print_file.c:__print_file"]}
{"id": "C151", "title": "Messages go where their log was told to", "statement": "Each message of the operation log and of the validation log appears exactly once in the output that was configured for that log (the system's log with the configured facility, or standard error for errors and warnings and standard output for the rest) if the log is enabled and the message's level is wanted, and nowhere otherwise; the configuration of one log doesn't affect the other.", "quantifier": "all configurations of both logs, all levels, all messages, files and dates", "why_tests_cant": "All pairs of configurations.", "anchors": ["src/log.c:log_start", "src/log.c:log_setup", "src/log.c:__syslog", "src/log.c:__vfprintf", "src/log.c:PR_SIMPLE"]}
{"id": "C152", "title": "One message is one line", "statement": "Each line of the console is one message: what was logged can be told from the output.", "quantifier": "all sequences of messages", "why_tests_cant": "Texts come from repositories.", "anchors": ["src/log.c:__vfprintf"]}
{"id": "C153", "title": "Messages say which file they are about", "statement": "Each message carries the name of the innermost file that the thread is processing when it's logged, or none if there's none, however deep files are nested; and the array behind this is never accessed out of bounds.", "quantifier": "all sequences and nestings of files and messages (up to 2^31 deep)", "why_tests_cant": "All nestings; the array is reallocated on the way.", "anchors": ["src/thread_var.c:fnstack_push", "src/thread_var.c:fnstack_peek", "src/thread_var.c:fnstack_pop"]}
{"id": "C154", "title": "Messages of different threads aren't mixed", "statement": "Whatever threads log at the same time, each output has whole messages one after the other, those of each thread in the order it logged them, none lost or repeated, and no thread waits forever.", "quantifier": "all numbers of threads, all messages, all schedules of individual calls", "why_tests_cant": "All interleavings.", "anchors": ["src/log.c:lock_mutex", "src/log.c:unlock_mutex", "src/log.c:__syslog", "src/log.c:__vfprintf"]}
{"id": "C155", "title": "Log messages reach the system's log, and nothing else", "statement": "Each message that is for the system's log arrives there once, in order; nothing that is logged is sent to a router, and logging never closes a descriptor that isn't the log's.", "quantifier": "all configurations, daemons or not, all tables of descriptors, all sequences of opening, closing and logging", "why_tests_cant": "All histories of descriptor numbers being reused.", "anchors": ["src/daemon.c:daemonize", "src/config.c:handle_flags_config", "src/log.c:__syslog"]}
{"id": "C156", "title": "The log configuration is in force after the start", "statement": "Once the program has started, both logs behave as configured (daemons: on the system's log).", "quantifier": "all configurations, all parents, all messages", "why_tests_cant": "All combinations.", "anchors": ["src/daemon.c:daemonize", "src/config.c:handle_flags_config", "src/log.c:log_start"]}
{"id": "C157", "title": "rsync's output goes to the validator", "statement": "The rsync that the validator runs has the pipes as its standard output and error, and no other end of them, whichever descriptors are open.", "quantifier": "all tables of descriptors", "why_tests_cant": "All numbers the pipes can get.", "anchors": ["src/rsync/rsync.c:duplicate_fds", "src/rsync/rsync.c:create_pipes", "src/rsync/rsync.c:handle_child_thread"]}
{"id": "C158", "title": "Ends are noticed", "statement": "The end of an rsync is seen when that rsync ends, and a router sees that its connection is closed when the validator closes it, whatever other threads do at the same time.", "quantifier": "all histories of opening, closing, forking and ending", "why_tests_cant": "All interleavings of threads and processes.", "anchors": ["src/rsync/rsync.c:rsync_download", "src/rsync/rsync.c:exhaust_pipes", "src/rtr/rtr.c:fddb_poll"]}
{"id": "C159", "title": "Nobody else can modify the cache or the output", "statement": "Files and directories that the validator creates have no more permissions than its user's mask allows.", "quantifier": "all masks", "why_tests_cant": "All masks, daemon or not.", "anchors": ["src/daemon.c:daemonize", "src/common.c:create_dir", "src/file.c:file_write"]}
{"id": "C160", "title": "Starting and ending are in order", "statement": "Whichever initialization fails, the work isn't done, exactly what had been initialized is undone, in reverse order and once, and the exit status is that of the failure; if none fails, the work is done and everything is undone.", "quantifier": "all combinations of results", "why_tests_cant": "All failures.", "anchors": ["src/main.c:main"]}
{"id": "C161", "title": "The database is destroyed when nobody uses it", "statement": "The table that routers are served from is destroyed only after the threads that serve it have ended.", "quantifier": "all sequences of results of validations", "why_tests_cant": "All ways for the server to end.", "anchors": ["src/main.c:fort_server", "src/main.c:main", "src/rtr/db/vrps.c:vrps_destroy"]}
{"id": "C162", "title": "Identifiers are known", "statement": "Once the program has started, it knows libcrypto's numbers of all the identifiers that it needs; if that can't be, it doesn't start.", "quantifier": "all answers of libcrypto", "why_tests_cant": "All failures.", "anchors": ["src/nid.c:nid_init", "src/nid.c:register_oid"]}
{"id": "C163", "title": "Downloading TALs doesn't lose TALs", "statement": "Option --init-tals exits with 0 if and only if all TALs were downloaded; those that were are what the servers sent, and those that weren't are as they were.", "quantifier": "all answers of servers, all previous files", "why_tests_cant": "All failures at all points.", "anchors": ["src/init.c:download_tals", "src/init.c:fetch_url", "src/http/http.c:http_fetch"]}
{"id": "C164", "title": "Shared resources behave as copies", "statement": "Validating a trust anchor gives the same VRPs, in the same order, as if each certificate had its own copy of its resources: certificates that inherit share their issuer's sets, but no set is changed, mixed up or freed while something refers to it.", "quantifier": "all repositories (cyclic ones too), all resource extensions, all answers of what is not modelled", "why_tests_cant": "Every tree of certificates, with any pattern of inheritance.", "anchors": ["src/cert_stack.c:init_resources", "src/resource.c", "src/object/certificate.c:certificate_traverse", "src/object/tal.c:handle_tal_uri"]}
{"id": "C165", "title": "Every VRP is authorised", "statement": "Every VRP that a trust anchor yields is stated by a ROA below an unbroken chain of acceptable certificates, no longer than the maximum depth, each listed in the manifest of the next, up to the trust anchor's. All its addresses are among the resources of the ROA's certificate and of every certificate of the chain.", "quantifier": "all repositories, all resource extensions, all answers of what is not modelled, all VRPs", "why_tests_cant": "All trees, all depths, all resources.", "anchors": ["src/object/certificate.c:certificate_traverse", "src/object/roa.c:roa_traverse", "src/resource.c:resources_join", "src/object/tal.c:handle_tal_uri"]}
{"id": "C166", "title": "All that is authorised is published", "statement": "If the files do not change meanwhile, a trust anchor yields exactly the VRPs that are authorised, in whichever order and state things are validated.", "quantifier": "all repositories that answer consistently, all VRPs, all initial states", "why_tests_cant": "All trees; the absence of a VRP has to be ruled out.", "anchors": ["src/object/certificate.c:certificate_traverse", "src/object/roa.c:roa_traverse", "src/object/tal.c:handle_tal_uri"]}
{"id": "C167", "title": "What a TAL yields", "statement": "What a TAL yields comes from one only of its URIs, also if others were tried before: it has no router keys, and its VRPs are authorised by the trust anchor that is there; if the files do not change meanwhile, all that is authorised by it is there.", "quantifier": "all TALs, all download results, all priorities of the protocols, all repositories", "why_tests_cant": "All orders and failures of the attempts.", "anchors": ["src/object/tal.c:do_file_validation", "src/object/tal.c:__handle_tal_uri", "src/cache/local_cache.c:cache_download_alt", "src/rtr/db/vrps.c:handle_roa_v4"]}
{"id": "C168", "title": "From the repositories to the routers", "statement": "After any validation cycles, a router that asks for all the data (or for the changes since an earlier answer) ends with what the last good cycle had to publish: the VRPs that its TALs authorise and that the SLURM rules in force do not filter, and those that they assert. Or it is told to reset, if its data is too old. Cycles in which a TAL does not validate, or the SLURM files cannot be read, change nothing. (The router speaks version 0 or 1, no transmission fails, and no update lands in the middle of a reset.)", "quantifier": "all histories of cycles, all TALs, repositories, SLURM files and routers", "why_tests_cant": "All histories.", "anchors": ["src/rtr/db/vrps.c:__vrps_update", "src/object/tal.c:perform_standalone_validation", "src/slurm/slurm_loader.c:slurm_apply", "src/rtr/pdu_handler.c:handle_reset_query_pdu", "src/rtr/pdu_handler.c:handle_serial_query_pdu"]}
{"id": "C169", "title": "Decoding ends", "statement": "Decoding any bytes as an object of any of the types that are decoded (content info, signed data, ROA, manifest, the resource extensions of certificates, and parts of these) ends.", "quantifier": "all byte strings, all ten types", "why_tests_cant": "All inputs.", "anchors": ["src/asn1/decode.c:asn1_decode", "src/asn1/asn1c/constr_CHOICE.c:CHOICE_decode_ber", "src/asn1/asn1c/constr_SEQUENCE.c:SEQUENCE_decode_ber", "src/asn1/asn1c/OCTET_STRING.c:OCTET_STRING_decode_ber"]}
{"id": "C170", "title": "Decoding is memory safe", "statement": "Whatever the bytes are, decoding them, and checking the constraints of the result, reads nothing outside of the buffer, and no assertion fails.", "quantifier": "all byte strings, all ten types", "why_tests_cant": "All inputs.", "anchors": ["src/asn1/decode.c:asn1_decode", "src/asn1/asn1c/ber_decoder.c:ber_check_tags", "src/asn1/asn1c/constr_SEQUENCE.c:SEQUENCE_decode_ber", "src/asn1/asn1c/constr_SET_OF.c:SET_OF_decode_ber", "src/asn1/asn1c/OCTET_STRING.c:OCTET_STRING_decode_ber", "src/asn1/asn1c/UTCTime.c:UTCTime_constraint"]}
{"id": "C171", "title": "The decoded object is the one that is encoded", "statement": "If bytes are accepted as an object, then they begin with a BER encoding of that object: all tags, lengths and contents are those of the values.", "quantifier": "all byte strings, all ten types", "why_tests_cant": "All inputs.", "anchors": ["src/asn1/decode.c:asn1_decode", "src/asn1/asn1c/ber_decoder.c:ber_check_tags", "src/asn1/asn1c/constr_SEQUENCE.c:SEQUENCE_decode_ber", "src/asn1/asn1c/constr_CHOICE.c:CHOICE_decode_ber", "src/asn1/asn1c/constr_SET_OF.c:SET_OF_decode_ber", "src/asn1/asn1c/OCTET_STRING.c:OCTET_STRING_decode_ber", "src/asn1/asn1c/asn_codecs_prim.c:ber_decode_primitive"]}
{"id": "C172", "title": "DER encodings are decoded", "statement": "The DER encoding of any object is decoded to that object, whatever follows; and so DER encodings are unambiguous.", "quantifier": "all objects of all ten types, in less than 2^62 bytes", "why_tests_cant": "All objects, all sizes.", "anchors": ["src/asn1/decode.c:asn1_decode", "src/asn1/asn1c/ber_decoder.c:ber_check_tags", "src/asn1/asn1c/constr_SEQUENCE.c:SEQUENCE_decode_ber", "src/asn1/asn1c/constr_CHOICE.c:CHOICE_decode_ber", "src/asn1/asn1c/constr_SET_OF.c:SET_OF_decode_ber"]}
{"id": "C173", "title": "Only DER is accepted", "statement": "An object is accepted only if the bytes are its DER encoding, and nothing else (RFC 6488, 3.1.l).", "quantifier": "all byte strings", "why_tests_cant": "All inputs.", "anchors": ["src/asn1/decode.c:asn1_decode", "src/asn1/content_info.c:decode"]}
{"id": "C174", "title": "Decoded objects are complete", "statement": "An accepted object has all its mandatory members, exactly one alternative of each CHOICE, and fewer than 8 unused bits in each bit string; so the program finds what it reads.", "quantifier": "all byte strings, all ten types", "why_tests_cant": "All inputs.", "anchors": ["src/asn1/decode.c:asn1_decode", "src/asn1/asn1c/constr_SEQUENCE.c:SEQUENCE_decode_ber"]}
{"id": "C175", "title": "Accepted objects comply with their ASN.1 modules' constraints", "statement": "An accepted object complies with the constraints of its ASN.1 module: at least one address block in a ROA, at least one address in a block, two or three octets in an address family, no negative manifest number, ASCII file names.", "quantifier": "all byte strings, all ten types", "why_tests_cant": "All inputs.", "anchors": ["src/asn1/decode.c:asn1_decode", "src/asn1/asn1c/constr_SEQUENCE.c:SEQUENCE_constraint", "src/asn1/asn1c/constr_SET_OF.c:SET_OF_constraint", "src/asn1/asn1c/RouteOriginAttestation.c:memb_ipAddrBlocks_constraint_1", "src/asn1/asn1c/Manifest.c:memb_manifestNumber_constraint_1"]}
{"id": "C176", "title": "Routers are told what ROAs say", "statement": "A ROA whose content an issuer wrote as RFC 6482 and DER prescribe, in a correct signed object, is accepted if and only if all its prefixes belong to its certificate; then it yields exactly one VRP for each prefix, with the AS number, the prefix and the maximum length that the issuer meant.", "quantifier": "all ROAs, all resources of the certificate, all bytes that follow", "why_tests_cant": "All objects, of all sizes, through decoder and validation.", "anchors": ["src/object/roa.c:decode_roa", "src/object/roa.c:handle_roa_v4", "src/object/roa.c:handle_roa_v6", "src/object/roa.c:roa_traverse", "src/asn1/decode.c:asn1_decode"]}
{"id": "C177", "title": "Bits after the length of a prefix", "statement": "A ROA whose prefix has bits set after its length is refused.", "quantifier": "all ROAs", "why_tests_cant": "All inputs.", "anchors": ["src/object/roa.c:handle_roa_v4", "src/types/address.c:prefix4_decode", "src/asn1/asn1c/BIT_STRING.c:BIT_STRING_constraint"]}
{"id": "C178", "title": "What the program reads in decoded objects is there", "statement": "For all bytes, decoding a ROA, a manifest or a resource extension ends, and yields an error or an object in which each member that the rest of the program reads is there and of its type.", "quantifier": "all byte strings", "why_tests_cant": "All inputs.", "anchors": ["src/object/roa.c:decode_roa", "src/object/manifest.c:decode_manifest", "src/object/certificate.c:handle_ip_extension", "src/object/certificate.c:handle_asn_extension"]}
{"id": "C179", "title": "Certificates have the resources that issuers write", "statement": "A certificate with correct resource extensions, in any order among other extensions, is accepted if and only if the issuer has all the resources that it lists, and then it has exactly these resources (those of the issuer, where it inherits); and a ROA signed with such a certificate is accepted if and only if moreover its prefixes are among them.", "quantifier": "all resources, all issuers, all orders of extensions", "why_tests_cant": "All objects and all resource sets.", "anchors": ["src/object/certificate.c:certificate_get_resources", "src/object/certificate.c:handle_ip_extension", "src/object/certificate.c:handle_asn_extension", "src/resource.c:resources_add_ip", "src/resource.c:resources_add_asn"]}
{"id": "C180", "title": "Trust anchors have the resources that they list", "statement": "A trust anchor with correct resource extensions, none of which inherits, is accepted, and has exactly the resources that are written.", "quantifier": "all resources", "why_tests_cant": "All objects.", "anchors": ["src/object/certificate.c:certificate_get_resources", "src/object/certificate.c:handle_ip_extension", "src/object/certificate.c:handle_asn_extension"]}
{"id": "C181", "title": "Manifests vouch for the files that issuers list", "statement": "With a strict configuration, a manifest written as RFC 6486 and DER prescribe is accepted if and only if all listed files are in the cache with the listed hashes, exactly one of them is a CRL, the CRL and the signature are good, the certificate names the CRL and the manifest, and the time is between thisUpdate and nextUpdate; and the publication point consists of the listed files.", "quantifier": "all manifests, caches, random numbers and dates", "why_tests_cant": "All objects, of all sizes, and all random numbers.", "anchors": ["src/object/manifest.c:decode_manifest", "src/object/manifest.c:build_rpp", "src/object/manifest.c:validate_manifest", "src/object/manifest.c:handle_manifest"]}
{"id": "C182", "title": "What is accepted was signed", "statement": "If a signed object is accepted, then the key of its certificate signed octets which, decoded on their own, are exactly three attributes that name the object's type and the SHA-256 digest of the content that the program goes on with.", "quantifier": "all files, all certificates and signatures", "why_tests_cant": "All byte strings: the signed octets are found by a second, hand-written parser which must agree with the decoder on every accepted file.", "anchors": ["src/asn1/signed_data.c:find_signedAttrs", "src/asn1/signed_data.c:signed_data_decode", "src/asn1/signed_data.c:signed_data_validate", "src/object/signed_object.c:signed_object_decode", "src/object/signed_object.c:signed_object_validate", "src/asn1/content_info.c:content_info_load"]}
{"id": "C183", "title": "A signature is for one content", "statement": "Signed octets stand for one type and one digest, so files that are accepted on the strength of the same signed octets have the same type and the same content digest; and if nothing was signed, no file is accepted.", "quantifier": "all files, all signed octets", "why_tests_cant": "All pairs of byte strings.", "anchors": ["src/asn1/signed_data.c:find_signedAttrs", "src/asn1/signed_data.c:validate_signed_attrs", "src/object/signed_object.c:signed_object_validate"]}
{"id": "C184", "title": "No signed object crashes or hangs the program", "statement": "For every file: decoding, the checks, the decoding of attribute values and the search for the signed octets end, read no byte outside of the buffers, and follow no null pointer.", "quantifier": "all files below 1 GiB", "why_tests_cant": "All byte strings.", "anchors": ["src/asn1/signed_data.c:find_signedAttrs", "src/asn1/signed_data.c:signed_data_decode", "src/asn1/signed_data.c:signed_data_decode_pkcs7", "src/asn1/signed_data.c:validate_content_type_attribute", "src/asn1/signed_data.c:validate_message_digest_attribute", "src/asn1/content_info.c:content_info_load"]}
{"id": "C185", "title": "Correct signed objects are accepted", "statement": "A signed object written as RFC 5652 and RFC 6488 prescribe, with its three attributes in any order and whatever follows it in the file, is accepted if and only if its digest is the content's, its certificate is accepted and the certificate's key signed the attributes; then the program goes on with exactly the content that the issuer wrote.", "quantifier": "all contents, certificates, digests, signatures and attribute orders", "why_tests_cant": "All objects of all sizes: each length can need any number of octets.", "anchors": ["src/object/signed_object.c:signed_object_decode", "src/object/signed_object.c:signed_object_validate", "src/asn1/signed_data.c:signed_data_validate", "src/asn1/signed_data.c:find_signedAttrs", "src/asn1/content_info.c:content_info_load"]}
{"id": "C186", "title": "Where an object ends", "statement": "Each accepted encoding ends at one place, which is known from the bytes before it: with other bytes after it the result is the same, a file that stops before it is refused, and no encoding is the beginning of another one.", "quantifier": "all byte strings, all types that are decoded", "why_tests_cant": "All byte strings and all continuations.", "anchors": ["src/asn1/decode.c:asn1_decode", "src/asn1/asn1c/ber_decoder.c:ber_decode", "src/asn1/asn1c/constr_SEQUENCE.c:SEQUENCE_decode_ber", "src/asn1/asn1c/constr_SET_OF.c:SET_OF_decode_ber", "src/asn1/asn1c/constr_CHOICE.c:CHOICE_decode_ber", "src/asn1/asn1c/OCTET_STRING.c:OCTET_STRING_decode_ber"]}
{"id": "C187", "title": "From the file of a ROA to the VRPs", "statement": "The VRPs that come out of a ROA's file are exactly those its issuer wrote, and they come out if and only if the CRL was loaded, the digest is the content's, the certificate passes and its key signed the attributes, its references are right, and its issuer has the resources. Whatever the file is: if VRPs come out, the key of an accepted certificate signed the digest of a ROA that lists them.", "quantifier": "all files, ROAs, certificates and resource stacks", "why_tests_cant": "All byte strings.", "anchors": ["src/object/roa.c:roa_traverse", "src/object/roa.c:decode_roa", "src/object/roa.c:__handle_roa", "src/object/signed_object.c:signed_object_decode", "src/object/signed_object.c:signed_object_validate"]}
{"id": "C188", "title": "From the file of a manifest to the publication point", "statement": "With strict incidences, a manifest's file is accepted if and only if the listed files are in the cache with the listed hashes, exactly one is a CRL and it is good, the digest is the content's, the certificate passes according to that CRL and its key signed the attributes, it names the CRL and the manifest, and now is between thisUpdate and nextUpdate; the files that the program goes on with are the listed ones. Whatever the file is: if it is accepted, the key of an accepted certificate signed the digest of a manifest that lists these files.", "quantifier": "all files, manifests, certificates and caches", "why_tests_cant": "All byte strings.", "anchors": ["src/object/manifest.c:handle_manifest", "src/object/manifest.c:decode_manifest", "src/object/manifest.c:build_rpp", "src/object/signed_object.c:signed_object_decode", "src/object/signed_object.c:signed_object_validate"]}
{"id": "C189", "title": "From the bytes of a repository to its VRPs", "statement": "Whatever bytes the manifests and ROAs of a trust anchor consist of: every VRP that it yields is stated by a ROA that is the content of a signed object, below an unbroken chain of accepted certificates; each certificate and the ROA are listed, with their hashes, in a valid manifest that is the content of a signed object of the certificate above; the certificates of these signed objects are accepted, and their keys have signed the types and the digests of the contents; and the VRP's addresses are held by each certificate up to the trust anchor's.", "quantifier": "all repositories, all contents of files below 1 GiB, all certificates, all states and random numbers", "why_tests_cant": "All trees of files of any content.", "anchors": ["src/object/certificate.c:certificate_traverse", "src/object/manifest.c:handle_manifest", "src/object/roa.c:roa_traverse", "src/object/signed_object.c:signed_object_decode", "src/object/signed_object.c:signed_object_validate", "src/certificate_refs.c:refs_validate_ee"]}
{"id": "C190", "title": "What issuers write is published", "statement": "In a repository whose files (below 1 GiB), clock and library verdicts do not change during the validation, with the manifest incidences at their strict setting, and once the validation of the trust anchor has ended: if a chain, not longer than the configured maximum depth, of accepted certificates leads from the trust anchor to a CA, the manifest of each of them was written as RFC 9286 and RFC 6488 prescribe (in any order of the signed attributes, with the hashes of the listed files, which are there, exactly one CRL, and is valid now), and the CA's manifest lists a ROA written as RFC 9582 prescribes whose certificate holds its prefixes, then each of the ROA's prefixes, with its AS and maximum length, is handed to the router.", "quantifier": "all repositories, all chains of any length, all manifests and ROAs an issuer can write, all states and random numbers", "why_tests_cant": "All trees of files of any content, any depth, any order of traversal.", "anchors": ["src/object/certificate.c:certificate_traverse", "src/object/manifest.c:handle_manifest", "src/object/roa.c:roa_traverse", "src/object/signed_object.c:signed_object_decode", "src/object/signed_object.c:signed_object_validate"]}
{"id": "C191", "title": "What is used is what the manifest lists", "statement": "Whatever happens to the local files during a validation (another process, or the download of another publication point): every VRP comes from a ROA whose very octets have the hash that the manifest of its CA lists.", "quantifier": "all repositories, all sequences of changes to the files, all trust anchors", "why_tests_cant": "All schedules of changes.", "anchors": ["src/object/manifest.c:build_rpp", "src/crypto/hash.c:hash_validate_file", "src/object/signed_object.c:signed_object_decode", "src/object/roa.c:roa_traverse"]}
{"id": "C192", "title": "From the bytes of the repositories to the bytes that routers receive", "statement": "After any number of validation cycles, with any TALs, SLURM files and repositories: a router that sends a reset query (or a serial query, after having been synchronized earlier) and decodes the bytes it receives ends with exactly a table in which each VRP is asserted by SLURM, or is stated by the bytes of a ROA below an unbroken chain of accepted certificates and manifests and is not filtered; and in which there is each VRP that an issuer wrote, as the RFCs prescribe, in the last complete cycle, if the files did not change meanwhile and SLURM does not filter it.", "quantifier": "all histories of cycles, all contents of the files, all configurations, all serials, all routers of versions 0 and 1", "why_tests_cant": "All histories, all trees of files of any content.", "anchors": ["src/rtr/db/vrps.c:vrps_update", "src/object/tal.c:perform_standalone_validation", "src/object/certificate.c:certificate_traverse", "src/object/roa.c:roa_traverse", "src/rtr/pdu_handler.c:handle_reset_query_pdu", "src/rtr/pdu_handler.c:handle_serial_query_pdu"]}
{"id": "C193", "title": "Threads share the database safely", "statement": "However the thread that validates and any number of threads that answer routers are scheduled: no table and no delta is used or freed after it was freed; between updates, exactly the current table and the history are allocated; while a thread answers a router, neither the table nor the history nor the serial change; and what a router was sent, when its response is complete, is one whole table, or amounts to the last deltas of one history.", "quantifier": "all schedules, any number of threads, any number of updates and of requests, all tables, all capacities of the history", "why_tests_cant": "All schedules.", "anchors": ["src/rtr/db/vrps.c:vrps_update", "src/rtr/db/vrps.c:__vrps_update", "src/rtr/db/vrps.c:vrps_foreach_base", "src/rtr/db/vrps.c:vrps_foreach_delta_since", "src/rtr/db/deltas_array.c:darray_add"]}
{"id": "C194", "title": "A slow router does not hold up the others", "statement": "Once the validation has ended with new data, the data become available to routers, in whichever order threads run, and whatever any one router does.", "quantifier": "all schedules, any number of threads, all behaviours of the routers", "why_tests_cant": "All schedules; it's about what happens eventually.", "anchors": ["src/rtr/db/vrps.c:__vrps_update", "src/rtr/db/vrps.c:vrps_foreach_base", "src/rtr/pdu_sender.c:send_response"]}
{"id": "C195", "title": "The validation of a TAL does not misuse memory", "statement": "Whatever the TAL, the cache, the repositories, the servers and the libraries contain or do: the thread that validates a TAL does not use something that it has released (be it to print its name in a message), doesn't release anything twice, doesn't use a NULL pointer or one that was never initialised, and its stacks are never found empty or inconsistent (which would abort it); be it until the end, or until any number of certificates has been handled.", "quantifier": "all sequences of outcomes of every check, lookup, download and allocation of an object; any number of URIs, certificates, files, extensions, deltas", "why_tests_cant": "Every path through the error handling of about sixty functions, and their combinations; over trees of any size.", "anchors": ["src/types/uri.c:uri_refget", "src/types/uri.c:uri_refput", "src/rpp.c:rpp_refput", "src/cert_stack.c:deferstack_pop", "src/cert_stack.c:x509stack_cancel", "src/object/certificate.c:certificate_traverse", "src/object/manifest.c:handle_manifest", "src/rrdp.c:rrdp_update", "src/cache/local_cache.c:cache_download", "src/object/tal.c:do_file_validation", "src/state.c:validation_destroy"]}
{"id": "C196", "title": "The validation of a TAL releases everything", "statement": "When the thread that validates a TAL ends, it has released every reference that it took and every object that it created: URIs, publication points, certificates, CRLs, resources, serial numbers, nodes of the cache, RRDP's notifications; whichever errors there were.", "quantifier": "all sequences of outcomes of every check, lookup, download and allocation of an object; any number of URIs, certificates, files, extensions, deltas", "why_tests_cant": "Every path through the error handling; a leak has no visible effect in a test.", "anchors": ["src/types/uri.c:uri_refput", "src/rpp.c:rpp_refput", "src/cert_stack.c:certstack_destroy", "src/object/certificate.c:certificate_traverse", "src/object/manifest.c:build_rpp", "src/rrdp.c:parse_notification", "src/cache/local_cache.c:cache_destroy", "src/object/tal.c:do_file_validation"]}
{"id": "C197", "title": "The main loop does not misuse memory, and keeps only the state", "statement": "Whatever happens in each cycle (any trust anchors, ROAs and router keys; threads that fail; SLURM files that appear, change, are broken or disappear; no changes): after any number of cycles, memory that isn't allocated has never been used or released, and what remains allocated is the last good table with its rows, at most deltas.lifetime deltas, and the current SLURM with its checksums, each once. After the shutdown, nothing remains.", "quantifier": "all numbers of cycles; all sequences of outcomes of every validation, check and file; any number of TALs, ROAs, SLURM files and rules", "why_tests_cant": "Histories of any length, in which each cycle may fail in any of its steps; leaks have no visible effect in a test.", "anchors": ["src/rtr/db/vrps.c:__vrps_update", "src/rtr/db/vrps.c:vrps_destroy", "src/object/tal.c:perform_standalone_validation", "src/object/tal.c:do_file_validation", "src/rtr/db/db_table.c:add_roa", "src/rtr/db/db_table.c:db_table_join", "src/rtr/db/db_table.c:db_table_destroy", "src/rtr/db/db_table.c:compute_deltas", "src/rtr/db/deltas_array.c:darray_add", "src/slurm/slurm_loader.c:slurm_apply", "src/slurm/slurm_loader.c:update_slurm", "src/slurm/slurm_loader.c:load_slurm_files", "src/slurm/slurm_parser.c:handle_json", "src/slurm/slurm_parser.c:load_prefix_array", "src/slurm/db_slurm.c:db_slurm_flush_cache", "src/slurm/db_slurm.c:db_slurm_destroy"]}
{"id": "C198", "title": "The RTR server does not misuse memory, and keeps only its clients and their queries", "statement": "Whatever the clients send, in whichever order they connect, send, disconnect and are served: the RTR server never uses or releases memory that isn't allocated, and what it keeps allocated is a stream per connected client and a task and a request per query that waits or is being served. After the shutdown, nothing remains. So clients can't make its memory grow by coming and going.", "quantifier": "all sequences of bytes, fragmentations, read errors, connections and disconnections of any number of clients; all schedules of the workers; all moments of the shutdown", "why_tests_cant": "Histories of any length, in which each read may fail at any place of any stream.", "anchors": ["src/rtr/pdu_stream.c:pdustream_next", "src/rtr/pdu_stream.c:pdustream_create", "src/rtr/pdu_stream.c:pdustream_destroy", "src/rtr/pdu_stream.c:rtreq_destroy", "src/rtr/pdu_stream.c:load_error_report", "src/rtr/rtr.c:handle_client_request", "src/rtr/rtr.c:accept_new_client", "src/rtr/rtr.c:fddb_poll", "src/rtr/rtr.c:apply_pollfds", "src/rtr/rtr.c:rtr_stop", "src/rtr/rtr.c:rtr_notify", "src/thread/thread_pool.c:thread_pool_push", "src/thread/thread_pool.c:tasks_poll", "src/thread/thread_pool.c:thread_pool_destroy"]}
{"id": "C199", "title": "What is downloaded is what the server has", "statement": "After every HTTP download that reports success \u2014 with a document or with 'not modified' \u2014 the local file is one of the contents that the server had while it was being downloaded. So no change of a repository is overlooked, however often and whenever it changes and is downloaded.", "quantifier": "all histories of publications of a file; all sequences of downloads of it, at all times, each with any failures and retries; all differences between the server's clock and the validator's", "why_tests_cant": "The outcome depends on the history of both sides, and on their clocks.", "anchors": ["src/http/http.c:http_download", "src/http/http.c:get_ims", "src/http/http.c:http_easy_init", "src/http/http.c:http_fetch", "src/http/http.c:do_retries"]}
{"id": "C200", "title": "HTTPS downloads are authenticated and bounded", "statement": "The document of a successful HTTPS download comes from a server that was authenticated: every server asked on the way, however many redirections there are, has a certificate of a trusted authority for its name. There are no more redirections than configured, neither the connection nor the transfer takes longer than configured, and the request is the configured one (URL, user agent, CA path, condition).", "quantifier": "all configurations that the program accepts, all URLs, all transfers that libcurl's documented behaviour allows for the options it's given", "why_tests_cant": "What libcurl does follows from the combination of its options and their defaults, for all servers.", "anchors": ["src/http/http.c:http_easy_init", "src/http/http.c:setopt_long", "src/http/http.c:setopt_str", "src/http/http.c:http_fetch"]}
{"id": "C201", "title": "What rsync says is in the log", "statement": "Every non-empty line that rsync writes to its standard output or its standard error is in the validator's log, whole, once and in order; as an error if it comes from the standard error.", "quantifier": "all that rsync writes to both streams, all ways in which it's divided into reads and interleaved", "why_tests_cant": "How the text is divided into reads depends on the scheduling of two processes.", "anchors": ["src/rsync/rsync.c:log_buffer", "src/rsync/rsync.c:exhaust_read_fds"]}
{"id": "C202", "title": "Launching rsync doesn't affect other files", "statement": "Launching rsync, whether or not it succeeds, doesn't change what's in the files that the validator's other threads are writing: each ends up with the bytes that were written to it, in order, once.", "quantifier": "all sequences of writes, flushes and closes of buffered files by all threads, and launches of rsync between any of them, with an executable or without", "why_tests_cant": "fork copies the memory of the other threads at any moment of their execution.", "anchors": ["src/rsync/rsync.c:handle_child_thread", "src/rsync/rsync.c:rsync_download", "src/file.c:file_write", "src/file.c:file_close", "src/rrdp.c:write_file", "src/http/http.c:write_callback", "src/log.c:log_flush"]}
{"id": "C203", "title": "What the program says is its configuration", "statement": "When it starts, if its log has information messages, the program tells each option of its configuration by its name, with the value that's in effect: the text is one that, given in the command line, sets that value; lists have one message for each element; and the action of each incidence. No undefined behaviour happens while it does so.", "quantifier": "all command lines and configuration files with which the program starts", "why_tests_cant": "The values come from any combination of defaults, files and arguments; each type has its own printing and parsing.", "anchors": ["src/config.c:print_config", "src/config/uint.c:print_uint", "src/config/boolean.c:print_bool", "src/config/str.c:string_print", "src/config/string_array.c:string_array_print", "src/config/log_conf.c:print_log_facility", "src/config/log_conf.c:print_log_level", "src/config/log_conf.c:print_log_output", "src/config/mode.c:print_mode", "src/config/output_format.c:print_output_format", "src/config/filename_format.c:print_filename_format", "src/config/file_type.c:print_file_type", "src/incidence/incidence.c:incidence_print"]}
{"id": "C204", "title": "RRDP updates return the memory they take", "statement": "However many RRDP updates there are, and whatever notifications, snapshots and deltas servers give: as long as the XML library enforces the schema that the program gives it, no update uses or releases memory that isn't allocated, or follows NULL, and each update releases everything it allocated (texts and numbers taken from the documents, hashes, contents, open files, XML readers and references to URIs), whether it succeeds or fails, and wherever it fails.", "quantifier": "all sequences of updates, documents, outcomes of library functions and points of failure", "why_tests_cant": "Each update has hundreds of allocations and of ways to fail; the combinations, and the documents, are unbounded.", "anchors": ["src/rrdp.c:rrdp_update", "src/rrdp.c:parse_notification", "src/rrdp.c:parse_session", "src/rrdp.c:parse_file_metadata", "src/rrdp.c:sort_deltas", "src/rrdp.c:handle_publish", "src/rrdp.c:base64_read", "src/xml/relax_ng.c:relax_ng_parse"]}
{"id": "C205", "title": "Validating certificates, CRLs and signed objects returns the memory it takes", "statement": "Whatever certificates, CRLs, manifests, ROAs and Ghostbusters records a repository has, and wherever their validation fails: the thread that validates them never uses or releases memory that isn't allocated and never follows NULL, and in the end it has released everything it allocated on the way (decoded structures, names, numbers, dates, OIDs, hashes, buffers, open files, OpenSSL contexts, certificates, CRLs and stacks); in between, what's allocated is its stack of certificates and the CRLs of its publication points.", "quantifier": "all sequences of files, in all orders in which certificates are pushed and popped and publication points come and go; all contents, outcomes of library functions and points of failure; with and without debug messages", "why_tests_cant": "There are hundreds of allocations and of ways to fail, and the files are chosen by others; the sequences are unbounded.", "anchors": ["src/object/certificate.c:certificate_traverse", "src/object/certificate.c:certificate_validate_chain", "src/object/certificate.c:verify_cert_crl_stale", "src/object/signed_object.c:signed_object_validate", "src/asn1/signed_data.c:signed_data_validate", "src/asn1/signed_data.c:signed_data_decode_pkcs7", "src/object/name.c:x509_name_decode", "src/object/crl.c:crl_load", "src/rpp.c:rpp_crl", "src/cert_stack.c:x509stack_store_serial", "src/libcrypto_util.c:asn1time2str"]}
{"id": "C206", "title": "Certificates with the policy of RFC 8360 have what they share with their issuers", "statement": "A certificate with the policy of RFC 8360 and correct resource extensions, in any order among other extensions, is accepted, and its resources are those that it lists and its issuer has too (those of the issuer, where it inherits); and a ROA signed with such a certificate is accepted if and only if its prefixes are among them.", "quantifier": "all resources of the certificate, all chains of issuers that a validation can reach, all orders of the extensions; all ROAs", "why_tests_cant": "Which part of each range the issuer has depends on the whole chain; there are as many cases as certificates.", "anchors": ["src/object/certificate.c:certificate_get_resources", "src/resource.c:resources_add_ip", "src/resource.c:resources_add_asn", "src/resource.c:add_prefix4", "src/resource.c:add_range4", "src/resource.c:add_prefix6", "src/resource.c:add_range6", "src/resource.c:add_asn", "src/object/roa.c:roa_traverse"]}
{"id": "C207", "title": "The document that is printed is the one that was named", "statement": "With --mode=print, the document is read from the standard input when nothing or '-' is named, from the file that is named otherwise; unless the name begins with 'rsync://': then it's downloaded with rsync from this URL only, into the place that the validation has for it in the cache if there's a TAL, and into a new directory that's removed afterwards if there's none. If the download fails nothing is printed, not even an older copy.", "quantifier": "all names, configurations, results of mkdtemp and rsync", "why_tests_cant": "Names are arbitrary strings.", "anchors": ["src/print_file.c:filename2bio", "src/print_file.c:rsync2bio", "src/print_file.c:rsync2bio_cache", "src/print_file.c:rsync2bio_tmpdir", "src/types/uri.c:uri_create", "src/data_structure/path_builder.c:pb_append"]}
{"id": "C208", "title": "rsync's processes keep nothing open that isn't theirs", "statement": "When the rsync of a download ends, the validator sees the end of its output, and never before, whatever other downloads run: when it waits, it waits for this rsync. (C158 is about when ends of anything are seen.) A connection that the validator closes is closed for its router, and the addresses that it listened on are free when it has ended, even if rsyncs run.", "quantifier": "all interleavings of connections, sockets, downloads of any number of threads, and ends of processes", "why_tests_cant": "What a process inherits depends on the moment of fork among the other threads' system calls.", "anchors": ["src/rsync/rsync.c:create_pipes", "src/rsync/rsync.c:duplicate_fds", "src/rsync/rsync.c:rsync_download", "src/rsync/rsync.c:exhaust_pipes", "src/rsync/rsync.c:exhaust_read_fds", "src/rtr/rtr.c:accept_new_client", "src/rtr/rtr.c:create_server_socket", "src/rtr/pdu_stream.c:pdustream_destroy"]}
{"id": "C209", "title": "The configuration doesn't misuse memory, and returns what it takes", "statement": "Whatever the command line and the configuration files say, whether they're accepted or not and options are repeated, nothing of the configuration is used or released after its release, and everything has been released when the program ends.", "quantifier": "all command lines and configuration files, and all tables of options", "why_tests_cant": "An option can be set any number of times, from several sources, and fail half-way.", "anchors": ["src/config.c:handle_flags_config", "src/config.c:set_default_values", "src/config.c:free_rpki_config", "src/json_handler.c:set_config_from_file", "src/config/str.c:string_parse_argv", "src/config/str.c:string_parse_json", "src/config/string_array.c:string_array_parse_json", "src/config/string_array.c:string_array_parse_argv"]}
{"id": "C210", "title": "Print mode releases what it holds, once", "statement": "Whatever file print mode is given, however it's read, downloaded, guessed and decoded, and wherever this fails, the streams, decoded objects, paths and documents are each released exactly once and not used afterwards.", "quantifier": "all sources, types, sequences of reads, and failures of decoding, printing and allocations", "why_tests_cant": "Streams own each other, and every step can fail.", "anchors": ["src/print_file.c:print_file", "src/print_file.c:guess_file_type", "src/print_file.c:bio2ci", "src/types/bio_seq.c:BIO_new_seq", "src/types/bio_seq.c:bioseq_read", "src/types/bio_seq.c:bioseq_destroy"]}
{"id": "C211", "title": "An rsync gets the time that is configured", "statement": "With rsync.transfer-timeout, the validator gives up waiting for an rsync only when that many seconds have passed since it was launched, and then it does give up, whatever rsync writes and when, and whatever signals the validator gets; 0 means that there's no limit.", "quantifier": "all configured times, all sequences of outputs, errors and signals, and their times", "why_tests_cant": "All timings, and all values of the option, including those that don't fit in what poll takes.", "anchors": ["src/rsync/rsync.c:exhaust_read_fds", "src/rsync/rsync.c:rsync_download"]}
{"id": "C212", "title": "Reversing a path reverses its components", "statement": "Reversing a path builder's path gives the path of the same components (what's between its slashes) in the opposite order, without writing out of its block, and leaves a path that can be used as any other.", "quantifier": "all path builders, with all contents and lengths", "why_tests_cant": "Tests have two or three components of a few lengths; the memory is that of all paths.", "anchors": ["src/data_structure/path_builder.c:pb_reverse", "src/data_structure/path_builder.c:reverse_string"]}
