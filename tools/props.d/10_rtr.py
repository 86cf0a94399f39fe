p("C01","Serial numbers are ordered by RFC 1982",
 "For any two 32-bit serials, `serial_lt(a,b)` is true exactly when going forward from a to b (mod 2^32) takes between 1 and 2^31-1 steps; so it is irreflexive, asymmetric, and leaves exactly the pairs at distance 2^31 (and equal pairs) unordered.",
 "all pairs of 32-bit serial numbers, including wrap-around", "2^64 pairs; the interesting ones sit at the wrap-around and at distance 2^31.",
 ["src/types/serial.c:serial_lt"], "BitVec 32 model of the C expression; decision-logic theorem against (b-a) mod 2^32.")
p("C02","The VRP table is a set",
 "After any sequence of additions, joins and removals, the table contains exactly the payloads that the sequence of set operations says it contains, each once, and its counters equal the number of distinct payloads.",
 "all sequences of table operations and all payloads", "Histories are unbounded and duplicates may arise at any point.",
 ["src/rtr/db/db_table.c:rtrhandler_handle_roa_v4","src/rtr/db/db_table.c:db_table_join","src/rtr/db/db_table.c:db_table_remove_roa"],
 "uthash modelled as its application-order list keyed by the struct bytes; refinement to Finset operations by induction on the operation list.")
p("C03","A delta is the exact difference of two tables",
 "The delta computed between two validation results announces exactly the payloads of new missing from old, withdraws exactly those of old missing from new, mentions each payload once, and is absent exactly when both results hold the same payloads. A router applying it to old obtains new.",
 "all pairs of tables", "All pairs of finite tables.",
 ["src/rtr/db/db_table.c:compute_deltas","src/rtr/db/delta.c:deltas_foreach"],
 "compute_deltas modelled on lists (four loops, six arrays, deltas_foreach order); specification is an independent strict router (rejects duplicate announcements and unknown withdrawals).")
p("C04","The delta history keeps the last `deltas.lifetime` deltas in order",
 "For a lifetime of at least one, after any number of updates the history holds the min(updates, lifetime) newest deltas; asking for the last n visits exactly the n newest ones, oldest first, and asking for more than stored is an error. No slot outside the array is touched.",
 "all lifetimes 1 <= L < 2^31, all numbers of updates, all n", "The circular index arithmetic (unsigned wrap) depends on the position of the write cursor, which takes lifetime-many values.",
 ["src/rtr/db/deltas_array.c:darray_add","src/rtr/db/deltas_array.c:darray_foreach_since"],
 "Concrete circular array with 32-bit index arithmetic and explicit out-of-bounds outcome; refinement to 'last L of the log' by an invariant.")
p("C05","A configured delta lifetime never makes the server touch memory outside the history",
 "For every value of server.deltas.lifetime the configuration accepts, storing a delta stays inside the allocated history.",
 "all accepted lifetimes, including 0", "The failing value is a single boundary of a 2^32 range.",
 ["src/config.c:server.deltas.lifetime","src/rtr/db/deltas_array.c:darray_create","src/rtr/db/deltas_array.c:darray_add"],
 "Same model as C04 with L = 0: the else branch writes slot 0 of an empty array.")
p("C06","Incremental synchronization is exact",
 "A router that holds the data set of an earlier serial s of this session and sends a Serial Query for s either is told to reset, or receives announcements and withdrawals which, applied in the order sent by a strict router, never announce a record it already has, never withdraw one it does not have, and leave it with exactly the data set of the serial named in End of Data.",
 "all histories of validation results, all earlier serials, all lifetimes", "Quantifies over all histories; cancellation across several deltas has unboundedly many patterns.",
 ["src/rtr/db/vrps.c:vrps_foreach_delta_since","src/rtr/db/vrps.c:vrp_ovrd_remove","src/rtr/db/vrps.c:__vrps_update"],
 "State machine over update cycles with a ghost history; invariant 'stored deltas connect consecutive snapshots'; general lemma that cancelling opposite events preserves a strict-router trace.")
p("C07","A serial outside the delta window is answered with Cache Reset",
 "A Serial Query whose serial is not the current one nor one of the stored predecessors gets a Cache Reset, never an (empty) success.",
 "all current serials, all stored counts, all requested serials", "2^32 serials times all counts; only one distance misbehaves.",
 ["src/rtr/db/vrps.c:vrps_foreach_delta_since"],
 "Exact characterization of the accepted serials; counterexample when no delta is stored and the distance is 2^31.")
p("C08","The serial changes exactly when the data changes",
 "An update cycle that fails, or yields the same payloads as before, leaves serial, data and delta history untouched and reports no change; otherwise the serial grows by one (mod 2^32), the data becomes the new result, and a change is reported. The first success has serial 1.",
 "all sequences of update cycles with arbitrary results and failures", "Unbounded histories with failures anywhere.",
 ["src/rtr/db/vrps.c:__vrps_update"], "Same state machine; per-step theorem plus induction over cycles.")
p("C09","End of Data is only sent after every payload was sent",
 "If sending some payload PDU of a response fails, the response is abandoned: the End of Data PDU that would declare the router synchronized is not sent.",
 "all responses and all positions of the failing send", "The failing position ranges over all PDUs of arbitrarily long responses.",
 ["src/rtr/pdu_handler.c:handle_serial_query_pdu","src/rtr/pdu_handler.c:handle_reset_query_pdu","src/rtr/db/vrps.c:vrps_foreach_delta_since"],
 "Send oracle (any subset of sends may fail). Holds for Reset Queries; refuted for Serial Queries: the error of the callback is discarded.")
p("C10","A Reset Query response is one consistent snapshot",
 "The payloads and the serial in the End of Data of a Reset Query response belong to the same validation result, whatever updates run concurrently.",
 "all interleavings of one Reset Query with any number of updates", "A two-lock race window; the schedule has to place an update between two lock acquisitions.",
 ["src/rtr/pdu_handler.c:handle_reset_query_pdu","src/rtr/db/vrps.c:get_last_serial_number","src/rtr/db/vrps.c:vrps_foreach_base"],
 "Interleaving model with one step per lock-protected region; refuted by a schedule, proved when no data-changing update lands between the two regions.")
p("C11","Session IDs identify the protocol version's session",
 "The session IDs of version 0 and version 1 always differ, never change during a run, and a Serial Query with another session ID gets a Corrupt Data error and no payload.",
 "all start times, all requests", "All 2^16 IDs and all times; includes the wrap at 0.",
 ["src/rtr/db/vrps.c:vrps_init","src/rtr/db/vrps.c:get_current_session_id","src/rtr/pdu_handler.c:handle_serial_query_pdu"],
 "BitVec 16 arithmetic plus decision logic of the handler.")
p("C12","Responses follow the RTR grammar",
 "Every response to a query is one of: Cache Response, payloads, End of Data; Cache Reset; one Error Report - or, if a send fails, a prefix of one of these (Serial Query: up to the discarded errors of C09). Version 0 routers never receive router keys; every PDU carries the negotiated version.",
 "all databases, versions, requests", "All database contents and requests.",
 ["src/rtr/pdu_handler.c:handle_serial_query_pdu","src/rtr/pdu_handler.c:handle_reset_query_pdu","src/rtr/pdu_sender.c:send_router_key_pdu"],
 "Handlers modelled as functions from state and send oracle to a list of sent PDUs; grammar as an inductive/decidable spec on PDU lists.")
p("C13","Sent PDUs have the RFC byte layout",
 "Every PDU written to a router has a length field equal to the number of bytes written, and an independent RFC 8210 decoder recovers exactly the version, type, flags, lengths, address, ASN, keys, serial and timers it was built from.",
 "all field values", "All 32-bit/128-bit field values.",
 ["src/rtr/pdu_sender.c:serialize_hdr","src/rtr/pdu_sender.c:send_prefix_pdu","src/rtr/pdu_sender.c:send_router_key_pdu","src/rtr/pdu_sender.c:send_end_of_data_pdu","src/rtr/primitive_writer.c:write_uint32"],
 "Byte lists; round trip with a separately written decoder.")
p("C14","Error Reports embed a bounded prefix of the offending PDU",
 "The encapsulated PDU of an Error Report is a prefix of the received bytes, at most 123 bytes long and never longer than what was received, and all three length fields of the report are consistent.",
 "all received byte strings and messages", "All byte strings, including lying length fields.",
 ["src/rtr/pdu_sender.c:compute_error_pdu_len","src/rtr/pdu_sender.c:send_error_report_pdu"],
 "Byte-list model and independent decoder of the report.")
p("C15","Request parsing does not depend on how TCP fragments the stream",
 "For a client that sends well-formed queries, how the byte stream is cut into reads (one call) or across calls does not lose, duplicate or corrupt PDUs: each call returns the last complete query received so far and leaves the incomplete rest for later.",
 "all byte streams, all fragmentations", "Exponentially many fragmentations.",
 ["src/rtr/pdu_stream.c:pdustream_next","src/rtr/pdu_stream.c:update_buffer"],
 "Buffer model with start/end offsets over reads; invariant and termination; refinement to a parser over the concatenated stream.")
p("C16","The protocol version is fixed by the first PDU",
 "Once a stream has accepted a PDU its version never changes, only versions 0 and 1 are ever accepted, and a PDU with another version ends the session with error 8 (other known version) or 4 (unknown version).",
 "all byte streams", "All streams.",
 ["src/rtr/pdu_stream.c:validate_rtr_version"], "Decision logic plus an invariant over the parser loop.")
p("C17","An Error Report is never answered with an Error Report",
 "No byte sequence starting with an Error Report header makes the server send an Error Report about it.",
 "all byte strings", "All byte strings.",
 ["src/rtr/err_pdu.c:err_pdu_send","src/rtr/pdu_stream.c:pdustream_next"],
 "Effects of one parser iteration recorded as a list of sends.")
p("C18","Parsing a request never reads outside the receive buffer",
 "Whatever bytes an RTR client sends, the parser reads only bytes it has received.",
 "all byte streams and fragmentations", "Requires specific, adversarial length fields near the end of the buffer.",
 ["src/rtr/pdu_stream.c:load_error_report","src/rtr/pdu_stream.c:read_string","src/rtr/err_pdu.c:err_pdu_send"],
 "Reads are modelled with bounds and an out-of-bounds outcome. Refuted twice: Error Report with missing error text; PDU with length < 2 and bad version.")
p("C19","Router-supplied error text is cut to valid UTF-8",
 "The text logged for a received Error Report is the longest prefix of the received text that consists of structurally complete UTF-8 sequences, and the terminator is written within the allocated string.",
 "all byte strings", "All byte strings.",
 ["src/rtr/pdu_stream.c:place_null_character","src/rtr/pdu_stream.c:get_octets"],
 "Recursive model; characterization with an independent inductive definition of well-formed sequences.")
p("C20","A router key certificate yields one key per AS, for any AS range",
 "For an AS range [min,max] the router-key handler registers exactly the keys for AS min..max and terminates, also when max = 2^32-1.",
 "all AS ranges", "The overflow case only shows at the very end of the range.",
 ["src/rtr/db/vrps.c:handle_router_key"], "64-bit loop counter model; induction over the range.")
p("C65","A PDU send that reports success wrote the whole PDU",
 "When sending a PDU reports success, all its bytes were handed to the socket; when it reports an error, none were.",
 "all poll/write outcomes, all PDUs", "Short writes only happen under back-pressure.",
 ["src/rtr/pdu_sender.c:send_response"], "Model of poll/write with the number of bytes taken as input; refuted by a short write.")
p("C66","End to end: a router that processes the bytes it receives ends with exactly the published data",
 "A router that decodes the bytes of a complete response by RFC 8210 and processes them strictly ends with exactly the newest published data set and its serial, whatever data set it had before, provided that the server still has the deltas.",
 "all histories of validation cycles, all data sets, both protocol versions, both query kinds", "All histories and data sets.",
 ["src/rtr/pdu_handler.c:handle_serial_query_pdu","src/rtr/pdu_handler.c:handle_reset_query_pdu","src/rtr/pdu_sender.c:send_prefix_pdu","src/rtr/db/vrps.c:vrps_foreach_delta_since"],
 "Composition of the database, handler and wire models with an independent router specification.")
p("C67","The request parser terminates whatever arrives",
 "A call of the request parser returns after at most as many rounds of reading as there are bytes available on the socket.",
 "all byte streams, all ways the socket delivers them, all parser states", "Only a bug for particular fragmentations would show as an endless loop.",
 ["src/rtr/pdu_stream.c:pdustream_next","src/rtr/pdu_stream.c:update_buffer"], "The goto loop is modelled with fuel; running out of fuel is a distinct outcome, proved unreachable.")
p("C68","Error Reports carry a version the server speaks",
 "Every Error Report the request parser sends has version 0 or 1.",
 "all byte streams, all parser states", "Needs a first PDU with both an unknown version and an excessive length.",
 ["src/rtr/pdu_stream.c:pdustream_next","src/rtr/pdu_stream.c:validate_rtr_version"], "Invariant over the parser; refuted by a too large first PDU, proved otherwise.")
