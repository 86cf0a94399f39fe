p("C110","Each round of the server keeps exactly the healthy connections and queues exactly the requests received",
 "After poll reports activity, the connections are the ones that had no error and whose stream is neither ended nor invalid, in the same order, followed by the newly accepted ones; each request that arrived on a healthy connection is queued once; exactly the failed connections and listening sockets are closed; no array is accessed out of bounds.", "all answers of poll, accept, fcntl and the streams, all numbers of servers and clients", "All combinations of events over arrays of any size; compaction happens in place while accept appends.",
 ["src/rtr/rtr.c:fddb_poll","src/rtr/rtr.c:apply_pollfds","src/rtr/rtr.c:delete_dead_clients","src/rtr/rtr.c:accept_new_client"], "The in-place loops are modelled on arrays with explicit bounds; proved equal to a declarative description.")
p("C111","The server closes each of its sockets exactly once",
 "In any execution, whenever the server closes a descriptor, that descriptor is still the one of the socket meant; requests are queued only while their connection is open; and once the server has stopped none of its sockets remains open.", "all numbers of rounds, all answers of the system, all interleavings with the response threads and the rest of the program", "Descriptor reuse depends on the interleaving.",
 ["src/rtr/rtr.c:server_cb","src/rtr/rtr.c:destroy_db","src/rtr/rtr.c:apply_pollfds"], "Interleaving semantics with a descriptor table; invariant over the remaining actions.")
p("C112","A response is received only by the router that asked for it",
 "Every message of a response goes to the connection that made the request (or is lost), never to another connection or to a file.", "all interleavings", "Needs a descriptor to be reused between two messages of a response.",
 ["src/rtr/rtr.c:handle_client_request","src/rtr/rtr.c:apply_pollfds","src/rtr/pdu_stream.c:pdustream_next"], "Same semantics. The code violates it (refuted: the descriptor is reused by another router, or by a file); proved when no connection is closed while its requests are pending.")
p("C113","Responses to a router aren't mixed",
 "The messages of a response to a router are contiguous: responses to the same connection are sent in the order of the requests.", "all interleavings and numbers of threads", "Depends on the schedule.",
 ["src/rtr/rtr.c:handle_client_request","src/thread/thread_pool.c:thread_pool_push"], "Same semantics. The code violates it (refuted with two threads); proved for a single thread, and for connections with at most one request at a time.")
p("C114","The server keeps accepting connections",
 "A listening socket is given up only if it's broken: errors that aren't its own (of a client, or of temporary scarcity) and signals don't close it or end the server.", "all sequences of rounds and errors", "All error sequences; the effect is permanent.",
 ["src/rtr/rtr.c:handle_accept_result","src/rtr/rtr.c:fddb_poll"], "The code violates it (refuted: ECONNABORTED and EMFILE close the socket for good; a signal ends the thread); proved for the other errors.")
p("C115","Every connected router is notified of new data once, in its protocol version",
 "When there's new data each connected router gets exactly one Serial Notify, with the router's version, the session of that version and the current serial number.", "all lists of clients, versions, sessions and serials", "All values.",
 ["src/rtr/rtr.c:rtr_notify","src/rtr/pdu_sender.c:send_serial_notify_pdu"], "The bytes are decoded by an independent decoder. The code violates it for routers that haven't sent anything (refuted: version 255); proved for the others.")
p("C116","Notifying routers while others connect is safe",
 "The thread that notifies never accesses freed memory, and visits each client once.", "all interleavings of the notification with accepted connections", "Data race: depends on the schedule.",
 ["src/rtr/rtr.c:rtr_notify","src/rtr/rtr.c:accept_new_client","src/data_structure/array_list.h:name##_add"], "Memory blocks and steps of both threads. The code violates it (refuted: clients are added without the lock); proved if nobody connects meanwhile.")
p("C117","Listening addresses are split at the last #",
 "host#port is split at the last '#'; the port defaults to server.port if there's no '#'; it's an error exactly if the string ends with '#'.", "all strings", "All strings.",
 ["src/rtr/rtr.c:parse_address"], "List model.")
p("C118","The server starts on all the addresses or on none",
 "The start succeeds exactly if all the addresses parse and resolve, and all their sockets and threads can be created; otherwise each descriptor opened is closed, once.", "all lists of addresses and all failures", "All failure points.",
 ["src/rtr/rtr.c:rtr_start","src/rtr/rtr.c:init_server_fds","src/rtr/rtr.c:create_server_socket"], "Resolver and setup oracles; event replay.")
p("C119","Array lists keep what's added to them",
 "After any sequence of additions a loop visits exactly the elements added, in order, and nothing is written or read out of the allocated memory.", "all sequences of additions", "All lengths (reallocations).",
 ["src/data_structure/array_list.h:name##_add","src/data_structure/array_list.h:ARRAYLIST_FOREACH"], "Array with explicit capacity and unwritten slots.")
p("C120","Routers are notified after exactly the validations that changed something",
 "The server notifies the routers after the first successful validation and after each later one that succeeded with changes, only then; failures after the first validation don't end the program, unless it's interrupted.", "all sequences of validation results", "All sequences.",
 ["src/main.c:fort_server"], "List model.")
