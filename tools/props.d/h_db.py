p("C193","Threads share the database safely",
 "However the thread that validates and any number of threads that answer routers are scheduled: no table and no delta is used or freed after it was freed; between updates, exactly the current table and the history are allocated; while a thread answers a router, neither the table nor the history nor the serial change; and what a router was sent, when its response is complete, is one whole table, or amounts to the last deltas of one history.", "all schedules, any number of threads, any number of updates and of requests, all tables, all capacities of the history", "All schedules.",
 ["src/rtr/db/vrps.c:vrps_update","src/rtr/db/vrps.c:__vrps_update","src/rtr/db/vrps.c:vrps_foreach_base","src/rtr/db/vrps.c:vrps_foreach_delta_since","src/rtr/db/deltas_array.c:darray_add"], "Threads as a transition system, with the lock and the set of allocated objects; an invariant over all reachable states, which says who owns each object and what each thread has.")
p("C194","A slow router does not hold up the others",
 "Once the validation has ended with new data, the data become available to routers, in whichever order threads run, and whatever any one router does.", "all schedules, any number of threads, all behaviours of the routers", "All schedules; it's about what happens eventually.",
 ["src/rtr/db/vrps.c:__vrps_update","src/rtr/db/vrps.c:vrps_foreach_base","src/rtr/pdu_sender.c:send_response"], "Refuted: the invariant that a thread whose router takes no data keeps the lock. What holds: a measure of the threads' remaining work.")
