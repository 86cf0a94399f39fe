p("C155","Log messages reach the system's log, and nothing else",
 "Each message that is for the system's log arrives there once, in order; nothing that is logged is sent to a router, and logging never closes a descriptor that isn't the log's.", "all configurations, daemons or not, all tables of descriptors, all sequences of opening, closing and logging", "All histories of descriptor numbers being reused.",
 ["src/daemon.c:daemonize","src/config.c:handle_flags_config","src/log.c:__syslog"], "Tables with lowest-first allocation and glibc's syslog connection, an invariant over all operations. Refuted for daemons that don't log before they open something; proved otherwise.")
p("C156","The log configuration is in force after the start",
 "Once the program has started, both logs behave as configured (daemons: on the system's log).", "all configurations, all parents, all messages", "All combinations.",
 ["src/daemon.c:daemonize","src/config.c:handle_flags_config","src/log.c:log_start"], "As C151, after the code that starts. Refuted for daemons started by process 1.")
p("C157","rsync's output goes to the validator",
 "The rsync that the validator runs has the pipes as its standard output and error, and no other end of them, whichever descriptors are open.", "all tables of descriptors", "All numbers the pipes can get.",
 ["src/rsync/rsync.c:duplicate_fds","src/rsync/rsync.c:create_pipes","src/rsync/rsync.c:handle_child_thread"], "dup2 and close on functions from numbers to objects; an exact characterisation. Refuted for daemons, proved if 1 and 2 are taken.")
p("C158","Ends are noticed",
 "The end of an rsync is seen when that rsync ends, and a router sees that its connection is closed when the validator closes it, whatever other threads do at the same time.", "all histories of opening, closing, forking and ending", "All interleavings of threads and processes.",
 ["src/rsync/rsync.c:rsync_download","src/rsync/rsync.c:exhaust_pipes","src/rtr/rtr.c:fddb_poll"], "Sets of holders, exact characterisation over all histories. Refuted for concurrent forks, proved without.")
p("C159","Nobody else can modify the cache or the output",
 "Files and directories that the validator creates have no more permissions than its user's mask allows.", "all masks", "All masks, daemon or not.",
 ["src/daemon.c:daemonize","src/common.c:create_dir","src/file.c:file_write"], "Bit vectors. Refuted for daemons (for all masks); proved for the others.")
p("C160","Starting and ending are in order",
 "Whichever initialization fails, the work isn't done, exactly what had been initialized is undone, in reverse order and once, and the exit status is that of the failure; if none fails, the work is done and everything is undone.", "all combinations of results", "All failures.",
 ["src/main.c:main"], "The goto chain against a specification made of takeWhile, filter and reverse.")
p("C161","The database is destroyed when nobody uses it",
 "The table that routers are served from is destroyed only after the threads that serve it have ended.", "all sequences of results of validations", "All ways for the server to end.",
 ["src/main.c:fort_server","src/main.c:main","src/rtr/db/vrps.c:vrps_destroy"], "Events of the server's life. Refuted if the first validation fails; proved otherwise.")
p("C162","Identifiers are known",
 "Once the program has started, it knows libcrypto's numbers of all the identifiers that it needs; if that can't be, it doesn't start.", "all answers of libcrypto", "All failures.",
 ["src/nid.c:nid_init","src/nid.c:register_oid"], "Oracles for libcrypto. Refuted: failures aren't noticed. Proved without failures.")
p("C163","Downloading TALs doesn't lose TALs",
 "Option --init-tals exits with 0 if and only if all TALs were downloaded; those that were are what the servers sent, and those that weren't are as they were.", "all answers of servers, all previous files", "All failures at all points.",
 ["src/init.c:download_tals","src/init.c:fetch_url","src/http/http.c:http_fetch"], "On top of the model of http_fetch (C57, C58). Refuted: the file whose download fails is removed; the rest proved.")
