p("C208","rsync's processes keep nothing open that isn't theirs",
 "When the rsync of a download ends, the validator sees the end of its output, and never before, whatever other downloads run: when it waits, it waits for this rsync. (C158 is about when ends of anything are seen.) A connection that the validator closes is closed for its router, and the addresses that it listened on are free when it has ended, even if rsyncs run.",
 "all interleavings of connections, sockets, downloads of any number of threads, and ends of processes", "What a process inherits depends on the moment of fork among the other threads' system calls.",
 ["src/rsync/rsync.c:create_pipes","src/rsync/rsync.c:duplicate_fds","src/rsync/rsync.c:rsync_download","src/rsync/rsync.c:exhaust_pipes","src/rsync/rsync.c:exhaust_read_fds","src/rtr/rtr.c:accept_new_client","src/rtr/rtr.c:create_server_socket","src/rtr/pdu_stream.c:pdustream_destroy"],
 "A transition system of the validator's threads and the children, with the tables of descriptors; what is open, exactly, by induction on executions.")
