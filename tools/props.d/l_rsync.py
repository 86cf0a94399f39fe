p("C201","What rsync says is in the log",
 "Every non-empty line that rsync writes to its standard output or its standard error is in the validator's log, whole, once and in order; as an error if it comes from the standard error.",
 "all that rsync writes to both streams, all ways in which it's divided into reads and interleaved", "How the text is divided into reads depends on the scheduling of two processes.",
 ["src/rsync/rsync.c:log_buffer","src/rsync/rsync.c:exhaust_read_fds"],
 "log_buffer byte by byte; messages as a function of the list of reads; an exact description for all reads, the claim if reads end where lines do, and reads in which it's false.")
p("C202","Launching rsync doesn't affect other files",
 "Launching rsync, whether or not it succeeds, doesn't change what's in the files that the validator's other threads are writing: each ends up with the bytes that were written to it, in order, once.",
 "all sequences of writes, flushes and closes of buffered files by all threads, and launches of rsync between any of them, with an executable or without", "fork copies the memory of the other threads at any moment of their execution.",
 ["src/rsync/rsync.c:handle_child_thread","src/rsync/rsync.c:rsync_download","src/file.c:file_write","src/file.c:file_close","src/rrdp.c:write_file","src/http/http.c:write_callback","src/log.c:log_flush"],
 "Buffered files (stdio's buffer and the file under it), fork's copy of the buffers and exit's flush of them; an invariant over all traces; a trace in which a file is damaged.")
