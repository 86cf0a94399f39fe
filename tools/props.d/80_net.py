p("C96","A downloaded file is replaced only by a complete response",
 "An HTTP download leaves the cached file as it was unless it succeeds, in which case the file is the complete body of a successful response; temporary files are removed in all other cases; and 'changed' is reported exactly if the file was replaced.", "all sequences of server responses, file system errors and retries", "All interleavings of failures, including failures to flush.",
 ["src/http/http.c:http_download","src/http/http.c:http_fetch","src/http/http.c:write_callback"], "Response and file system oracles; the code ignores fclose errors (refuted), else proved.")
p("C97","rsync's descriptors and processes are released",
 "After each rsync execution both pipe ends were closed exactly once, and the child process was waited for.", "all sequences of poll, read and waitpid results", "All sequences.",
 ["src/rsync/rsync.c:exhaust_read_fds","src/rsync/rsync.c:rsync_download"], "Event list model with close counters.")
p("C98","rsync output is consumed until its end, within the configured time",
 "Reading the child's output succeeds exactly if both streams end, without errors, within the configured time; a signal doesn't make it fail; a transfer that timed out is not a success.", "all event sequences and timeouts", "All sequences and all timeouts.",
 ["src/rsync/rsync.c:exhaust_read_fds"], "Same model; the code violates three of the claims (refuted with witnesses).")
p("C99","rsync is executed with exactly the configured arguments",
 "The rsync process receives the configured arguments in order, with $REMOTE and $LOCAL replaced by the URL and the path, each of which remains a single argument.", "all configured arguments, URLs and paths", "All strings.",
 ["src/rsync/rsync.c:prepare_rsync"], "List model.")
