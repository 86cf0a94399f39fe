p("C211","An rsync gets the time that is configured",
 "With rsync.transfer-timeout, the validator gives up waiting for an rsync only when that many seconds have passed since it was launched, and then it does give up, whatever rsync writes and when, and whatever signals the validator gets; 0 means that there's no limit.",
 "all configured times, all sequences of outputs, errors and signals, and their times", "All timings, and all values of the option, including those that don't fit in what poll takes.",
 ["src/rsync/rsync.c:exhaust_read_fds","src/rsync/rsync.c:rsync_download"],
 "A clock beside the model of C98 (proved to be the same function), and POSIX's poll as a predicate of events.")
