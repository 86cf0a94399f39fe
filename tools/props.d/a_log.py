p("C151","Messages go where their log was told to",
 "Each message of the operation log and of the validation log appears exactly once in the output that was configured for that log (the system's log with the configured facility, or standard error for errors and warnings and standard output for the rest) if the log is enabled and the message's level is wanted, and nowhere otherwise; the configuration of one log doesn't affect the other.", "all configurations of both logs, all levels, all messages, files and dates", "All pairs of configurations.",
 ["src/log.c:log_start","src/log.c:log_setup","src/log.c:__syslog","src/log.c:__vfprintf","src/log.c:PR_SIMPLE"], "The two configuration structures with the functions that set them; each message as a list of calls on streams and syslog, compared with a separately specified line.")
p("C152","One message is one line",
 "Each line of the console is one message: what was logged can be told from the output.", "all sequences of messages", "Texts come from repositories.",
 ["src/log.c:__vfprintf"], "Lines of the streams against the sequence of messages. Refuted: texts of repositories are printed with their line feeds. Proved for texts without them.")
p("C153","Messages say which file they are about",
 "Each message carries the name of the innermost file that the thread is processing when it's logged, or none if there's none, however deep files are nested; and the array behind this is never accessed out of bounds.", "all sequences and nestings of files and messages (up to 2^31 deep)", "All nestings; the array is reallocated on the way.",
 ["src/thread_var.c:fnstack_push","src/thread_var.c:fnstack_peek","src/thread_var.c:fnstack_pop"], "The array with its length and size as in the code, against a recursive specification over trees of files and messages.")
p("C154","Messages of different threads aren't mixed",
 "Whatever threads log at the same time, each output has whole messages one after the other, those of each thread in the order it logged them, none lost or repeated, and no thread waits forever.", "all numbers of threads, all messages, all schedules of individual calls", "All interleavings.",
 ["src/log.c:lock_mutex","src/log.c:unlock_mutex","src/log.c:__syslog","src/log.c:__vfprintf"], "Threads that take the lock, make one call at a time and release it; an invariant over all schedules, the shared buffer of syslog included.")
