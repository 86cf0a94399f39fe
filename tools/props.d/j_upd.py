p("C197","The main loop does not misuse memory, and keeps only the state",
 "Whatever happens in each cycle (any trust anchors, ROAs and router keys; threads that fail; SLURM files that appear, change, are broken or disappear; no changes): after any number of cycles, memory that isn't allocated has never been used or released, and what remains allocated is the last good table with its rows, at most deltas.lifetime deltas, and the current SLURM with its checksums, each once. After the shutdown, nothing remains.",
 "all numbers of cycles; all sequences of outcomes of every validation, check and file; any number of TALs, ROAs, SLURM files and rules", "Histories of any length, in which each cycle may fail in any of its steps; leaks have no visible effect in a test.",
 ["src/rtr/db/vrps.c:__vrps_update","src/rtr/db/vrps.c:vrps_destroy","src/object/tal.c:perform_standalone_validation","src/object/tal.c:do_file_validation","src/rtr/db/db_table.c:add_roa","src/rtr/db/db_table.c:db_table_join","src/rtr/db/db_table.c:db_table_destroy","src/rtr/db/db_table.c:compute_deltas","src/rtr/db/deltas_array.c:darray_add","src/slurm/slurm_loader.c:slurm_apply","src/slurm/slurm_loader.c:update_slurm","src/slurm/slurm_loader.c:load_slurm_files","src/slurm/slurm_parser.c:handle_json","src/slurm/slurm_parser.c:load_prefix_array","src/slurm/db_slurm.c:db_slurm_flush_cache","src/slurm/db_slurm.c:db_slurm_destroy"],
 "A heap of objects, with an oracle for everything else; Hoare triples that say which objects a function owns before and after; induction over functions and cycles. A second, quantitative, set of lemmas bounds what is lost.")
p("C198","The RTR server does not misuse memory, and keeps only its clients and their queries",
 "Whatever the clients send, in whichever order they connect, send, disconnect and are served: the RTR server never uses or releases memory that isn't allocated, and what it keeps allocated is a stream per connected client and a task and a request per query that waits or is being served. After the shutdown, nothing remains. So clients can't make its memory grow by coming and going.",
 "all sequences of bytes, fragmentations, read errors, connections and disconnections of any number of clients; all schedules of the workers; all moments of the shutdown", "Histories of any length, in which each read may fail at any place of any stream.",
 ["src/rtr/pdu_stream.c:pdustream_next","src/rtr/pdu_stream.c:pdustream_create","src/rtr/pdu_stream.c:pdustream_destroy","src/rtr/pdu_stream.c:rtreq_destroy","src/rtr/pdu_stream.c:load_error_report","src/rtr/rtr.c:handle_client_request","src/rtr/rtr.c:accept_new_client","src/rtr/rtr.c:fddb_poll","src/rtr/rtr.c:apply_pollfds","src/rtr/rtr.c:rtr_stop","src/rtr/rtr.c:rtr_notify","src/thread/thread_pool.c:thread_pool_push","src/thread/thread_pool.c:tasks_poll","src/thread/thread_pool.c:thread_pool_destroy"],
 "The parser, byte by byte, with a heap; Hoare triples about ownership; a refinement to the parser of C16 and C67; a bound of what is lost by the number of failed reads; a family of runs that loses that much.")
