p("C131","The CSV output describes the table exactly",
 "With --output.format=csv, the ROA output is a header and one row per VRP (ASN, prefix/length, maximum length), the router key output a header and one row per key (ASN and the base64url of SKI and SPKI), in the table's order, and can be read back without loss. Only configured destinations are written, \"-\" is standard output and is never closed, files that can't be opened stay as they were, and no stream is left open.", "all tables, configurations and file systems", "All tables; each buffering schedule of stdio.",
 ["src/output_printer.c:output_print_data","src/output_printer.c:print_roas","src/output_printer.c:print_router_keys","src/output_printer.c:print_roa_csv","src/output_printer.c:print_router_key_csv","src/output_printer.c:load_output_file","src/file.c:file_write"], "Printing yields stdio calls, whose effect on the disk is a nondeterministic relation; the specification is a CSV grammar, proved to be unambiguous.")
p("C132","The JSON output is valid JSON and describes the table exactly",
 "With --output.format=json, each output is a JSON text: an object whose only member is an array with one object per VRP (asn, prefix, maxLength) or router key (asn, ski, spki), in the table's order; also for empty tables.", "all tables, configurations and file systems", "All tables, including empty ones, and keys that are skipped in any position.",
 ["src/output_printer.c:print_roa_json","src/output_printer.c:print_router_key_json","src/output_printer.c:print_roas","src/output_printer.c:print_router_keys"], "Specification: an inductive JSON grammar.")
p("C133","Output files are never seen half written",
 "Whenever the program dies, or the disk fills up, each output file has its previous content or the complete new one.", "all tables, configurations, crash points and failed writes", "All crash points and buffering schedules.",
 ["src/output_printer.c:load_output_file","src/output_printer.c:print_roas","src/output_printer.c:print_router_keys","src/file.c:file_write"], "Refuted (the file is truncated before it's written). Proved: without failing writes, each file has its old content or a prefix of the new one, and nothing else is touched.")
p("C134","What's printed is what's served",
 "After a successful update the printed table has exactly the VRPs and router keys that RTR clients are served from then on; when validation or SLURM fail nothing is printed and nothing changes.", "all states and validation results", "All histories of updates.",
 ["src/rtr/db/vrps.c:__vrps_update","src/output_printer.c:output_print_data"], "The update of C05 is extended with the calls that print.")
