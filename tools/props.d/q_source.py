p("C207","The document that is printed is the one that was named",
 "With --mode=print, the document is read from the standard input when nothing or '-' is named, from the file that is named otherwise; unless the name begins with 'rsync://': then it's downloaded with rsync from this URL only, into the place that the validation has for it in the cache if there's a TAL, and into a new directory that's removed afterwards if there's none. If the download fails nothing is printed, not even an older copy.",
 "all names, configurations, results of mkdtemp and rsync", "Names are arbitrary strings.",
 ["src/print_file.c:filename2bio","src/print_file.c:rsync2bio","src/print_file.c:rsync2bio_cache","src/print_file.c:rsync2bio_tmpdir","src/types/uri.c:uri_create","src/data_structure/path_builder.c:pb_append"],
 "The functions with a trace of what they do to the outside; the model of URIs and paths (C37).")
