p("C210","Print mode releases what it holds, once",
 "Whatever file print mode is given, however it's read, downloaded, guessed and decoded, and wherever this fails, the streams, decoded objects, paths and documents are each released exactly once and not used afterwards.",
 "all sources, types, sequences of reads, and failures of decoding, printing and allocations", "Streams own each other, and every step can fail.",
 ["src/print_file.c:print_file","src/print_file.c:guess_file_type","src/print_file.c:bio2ci","src/types/bio_seq.c:BIO_new_seq","src/types/bio_seq.c:bioseq_read","src/types/bio_seq.c:bioseq_destroy"],
 "The heap model of C197, with streams that own others; a document is one object (C146 is about its parts).")
