p("C135","Creating a directory makes it",
 "If creating a path of directories succeeds then the directory exists; nothing but it and the directories above it is created, and it succeeds if nothing is in the way.", "all file systems and paths", "All shapes of paths (repeated and trailing slashes), existing files, and permissions.",
 ["src/common.c:mkdir_p","src/common.c:create_dir","src/common.c:dir_exists"], "A file system as a partial map from name lists to kinds, with the kernel's path walk. Refuted when stat fails for another reason than ENOENT; proved otherwise.")
p("C136","A file's hash is the hash of everything in it",
 "A file is accepted only if it was read to its end without errors and the SHA-256 of its whole content is the expected one; if nothing fails, every such file is accepted; every resource is released on every path.", "all files, block sizes, digests, failures of reads and of libcrypto", "All lengths relative to the block size, and all points where reading fails.",
 ["src/crypto/hash.c:hash_local_file","src/crypto/hash.c:hash_validate_file","src/file.c:file_open"], "Streams with EOF and error flags; invariant of the reading loop.")
p("C137","A loaded file is whole",
 "Loading a file yields exactly as many bytes as it had when it was opened, from its start, or an error with nothing held; it only fails if the file can't be read or shrank.", "all files and failures", "Files change while they are read.",
 ["src/file.c:file_load","src/file.c:file_open","src/file.c:file_close"], "The content while reading is independent of the size that fstat yielded.")
p("C138","Base64 texts are decoded whole",
 "Decoding ends, never writes outside of the buffer, and yields what the text means, whole, for the key of every TAL and every file published by RRDP, regardless of how libcrypto splits its answers.", "all texts, buffer sizes, decoders and splits", "All texts and all sequences of partial reads.",
 ["src/crypto/base64.c:base64_decode","src/object/tal.c:read_spki","src/rrdp.c:base64_read"], "The decoder is abstract: it's only required to be right about lines of up to 80 characters. Builds on C55. Refuted for short RRDP texts with much white space on the left.")
p("C139","A published file that counts as written is complete",
 "If writing a file from an RRDP snapshot or delta succeeds then the file has exactly its content.", "all contents and failures", "All failures of buffered writes.",
 ["src/rrdp.c:write_file","src/file.c:file_write","src/file.c:file_close"], "Refuted: errors of fclose are ignored. Proved if flushing succeeds.")
p("C140","The cache outlives crashes, and only its own version uses it",
 "What runs of a version stored is kept for later runs of the same version, whenever they die; what other versions stored is removed before anything else.", "all histories of runs, versions and crash points", "All histories and crash points.",
 ["src/cache/local_cache.c:init_cache_metafile","src/cache/local_cache.c:cache_setup","src/cache/local_cache.c:cache_teardown","src/cache/local_cache.c:write_simple_file"], "Runs as functions on the disk; refuted for runs that die before the metafile was ever written, or while it's written; induction over histories otherwise.")
