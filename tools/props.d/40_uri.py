p("C37","Cache paths never leave the TAL's directory",
 "For every URL that is accepted, the local path is <repository>/<tal>/<scheme>/ followed by components none of which is empty, '.' or '..'; so no URL can address a file outside its TAL's directory.",
 "all URL strings", "All strings.", ["src/types/uri.c:append_guri","src/types/uri.c:map_simple","src/types/uri.c:map_caged"],
 "Component-wise model of the parser; invariant over the loop.")
p("C38","Path builder operations compose like component lists",
 "Appending components and popping them are inverse; the buffer never exceeds its capacity and the resulting string is the components joined by '/'.", "all sequences of appends and pops", "All sequences, growth boundaries.",
 ["src/data_structure/path_builder.c:pb_appendn","src/data_structure/path_builder.c:pb_pop"], "Buffer model with capacity; refinement to component lists.")
p("C39","Manifest file names cannot escape the manifest's directory",
 "A file name accepted from a manifest has at least 5 characters, only [A-Za-z0-9_-] before the dot, a three-letter extension, no '/' - so the referenced file is a sibling of the manifest.", "all names", "All strings.",
 ["src/types/uri.c:validate_mft_file","src/types/uri.c:str2global"], "Character-level model; decision theorem and path corollary.")
p("C40","Distinct RRDP repositories cannot overwrite each other's files",
 "Files published under different RRDP notification URLs are stored under different local paths.", "all pairs of notification and object URLs", "Needs related URLs.",
 ["src/types/uri.c:map_caged"], "Refuted with two concrete notification URLs; proved for notifications neither of which extends the other.")
p("C41","Each URL is fetched at most once per validation cycle",
 "Within one cycle, however often and in whatever order URLs are requested, each distinct download target is attempted at most once, and every later request returns the result of that attempt, as long as the system's clock is not set back before the cycle's start.", "all request sequences", "All sequences.",
 ["src/cache/local_cache.c:cache_check"], "State machine over requests with a network oracle; invariant on attempt timestamps.")
p("C42","When downloads fail the best cached alternative is used",
 "If none of the alternatives of a repository can be downloaded, the alternative with a usable (successfully downloaded earlier) cached copy whose success is most recent is used; none is used if none was ever successful.", "all node states", "All combinations.",
 ["src/cache/local_cache.c:choose_better","src/cache/local_cache.c:find_node"], "Model and comparison spec; fold maximum lemma.")
p("C43","Alternatives are tried in priority order, stopping at the first success",
 "Among the URLs of a repository, those of the higher-priority protocol are tried first (in listed order on ties), each at most once, and no further URL is tried once one yields a result or a fatal answer.", "all URL lists and outcomes", "All lists.",
 ["src/cache/local_cache.c:cache_download_alt","src/cache/local_cache.c:__cache_download_alt"], "Oracle-driven loop model.")

p("C74","What is downloaded for an rsync URL contains the requested file",
 "Rsync URLs are widened to their module before they are downloaded. The local file of the URL that was requested is always inside the local directory that is downloaded.", "all rsync URLs, repositories and TAL names", "All URLs, including those with dot segments.",
 ["src/cache/local_cache.c:get_url","src/types/uri.c:__uri_create"], "Module extraction modelled on text; compared with the normalized components.")
p("C75","Cleaning up never deletes what was downloaded recently",
 "The cleanup at the end of a cycle keeps every cache entry that was attempted in the last week and has its file in place, along with all of its files (for an RRDP notification, those of its repository too).", "all caches, file systems and clock values", "All combinations of overlapping paths.",
 ["src/cache/local_cache.c:cache_cleanup","src/cache/local_cache.c:cleanup_node","src/cache/local_cache.c:delete_node_and_cage"], "File system as a list of entries; fold invariant over the nodes.")
p("C76","The cache's index survives a restart",
 "The index written at the end of a cycle, when read at the start of the next one, yields the same entries: URLs, kinds, local paths, timestamps and results.", "all caches", "All entries and values.",
 ["src/cache/local_cache.c:node2json","src/cache/local_cache.c:json2node","src/cache/local_cache.c:build_tal_json","src/cache/local_cache.c:load_tal_json"], "JSON tree model of writer and reader; round trip.")
p("C77","Cleaning up deletes the right things, inside of the TAL's directory only",
 "The cleanup creates nothing, touches nothing outside of the TAL's directory, removes every entry that is expired or has lost its file along with all its files, and leaves no file that belongs to no entry.", "all caches, file systems and clock values", "All file systems.",
 ["src/cache/local_cache.c:cache_cleanup","src/cache/local_cache.c:delete_unknown_files","src/cache/local_cache.c:is_cached","src/file.c:file_rm_rf"], "Same model; confinement from the URL mapping theorem.")
p("C78","Temporary files never share a name",
 "Temporary files requested less than 2^32 requests apart, by any threads, have different names, all directly in the cache's tmp directory.", "all request histories and initial counter values", "All interleavings and counter values, including wrap around.",
 ["src/cache/local_cache.c:cache_tmpfile","src/data_structure/path_builder.c:pb_append_u32"], "Injectivity of the hexadecimal printer; counter arithmetic modulo 2^32.")
