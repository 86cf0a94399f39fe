p("C55","TAL key text survives line re-wrapping",
 "Re-wrapping the base64 key of a TAL preserves every non-newline character in order, writes within the allocated buffer, and produces lines of bounded length.", "all key texts", "All texts and line break positions.",
 ["src/object/tal.c:base64_sanitize","src/rrdp.c:base64_sanitize"], "Chunk-wise model; content, capacity and line-length theorems (the documented 65 is refuted, 66 proved).")
p("C56","base64url conversion is an exact translation",
 "Converting to base64url and back restores the original base64 text, for all inputs; output contains no '+', '/' or '='.", "all byte strings", "All strings.",
 ["src/crypto/base64.c:base64url_decode","src/crypto/base64.c:to_base64url"], "Character maps and padding arithmetic.")
p("C57","Downloads are retried a bounded number of times",
 "An HTTP (rsync) download is attempted at most retry-count+1 times, retried only on retriable failures, and reports success only if the last attempt succeeded.", "all outcome sequences", "All sequences.",
 ["src/http/http.c:do_retries","src/rsync/rsync.c:rsync_download"], "Loop model over an outcome stream.")
p("C58","A download never stores more than the configured size",
 "Whatever chunks arrive, at most http.max-file-size bytes are written to disk and any larger download is an error.", "all chunk sequences", "All sequences.",
 ["src/http/http.c:write_callback","src/http/http.c:validate_file_size"], "Fold over chunks.")
p("C59","TAL files are parsed as comments, URLs, blank line, key",
 "A TAL is accepted only as optional '#' lines, at least one rsync/https URL line, a blank line and the key; comment lines are only allowed before the URLs.", "all files", "All line sequences.",
 ["src/object/tal.c:read_uris","src/line_file.c:lfile_read"], "Line-list model against a grammar.")
p("C60","Text lines containing NUL are rejected",
 "A line read from a file is returned without its line terminator (LF or CRLF) and only if it contains no NUL byte.", "all byte streams", "All streams.",
 ["src/line_file.c:lfile_read"], "Byte-list model.")
p("C61","Duplicate, wrongly critical, unknown critical or missing extensions reject a certificate",
 "A certificate passes extension validation exactly when each extension that its type (TA, CA, EE) knows appears at most once, has the required criticality and has the contents the profile requires, the extensions that are not known are not critical, and every mandatory one is present; what is taken from the certificate (publication point, manifest, policy, CRL distribution point, issuer, signed object) does not depend on the order of the extensions. No list of extensions ends the process.", "all extension lists of trust anchors, CAs and EEs", "All lists, in all orders.",
 ["src/extension.c:handle_extensions","src/extension.c:handle_extension","src/object/certificate.c:certificate_validate_extensions_ta","src/object/certificate.c:certificate_validate_extensions_ca","src/object/certificate.c:certificate_validate_extensions_ee"], "The walk with its `found` flags, for any table and any callbacks; then the three tables with all their handlers, against a declarative specification of each type of certificate (iff).")
p("C62","At most one URL per access method is used",
 "From an SIA/AIA extension, exactly the only URL of the expected type is taken for each access method; several usable ones, or an unusable one of that type, reject the certificate; locations that aren't URLs or have other schemes are ignored; a missing mandatory one rejects it.", "all access description lists", "All lists.",
 ["src/object/certificate.c:handle_ad","src/object/certificate.c:uri_create_ad"], "Loop model over the URL model of C37.")
p("C63","Key usage must be exactly what the certificate type requires",
 "CA certificates are accepted only with exactly keyCertSign and cRLSign set, EE certificates only with digitalSignature.", "all bit strings", "All bit strings.",
 ["src/object/certificate.c:handle_ku"], "Byte model; specification by bit number.")
p("C64","Numeric options are in range",
 "A numeric option is stored only if the whole text (or JSON value) is a number within the option's documented bounds, and then that number is what is stored; anything else stops the program.", "all strings and JSON values, for each numeric option", "All strings, including signs, white space and numbers of any length.",
 ["src/config/uint.c:parse_argv_uint","src/config/uint.c:parse_json_uint","src/config.c:options"], "Model of strtoul with its wrap-around of negative numbers, which makes the property false for strings with '-' (refuted, exact characterisation proved); proved for all others.")
p("C100","Certificates name the CRL and the file they belong to",
 "The CRL distribution point of an accepted certificate is the URL of the CRL of its publication point, and the signedObject of the EE certificate of an accepted object is the object's URL.", "all certificates, CRL URLs and object URLs", "All strings, including ones with NULs.",
 ["src/certificate_refs.c:refs_validate_ca","src/certificate_refs.c:refs_validate_ee","src/object/certificate.c:handle_cdp"], "Model of certificate_refs.c with C strings on top of C61; equal up to the first NUL; a distribution point with a NUL is the counterexample.")
p("C101","Certificate files are TAs, CAs or router certificates",
 "The certificate of a TAL is a trust anchor; any other certificate file is a CA exactly if libcrypto says so, a router certificate (ignored) if it has that extended key usage, and else is rejected.", "all answers of libcrypto, all key purposes", "All combinations.",
 ["src/object/certificate.c:get_certificate_type","src/object/certificate.c:has_bgpsec_router_eku"], "Direct model.")
p("C102","The program starts only with a sane configuration",
 "Whatever the command line and the configuration files, if the program starts then all numeric options are in their documented ranges and, unless it only prints a file, the expire interval is not less than the refresh and retry intervals, the TAL exists, and the SLURM file, if configured, exists.", "all sequences of command line options, all JSON files, all file systems", "Files and arguments can override each other in any order; the bounds must hold of the result.",
 ["src/config.c:handle_flags_config","src/config.c:validate_config","src/json_handler.c:set_config_from_file"], "Invariant over the list of settings applied; full table of options modelled.")
p("C103","Offline means offline",
 "If work-offline is set, then neither rsync nor HTTP is used.", "all command lines and files", "Depends on the order in which options are applied.",
 ["src/config/work_offline.c:parse_json_offline","src/config/work_offline.c:parse_argv_offline","src/config.c:options"], "Corollary of C105; false if the same file (or a later option) sets rsync.enabled or http.enabled.")
p("C104","Configuration parsing is memory safe",
 "For every command line and every JSON file, reading the configuration does not dereference NULL or leave a buffer.", "all command lines, JSON values", "All JSON types for all options.",
 ["src/config.c:handle_flags_config","src/json_handler.c:set_config_from_file","src/config/mode.c:parse_json_mode","src/config/str.c:string_parse_json"], "UB outcome in the model; a null for an option with a fixed set of words is the counterexample.")
p("C105","The last setting of an option wins",
 "The value of each option is the meaning of the last setting of it on the command line or in configuration files, in the order given, and its documented default if there is none.", "all sequences of options, files and values", "All orders.",
 ["src/config.c:handle_opt","src/json_handler.c:set_config_from_file","src/config.c:set_default_values"], "Settings as a list; fold lemma; meaning of values in the specification.")
p("C106","Lists of addresses are split at the commas",
 "server.address on the command line is the list of the non-empty pieces between commas, if there are at most 50, and is rejected otherwise.", "all strings", "All strings; the array is allocated by one pass and filled by another.",
 ["src/config/string_array.c:string_array_parse_argv","src/str_token.c:token_read","src/config.c:options"], "Model of the tokenizer with array bounds; induction.")
p("C107","Incidences have the configured actions",
 "If the program starts then each incidence has the action of the last element of the configuration files that names it, or its default; unknown names or actions stop the program.", "all JSON files", "All sequences of elements.",
 ["src/incidence/incidence.c:incidence_update","src/incidence/incidence.c:init_action"], "Fold over the elements.")
p("C108","The command line tables are complete and within bounds",
 "The tables passed to getopt contain exactly the command line options, are terminated, and are written within their buffers.", "all tables of options", "Two passes must agree for every table.",
 ["src/config.c:construct_getopt_options"], "Two-pass model with bounds-checked writes.")
p("C109","The exit status says whether there was an error",
 "The exit status is zero exactly if there was no error, and never one of the values a shell reserves.", "all int error codes", "All 2^32 values.",
 ["src/main.c:convert_to_result"], "BitVec model.")
