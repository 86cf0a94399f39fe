p("C209","The configuration doesn't misuse memory, and returns what it takes",
 "Whatever the command line and the configuration files say, whether they're accepted or not and options are repeated, nothing of the configuration is used or released after its release, and everything has been released when the program ends.",
 "all command lines and configuration files, and all tables of options", "An option can be set any number of times, from several sources, and fail half-way.",
 ["src/config.c:handle_flags_config","src/config.c:set_default_values","src/config.c:free_rpki_config","src/json_handler.c:set_config_from_file","src/config/str.c:string_parse_argv","src/config/str.c:string_parse_json","src/config/string_array.c:string_array_parse_json","src/config/string_array.c:string_array_parse_argv"],
 "The heap model of C197: a program logic of what's owned, and a count of what's lost.")
