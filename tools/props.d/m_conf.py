p("C203","What the program says is its configuration",
 "When it starts, if its log has information messages, the program tells each option of its configuration by its name, with the value that's in effect: the text is one that, given in the command line, sets that value; lists have one message for each element; and the action of each incidence. No undefined behaviour happens while it does so.",
 "all command lines and configuration files with which the program starts", "The values come from any combination of defaults, files and arguments; each type has its own printing and parsing.",
 ["src/config.c:print_config","src/config/uint.c:print_uint","src/config/boolean.c:print_bool","src/config/str.c:string_print","src/config/string_array.c:string_array_print","src/config/log_conf.c:print_log_facility","src/config/log_conf.c:print_log_level","src/config/log_conf.c:print_log_output","src/config/mode.c:print_mode","src/config/output_format.c:print_output_format","src/config/filename_format.c:print_filename_format","src/config/file_type.c:print_file_type","src/incidence/incidence.c:incidence_print"],
 "The printing functions beside the model of the parsers (C102-C108); the messages are specified by the meaning of settings, which the parsers' theorems use; an invariant of all accepted configurations.")
