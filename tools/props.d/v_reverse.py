p("C212","Reversing a path reverses its components",
 "Reversing a path builder's path gives the path of the same components (what's between its slashes) in the opposite order, without writing out of its block, and leaves a path that can be used as any other.",
 "all path builders, with all contents and lengths", "Tests have two or three components of a few lengths; the memory is that of all paths.",
 ["src/data_structure/path_builder.c:pb_reverse","src/data_structure/path_builder.c:reverse_string"],
 "The loops over the block's bytes; refuted for a path with an empty component (a//bc gives bc/a/), proved for those without; memory safety for all.")
