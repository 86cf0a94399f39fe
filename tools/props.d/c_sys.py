p("C164","Shared resources behave as copies",
 "Validating a trust anchor gives the same VRPs, in the same order, as if each certificate had its own copy of its resources: certificates that inherit share their issuer's sets, but no set is changed, mixed up or freed while something refers to it.", "all repositories (cyclic ones too), all resource extensions, all answers of what is not modelled", "Every tree of certificates, with any pattern of inheritance.",
 ["src/cert_stack.c:init_resources","src/resource.c","src/object/certificate.c:certificate_traverse","src/object/tal.c:handle_tal_uri"], "The traversal (Tree) with the resource sets and ROAs (Res) inside, as a program over a heap; simulation by a recursive walk over values.")
p("C165","Every VRP is authorised",
 "Every VRP that a trust anchor yields is stated by a ROA below an unbroken chain of acceptable certificates, no longer than the maximum depth, each listed in the manifest of the next, up to the trust anchor's. All its addresses are among the resources of the ROA's certificate and of every certificate of the chain.", "all repositories, all resource extensions, all answers of what is not modelled, all VRPs", "All trees, all depths, all resources.",
 ["src/object/certificate.c:certificate_traverse","src/object/roa.c:roa_traverse","src/resource.c:resources_join","src/object/tal.c:handle_tal_uri"], "Over C164's walk: by induction on the depth, a chain of certificates exists (`Certified`, `Asserted`), and containment is transitive along it.")
p("C166","All that is authorised is published",
 "If the files do not change meanwhile, a trust anchor yields exactly the VRPs that are authorised, in whichever order and state things are validated.", "all repositories that answer consistently, all VRPs, all initial states", "All trees; the absence of a VRP has to be ruled out.",
 ["src/object/certificate.c:certificate_traverse","src/object/roa.c:roa_traverse","src/object/tal.c:handle_tal_uri"], "Completeness of C164's walk for steady environments: every chain is found.")
p("C167","What a TAL yields",
 "What a TAL yields comes from one only of its URIs, also if others were tried before: it has no router keys, and its VRPs are authorised by the trust anchor that is there; if the files do not change meanwhile, all that is authorised by it is there.", "all TALs, all download results, all priorities of the protocols, all repositories", "All orders and failures of the attempts.",
 ["src/object/tal.c:do_file_validation","src/object/tal.c:__handle_tal_uri","src/cache/local_cache.c:cache_download_alt","src/rtr/db/vrps.c:handle_roa_v4"], "C43 (the attempts) with C165 and C166 (each attempt) inside: failed attempts add nothing to the table.")
p("C168","From the repositories to the routers",
 "After any validation cycles, a router that asks for all the data (or for the changes since an earlier answer) ends with what the last good cycle had to publish: the VRPs that its TALs authorise and that the SLURM rules in force do not filter, and those that they assert. Or it is told to reset, if its data is too old. Cycles in which a TAL does not validate, or the SLURM files cannot be read, change nothing. (The router speaks version 0 or 1, no transmission fails, and no update lands in the middle of a reset.)", "all histories of cycles, all TALs, repositories, SLURM files and routers", "All histories.",
 ["src/rtr/db/vrps.c:__vrps_update","src/object/tal.c:perform_standalone_validation","src/slurm/slurm_loader.c:slurm_apply","src/rtr/pdu_handler.c:handle_reset_query_pdu","src/rtr/pdu_handler.c:handle_serial_query_pdu"], "C53, C167, C33 and C66 composed: by induction over the cycles; the specification (`Published`, `LastGood`) does not mention tables of intermediate steps.")
