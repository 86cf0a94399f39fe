p("C30","SLURM prefix filters match as RFC 8416 says",
 "A VRP is removed by a prefix filter exactly when every member present in the filter matches: the filter's prefix equals or covers the VRP's prefix (same family), and the filter's ASN equals the VRP's ASN.",
 "all filters and VRPs", "All pairs.", ["src/slurm/db_slurm.c:db_slurm_vrp_is_filtered","src/slurm/db_slurm.c:prefix_filtered_by","src/types/vrp.c:vrp_prefix_cov","src/types/address.c:ipv4_covered"],
 "Bit-level coverage proved equal to 'every address of b is in a'.")
p("C31","SLURM BGPsec filters match as RFC 8416 says",
 "A router key is removed by a BGPsec filter exactly when every member present (ASN, SKI) matches.", "all filters and keys", "All pairs.",
 ["src/slurm/db_slurm.c:bgpsec_filtered_by"], "Decision logic over presence flags.")
p("C32","Applying SLURM yields (validated minus filtered) plus assertions",
 "After SLURM is applied the table is exactly: the validated payloads not matched by any filter, plus all assertions - assertions are never filtered.", "all tables and SLURM contents", "All tables and filter lists.",
 ["src/slurm/slurm_loader.c:__slurm_load_done","src/slurm/slurm_loader.c:slurm_apply"],
 "Model of the two foreach passes and the additions; set-level theorem.")
p("C33","A broken SLURM keeps the last valid one",
 "If the SLURM files are not good, the last successfully loaded SLURM (if any) is applied; if there is none, validated data goes unmodified; if SLURM is not configured or empty nothing is applied. If the files cannot even be read the cycle fails, nothing is published, and the kept SLURM stays.",
 "all histories of load results", "Unbounded histories.", ["src/slurm/slurm_loader.c:update_slurm","src/slurm/slurm_loader.c:slurm_apply"],
 "State machine over cycles.")
p("C34","A changed SLURM is noticed",
 "If the multiset of SLURM files' contents changed since the last load, the SLURM is reloaded.", "all pairs of checksum lists", "Needs particular duplicated files.",
 ["src/slurm/slurm_loader.c:are_csum_lists_equals"], "List model; refuted by [A,A] vs [A,B]; proved for duplicate-free lists.")
p("C35","Conflicting SLURM files are rejected",
 "A set of SLURM files is loaded, as the union of their rules, exactly when all are good and no two different files conflict (share an address in prefix rules or an AS number in BGPsec rules); otherwise nothing of any file is used.", "all file sequences", "All sequences.",
 ["src/slurm/db_slurm.c:db_slurm_add_prefix_filter","src/slurm/db_slurm.c:db_slurm_flush_cache"], "Fold over files with cache/flush.")
p("C36","SLURM JSON members are range- and type-checked",
 "ASN members fit 32 bits, prefixes are canonical, maxPrefixLength is between the prefix length and the family maximum, no unknown member is accepted, and no malformed member crashes the parser.", "all JSON values", "All JSON documents.",
 ["src/slurm/slurm_parser.c:parse_prefix","src/slurm/slurm_parser.c:set_prefix","src/slurm/slurm_parser.c:load_single_prefix","src/json_util.c:json_get_u32"],
 "JSON values as an inductive type; total parser model with an undefined-behaviour outcome. The prefix strings \"\" and \"/\" are shown to reach it.")

p("C73","Asserted router keys are announced as written",
 "The router key announced for a BGPsec assertion has the AS number, the key identifier and the key of the SLURM file, and reading it stays in bounds.", "all BGPsec assertions", "All keys of all lengths.",
 ["src/slurm/slurm_parser.c:set_router_pub_key","src/slurm/slurm_loader.c:slurm_bgpsec_assertions_add","src/types/router_key.c:router_key_init","src/crypto/base64.c:base64url_decode"],
 "Parser and application composed. The length of the key is never compared to the 91 bytes that are copied: refuted for shorter (zero-padded) keys, proved for 91 bytes.")
