{
 "claims": [
  {
   "property": "C01",
   "status": "proved",
   "theorems": [
    "Verif.Rtr.C01_serial_lt_iff",
    "Verif.Rtr.C01_irrefl",
    "Verif.Rtr.C01_asymm",
    "Verif.Rtr.C01_unordered_iff",
    "Verif.Rtr.C01_add_lt"
   ],
   "note": ""
  },
  {
   "property": "C02",
   "status": "proved",
   "theorems": [
    "Verif.Rtr.C02_table_is_set"
   ],
   "note": ""
  },
  {
   "property": "C03",
   "status": "proved",
   "theorems": [
    "Verif.Rtr.C03_delta_transforms",
    "Verif.Rtr.C03_delta_is_difference"
   ],
   "note": ""
  },
  {
   "property": "C04",
   "status": "proved",
   "theorems": [
    "Verif.Rtr.C04_history"
   ],
   "note": ""
  },
  {
   "property": "C05",
   "status": "partial",
   "theorems": [
    "Verif.Rtr.C05_lifetime_zero_is_ub",
    "Verif.Rtr.C05_lifetime_safe_partial"
   ],
   "note": "The property is false of the code: the configuration accepts lifetime 0 and then the first delta is stored outside the (empty) array. Proved: that refutation, and safety for every other 32-bit lifetime and any number of deltas."
  },
  {
   "property": "C06",
   "status": "proved",
   "theorems": [
    "Verif.Rtr.C06_incremental_sync"
   ],
   "note": "Distances are below 2^32 publications (beyond that serials repeat) and lifetimes are 1 <= L < 2^31."
  },
  {
   "property": "C07",
   "status": "partial",
   "theorems": [
    "Verif.Rtr.C07_window_partial",
    "Verif.Rtr.C07_wrong_serial_accepted"
   ],
   "note": "The property is false of the code when no delta is stored and the distance is exactly 2^31 (proved refutation). Proved whenever at least one delta is stored."
  },
  {
   "property": "C08",
   "status": "proved",
   "theorems": [
    "Verif.Rtr.C08_serial_iff_change"
   ],
   "note": ""
  },
  {
   "property": "C09",
   "status": "partial",
   "theorems": [
    "Verif.Rtr.C09_reset_query",
    "Verif.Rtr.C09_serial_query_partial",
    "Verif.Rtr.C09_serial_query_refuted"
   ],
   "note": "False of the code for Serial Queries: errors of the payload loops are discarded and End of Data is sent after lost payloads (proved refutation). Proved for Reset Queries with any pattern of failing sends; for Serial Queries the exact set of possible outputs is proved."
  },
  {
   "property": "C10",
   "status": "partial",
   "theorems": [
    "Verif.Rtr.C10_reset_snapshot_partial",
    "Verif.Rtr.C10_reset_race_refuted"
   ],
   "note": "False of the code: the serial and the data are read in two locked regions (proved refutation with an update in between). Proved when no update lands in between."
  },
  {
   "property": "C11",
   "status": "proved",
   "theorems": [
    "Verif.Rtr.C11_sessions_differ",
    "Verif.Rtr.C11_sessions_constant",
    "Verif.Rtr.C11_wrong_session"
   ],
   "note": ""
  },
  {
   "property": "C12",
   "status": "proved",
   "theorems": [
    "Verif.Rtr.C12_serial_query",
    "Verif.Rtr.C12_reset_query",
    "Verif.Rtr.C12_reset_query_versions",
    "Verif.Rtr.C12_serial_query_versions",
    "Verif.Rtr.C09_reset_query",
    "Verif.Rtr.C09_serial_query_partial"
   ],
   "note": "The C09 theorems give the exact output when sends fail."
  },
  {
   "property": "C13",
   "status": "proved",
   "theorems": [
    "Verif.Rtr.C13_roundtrip",
    "Verif.Rtr.C13_stream"
   ],
   "note": ""
  },
  {
   "property": "C14",
   "status": "proved",
   "theorems": [
    "Verif.Rtr.C14_error_report"
   ],
   "note": ""
  },
  {
   "property": "C15",
   "status": "proved",
   "theorems": [
    "Verif.Rtr.C15_one_call",
    "Verif.Rtr.C15_fragmentation"
   ],
   "note": ""
  },
  {
   "property": "C16",
   "status": "proved",
   "theorems": [
    "Verif.Rtr.C16_version_fixed",
    "Verif.Rtr.C16_wrong_version"
   ],
   "note": ""
  },
  {
   "property": "C17",
   "status": "partial",
   "theorems": [
    "Verif.Rtr.C17_no_report_about_report_partial",
    "Verif.Rtr.C17_refuted"
   ],
   "note": "False of the code: if the length field of a bad Error Report is 0 or 1, its type is read from beyond the copy that was made of it, so what's there decides whether it's answered (C17_refuted). Proved whenever deciding isn't undefined behaviour."
  },
  {
   "property": "C18",
   "status": "partial",
   "theorems": [
    "Verif.Rtr.C18_reads_partial",
    "Verif.Rtr.C18_stale_text",
    "Verif.Rtr.C18_out_of_bounds",
    "Verif.Rtr.C18_empty_copy"
   ],
   "note": "False of the code: proved with witnesses for received-but-stale bytes, reads past the buffer and an empty copy; C18_reads_partial characterizes the byte strings that can cause it."
  },
  {
   "property": "C19",
   "status": "proved",
   "theorems": [
    "Verif.Rtr.C19_utf8_cut"
   ],
   "note": ""
  },
  {
   "property": "C20",
   "status": "proved",
   "theorems": [
    "Verif.Rtr.C20_router_key_range"
   ],
   "note": ""
  },
  {
   "property": "C21",
   "status": "proved",
   "theorems": [
    "Verif.Res.C21_prefix4",
    "Verif.Res.C21_prefix6"
   ],
   "note": ""
  },
  {
   "property": "C22",
   "status": "proved",
   "theorems": [
    "Verif.Res.C22_range4",
    "Verif.Res.C22_range6"
   ],
   "note": ""
  },
  {
   "property": "C23",
   "status": "proved",
   "theorems": [
    "Verif.Res.C23_sets32",
    "Verif.Res.C23_sets6"
   ],
   "note": ""
  },
  {
   "property": "C24",
   "status": "proved",
   "theorems": [
    "Verif.Res.C24_contains32",
    "Verif.Res.C24_contains6",
    "Verif.Res.C24_null"
   ],
   "note": ""
  },
  {
   "property": "C25",
   "status": "proved",
   "theorems": [
    "Verif.Res.C25_chain",
    "Verif.Res.C25_endEntity",
    "Verif.Res.C25_stable",
    "Verif.Res.C25_trustAnchor"
   ],
   "note": ""
  },
  {
   "property": "C26",
   "status": "partial",
   "theorems": [
    "Verif.Res.C26_ip4_partial",
    "Verif.Res.C26_ip6_partial",
    "Verif.Res.C26_asn_partial",
    "Verif.Res.C26_noSet",
    "Verif.Res.C26_refuted"
   ],
   "note": "False of the code when the issuer has no resource of the kind: an RFC 8360 certificate is then rejected, not trimmed. Exact characterization in all other cases."
  },
  {
   "property": "C27",
   "status": "partial",
   "theorems": [
    "Verif.Res.C27_asn_partial",
    "Verif.Res.C27_ordered",
    "Verif.Res.C27_refuted"
   ],
   "note": "False for negative INTEGERs, which are read as unsigned numbers (-1 is accepted as AS 255)."
  },
  {
   "property": "C28",
   "status": "proved",
   "theorems": [
    "Verif.Res.C28_vrps"
   ],
   "note": ""
  },
  {
   "property": "C29",
   "status": "partial",
   "theorems": [
    "Verif.Res.C29_rejected_partial",
    "Verif.Res.C29_early_partial",
    "Verif.Res.C29_refuted",
    "Verif.Res.C29_refuted_refs"
   ],
   "note": "False of the code: VRPs are emitted while the ROA is being checked. Proved for ROAs with one address, and for errors that are found before the addresses."
  },
  {
   "property": "C30",
   "status": "proved",
   "theorems": [
    "Verif.Slurm.C30_prefix_filter"
   ],
   "note": "Filters of a loaded SLURM (Lists.WF, which LoadLemmas.fileOf_wf shows of every accepted file)."
  },
  {
   "property": "C31",
   "status": "proved",
   "theorems": [
    "Verif.Slurm.C31_bgpsec_filter"
   ],
   "note": "All filters and keys."
  },
  {
   "property": "C32",
   "status": "proved",
   "theorems": [
    "Verif.Slurm.C32_apply",
    "Verif.Slurm.C33_applied"
   ],
   "note": "Set-level, all tables and rule lists; C33_applied is the end-to-end statement from the files."
  },
  {
   "property": "C33",
   "status": "proved",
   "theorems": [
    "Verif.Slurm.C33_last_valid",
    "Verif.Slurm.C33_applied",
    "Verif.Slurm.C33_not_configured",
    "Verif.Slurm.inForce_total"
   ],
   "note": "All histories of cycles. Assumption: checksums tell file contents (Faithful); without it see C34."
  },
  {
   "property": "C34",
   "status": "partial",
   "theorems": [
    "Verif.Slurm.C34_change_noticed_partial",
    "Verif.Slurm.C34_refuted"
   ],
   "note": "False of the code when two files have equal contents; proved otherwise."
  },
  {
   "property": "C35",
   "status": "proved",
   "theorems": [
    "Verif.Slurm.C35_conflicts"
   ],
   "note": "All sets of files; libraries assumed as in Env.Ok."
  },
  {
   "property": "C36",
   "status": "partial",
   "theorems": [
    "Verif.Slurm.C36_prefix_rule_partial",
    "Verif.Slurm.C36_prefix_stored_partial",
    "Verif.Slurm.C36_bgpsec_rule_partial",
    "Verif.Slurm.C36_bgpsec_stored_partial",
    "Verif.Slurm.C36_crash_partial",
    "Verif.Slurm.C36_refuted"
   ],
   "note": "Exact acceptance conditions proved; false of the code: prefix \"\" or \"/\" crashes, junk after a prefix is accepted."
  },
  {
   "property": "C37",
   "status": "proved",
   "theorems": [
    "Verif.Uri.C37_mapping",
    "Verif.Uri.C37_confined",
    "Verif.Uri.C37_same_components"
   ],
   "note": "Local paths are exactly the normalized components of the URL below <repository>/<tal>/<rsync, https or rrdp>; creation never crashes; the only other failure is the 4096 character limit."
  },
  {
   "property": "C38",
   "status": "proved",
   "theorems": [
    "Verif.Uri.C38_compose",
    "Verif.Uri.C38_append_pop",
    "Verif.Uri.C38_empty"
   ],
   "note": "Buffer-level model: memory block, capacity, doubling; refinement to lists of components, including when exactly the length error happens."
  },
  {
   "property": "C39",
   "status": "proved",
   "theorems": [
    "Verif.Uri.C39_names",
    "Verif.Uri.C39_url",
    "Verif.Uri.C39_sibling"
   ],
   "note": "Exact set of accepted names, the URL built from them and the place in the cache next to the manifest, plain and RRDP."
  },
  {
   "property": "C40",
   "status": "partial",
   "theorems": [
    "Verif.Uri.C40_refuted",
    "Verif.Uri.C40_partial",
    "Verif.Uri.C40_kinds"
   ],
   "note": "False as stated (notification https://a/b with rsync://c/d/e.cer against notification https://a/b/c with rsync://d/e.cer); exact collision condition proved, and no collisions across kinds and TALs."
  },
  {
   "property": "C41",
   "status": "proved",
   "theorems": [
    "Verif.Cache.C41_once",
    "Verif.Cache.C41_attempt",
    "Verif.Cache.C41_clock_refuted"
   ],
   "note": "One attempt per target and cycle, same answer later; without the clock assumption it is false (witness)."
  },
  {
   "property": "C42",
   "status": "proved",
   "theorems": [
    "Verif.Cache.C42_best",
    "Verif.Cache.C42_most_recent"
   ],
   "note": "The alternative recovered is the best usable one; under the cycle's invariant that is the most recently successful one."
  },
  {
   "property": "C43",
   "status": "proved",
   "theorems": [
    "Verif.Cache.C43_order",
    "Verif.Cache.C43_works",
    "Verif.Cache.C43_stops"
   ],
   "note": "Order, at most one try each, and stop at the first usable one, for any network and caller behaviour."
  },
  {
   "property": "C44",
   "status": "proved",
   "theorems": [
    "Verif.Rrdp.C44_contiguous"
   ],
   "note": "In-place cycle sort with explicit indexes."
  },
  {
   "property": "C45",
   "status": "proved",
   "theorems": [
    "Verif.Rrdp.C45_steps",
    "Verif.Rrdp.C45_update",
    "Verif.Rrdp.C45_history",
    "Verif.Rrdp.C45_unreachable"
   ],
   "note": "C45_steps: which deltas are applied, else the snapshot, for any server; C45_update and C45_history: with a server that is honest, files equal the server's. Files are a function of path; XML, base64 and SHA-256 are parameters."
  },
  {
   "property": "C46",
   "status": "partial",
   "theorems": [
    "Verif.Rrdp.C46_refuted",
    "Verif.Rrdp.C46_never_retried",
    "Verif.Rrdp.C46_partial"
   ],
   "note": "False: the notification is replaced before the update is applied; proved for failures before that."
  },
  {
   "property": "C47",
   "status": "proved",
   "theorems": [
    "Verif.Rrdp.C47_hex",
    "Verif.Rrdp.C47_total"
   ],
   "note": ""
  },
  {
   "property": "C48",
   "status": "partial",
   "theorems": [
    "Verif.Mft.C48_partial",
    "Verif.Mft.C48_any_order",
    "Verif.Mft.C48_refuted"
   ],
   "note": "A permutation, every permutation reachable; an empty manifest divides by zero before its signature is checked."
  },
  {
   "property": "C49",
   "status": "proved",
   "theorems": [
    "Verif.Mft.C49_rpp",
    "Verif.Mft.C49_strict"
   ],
   "note": ""
  },
  {
   "property": "C50",
   "status": "proved",
   "theorems": [
    "Verif.Mft.C50_window",
    "Verif.Mft.C50_safe"
   ],
   "note": "For dates that exist; leap seconds excluded (see C88)."
  },
  {
   "property": "C51",
   "status": "proved",
   "theorems": [
    "Verif.Tree.C51_walk",
    "Verif.Tree.C51_ancestors",
    "Verif.Tree.C51_not_cert"
   ],
   "note": "Everything that looks at a file is a parameter with arbitrary state."
  },
  {
   "property": "C52",
   "status": "proved",
   "theorems": [
    "Verif.Tree.C52_depth",
    "Verif.Tree.C52_ends"
   ],
   "note": ""
  },
  {
   "property": "C53",
   "status": "partial",
   "theorems": [
    "Verif.Tal.C53_partial",
    "Verif.Tal.C53_unreadable",
    "Verif.Tal.C53_refuted_dangling",
    "Verif.Tal.C53_refuted_spawn"
   ],
   "note": "Proved for TAL files that exist when all threads can be created; a dangling link named *.tal or a failing pthread_create frees running or listed threads."
  },
  {
   "property": "C54",
   "status": "proved",
   "theorems": [
    "Verif.Pool.C54_exclusive",
    "Verif.Pool.C54_fifo",
    "Verif.Pool.C54_once",
    "Verif.Pool.C54_wait",
    "Verif.Pool.C54_destroyed",
    "Verif.Pool.C54_progress",
    "Verif.Pool.C54_bounded",
    "Verif.Pool.C54_ends"
   ],
   "note": "One owner thread, any number of workers, any schedule, spurious wake-ups allowed."
  },
  {
   "property": "C55",
   "status": "partial",
   "theorems": [
    "Verif.Tal.C55_tal_partial",
    "Verif.Tal.C55_tal_refuted",
    "Verif.Tal.C55_publish"
   ],
   "note": "Content and buffer bounds are proved for all texts; lines have at most 65 characters before their LF. The limit promised by the comment (65 including the LF) is refuted for TALs."
  },
  {
   "property": "C56",
   "status": "partial",
   "theorems": [
    "Verif.B64.C56_encode_partial",
    "Verif.B64.C56_callers",
    "Verif.B64.C56_refuted",
    "Verif.B64.C56_alphabet",
    "Verif.B64.C56_roundtrip",
    "Verif.B64.C56_decode",
    "Verif.B64.C56_injective"
   ],
   "note": "Encoding inputs whose length is a multiple of 3 reads beyond libcrypto's buffer (refuted); the lengths the callers use (20 and 91) are not. libcrypto's encoder and decoder are assumed to follow RFC 4648."
  },
  {
   "property": "C57",
   "status": "proved",
   "theorems": [
    "Verif.Net.C57_http",
    "Verif.Net.C57_retriable",
    "Verif.Net.C57_retried",
    "Verif.Net.C57_rsync"
   ],
   "note": "libcurl, and the rsync process, are oracles."
  },
  {
   "property": "C58",
   "status": "proved",
   "theorems": [
    "Verif.Net.C58_bounded",
    "Verif.Net.C58_rejected",
    "Verif.Net.C58_efbig"
   ],
   "note": "libcurl is assumed to abort the transfer when the callback refuses bytes."
  },
  {
   "property": "C59",
   "status": "proved",
   "theorems": [
    "Verif.Tal.C59",
    "Verif.Tal.C59_rejects"
   ],
   "note": "The URL parser (C37) is a parameter."
  },
  {
   "property": "C60",
   "status": "proved",
   "theorems": [
    "Verif.Tal.C60_line",
    "Verif.Tal.C60_else"
   ],
   "note": "Exact characterization of lines, ends of file and errors."
  },
  {
   "property": "C61",
   "status": "proved",
   "theorems": [
    "Verif.Ext.C61_table",
    "Verif.Ext.C61_ta",
    "Verif.Ext.C61_ca",
    "Verif.Ext.C61_ee",
    "Verif.Ext.C61_defined"
   ],
   "note": "Any table; then the three tables with all their handlers, both directions. libcrypto's decoders and SHA-1 are parameters."
  },
  {
   "property": "C62",
   "status": "proved",
   "theorems": [
    "Verif.Ext.C62",
    "Verif.Ext.C62_usable"
   ],
   "note": ""
  },
  {
   "property": "C63",
   "status": "proved",
   "theorems": [
    "Verif.Ext.C63"
   ],
   "note": ""
  },
  {
   "property": "C64",
   "status": "partial",
   "theorems": [
    "Verif.Conf.C64_partial",
    "Verif.Conf.C64_exact",
    "Verif.Conf.C64_refuted",
    "Verif.Conf.C64_json",
    "Verif.Conf.C64_bounds"
   ],
   "note": "False of the code: strtoul accepts a minus sign, so \"-18446744073709551615\" is 1. C64_partial: all texts without \"-\"; C64_exact: all texts, with the wrap-around; C64_json: files, complete."
  },
  {
   "property": "C65",
   "status": "partial",
   "theorems": [
    "Verif.Rtr.C65_short_write_is_success",
    "Verif.Rtr.C65_all_or_nothing_partial"
   ],
   "note": "False of the code: write(2) may be short on a non-blocking socket and the rest is dropped (proved refutation). Proved when write takes everything or fails."
  },
  {
   "property": "C66",
   "status": "partial",
   "theorems": [
    "Verif.Rtr.C66_reset_end_to_end_partial",
    "Verif.Rtr.C66_serial_end_to_end_partial"
   ],
   "note": "Composition of the database, handler and wire models. Hypotheses: no send fails (C09, C65) and, for Reset Queries, no update between the two locked regions (C10); both are needed, as the refutations show."
  },
  {
   "property": "C67",
   "status": "proved",
   "theorems": [
    "Verif.Rtr.C67_no_spin"
   ],
   "note": ""
  },
  {
   "property": "C68",
   "status": "partial",
   "theorems": [
    "Verif.Rtr.C68_echoes_unknown_version",
    "Verif.Rtr.C68_report_version_partial"
   ],
   "note": "False of the code when the first PDU of a connection is too large; the partial theorem covers all other reports."
  },
  {
   "property": "C69",
   "status": "partial",
   "theorems": [
    "Verif.Res.C69_noAbort_partial",
    "Verif.Res.C69_refuted"
   ],
   "note": "False for trust anchors: one that inherits aborts the process. Proved for all certificates below a trust anchor."
  },
  {
   "property": "C70",
   "status": "proved",
   "theorems": [
    "Verif.Res.C70_forceInherit"
   ],
   "note": ""
  },
  {
   "property": "C71",
   "status": "partial",
   "theorems": [
    "Verif.Res.C71_meaning_partial",
    "Verif.Res.C71_refuted"
   ],
   "note": "False for negative AS numbers; proved when the INTEGERs are not negative."
  },
  {
   "property": "C72",
   "status": "proved",
   "theorems": [
    "Verif.Res.C72_profile"
   ],
   "note": ""
  },
  {
   "property": "C73",
   "status": "partial",
   "theorems": [
    "Verif.Slurm.C73_asserted_key_partial",
    "Verif.Slurm.C73_refuted"
   ],
   "note": "False of the code when the key does not have 91 bytes; proved otherwise."
  },
  {
   "property": "C74",
   "status": "partial",
   "theorems": [
    "Verif.Cache.C74_refuted",
    "Verif.Cache.C74_partial"
   ],
   "note": "False with \"..\" in the module's place; proved for URLs whose host and module are proper names."
  },
  {
   "property": "C75",
   "status": "partial",
   "theorems": [
    "Verif.Cache.C75_refuted",
    "Verif.Cache.C75_partial",
    "Verif.Cache.download_made",
    "Verif.Cache.create_made"
   ],
   "note": "False: an expired https://a/b takes the fresh https://a/b/c with it; proved when no place of another entry contains or is inside of one of the fresh entry's."
  },
  {
   "property": "C76",
   "status": "proved",
   "theorems": [
    "Verif.Cache.C76_roundtrip",
    "Verif.Cache.C76_reads",
    "Verif.Cache.create_made",
    "Verif.Cache.download_made"
   ],
   "note": "Assumes the C library's time formatting round-trips and results fit an int; the entries' URLs being well formed is an invariant."
  },
  {
   "property": "C77",
   "status": "proved",
   "theorems": [
    "Verif.Cache.C77_cleanup",
    "Verif.Cache.C77_index",
    "Verif.Cache.download_made",
    "Verif.Cache.create_made"
   ],
   "note": "Removals are assumed to succeed."
  },
  {
   "property": "C78",
   "status": "proved",
   "theorems": [
    "Verif.Cache.C78_unique",
    "Verif.Cache.C78_total"
   ],
   "note": "Includes wrap around and the 4096 character limit."
  },
  {
   "property": "C79",
   "status": "partial",
   "theorems": [
    "Verif.Rrdp.C79_refuted",
    "Verif.Rrdp.C79_stuck"
   ],
   "note": "False: the damaged file is kept as the local one and is read before any request; C79_stuck is the general reason."
  },
  {
   "property": "C80",
   "status": "partial",
   "theorems": [
    "Verif.Rrdp.C80_refuted",
    "Verif.Rrdp.C80_partial"
   ],
   "note": "False with comments; proved for elements with a single text node."
  },
  {
   "property": "C81",
   "status": "partial",
   "theorems": [
    "Verif.Rrdp.C81_confined",
    "Verif.Rrdp.C81_refuted"
   ],
   "note": "Confinement of writes and deletions is proved for all documents; isolation between repositories is false."
  },
  {
   "property": "C82",
   "status": "partial",
   "theorems": [
    "Verif.Rrdp.C82_refuted",
    "Verif.Rrdp.C45_update",
    "Verif.Rrdp.C45_history"
   ],
   "note": "False after a failure in the same cycle; proved along histories without failures."
  },
  {
   "property": "C83",
   "status": "proved",
   "theorems": [
    "Verif.Rrdp.C83_no_crash",
    "Verif.Rrdp.C83_schema_needed"
   ],
   "note": "Assumes what the schema enforces, stated as Trusted, and shows that the assumption is needed."
  },
  {
   "property": "C84",
   "status": "partial",
   "theorems": [
    "Verif.Cms.C84_partial",
    "Verif.Cms.C84_indefinite",
    "Verif.Cms.C84_refuted",
    "Verif.Cms.C84_decoder_needed",
    "Verif.Cms.C84_total"
   ],
   "note": "False for attributes of indefinite length: the signature checked is that of the octet 0x31. Proved for definite lengths."
  },
  {
   "property": "C85",
   "status": "partial",
   "theorems": [
    "Verif.Cms.C85_modulo",
    "Verif.Cms.C85_partial",
    "Verif.Cms.C85_refuted"
   ],
   "note": "asn1c's arcs wrap modulo 2^32. Exact characterisation, and exactness for arcs below 2^32."
  },
  {
   "property": "C86",
   "status": "proved",
   "theorems": [
    "Verif.Cms.C86_accepts"
   ],
   "note": "Object identifiers up to C85."
  },
  {
   "property": "C87",
   "status": "partial",
   "theorems": [
    "Verif.Cms.C87_authentic_partial",
    "Verif.Cms.C87_indefinite",
    "Verif.Cms.C87_refuted",
    "Verif.Cms.C87_tamper"
   ],
   "note": "Authenticity for definite lengths; refuted otherwise (same signature, different contents)."
  },
  {
   "property": "C88",
   "status": "partial",
   "theorems": [
    "Verif.Mft.C88_exact",
    "Verif.Mft.C88_accepts",
    "Verif.Mft.C88_refuted"
   ],
   "note": "Exact on well-formed texts; minute 75, February 31 and trailing bytes are accepted."
  },
  {
   "property": "C89",
   "status": "proved",
   "theorems": [
    "Verif.Mft.C89_used",
    "Verif.Mft.C89_safe_partial"
   ],
   "note": "Crash-freedom except for the empty manifest (C48)."
  },
  {
   "property": "C90",
   "status": "proved",
   "theorems": [
    "Verif.Tree.C90_safe",
    "Verif.Tree.C90_freed"
   ],
   "note": "Reference counts of publication points; those of URIs are not modelled."
  },
  {
   "property": "C91",
   "status": "proved",
   "theorems": [
    "Verif.Tree.C91_crl"
   ],
   "note": ""
  },
  {
   "property": "C92",
   "status": "proved",
   "theorems": [
    "Verif.Tree.C92_isolated"
   ],
   "note": "For judgements that don't depend on what was done before."
  },
  {
   "property": "C93",
   "status": "proved",
   "theorems": [
    "Verif.Tree.C93_crl_once",
    "Verif.Tree.C93_no_crl_no_certificate",
    "Verif.Tree.C93_no_crl_no_object"
   ],
   "note": ""
  },
  {
   "property": "C94",
   "status": "proved",
   "theorems": [
    "Verif.Tree.C94_abandon"
   ],
   "note": ""
  },
  {
   "property": "C95",
   "status": "partial",
   "theorems": [
    "Verif.Pool.C95_all",
    "Verif.Pool.C95_partial",
    "Verif.Pool.C95_refuted"
   ],
   "note": "Sound exactly if all threads or not even the first can be created."
  },
  {
   "property": "C96",
   "status": "partial",
   "theorems": [
    "Verif.Net.C96_partial",
    "Verif.Net.C96_changed",
    "Verif.Net.C96_tmp",
    "Verif.Net.C96_refuted"
   ],
   "note": "Errors of fclose are ignored, so a truncated file can replace the old one (refuted); everything else is proved."
  },
  {
   "property": "C97",
   "status": "partial",
   "theorems": [
    "Verif.Net.C97_descriptors",
    "Verif.Net.C97_children",
    "Verif.Net.C97_refuted"
   ],
   "note": "A waitpid that is interrupted leaves a zombie."
  },
  {
   "property": "C98",
   "status": "partial",
   "theorems": [
    "Verif.Net.C98_sound",
    "Verif.Net.C98_partial",
    "Verif.Net.C98_refuted",
    "Verif.Net.C98_timeout_partial",
    "Verif.Net.C98_timeout_refuted",
    "Verif.Net.C98_timeout_success",
    "Verif.Net.C98_kill"
   ],
   "note": "EINTR is returned as an error; timeouts over 24 days are truncated to an int; the result of the child prevails over a timeout."
  },
  {
   "property": "C99",
   "status": "proved",
   "theorems": [
    "Verif.Net.C99"
   ],
   "note": ""
  },
  {
   "property": "C100",
   "status": "partial",
   "theorems": [
    "Verif.Ext.C100_partial",
    "Verif.Ext.C100_refuted"
   ],
   "note": "False of the code for distribution points with NULs: they're compared with strcmp. Proved up to the first NUL; exact for signedObject."
  },
  {
   "property": "C101",
   "status": "proved",
   "theorems": [
    "Verif.Ext.C101"
   ],
   "note": ""
  },
  {
   "property": "C102",
   "status": "proved",
   "theorems": [
    "Verif.Conf.C102"
   ],
   "note": ""
  },
  {
   "property": "C103",
   "status": "partial",
   "theorems": [
    "Verif.Conf.C103_partial",
    "Verif.Conf.C103_refuted"
   ],
   "note": "False of the code: rsync.enabled/http.enabled in the same file undo work-offline. Proved if no such later setting."
  },
  {
   "property": "C104",
   "status": "partial",
   "theorems": [
    "Verif.Conf.C104_partial",
    "Verif.Conf.C104_refuted"
   ],
   "note": "False of the code: null for an option whose values are words is a NULL dereference. Proved for all other files and all command lines."
  },
  {
   "property": "C105",
   "status": "proved",
   "theorems": [
    "Verif.Conf.C105_last",
    "Verif.Conf.C105_unset",
    "Verif.Conf.C105_defaults",
    "Verif.Conf.C105_daemon"
   ],
   "note": ""
  },
  {
   "property": "C106",
   "status": "proved",
   "theorems": [
    "Verif.Conf.C106"
   ],
   "note": ""
  },
  {
   "property": "C107",
   "status": "proved",
   "theorems": [
    "Verif.Conf.C107",
    "Verif.Conf.C107_table"
   ],
   "note": ""
  },
  {
   "property": "C108",
   "status": "proved",
   "theorems": [
    "Verif.Conf.C108",
    "Verif.Conf.C108_short",
    "Verif.Conf.C108_table",
    "Verif.Conf.C108_arguments"
   ],
   "note": ""
  },
  {
   "property": "C109",
   "status": "proved",
   "theorems": [
    "Verif.Conf.C109"
   ],
   "note": ""
  },
  {
   "property": "C110",
   "status": "proved",
   "theorems": [
    "Verif.Srv.C110",
    "Verif.Srv.C110_safe",
    "Verif.Srv.C110_bad"
   ],
   "note": ""
  },
  {
   "property": "C111",
   "status": "proved",
   "theorems": [
    "Verif.Srv.C111"
   ],
   "note": ""
  },
  {
   "property": "C112",
   "status": "partial",
   "theorems": [
    "Verif.Srv.C112_partial",
    "Verif.Srv.C112_refuted",
    "Verif.Srv.C112_refuted_file"
   ],
   "note": "False of the code: requests carry a descriptor, which may be closed and reused before the response is sent. Proved for executions in which connections aren't closed while a request of theirs is pending."
  },
  {
   "property": "C113",
   "status": "partial",
   "theorems": [
    "Verif.Srv.C113_partial",
    "Verif.Srv.C113_one_thread",
    "Verif.Srv.C113_refuted"
   ],
   "note": "False of the code with two or more threads. Proved for one thread, and for connections with at most one request being handled."
  },
  {
   "property": "C114",
   "status": "partial",
   "theorems": [
    "Verif.Srv.C114_partial",
    "Verif.Srv.C114_forever",
    "Verif.Srv.C114_refuted",
    "Verif.Srv.C114_refuted_signal"
   ],
   "note": "False of the code: ECONNABORTED, EMFILE and others close the listening socket; EINTR ends the thread. Proved for the other errors."
  },
  {
   "property": "C115",
   "status": "partial",
   "theorems": [
    "Verif.Srv.C115_partial",
    "Verif.Srv.C115_refuted"
   ],
   "note": "False of the code for routers that haven't sent anything: the version sent is 255. Proved for the others."
  },
  {
   "property": "C116",
   "status": "partial",
   "theorems": [
    "Verif.Srv.C116_partial",
    "Verif.Srv.C116_refuted"
   ],
   "note": "False of the code: the list is reallocated without the lock. Proved if nobody connects during the notification."
  },
  {
   "property": "C117",
   "status": "proved",
   "theorems": [
    "Verif.Srv.C117"
   ],
   "note": ""
  },
  {
   "property": "C118",
   "status": "proved",
   "theorems": [
    "Verif.Srv.C118"
   ],
   "note": ""
  },
  {
   "property": "C119",
   "status": "proved",
   "theorems": [
    "Verif.Srv.C119"
   ],
   "note": ""
  },
  {
   "property": "C120",
   "status": "proved",
   "theorems": [
    "Verif.Srv.C120"
   ],
   "note": ""
  },
  {
   "property": "C121",
   "status": "partial",
   "theorems": [
    "Verif.Cert.C121_decode",
    "Verif.Cert.C121_conforming_partial",
    "Verif.Cert.C121_leak",
    "Verif.Cert.C121_refuted"
   ],
   "note": "The code accepts repeated attributes (the last one wins) and loses the memory of the others; proved: exactly which names are accepted, what's lost, and that conforming names are decoded right."
  },
  {
   "property": "C122",
   "status": "partial",
   "theorems": [
    "Verif.Cert.C122_issuer",
    "Verif.Cert.C122_conforming_partial",
    "Verif.Cert.C122_memory",
    "Verif.Cert.C122_refuted"
   ],
   "note": "The code compares up to the first NUL and only the last attribute of each type; proved: exactly when the issuer is accepted, and that it's equality for conforming names without NULs."
  },
  {
   "property": "C123",
   "status": "proved",
   "theorems": [
    "Verif.Cert.C123",
    "Verif.Cert.C123_state",
    "Verif.Cert.C123_other"
   ],
   "note": ""
  },
  {
   "property": "C124",
   "status": "proved",
   "theorems": [
    "Verif.Cert.C124",
    "Verif.Cert.C124_other",
    "Verif.Cert.C124_bgpsec"
   ],
   "note": ""
  },
  {
   "property": "C125",
   "status": "proved",
   "theorems": [
    "Verif.Cert.C125",
    "Verif.Cert.C125_memory"
   ],
   "note": ""
  },
  {
   "property": "C126",
   "status": "proved",
   "theorems": [
    "Verif.Cert.C126",
    "Verif.Cert.C126_one"
   ],
   "note": ""
  },
  {
   "property": "C127",
   "status": "proved",
   "theorems": [
    "Verif.Cert.C127",
    "Verif.Cert.C127_memory",
    "Verif.Cert.C127_load"
   ],
   "note": ""
  },
  {
   "property": "C128",
   "status": "proved",
   "theorems": [
    "Verif.Cert.C128",
    "Verif.Cert.C128_left"
   ],
   "note": ""
  },
  {
   "property": "C129",
   "status": "proved",
   "theorems": [
    "Verif.Gbr.C129"
   ],
   "note": ""
  },
  {
   "property": "C130",
   "status": "partial",
   "theorems": [
    "Verif.Gbr.C130_sound_partial",
    "Verif.Gbr.C130_complete_partial",
    "Verif.Gbr.C130_refuted"
   ],
   "note": "Completeness is false of the code: ADR and TEL are only recognised with parameters, FN and ORG only without them. Soundness is proved in full; completeness for the shape that's recognised."
  },
  {
   "property": "C131",
   "status": "proved",
   "theorems": [
    "Verif.Out.C131",
    "Verif.Out.C131_faithful"
   ],
   "note": ""
  },
  {
   "property": "C132",
   "status": "proved",
   "theorems": [
    "Verif.Out.C132"
   ],
   "note": ""
  },
  {
   "property": "C133",
   "status": "partial",
   "theorems": [
    "Verif.Out.C133_partial",
    "Verif.Out.C133_refuted"
   ],
   "note": "The property is false of the code: fopen(..., \"w\") empties the file before it's written, and errors of fprintf are ignored. Proved: without failed writes each file has its previous content or a prefix of the new one."
  },
  {
   "property": "C134",
   "status": "proved",
   "theorems": [
    "Verif.Out.C134"
   ],
   "note": ""
  },
  {
   "property": "C135",
   "status": "partial",
   "theorems": [
    "Verif.Fs.C135_partial",
    "Verif.Fs.C135_partial_succeeds",
    "Verif.Fs.C135_partial_current",
    "Verif.Fs.C135_refuted"
   ],
   "note": "False of the code: dir_exists returns positive errnos, which mkdir_p takes for \"it exists\". Proved: it holds whenever stat fails only with ENOENT; only the directories on the way are ever created; it succeeds if nothing prevents it."
  },
  {
   "property": "C136",
   "status": "proved",
   "theorems": [
    "Verif.Fs.C136"
   ],
   "note": ""
  },
  {
   "property": "C137",
   "status": "proved",
   "theorems": [
    "Verif.Fs.C137"
   ],
   "note": ""
  },
  {
   "property": "C138",
   "status": "partial",
   "theorems": [
    "Verif.Fs.C138",
    "Verif.Fs.C138_tal",
    "Verif.Fs.C138_publish_partial",
    "Verif.Fs.C138_publish_refuted"
   ],
   "note": "Proved for base64_decode and for TALs. For RRDP it's false of the code for texts of up to 65 characters that have a line with more than 80 because of the white space at their start (it isn't trimmed); proved for all others."
  },
  {
   "property": "C139",
   "status": "partial",
   "theorems": [
    "Verif.Fs.C139_partial",
    "Verif.Fs.C139_refuted"
   ],
   "note": "False of the code: file_close ignores that data couldn't be flushed. Proved if it could."
  },
  {
   "property": "C140",
   "status": "partial",
   "theorems": [
    "Verif.Fs.C140_partial",
    "Verif.Fs.C140_other",
    "Verif.Fs.C140_refuted",
    "Verif.Fs.C140_refuted_end"
   ],
   "note": "False of the code for runs that die before any run of the version completed, or while the metafile is written. Proved for all other histories, and that the files of other versions are never used."
  },
  {
   "property": "C141",
   "status": "partial",
   "theorems": [
    "Verif.Print.C141_partial",
    "Verif.Print.C141_partial_sound",
    "Verif.Print.C141_configured",
    "Verif.Print.C141_empty",
    "Verif.Print.C141_refuted",
    "Verif.Print.C141_refuted_v1",
    "Verif.Print.C141_refuted_short"
   ],
   "note": "False of the code: some crafted headers are read outside of the buffer, short files are judged by uninitialised memory, and v1 certificates are taken for CRLs. Proved for all files with the shape of RPKI objects, and conversely for files of 32 bytes or more."
  },
  {
   "property": "C142",
   "status": "partial",
   "theorems": [
    "Verif.Print.C142_reads",
    "Verif.Print.C142_partial",
    "Verif.Print.C142_partial_small",
    "Verif.Print.C142_partial_truncated",
    "Verif.Print.C142_refuted"
   ],
   "note": "The parsers of certificates and CRLs get the whole file (C142_reads, proved). For signed objects it's false of the code: bytes that the decoder didn't consume are dropped. Proved for files in which no read ends within a tag or length, and for files of up to 4096 bytes if the type is given."
  },
  {
   "property": "C143",
   "status": "partial",
   "theorems": [
    "Verif.Print.C143_partial",
    "Verif.Print.C143_partial_faithful",
    "Verif.Print.C143_refuted",
    "Verif.Print.C143_refuted_amended"
   ],
   "note": "False of the code for policy qualifiers, RFC 8360's extensions, long object identifiers and strange prefixes. Proved for all other certificates."
  },
  {
   "property": "C144",
   "status": "partial",
   "theorems": [
    "Verif.Print.C144_partial",
    "Verif.Print.C144_partial_faithful",
    "Verif.Print.C144_refuted"
   ],
   "note": "False of the code for long object identifiers. Proved for all other CRLs."
  },
  {
   "property": "C145",
   "status": "partial",
   "theorems": [
    "Verif.Print.C145_partial",
    "Verif.Print.C145_partial_crl",
    "Verif.Print.C145_refuted",
    "Verif.Print.C145_refuted_oid"
   ],
   "note": "False of the code for prefixes of more than 16 bytes and object identifiers of more than 64 characters. Proved for all other certificates and CRLs."
  },
  {
   "property": "C146",
   "status": "partial",
   "theorems": [
    "Verif.Print.C146_partial",
    "Verif.Print.C146_partial_crl",
    "Verif.Print.C146_refuted"
   ],
   "note": "False of the code for policy qualifiers. Proved for the documents of C143 and C144."
  },
  {
   "property": "C147",
   "status": "partial",
   "theorems": [
    "Verif.Print.C147_number",
    "Verif.Print.C147_bytes",
    "Verif.Print.C147_partial",
    "Verif.Print.C147_refuted"
   ],
   "note": "Proved for numbers and bytes; false of the code for prefixes with more unused bits than bits, proved for all others."
  },
  {
   "property": "C148",
   "status": "partial",
   "theorems": [
    "Verif.Print.C148_partial",
    "Verif.Print.C148_numbers",
    "Verif.Print.C148_roa_shown",
    "Verif.Print.C148_mft_shown",
    "Verif.Print.C148_refuted"
   ],
   "note": "False of the code: ROAs with a prefix without maximum length and numbers of more than 64 bits make printing fail, missing contents are a null pointer dereference, identifiers that libcrypto doesn't know are all the same. Proved for all other objects (certificates as in C143)."
  },
  {
   "property": "C149",
   "status": "partial",
   "theorems": [
    "Verif.Print.C149_partial",
    "Verif.Print.C149_utc_partial",
    "Verif.Print.C149_only",
    "Verif.Print.C149_utc_safe",
    "Verif.Print.C149_refuted"
   ],
   "note": "False of the code for UTCTimes of 1950 to 1959 and for some days and minutes that don't exist. Proved for all other times; for arbitrary text, what is shown is what's there."
  },
  {
   "property": "C150",
   "status": "partial",
   "theorems": [
    "Verif.Print.C150_partial",
    "Verif.Print.C150_partial_failure",
    "Verif.Print.C150_partial_handed",
    "Verif.Print.C150_refuted",
    "Verif.Print.C150_refuted_errno"
   ],
   "note": "False of the code: a failed flush at exit is never noticed. Proved if the document fits; every failure that's noticed is reported."
  },
  {
   "property": "C151",
   "status": "proved",
   "theorems": [
    "Verif.Log.C151",
    "Verif.Log.C151_before",
    "Verif.Log.C151_checks",
    "Verif.Log.C151_numbers"
   ],
   "note": ""
  },
  {
   "property": "C152",
   "status": "partial",
   "theorems": [
    "Verif.Log.C152_partial",
    "Verif.Log.C152_refuted"
   ],
   "note": "False of the code: texts that come from repositories are printed as they are, line feeds included, so a repository can forge log lines. Proved for texts without line feeds."
  },
  {
   "property": "C153",
   "status": "proved",
   "theorems": [
    "Verif.Log.C153"
   ],
   "note": "Up to 2^31 nested files."
  },
  {
   "property": "C154",
   "status": "proved",
   "theorems": [
    "Verif.Log.C154",
    "Verif.Log.C154_during",
    "Verif.Log.C154_progress"
   ],
   "note": ""
  },
  {
   "property": "C155",
   "status": "partial",
   "theorems": [
    "Verif.Boot.C155_partial",
    "Verif.Boot.C155_refuted"
   ],
   "note": "False of the code: a daemon closes the descriptor of the log without telling syslog, so if its first message comes after the number is used again, that message is sent to a router, or something else is closed. Proved for everything but daemons that don't log their configuration."
  },
  {
   "property": "C156",
   "status": "partial",
   "theorems": [
    "Verif.Boot.C156_partial",
    "Verif.Boot.C156_refuted"
   ],
   "note": "False of the code: a daemon whose parent is process 1 never applies the configuration of the logs. Proved otherwise."
  },
  {
   "property": "C157",
   "status": "partial",
   "theorems": [
    "Verif.Boot.C157_partial",
    "Verif.Boot.C157_exact",
    "Verif.Boot.C157_refuted"
   ],
   "note": "False of the code for daemons: the pipes get the numbers of the standard streams, and rsync's are closed. Proved whenever descriptors 1 and 2 are taken; C157_exact tells exactly when it works."
  },
  {
   "property": "C158",
   "status": "partial",
   "theorems": [
    "Verif.Boot.C158_partial",
    "Verif.Boot.C158_partial_closed",
    "Verif.Boot.C158_exact",
    "Verif.Boot.C158_refuted"
   ],
   "note": "False of the code: descriptors are inherited by the rsyncs of other threads. Proved if none is forked at the same time; C158_exact tells exactly when something is released."
  },
  {
   "property": "C159",
   "status": "partial",
   "theorems": [
    "Verif.Boot.C159_partial",
    "Verif.Boot.C159_refuted"
   ],
   "note": "False of the code: a daemon clears its mask, so its cache and output can be written by anyone. Proved for the others."
  },
  {
   "property": "C160",
   "status": "proved",
   "theorems": [
    "Verif.Boot.C160"
   ],
   "note": ""
  },
  {
   "property": "C161",
   "status": "partial",
   "theorems": [
    "Verif.Boot.C161_partial",
    "Verif.Boot.C161_refuted"
   ],
   "note": "False of the code: if the first validation fails, the database is destroyed while threads use it. Proved if the first validation succeeds."
  },
  {
   "property": "C162",
   "status": "partial",
   "theorems": [
    "Verif.Boot.C162_partial",
    "Verif.Boot.C162_refuted"
   ],
   "note": "False of the code: a failure to register an identifier is never noticed. Proved that each identifier gets its number if there's no failure."
  },
  {
   "property": "C163",
   "status": "partial",
   "theorems": [
    "Verif.Boot.C163_partial",
    "Verif.Boot.C163_refuted"
   ],
   "note": "False of the code: a TAL whose download fails is removed. The rest is proved."
  },
  {
   "property": "C164",
   "status": "proved",
   "theorems": [
    "Verif.Sys.C164_by_value"
   ],
   "note": "Signatures, profiles, downloads and decoding are arguments (`Pki`)."
  },
  {
   "property": "C165",
   "status": "proved",
   "theorems": [
    "Verif.Sys.C165_authorised"
   ],
   "note": ""
  },
  {
   "property": "C166",
   "status": "proved",
   "theorems": [
    "Verif.Sys.C166_exactly",
    "Verif.Sys.C166_same"
   ],
   "note": ""
  },
  {
   "property": "C167",
   "status": "proved",
   "theorems": [
    "Verif.Sys.C167_tal"
   ],
   "note": ""
  },
  {
   "property": "C168",
   "status": "proved",
   "theorems": [
    "Verif.Sys.C168_cycles",
    "Verif.Sys.C168_reset",
    "Verif.Sys.C168_serial"
   ],
   "note": "Under the assumptions of `Sane` (TAL files exist and threads can be created, see C53; faithful checksums, see C34; no crash of the SLURM parser, see C36)."
  },
  {
   "property": "C169",
   "status": "partial",
   "theorems": [
    "Verif.Asn.C169_ends_partial",
    "Verif.Asn.C169_refuted"
   ],
   "note": "False for the AS numbers of certificates: the decoder of a tagged CHOICE loops for ever when an octet 0 is not followed by another one, after an element of indefinite length. Proved for the nine other types."
  },
  {
   "property": "C170",
   "status": "proved",
   "theorems": [
    "Verif.Asn.C170_safe"
   ],
   "note": "Buffers of less than 2^30 bytes; the stack limit is not modelled (it only makes decoding fail)."
  },
  {
   "property": "C171",
   "status": "proved",
   "theorems": [
    "Verif.Asn.C171_ber"
   ],
   "note": "`Ber` has asn1c's four extensions of X.690 (see Spec.lean)."
  },
  {
   "property": "C172",
   "status": "proved",
   "theorems": [
    "Verif.Asn.C172_der",
    "Verif.Asn.C172_unique"
   ],
   "note": "`C172_der` says that the outcome is that of the constraint check."
  },
  {
   "property": "C173",
   "status": "partial",
   "theorems": [
    "Verif.Asn.C173_ber_partial",
    "Verif.Asn.C173_refuted"
   ],
   "note": "False: trailing bytes, indefinite and long lengths, set unused bits."
  },
  {
   "property": "C174",
   "status": "proved",
   "theorems": [
    "Verif.Asn.C174_shape"
   ],
   "note": ""
  },
  {
   "property": "C175",
   "status": "partial",
   "theorems": [
    "Verif.Asn.C175_full_partial",
    "Verif.Asn.C175_refuted"
   ],
   "note": "False for ROAs, manifests and signed data; proved for the other types."
  },
  {
   "property": "C176",
   "status": "proved",
   "theorems": [
    "Verif.Obj.C176_roa"
   ],
   "note": ""
  },
  {
   "property": "C177",
   "status": "partial",
   "theorems": [
    "Verif.Obj.C177_refuted",
    "Verif.Obj.C177_ber_partial"
   ],
   "note": "False: the bits are ignored."
  },
  {
   "property": "C178",
   "status": "proved",
   "theorems": [
    "Verif.Obj.C178_readable",
    "Verif.Obj.C178_ends"
   ],
   "note": ""
  },
  {
   "property": "C179",
   "status": "proved",
   "theorems": [
    "Verif.Obj.C179_resources",
    "Verif.Obj.C179_roa"
   ],
   "note": "RFC 6484 policy; not BGPsec router certificates."
  },
  {
   "property": "C180",
   "status": "proved",
   "theorems": [
    "Verif.Obj.C180_trustAnchor"
   ],
   "note": ""
  },
  {
   "property": "C181",
   "status": "proved",
   "theorems": [
    "Verif.Obj.C181_manifest"
   ],
   "note": ""
  },
  {
   "property": "C182",
   "status": "partial",
   "theorems": [
    "Verif.Sd.C182_authentic_partial",
    "Verif.Sd.C182_content",
    "Verif.Sd.C182_in_file",
    "Verif.Sd.C182_refuted"
   ],
   "note": "False for signed attributes of indefinite length: then the octet 0x31 alone is verified, and one signature serves for every content."
  },
  {
   "property": "C183",
   "status": "proved",
   "theorems": [
    "Verif.Sd.C183_unique",
    "Verif.Sd.C183_one_content",
    "Verif.Sd.C183_unforgeable"
   ],
   "note": "The hypotheses leave out a signature of the octet 0x31 alone (C182)."
  },
  {
   "property": "C184",
   "status": "proved",
   "theorems": [
    "Verif.Sd.C184_safe",
    "Verif.Sd.C184_values"
   ],
   "note": ""
  },
  {
   "property": "C185",
   "status": "proved",
   "theorems": [
    "Verif.Sd.C185_correct"
   ],
   "note": ""
  },
  {
   "property": "C186",
   "status": "proved",
   "theorems": [
    "Verif.Sd.C186_ends",
    "Verif.Sd.C186_one"
   ],
   "note": ""
  },
  {
   "property": "C187",
   "status": "partial",
   "theorems": [
    "Verif.Sd.C187_roa",
    "Verif.Sd.C187_authentic_partial"
   ],
   "note": "C187_roa is the full equivalence for correctly written files. Authenticity of arbitrary files fails for signed attributes of indefinite length (C182)."
  },
  {
   "property": "C188",
   "status": "partial",
   "theorems": [
    "Verif.Sd.C188_manifest",
    "Verif.Sd.C188_authentic_partial"
   ],
   "note": "C188_manifest is the full equivalence for correctly written files. Authenticity of arbitrary files fails for signed attributes of indefinite length (C182)."
  },
  {
   "property": "C189",
   "status": "partial",
   "theorems": [
    "Verif.Sys.C189_bytes_partial"
   ],
   "note": "A signed object whose attributes have an indefinite length is accepted on a signature of the octet 0x31 alone (C182); the theorem says so. Otherwise complete."
  },
  {
   "property": "C190",
   "status": "proved",
   "theorems": [
    "Verif.Sys.C190_written"
   ],
   "note": ""
  },
  {
   "property": "C191",
   "status": "partial",
   "theorems": [
    "Verif.Sys.C191_listed_partial",
    "Verif.Sys.C191_refuted"
   ],
   "note": "False of the code: files are hashed when the manifest is read, and read again later. Proved when no file changes during the validation."
  },
  {
   "property": "C192",
   "status": "partial",
   "theorems": [
    "Verif.Sys.C192_reset_partial",
    "Verif.Sys.C192_serial_partial"
   ],
   "note": "As C66 and C168: no transmission fails, and no update lands in the middle of a response. As C182: a signed object whose attributes have an indefinite length is accepted on a signature of the octet 0x31 alone."
  },
  {
   "property": "C193",
   "status": "proved",
   "theorems": [
    "Verif.Db.C193_safe",
    "Verif.Db.C193_noLeak",
    "Verif.Db.C193_frozen",
    "Verif.Db.C193_whole"
   ],
   "note": ""
  },
  {
   "property": "C194",
   "status": "partial",
   "theorems": [
    "Verif.Db.C194_lands_partial",
    "Verif.Db.C194_stuck",
    "Verif.Db.C194_refuted",
    "Verif.Db.C194_starved"
   ],
   "note": "False of the code: the lock is held while a router is sent its response, and there's no timeout, so one router that stops reading keeps all others from ever getting new data (C194_refuted); so do two that read, but keep asking (C194_starved), as the lock does not prefer writers. Proved if every router takes (or refuses) what it is sent, and there are no new requests."
  },
  {
   "property": "C195",
   "status": "partial",
   "theorems": [
    "Verif.Mem.C195_memory_is_not_misused_partial",
    "Verif.Mem.C195_refuted"
   ],
   "note": "False of the code if a TAL can't be opened and debug messages are logged: do_file_validation's last message then prints args.tal.file_name, which tal_init has not set. Proved otherwise. The aborts (pr_crit) considered are those that depend on what is modelled. What is modelled is who owns what: contents, lengths and indices of buffers are not (they are in other claims), nor are what functions allocate and release locally."
  },
  {
   "property": "C196",
   "status": "proved",
   "theorems": [
    "Verif.Mem.C196_everything_is_released"
   ],
   "note": "For every outcome, including C195_refuted's. Not modelled: what the libraries (and asn1c's structures, see C174) allocate internally; asn1time2str's BIO, which leaks, is local to it."
  },
  {
   "property": "C197",
   "status": "partial",
   "theorems": [
    "Verif.Upd.C197_cycles_keep_only_the_state_partial",
    "Verif.Upd.C197_refuted"
   ],
   "note": "False of the code: if a rule of a SLURM file can't be understood, the string that json_dumps returns (for the message about it) is never released; it's tried again each cycle, so that the memory grows by one string per cycle (C197_refuted, for every number of cycles). Proved: nothing else remains (at most one string per cycle), nothing is misused. Not modelled: what happens inside of the validation of a TAL (C195, C196), the threads' interleaving (C53, C193)."
  },
  {
   "property": "C198",
   "status": "partial",
   "theorems": [
    "Verif.Conn.C198_server_keeps_only_its_clients_partial",
    "Verif.Conn.C198_nothing_remains",
    "Verif.Conn.C198_requests_are_the_parsers",
    "Verif.Conn.C198_refuted",
    "Verif.Conn.C198_refuted_queue"
   ],
   "note": "False of the code: if a client's complete queries fill the buffer (1024 bytes) and the next read fails, pdustream_next returns without releasing the last request; so clients that do this and reconnect make the memory grow without bounds (C198_refuted). Queries that wait at the shutdown aren't released either, only their tasks (C198_refuted_queue). Proved: nothing is misused, at most that is lost, and nothing if no read fails and no query waits. Not modelled: reads beyond the received bytes (C18), what the workers allocate."
  },
  {
   "property": "C199",
   "status": "partial",
   "theorems": [
    "Verif.Web.C199_partial",
    "Verif.Web.C199_stale",
    "Verif.Web.C199_refuted"
   ],
   "note": "False of the code: If-Modified-Since is the time when the local file was written, by the local clock, not the Last-Modified that the server sent; so a change between the answer and the end of that second (or of the difference of the clocks) is never downloaded, until the next change (C199_refuted, C199_stale). Proved if no change happens then. Servers that answer conditional requests as RFC 9110 says."
  },
  {
   "property": "C200",
   "status": "partial",
   "theorems": [
    "Verif.Web.C200_partial",
    "Verif.Web.C200_request",
    "Verif.Web.C200_refuted",
    "Verif.Web.C200_timeout_refuted"
   ],
   "note": "False of the code: the redirections' protocols aren't restricted, so an HTTPS server can redirect to plain HTTP; and libcurl refuses timeouts over 2147483 seconds, which the configuration allows, and then there's no limit. Proved: every HTTPS server is authenticated, and the bounds for the values that libcurl accepts. Libcurl is specified by its manual."
  },
  {
   "property": "C201",
   "status": "partial",
   "theorems": [
    "Verif.Rlog.C201_exact",
    "Verif.Rlog.C201_partial",
    "Verif.Rlog.C201_refuted",
    "Verif.Rlog.C201_refuted_long"
   ],
   "note": "False of the code: log_buffer forgets what's after the last line feed of each read, so a line that's divided between two reads loses its first part, and lines of 4096 bytes or more are never logged whole; a NUL hides the rest of the read. Proved: exactly what's logged for all reads (C201_exact), and the claim if every read ends where a line ends"
  },
  {
   "property": "C202",
   "status": "partial",
   "theorems": [
    "Verif.Fork.C202_partial",
    "Verif.Fork.C202_executable",
    "Verif.Fork.C202_damage",
    "Verif.Fork.C202_refuted"
   ],
   "note": "False of the code: if rsync can't be executed, the child calls exit(), which flushes its copies of the buffers of the files that other threads are writing, so that these bytes are written twice (C202_refuted; C202_damage says exactly what). Proved if rsync can be executed, or the files have nothing buffered"
  },
  {
   "property": "C203",
   "status": "partial",
   "theorems": [
    "Verif.Conf.C203_partial",
    "Verif.Conf.C203_silent",
    "Verif.Conf.C203_defined",
    "Verif.Conf.C203_refuted"
   ],
   "note": "False of the C standard: the texts that aren't set (and the type of file) are NULL, and NULL is given to printf's %s, with the default configuration too (C203_refuted; C203_defined says exactly when). Proved for libraries that write \"(null)\", as glibc: the messages are each option's name and a text that would set the same value"
  },
  {
   "property": "C204",
   "status": "proved",
   "theorems": [
    "Verif.Xmem.C204_updates_return_everything",
    "Verif.Xmem.C204_schema_needed"
   ],
   "note": "The schema's facts that are needed are in Xmem/Spec.lean (Enforces); a concrete reader of the schema is shown to have them. C204_schema_needed: without them there are leaks, a use after release (parse_ulong's message) and a NULL dereference. URIs are counted as references (their own memory is C195, C196)."
  },
  {
   "property": "C205",
   "status": "partial",
   "theorems": [
    "Verif.Omem.C205_safe",
    "Verif.Omem.C205_nothing_left_partial",
    "Verif.Omem.C205_during_partial",
    "Verif.Omem.C205_refuted"
   ],
   "note": "The part on using, releasing and NULL is proved for all files (C205_safe). The rest is false of the code: a name that repeats an attribute loses the first one, and asn1time2str loses its BIO if the date can't be printed (C205_refuted). Proved for all sequences of files without those (C205_nothing_left_partial, C205_during_partial). URIs and publication points are C195 and C196's matter, as are the references in certificates."
  },
  {
   "property": "C206",
   "status": "partial",
   "theorems": [
    "Verif.Obj.C206_resources_partial",
    "Verif.Obj.C206_neverMore",
    "Verif.Obj.C206_intersection_partial",
    "Verif.Obj.C206_roa_partial",
    "Verif.Obj.Ex.C206_refuted",
    "Verif.Obj.Ex.C206_refuted_kind"
   ],
   "note": "False of the code: a prefix or range that is only partly of the issuer is dropped completely, instead of trimmed; and the certificate is rejected if the issuer has nothing of a kind that it lists. Proved: exactly when it is accepted and with what (elements that the issuer has completely); never more than the intersection; the intersection when no element is only partly the issuer's. Not BGPsec router certificates."
  },
  {
   "property": "C207",
   "status": "partial",
   "theorems": [
    "Verif.Print.Source.C207_partial",
    "Verif.Print.Source.C207_confined",
    "Verif.Print.Source.C207_confined_tmp_partial",
    "Verif.Print.Source.C207_leftovers",
    "Verif.Print.Source.C207_refuted",
    "Verif.Print.Source.C207_refuted_escape",
    "Verif.Print.Source.C207_refuted_directory"
   ],
   "note": "False of the code: the temporary directory is never removed; the name \"..\" escapes from it; when --tal is a directory, the place is not that of the validation. The rest is proved, when the name of the TAL is not empty (--tal does not end in a slash)."
  },
  {
   "property": "C208",
   "status": "partial",
   "theorems": [
    "Verif.Inherit.C208_partial",
    "Verif.Inherit.C208_exact",
    "Verif.Inherit.C208_waits",
    "Verif.Inherit.C208_not_before",
    "Verif.Inherit.C208_frees",
    "Verif.Inherit.C208_refuted"
   ],
   "note": "False of the code: nothing is marked close-on-exec, so an rsync keeps open the sockets and the pipes that the validator had when it launched it: a download waits for another one's rsync, routers don't see that the validator closed their connections, and the port stays taken. Proved: exactly what is open; the claims if no rsync that runs was launched meanwhile; the end is never seen before rsync's"
  },
  {
   "property": "C209",
   "status": "partial",
   "theorems": [
    "Verif.Cmem.C209_partial",
    "Verif.Cmem.C209_safe",
    "Verif.Cmem.C209_bound",
    "Verif.Cmem.C209_refuted"
   ],
   "note": "False of the code: a null in a file overwrites the previous text without releasing it. Proved: nothing is misused, at most one string is lost for each null, and nothing if there is none. --init-tals is not modelled (the process exits)"
  },
  {
   "property": "C210",
   "status": "partial",
   "theorems": [
    "Verif.Pmem.C210_partial",
    "Verif.Pmem.C210_safe",
    "Verif.Pmem.C210_bound",
    "Verif.Pmem.C210_refuted"
   ],
   "note": "False of the code: BIO_new_seq forgets its arguments if it fails, and so does its caller. It only fails for lack of memory. Proved: nothing is misused, at most two BIOs are lost, and nothing if BIO_new succeeds."
  },
  {
   "property": "C211",
   "status": "partial",
   "theorems": [
    "Verif.Rtime.C211_partial",
    "Verif.Rtime.C211_waits",
    "Verif.Rtime.C211_zero",
    "Verif.Rtime.C211_same",
    "Verif.Rtime.C211_refuted_zero",
    "Verif.Rtime.C211_refuted_signals",
    "Verif.Rtime.C211_refuted_long"
   ],
   "note": "False of the code: 0, documented as unlimited, gives up at once; the time isn't measured after a signal, so signals can prolong it without bound; times over 24 days don't fit in poll's argument, so that they are forever, or nothing. Proved for the other times: it doesn't give up before, and without signals it doesn't wait after."
  },
  {
   "property": "C212",
   "status": "partial",
   "theorems": [
    "Verif.Uri.C212_partial",
    "Verif.Uri.C212_joined",
    "Verif.Uri.C212_twice",
    "Verif.Uri.C212_safe",
    "Verif.Uri.C212_refuted"
   ],
   "note": "Proved for all the paths without empty components after the first one (so for absolute paths too), and that reversing them twice gives the same text; that it stays in its block and only moves characters is proved for all paths. The full statement is false: a//bc, which appending a/ and bc makes, becomes bc/a/ instead of bc//a, because the loop doesn't look at the character that follows a slash."
  }
 ]
}