# id | status | theorems | note
C01 | proved | C01_serial_lt_iff C01_irrefl C01_asymm C01_unordered_iff C01_add_lt |
C02 | proved | C02_table_is_set |
C03 | proved | C03_delta_transforms C03_delta_is_difference |
C04 | proved | C04_history |
C05 | partial | C05_lifetime_zero_is_ub C05_lifetime_safe_partial | The property is false of the code: the configuration accepts lifetime 0 and then the first delta is stored outside the (empty) array. Proved: that refutation, and safety for every other 32-bit lifetime and any number of deltas.
C06 | proved | C06_incremental_sync | Distances are below 2^32 publications (beyond that serials repeat) and lifetimes are 1 <= L < 2^31.
C07 | partial | C07_window_partial C07_wrong_serial_accepted | The property is false of the code when no delta is stored and the distance is exactly 2^31 (proved refutation). Proved whenever at least one delta is stored.
C08 | proved | C08_serial_iff_change |
C09 | partial | C09_reset_query C09_serial_query_partial C09_serial_query_refuted | False of the code for Serial Queries: errors of the payload loops are discarded and End of Data is sent after lost payloads (proved refutation). Proved for Reset Queries with any pattern of failing sends; for Serial Queries the exact set of possible outputs is proved.
C10 | partial | C10_reset_snapshot_partial C10_reset_race_refuted | False of the code: the serial and the data are read in two locked regions (proved refutation with an update in between). Proved when no update lands in between.
C11 | proved | C11_sessions_differ C11_sessions_constant C11_wrong_session |
C12 | proved | C12_serial_query C12_reset_query C12_reset_query_versions C12_serial_query_versions C09_reset_query C09_serial_query_partial | The C09 theorems give the exact output when sends fail.
C13 | proved | C13_roundtrip C13_stream |
C14 | proved | C14_error_report |
C15 | proved | C15_one_call C15_fragmentation |
C16 | proved | C16_version_fixed C16_wrong_version |
C17 | partial | C17_no_report_about_report_partial C17_refuted | False of the code: if the length field of a bad Error Report is 0 or 1, its type is read from beyond the copy that was made of it, so what's there decides whether it's answered (C17_refuted). Proved whenever deciding isn't undefined behaviour.
C18 | partial | C18_reads_partial C18_stale_text C18_out_of_bounds C18_empty_copy | False of the code: proved with witnesses for received-but-stale bytes, reads past the buffer and an empty copy; C18_reads_partial characterizes the byte strings that can cause it.
C19 | proved | C19_utf8_cut |
C65 | partial | C65_short_write_is_success C65_all_or_nothing_partial | False of the code: write(2) may be short on a non-blocking socket and the rest is dropped (proved refutation). Proved when write takes everything or fails.
C66 | partial | C66_reset_end_to_end_partial C66_serial_end_to_end_partial | Composition of the database, handler and wire models. Hypotheses: no send fails (C09, C65) and, for Reset Queries, no update between the two locked regions (C10); both are needed, as the refutations show.
C20 | proved | C20_router_key_range |
C67 | proved | C67_no_spin |
C68 | partial | C68_echoes_unknown_version C68_report_version_partial | False of the code when the first PDU of a connection is too large; the partial theorem covers all other reports.
C21 | proved | C21_prefix4 C21_prefix6 |
C22 | proved | C22_range4 C22_range6 |
C23 | proved | C23_sets32 C23_sets6 |
C24 | proved | C24_contains32 C24_contains6 C24_null |
C25 | proved | C25_chain C25_endEntity C25_stable C25_trustAnchor |
C26 | partial | C26_ip4_partial C26_ip6_partial C26_asn_partial C26_noSet C26_refuted | False of the code when the issuer has no resource of the kind: an RFC 8360 certificate is then rejected, not trimmed. Exact characterization in all other cases.
C27 | partial | C27_asn_partial C27_ordered C27_refuted | False for negative INTEGERs, which are read as unsigned numbers (-1 is accepted as AS 255).
C28 | proved | C28_vrps |
C29 | partial | C29_rejected_partial C29_early_partial C29_refuted C29_refuted_refs | False of the code: VRPs are emitted while the ROA is being checked. Proved for ROAs with one address, and for errors that are found before the addresses.
C69 | partial | C69_noAbort_partial C69_refuted | False for trust anchors: one that inherits aborts the process. Proved for all certificates below a trust anchor.
C70 | proved | C70_forceInherit |
C71 | partial | C71_meaning_partial C71_refuted | False for negative AS numbers; proved when the INTEGERs are not negative.
C72 | proved | C72_profile |
C30 | proved | C30_prefix_filter | Filters of a loaded SLURM (Lists.WF, which LoadLemmas.fileOf_wf shows of every accepted file).
C31 | proved | C31_bgpsec_filter | All filters and keys.
C32 | proved | C32_apply C33_applied | Set-level, all tables and rule lists; C33_applied is the end-to-end statement from the files.
C33 | proved | C33_last_valid C33_applied C33_not_configured inForce_total | All histories of cycles. Assumption: checksums tell file contents (Faithful); without it see C34.
C34 | partial | C34_change_noticed_partial C34_refuted | False of the code when two files have equal contents; proved otherwise.
C35 | proved | C35_conflicts | All sets of files; libraries assumed as in Env.Ok.
C36 | partial | C36_prefix_rule_partial C36_prefix_stored_partial C36_bgpsec_rule_partial C36_bgpsec_stored_partial C36_crash_partial C36_refuted | Exact acceptance conditions proved; false of the code: prefix "" or "/" crashes, junk after a prefix is accepted.
C73 | partial | C73_asserted_key_partial C73_refuted | False of the code when the key does not have 91 bytes; proved otherwise.
C37 | proved | C37_mapping C37_confined C37_same_components | Local paths are exactly the normalized components of the URL below <repository>/<tal>/<rsync, https or rrdp>; creation never crashes; the only other failure is the 4096 character limit.
C38 | proved | C38_compose C38_append_pop C38_empty | Buffer-level model: memory block, capacity, doubling; refinement to lists of components, including when exactly the length error happens.
C39 | proved | C39_names C39_url C39_sibling | Exact set of accepted names, the URL built from them and the place in the cache next to the manifest, plain and RRDP.
C40 | partial | C40_refuted C40_partial C40_kinds | False as stated (notification https://a/b with rsync://c/d/e.cer against notification https://a/b/c with rsync://d/e.cer); exact collision condition proved, and no collisions across kinds and TALs.
C41 | proved | C41_once C41_attempt C41_clock_refuted | One attempt per target and cycle, same answer later; without the clock assumption it is false (witness).
C42 | proved | C42_best C42_most_recent | The alternative recovered is the best usable one; under the cycle's invariant that is the most recently successful one.
C43 | proved | C43_order C43_works C43_stops | Order, at most one try each, and stop at the first usable one, for any network and caller behaviour.
C74 | partial | C74_refuted C74_partial | False with ".." in the module's place; proved for URLs whose host and module are proper names.
C75 | partial | C75_refuted C75_partial download_made create_made | False: an expired https://a/b takes the fresh https://a/b/c with it; proved when no place of another entry contains or is inside of one of the fresh entry's.
C76 | proved | C76_roundtrip C76_reads create_made download_made | Assumes the C library's time formatting round-trips and results fit an int; the entries' URLs being well formed is an invariant.
C77 | proved | C77_cleanup C77_index download_made create_made | Removals are assumed to succeed.
C78 | proved | C78_unique C78_total | Includes wrap around and the 4096 character limit.
C44 | proved | C44_contiguous | In-place cycle sort with explicit indexes.
C45 | proved | C45_steps C45_update C45_history C45_unreachable | C45_steps: which deltas are applied, else the snapshot, for any server; C45_update and C45_history: with a server that is honest, files equal the server's. Files are a function of path; XML, base64 and SHA-256 are parameters.
C46 | partial | C46_refuted C46_never_retried C46_partial | False: the notification is replaced before the update is applied; proved for failures before that.
C47 | proved | C47_hex C47_total | 
C79 | partial | C79_refuted C79_stuck | False: the damaged file is kept as the local one and is read before any request; C79_stuck is the general reason.
C80 | partial | C80_refuted C80_partial | False with comments; proved for elements with a single text node.
C81 | partial | C81_confined C81_refuted | Confinement of writes and deletions is proved for all documents; isolation between repositories is false.
C82 | partial | C82_refuted C45_update C45_history | False after a failure in the same cycle; proved along histories without failures.
C83 | proved | C83_no_crash C83_schema_needed | Assumes what the schema enforces, stated as Trusted, and shows that the assumption is needed.
C84 | partial | C84_partial C84_indefinite C84_refuted C84_decoder_needed C84_total | False for attributes of indefinite length: the signature checked is that of the octet 0x31. Proved for definite lengths.
C85 | partial | C85_modulo C85_partial C85_refuted | asn1c's arcs wrap modulo 2^32. Exact characterisation, and exactness for arcs below 2^32.
C86 | proved | C86_accepts | Object identifiers up to C85.
C87 | partial | C87_authentic_partial C87_indefinite C87_refuted C87_tamper | Authenticity for definite lengths; refuted otherwise (same signature, different contents).
C48 | partial | C48_partial C48_any_order C48_refuted | A permutation, every permutation reachable; an empty manifest divides by zero before its signature is checked.
C49 | proved | C49_rpp C49_strict | 
C50 | proved | C50_window C50_safe | For dates that exist; leap seconds excluded (see C88).
C88 | partial | C88_exact C88_accepts C88_refuted | Exact on well-formed texts; minute 75, February 31 and trailing bytes are accepted.
C89 | proved | C89_used C89_safe_partial | Crash-freedom except for the empty manifest (C48).
C51 | proved | C51_walk C51_ancestors C51_not_cert | Everything that looks at a file is a parameter with arbitrary state.
C52 | proved | C52_depth C52_ends | 
C90 | proved | C90_safe C90_freed | Reference counts of publication points; those of URIs are not modelled.
C91 | proved | C91_crl | 
C92 | proved | C92_isolated | For judgements that don't depend on what was done before.
C93 | proved | C93_crl_once C93_no_crl_no_certificate C93_no_crl_no_object | 
C94 | proved | C94_abandon | 
C53 | partial | C53_partial C53_unreadable C53_refuted_dangling C53_refuted_spawn | Proved for TAL files that exist when all threads can be created; a dangling link named *.tal or a failing pthread_create frees running or listed threads.
C54 | proved | C54_exclusive C54_fifo C54_once C54_wait C54_destroyed C54_progress C54_bounded C54_ends | One owner thread, any number of workers, any schedule, spurious wake-ups allowed.
C95 | partial | C95_all C95_partial C95_refuted | Sound exactly if all threads or not even the first can be created.
C55 | partial | C55_tal_partial C55_tal_refuted C55_publish | Content and buffer bounds are proved for all texts; lines have at most 65 characters before their LF. The limit promised by the comment (65 including the LF) is refuted for TALs.
C56 | partial | C56_encode_partial C56_callers C56_refuted C56_alphabet C56_roundtrip C56_decode C56_injective | Encoding inputs whose length is a multiple of 3 reads beyond libcrypto's buffer (refuted); the lengths the callers use (20 and 91) are not. libcrypto's encoder and decoder are assumed to follow RFC 4648.
C59 | proved | C59 C59_rejects | The URL parser (C37) is a parameter.
C60 | proved | C60_line C60_else | Exact characterization of lines, ends of file and errors.
C57 | proved | C57_http C57_retriable C57_retried C57_rsync | libcurl, and the rsync process, are oracles.
C58 | proved | C58_bounded C58_rejected C58_efbig | libcurl is assumed to abort the transfer when the callback refuses bytes.
C96 | partial | C96_partial C96_changed C96_tmp C96_refuted | Errors of fclose are ignored, so a truncated file can replace the old one (refuted); everything else is proved.
C97 | partial | C97_descriptors C97_children C97_refuted | A waitpid that is interrupted leaves a zombie.
C98 | partial | C98_sound C98_partial C98_refuted C98_timeout_partial C98_timeout_refuted C98_timeout_success C98_kill | EINTR is returned as an error; timeouts over 24 days are truncated to an int; the result of the child prevails over a timeout.
C99 | proved | C99 | 
C61 | proved | C61_table C61_ta C61_ca C61_ee C61_defined | Any table; then the three tables with all their handlers, both directions. libcrypto's decoders and SHA-1 are parameters.
C62 | proved | C62 C62_usable | 
C63 | proved | C63 | 
C100 | partial | C100_partial C100_refuted | False of the code for distribution points with NULs: they're compared with strcmp. Proved up to the first NUL; exact for signedObject.
C101 | proved | C101 | 
C64 | partial | C64_partial C64_exact C64_refuted C64_json C64_bounds | False of the code: strtoul accepts a minus sign, so "-18446744073709551615" is 1. C64_partial: all texts without "-"; C64_exact: all texts, with the wrap-around; C64_json: files, complete.
C102 | proved | C102 | 
C103 | partial | C103_partial C103_refuted | False of the code: rsync.enabled/http.enabled in the same file undo work-offline. Proved if no such later setting.
C104 | partial | C104_partial C104_refuted | False of the code: null for an option whose values are words is a NULL dereference. Proved for all other files and all command lines.
C105 | proved | C105_last C105_unset C105_defaults C105_daemon | 
C106 | proved | C106 | 
C107 | proved | C107 C107_table | 
C108 | proved | C108 C108_short C108_table C108_arguments | 
C109 | proved | C109 | 
C110 | proved | C110 C110_safe C110_bad | 
C111 | proved | C111 | 
C112 | partial | C112_partial C112_refuted C112_refuted_file | False of the code: requests carry a descriptor, which may be closed and reused before the response is sent. Proved for executions in which connections aren't closed while a request of theirs is pending.
C113 | partial | C113_partial C113_one_thread C113_refuted | False of the code with two or more threads. Proved for one thread, and for connections with at most one request being handled.
C114 | partial | C114_partial C114_forever C114_refuted C114_refuted_signal | False of the code: ECONNABORTED, EMFILE and others close the listening socket; EINTR ends the thread. Proved for the other errors.
C115 | partial | C115_partial C115_refuted | False of the code for routers that haven't sent anything: the version sent is 255. Proved for the others.
C116 | partial | C116_partial C116_refuted | False of the code: the list is reallocated without the lock. Proved if nobody connects during the notification.
C117 | proved | C117 | 
C118 | proved | C118 | 
C119 | proved | C119 | 
C120 | proved | C120 | 
C121 | partial | C121_decode C121_conforming_partial C121_leak C121_refuted | The code accepts repeated attributes (the last one wins) and loses the memory of the others; proved: exactly which names are accepted, what's lost, and that conforming names are decoded right.
C122 | partial | C122_issuer C122_conforming_partial C122_memory C122_refuted | The code compares up to the first NUL and only the last attribute of each type; proved: exactly when the issuer is accepted, and that it's equality for conforming names without NULs.
C123 | proved | C123 C123_state C123_other | 
C124 | proved | C124 C124_other C124_bgpsec | 
C125 | proved | C125 C125_memory | 
C126 | proved | C126 C126_one | 
C127 | proved | C127 C127_memory C127_load | 
C128 | proved | C128 C128_left | 
C129 | proved | C129 | 
C130 | partial | C130_sound_partial C130_complete_partial C130_refuted | Completeness is false of the code: ADR and TEL are only recognised with parameters, FN and ORG only without them. Soundness is proved in full; completeness for the shape that's recognised.
C131 | proved | C131 C131_faithful | 
C132 | proved | C132 | 
C133 | partial | C133_partial C133_refuted | The property is false of the code: fopen(..., "w") empties the file before it's written, and errors of fprintf are ignored. Proved: without failed writes each file has its previous content or a prefix of the new one.
C134 | proved | C134 | 
C135 | partial | C135_partial C135_partial_succeeds C135_partial_current C135_refuted | False of the code: dir_exists returns positive errnos, which mkdir_p takes for "it exists". Proved: it holds whenever stat fails only with ENOENT; only the directories on the way are ever created; it succeeds if nothing prevents it.
C136 | proved | C136 | 
C137 | proved | C137 | 
C138 | partial | C138 C138_tal C138_publish_partial C138_publish_refuted | Proved for base64_decode and for TALs. For RRDP it's false of the code for texts of up to 65 characters that have a line with more than 80 because of the white space at their start (it isn't trimmed); proved for all others.
C139 | partial | C139_partial C139_refuted | False of the code: file_close ignores that data couldn't be flushed. Proved if it could.
C140 | partial | C140_partial C140_other C140_refuted C140_refuted_end | False of the code for runs that die before any run of the version completed, or while the metafile is written. Proved for all other histories, and that the files of other versions are never used.
C141 | partial | C141_partial C141_partial_sound C141_configured C141_empty C141_refuted C141_refuted_v1 C141_refuted_short | False of the code: some crafted headers are read outside of the buffer, short files are judged by uninitialised memory, and v1 certificates are taken for CRLs. Proved for all files with the shape of RPKI objects, and conversely for files of 32 bytes or more.
C142 | partial | C142_reads C142_partial C142_partial_small C142_partial_truncated C142_refuted | The parsers of certificates and CRLs get the whole file (C142_reads, proved). For signed objects it's false of the code: bytes that the decoder didn't consume are dropped. Proved for files in which no read ends within a tag or length, and for files of up to 4096 bytes if the type is given.
C143 | partial | C143_partial C143_partial_faithful C143_refuted C143_refuted_amended | False of the code for policy qualifiers, RFC 8360's extensions, long object identifiers and strange prefixes. Proved for all other certificates.
C144 | partial | C144_partial C144_partial_faithful C144_refuted | False of the code for long object identifiers. Proved for all other CRLs.
C145 | partial | C145_partial C145_partial_crl C145_refuted C145_refuted_oid | False of the code for prefixes of more than 16 bytes and object identifiers of more than 64 characters. Proved for all other certificates and CRLs.
C146 | partial | C146_partial C146_partial_crl C146_refuted | False of the code for policy qualifiers. Proved for the documents of C143 and C144.
C147 | partial | C147_number C147_bytes C147_partial C147_refuted | Proved for numbers and bytes; false of the code for prefixes with more unused bits than bits, proved for all others.
C148 | partial | C148_partial C148_numbers C148_roa_shown C148_mft_shown C148_refuted | False of the code: ROAs with a prefix without maximum length and numbers of more than 64 bits make printing fail, missing contents are a null pointer dereference, identifiers that libcrypto doesn't know are all the same. Proved for all other objects (certificates as in C143).
C149 | partial | C149_partial C149_utc_partial C149_only C149_utc_safe C149_refuted | False of the code for UTCTimes of 1950 to 1959 and for some days and minutes that don't exist. Proved for all other times; for arbitrary text, what is shown is what's there.
C150 | partial | C150_partial C150_partial_failure C150_partial_handed C150_refuted C150_refuted_errno | False of the code: a failed flush at exit is never noticed. Proved if the document fits; every failure that's noticed is reported.
C151 | proved | C151 C151_before C151_checks C151_numbers | 
C152 | partial | C152_partial C152_refuted | False of the code: texts that come from repositories are printed as they are, line feeds included, so a repository can forge log lines. Proved for texts without line feeds.
C153 | proved | C153 | Up to 2^31 nested files.
C154 | proved | C154 C154_during C154_progress | 
C155 | partial | C155_partial C155_refuted | False of the code: a daemon closes the descriptor of the log without telling syslog, so if its first message comes after the number is used again, that message is sent to a router, or something else is closed. Proved for everything but daemons that don't log their configuration.
C156 | partial | C156_partial C156_refuted | False of the code: a daemon whose parent is process 1 never applies the configuration of the logs. Proved otherwise.
C157 | partial | C157_partial C157_exact C157_refuted | False of the code for daemons: the pipes get the numbers of the standard streams, and rsync's are closed. Proved whenever descriptors 1 and 2 are taken; C157_exact tells exactly when it works.
C158 | partial | C158_partial C158_partial_closed C158_exact C158_refuted | False of the code: descriptors are inherited by the rsyncs of other threads. Proved if none is forked at the same time; C158_exact tells exactly when something is released.
C159 | partial | C159_partial C159_refuted | False of the code: a daemon clears its mask, so its cache and output can be written by anyone. Proved for the others.
C160 | proved | C160 | 
C161 | partial | C161_partial C161_refuted | False of the code: if the first validation fails, the database is destroyed while threads use it. Proved if the first validation succeeds.
C162 | partial | C162_partial C162_refuted | False of the code: a failure to register an identifier is never noticed. Proved that each identifier gets its number if there's no failure.
C163 | partial | C163_partial C163_refuted | False of the code: a TAL whose download fails is removed. The rest is proved.
C164 | proved | C164_by_value | Signatures, profiles, downloads and decoding are arguments (`Pki`).
C165 | proved | C165_authorised | 
C166 | proved | C166_exactly C166_same | 
C167 | proved | C167_tal | 
C168 | proved | C168_cycles C168_reset C168_serial | Under the assumptions of `Sane` (TAL files exist and threads can be created, see C53; faithful checksums, see C34; no crash of the SLURM parser, see C36).
C169 | partial | C169_ends_partial C169_refuted | False for the AS numbers of certificates: the decoder of a tagged CHOICE loops for ever when an octet 0 is not followed by another one, after an element of indefinite length. Proved for the nine other types.
C170 | proved | C170_safe | Buffers of less than 2^30 bytes; the stack limit is not modelled (it only makes decoding fail).
C171 | proved | C171_ber | `Ber` has asn1c's four extensions of X.690 (see Spec.lean).
C172 | proved | C172_der C172_unique | `C172_der` says that the outcome is that of the constraint check.
C173 | partial | C173_ber_partial C173_refuted | False: trailing bytes, indefinite and long lengths, set unused bits.
C174 | proved | C174_shape | 
C175 | partial | C175_full_partial C175_refuted | False for ROAs, manifests and signed data; proved for the other types.
C176 | proved | C176_roa | 
C177 | partial | C177_refuted C177_ber_partial | False: the bits are ignored.
C178 | proved | C178_readable C178_ends | 
C179 | proved | C179_resources C179_roa | RFC 6484 policy; not BGPsec router certificates.
C180 | proved | C180_trustAnchor | 
C181 | proved | C181_manifest | 
C182 | partial | C182_authentic_partial C182_content C182_in_file C182_refuted | False for signed attributes of indefinite length: then the octet 0x31 alone is verified, and one signature serves for every content.
C183 | proved | C183_unique C183_one_content C183_unforgeable | The hypotheses leave out a signature of the octet 0x31 alone (C182).
C184 | proved | C184_safe C184_values | 
C185 | proved | C185_correct | 
C186 | proved | C186_ends C186_one | 
C187 | partial | C187_roa C187_authentic_partial | C187_roa is the full equivalence for correctly written files. Authenticity of arbitrary files fails for signed attributes of indefinite length (C182).
C188 | partial | C188_manifest C188_authentic_partial | C188_manifest is the full equivalence for correctly written files. Authenticity of arbitrary files fails for signed attributes of indefinite length (C182).
C189 | partial | C189_bytes_partial | A signed object whose attributes have an indefinite length is accepted on a signature of the octet 0x31 alone (C182); the theorem says so. Otherwise complete.
C190 | proved | C190_written | 
C191 | partial | C191_listed_partial C191_refuted | False of the code: files are hashed when the manifest is read, and read again later. Proved when no file changes during the validation.
C192 | partial | C192_reset_partial C192_serial_partial | As C66 and C168: no transmission fails, and no update lands in the middle of a response. As C182: a signed object whose attributes have an indefinite length is accepted on a signature of the octet 0x31 alone.
C193 | proved | C193_safe C193_noLeak C193_frozen C193_whole | 
C194 | partial | C194_lands_partial C194_stuck C194_refuted C194_starved | False of the code: the lock is held while a router is sent its response, and there's no timeout, so one router that stops reading keeps all others from ever getting new data (C194_refuted); so do two that read, but keep asking (C194_starved), as the lock does not prefer writers. Proved if every router takes (or refuses) what it is sent, and there are no new requests.
C195 | partial | C195_memory_is_not_misused_partial C195_refuted | False of the code if a TAL can't be opened and debug messages are logged: do_file_validation's last message then prints args.tal.file_name, which tal_init has not set. Proved otherwise. The aborts (pr_crit) considered are those that depend on what is modelled. What is modelled is who owns what: contents, lengths and indices of buffers are not (they are in other claims), nor are what functions allocate and release locally.
C196 | proved | C196_everything_is_released | For every outcome, including C195_refuted's. Not modelled: what the libraries (and asn1c's structures, see C174) allocate internally; asn1time2str's BIO, which leaks, is local to it.
C197 | partial | C197_cycles_keep_only_the_state_partial C197_refuted | False of the code: if a rule of a SLURM file can't be understood, the string that json_dumps returns (for the message about it) is never released; it's tried again each cycle, so that the memory grows by one string per cycle (C197_refuted, for every number of cycles). Proved: nothing else remains (at most one string per cycle), nothing is misused. Not modelled: what happens inside of the validation of a TAL (C195, C196), the threads' interleaving (C53, C193).
C198 | partial | C198_server_keeps_only_its_clients_partial C198_nothing_remains C198_requests_are_the_parsers C198_refuted C198_refuted_queue | False of the code: if a client's complete queries fill the buffer (1024 bytes) and the next read fails, pdustream_next returns without releasing the last request; so clients that do this and reconnect make the memory grow without bounds (C198_refuted). Queries that wait at the shutdown aren't released either, only their tasks (C198_refuted_queue). Proved: nothing is misused, at most that is lost, and nothing if no read fails and no query waits. Not modelled: reads beyond the received bytes (C18), what the workers allocate.
C199 | partial | C199_partial C199_stale C199_refuted | False of the code: If-Modified-Since is the time when the local file was written, by the local clock, not the Last-Modified that the server sent; so a change between the answer and the end of that second (or of the difference of the clocks) is never downloaded, until the next change (C199_refuted, C199_stale). Proved if no change happens then. Servers that answer conditional requests as RFC 9110 says.
C200 | partial | C200_partial C200_request C200_refuted C200_timeout_refuted | False of the code: the redirections' protocols aren't restricted, so an HTTPS server can redirect to plain HTTP; and libcurl refuses timeouts over 2147483 seconds, which the configuration allows, and then there's no limit. Proved: every HTTPS server is authenticated, and the bounds for the values that libcurl accepts. Libcurl is specified by its manual.
C201 | partial | C201_exact C201_partial C201_refuted C201_refuted_long | False of the code: log_buffer forgets what's after the last line feed of each read, so a line that's divided between two reads loses its first part, and lines of 4096 bytes or more are never logged whole; a NUL hides the rest of the read. Proved: exactly what's logged for all reads (C201_exact), and the claim if every read ends where a line ends
C202 | partial | C202_partial C202_executable C202_damage C202_refuted | False of the code: if rsync can't be executed, the child calls exit(), which flushes its copies of the buffers of the files that other threads are writing, so that these bytes are written twice (C202_refuted; C202_damage says exactly what). Proved if rsync can be executed, or the files have nothing buffered
C203 | partial | C203_partial C203_silent C203_defined C203_refuted | False of the C standard: the texts that aren't set (and the type of file) are NULL, and NULL is given to printf's %s, with the default configuration too (C203_refuted; C203_defined says exactly when). Proved for libraries that write "(null)", as glibc: the messages are each option's name and a text that would set the same value
C204 | proved | C204_updates_return_everything C204_schema_needed | The schema's facts that are needed are in Xmem/Spec.lean (Enforces); a concrete reader of the schema is shown to have them. C204_schema_needed: without them there are leaks, a use after release (parse_ulong's message) and a NULL dereference. URIs are counted as references (their own memory is C195, C196).
C205 | partial | C205_safe C205_nothing_left_partial C205_during_partial C205_refuted | The part on using, releasing and NULL is proved for all files (C205_safe). The rest is false of the code: a name that repeats an attribute loses the first one, and asn1time2str loses its BIO if the date can't be printed (C205_refuted). Proved for all sequences of files without those (C205_nothing_left_partial, C205_during_partial). URIs and publication points are C195 and C196's matter, as are the references in certificates.
C206 | partial | C206_resources_partial C206_neverMore C206_intersection_partial C206_roa_partial C206_refuted C206_refuted_kind | False of the code: a prefix or range that is only partly of the issuer is dropped completely, instead of trimmed; and the certificate is rejected if the issuer has nothing of a kind that it lists. Proved: exactly when it is accepted and with what (elements that the issuer has completely); never more than the intersection; the intersection when no element is only partly the issuer's. Not BGPsec router certificates.
C207 | partial | C207_partial C207_confined C207_confined_tmp_partial C207_leftovers C207_refuted C207_refuted_escape C207_refuted_directory | False of the code: the temporary directory is never removed; the name ".." escapes from it; when --tal is a directory, the place is not that of the validation. The rest is proved, when the name of the TAL is not empty (--tal does not end in a slash).
C208 | partial | C208_partial C208_exact C208_waits C208_not_before C208_frees C208_refuted | False of the code: nothing is marked close-on-exec, so an rsync keeps open the sockets and the pipes that the validator had when it launched it: a download waits for another one's rsync, routers don't see that the validator closed their connections, and the port stays taken. Proved: exactly what is open; the claims if no rsync that runs was launched meanwhile; the end is never seen before rsync's
C209 | partial | C209_partial C209_safe C209_bound C209_refuted | False of the code: a null in a file overwrites the previous text without releasing it. Proved: nothing is misused, at most one string is lost for each null, and nothing if there is none. --init-tals is not modelled (the process exits)
C210 | partial | C210_partial C210_safe C210_bound C210_refuted | False of the code: BIO_new_seq forgets its arguments if it fails, and so does its caller. It only fails for lack of memory. Proved: nothing is misused, at most two BIOs are lost, and nothing if BIO_new succeeds.
C211 | partial | C211_partial C211_waits C211_zero C211_same C211_refuted_zero C211_refuted_signals C211_refuted_long | False of the code: 0, documented as unlimited, gives up at once; the time isn't measured after a signal, so signals can prolong it without bound; times over 24 days don't fit in poll's argument, so that they are forever, or nothing. Proved for the other times: it doesn't give up before, and without signals it doesn't wait after.
C212 | partial | C212_partial C212_joined C212_twice C212_safe C212_refuted | Proved for all the paths without empty components after the first one (so for absolute paths too), and that reversing them twice gives the same text; that it stays in its block and only moves characters is proved for all paths. The full statement is false: a//bc, which appending a/ and bc makes, becomes bc/a/ instead of bc//a, because the loop doesn't look at the character that follows a slash.
