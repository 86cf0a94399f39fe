# Formal model of FORT validator in Lean 4

## Layout

* `lean/Verif/<Area>/Model.lean` (or `Model*.lean`): definitions modelling the C code, function by
  function, each with a citation `file:lines` of /repo and its simplifications.
* `lean/Verif/<Area>/Spec.lean`: small specifications written without the model's helpers.
* `lean/Verif/<Area>/Lemmas*.lean`: helper lemmas.
* `lean/Verif/<Area>/Props.lean`: the property theorems (names listed in MANIFEST.json), each followed by
  `example`s showing that a concrete, non-trivial case meets its hypotheses.
* `tools/props.py`, `tools/props.d/`: single source from which `properties.jsonl`, `MANIFEST.json` and
  this file's table are generated.
* `seeded/LOG.jsonl`: log of the seeded-bug experiments.

## Trusted base

* Lean 4.33.0's kernel, and the Mathlib modules imported. No axioms are added; the theorems depend at most on
  Lean's standard axioms `propext`, `Classical.choice`, `Quot.sound`. `tools/axioms.sh` prints the axioms each
  theorem listed in MANIFEST.json depends on.
  No compiled-code evaluation is used in proofs.
* The correspondence between the C code and the Lean model, which is by reading. Every definition cites the
  lines it models.

## Modelling conventions

* C integers: `BitVec n` where wrap-around matters, `Nat`/`Int` where the code bounds the values or uses
  arbitrary-precision ASN.1 integers. `unsigned int` is 32 bits, `size_t` 64 bits.
* Undefined behaviour (out-of-bounds access, NULL dereference, division by zero) is a distinct outcome
  (`none`/`.ub`), never mapped to a default value.
* Memory allocation does not fail (pmalloc & co. terminate the process instead).
* uthash tables are lists in application order keyed by the key bytes (HASH_REPLACE deletes the equal key and
  appends at the end), and HASH_ITER visits that order.
* Sockets, files, network, the clock and randomness are oracles: arguments the theorems quantify over.
* Locks: each lock-protected region is one atomic step, where the property is about interleavings.
* Logging is modelled on its own (`Verif/Log`); elsewhere, calls that log are left out.

## Not modelled

OpenSSL (signature and chain verification, X.509 decoding), asn1c's encoders and printers (its BER decoder and constraint checks are modelled in `Verif/Asn`), libxml2, libcurl, jansson and the
kernel's sockets/file systems themselves; getopt, strtoul and stat (specified in `Verif/Conf/Model`); memory
deallocation (print mode counts JSON nodes, and the threads of the RTR server and the pool, file descriptors and their like are counted where a property is about them). Print mode
takes what libcrypto and the BER decoder understood of an object as its input (`Lib`, `Cert`, `Crl` of `Verif/Print`). Where these matter, their results are universally quantified inputs of the model.

`Verif/Sys` composes the areas into whole runs: a trust anchor (traversal, resources, ROAs), a TAL (`cache_download_alt`), a cycle (all TALs,
SLURM), and any number of cycles followed by a router's query. What is not modelled of it (decoding, signatures, profiles, downloads) is
the structure `Pki`, whose functions take and return an arbitrary state and are universally quantified.

`Verif/Asn` models the BER decoder of asn1c: the generic functions by hand, and the types from the type descriptors in the C files, by
`tools/asn_gen.py` (which is trusted to read them; its output is `Types.lean` and `Cons.lean`). Simplifications: the whole buffer is there at once
(the decoders' contexts, with which a decoding can be resumed, are not modelled; no caller resumes); buffers have less than 2^30 bytes;
the stack limit (`asn1-decode-max-stack`) is not reached; memory is not exhausted; types are not extensible (none of the ten is).
Whether an empty string has a buffer, which some constraint checks ask, depends on how it was encoded: it is an oracle (`Nul`), which the theorems
quantify over; `Nul.never` (always a buffer) is what primitive encodings, so DER, give.

`Verif/Obj` goes from bytes to effects: `SpecEnc`, `SpecObj` and `SpecCert` are encoders of ROAs, resource extensions and manifests, written
after the RFCs; `Model` says which members of the decoded structures the other models read. The signed object around (CMS, EE certificate)
is an assumption of these theorems, where it is not modelled.

`Verif/Sd` goes from the bytes of a file to an accepted signed object: ContentInfo, SignedData (also its PKCS#7 form), `find_signedAttrs`, and the checks of
`Verif/Cms`. Certificates, SHA-256 and the verification of signatures are parameters (`Crypto`), over which the theorems quantify.
`ModelRoa` and `ModelMft` continue from there to the VRPs and the publication point. What is known of an EE certificate (its policy, resource extensions and references) is a
parameter there (`Ee`, `refs`), as is the library's verdict on it (`Crypto`), which for a manifest depends on the CRL that its content names.
`Verif/Sys/ModelBytes` puts these into the whole trust anchor (`Verif/Sys`): manifests, ROAs and Ghostbusters records are bytes there; certificates and CRLs are still values that a
function yields.

`Verif/Db` has the threads that share the RTR server's database: each use of an object, each entry and exit of the lock and each PDU is a step there.
`Verif/Mem` has the ownership of everything that the thread of a TAL shares: URIs, publication points, certificates, and so on. What decides which way a function goes is an oracle there.
`Verif/Heap` is a small heap with triples about ownership; `Verif/Upd` has the main loop there: tables, deltas, SLURM. (Rules of SLURM are counted only as far as they own memory.)
`Verif/Conn` has the RTR server there, with the bytes that clients send: streams, requests, tasks.
`Verif/Web` has the options that libcurl is given and conditional requests; libcurl's manual and RFC 9110's servers are specifications (`Web/Spec`), not models of code.
`Verif/Rlog` is rsync's output in the log; `Verif/Fork` is stdio's buffers across fork, exec and exit (as POSIX specifies them).
`Verif/Xmem` is what RRDP updates allocate and release (libxml2, OpenSSL's numbers and the URIs are objects; the schema's facts are a hypothesis).

`Verif/Omem` is what the validation of certificates, CRLs and signed objects allocates and releases locally (OpenSSL's objects and decoded structures are objects; what's in names and whether dates can be printed is given, the rest is the oracle's).
`Verif/Inherit` is who holds which descriptor (connections, listening sockets and rsync's pipes), after any forks of any threads; the standard streams are taken.
`Verif/Cmem` is what the configuration allocates and releases (options with strings or lists of strings; the number of elements, and whether texts are empty, null or of the wrong type, is given).

`Verif/Pmem` is who owns what in print mode (streams, decoded objects, documents, each one object); what is read and printed is in `Verif/Print`.

`Verif/Rtime` is the time that the validator waits for an rsync: a clock, with `poll` as POSIX describes it (it times out exactly when it should).
`Verif/Uri/ModelReverse` is the reversal of a path builder's text, on the bytes of its block.

## Property by property

### C01 Serial numbers are ordered by RFC 1982

For any two 32-bit serials, `serial_lt(a,b)` is true exactly when going forward from a to b (mod 2^32) takes between 1 and 2^31-1 steps; so it is irreflexive, asymmetric, and leaves exactly the pairs at distance 2^31 (and equal pairs) unordered.

*Model and proof.* BitVec 32 model of the C expression; decision-logic theorem against (b-a) mod 2^32.

*Status.* proved: `Verif.Rtr.C01_serial_lt_iff`, `Verif.Rtr.C01_irrefl`, `Verif.Rtr.C01_asymm`, `Verif.Rtr.C01_unordered_iff`, `Verif.Rtr.C01_add_lt`.

### C02 The VRP table is a set

After any sequence of additions, joins and removals, the table contains exactly the payloads that the sequence of set operations says it contains, each once, and its counters equal the number of distinct payloads.

*Model and proof.* uthash modelled as its application-order list keyed by the struct bytes; refinement to Finset operations by induction on the operation list.

*Status.* proved: `Verif.Rtr.C02_table_is_set`.

### C03 A delta is the exact difference of two tables

The delta computed between two validation results announces exactly the payloads of new missing from old, withdraws exactly those of old missing from new, mentions each payload once, and is absent exactly when both results hold the same payloads. A router applying it to old obtains new.

*Model and proof.* compute_deltas modelled on lists (four loops, six arrays, deltas_foreach order); specification is an independent strict router (rejects duplicate announcements and unknown withdrawals).

*Status.* proved: `Verif.Rtr.C03_delta_transforms`, `Verif.Rtr.C03_delta_is_difference`.

### C04 The delta history keeps the last `deltas.lifetime` deltas in order

For a lifetime of at least one, after any number of updates the history holds the min(updates, lifetime) newest deltas; asking for the last n visits exactly the n newest ones, oldest first, and asking for more than stored is an error. No slot outside the array is touched.

*Model and proof.* Concrete circular array with 32-bit index arithmetic and explicit out-of-bounds outcome; refinement to 'last L of the log' by an invariant.

*Status.* proved: `Verif.Rtr.C04_history`.

### C05 A configured delta lifetime never makes the server touch memory outside the history

For every value of server.deltas.lifetime the configuration accepts, storing a delta stays inside the allocated history.

*Model and proof.* Same model as C04 with L = 0: the else branch writes slot 0 of an empty array.

*Status.* partial: `Verif.Rtr.C05_lifetime_zero_is_ub`, `Verif.Rtr.C05_lifetime_safe_partial`. The property is false of the code: the configuration accepts lifetime 0 and then the first delta is stored outside the (empty) array. Proved: that refutation, and safety for every other 32-bit lifetime and any number of deltas.

### C06 Incremental synchronization is exact

A router that holds the data set of an earlier serial s of this session and sends a Serial Query for s either is told to reset, or receives announcements and withdrawals which, applied in the order sent by a strict router, never announce a record it already has, never withdraw one it does not have, and leave it with exactly the data set of the serial named in End of Data.

*Model and proof.* State machine over update cycles with a ghost history; invariant 'stored deltas connect consecutive snapshots'; general lemma that cancelling opposite events preserves a strict-router trace.

*Status.* proved: `Verif.Rtr.C06_incremental_sync`. Distances are below 2^32 publications (beyond that serials repeat) and lifetimes are 1 <= L < 2^31.

### C07 A serial outside the delta window is answered with Cache Reset

A Serial Query whose serial is not the current one nor one of the stored predecessors gets a Cache Reset, never an (empty) success.

*Model and proof.* Exact characterization of the accepted serials; counterexample when no delta is stored and the distance is 2^31.

*Status.* partial: `Verif.Rtr.C07_window_partial`, `Verif.Rtr.C07_wrong_serial_accepted`. The property is false of the code when no delta is stored and the distance is exactly 2^31 (proved refutation). Proved whenever at least one delta is stored.

### C08 The serial changes exactly when the data changes

An update cycle that fails, or yields the same payloads as before, leaves serial, data and delta history untouched and reports no change; otherwise the serial grows by one (mod 2^32), the data becomes the new result, and a change is reported. The first success has serial 1.

*Model and proof.* Same state machine; per-step theorem plus induction over cycles.

*Status.* proved: `Verif.Rtr.C08_serial_iff_change`.

### C09 End of Data is only sent after every payload was sent

If sending some payload PDU of a response fails, the response is abandoned: the End of Data PDU that would declare the router synchronized is not sent.

*Model and proof.* Send oracle (any subset of sends may fail). Holds for Reset Queries; refuted for Serial Queries: the error of the callback is discarded.

*Status.* partial: `Verif.Rtr.C09_reset_query`, `Verif.Rtr.C09_serial_query_partial`, `Verif.Rtr.C09_serial_query_refuted`. False of the code for Serial Queries: errors of the payload loops are discarded and End of Data is sent after lost payloads (proved refutation). Proved for Reset Queries with any pattern of failing sends; for Serial Queries the exact set of possible outputs is proved.

### C10 A Reset Query response is one consistent snapshot

The payloads and the serial in the End of Data of a Reset Query response belong to the same validation result, whatever updates run concurrently.

*Model and proof.* Interleaving model with one step per lock-protected region; refuted by a schedule, proved when no data-changing update lands between the two regions.

*Status.* partial: `Verif.Rtr.C10_reset_snapshot_partial`, `Verif.Rtr.C10_reset_race_refuted`. False of the code: the serial and the data are read in two locked regions (proved refutation with an update in between). Proved when no update lands in between.

### C11 Session IDs identify the protocol version's session

The session IDs of version 0 and version 1 always differ, never change during a run, and a Serial Query with another session ID gets a Corrupt Data error and no payload.

*Model and proof.* BitVec 16 arithmetic plus decision logic of the handler.

*Status.* proved: `Verif.Rtr.C11_sessions_differ`, `Verif.Rtr.C11_sessions_constant`, `Verif.Rtr.C11_wrong_session`.

### C12 Responses follow the RTR grammar

Every response to a query is one of: Cache Response, payloads, End of Data; Cache Reset; one Error Report - or, if a send fails, a prefix of one of these (Serial Query: up to the discarded errors of C09). Version 0 routers never receive router keys; every PDU carries the negotiated version.

*Model and proof.* Handlers modelled as functions from state and send oracle to a list of sent PDUs; grammar as an inductive/decidable spec on PDU lists.

*Status.* proved: `Verif.Rtr.C12_serial_query`, `Verif.Rtr.C12_reset_query`, `Verif.Rtr.C12_reset_query_versions`, `Verif.Rtr.C12_serial_query_versions`, `Verif.Rtr.C09_reset_query`, `Verif.Rtr.C09_serial_query_partial`. The C09 theorems give the exact output when sends fail.

### C13 Sent PDUs have the RFC byte layout

Every PDU written to a router has a length field equal to the number of bytes written, and an independent RFC 8210 decoder recovers exactly the version, type, flags, lengths, address, ASN, keys, serial and timers it was built from.

*Model and proof.* Byte lists; round trip with a separately written decoder.

*Status.* proved: `Verif.Rtr.C13_roundtrip`, `Verif.Rtr.C13_stream`.

### C14 Error Reports embed a bounded prefix of the offending PDU

The encapsulated PDU of an Error Report is a prefix of the received bytes, at most 123 bytes long and never longer than what was received, and all three length fields of the report are consistent.

*Model and proof.* Byte-list model and independent decoder of the report.

*Status.* proved: `Verif.Rtr.C14_error_report`.

### C15 Request parsing does not depend on how TCP fragments the stream

For a client that sends well-formed queries, how the byte stream is cut into reads (one call) or across calls does not lose, duplicate or corrupt PDUs: each call returns the last complete query received so far and leaves the incomplete rest for later.

*Model and proof.* Buffer model with start/end offsets over reads; invariant and termination; refinement to a parser over the concatenated stream.

*Status.* proved: `Verif.Rtr.C15_one_call`, `Verif.Rtr.C15_fragmentation`.

### C16 The protocol version is fixed by the first PDU

Once a stream has accepted a PDU its version never changes, only versions 0 and 1 are ever accepted, and a PDU with another version ends the session with error 8 (other known version) or 4 (unknown version).

*Model and proof.* Decision logic plus an invariant over the parser loop.

*Status.* proved: `Verif.Rtr.C16_version_fixed`, `Verif.Rtr.C16_wrong_version`.

### C17 An Error Report is never answered with an Error Report

No byte sequence starting with an Error Report header makes the server send an Error Report about it.

*Model and proof.* Effects of one parser iteration recorded as a list of sends.

*Status.* partial: `Verif.Rtr.C17_no_report_about_report_partial`, `Verif.Rtr.C17_refuted`. False of the code: if the length field of a bad Error Report is 0 or 1, its type is read from beyond the copy that was made of it, so what's there decides whether it's answered (C17_refuted). Proved whenever deciding isn't undefined behaviour.

### C18 Parsing a request never reads outside the receive buffer

Whatever bytes an RTR client sends, the parser reads only bytes it has received.

*Model and proof.* Reads are modelled with bounds and an out-of-bounds outcome. Refuted twice: Error Report with missing error text; PDU with length < 2 and bad version.

*Status.* partial: `Verif.Rtr.C18_reads_partial`, `Verif.Rtr.C18_stale_text`, `Verif.Rtr.C18_out_of_bounds`, `Verif.Rtr.C18_empty_copy`. False of the code: proved with witnesses for received-but-stale bytes, reads past the buffer and an empty copy; C18_reads_partial characterizes the byte strings that can cause it.

### C19 Router-supplied error text is cut to valid UTF-8

The text logged for a received Error Report is the longest prefix of the received text that consists of structurally complete UTF-8 sequences, and the terminator is written within the allocated string.

*Model and proof.* Recursive model; characterization with an independent inductive definition of well-formed sequences.

*Status.* proved: `Verif.Rtr.C19_utf8_cut`.

### C20 A router key certificate yields one key per AS, for any AS range

For an AS range [min,max] the router-key handler registers exactly the keys for AS min..max and terminates, also when max = 2^32-1.

*Model and proof.* 64-bit loop counter model; induction over the range.

*Status.* proved: `Verif.Rtr.C20_router_key_range`.

### C21 IP prefixes decode only from canonical encodings

An IPv4 (IPv6) prefix is accepted exactly when its BIT STRING has at most 32 (128) bits, fewer than 8 unused bits, and no bit beyond the prefix length is set; the result is the address padded with zeros and the length.

*Model and proof.* Byte-level model; address as a number; decision-logic theorem.

*Status.* proved: `Verif.Res.C21_prefix4`, `Verif.Res.C21_prefix6`.

### C22 IP ranges decode only if ordered and not a prefix

An address range is accepted exactly when min <= max and the range cannot be written as a prefix; min is padded with zeros and max with ones.

*Model and proof.* Number-level model of the encoding check; specification: no (addr,len) denotes the same set.

*Status.* proved: `Verif.Res.C22_range4`, `Verif.Res.C22_range6`.

### C23 Resource sets stay sorted, disjoint and non-adjacent

A resource set accepted from a certificate lists ranges in increasing order, with a gap between neighbours; anything else (out of order, overlapping, adjacent, inverted) is rejected.

*Model and proof.* Generic comparison model; invariant by induction over additions.

*Status.* proved: `Verif.Res.C23_sets32`, `Verif.Res.C23_sets6`.

### C24 Containment lookup is exact

On a resource set built through the API, the containment query answers yes exactly when some stored range covers the requested range (equivalently, every requested number is in the set), and it terminates.

*Model and proof.* Binary search with explicit left/right indexes and the C's unsigned/early exits; proof with the C23 invariant.

*Status.* proved: `Verif.Res.C24_contains32`, `Verif.Res.C24_contains6`, `Verif.Res.C24_null`.

### C25 Certificates never gain resources their issuer lacks

For every chain of certificates accepted from the trust anchor down, under either policy, the AS, IPv4 and IPv6 resources of each certificate are a subset of its issuer's, hence of the trust anchor's.

*Model and proof.* Resources as three optional range sets; per-certificate lemma and induction over the chain.

*Status.* proved: `Verif.Res.C25_chain`, `Verif.Res.C25_endEntity`, `Verif.Res.C25_stable`, `Verif.Res.C25_trustAnchor`.

### C26 RFC 8360 trims overclaims, RFC 6484 rejects them

An element not covered by the issuer makes an RFC 6484 certificate invalid, and is dropped (keeping all other elements) under RFC 8360.

*Model and proof.* Fold over elements; exact output characterization. The corner case of an issuer without any resources of the family is refuted.

*Status.* partial: `Verif.Res.C26_ip4_partial`, `Verif.Res.C26_ip6_partial`, `Verif.Res.C26_asn_partial`, `Verif.Res.C26_noSet`, `Verif.Res.C26_refuted`. False of the code when the issuer has no resource of the kind: an RFC 8360 certificate is then rejected, not trimmed. Exact characterization in all other cases.

### C27 AS ranges are within 0..2^32-1 and not inverted

An AS number or range is accepted only if it fits 32 bits and min <= max.

*Model and proof.* Decision logic over unbounded integers.

*Status.* partial: `Verif.Res.C27_asn_partial`, `Verif.Res.C27_ordered`, `Verif.Res.C27_refuted`. False for negative INTEGERs, which are read as unsigned numbers (-1 is accepted as AS 255).

### C28 Every VRP is well-formed and covered by the ROA's certificate

Every VRP handed to the RTR database from a ROA has prefix length <= max length <= 32 (128), a canonical prefix, and a prefix contained in the resources of the ROA's EE certificate.

*Model and proof.* ROA payload as lists of families and addresses; effect list of emitted VRPs; invariant over the loops.

*Status.* proved: `Verif.Res.C28_vrps`.

### C29 A rejected ROA contributes no VRPs

If a ROA is rejected, none of its prefixes becomes a VRP.

*Model and proof.* Same model; refuted by a ROA whose second address is not covered; proved when the error is in the first address / before any emission.

*Status.* partial: `Verif.Res.C29_rejected_partial`, `Verif.Res.C29_early_partial`, `Verif.Res.C29_refuted`, `Verif.Res.C29_refuted_refs`. False of the code: VRPs are emitted while the ROA is being checked. Proved for ROAs with one address, and for errors that are found before the addresses.

### C30 SLURM prefix filters match as RFC 8416 says

A VRP is removed by a prefix filter exactly when every member present in the filter matches: the filter's prefix equals or covers the VRP's prefix (same family), and the filter's ASN equals the VRP's ASN.

*Model and proof.* Bit-level coverage proved equal to 'every address of b is in a'.

*Status.* proved: `Verif.Slurm.C30_prefix_filter`. Filters of a loaded SLURM (Lists.WF, which LoadLemmas.fileOf_wf shows of every accepted file).

### C31 SLURM BGPsec filters match as RFC 8416 says

A router key is removed by a BGPsec filter exactly when every member present (ASN, SKI) matches.

*Model and proof.* Decision logic over presence flags.

*Status.* proved: `Verif.Slurm.C31_bgpsec_filter`. All filters and keys.

### C32 Applying SLURM yields (validated minus filtered) plus assertions

After SLURM is applied the table is exactly: the validated payloads not matched by any filter, plus all assertions - assertions are never filtered.

*Model and proof.* Model of the two foreach passes and the additions; set-level theorem.

*Status.* proved: `Verif.Slurm.C32_apply`, `Verif.Slurm.C33_applied`. Set-level, all tables and rule lists; C33_applied is the end-to-end statement from the files.

### C33 A broken SLURM keeps the last valid one

If the SLURM files are not good, the last successfully loaded SLURM (if any) is applied; if there is none, validated data goes unmodified; if SLURM is not configured or empty nothing is applied. If the files cannot even be read the cycle fails, nothing is published, and the kept SLURM stays.

*Model and proof.* State machine over cycles.

*Status.* proved: `Verif.Slurm.C33_last_valid`, `Verif.Slurm.C33_applied`, `Verif.Slurm.C33_not_configured`, `Verif.Slurm.inForce_total`. All histories of cycles. Assumption: checksums tell file contents (Faithful); without it see C34.

### C34 A changed SLURM is noticed

If the multiset of SLURM files' contents changed since the last load, the SLURM is reloaded.

*Model and proof.* List model; refuted by [A,A] vs [A,B]; proved for duplicate-free lists.

*Status.* partial: `Verif.Slurm.C34_change_noticed_partial`, `Verif.Slurm.C34_refuted`. False of the code when two files have equal contents; proved otherwise.

### C35 Conflicting SLURM files are rejected

A set of SLURM files is loaded, as the union of their rules, exactly when all are good and no two different files conflict (share an address in prefix rules or an AS number in BGPsec rules); otherwise nothing of any file is used.

*Model and proof.* Fold over files with cache/flush.

*Status.* proved: `Verif.Slurm.C35_conflicts`. All sets of files; libraries assumed as in Env.Ok.

### C36 SLURM JSON members are range- and type-checked

ASN members fit 32 bits, prefixes are canonical, maxPrefixLength is between the prefix length and the family maximum, no unknown member is accepted, and no malformed member crashes the parser.

*Model and proof.* JSON values as an inductive type; total parser model with an undefined-behaviour outcome. The prefix strings "" and "/" are shown to reach it.

*Status.* partial: `Verif.Slurm.C36_prefix_rule_partial`, `Verif.Slurm.C36_prefix_stored_partial`, `Verif.Slurm.C36_bgpsec_rule_partial`, `Verif.Slurm.C36_bgpsec_stored_partial`, `Verif.Slurm.C36_crash_partial`, `Verif.Slurm.C36_refuted`. Exact acceptance conditions proved; false of the code: prefix "" or "/" crashes, junk after a prefix is accepted.

### C37 Cache paths never leave the TAL's directory

For every URL that is accepted, the local path is <repository>/<tal>/<scheme>/ followed by components none of which is empty, '.' or '..'; so no URL can address a file outside its TAL's directory.

*Model and proof.* Component-wise model of the parser; invariant over the loop.

*Status.* proved: `Verif.Uri.C37_mapping`, `Verif.Uri.C37_confined`, `Verif.Uri.C37_same_components`. Local paths are exactly the normalized components of the URL below <repository>/<tal>/<rsync, https or rrdp>; creation never crashes; the only other failure is the 4096 character limit.

### C38 Path builder operations compose like component lists

Appending components and popping them are inverse; the buffer never exceeds its capacity and the resulting string is the components joined by '/'.

*Model and proof.* Buffer model with capacity; refinement to component lists.

*Status.* proved: `Verif.Uri.C38_compose`, `Verif.Uri.C38_append_pop`, `Verif.Uri.C38_empty`. Buffer-level model: memory block, capacity, doubling; refinement to lists of components, including when exactly the length error happens.

### C39 Manifest file names cannot escape the manifest's directory

A file name accepted from a manifest has at least 5 characters, only [A-Za-z0-9_-] before the dot, a three-letter extension, no '/' - so the referenced file is a sibling of the manifest.

*Model and proof.* Character-level model; decision theorem and path corollary.

*Status.* proved: `Verif.Uri.C39_names`, `Verif.Uri.C39_url`, `Verif.Uri.C39_sibling`. Exact set of accepted names, the URL built from them and the place in the cache next to the manifest, plain and RRDP.

### C40 Distinct RRDP repositories cannot overwrite each other's files

Files published under different RRDP notification URLs are stored under different local paths.

*Model and proof.* Refuted with two concrete notification URLs; proved for notifications neither of which extends the other.

*Status.* partial: `Verif.Uri.C40_refuted`, `Verif.Uri.C40_partial`, `Verif.Uri.C40_kinds`. False as stated (notification https://a/b with rsync://c/d/e.cer against notification https://a/b/c with rsync://d/e.cer); exact collision condition proved, and no collisions across kinds and TALs.

### C41 Each URL is fetched at most once per validation cycle

Within one cycle, however often and in whatever order URLs are requested, each distinct download target is attempted at most once, and every later request returns the result of that attempt, as long as the system's clock is not set back before the cycle's start.

*Model and proof.* State machine over requests with a network oracle; invariant on attempt timestamps.

*Status.* proved: `Verif.Cache.C41_once`, `Verif.Cache.C41_attempt`, `Verif.Cache.C41_clock_refuted`. One attempt per target and cycle, same answer later; without the clock assumption it is false (witness).

### C42 When downloads fail the best cached alternative is used

If none of the alternatives of a repository can be downloaded, the alternative with a usable (successfully downloaded earlier) cached copy whose success is most recent is used; none is used if none was ever successful.

*Model and proof.* Model and comparison spec; fold maximum lemma.

*Status.* proved: `Verif.Cache.C42_best`, `Verif.Cache.C42_most_recent`. The alternative recovered is the best usable one; under the cycle's invariant that is the most recently successful one.

### C43 Alternatives are tried in priority order, stopping at the first success

Among the URLs of a repository, those of the higher-priority protocol are tried first (in listed order on ties), each at most once, and no further URL is tried once one yields a result or a fatal answer.

*Model and proof.* Oracle-driven loop model.

*Status.* proved: `Verif.Cache.C43_order`, `Verif.Cache.C43_works`, `Verif.Cache.C43_stops`. Order, at most one try each, and stop at the first usable one, for any network and caller behaviour.

### C44 RRDP delta lists are accepted only when contiguous

A notification's delta list is accepted exactly when its serials are, in some order, max-n+1..max where max is the notification serial; it is then processed in ascending order.

*Model and proof.* In-place cycle sort model with explicit indexes; termination, permutation and completeness proofs.

*Status.* proved: `Verif.Rrdp.C44_contiguous`. In-place cycle sort with explicit indexes.

### C45 RRDP updates apply exactly the missing deltas, else the snapshot

On a session match with old serial o and new serial n, exactly the deltas o+1..n are applied in ascending order; an unknown session, missing deltas, too many deltas or any delta error leads to the snapshot; an unchanged serial does nothing.

*Model and proof.* Effect list model over the sorted delta list.

*Status.* proved: `Verif.Rrdp.C45_steps`, `Verif.Rrdp.C45_update`, `Verif.Rrdp.C45_history`, `Verif.Rrdp.C45_unreachable`. C45_steps: which deltas are applied, else the snapshot, for any server; C45_update and C45_history: with a server that is honest, files equal the server's. Files are a function of path; XML, base64 and SHA-256 are parameters.

### C46 A failed RRDP update is retried

If an update fails (delta and snapshot), the next cycle does not consider the local copy current.

*Model and proof.* Two-cycle model: the notification file is replaced before the update is applied; refuted.

*Status.* partial: `Verif.Rrdp.C46_refuted`, `Verif.Rrdp.C46_never_retried`, `Verif.Rrdp.C46_partial`. False: the notification is replaced before the update is applied; proved for failures before that.

### C47 Hexadecimal hashes are parsed exactly

A hash attribute is accepted exactly when it is 64 hexadecimal digits (any case), and yields the corresponding 32 bytes.

*Model and proof.* Round trip and rejection theorem.

*Status.* proved: `Verif.Rrdp.C47_hex`, `Verif.Rrdp.C47_total`.

### C48 Manifest entries are visited in a random order that loses nothing

For every stream of random numbers, the shuffled file list is a permutation of the manifest's; and an empty manifest is handled without undefined behaviour.

*Model and proof.* Fisher-Yates with explicit swaps and unsigned loop bound; permutation by invariant; the empty list is refuted.

*Status.* partial: `Verif.Mft.C48_partial`, `Verif.Mft.C48_any_order`, `Verif.Mft.C48_refuted`. A permutation, every permutation reachable; an empty manifest divides by zero before its signature is checked.

### C49 A publication point is used only with exactly one CRL and all hashes good

A manifest yields a publication point only if exactly one CRL is listed and every listed file passed the hash check (or was skipped by configuration).

*Model and proof.* Fold over entries with a hash oracle.

*Status.* proved: `Verif.Mft.C49_rpp`, `Verif.Mft.C49_strict`.

### C50 Manifests are valid only inside their time window

A manifest is used only if thisUpdate <= now and thisUpdate <= nextUpdate, and now <= nextUpdate unless stale manifests are tolerated by configuration.

*Model and proof.* Lexicographic comparison model proved to be a total order.

*Status.* proved: `Verif.Mft.C50_window`, `Verif.Mft.C50_safe`. For dates that exist; leap seconds excluded (see C88).

### C51 Each CA is validated under exactly its issuer's chain

During the traversal, when a deferred certificate is popped, the certificate stack consists of exactly the accepted ancestors of that certificate, in order; and the traversal ends with an empty stack.

*Model and proof.* Machine model of the defer stack with separators; simulation of a recursive tree walk by induction.

*Status.* proved: `Verif.Tree.C51_walk`, `Verif.Tree.C51_ancestors`, `Verif.Tree.C51_not_cert`. Everything that looks at a file is a parameter with arbitrary state.

### C52 Chains deeper than the configured maximum are cut

No certificate is validated with more than max-depth-1 ancestors, so certificate loops terminate.

*Model and proof.* Depth invariant and termination bound on graphs with cycles.

*Status.* proved: `Verif.Tree.C52_depth`, `Verif.Tree.C52_ends`.

### C53 The result is the union over all TALs or nothing

A validation cycle yields the union of all trust anchors' payloads if every trust anchor validated, and nothing at all if any failed, whatever the thread completion order.

*Model and proof.* Fold over joined threads.

*Status.* partial: `Verif.Tal.C53_partial`, `Verif.Tal.C53_unreadable`, `Verif.Tal.C53_refuted_dangling`, `Verif.Tal.C53_refuted_spawn`. Proved for TAL files that exist when all threads can be created; a dangling link named *.tal or a failing pthread_create frees running or listed threads.

### C54 Thread pool runs every task once, in FIFO order, and wait means done

Every task pushed to a pool that is not being destroyed is executed exactly once; tasks are claimed in push order; when thread_pool_wait returns on a running pool no task is queued or running; no wake-up is lost.

*Model and proof.* Small-step interleaving semantics with mutex and condition variables; inductive invariants.

*Status.* proved: `Verif.Pool.C54_exclusive`, `Verif.Pool.C54_fifo`, `Verif.Pool.C54_once`, `Verif.Pool.C54_wait`, `Verif.Pool.C54_destroyed`, `Verif.Pool.C54_progress`, `Verif.Pool.C54_bounded`, `Verif.Pool.C54_ends`. One owner thread, any number of workers, any schedule, spurious wake-ups allowed.

### C55 TAL key text survives line re-wrapping

Re-wrapping the base64 key of a TAL preserves every non-newline character in order, writes within the allocated buffer, and produces lines of bounded length.

*Model and proof.* Chunk-wise model; content, capacity and line-length theorems (the documented 65 is refuted, 66 proved).

*Status.* partial: `Verif.Tal.C55_tal_partial`, `Verif.Tal.C55_tal_refuted`, `Verif.Tal.C55_publish`. Content and buffer bounds are proved for all texts; lines have at most 65 characters before their LF. The limit promised by the comment (65 including the LF) is refuted for TALs.

### C56 base64url conversion is an exact translation

Converting to base64url and back restores the original base64 text, for all inputs; output contains no '+', '/' or '='.

*Model and proof.* Character maps and padding arithmetic.

*Status.* partial: `Verif.B64.C56_encode_partial`, `Verif.B64.C56_callers`, `Verif.B64.C56_refuted`, `Verif.B64.C56_alphabet`, `Verif.B64.C56_roundtrip`, `Verif.B64.C56_decode`, `Verif.B64.C56_injective`. Encoding inputs whose length is a multiple of 3 reads beyond libcrypto's buffer (refuted); the lengths the callers use (20 and 91) are not. libcrypto's encoder and decoder are assumed to follow RFC 4648.

### C57 Downloads are retried a bounded number of times

An HTTP (rsync) download is attempted at most retry-count+1 times, retried only on retriable failures, and reports success only if the last attempt succeeded.

*Model and proof.* Loop model over an outcome stream.

*Status.* proved: `Verif.Net.C57_http`, `Verif.Net.C57_retriable`, `Verif.Net.C57_retried`, `Verif.Net.C57_rsync`. libcurl, and the rsync process, are oracles.

### C58 A download never stores more than the configured size

Whatever chunks arrive, at most http.max-file-size bytes are written to disk and any larger download is an error.

*Model and proof.* Fold over chunks.

*Status.* proved: `Verif.Net.C58_bounded`, `Verif.Net.C58_rejected`, `Verif.Net.C58_efbig`. libcurl is assumed to abort the transfer when the callback refuses bytes.

### C59 TAL files are parsed as comments, URLs, blank line, key

A TAL is accepted only as optional '#' lines, at least one rsync/https URL line, a blank line and the key; comment lines are only allowed before the URLs.

*Model and proof.* Line-list model against a grammar.

*Status.* proved: `Verif.Tal.C59`, `Verif.Tal.C59_rejects`. The URL parser (C37) is a parameter.

### C60 Text lines containing NUL are rejected

A line read from a file is returned without its line terminator (LF or CRLF) and only if it contains no NUL byte.

*Model and proof.* Byte-list model.

*Status.* proved: `Verif.Tal.C60_line`, `Verif.Tal.C60_else`. Exact characterization of lines, ends of file and errors.

### C61 Duplicate, wrongly critical, unknown critical or missing extensions reject a certificate

A certificate passes extension validation exactly when each extension that its type (TA, CA, EE) knows appears at most once, has the required criticality and has the contents the profile requires, the extensions that are not known are not critical, and every mandatory one is present; what is taken from the certificate (publication point, manifest, policy, CRL distribution point, issuer, signed object) does not depend on the order of the extensions. No list of extensions ends the process.

*Model and proof.* The walk with its `found` flags, for any table and any callbacks; then the three tables with all their handlers, against a declarative specification of each type of certificate (iff).

*Status.* proved: `Verif.Ext.C61_table`, `Verif.Ext.C61_ta`, `Verif.Ext.C61_ca`, `Verif.Ext.C61_ee`, `Verif.Ext.C61_defined`. Any table; then the three tables with all their handlers, both directions. libcrypto's decoders and SHA-1 are parameters.

### C62 At most one URL per access method is used

From an SIA/AIA extension, exactly the only URL of the expected type is taken for each access method; several usable ones, or an unusable one of that type, reject the certificate; locations that aren't URLs or have other schemes are ignored; a missing mandatory one rejects it.

*Model and proof.* Loop model over the URL model of C37.

*Status.* proved: `Verif.Ext.C62`, `Verif.Ext.C62_usable`.

### C63 Key usage must be exactly what the certificate type requires

CA certificates are accepted only with exactly keyCertSign and cRLSign set, EE certificates only with digitalSignature.

*Model and proof.* Byte model; specification by bit number.

*Status.* proved: `Verif.Ext.C63`.

### C64 Numeric options are in range

A numeric option is stored only if the whole text (or JSON value) is a number within the option's documented bounds, and then that number is what is stored; anything else stops the program.

*Model and proof.* Model of strtoul with its wrap-around of negative numbers, which makes the property false for strings with '-' (refuted, exact characterisation proved); proved for all others.

*Status.* partial: `Verif.Conf.C64_partial`, `Verif.Conf.C64_exact`, `Verif.Conf.C64_refuted`, `Verif.Conf.C64_json`, `Verif.Conf.C64_bounds`. False of the code: strtoul accepts a minus sign, so "-18446744073709551615" is 1. C64_partial: all texts without "-"; C64_exact: all texts, with the wrap-around; C64_json: files, complete.

### C65 A PDU send that reports success wrote the whole PDU

When sending a PDU reports success, all its bytes were handed to the socket; when it reports an error, none were.

*Model and proof.* Model of poll/write with the number of bytes taken as input; refuted by a short write.

*Status.* partial: `Verif.Rtr.C65_short_write_is_success`, `Verif.Rtr.C65_all_or_nothing_partial`. False of the code: write(2) may be short on a non-blocking socket and the rest is dropped (proved refutation). Proved when write takes everything or fails.

### C66 End to end: a router that processes the bytes it receives ends with exactly the published data

A router that decodes the bytes of a complete response by RFC 8210 and processes them strictly ends with exactly the newest published data set and its serial, whatever data set it had before, provided that the server still has the deltas.

*Model and proof.* Composition of the database, handler and wire models with an independent router specification.

*Status.* partial: `Verif.Rtr.C66_reset_end_to_end_partial`, `Verif.Rtr.C66_serial_end_to_end_partial`. Composition of the database, handler and wire models. Hypotheses: no send fails (C09, C65) and, for Reset Queries, no update between the two locked regions (C10); both are needed, as the refutations show.

### C67 The request parser terminates whatever arrives

A call of the request parser returns after at most as many rounds of reading as there are bytes available on the socket.

*Model and proof.* The goto loop is modelled with fuel; running out of fuel is a distinct outcome, proved unreachable.

*Status.* proved: `Verif.Rtr.C67_no_spin`.

### C68 Error Reports carry a version the server speaks

Every Error Report the request parser sends has version 0 or 1.

*Model and proof.* Invariant over the parser; refuted by a too large first PDU, proved otherwise.

*Status.* partial: `Verif.Rtr.C68_echoes_unknown_version`, `Verif.Rtr.C68_report_version_partial`. False of the code when the first PDU of a connection is too large; the partial theorem covers all other reports.

### C69 No certificate content aborts the validator

Whatever the resource extensions of a certificate contain, reading them ends with success or with an error for this certificate; it does not end the process.

*Model and proof.* Outcome `crit` for pr_crit in the resource model; never reached below a trust anchor; a trust anchor that inherits is the counterexample.

*Status.* partial: `Verif.Res.C69_noAbort_partial`, `Verif.Res.C69_refuted`. False for trust anchors: one that inherits aborts the process. Proved for all certificates below a trust anchor.

### C70 Objects that must inherit have no resources of their own

The end entity certificate of a Ghostbusters record is given no AS number or address other than by inheriting all of its issuer's.

*Model and proof.* Invariant over the extension loop: every set is NULL or the issuer's.

*Status.* proved: `Verif.Res.C70_forceInherit`.

### C71 A VRP says what the ROA says

An accepted ROA yields exactly one VRP per address, in order, each with the AS number, the prefix and the max length that the ROA encodes.

*Model and proof.* Same model as C28, with the DER value of INTEGERs as specification. Negative INTEGERs are read as unsigned: refuted for them.

*Status.* partial: `Verif.Res.C71_meaning_partial`, `Verif.Res.C71_refuted`. False for negative AS numbers; proved when the INTEGERs are not negative.

### C72 Only profile-compliant resource extensions are accepted

The resources of a certificate are accepted only if: there is an IP or AS extension of the certificate's policy, none twice, none of the other policy; each is critical; IP: one block, or IPv4 then IPv6; AS: numbers present, no routing domain identifiers, no inheritance in BGPsec certificates; lists are not empty.

*Model and proof.* Induction over the extension loop, against an independent profile predicate.

*Status.* proved: `Verif.Res.C72_profile`.

### C73 Asserted router keys are announced as written

The router key announced for a BGPsec assertion has the AS number, the key identifier and the key of the SLURM file, and reading it stays in bounds.

*Model and proof.* Parser and application composed. The length of the key is never compared to the 91 bytes that are copied: refuted for shorter (zero-padded) keys, proved for 91 bytes.

*Status.* partial: `Verif.Slurm.C73_asserted_key_partial`, `Verif.Slurm.C73_refuted`. False of the code when the key does not have 91 bytes; proved otherwise.

### C74 What is downloaded for an rsync URL contains the requested file

Rsync URLs are widened to their module before they are downloaded. The local file of the URL that was requested is always inside the local directory that is downloaded.

*Model and proof.* Module extraction modelled on text; compared with the normalized components.

*Status.* partial: `Verif.Cache.C74_refuted`, `Verif.Cache.C74_partial`. False with ".." in the module's place; proved for URLs whose host and module are proper names.

### C75 Cleaning up never deletes what was downloaded recently

The cleanup at the end of a cycle keeps every cache entry that was attempted in the last week and has its file in place, along with all of its files (for an RRDP notification, those of its repository too).

*Model and proof.* File system as a list of entries; fold invariant over the nodes.

*Status.* partial: `Verif.Cache.C75_refuted`, `Verif.Cache.C75_partial`, `Verif.Cache.download_made`, `Verif.Cache.create_made`. False: an expired https://a/b takes the fresh https://a/b/c with it; proved when no place of another entry contains or is inside of one of the fresh entry's.

### C76 The cache's index survives a restart

The index written at the end of a cycle, when read at the start of the next one, yields the same entries: URLs, kinds, local paths, timestamps and results.

*Model and proof.* JSON tree model of writer and reader; round trip.

*Status.* proved: `Verif.Cache.C76_roundtrip`, `Verif.Cache.C76_reads`, `Verif.Cache.create_made`, `Verif.Cache.download_made`. Assumes the C library's time formatting round-trips and results fit an int; the entries' URLs being well formed is an invariant.

### C77 Cleaning up deletes the right things, inside of the TAL's directory only

The cleanup creates nothing, touches nothing outside of the TAL's directory, removes every entry that is expired or has lost its file along with all its files, and leaves no file that belongs to no entry.

*Model and proof.* Same model; confinement from the URL mapping theorem.

*Status.* proved: `Verif.Cache.C77_cleanup`, `Verif.Cache.C77_index`, `Verif.Cache.download_made`, `Verif.Cache.create_made`. Removals are assumed to succeed.

### C78 Temporary files never share a name

Temporary files requested less than 2^32 requests apart, by any threads, have different names, all directly in the cache's tmp directory.

*Model and proof.* Injectivity of the hexadecimal printer; counter arithmetic modulo 2^32.

*Status.* proved: `Verif.Cache.C78_unique`, `Verif.Cache.C78_total`. Includes wrap around and the 4096 character limit.

### C79 A damaged notification does not block later updates

If one download of a notification gives a document that cannot be parsed, a later cycle still asks the server and recovers.

*Model and proof.* Any-length history of cycles in which the server recovered: refuted, with the general reason.

*Status.* partial: `Verif.Rrdp.C79_refuted`, `Verif.Rrdp.C79_stuck`. False: the damaged file is kept as the local one and is read before any request; C79_stuck is the general reason.

### C80 A published file's content is the element's text, decoded

The file stored for a publish element is the base64 decoding of the element's whole character content.

*Model and proof.* Node list model; refuted by a comment, proved for single text nodes.

*Status.* partial: `Verif.Rrdp.C80_refuted`, `Verif.Rrdp.C80_partial`. False with comments; proved for elements with a single text node.

### C81 An RRDP update touches only its own repository

Whatever the documents say, an update writes and deletes files only under its own notification's RRDP directory, besides downloaded files; and an update of one repository does not change the outcome of another's.

*Model and proof.* Path containment by invariant over the model; isolation refuted (a snapshot URL can be another's notification URL).

*Status.* partial: `Verif.Rrdp.C81_confined`, `Verif.Rrdp.C81_refuted`. Confinement of writes and deletions is proved for all documents; isolation between repositories is false.

### C82 A successful RRDP update leaves the repository up to date

If an update reports success then the local files are those of the serial in the server's current notification.

*Model and proof.* Refuted: a failed update followed by a second request in the same cycle; proved along failure-free histories (C45).

*Status.* partial: `Verif.Rrdp.C82_refuted`, `Verif.Rrdp.C45_update`, `Verif.Rrdp.C45_history`. False after a failure in the same cycle; proved along histories without failures.

### C83 No document makes an RRDP update crash

For every sequence of HTTP answers and XML documents, an update does not dereference null or reach an abort, given what the RELAX NG schema enforces.

*Model and proof.* Undefined behaviour is an outcome of the model; a safety proof, and a witness that the schema facts are needed.

*Status.* proved: `Verif.Rrdp.C83_no_crash`, `Verif.Rrdp.C83_schema_needed`. Assumes what the schema enforces, stated as Trusted, and shows that the assumption is needed.

### C84 The signature that is checked covers the signed attributes

For every well-formed encoding of a signed object, the bytes whose signature is checked are the signed attributes as encoded, with the SET OF tag in place of the implicit one.

*Model and proof.* Byte-level model of the walk to the attributes against an inductive grammar of BER; refuted for indefinite lengths (one octet is covered), proved for definite ones.

*Status.* partial: `Verif.Cms.C84_partial`, `Verif.Cms.C84_indefinite`, `Verif.Cms.C84_refuted`, `Verif.Cms.C84_decoder_needed`, `Verif.Cms.C84_total`. False for attributes of indefinite length: the signature checked is that of the octet 0x31. Proved for definite lengths.

### C85 Object identifiers are compared exactly

An object identifier is taken for a known one exactly when it encodes the known one's arcs.

*Model and proof.* Base-128 model: proved equal modulo 2^32; refuted beyond; proved exact for short arcs.

*Status.* partial: `Verif.Cms.C85_modulo`, `Verif.Cms.C85_partial`, `Verif.Cms.C85_refuted`. asn1c's arcs wrap modulo 2^32. Exact characterisation, and exactness for arcs below 2^32.

### C86 A signed object is accepted exactly when it complies with RFC 6488

A signed object is accepted exactly when it has one signer, one certificate, version 3, SHA-256, RSA, no CRLs, no unsigned attributes, exactly the three signed attributes (in any order) that fit the content, its certificate is good, and the signature verifies.

*Model and proof.* Decision procedure proved equivalent to a declarative profile; certificate checks, hash and signature are parameters.

*Status.* proved: `Verif.Cms.C86_accepts`. Object identifiers up to C85.

### C87 The content of an accepted object is what its key signed

In an accepted object, the key of its certificate signed the attributes, these contain the hash of the content, and replacing the content (or its type) makes it rejected.

*Model and proof.* From C84 and C86; tampering proved rejected up to hash collisions; the signature part is refuted for indefinite lengths.

*Status.* partial: `Verif.Cms.C87_authentic_partial`, `Verif.Cms.C87_indefinite`, `Verif.Cms.C87_refuted`, `Verif.Cms.C87_tamper`. Authenticity for definite lengths; refuted otherwise (same signature, different contents).

### C88 Malformed times are rejected

A manifest's thisUpdate/nextUpdate is accepted only if its text is a GeneralizedTime of an existing moment, and is then compared as that moment.

*Model and proof.* Byte-level model of the parser with out-of-range values as they are; exact on well-formed texts; refuted for texts naming no moment.

*Status.* partial: `Verif.Mft.C88_exact`, `Verif.Mft.C88_accepts`, `Verif.Mft.C88_refuted`. Exact on well-formed texts; minute 75, February 31 and trailing bytes are accepted.

### C89 A manifest is used exactly when it is sound, signed and its certificate names its CRL and URI

A manifest object yields a publication point only if its contents validate, its signature and EE certificate validate under the listed CRL, and the EE certificate's CRL and signedObject URIs are the listed CRL and the manifest itself; every failure releases the publication point.

*Model and proof.* Function-by-function model with oracles for decoding and signatures.

*Status.* proved: `Verif.Mft.C89_used`, `Verif.Mft.C89_safe_partial`. Crash-freedom except for the empty manifest (C48).

### C90 Publication points are neither leaked nor used after they're freed

Whatever the tree and whatever fails, the traversal never touches a publication point that was released, never aborts on an inconsistent stack, and has released all of them when it ends.

*Model and proof.* Heap with explicit reference counts in the machine model; freed objects cannot be read.

*Status.* proved: `Verif.Tree.C90_safe`, `Verif.Tree.C90_freed`. Reference counts of publication points; those of URIs are not modelled.

### C91 Every object is checked against its own publication point's CRL

Every certificate, ROA and Ghostbusters record other than the root is validated with the CRL that the manifest listing it lists; only the root is validated without a CRL.

*Model and proof.* Log of the machine model; corollary of the simulation.

*Status.* proved: `Verif.Tree.C91_crl`.

### C92 A bad subtree does not affect its siblings

The files looked at below a certificate, and their order (depth first), are the same whatever happens to the certificate's siblings.

*Model and proof.* The log equals a recursive definition, one certificate at a time.

*Status.* proved: `Verif.Tree.C92_isolated`. For judgements that don't depend on what was done before.

### C93 A publication point's CRL is loaded once, and nothing is accepted without it

Asking a publication point for its CRL again yields what it yielded the first time, success or failure, whatever happened to the file since; and if it failed, no certificate, ROA or Ghostbusters record of that publication point is looked at.

*Model and proof.* Contracts of the single functions for arbitrary states, not only reachable ones.

*Status.* proved: `Verif.Tree.C93_crl_once`, `Verif.Tree.C93_no_crl_no_certificate`, `Verif.Tree.C93_no_crl_no_object`.

### C94 A traversal can be abandoned anywhere

Destroying the certificate stack, whatever it still holds, drops exactly the references held by deferred certificates and frees a publication point exactly if no other reference remains.

*Model and proof.* Induction over the defer stack with exact counts.

*Status.* proved: `Verif.Tree.C94_abandon`.

### C95 A thread pool that can't be created leaves nothing behind

thread_pool_create yields a pool with exactly the number of threads asked for, or an error after which no thread uses the pool's memory.

*Model and proof.* Exact characterisation; refuted for failures past the first thread.

*Status.* partial: `Verif.Pool.C95_all`, `Verif.Pool.C95_partial`, `Verif.Pool.C95_refuted`. Sound exactly if all threads or not even the first can be created.

### C96 A downloaded file is replaced only by a complete response

An HTTP download leaves the cached file as it was unless it succeeds, in which case the file is the complete body of a successful response; temporary files are removed in all other cases; and 'changed' is reported exactly if the file was replaced.

*Model and proof.* Response and file system oracles; the code ignores fclose errors (refuted), else proved.

*Status.* partial: `Verif.Net.C96_partial`, `Verif.Net.C96_changed`, `Verif.Net.C96_tmp`, `Verif.Net.C96_refuted`. Errors of fclose are ignored, so a truncated file can replace the old one (refuted); everything else is proved.

### C97 rsync's descriptors and processes are released

After each rsync execution both pipe ends were closed exactly once, and the child process was waited for.

*Model and proof.* Event list model with close counters.

*Status.* partial: `Verif.Net.C97_descriptors`, `Verif.Net.C97_children`, `Verif.Net.C97_refuted`. A waitpid that is interrupted leaves a zombie.

### C98 rsync output is consumed until its end, within the configured time

Reading the child's output succeeds exactly if both streams end, without errors, within the configured time; a signal doesn't make it fail; a transfer that timed out is not a success.

*Model and proof.* Same model; the code violates three of the claims (refuted with witnesses).

*Status.* partial: `Verif.Net.C98_sound`, `Verif.Net.C98_partial`, `Verif.Net.C98_refuted`, `Verif.Net.C98_timeout_partial`, `Verif.Net.C98_timeout_refuted`, `Verif.Net.C98_timeout_success`, `Verif.Net.C98_kill`. EINTR is returned as an error; timeouts over 24 days are truncated to an int; the result of the child prevails over a timeout.

### C99 rsync is executed with exactly the configured arguments

The rsync process receives the configured arguments in order, with $REMOTE and $LOCAL replaced by the URL and the path, each of which remains a single argument.

*Model and proof.* List model.

*Status.* proved: `Verif.Net.C99`.

### C100 Certificates name the CRL and the file they belong to

The CRL distribution point of an accepted certificate is the URL of the CRL of its publication point, and the signedObject of the EE certificate of an accepted object is the object's URL.

*Model and proof.* Model of certificate_refs.c with C strings on top of C61; equal up to the first NUL; a distribution point with a NUL is the counterexample.

*Status.* partial: `Verif.Ext.C100_partial`, `Verif.Ext.C100_refuted`. False of the code for distribution points with NULs: they're compared with strcmp. Proved up to the first NUL; exact for signedObject.

### C101 Certificate files are TAs, CAs or router certificates

The certificate of a TAL is a trust anchor; any other certificate file is a CA exactly if libcrypto says so, a router certificate (ignored) if it has that extended key usage, and else is rejected.

*Model and proof.* Direct model.

*Status.* proved: `Verif.Ext.C101`.

### C102 The program starts only with a sane configuration

Whatever the command line and the configuration files, if the program starts then all numeric options are in their documented ranges and, unless it only prints a file, the expire interval is not less than the refresh and retry intervals, the TAL exists, and the SLURM file, if configured, exists.

*Model and proof.* Invariant over the list of settings applied; full table of options modelled.

*Status.* proved: `Verif.Conf.C102`.

### C103 Offline means offline

If work-offline is set, then neither rsync nor HTTP is used.

*Model and proof.* Corollary of C105; false if the same file (or a later option) sets rsync.enabled or http.enabled.

*Status.* partial: `Verif.Conf.C103_partial`, `Verif.Conf.C103_refuted`. False of the code: rsync.enabled/http.enabled in the same file undo work-offline. Proved if no such later setting.

### C104 Configuration parsing is memory safe

For every command line and every JSON file, reading the configuration does not dereference NULL or leave a buffer.

*Model and proof.* UB outcome in the model; a null for an option with a fixed set of words is the counterexample.

*Status.* partial: `Verif.Conf.C104_partial`, `Verif.Conf.C104_refuted`. False of the code: null for an option whose values are words is a NULL dereference. Proved for all other files and all command lines.

### C105 The last setting of an option wins

The value of each option is the meaning of the last setting of it on the command line or in configuration files, in the order given, and its documented default if there is none.

*Model and proof.* Settings as a list; fold lemma; meaning of values in the specification.

*Status.* proved: `Verif.Conf.C105_last`, `Verif.Conf.C105_unset`, `Verif.Conf.C105_defaults`, `Verif.Conf.C105_daemon`.

### C106 Lists of addresses are split at the commas

server.address on the command line is the list of the non-empty pieces between commas, if there are at most 50, and is rejected otherwise.

*Model and proof.* Model of the tokenizer with array bounds; induction.

*Status.* proved: `Verif.Conf.C106`.

### C107 Incidences have the configured actions

If the program starts then each incidence has the action of the last element of the configuration files that names it, or its default; unknown names or actions stop the program.

*Model and proof.* Fold over the elements.

*Status.* proved: `Verif.Conf.C107`, `Verif.Conf.C107_table`.

### C108 The command line tables are complete and within bounds

The tables passed to getopt contain exactly the command line options, are terminated, and are written within their buffers.

*Model and proof.* Two-pass model with bounds-checked writes.

*Status.* proved: `Verif.Conf.C108`, `Verif.Conf.C108_short`, `Verif.Conf.C108_table`, `Verif.Conf.C108_arguments`.

### C109 The exit status says whether there was an error

The exit status is zero exactly if there was no error, and never one of the values a shell reserves.

*Model and proof.* BitVec model.

*Status.* proved: `Verif.Conf.C109`.

### C110 Each round of the server keeps exactly the healthy connections and queues exactly the requests received

After poll reports activity, the connections are the ones that had no error and whose stream is neither ended nor invalid, in the same order, followed by the newly accepted ones; each request that arrived on a healthy connection is queued once; exactly the failed connections and listening sockets are closed; no array is accessed out of bounds.

*Model and proof.* The in-place loops are modelled on arrays with explicit bounds; proved equal to a declarative description.

*Status.* proved: `Verif.Srv.C110`, `Verif.Srv.C110_safe`, `Verif.Srv.C110_bad`.

### C111 The server closes each of its sockets exactly once

In any execution, whenever the server closes a descriptor, that descriptor is still the one of the socket meant; requests are queued only while their connection is open; and once the server has stopped none of its sockets remains open.

*Model and proof.* Interleaving semantics with a descriptor table; invariant over the remaining actions.

*Status.* proved: `Verif.Srv.C111`.

### C112 A response is received only by the router that asked for it

Every message of a response goes to the connection that made the request (or is lost), never to another connection or to a file.

*Model and proof.* Same semantics. The code violates it (refuted: the descriptor is reused by another router, or by a file); proved when no connection is closed while its requests are pending.

*Status.* partial: `Verif.Srv.C112_partial`, `Verif.Srv.C112_refuted`, `Verif.Srv.C112_refuted_file`. False of the code: requests carry a descriptor, which may be closed and reused before the response is sent. Proved for executions in which connections aren't closed while a request of theirs is pending.

### C113 Responses to a router aren't mixed

The messages of a response to a router are contiguous: responses to the same connection are sent in the order of the requests.

*Model and proof.* Same semantics. The code violates it (refuted with two threads); proved for a single thread, and for connections with at most one request at a time.

*Status.* partial: `Verif.Srv.C113_partial`, `Verif.Srv.C113_one_thread`, `Verif.Srv.C113_refuted`. False of the code with two or more threads. Proved for one thread, and for connections with at most one request being handled.

### C114 The server keeps accepting connections

A listening socket is given up only if it's broken: errors that aren't its own (of a client, or of temporary scarcity) and signals don't close it or end the server.

*Model and proof.* The code violates it (refuted: ECONNABORTED and EMFILE close the socket for good; a signal ends the thread); proved for the other errors.

*Status.* partial: `Verif.Srv.C114_partial`, `Verif.Srv.C114_forever`, `Verif.Srv.C114_refuted`, `Verif.Srv.C114_refuted_signal`. False of the code: ECONNABORTED, EMFILE and others close the listening socket; EINTR ends the thread. Proved for the other errors.

### C115 Every connected router is notified of new data once, in its protocol version

When there's new data each connected router gets exactly one Serial Notify, with the router's version, the session of that version and the current serial number.

*Model and proof.* The bytes are decoded by an independent decoder. The code violates it for routers that haven't sent anything (refuted: version 255); proved for the others.

*Status.* partial: `Verif.Srv.C115_partial`, `Verif.Srv.C115_refuted`. False of the code for routers that haven't sent anything: the version sent is 255. Proved for the others.

### C116 Notifying routers while others connect is safe

The thread that notifies never accesses freed memory, and visits each client once.

*Model and proof.* Memory blocks and steps of both threads. The code violates it (refuted: clients are added without the lock); proved if nobody connects meanwhile.

*Status.* partial: `Verif.Srv.C116_partial`, `Verif.Srv.C116_refuted`. False of the code: the list is reallocated without the lock. Proved if nobody connects during the notification.

### C117 Listening addresses are split at the last #

host#port is split at the last '#'; the port defaults to server.port if there's no '#'; it's an error exactly if the string ends with '#'.

*Model and proof.* List model.

*Status.* proved: `Verif.Srv.C117`.

### C118 The server starts on all the addresses or on none

The start succeeds exactly if all the addresses parse and resolve, and all their sockets and threads can be created; otherwise each descriptor opened is closed, once.

*Model and proof.* Resolver and setup oracles; event replay.

*Status.* proved: `Verif.Srv.C118`.

### C119 Array lists keep what's added to them

After any sequence of additions a loop visits exactly the elements added, in order, and nothing is written or read out of the allocated memory.

*Model and proof.* Array with explicit capacity and unwritten slots.

*Status.* proved: `Verif.Srv.C119`.

### C120 Routers are notified after exactly the validations that changed something

The server notifies the routers after the first successful validation and after each later one that succeeded with changes, only then; failures after the first validation don't end the program, unless it's interrupted.

*Model and proof.* List model.

*Status.* proved: `Verif.Srv.C120`.

### C121 Names have one common name and at most one serial number

The issuer or subject of a certificate is decoded if and only if it has exactly one common name, at most one serial number and nothing else; the result is that name, and no memory is lost.

*Model and proof.* Decoder modelled with the buffers it allocates. The code violates it (refuted: repeated attributes); proved: exactly what's accepted, and the property for conforming names.

*Status.* partial: `Verif.Cert.C121_decode`, `Verif.Cert.C121_conforming_partial`, `Verif.Cert.C121_leak`, `Verif.Cert.C121_refuted`. The code accepts repeated attributes (the last one wins) and loses the memory of the others; proved: exactly which names are accepted, what's lost, and that conforming names are decoded right.

### C122 The issuer of a certificate or CRL is its parent's subject

A certificate (other than a trust anchor) or CRL is accepted only if its issuer is the subject of the certificate at the top of the stack; comparing never reads NULL.

*Model and proof.* Specification by relations on the attributes. The code violates it (refuted: names with NULs); proved exactly when it accepts, and the property for conforming names.

*Status.* partial: `Verif.Cert.C122_issuer`, `Verif.Cert.C122_conforming_partial`, `Verif.Cert.C122_memory`, `Verif.Cert.C122_refuted`. The code compares up to the first NUL and only the last attribute of each type; proved: exactly when the issuer is accepted, and that it's equality for conforming names without NULs.

### C123 A trust anchor's key is the TAL's

The key of a trust anchor's certificate is accepted if and only if it's a good RSA key, the bytes in the TAL decode entirely to that very key, and the certificate is signed with it; the key is marked valid or invalid accordingly.

*Model and proof.* memcmp has explicit bounds; libcrypto's decoder is a parameter.

*Status.* proved: `Verif.Cert.C123`, `Verif.Cert.C123_state`, `Verif.Cert.C123_other`.

### C124 Keys follow the algorithms' profile, whatever the version of OpenSSL

An RSA key is accepted if and only if it has at least 2048 bits and its exponent is 65537, both with OpenSSL 1 and 3; a router's key if and only if it's on prime256v1.

*Model and proof.* Both variants are modelled (the decimal string of one of them included) and proved equivalent to the same condition.

*Status.* proved: `Verif.Cert.C124`, `Verif.Cert.C124_other`, `Verif.Cert.C124_bgpsec`.

### C125 A certificate passes the field checks exactly if it has the RFC 6487 profile

The checks on version, serial number, signature algorithm, issuer, subject and public key succeed if and only if all of them are as the profile says, independently of what was validated before, and never access memory they shouldn't.

*Model and proof.* Each check is characterised, then composed.

*Status.* proved: `Verif.Cert.C125`, `Verif.Cert.C125_memory`.

### C126 Repeated serial numbers among siblings are reported

Among the children of a certificate each serial number is kept once and every repetition causes exactly one warning that mentions a sibling with that number; nothing is rejected because of it; numbers are either kept or released.

*Model and proof.* Invariant over the sequence of calls.

*Status.* proved: `Verif.Cert.C126`, `Verif.Cert.C126_one`.

### C127 A CRL is accepted exactly if it has the profile

A CRL is loaded if and only if it's version 2, RSA with SHA-256, its issuer is the parent, every entry has number and date and no extensions, and its extensions are the parent's key identifier and a CRL number (once, not critical) with no other critical ones; a rejected CRL is released.

*Model and proof.* Reuses the table of extension handlers (C61).

*Status.* proved: `Verif.Cert.C127`, `Verif.Cert.C127_memory`, `Verif.Cert.C127_load`.

### C128 A certificate's chain is accepted exactly if libcrypto verifies it, and stale CRLs only if configured

The chain is accepted if and only if it's a trust anchor's, or libcrypto verifies it, or the only complaint is that the CRL expired, the configuration tolerates it, and it's verified once the last CRL's nextUpdate is postponed. The CRLs are restored afterwards, and contexts and copies are released.

*Model and proof.* libcrypto's answers are parameters; allocations are counted.

*Status.* proved: `Verif.Cert.C128`, `Verif.Cert.C128_left`.

### C129 A Ghostbusters record is accepted exactly if its vCard has the accepted shape, whatever the bytes

The vCard of a Ghostbusters record is accepted if and only if, once unfolded, its lines are BEGIN:VCARD, VERSION:4.0, any number of FN:, ORG:, ADR;, TEL;, EMAIL: and EMAIL; properties with at least one FN: and one of the others, and END:VCARD, with nothing after it; letters' case doesn't matter. The parser always ends, and never reads or writes outside of its buffers.

*Model and proof.* The growing line buffer has explicit bounds and uninitialised cells; the specification is an inductive unfolding relation.

*Status.* proved: `Verif.Gbr.C129`.

### C130 Every record with the profile of RFC 6493 is accepted, and nothing else

A Ghostbusters record whose vCard follows the profile (properties may have parameters) is accepted, and a record that's accepted follows it.

*Model and proof.* Soundness is proved; completeness is refuted (TEL: without parameters is rejected), and proved for the shape that's recognised.

*Status.* partial: `Verif.Gbr.C130_sound_partial`, `Verif.Gbr.C130_complete_partial`, `Verif.Gbr.C130_refuted`. Completeness is false of the code: ADR and TEL are only recognised with parameters, FN and ORG only without them. Soundness is proved in full; completeness for the shape that's recognised.

### C131 The CSV output describes the table exactly

With --output.format=csv, the ROA output is a header and one row per VRP (ASN, prefix/length, maximum length), the router key output a header and one row per key (ASN and the base64url of SKI and SPKI), in the table's order, and can be read back without loss. Only configured destinations are written, "-" is standard output and is never closed, files that can't be opened stay as they were, and no stream is left open.

*Model and proof.* Printing yields stdio calls, whose effect on the disk is a nondeterministic relation; the specification is a CSV grammar, proved to be unambiguous.

*Status.* proved: `Verif.Out.C131`, `Verif.Out.C131_faithful`.

### C132 The JSON output is valid JSON and describes the table exactly

With --output.format=json, each output is a JSON text: an object whose only member is an array with one object per VRP (asn, prefix, maxLength) or router key (asn, ski, spki), in the table's order; also for empty tables.

*Model and proof.* Specification: an inductive JSON grammar.

*Status.* proved: `Verif.Out.C132`.

### C133 Output files are never seen half written

Whenever the program dies, or the disk fills up, each output file has its previous content or the complete new one.

*Model and proof.* Refuted (the file is truncated before it's written). Proved: without failing writes, each file has its old content or a prefix of the new one, and nothing else is touched.

*Status.* partial: `Verif.Out.C133_partial`, `Verif.Out.C133_refuted`. The property is false of the code: fopen(..., "w") empties the file before it's written, and errors of fprintf are ignored. Proved: without failed writes each file has its previous content or a prefix of the new one.

### C134 What's printed is what's served

After a successful update the printed table has exactly the VRPs and router keys that RTR clients are served from then on; when validation or SLURM fail nothing is printed and nothing changes.

*Model and proof.* The update of C05 is extended with the calls that print.

*Status.* proved: `Verif.Out.C134`.

### C135 Creating a directory makes it

If creating a path of directories succeeds then the directory exists; nothing but it and the directories above it is created, and it succeeds if nothing is in the way.

*Model and proof.* A file system as a partial map from name lists to kinds, with the kernel's path walk. Refuted when stat fails for another reason than ENOENT; proved otherwise.

*Status.* partial: `Verif.Fs.C135_partial`, `Verif.Fs.C135_partial_succeeds`, `Verif.Fs.C135_partial_current`, `Verif.Fs.C135_refuted`. False of the code: dir_exists returns positive errnos, which mkdir_p takes for "it exists". Proved: it holds whenever stat fails only with ENOENT; only the directories on the way are ever created; it succeeds if nothing prevents it.

### C136 A file's hash is the hash of everything in it

A file is accepted only if it was read to its end without errors and the SHA-256 of its whole content is the expected one; if nothing fails, every such file is accepted; every resource is released on every path.

*Model and proof.* Streams with EOF and error flags; invariant of the reading loop.

*Status.* proved: `Verif.Fs.C136`.

### C137 A loaded file is whole

Loading a file yields exactly as many bytes as it had when it was opened, from its start, or an error with nothing held; it only fails if the file can't be read or shrank.

*Model and proof.* The content while reading is independent of the size that fstat yielded.

*Status.* proved: `Verif.Fs.C137`.

### C138 Base64 texts are decoded whole

Decoding ends, never writes outside of the buffer, and yields what the text means, whole, for the key of every TAL and every file published by RRDP, regardless of how libcrypto splits its answers.

*Model and proof.* The decoder is abstract: it's only required to be right about lines of up to 80 characters. Builds on C55. Refuted for short RRDP texts with much white space on the left.

*Status.* partial: `Verif.Fs.C138`, `Verif.Fs.C138_tal`, `Verif.Fs.C138_publish_partial`, `Verif.Fs.C138_publish_refuted`. Proved for base64_decode and for TALs. For RRDP it's false of the code for texts of up to 65 characters that have a line with more than 80 because of the white space at their start (it isn't trimmed); proved for all others.

### C139 A published file that counts as written is complete

If writing a file from an RRDP snapshot or delta succeeds then the file has exactly its content.

*Model and proof.* Refuted: errors of fclose are ignored. Proved if flushing succeeds.

*Status.* partial: `Verif.Fs.C139_partial`, `Verif.Fs.C139_refuted`. False of the code: file_close ignores that data couldn't be flushed. Proved if it could.

### C140 The cache outlives crashes, and only its own version uses it

What runs of a version stored is kept for later runs of the same version, whenever they die; what other versions stored is removed before anything else.

*Model and proof.* Runs as functions on the disk; refuted for runs that die before the metafile was ever written, or while it's written; induction over histories otherwise.

*Status.* partial: `Verif.Fs.C140_partial`, `Verif.Fs.C140_other`, `Verif.Fs.C140_refuted`, `Verif.Fs.C140_refuted_end`. False of the code for runs that die before any run of the version completed, or while the metafile is written. Proved for all other histories, and that the files of other versions are never used.

### C141 Print mode recognises files by their first bytes

Without the option that says the type, print mode takes a file for a signed object, a certificate or a CRL if and only if its first bytes are that kind's, and never looks outside of what it read.

*Model and proof.* The header buffer is the file's bytes and then stack contents; the cursor is an offset. Refuted for crafted lengths (read outside of the buffer), for short files (answer depends on stack contents), and for v1 certificates; proved for files of RFC 5280's and 5652's shape, and, for files of 32 bytes or more, that what's recognised has it.

*Status.* partial: `Verif.Print.C141_partial`, `Verif.Print.C141_partial_sound`, `Verif.Print.C141_configured`, `Verif.Print.C141_empty`, `Verif.Print.C141_refuted`, `Verif.Print.C141_refuted_v1`, `Verif.Print.C141_refuted_short`. False of the code: some crafted headers are read outside of the buffer, short files are judged by uninitialised memory, and v1 certificates are taken for CRLs. Proved for all files with the shape of RPKI objects, and conversely for files of 32 bytes or more.

### C142 What print mode decodes is the file

Every parser gets exactly the bytes of the file, in order, however it reads them; and every signed object that the decoder accepts in one piece is accepted.

*Model and proof.* The BIO as a pair of byte lists; the decoder of ANY as a resumable stack machine, proved to accept every BER element and to be resumable. Refuted: bio2ci drops the bytes that the decoder left for the next call. Proved if no read ends within a tag or length.

*Status.* partial: `Verif.Print.C142_reads`, `Verif.Print.C142_partial`, `Verif.Print.C142_partial_small`, `Verif.Print.C142_partial_truncated`, `Verif.Print.C142_refuted`. The parsers of certificates and CRLs get the whole file (C142_reads, proved). For signed objects it's false of the code: bytes that the decoder didn't consume are dropped. Proved for files in which no read ends within a tag or length, and for files of up to 4096 bytes if the type is given.

### C143 Print mode shows certificates

Every certificate that libcrypto can parse and whose strings are text is printed, and what is printed is what the certificate says.

*Model and proof.* The JSON builders with an allocation oracle, against a separate specification of the document. Refuted for policy qualifiers and for RFC 8360's extensions; proved otherwise.

*Status.* partial: `Verif.Print.C143_partial`, `Verif.Print.C143_partial_faithful`, `Verif.Print.C143_refuted`, `Verif.Print.C143_refuted_amended`. False of the code for policy qualifiers, RFC 8360's extensions, long object identifiers and strange prefixes. Proved for all other certificates.

### C144 Print mode shows CRLs

Every CRL that libcrypto can parse and whose strings are text is printed, and what is printed is what the CRL says.

*Model and proof.* As C143. Refuted for object identifiers whose text doesn't fit in 64 characters; proved otherwise.

*Status.* partial: `Verif.Print.C144_partial`, `Verif.Print.C144_partial_faithful`, `Verif.Print.C144_refuted`. False of the code for long object identifiers. Proved for all other CRLs.

### C145 Print mode never does anything undefined with a certificate or a CRL

Whatever a certificate or CRL contains and whichever allocations fail, printing it stays within its buffers.

*Model and proof.* Undefined behaviour is an outcome of the model. Refuted for prefixes of more than 16 bytes (written past a buffer) and for long object identifiers (read past one); proved otherwise.

*Status.* partial: `Verif.Print.C145_partial`, `Verif.Print.C145_partial_crl`, `Verif.Print.C145_refuted`, `Verif.Print.C145_refuted_oid`. False of the code for prefixes of more than 16 bytes and object identifiers of more than 64 characters. Proved for all other certificates and CRLs.

### C146 Print mode doesn't leak documents

Whichever allocations fail, what is left allocated is the document that is returned and nothing else.

*Model and proof.* The model counts live nodes. Refuted for policy qualifiers; proved otherwise.

*Status.* partial: `Verif.Print.C146_partial`, `Verif.Print.C146_partial_crl`, `Verif.Print.C146_refuted`. False of the code for policy qualifiers. Proved for the documents of C143 and C144.

### C147 What print mode writes can be read back

The text of a number, of a byte string and of a prefix determines the number, the byte string and the prefix.

*Model and proof.* Readers of the texts are defined separately and proved to be inverses. Refuted for prefixes with more unused bits than bits.

*Status.* partial: `Verif.Print.C147_number`, `Verif.Print.C147_bytes`, `Verif.Print.C147_partial`, `Verif.Print.C147_refuted`. Proved for numbers and bytes; false of the code for prefixes with more unused bits than bits, proved for all others.

### C148 Print mode shows signed objects

Every signed object that can be decoded and whose strings are text is printed, and what is printed is what it says: the signed data, the content (of ROAs: the AS, and each prefix, length and maximum length; of manifests: number, times, files and hashes), the certificates and the signers; nothing undefined happens and nothing is leaked.

*Model and proof.* As C143: the asn1c JSON encoders as builders over decoded trees, against a separate specification of the document. Refuted for ROAs without maximum lengths, for numbers of more than 64 bits, for missing contents, and for identifiers libcrypto doesn't know; proved otherwise.

*Status.* partial: `Verif.Print.C148_partial`, `Verif.Print.C148_numbers`, `Verif.Print.C148_roa_shown`, `Verif.Print.C148_mft_shown`, `Verif.Print.C148_refuted`. False of the code: ROAs with a prefix without maximum length and numbers of more than 64 bits make printing fail, missing contents are a null pointer dereference, identifiers that libcrypto doesn't know are all the same. Proved for all other objects (certificates as in C143).

### C149 Print mode shows the times of signed objects

A GeneralizedTime or UTCTime is shown as YYYY-MM-DD hh:mm:ssZ, the same instant (the century of a UTCTime is the one RFC 5280 says), and what isn't a time isn't shown.

*Model and proof.* The parser of C88 and the printf, with the assertion on its length. Refuted for UTCTimes of 1950 to 1959 and for days and minutes that don't exist; proved for all other times, and that the assertion holds.

*Status.* partial: `Verif.Print.C149_partial`, `Verif.Print.C149_utc_partial`, `Verif.Print.C149_only`, `Verif.Print.C149_utc_safe`, `Verif.Print.C149_refuted`. False of the code for UTCTimes of 1950 to 1959 and for some days and minutes that don't exist. Proved for all other times; for arbitrary text, what is shown is what's there.

### C150 Print mode's exit status tells whether the document was written

Print mode exits with 0 if and only if the whole document reached its standard output.

*Model and proof.* A buffered stream over a device with limited room. Refuted: nothing checks whether the last buffer could be written, and a failure without errno counts as success. Proved when it fits, and that every failure that's noticed is reported.

*Status.* partial: `Verif.Print.C150_partial`, `Verif.Print.C150_partial_failure`, `Verif.Print.C150_partial_handed`, `Verif.Print.C150_refuted`, `Verif.Print.C150_refuted_errno`. False of the code: a failed flush at exit is never noticed. Proved if the document fits; every failure that's noticed is reported.

### C151 Messages go where their log was told to

Each message of the operation log and of the validation log appears exactly once in the output that was configured for that log (the system's log with the configured facility, or standard error for errors and warnings and standard output for the rest) if the log is enabled and the message's level is wanted, and nowhere otherwise; the configuration of one log doesn't affect the other.

*Model and proof.* The two configuration structures with the functions that set them; each message as a list of calls on streams and syslog, compared with a separately specified line.

*Status.* proved: `Verif.Log.C151`, `Verif.Log.C151_before`, `Verif.Log.C151_checks`, `Verif.Log.C151_numbers`.

### C152 One message is one line

Each line of the console is one message: what was logged can be told from the output.

*Model and proof.* Lines of the streams against the sequence of messages. Refuted: texts of repositories are printed with their line feeds. Proved for texts without them.

*Status.* partial: `Verif.Log.C152_partial`, `Verif.Log.C152_refuted`. False of the code: texts that come from repositories are printed as they are, line feeds included, so a repository can forge log lines. Proved for texts without line feeds.

### C153 Messages say which file they are about

Each message carries the name of the innermost file that the thread is processing when it's logged, or none if there's none, however deep files are nested; and the array behind this is never accessed out of bounds.

*Model and proof.* The array with its length and size as in the code, against a recursive specification over trees of files and messages.

*Status.* proved: `Verif.Log.C153`. Up to 2^31 nested files.

### C154 Messages of different threads aren't mixed

Whatever threads log at the same time, each output has whole messages one after the other, those of each thread in the order it logged them, none lost or repeated, and no thread waits forever.

*Model and proof.* Threads that take the lock, make one call at a time and release it; an invariant over all schedules, the shared buffer of syslog included.

*Status.* proved: `Verif.Log.C154`, `Verif.Log.C154_during`, `Verif.Log.C154_progress`.

### C155 Log messages reach the system's log, and nothing else

Each message that is for the system's log arrives there once, in order; nothing that is logged is sent to a router, and logging never closes a descriptor that isn't the log's.

*Model and proof.* Tables with lowest-first allocation and glibc's syslog connection, an invariant over all operations. Refuted for daemons that don't log before they open something; proved otherwise.

*Status.* partial: `Verif.Boot.C155_partial`, `Verif.Boot.C155_refuted`. False of the code: a daemon closes the descriptor of the log without telling syslog, so if its first message comes after the number is used again, that message is sent to a router, or something else is closed. Proved for everything but daemons that don't log their configuration.

### C156 The log configuration is in force after the start

Once the program has started, both logs behave as configured (daemons: on the system's log).

*Model and proof.* As C151, after the code that starts. Refuted for daemons started by process 1.

*Status.* partial: `Verif.Boot.C156_partial`, `Verif.Boot.C156_refuted`. False of the code: a daemon whose parent is process 1 never applies the configuration of the logs. Proved otherwise.

### C157 rsync's output goes to the validator

The rsync that the validator runs has the pipes as its standard output and error, and no other end of them, whichever descriptors are open.

*Model and proof.* dup2 and close on functions from numbers to objects; an exact characterisation. Refuted for daemons, proved if 1 and 2 are taken.

*Status.* partial: `Verif.Boot.C157_partial`, `Verif.Boot.C157_exact`, `Verif.Boot.C157_refuted`. False of the code for daemons: the pipes get the numbers of the standard streams, and rsync's are closed. Proved whenever descriptors 1 and 2 are taken; C157_exact tells exactly when it works.

### C158 Ends are noticed

The end of an rsync is seen when that rsync ends, and a router sees that its connection is closed when the validator closes it, whatever other threads do at the same time.

*Model and proof.* Sets of holders, exact characterisation over all histories. Refuted for concurrent forks, proved without.

*Status.* partial: `Verif.Boot.C158_partial`, `Verif.Boot.C158_partial_closed`, `Verif.Boot.C158_exact`, `Verif.Boot.C158_refuted`. False of the code: descriptors are inherited by the rsyncs of other threads. Proved if none is forked at the same time; C158_exact tells exactly when something is released.

### C159 Nobody else can modify the cache or the output

Files and directories that the validator creates have no more permissions than its user's mask allows.

*Model and proof.* Bit vectors. Refuted for daemons (for all masks); proved for the others.

*Status.* partial: `Verif.Boot.C159_partial`, `Verif.Boot.C159_refuted`. False of the code: a daemon clears its mask, so its cache and output can be written by anyone. Proved for the others.

### C160 Starting and ending are in order

Whichever initialization fails, the work isn't done, exactly what had been initialized is undone, in reverse order and once, and the exit status is that of the failure; if none fails, the work is done and everything is undone.

*Model and proof.* The goto chain against a specification made of takeWhile, filter and reverse.

*Status.* proved: `Verif.Boot.C160`.

### C161 The database is destroyed when nobody uses it

The table that routers are served from is destroyed only after the threads that serve it have ended.

*Model and proof.* Events of the server's life. Refuted if the first validation fails; proved otherwise.

*Status.* partial: `Verif.Boot.C161_partial`, `Verif.Boot.C161_refuted`. False of the code: if the first validation fails, the database is destroyed while threads use it. Proved if the first validation succeeds.

### C162 Identifiers are known

Once the program has started, it knows libcrypto's numbers of all the identifiers that it needs; if that can't be, it doesn't start.

*Model and proof.* Oracles for libcrypto. Refuted: failures aren't noticed. Proved without failures.

*Status.* partial: `Verif.Boot.C162_partial`, `Verif.Boot.C162_refuted`. False of the code: a failure to register an identifier is never noticed. Proved that each identifier gets its number if there's no failure.

### C163 Downloading TALs doesn't lose TALs

Option --init-tals exits with 0 if and only if all TALs were downloaded; those that were are what the servers sent, and those that weren't are as they were.

*Model and proof.* On top of the model of http_fetch (C57, C58). Refuted: the file whose download fails is removed; the rest proved.

*Status.* partial: `Verif.Boot.C163_partial`, `Verif.Boot.C163_refuted`. False of the code: a TAL whose download fails is removed. The rest is proved.

### C164 Shared resources behave as copies

Validating a trust anchor gives the same VRPs, in the same order, as if each certificate had its own copy of its resources: certificates that inherit share their issuer's sets, but no set is changed, mixed up or freed while something refers to it.

*Model and proof.* The traversal (Tree) with the resource sets and ROAs (Res) inside, as a program over a heap; simulation by a recursive walk over values.

*Status.* proved: `Verif.Sys.C164_by_value`. Signatures, profiles, downloads and decoding are arguments (`Pki`).

### C165 Every VRP is authorised

Every VRP that a trust anchor yields is stated by a ROA below an unbroken chain of acceptable certificates, no longer than the maximum depth, each listed in the manifest of the next, up to the trust anchor's. All its addresses are among the resources of the ROA's certificate and of every certificate of the chain.

*Model and proof.* Over C164's walk: by induction on the depth, a chain of certificates exists (`Certified`, `Asserted`), and containment is transitive along it.

*Status.* proved: `Verif.Sys.C165_authorised`.

### C166 All that is authorised is published

If the files do not change meanwhile, a trust anchor yields exactly the VRPs that are authorised, in whichever order and state things are validated.

*Model and proof.* Completeness of C164's walk for steady environments: every chain is found.

*Status.* proved: `Verif.Sys.C166_exactly`, `Verif.Sys.C166_same`.

### C167 What a TAL yields

What a TAL yields comes from one only of its URIs, also if others were tried before: it has no router keys, and its VRPs are authorised by the trust anchor that is there; if the files do not change meanwhile, all that is authorised by it is there.

*Model and proof.* C43 (the attempts) with C165 and C166 (each attempt) inside: failed attempts add nothing to the table.

*Status.* proved: `Verif.Sys.C167_tal`.

### C168 From the repositories to the routers

After any validation cycles, a router that asks for all the data (or for the changes since an earlier answer) ends with what the last good cycle had to publish: the VRPs that its TALs authorise and that the SLURM rules in force do not filter, and those that they assert. Or it is told to reset, if its data is too old. Cycles in which a TAL does not validate, or the SLURM files cannot be read, change nothing. (The router speaks version 0 or 1, no transmission fails, and no update lands in the middle of a reset.)

*Model and proof.* C53, C167, C33 and C66 composed: by induction over the cycles; the specification (`Published`, `LastGood`) does not mention tables of intermediate steps.

*Status.* proved: `Verif.Sys.C168_cycles`, `Verif.Sys.C168_reset`, `Verif.Sys.C168_serial`. Under the assumptions of `Sane` (TAL files exist and threads can be created, see C53; faithful checksums, see C34; no crash of the SLURM parser, see C36).

### C169 Decoding ends

Decoding any bytes as an object of any of the types that are decoded (content info, signed data, ROA, manifest, the resource extensions of certificates, and parts of these) ends.

*Model and proof.* A decoder over types that are generated from the type descriptors (tools/asn_gen.py); loops have fuel, running out of it is the outcome `hang`, and is proved not to happen. Refuted for tagged CHOICEs.

*Status.* partial: `Verif.Asn.C169_ends_partial`, `Verif.Asn.C169_refuted`. False for the AS numbers of certificates: the decoder of a tagged CHOICE loops for ever when an octet 0 is not followed by another one, after an element of indefinite length. Proved for the nine other types.

### C170 Decoding is memory safe

Whatever the bytes are, decoding them, and checking the constraints of the result, reads nothing outside of the buffer, and no assertion fails.

*Model and proof.* `crash` and `abort` are outcomes of the model; induction over the types. UTCTime_constraint() aborts: it is proved to be out of reach.

*Status.* proved: `Verif.Asn.C170_safe`. Buffers of less than 2^30 bytes; the stack limit is not modelled (it only makes decoding fail).

### C171 The decoded object is the one that is encoded

If bytes are accepted as an object, then they begin with a BER encoding of that object: all tags, lengths and contents are those of the values.

*Model and proof.* `Ber` relates types, values and bytes as X.690 does; the decoder is sound for it, by induction over the types and, in loops, over the bytes.

*Status.* proved: `Verif.Asn.C171_ber`. `Ber` has asn1c's four extensions of X.690 (see Spec.lean).

### C172 DER encodings are decoded

The DER encoding of any object is decoded to that object, whatever follows; and so DER encodings are unambiguous.

*Model and proof.* Completeness of the decoder for `Der`, for types whose tags say what is next (`Clear`, computed for the ten).

*Status.* proved: `Verif.Asn.C172_der`, `Verif.Asn.C172_unique`. `C172_der` says that the outcome is that of the constraint check.

### C173 Only DER is accepted

An object is accepted only if the bytes are its DER encoding, and nothing else (RFC 6488, 3.1.l).

*Model and proof.* Refuted: trailing bytes, indefinite lengths, long lengths, unused bits. Partial: BER, and no confusion with DER.

*Status.* partial: `Verif.Asn.C173_ber_partial`, `Verif.Asn.C173_refuted`. False: trailing bytes, indefinite and long lengths, set unused bits.

### C174 Decoded objects are complete

An accepted object has all its mandatory members, exactly one alternative of each CHOICE, and fewer than 8 unused bits in each bit string; so the program finds what it reads.

*Model and proof.* Corollary of C171: the values that `Ber` relates to a type have its shape.

*Status.* proved: `Verif.Asn.C174_shape`.

### C175 Accepted objects comply with their ASN.1 modules' constraints

An accepted object complies with the constraints of its ASN.1 module: at least one address block in a ROA, at least one address in a block, two or three octets in an address family, no negative manifest number, ASCII file names.

*Model and proof.* Refuted: SEQUENCE_constraint() returns after the first member without a constraint of its own. Partial: the types for which this has no effect.

*Status.* partial: `Verif.Asn.C175_full_partial`, `Verif.Asn.C175_refuted`. False for ROAs, manifests and signed data; proved for the other types.

### C176 Routers are told what ROAs say

A ROA whose content an issuer wrote as RFC 6482 and DER prescribe, in a correct signed object, is accepted if and only if all its prefixes belong to its certificate; then it yields exactly one VRP for each prefix, with the AS number, the prefix and the maximum length that the issuer meant.

*Model and proof.* An encoder (SpecEnc, SpecObj) independent of the code; its output is DER of the generated types, so C172 applies; then C21 and C26.

*Status.* proved: `Verif.Obj.C176_roa`.

### C177 Bits after the length of a prefix

A ROA whose prefix has bits set after its length is refused.

*Model and proof.* Refuted: unused bits of the last octet are ignored, in the decoder and after it. Partial: the VRPs are those of a BER encoding of a ROA.

*Status.* partial: `Verif.Obj.C177_refuted`, `Verif.Obj.C177_ber_partial`. False: the bits are ignored.

### C178 What the program reads in decoded objects is there

For all bytes, decoding a ROA, a manifest or a resource extension ends, and yields an error or an object in which each member that the rest of the program reads is there and of its type.

*Model and proof.* The views that the other models have of decoded values are total on values of the generated types (C174).

*Status.* proved: `Verif.Obj.C178_readable`, `Verif.Obj.C178_ends`.

### C179 Certificates have the resources that issuers write

A certificate with correct resource extensions, in any order among other extensions, is accepted if and only if the issuer has all the resources that it lists, and then it has exactly these resources (those of the issuer, where it inherits); and a ROA signed with such a certificate is accepted if and only if moreover its prefixes are among them.

*Model and proof.* Encoder for RFC 3779; DER of the generated types; then the model of resources (Res).

*Status.* proved: `Verif.Obj.C179_resources`, `Verif.Obj.C179_roa`. RFC 6484 policy; not BGPsec router certificates.

### C180 Trust anchors have the resources that they list

A trust anchor with correct resource extensions, none of which inherits, is accepted, and has exactly the resources that are written.

*Model and proof.* As C179.

*Status.* proved: `Verif.Obj.C180_trustAnchor`.

### C181 Manifests vouch for the files that issuers list

With a strict configuration, a manifest written as RFC 6486 and DER prescribe is accepted if and only if all listed files are in the cache with the listed hashes, exactly one of them is a CRL, the CRL and the signature are good, the certificate names the CRL and the manifest, and the time is between thisUpdate and nextUpdate; and the publication point consists of the listed files.

*Model and proof.* Encoder for RFC 6486; DER of the generated types; then C49, C50 and C89.

*Status.* proved: `Verif.Obj.C181_manifest`.

### C182 What is accepted was signed

If a signed object is accepted, then the key of its certificate signed octets which, decoded on their own, are exactly three attributes that name the object's type and the SHA-256 digest of the content that the program goes on with.

*Model and proof.* Every accepted encoding is a list of complete TLVs (Tlvs, DecTlvs); find_signedAttrs walks those of the decoder (Walk); the decoder does not look at what follows (SameAll), so the attributes decode alone to the same value. Refuted where the attributes have indefinite length: then only one octet is verified.

*Status.* partial: `Verif.Sd.C182_authentic_partial`, `Verif.Sd.C182_content`, `Verif.Sd.C182_in_file`, `Verif.Sd.C182_refuted`. False for signed attributes of indefinite length: then the octet 0x31 alone is verified, and one signature serves for every content.

### C183 A signature is for one content

Signed octets stand for one type and one digest, so files that are accepted on the strength of the same signed octets have the same type and the same content digest; and if nothing was signed, no file is accepted.

*Model and proof.* From C182 and that decoding is a function of the octets.

*Status.* proved: `Verif.Sd.C183_unique`, `Verif.Sd.C183_one_content`, `Verif.Sd.C183_unforgeable`. The hypotheses leave out a signature of the octet 0x31 alone (C182).

### C184 No signed object crashes or hangs the program

For every file: decoding, the checks, the decoding of attribute values and the search for the signed octets end, read no byte outside of the buffers, and follow no null pointer.

*Model and proof.* C169, C170 and C174 for the types; the walk of find_signedAttrs over what was decoded never leaves it.

*Status.* proved: `Verif.Sd.C184_safe`, `Verif.Sd.C184_values`.

### C185 Correct signed objects are accepted

A signed object written as RFC 5652 and RFC 6488 prescribe, with its three attributes in any order and whatever follows it in the file, is accepted if and only if its digest is the content's, its certificate is accepted and the certificate's key signed the attributes; then the program goes on with exactly the content that the issuer wrote.

*Model and proof.* An encoder of signed objects, independent of the decoder; C172 decodes what it wrote, the layout theorem of C84 finds the attributes.

*Status.* proved: `Verif.Sd.C185_correct`.

### C186 Where an object ends

Each accepted encoding ends at one place, which is known from the bytes before it: with other bytes after it the result is the same, a file that stops before it is refused, and no encoding is the beginning of another one.

*Model and proof.* By induction over types: the result of each decoder depends only on the bytes that it consumes.

*Status.* proved: `Verif.Sd.C186_ends`, `Verif.Sd.C186_one`.

### C187 From the file of a ROA to the VRPs

The VRPs that come out of a ROA's file are exactly those its issuer wrote, and they come out if and only if the CRL was loaded, the digest is the content's, the certificate passes and its key signed the attributes, its references are right, and its issuer has the resources. Whatever the file is: if VRPs come out, the key of an accepted certificate signed the digest of a ROA that lists them.

*Model and proof.* C185 composed with C177 and C179; for arbitrary files C182 with C177.

*Status.* partial: `Verif.Sd.C187_roa`, `Verif.Sd.C187_authentic_partial`. C187_roa is the full equivalence for correctly written files. Authenticity of arbitrary files fails for signed attributes of indefinite length (C182).

### C188 From the file of a manifest to the publication point

With strict incidences, a manifest's file is accepted if and only if the listed files are in the cache with the listed hashes, exactly one is a CRL and it is good, the digest is the content's, the certificate passes according to that CRL and its key signed the attributes, it names the CRL and the manifest, and now is between thisUpdate and nextUpdate; the files that the program goes on with are the listed ones. Whatever the file is: if it is accepted, the key of an accepted certificate signed the digest of a manifest that lists these files.

*Model and proof.* C185 composed with C181; for arbitrary files C182 with C89.

*Status.* partial: `Verif.Sd.C188_manifest`, `Verif.Sd.C188_authentic_partial`. C188_manifest is the full equivalence for correctly written files. Authenticity of arbitrary files fails for signed attributes of indefinite length (C182).

### C189 From the bytes of a repository to its VRPs

Whatever bytes the manifests and ROAs of a trust anchor consist of: every VRP that it yields is stated by a ROA that is the content of a signed object, below an unbroken chain of accepted certificates; each certificate and the ROA are listed, with their hashes, in a valid manifest that is the content of a signed object of the certificate above; the certificates of these signed objects are accepted, and their keys have signed the types and the digests of the contents; and the VRP's addresses are held by each certificate up to the trust anchor's.

*Model and proof.* C165, instantiated with files (Repo.pki), and C182, C187 and C188's inversions for each of the files on the way.

*Status.* partial: `Verif.Sys.C189_bytes_partial`. A signed object whose attributes have an indefinite length is accepted on a signature of the octet 0x31 alone (C182); the theorem says so. Otherwise complete.

### C190 What issuers write is published

In a repository whose files (below 1 GiB), clock and library verdicts do not change during the validation, with the manifest incidences at their strict setting, and once the validation of the trust anchor has ended: if a chain, not longer than the configured maximum depth, of accepted certificates leads from the trust anchor to a CA, the manifest of each of them was written as RFC 9286 and RFC 6488 prescribe (in any order of the signed attributes, with the hashes of the listed files, which are there, exactly one CRL, and is valid now), and the CA's manifest lists a ROA written as RFC 9582 prescribes whose certificate holds its prefixes, then each of the ROA's prefixes, with its AS and maximum length, is handed to the router.

*Model and proof.* C166's completeness, instantiated with files (Repo.pki), and C187 and C188's equivalences for each of the files on the way.

*Status.* proved: `Verif.Sys.C190_written`.

### C191 What is used is what the manifest lists

Whatever happens to the local files during a validation (another process, or the download of another publication point): every VRP comes from a ROA whose very octets have the hash that the manifest of its CA lists.

*Model and proof.* C189, with the manifest of the last CA exposed; the counterexample is run by the kernel.

*Status.* partial: `Verif.Sys.C191_listed_partial`, `Verif.Sys.C191_refuted`. False of the code: files are hashed when the manifest is read, and read again later. Proved when no file changes during the validation.

### C192 From the bytes of the repositories to the bytes that routers receive

After any number of validation cycles, with any TALs, SLURM files and repositories: a router that sends a reset query (or a serial query, after having been synchronized earlier) and decodes the bytes it receives ends with exactly a table in which each VRP is asserted by SLURM, or is stated by the bytes of a ROA below an unbroken chain of accepted certificates and manifests and is not filtered; and in which there is each VRP that an issuer wrote, as the RFCs prescribe, in the last complete cycle, if the files did not change meanwhile and SLURM does not filter it.

*Model and proof.* The composition of C168 (the cycles, SLURM, RTR) with C189 and C190 (the bytes), the trust anchors' functions of C168 being those of Repo.pki.

*Status.* partial: `Verif.Sys.C192_reset_partial`, `Verif.Sys.C192_serial_partial`. As C66 and C168: no transmission fails, and no update lands in the middle of a response. As C182: a signed object whose attributes have an indefinite length is accepted on a signature of the octet 0x31 alone.

### C193 Threads share the database safely

However the thread that validates and any number of threads that answer routers are scheduled: no table and no delta is used or freed after it was freed; between updates, exactly the current table and the history are allocated; while a thread answers a router, neither the table nor the history nor the serial change; and what a router was sent, when its response is complete, is one whole table, or amounts to the last deltas of one history.

*Model and proof.* Threads as a transition system, with the lock and the set of allocated objects; an invariant over all reachable states, which says who owns each object and what each thread has.

*Status.* proved: `Verif.Db.C193_safe`, `Verif.Db.C193_noLeak`, `Verif.Db.C193_frozen`, `Verif.Db.C193_whole`.

### C194 A slow router does not hold up the others

Once the validation has ended with new data, the data become available to routers, in whichever order threads run, and whatever any one router does.

*Model and proof.* Refuted: the invariant that a thread whose router takes no data keeps the lock. What holds: a measure of the threads' remaining work.

*Status.* partial: `Verif.Db.C194_lands_partial`, `Verif.Db.C194_stuck`, `Verif.Db.C194_refuted`, `Verif.Db.C194_starved`. False of the code: the lock is held while a router is sent its response, and there's no timeout, so one router that stops reading keeps all others from ever getting new data (C194_refuted); so do two that read, but keep asking (C194_starved), as the lock does not prefer writers. Proved if every router takes (or refuses) what it is sent, and there are no new requests.

### C195 The validation of a TAL does not misuse memory

Whatever the TAL, the cache, the repositories, the servers and the libraries contain or do: the thread that validates a TAL does not use something that it has released (be it to print its name in a message), doesn't release anything twice, doesn't use a NULL pointer or one that was never initialised, and its stacks are never found empty or inconsistent (which would abort it); be it until the end, or until any number of certificates has been handled.

*Model and proof.* A state with the number of references of each object, and who has them; everything else is an oracle. Hoare triples whose assertions say which references the active functions own (a separation logic of counts), by structural induction over the functions.

*Status.* partial: `Verif.Mem.C195_memory_is_not_misused_partial`, `Verif.Mem.C195_refuted`. False of the code if a TAL can't be opened and debug messages are logged: do_file_validation's last message then prints args.tal.file_name, which tal_init has not set. Proved otherwise. The aborts (pr_crit) considered are those that depend on what is modelled. What is modelled is who owns what: contents, lengths and indices of buffers are not (they are in other claims), nor are what functions allocate and release locally.

### C196 The validation of a TAL releases everything

When the thread that validates a TAL ends, it has released every reference that it took and every object that it created: URIs, publication points, certificates, CRLs, resources, serial numbers, nodes of the cache, RRDP's notifications; whichever errors there were.

*Model and proof.* The same triples; at the end, nobody owns anything.

*Status.* proved: `Verif.Mem.C196_everything_is_released`. For every outcome, including C195_refuted's. Not modelled: what the libraries (and asn1c's structures, see C174) allocate internally; asn1time2str's BIO, which leaks, is local to it.

### C197 The main loop does not misuse memory, and keeps only the state

Whatever happens in each cycle (any trust anchors, ROAs and router keys; threads that fail; SLURM files that appear, change, are broken or disappear; no changes): after any number of cycles, memory that isn't allocated has never been used or released, and what remains allocated is the last good table with its rows, at most deltas.lifetime deltas, and the current SLURM with its checksums, each once. After the shutdown, nothing remains.

*Model and proof.* A heap of objects, with an oracle for everything else; Hoare triples that say which objects a function owns before and after; induction over functions and cycles. A second, quantitative, set of lemmas bounds what is lost.

*Status.* partial: `Verif.Upd.C197_cycles_keep_only_the_state_partial`, `Verif.Upd.C197_refuted`. False of the code: if a rule of a SLURM file can't be understood, the string that json_dumps returns (for the message about it) is never released; it's tried again each cycle, so that the memory grows by one string per cycle (C197_refuted, for every number of cycles). Proved: nothing else remains (at most one string per cycle), nothing is misused. Not modelled: what happens inside of the validation of a TAL (C195, C196), the threads' interleaving (C53, C193).

### C198 The RTR server does not misuse memory, and keeps only its clients and their queries

Whatever the clients send, in whichever order they connect, send, disconnect and are served: the RTR server never uses or releases memory that isn't allocated, and what it keeps allocated is a stream per connected client and a task and a request per query that waits or is being served. After the shutdown, nothing remains. So clients can't make its memory grow by coming and going.

*Model and proof.* The parser, byte by byte, with a heap; Hoare triples about ownership; a refinement to the parser of C16 and C67; a bound of what is lost by the number of failed reads; a family of runs that loses that much.

*Status.* partial: `Verif.Conn.C198_server_keeps_only_its_clients_partial`, `Verif.Conn.C198_nothing_remains`, `Verif.Conn.C198_requests_are_the_parsers`, `Verif.Conn.C198_refuted`, `Verif.Conn.C198_refuted_queue`. False of the code: if a client's complete queries fill the buffer (1024 bytes) and the next read fails, pdustream_next returns without releasing the last request; so clients that do this and reconnect make the memory grow without bounds (C198_refuted). Queries that wait at the shutdown aren't released either, only their tasks (C198_refuted_queue). Proved: nothing is misused, at most that is lost, and nothing if no read fails and no query waits. Not modelled: reads beyond the received bytes (C18), what the workers allocate.

### C199 What is downloaded is what the server has

After every HTTP download that reports success — with a document or with 'not modified' — the local file is one of the contents that the server had while it was being downloaded. So no change of a repository is overlooked, however often and whenever it changes and is downloaded.

*Model and proof.* A server with dated contents that answers conditional requests as RFC 9110 says, libcurl's options, and the downloads of C96; an invariant over the sequence of downloads; a run in which the claim is false.

*Status.* partial: `Verif.Web.C199_partial`, `Verif.Web.C199_stale`, `Verif.Web.C199_refuted`. False of the code: If-Modified-Since is the time when the local file was written, by the local clock, not the Last-Modified that the server sent; so a change between the answer and the end of that second (or of the difference of the clocks) is never downloaded, until the next change (C199_refuted, C199_stale). Proved if no change happens then. Servers that answer conditional requests as RFC 9110 says.

### C200 HTTPS downloads are authenticated and bounded

The document of a successful HTTPS download comes from a server that was authenticated: every server asked on the way, however many redirections there are, has a certificate of a trusted authority for its name. There are no more redirections than configured, neither the connection nor the transfer takes longer than configured, and the request is the configured one (URL, user agent, CA path, condition).

*Model and proof.* The options that are set, in order, and which of them libcurl refuses; libcurl's manual as a predicate of handles and transfers; theorems about every transfer that it allows, and transfers that it allows and shouldn't happen.

*Status.* partial: `Verif.Web.C200_partial`, `Verif.Web.C200_request`, `Verif.Web.C200_refuted`, `Verif.Web.C200_timeout_refuted`. False of the code: the redirections' protocols aren't restricted, so an HTTPS server can redirect to plain HTTP; and libcurl refuses timeouts over 2147483 seconds, which the configuration allows, and then there's no limit. Proved: every HTTPS server is authenticated, and the bounds for the values that libcurl accepts. Libcurl is specified by its manual.

### C201 What rsync says is in the log

Every non-empty line that rsync writes to its standard output or its standard error is in the validator's log, whole, once and in order; as an error if it comes from the standard error.

*Model and proof.* log_buffer byte by byte; messages as a function of the list of reads; an exact description for all reads, the claim if reads end where lines do, and reads in which it's false.

*Status.* partial: `Verif.Rlog.C201_exact`, `Verif.Rlog.C201_partial`, `Verif.Rlog.C201_refuted`, `Verif.Rlog.C201_refuted_long`. False of the code: log_buffer forgets what's after the last line feed of each read, so a line that's divided between two reads loses its first part, and lines of 4096 bytes or more are never logged whole; a NUL hides the rest of the read. Proved: exactly what's logged for all reads (C201_exact), and the claim if every read ends where a line ends

### C202 Launching rsync doesn't affect other files

Launching rsync, whether or not it succeeds, doesn't change what's in the files that the validator's other threads are writing: each ends up with the bytes that were written to it, in order, once.

*Model and proof.* Buffered files (stdio's buffer and the file under it), fork's copy of the buffers and exit's flush of them; an invariant over all traces; a trace in which a file is damaged.

*Status.* partial: `Verif.Fork.C202_partial`, `Verif.Fork.C202_executable`, `Verif.Fork.C202_damage`, `Verif.Fork.C202_refuted`. False of the code: if rsync can't be executed, the child calls exit(), which flushes its copies of the buffers of the files that other threads are writing, so that these bytes are written twice (C202_refuted; C202_damage says exactly what). Proved if rsync can be executed, or the files have nothing buffered

### C203 What the program says is its configuration

When it starts, if its log has information messages, the program tells each option of its configuration by its name, with the value that's in effect: the text is one that, given in the command line, sets that value; lists have one message for each element; and the action of each incidence. No undefined behaviour happens while it does so.

*Model and proof.* The printing functions beside the model of the parsers (C102-C108); the messages are specified by the meaning of settings, which the parsers' theorems use; an invariant of all accepted configurations.

*Status.* partial: `Verif.Conf.C203_partial`, `Verif.Conf.C203_silent`, `Verif.Conf.C203_defined`, `Verif.Conf.C203_refuted`. False of the C standard: the texts that aren't set (and the type of file) are NULL, and NULL is given to printf's %s, with the default configuration too (C203_refuted; C203_defined says exactly when). Proved for libraries that write "(null)", as glibc: the messages are each option's name and a text that would set the same value

### C204 RRDP updates return the memory they take

However many RRDP updates there are, and whatever notifications, snapshots and deltas servers give: as long as the XML library enforces the schema that the program gives it, no update uses or releases memory that isn't allocated, or follows NULL, and each update releases everything it allocated (texts and numbers taken from the documents, hashes, contents, open files, XML readers and references to URIs), whether it succeeds or fails, and wherever it fails.

*Model and proof.* A heap with an oracle (as C197, C198); Hoare triples that say who owns what; an invariant on the notification and the nodes that were read, given the schema's facts.

*Status.* proved: `Verif.Xmem.C204_updates_return_everything`, `Verif.Xmem.C204_schema_needed`. The schema's facts that are needed are in Xmem/Spec.lean (Enforces); a concrete reader of the schema is shown to have them. C204_schema_needed: without them there are leaks, a use after release (parse_ulong's message) and a NULL dereference. URIs are counted as references (their own memory is C195, C196).

### C205 Validating certificates, CRLs and signed objects returns the memory it takes

Whatever certificates, CRLs, manifests, ROAs and Ghostbusters records a repository has, and wherever their validation fails: the thread that validates them never uses or releases memory that isn't allocated and never follows NULL, and in the end it has released everything it allocated on the way (decoded structures, names, numbers, dates, OIDs, hashes, buffers, open files, OpenSSL contexts, certificates, CRLs and stacks); in between, what's allocated is its stack of certificates and the CRLs of its publication points.

*Model and proof.* A heap with an oracle (as C204); Hoare triples that say who owns what; facts about the files (repeated attributes, dates that can't be printed) are part of the operations.

*Status.* partial: `Verif.Omem.C205_safe`, `Verif.Omem.C205_nothing_left_partial`, `Verif.Omem.C205_during_partial`, `Verif.Omem.C205_refuted`. The part on using, releasing and NULL is proved for all files (C205_safe). The rest is false of the code: a name that repeats an attribute loses the first one, and asn1time2str loses its BIO if the date can't be printed (C205_refuted). Proved for all sequences of files without those (C205_nothing_left_partial, C205_during_partial). URIs and publication points are C195 and C196's matter, as are the references in certificates.

### C206 Certificates with the policy of RFC 8360 have what they share with their issuers

A certificate with the policy of RFC 8360 and correct resource extensions, in any order among other extensions, is accepted, and its resources are those that it lists and its issuer has too (those of the issuer, where it inherits); and a ROA signed with such a certificate is accepted if and only if its prefixes are among them.

*Model and proof.* As C179: DER of RFC 3779, then the model of resources. Invariant of the stack of certificates: a set is NULL if and only if it's empty.

*Status.* partial: `Verif.Obj.C206_resources_partial`, `Verif.Obj.C206_neverMore`, `Verif.Obj.C206_intersection_partial`, `Verif.Obj.C206_roa_partial`, `Verif.Obj.Ex.C206_refuted`, `Verif.Obj.Ex.C206_refuted_kind`. False of the code: a prefix or range that is only partly of the issuer is dropped completely, instead of trimmed; and the certificate is rejected if the issuer has nothing of a kind that it lists. Proved: exactly when it is accepted and with what (elements that the issuer has completely); never more than the intersection; the intersection when no element is only partly the issuer's. Not BGPsec router certificates.

### C207 The document that is printed is the one that was named

With --mode=print, the document is read from the standard input when nothing or '-' is named, from the file that is named otherwise; unless the name begins with 'rsync://': then it's downloaded with rsync from this URL only, into the place that the validation has for it in the cache if there's a TAL, and into a new directory that's removed afterwards if there's none. If the download fails nothing is printed, not even an older copy.

*Model and proof.* The functions with a trace of what they do to the outside; the model of URIs and paths (C37).

*Status.* partial: `Verif.Print.Source.C207_partial`, `Verif.Print.Source.C207_confined`, `Verif.Print.Source.C207_confined_tmp_partial`, `Verif.Print.Source.C207_leftovers`, `Verif.Print.Source.C207_refuted`, `Verif.Print.Source.C207_refuted_escape`, `Verif.Print.Source.C207_refuted_directory`. False of the code: the temporary directory is never removed; the name ".." escapes from it; when --tal is a directory, the place is not that of the validation. The rest is proved, when the name of the TAL is not empty (--tal does not end in a slash).

### C208 rsync's processes keep nothing open that isn't theirs

When the rsync of a download ends, the validator sees the end of its output, and never before, whatever other downloads run: when it waits, it waits for this rsync. (C158 is about when ends of anything are seen.) A connection that the validator closes is closed for its router, and the addresses that it listened on are free when it has ended, even if rsyncs run.

*Model and proof.* A transition system of the validator's threads and the children, with the tables of descriptors; what is open, exactly, by induction on executions.

*Status.* partial: `Verif.Inherit.C208_partial`, `Verif.Inherit.C208_exact`, `Verif.Inherit.C208_waits`, `Verif.Inherit.C208_not_before`, `Verif.Inherit.C208_frees`, `Verif.Inherit.C208_refuted`. False of the code: nothing is marked close-on-exec, so an rsync keeps open the sockets and the pipes that the validator had when it launched it: a download waits for another one's rsync, routers don't see that the validator closed their connections, and the port stays taken. Proved: exactly what is open; the claims if no rsync that runs was launched meanwhile; the end is never seen before rsync's

### C209 The configuration doesn't misuse memory, and returns what it takes

Whatever the command line and the configuration files say, whether they're accepted or not and options are repeated, nothing of the configuration is used or released after its release, and everything has been released when the program ends.

*Model and proof.* The heap model of C197: a program logic of what's owned, and a count of what's lost.

*Status.* partial: `Verif.Cmem.C209_partial`, `Verif.Cmem.C209_safe`, `Verif.Cmem.C209_bound`, `Verif.Cmem.C209_refuted`. False of the code: a null in a file overwrites the previous text without releasing it. Proved: nothing is misused, at most one string is lost for each null, and nothing if there is none. --init-tals is not modelled (the process exits)

### C210 Print mode releases what it holds, once

Whatever file print mode is given, however it's read, downloaded, guessed and decoded, and wherever this fails, the streams, decoded objects, paths and documents are each released exactly once and not used afterwards.

*Model and proof.* The heap model of C197, with streams that own others; a document is one object (C146 is about its parts).

*Status.* partial: `Verif.Pmem.C210_partial`, `Verif.Pmem.C210_safe`, `Verif.Pmem.C210_bound`, `Verif.Pmem.C210_refuted`. False of the code: BIO_new_seq forgets its arguments if it fails, and so does its caller. It only fails for lack of memory. Proved: nothing is misused, at most two BIOs are lost, and nothing if BIO_new succeeds.

### C211 An rsync gets the time that is configured

With rsync.transfer-timeout, the validator gives up waiting for an rsync only when that many seconds have passed since it was launched, and then it does give up, whatever rsync writes and when, and whatever signals the validator gets; 0 means that there's no limit.

*Model and proof.* A clock beside the model of C98 (proved to be the same function), and POSIX's poll as a predicate of events.

*Status.* partial: `Verif.Rtime.C211_partial`, `Verif.Rtime.C211_waits`, `Verif.Rtime.C211_zero`, `Verif.Rtime.C211_same`, `Verif.Rtime.C211_refuted_zero`, `Verif.Rtime.C211_refuted_signals`, `Verif.Rtime.C211_refuted_long`. False of the code: 0, documented as unlimited, gives up at once; the time isn't measured after a signal, so signals can prolong it without bound; times over 24 days don't fit in poll's argument, so that they are forever, or nothing. Proved for the other times: it doesn't give up before, and without signals it doesn't wait after.

### C212 Reversing a path reverses its components

Reversing a path builder's path gives the path of the same components (what's between its slashes) in the opposite order, without writing out of its block, and leaves a path that can be used as any other.

*Model and proof.* The loops over the block's bytes; refuted for a path with an empty component (a//bc gives bc/a/), proved for those without; memory safety for all.

*Status.* partial: `Verif.Uri.C212_partial`, `Verif.Uri.C212_joined`, `Verif.Uri.C212_twice`, `Verif.Uri.C212_safe`, `Verif.Uri.C212_refuted`. Proved for all the paths without empty components after the first one (so for absolute paths too), and that reversing them twice gives the same text; that it stays in its block and only moves characters is proved for all paths. The full statement is false: a//bc, which appending a/ and bc makes, becomes bc/a/ instead of bc//a, because the loop doesn't look at the character that follows a slash.

