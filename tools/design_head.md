# Formal model of FORT validator in Lean 4

## Layout

* `lean/Verif/<Area>/Model.lean` (or `Model*.lean`): definitions modelling the C code, function by
  function, each with a citation `file:lines` of /repo and its simplifications.
* `lean/Verif/<Area>/Spec.lean`: small specifications written without the model's helpers.
* `lean/Verif/<Area>/Lemmas*.lean`: helper lemmas.
* `lean/Verif/<Area>/Props.lean`: the property theorems (names listed in MANIFEST.json), each followed by
  `example`s showing that a concrete, non-trivial case meets its hypotheses.
* `tools/props.py`, `tools/props.d/`: single source from which `properties.jsonl`, `MANIFEST.json` and
  this file's table are generated.
* `seeded/LOG.jsonl`: log of the seeded-bug experiments.

## Trusted base

* Lean 4.33.0's kernel, and the Mathlib modules imported. No axioms are added; the theorems depend at most on
  Lean's standard axioms `propext`, `Classical.choice`, `Quot.sound`. `tools/axioms.sh` prints the axioms each
  theorem listed in MANIFEST.json depends on.
  No compiled-code evaluation is used in proofs.
* The correspondence between the C code and the Lean model, which is by reading. Every definition cites the
  lines it models.

## Modelling conventions

* C integers: `BitVec n` where wrap-around matters, `Nat`/`Int` where the code bounds the values or uses
  arbitrary-precision ASN.1 integers. `unsigned int` is 32 bits, `size_t` 64 bits.
* Undefined behaviour (out-of-bounds access, NULL dereference, division by zero) is a distinct outcome
  (`none`/`.ub`), never mapped to a default value.
* Memory allocation does not fail (pmalloc & co. terminate the process instead).
* uthash tables are lists in application order keyed by the key bytes (HASH_REPLACE deletes the equal key and
  appends at the end), and HASH_ITER visits that order.
* Sockets, files, network, the clock and randomness are oracles: arguments the theorems quantify over.
* Locks: each lock-protected region is one atomic step, where the property is about interleavings.
* Logging is modelled on its own (`Verif/Log`); elsewhere, calls that log are left out.

## Not modelled

OpenSSL (signature and chain verification, X.509 decoding), asn1c's encoders and printers (its BER decoder and constraint checks are modelled in `Verif/Asn`), libxml2, libcurl, jansson and the
kernel's sockets/file systems themselves; getopt, strtoul and stat (specified in `Verif/Conf/Model`); memory
deallocation (print mode counts JSON nodes, and the threads of the RTR server and the pool, file descriptors and their like are counted where a property is about them). Print mode
takes what libcrypto and the BER decoder understood of an object as its input (`Lib`, `Cert`, `Crl` of `Verif/Print`). Where these matter, their results are universally quantified inputs of the model.

`Verif/Sys` composes the areas into whole runs: a trust anchor (traversal, resources, ROAs), a TAL (`cache_download_alt`), a cycle (all TALs,
SLURM), and any number of cycles followed by a router's query. What is not modelled of it (decoding, signatures, profiles, downloads) is
the structure `Pki`, whose functions take and return an arbitrary state and are universally quantified.

`Verif/Asn` models the BER decoder of asn1c: the generic functions by hand, and the types from the type descriptors in the C files, by
`tools/asn_gen.py` (which is trusted to read them; its output is `Types.lean` and `Cons.lean`). Simplifications: the whole buffer is there at once
(the decoders' contexts, with which a decoding can be resumed, are not modelled; no caller resumes); buffers have less than 2^30 bytes;
the stack limit (`asn1-decode-max-stack`) is not reached; memory is not exhausted; types are not extensible (none of the ten is).
Whether an empty string has a buffer, which some constraint checks ask, depends on how it was encoded: it is an oracle (`Nul`), which the theorems
quantify over; `Nul.never` (always a buffer) is what primitive encodings, so DER, give.

`Verif/Obj` goes from bytes to effects: `SpecEnc`, `SpecObj` and `SpecCert` are encoders of ROAs, resource extensions and manifests, written
after the RFCs; `Model` says which members of the decoded structures the other models read. The signed object around (CMS, EE certificate)
is an assumption of these theorems, where it is not modelled.

`Verif/Sd` goes from the bytes of a file to an accepted signed object: ContentInfo, SignedData (also its PKCS#7 form), `find_signedAttrs`, and the checks of
`Verif/Cms`. Certificates, SHA-256 and the verification of signatures are parameters (`Crypto`), over which the theorems quantify.
`ModelRoa` and `ModelMft` continue from there to the VRPs and the publication point. What is known of an EE certificate (its policy, resource extensions and references) is a
parameter there (`Ee`, `refs`), as is the library's verdict on it (`Crypto`), which for a manifest depends on the CRL that its content names.
`Verif/Sys/ModelBytes` puts these into the whole trust anchor (`Verif/Sys`): manifests, ROAs and Ghostbusters records are bytes there; certificates and CRLs are still values that a
function yields.

`Verif/Db` has the threads that share the RTR server's database: each use of an object, each entry and exit of the lock and each PDU is a step there.
`Verif/Mem` has the ownership of everything that the thread of a TAL shares: URIs, publication points, certificates, and so on. What decides which way a function goes is an oracle there.
`Verif/Heap` is a small heap with triples about ownership; `Verif/Upd` has the main loop there: tables, deltas, SLURM. (Rules of SLURM are counted only as far as they own memory.)
`Verif/Conn` has the RTR server there, with the bytes that clients send: streams, requests, tasks.
`Verif/Web` has the options that libcurl is given and conditional requests; libcurl's manual and RFC 9110's servers are specifications (`Web/Spec`), not models of code.
`Verif/Rlog` is rsync's output in the log; `Verif/Fork` is stdio's buffers across fork, exec and exit (as POSIX specifies them).
`Verif/Xmem` is what RRDP updates allocate and release (libxml2, OpenSSL's numbers and the URIs are objects; the schema's facts are a hypothesis).

`Verif/Omem` is what the validation of certificates, CRLs and signed objects allocates and releases locally (OpenSSL's objects and decoded structures are objects; what's in names and whether dates can be printed is given, the rest is the oracle's).
`Verif/Inherit` is who holds which descriptor (connections, listening sockets and rsync's pipes), after any forks of any threads; the standard streams are taken.
`Verif/Cmem` is what the configuration allocates and releases (options with strings or lists of strings; the number of elements, and whether texts are empty, null or of the wrong type, is given).

`Verif/Pmem` is who owns what in print mode (streams, decoded objects, documents, each one object); what is read and printed is in `Verif/Print`.

`Verif/Rtime` is the time that the validator waits for an rsync: a clock, with `poll` as POSIX describes it (it times out exactly when it should).
`Verif/Uri/ModelReverse` is the reversal of a path builder's text, on the bytes of its block.
