/-
The traversal of a trust anchor's tree: stacks, publication points and their reference counts.

Not modelled here, and given as functions of a state `σ` (files, cache, validated payloads, log): everything that looks at a file.
`none` is a crash: an abort (`pr_crit`), or memory used after it was freed. Memory does not run out. Reference counts of URIs
are not modelled.
-/
namespace Verif.Tree

/-- `enum cert_type`, of a file that ends in .cer. -/
inductive CType where
  | ta
  | ca
  | bgpsec
  | ee
  deriving DecidableEq, Repr

/-- `validation_pubkey_state` -/
inductive KeyState where
  | valid
  | invalid
  | untested
  deriving DecidableEq, Repr

/-- What a manifest lists. -/
structure Lists (U : Type) where
  certs : List U
  crl : U
  roas : List U
  gbrs : List U
  deriving DecidableEq, Repr

/-- What is not modelled. `U` are URIs, `X` certificates, `C` CRLs, `R` resources, `S` what a certificate's extensions say. Lists of
certificates have the nearest one first. -/
structure Env (σ U X C R S : Type) where
  /-- `config_get_max_cert_depth` -/
  maxDepth : Nat
  /-- `uri_is_certificate` -/
  isCert : U → Bool
  /-- `crl_load` -/
  crlLoad : σ → U → σ × Option C
  /-- `certificate_load` -/
  load : σ → U → σ × Option X
  /-- `certificate_validate_chain`, when there is a CRL. -/
  chainOk : σ → X → C → List X → σ × Bool
  /-- `get_certificate_type` -/
  certType : X → Bool → Option CType
  /-- `certificate_validate_rfc6487` -/
  profileOk : σ → X → CType → σ × Bool
  /-- `validation_pubkey_state` -/
  keyState : σ → KeyState
  /-- `certificate_validate_extensions_ta` and `_ca`; the latter looks at the parent publication point's CRL. -/
  extensions : σ → X → CType → Option U → σ × Option S
  /-- `download_rpp` -/
  download : σ → S → σ × Option U
  /-- `init_resources`; the last argument are the issuer's resources. -/
  resources : σ → X → S → CType → Option R → σ × Option R
  /-- `cage`, `signed_object_decode`, `decode_manifest` and `build_rpp` -/
  mftDecode : σ → S → U → σ × Option (Lists U)
  /-- `signed_object_validate`, `validate_manifest` and `refs_validate_ee` -/
  mftOk : σ → S → U → Lists U → C → List X → R → σ × Bool
  /-- `signed_object_decode` and `decode_roa`; `signed_object_decode` -/
  roaDecode : σ → U → σ × Bool
  gbrDecode : σ → U → σ × Bool
  /-- The rest of `roa_traverse`, and the rest of `ghostbusters_traverse` -/
  roa : σ → U → U → C → List X → R → σ
  gbr : σ → U → U → C → List X → R → σ

/-- `struct rpp`'s `crl`. -/
inductive CrlState (C : Type) where
  | unloaded
  | loaded (c : C)
  | failed
  deriving DecidableEq, Repr

/-- `struct rpp` -/
structure Pp (U C : Type) where
  lists : Lists U
  crl : CrlState C
  refs : Nat
  deriving DecidableEq, Repr

/-- `struct defer_node`; a publication point is a pointer. -/
inductive Node (U : Type) where
  | sep
  | cert (u : U) (pp : Nat)
  deriving DecidableEq, Repr

/-- What was looked at, and with which certificates, issuer and CRL. A ghost: the program does not record this. -/
inductive Event (U X C R : Type) where
  | cert (u : U) (x509s : List X) (metas : List (U × R)) (crl : Option C)
  | roa (u : U) (x509s : List X) (metas : List (U × R)) (crl : C)
  | gbr (u : U) (x509s : List X) (metas : List (U × R)) (crl : C)
  deriving DecidableEq, Repr

/-- `struct cert_stack`, the publication points (freed ones are `none`; new ones are at the end), everything else, and what was looked
at (most recent first). -/
structure St (σ U X C R : Type) where
  defers : List (Node U)
  x509s : List X
  metas : List (U × R)
  heap : List (Option (Pp U C))
  s : σ
  log : List (Event U X C R)

variable {σ U X C R S : Type}

/-- A publication point that was not freed. -/
def deref (st : St σ U X C R) (id : Nat) : Option (Pp U C) := st.heap[id]?.join

/-- src/rpp.c:64-68 `rpp_refget` -/
def refget (st : St σ U X C R) (id : Nat) : Option (St σ U X C R) :=
  match deref st id with
  | none => none
  | some pp => some { st with heap := st.heap.set id (some { pp with refs := pp.refs + 1 }) }

/-- src/rpp.c:70-84 `rpp_refput` -/
def refput (st : St σ U X C R) (id : Nat) : Option (St σ U X C R) :=
  match deref st id with
  | none => none
  | some pp =>
    if pp.refs - 1 = 0 then some { st with heap := st.heap.set id none }
    else some { st with heap := st.heap.set id (some { pp with refs := pp.refs - 1 }) }

/-- src/cert_stack.c:175-187 `deferstack_push` -/
def deferPush (st : St σ U X C R) (u : U) (id : Nat) : Option (St σ U X C R) :=
  match refget st id with
  | none => none
  | some st => some { st with defers := .cert u id :: st.defers }

/-- src/cert_stack.c:113-126 `defer_destroy` -/
def deferDestroy (st : St σ U X C R) (n : Node U) : Option (St σ U X C R) :=
  match n with
  | .sep => some st
  | .cert _ id => refput st id

/-- src/cert_stack.c:189-205 `x509stack_pop` -/
def x509Pop (st : St σ U X C R) : Option (St σ U X C R) :=
  match st.x509s with
  | [] => none
  | _ :: xs =>
    match st.metas with
    | [] => none
    | _ :: ms => some { st with x509s := xs, metas := ms }

/-- src/cert_stack.c:210-234 `deferstack_pop`; the first argument is the stack `defers`. -/
def deferPop : List (Node U) → St σ U X C R → Option (St σ U X C R × Option (U × Nat))
  | [], st => some (st, none)
  | .sep :: ds, st =>
    match x509Pop st with
    | none => none
    | some st => deferPop ds { st with defers := ds }
  | .cert u id :: ds, st =>
    match refget st id with
    | none => none
    | some st =>
      match deferDestroy { st with defers := ds } (.cert u id) with
      | none => none
      | some st => some (st, some (u, id))

/-- src/cert_stack.c:287-327 `x509stack_push` -/
def x509Push (env : Env σ U X C R S) (st : St σ U X C R) (u : U) (x : X) (sia : S) (t : CType) : St σ U X C R × Bool :=
  match env.resources st.s x sia t (st.metas.head?.map (·.2)) with
  | (s, none) => ({ st with s := s }, false)
  | (s, some r) => ({ st with s := s, defers := .sep :: st.defers, x509s := x :: st.x509s, metas := (u, r) :: st.metas }, true)

/-- src/cert_stack.c:336-348 `x509stack_cancel` -/
def x509Cancel (st : St σ U X C R) : Option (St σ U X C R) :=
  match x509Pop st with
  | none => none
  | some st =>
    match st.defers with
    | [] => none
    | n :: ds => deferDestroy { st with defers := ds } n

/-- Results of `rppCrl`. -/
inductive CrlRes (C : Type) where
  | null
  | crl (c : C)
  | err
  deriving DecidableEq, Repr

/-- src/rpp.c:156-194 `rpp_crl`, with src/rpp.c:125-148 `add_crl_to_stack`. (There is a CRL's URI: `rpp_crl` is only called after
`build_rpp`'s success, C49.) -/
def rppCrl (env : Env σ U X C R S) (st : St σ U X C R) (pp : Option Nat) : Option (St σ U X C R × CrlRes C) :=
  match pp with
  | none => some (st, .null)
  | some id =>
    match deref st id with
    | none => none
    | some p =>
      match p.crl with
      | .loaded c => some (st, .crl c)
      | .failed => some (st, .err)
      | .unloaded =>
        match env.crlLoad st.s p.lists.crl with
        | (s, none) => some ({ st with s := s, heap := st.heap.set id (some { p with crl := .failed }) }, .err)
        | (s, some c) => some ({ st with s := s, heap := st.heap.set id (some { p with crl := .loaded c }) }, .crl c)

/-- The loop of src/rpp.c:196-222 `__cert_traverse`; the list is reversed. -/
def pushAll (st : St σ U X C R) (id : Nat) : List U → Option (St σ U X C R)
  | [] => some st
  | u :: us =>
    match deferPush st u id with
    | none => none
    | some st => pushAll st id us

/-- src/object/roa.c:247-295 `roa_traverse` -/
def roaTraverse (env : Env σ U X C R S) (st : St σ U X C R) (u : U) (id : Nat) : Option (St σ U X C R) :=
  match env.roaDecode st.s u with
  | (s, false) => some { st with s := s }
  | (s, true) =>
    match rppCrl env { st with s := s } (some id) with
    | none => none
    | some (st, .crl c) =>
      match deref st id, st.metas with
      | some p, (_, r) :: _ =>
        some { st with s := env.roa st.s u p.lists.crl c st.x509s r, log := .roa u st.x509s st.metas c :: st.log }
      | _, _ => none
    | some (st, _) => some st

/-- src/object/ghostbusters.c:16-58 `ghostbusters_traverse` -/
def gbrTraverse (env : Env σ U X C R S) (st : St σ U X C R) (u : U) (id : Nat) : Option (St σ U X C R) :=
  match env.gbrDecode st.s u with
  | (s, false) => some { st with s := s }
  | (s, true) =>
    match rppCrl env { st with s := s } (some id) with
    | none => none
    | some (st, .crl c) =>
      match deref st id, st.metas with
      | some p, (_, r) :: _ =>
        some { st with s := env.gbr st.s u p.lists.crl c st.x509s r, log := .gbr u st.x509s st.metas c :: st.log }
      | _, _ => none
    | some (st, _) => some st

/-- A loop whose body can crash. -/
def forEach {α β : Type} (f : α → β → Option α) : α → List β → Option α
  | a, [] => some a
  | a, b :: bs =>
    match f a b with
    | none => none
    | some a => forEach f a bs

/-- src/rpp.c:227-256 `rpp_traverse`. (Its loops read the lists again and again; they don't change, C51 shows that the
publication point is not freed before the end.) -/
def rppTraverse (env : Env σ U X C R S) (st : St σ U X C R) (id : Nat) : Option (St σ U X C R) :=
  match deref st id with
  | none => none
  | some pp =>
    match pushAll st id pp.lists.certs.reverse with
    | none => none
    | some st =>
      match forEach (fun st u => roaTraverse env st u id) st pp.lists.roas with
      | none => none
      | some st => forEach (fun st u => gbrTraverse env st u id) st pp.lists.gbrs

/-- src/object/manifest.c:276-341 `handle_manifest`; yields the publication point. -/
def handleManifest (env : Env σ U X C R S) (st : St σ U X C R) (sia : S) (downloaded : U) : Option (St σ U X C R × Option Nat) :=
  match env.mftDecode st.s sia downloaded with
  | (s, none) => some ({ st with s := s }, none)
  | (s, some lists) =>
    let id := st.heap.length
    match rppCrl env { st with s := s, heap := st.heap ++ [some ⟨lists, .unloaded, 1⟩] } (some id) with
    | none => none
    | some (st, .crl c) =>
      match st.metas with
      | [] => none
      | (_, r) :: _ =>
        match env.mftOk st.s sia downloaded lists c st.x509s r with
        | (s, true) => some ({ st with s := s }, some id)
        | (s, false) => (refput { st with s := s } id).map (·, none)
    | some (st, _) => (refput st id).map (·, none)

/-- The end of src/object/certificate.c:1910-2018 `certificate_traverse`, from `x509stack_push` on. -/
def traverseCa (env : Env σ U X C R S) (st : St σ U X C R) (u : U) (x : X) (t : CType) (sia : S) (downloaded : U) :
    Option (St σ U X C R × Bool) :=
  match x509Push env st u x sia t with
  | (st, false) => some (st, false)
  | (st, true) =>
    match handleManifest env st sia downloaded with
    | none => none
    | some (st, none) => (x509Cancel st).map (·, false)
    | some (st, some id) =>
      match rppTraverse env st id with
      | none => none
      | some st => (refput st id).map (·, true)

/-- The URI of the parent publication point's CRL. -/
def parentCrl (st : St σ U X C R) (pp : Option Nat) : Option U := pp.bind fun id => (deref st id).map (·.lists.crl)

/-- src/object/certificate.c:1009-1088 `certificate_validate_chain` -/
def validateChain (env : Env σ U X C R S) (s : σ) (x : X) (crl : Option C) (x509s : List X) : σ × Bool :=
  match crl with
  | none => (s, true)
  | some c => env.chainOk s x c x509s

/-- src/object/certificate.c:1910-2018 `certificate_traverse`, from `certificate_validate_rfc6487` to `download_rpp`. -/
def traverseAuthority (env : Env σ U X C R S) (st : St σ U X C R) (pp : Option Nat) (u : U) (x : X) (t : CType) :
    Option (St σ U X C R × Bool) :=
  match env.profileOk st.s x t with
  | (s, false) => some ({ st with s := s }, false)
  | (s, true) =>
    match env.extensions s x t (parentCrl st pp) with
    | (s, none) => some ({ st with s := s }, false)
    | (s, some sia) =>
      match env.download s sia with
      | (s, none) => some ({ st with s := s }, false)
      | (s, some d) => traverseCa env { st with s := s } u x t sia d

/-- src/object/certificate.c:1910-2018 `certificate_traverse`, from `certificate_load` to `get_certificate_type`. -/
def traverseFile (env : Env σ U X C R S) (st : St σ U X C R) (pp : Option Nat) (crl : Option C) (u : U) : Option (St σ U X C R × Bool) :=
  match env.load st.s u with
  | (s, none) => some ({ st with s := s }, false)
  | (s, some x) =>
    match validateChain env s x crl st.x509s with
    | (s, false) => some ({ st with s := s }, false)
    | (s, true) =>
      match env.certType x pp.isNone with
      | none => some ({ st with s := s }, false)
      | some .bgpsec => some ({ st with s := s }, true)
      | some .ee => some ({ st with s := s }, true)
      | some .ta => traverseAuthority env { st with s := s } pp u x .ta
      | some .ca => traverseAuthority env { st with s := s } pp u x .ca

/-- src/object/certificate.c:1910-2018 `certificate_traverse`. The boolean is `error == 0`. -/
def certTraverse (env : Env σ U X C R S) (st : St σ U X C R) (pp : Option Nat) (u : U) : Option (St σ U X C R × Bool) :=
  if st.x509s.length ≥ env.maxDepth then some (st, false)
  else
    match rppCrl env st pp with
    | none => none
    | some (st, .err) => some (st, false)
    | some (st, .null) => traverseFile env { st with log := .cert u st.x509s st.metas none :: st.log } pp none u
    | some (st, .crl c) => traverseFile env { st with log := .cert u st.x509s st.metas (some c) :: st.log } pp (some c) u

/-- Results of a loop: it did not end yet, it crashed, it ended. -/
inductive Run (α : Type) where
  | more
  | crash
  | done (a : α)
  deriving DecidableEq, Repr

/-- The loop of src/object/tal.c:339-414 `handle_tal_uri`, that many times at most. -/
def deferLoop (env : Env σ U X C R S) : Nat → St σ U X C R → Run (St σ U X C R)
  | 0, _ => .more
  | n + 1, st =>
    match deferPop st.defers st with
    | none => .crash
    | some (st, none) => .done st
    | some (st, some (u, id)) =>
      match certTraverse env st (some id) u with
      | none => .crash
      | some (st, _) =>
        match refput st id with
        | none => .crash
        | some st => deferLoop env n st

/-- src/cert_stack.c:144-173 `certstack_destroy` -/
def destroyStack : List (Node U) → St σ U X C R → Option (St σ U X C R)
  | [], st => some { st with defers := [], x509s := [], metas := [] }
  | n :: ds, st =>
    match deferDestroy { st with defers := ds } n with
    | none => none
    | some st => destroyStack ds st

/-- Results of `handle_tal_uri`: 0, a positive number (the trust anchor's next URI is tried), a negative number (it isn't). -/
inductive TalRes where
  | ok
  | next
  | fatal
  deriving DecidableEq, Repr

/-- src/object/tal.c:339-414 `handle_tal_uri`, after `validation_prepare`; the first argument bounds the number of iterations. -/
def handleTalUri (env : Env σ U X C R S) (fuel : Nat) (s : σ) (u : U) : Run (St σ U X C R × TalRes) :=
  let fin (st : St σ U X C R) (r : TalRes) : Run (St σ U X C R × TalRes) :=
    match destroyStack st.defers st with
    | none => .crash
    | some st => .done (st, r)
  let st : St σ U X C R := ⟨[], [], [], [], s, []⟩
  if env.isCert u = false then fin st .next
  else
    match certTraverse env st none u with
    | none => .crash
    | some (st, false) => fin st (if env.keyState st.s = .invalid then .next else .fatal)
    | some (st, true) =>
      match deferLoop env fuel st with
      | .more => .more
      | .crash => .crash
      | .done st => fin st .ok

end Verif.Tree
