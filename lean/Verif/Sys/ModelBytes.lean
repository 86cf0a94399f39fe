import Verif.Sys.Model
import Verif.Sd.ModelMft
import Verif.Gbr.Model
import Verif.Cms.SpecOid
/-
A whole trust anchor whose signed objects are files: their bytes are read, decoded and checked as in `Verif.Sd`. This is an instance of `Pki`, where these were
given as functions.

A URI is the global one, and what tells where the local copy is (`W`: in the rsync cache, or in the workspace of an RRDP notification): see src/object/manifest.c:11-23 `cage`.
Certificates, CRLs, the network and the clock are still given as functions, of the rest `σ` of the state.
-/
namespace Verif.Sys
open Verif.Tree Verif.Res
open Verif.Mft (Uri FileRes Tm Action EeRefs Manifest)
open Verif.Sd (Nuls Crypto Ee signedObjectDecode mftContent certOf)
open Verif.Cms (oidManifest oidGhostbusters signedObjectValidate)

/-- The file that was read last: while it is handled, it is in memory. -/
structure Loaded (σ : Type) where
  rest : σ
  file : List Byte

/-- What is not modelled. `E` are the certificates of signed objects; `crypto` is what libcrypto says of them and of the signatures, given a CRL and the issuers. -/
structure Repo (σ W X C S E : Type) where
  maxDepth : Nat
  isCert : Uri × W → Bool
  crlLoad : σ → Uri × W → σ × Option C
  load : σ → Uri × W → σ × Option X
  chainOk : σ → X → C → List X → σ × Bool
  certType : X → Bool → Option CType
  profileOk : σ → X → CType → σ × Bool
  keyState : σ → KeyState
  extensions : σ → X → CType → Option (Uri × W) → σ × Option S
  download : σ → S → σ × Option (Uri × W)
  policy : X → Policy
  exts : X → List Ext
  /-- The manifest, according to the certificate and to where the publication point was downloaded: `cage`. -/
  manifest : S → Uri × W → Option (Uri × W)
  /-- The local copies. -/
  read : σ → Uri × W → FileRes
  /-- `uri_create_mft`: the URI of a file that a manifest lists. -/
  mkUri : Uri → List Byte → Option Uri
  sha256 : List Byte → List Byte
  notFound : Action
  mismatch : Action
  stale : Action
  rnd : σ → Nat → Nat
  now : σ → Tm
  nuls : Nuls
  crypto : σ → C → List X → Crypto E
  eePolicy : E → Policy
  eeExts : E → List Ext
  eeRefs : E → EeRefs

variable {σ W X C S E : Type}

/-- What libcrypto says; resources are looked at elsewhere. -/
def Repo.lib (q : Repo σ W X C S E) (s : σ) (c : C) (xs : List X) : Crypto E :=
  { q.crypto s c xs with sha256 := q.sha256, resourcesOk := fun _ => true }

/-- The environment of the manifest at this URI. -/
def Repo.mftEnv (q : Repo σ W X C S E) (s : σ) (u : Uri × W) : Mft.Env where
  mkUri := q.mkUri u.1
  read := fun v => q.read s (v, u.2)
  sha256 := q.sha256
  notFound := q.notFound
  mismatch := q.mismatch
  stale := q.stale

/-- The first half of src/object/manifest.c:276-341 `handle_manifest`: the file is read and decoded, and the publication point is built. (If `build_rpp` crashes, see C48, nothing is published
any more; here this counts as an error.) -/
def Repo.mftDecode (q : Repo σ W X C S E) (s : Loaded σ) (sia : S) (d : Uri × W) : Loaded σ × Option (Lists (Uri × W)) :=
  match q.manifest sia d with
  | none => (s, none)
  | some u =>
    match q.read s.rest u with
    | .content b =>
      ({ s with file := b },
        match mftContent q.nuls b with
        | none => none
        | some m =>
          match Mft.buildRpp (q.mftEnv s.rest u) (q.rnd s.rest) m.files with
          | .ok pp => pp.crl.map fun crl => ⟨pp.certs.map (·, u.2), (crl, u.2), pp.roas.map (·, u.2), pp.gbrs.map (·, u.2)⟩
          | _ => none)
    | _ => (s, none)

/-- What src/certificate_refs.c:88-99 `refs_validate_ee` says. -/
def refsOk (refs : EeRefs) (crl uri : Uri) : Bool := decide (Mft.refsValidateEe refs ⟨[], some crl, [], []⟩ uri = .ok ())

/-- The certificate of a signed object, and whether the other checks succeed. -/
def Repo.eeFile (q : Repo σ W X C S E) (s : Loaded σ) (oid : List Nat) (c : C) (xs : List X) (more : EeRefs → Bool) : EeFile :=
  match signedObjectDecode q.nuls s.file with
  | .ok (enc, sd) =>
    match certOf (q.lib s.rest c xs) sd with
    | none => ⟨false, .rfc6484, []⟩
    | some e => ⟨decide (signedObjectValidate ((q.lib s.rest c xs).env q.nuls) oid enc sd = .ok) && more (q.eeRefs e), q.eePolicy e, q.eeExts e⟩
  | _ => ⟨false, .rfc6484, []⟩

/-- The second half of src/object/manifest.c:276-341 `handle_manifest`: validation. -/
def Repo.mftFile (q : Repo σ W X C S E) (s : Loaded σ) (sia : S) (d : Uri × W) (lists : Lists (Uri × W)) (c : C) (xs : List X) : Loaded σ × EeFile :=
  (s, q.eeFile s oidManifest c xs fun refs =>
    match q.manifest sia d, mftContent q.nuls s.file with
    | some u, some m => decide (Mft.validateManifest q.stale (some (q.now s.rest)) m = .ok ()) && refsOk refs lists.crl.1 u.1
    | _, _ => false)

/-- src/object/signed_object.c:6-22 `signed_object_decode` reads the file. -/
def Repo.readFile (q : Repo σ W X C S E) (s : Loaded σ) (u : Uri × W) : Option (Loaded σ) :=
  match q.read s.rest u with
  | .content b => some { s with file := b }
  | _ => none

/-- src/object/roa.c:247-295 `roa_traverse`: the file is read and decoded. -/
def Repo.roaDecode (q : Repo σ W X C S E) (s : Loaded σ) (u : Uri × W) : Loaded σ × Bool :=
  match q.readFile s u with
  | none => (s, false)
  | some s => (s, match signedObjectDecode q.nuls s.file with
    | .ok (_, sd) => match sd.eContent with
      | none => false
      | some x => (Obj.decodeRoa (q.nuls Asn.routeOriginAttestationTy x) x).toOption.isSome
    | _ => false)

/-- src/object/roa.c:247-295 `roa_traverse`: validation; the rest is `Verif.Res.roaTraverse`. -/
def Repo.roaFile (q : Repo σ W X C S E) (s : Loaded σ) (u crl : Uri × W) (c : C) (xs : List X) : Loaded σ × RoaFile :=
  (s, Sd.roaFile (q.lib s.rest c xs) ⟨q.eePolicy, q.eeExts, fun e => refsOk (q.eeRefs e) crl.1 u.1⟩ q.nuls true s.file)

/-- src/object/ghostbusters.c:16-58 `ghostbusters_traverse`: the file is read and decoded. -/
def Repo.gbrDecode (q : Repo σ W X C S E) (s : Loaded σ) (u : Uri × W) : Loaded σ × Bool :=
  match q.readFile s u with
  | none => (s, false)
  | some s => (s, match signedObjectDecode q.nuls s.file with
    | .ok _ => true
    | _ => false)

/-- src/object/ghostbusters.c:16-58 `ghostbusters_traverse`: validation; src/object/ghostbusters.c:8-14 `handle_vcard` -/
def Repo.gbrFile (q : Repo σ W X C S E) (s : Loaded σ) (u crl : Uri × W) (c : C) (xs : List X) : Loaded σ × EeFile :=
  (s, q.eeFile s oidGhostbusters c xs fun refs =>
    (match signedObjectDecode q.nuls s.file with
      | .ok (_, sd) => match sd.eContent with
        | none => false
        | some x => decide (Gbr.handleVcard x = .ok ())
      | _ => false) && refsOk refs crl.1 u.1)

/-- A function that leaves the file in memory alone. -/
def keep {α : Type} (f : σ → σ × α) (s : Loaded σ) : Loaded σ × α := ({ s with rest := (f s.rest).1 }, (f s.rest).2)

/-- The trust anchor's functions, with signed objects as bytes. -/
def Repo.pki (q : Repo σ W X C S E) : Pki (Loaded σ) (Uri × W) X C S where
  maxDepth := q.maxDepth
  isCert := q.isCert
  crlLoad s u := keep (q.crlLoad · u) s
  load s u := keep (q.load · u) s
  chainOk s x c xs := keep (q.chainOk · x c xs) s
  certType := q.certType
  profileOk s x t := keep (q.profileOk · x t) s
  keyState s := q.keyState s.rest
  extensions s x t u := keep (q.extensions · x t u) s
  download s sia := keep (q.download · sia) s
  policy := q.policy
  exts := q.exts
  mftDecode := q.mftDecode
  mftFile := q.mftFile
  roaDecode := q.roaDecode
  roaFile := q.roaFile
  gbrDecode := q.gbrDecode
  gbrFile := q.gbrFile

end Verif.Sys
