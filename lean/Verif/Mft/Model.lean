import Verif.Mft.ModelTime
import Verif.Cms.Model
/-
Manifests: src/object/manifest.c, src/rpp.c, src/crypto/hash.c.

URIs are their global form (a string without NULs). Reference counts of URIs are left out.
-/
namespace Verif.Mft
open Verif.Res (Byte integer2ulong)

abbrev Uri := List Byte

/-- `struct FileAndHash`; `unused` is the BIT STRING's. -/
structure FileAndHash where
  file : List Byte
  hash : List Byte
  unused : Nat
  deriving DecidableEq, Repr

/-- `hash_file`: the bytes of the file; `ENOENT` or `EACCES`; or another error. -/
inductive FileRes where
  | content (b : List Byte)
  | missing
  | error
  deriving DecidableEq, Repr

/-- What the code around does. -/
structure Env where
  /-- `uri_create_mft`, of the manifest at hand. -/
  mkUri : List Byte → Option Uri
  /-- The cached file. -/
  read : Uri → FileRes
  sha256 : List Byte → List Byte
  /-- The configured incidences. -/
  notFound : Action
  mismatch : Action
  stale : Action

/-- `struct rpp` -/
structure Rpp where
  certs : List Uri
  crl : Option Uri
  roas : List Uri
  gbrs : List Uri
  deriving DecidableEq, Repr

/-- src/crypto/hash.c:24-30 `hash_matches` -/
def hashMatches (expected actual : List Byte) : Bool :=
  decide (expected.length = actual.length) && decide (expected.take expected.length = actual.take expected.length)

/-- src/crypto/hash.c:106-140 `hash_validate_mft_file`. A positive result is `skip`, a negative one is `err`. -/
def hashValidateMftFile (env : Env) (uri : Uri) (f : FileAndHash) : Res Unit :=
  if f.unused ≠ 0 then .err
  else
    match env.read uri with
    | .missing =>
      match incidence env.notFound with
      | .ok () => .skip
      | _ => .err
    | .error => .err
    | .content b => if hashMatches f.hash (env.sha256 b) then .ok () else incidence env.mismatch

/-- src/common.c:17-29 `str_ends_with` -/
def endsWith (s suffix : List Byte) : Bool :=
  if s.length < suffix.length then false else decide (s.drop (s.length - suffix.length) = suffix)

def extCer : List Byte := [0x2E, 0x63, 0x65, 0x72]
def extRoa : List Byte := [0x2E, 0x72, 0x6F, 0x61]
def extCrl : List Byte := [0x2E, 0x63, 0x72, 0x6C]
def extGbr : List Byte := [0x2E, 0x67, 0x62, 0x72]

/-- src/rpp.c:108-117 `rpp_add_crl` -/
def rppAddCrl (pp : Rpp) (uri : Uri) : Option Rpp :=
  match pp.crl with
  | some _ => none
  | none => some { pp with crl := some uri }

/-- A file that was not skipped: src/object/manifest.c:184-270 `build_rpp`, after the hash. -/
def addFile (pp : Rpp) (uri : Uri) : Option Rpp :=
  if endsWith uri extCer then some { pp with certs := pp.certs ++ [uri] }
  else if endsWith uri extRoa then some { pp with roas := pp.roas ++ [uri] }
  else if endsWith uri extCrl then rppAddCrl pp uri
  else if endsWith uri extGbr then some { pp with gbrs := pp.gbrs ++ [uri] }
  else some pp

/-- The second loop of src/object/manifest.c:184-270 `build_rpp` -/
def filesLoop (env : Env) : Rpp → List FileAndHash → Res Rpp
  | pp, [] => .ok pp
  | pp, f :: fs =>
    match env.mkUri f.file with
    | none => .err
    | some uri =>
      match hashValidateMftFile env uri f with
      | .crash => .crash
      | .err => .err
      | .skip => filesLoop env pp fs
      | .ok () =>
        match addFile pp uri with
        | none => .err
        | some pp => filesLoop env pp fs

/-- A swap of two elements of an array; `none` is out of bounds. -/
def swap {α} (l : List α) (i j : Nat) : Option (List α) :=
  match l[i]?, l[j]? with
  | some a, some b => some ((l.set j a).set i b)
  | _, _ => none

/-- The first loop of src/object/manifest.c:184-270 `build_rpp`: iterations from `i` on; `todo` of them are left. Unsigned ints have 32
bits. A division by zero, or an index out of bounds, is a crash. -/
def shuffleLoop {α} (rnd : Nat → Nat) : Nat → Nat → List α → Res (List α)
  | 0, _, l => .ok l
  | todo + 1, i, l =>
    let d := (l.length + 2 ^ 32 - i) % 2 ^ 32
    if d = 0 then .crash
    else
      match swap l i ((i + rnd i % d) % 2 ^ 32) with
      | none => .crash
      | some l => shuffleLoop rnd todo (i + 1) l

/-- `count - 1` in src/object/manifest.c:184-270 `build_rpp`: it is an int (at least -1), and becomes unsigned in the comparison. -/
def countPred (n : Nat) : Nat := if n = 0 then 4294967295 else n - 1

/-- The shuffle of src/object/manifest.c:184-270 `build_rpp`. -/
def shuffle {α} (rnd : Nat → Nat) (l : List α) : Res (List α) := shuffleLoop rnd (countPred l.length) 0 l

/-- src/object/manifest.c:184-270 `build_rpp`. `rnd` are the numbers that `rand_r` gives. -/
def buildRpp (env : Env) (rnd : Nat → Nat) (files : List FileAndHash) : Res Rpp :=
  match shuffle rnd files with
  | .crash => .crash
  | .err => .err
  | .skip => .skip
  | .ok files =>
    match filesLoop env ⟨[], none, [], []⟩ files with
    | .ok pp => match pp.crl with
      | none => .err
      | some _ => .ok pp
    | r => r

/-- `struct Manifest`: integers and dates are their content octets. -/
structure Manifest where
  version : Option (List Byte)
  number : List Byte
  thisUpdate : List Byte
  nextUpdate : List Byte
  hashAlg : List Byte
  files : List FileAndHash

/-- src/object/manifest.c:115-182 `validate_manifest` -/
def validateManifest (stale : Action) (now : Option Tm) (m : Manifest) : Res Unit :=
  if m.version.isSome ∧ m.version.bind integer2ulong ≠ some 0 then .err
  else if m.number.length > 20 then .err
  else
    match validateDates stale now m.thisUpdate m.nextUpdate with
    | .ok () => if Cms.hashOidOk m.hashAlg then .ok () else .err
    | r => r

/-- What an EE certificate refers to: `struct certificate_refs`. -/
structure EeRefs where
  crldp : Option Uri
  signedObject : Option Uri
  deriving DecidableEq, Repr

/-- src/certificate_refs.c:88-99 `refs_validate_ee`, with src/certificate_refs.c:21-39 `validate_cdp` and
src/certificate_refs.c:41-55 `validate_signedObject` -/
def refsValidateEe (refs : EeRefs) (pp : Rpp) (uri : Uri) : Res Unit :=
  match refs.crldp with
  | none => .crash
  | some d =>
    match pp.crl with
    | none => .crash
    | some c =>
      if d ≠ c then .err
      else
        match refs.signedObject with
        | none => .crash
        | some s => if s ≠ uri then .err else .ok ()

/-- src/object/manifest.c:276-341 `handle_manifest`, after `cage`. `decoded` is what `signed_object_decode` and `decode_manifest` give
for the file; `crlOk` is `rpp_crl` (which loads the CRL); `signed` is `signed_object_validate`, with the CRL; it yields the EE
certificate's references. -/
def handleManifest (env : Env) (rnd : Nat → Nat) (now : Option Tm) (crlOk : Uri → Bool) (signed : Uri → Option EeRefs)
    (uri : Uri) (decoded : Option Manifest) : Res Rpp :=
  match decoded with
  | none => .err
  | some m =>
    match buildRpp env rnd m.files with
    | .ok pp =>
      match pp.crl with
      | none => .crash
      | some crl =>
        if crlOk crl = false then .err
        else
          match signed crl with
          | none => .err
          | some refs =>
            match validateManifest env.stale now m with
            | .ok () =>
              match refsValidateEe refs pp uri with
              | .ok () => .ok pp
              | .crash => .crash
              | .err => .err
              | .skip => .skip
            | .crash => .crash
            | .err => .err
            | .skip => .skip
    | r => r

end Verif.Mft
