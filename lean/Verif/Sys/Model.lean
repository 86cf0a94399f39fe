import Verif.Tree.Spec
import Verif.Res.ModelRoa
/-
A whole trust anchor, from its certificate to its VRPs: the traversal (Tree) with the resources of certificates and the handling of
ROAs (Res) inside.

Not modelled here, and given as functions of a state `ρ` (files, cache, time, serial numbers, log): everything else that looks at a file.
A resource extension that makes the program abort (C69: only a trust anchor's can) counts as one that is rejected: what was given to
the database before is the same.
-/
namespace Verif.Sys
open Verif.Tree Verif.Res

/-- The end entity certificate of a signed object that is not a ROA; `ok`: all checks other than those of its resources succeed. -/
structure EeFile where
  ok : Bool
  policy : Policy
  exts : List Ext

/-- What is not modelled. See `Tree.Env`; `policy` and `exts` are what a certificate says about its resources. -/
structure Pki (ρ U X C S : Type) where
  maxDepth : Nat
  isCert : U → Bool
  crlLoad : ρ → U → ρ × Option C
  load : ρ → U → ρ × Option X
  chainOk : ρ → X → C → List X → ρ × Bool
  certType : X → Bool → Option CType
  profileOk : ρ → X → CType → ρ × Bool
  keyState : ρ → KeyState
  extensions : ρ → X → CType → Option U → ρ × Option S
  download : ρ → S → ρ × Option U
  policy : X → Policy
  exts : X → List Ext
  mftDecode : ρ → S → U → ρ × Option (Lists U)
  mftFile : ρ → S → U → Lists U → C → List X → ρ × EeFile
  roaDecode : ρ → U → ρ × Bool
  roaFile : ρ → U → U → C → List X → ρ × RoaFile
  gbrDecode : ρ → U → ρ × Bool
  gbrFile : ρ → U → U → C → List X → ρ × EeFile

/-- The state: what is not modelled, the sets of resources in memory, and the VRPs that were given to the database, in order. -/
structure Mem (ρ : Type) where
  rest : ρ
  heap : Heap
  vrps : List Vrp

/-- `enum cert_type` -/
def resType : CType → CertType
  | .ta => .ta
  | .ca => .ca
  | .bgpsec => .bgpsec
  | .ee => .ee

variable {ρ U X C S : Type}

/-- A function that leaves the sets and the VRPs alone. -/
def lift {α : Type} (f : ρ → ρ × α) (m : Mem ρ) : Mem ρ × α := ({ m with rest := (f m.rest).1 }, (f m.rest).2)

/-- src/cert_stack.c:242-273 `init_resources` -/
def resources (p : Pki ρ U X C S) (m : Mem ρ) (x : X) (t : CType) (issuer : Option Resources) : Mem ρ × Option Resources :=
  match initResources m.heap issuer (p.policy x) (p.exts x) (resType t) with
  | (h, r, .ok) => ({ m with heap := h }, some r)
  | (h, _, .err) => ({ m with heap := h }, none)
  | (_, _, .crit) => (m, none)

/-- The validation part of src/object/manifest.c:276-341 `handle_manifest`. (The resources are looked at before some of the other
checks; the order does not matter.) -/
def mftOk (p : Pki ρ U X C S) (m : Mem ρ) (sia : S) (d : U) (lists : Lists U) (c : C) (xs : List X) (issuer : Resources) : Mem ρ × Bool :=
  let (s, f) := p.mftFile m.rest sia d lists c xs
  let (h, _, o) := certificateGetResources m.heap (Resources.create f.policy false) (some issuer) f.exts .ee
  ({ m with rest := s, heap := h }, f.ok && o = .ok)

/-- src/object/roa.c:247-295 `roa_traverse`, after decoding. -/
def roa (p : Pki ρ U X C S) (m : Mem ρ) (u crl : U) (c : C) (xs : List X) (issuer : Resources) : Mem ρ :=
  let (s, f) := p.roaFile m.rest u crl c xs
  let (h, vs, _) := Res.roaTraverse m.heap issuer f
  ⟨s, h, m.vrps ++ vs⟩

/-- src/object/ghostbusters.c:16-58 `ghostbusters_traverse`, after decoding. -/
def gbr (p : Pki ρ U X C S) (m : Mem ρ) (u crl : U) (c : C) (xs : List X) (issuer : Resources) : Mem ρ :=
  let (s, f) := p.gbrFile m.rest u crl c xs
  let (h, _, _) := certificateGetResources m.heap (Resources.create f.policy true) (some issuer) f.exts .ee
  { m with rest := s, heap := h }

/-- The traversal's environment. -/
def Pki.env (p : Pki ρ U X C S) : Env (Mem ρ) U X C Resources S where
  maxDepth := p.maxDepth
  isCert := p.isCert
  crlLoad m u := lift (p.crlLoad · u) m
  load m u := lift (p.load · u) m
  chainOk m x c xs := lift (p.chainOk · x c xs) m
  certType := p.certType
  profileOk m x t := lift (p.profileOk · x t) m
  keyState m := p.keyState m.rest
  extensions m x t u := lift (p.extensions · x t u) m
  download m sia := lift (p.download · sia) m
  resources m x _ t issuer := resources p m x t issuer
  mftDecode m sia d := lift (p.mftDecode · sia d) m
  mftOk := mftOk p
  roaDecode m u := lift (p.roaDecode · u) m
  gbrDecode m u := lift (p.gbrDecode · u) m
  roa := roa p
  gbr := gbr p

/-- src/object/tal.c:339-414 `handle_tal_uri`: the whole trust anchor, with an empty memory at first. -/
def validateTa (p : Pki ρ U X C S) (fuel : Nat) (s : ρ) (root : U) : Run (St (Mem ρ) U X C Resources × TalRes) :=
  handleTalUri p.env fuel ⟨s, ⟨[], [], []⟩, []⟩ root

end Verif.Sys
