import Verif.Sys.Spec
import Verif.Res.RoaProps
/-
When a VRP is authorised by a trust anchor: the specification.
-/
namespace Verif.Sys
open Verif.Tree Verif.Res
variable {ρ U X C S : Type}

/-- The certificate `a`, found at `u`, is acceptable under these issuers (the nearest one first) and as listed in the publication point
`parent` (the trust anchor's has neither); `pp` is its own publication point. -/
def CaOk (p : Pki ρ U X C S) (issuers : List (Anc U X Vals)) (parent : Option (Point U C)) (u : U) (a : Anc U X Vals) (pp : Point U C) : Prop :=
  ∃ s₀ s₁ s₂ s₃ s₄ s₅ s₆ s₇ s₈ t sia d f, a.u = u ∧
    /- The file can be read; its signatures verify, up to the trust anchor's, and it is not revoked. -/
    p.load s₀ u = (s₁, some a.x) ∧
    (∀ q, parent = some q → p.chainOk s₁ a.x q.crl (issuers.map Anc.x) = (s₂, true)) ∧ (parent = none → s₂ = s₁) ∧
    /- It is a certification authority's, and conforms to the profile. -/
    p.certType a.x parent.isNone = some t ∧ (t = .ta ∨ t = .ca) ∧ p.profileOk s₂ a.x t = (s₃, true) ∧
    p.extensions s₃ a.x t (parent.map (·.lists.crl)) = (s₄, some sia) ∧
    /- Its publication point can be read. -/
    p.download s₄ sia = (s₅, some d) ∧
    /- Its resources are granted to it by its issuer. -/
    GrantsCa (issuers.head?.map Anc.r) (p.policy a.x) (if t = .ta then CertType.ta else CertType.ca) (p.exts a.x) a.r ∧
    /- Its manifest and its CRL are fine. -/
    p.mftDecode s₅ sia d = (s₆, some pp.lists) ∧ p.crlLoad s₆ pp.lists.crl = (s₇, some pp.crl) ∧
    p.mftFile s₇ sia d pp.lists pp.crl ((a :: issuers).map Anc.x) = (s₈, f) ∧ f.ok = true ∧
    ∃ v, GrantsAll (some a.r) f.policy false true f.exts v

/-- A chain of acceptable certificates (the nearest one first), from the trust anchor's at `root`, each one listed in the publication
point of the next; and the publication point of the nearest one. -/
inductive Certified (p : Pki ρ U X C S) (root : U) : List (Anc U X Vals) → Point U C → Prop where
  | root {a pp} : CaOk p [] none root a pp → Certified p root [a] pp
  | listed {chain q u a pp} : Certified p root chain q → u ∈ q.lists.certs → CaOk p chain (some q) u a pp → Certified p root (a :: chain) pp

/-- The VRP is one of those of a ROA that is listed in the publication point of the nearest certificate of the chain, and whose signature
and certificate (with the extensions `exts` and the resources `ee`) are fine. -/
def Asserted (p : Pki ρ U X C S) (chain : List (Anc U X Vals)) (pp : Point U C) (v : Vrp) (exts : List Ext) (ee : Vals) : Prop :=
  ∃ u s₀ s₁ s₂ f roa a, u ∈ pp.lists.roas ∧ chain.head? = some a ∧ p.roaDecode s₀ u = (s₁, true) ∧
    p.roaFile s₁ u pp.lists.crl pp.crl (chain.map Anc.x) = (s₂, f) ∧ f.content = some roa ∧ f.envelopeOk = true ∧ f.exts = exts ∧
    GrantsAll (some a.r) f.policy false true exts ee ∧ v ∈ roaVrps ee roa

/-- The VRP is authorised, by a chain of at most so many certificates. -/
def Auth (p : Pki ρ U X C S) (root : U) (depth : Nat) (v : Vrp) : Prop :=
  ∃ chain pp exts ee, Certified p root chain pp ∧ chain.length ≤ depth ∧ Asserted p chain pp v exts ee

/-- The same files, in whatever order. -/
structure Alike (l l' : Lists U) : Prop where
  certs : l.certs.Perm l'.certs
  crl : l.crl = l'.crl
  roas : l.roas.Perm l'.roas
  gbrs : l.gbrs.Perm l'.gbrs

/-- What is not modelled answers each question always in the same way, whatever the state; except that the files of a manifest may be listed in another order each time. (The manifest or the ROA that was
decoded last may be part of the state.) -/
structure Steady (p : Pki ρ U X C S) : Prop where
  crlLoad : ∀ s s' u, (p.crlLoad s u).2 = (p.crlLoad s' u).2
  load : ∀ s s' u, (p.load s u).2 = (p.load s' u).2
  chainOk : ∀ s s' x c xs, (p.chainOk s x c xs).2 = (p.chainOk s' x c xs).2
  profileOk : ∀ s s' x t, (p.profileOk s x t).2 = (p.profileOk s' x t).2
  extensions : ∀ s s' x t u, (p.extensions s x t u).2 = (p.extensions s' x t u).2
  download : ∀ s s' sia, (p.download s sia).2 = (p.download s' sia).2
  mftDecode : ∀ s s' sia d l, (p.mftDecode s sia d).2 = some l → ∃ l', (p.mftDecode s' sia d).2 = some l' ∧ Alike l l'
  mftFile : ∀ s s' sia d l l' c xs, (p.mftDecode s sia d).2 = some l → (p.mftDecode s' sia d).2 = some l' →
    (p.mftFile (p.crlLoad (p.mftDecode s sia d).1 l.crl).1 sia d l c xs).2 = (p.mftFile (p.crlLoad (p.mftDecode s' sia d).1 l'.crl).1 sia d l' c xs).2
  roaDecode : ∀ s s' u, (p.roaDecode s u).2 = (p.roaDecode s' u).2
  roaFile : ∀ s s' u crl c xs, (p.roaDecode s u).2 = true → (p.roaFile (p.roaDecode s u).1 u crl c xs).2 = (p.roaFile (p.roaDecode s' u).1 u crl c xs).2

/-! ### What certificates state -/

/-- The range of addresses (of so many bits) that is encoded. -/
def Encodes (w : Nat) (e : AddrOrRange) (r : Rng) : Prop :=
  match e with
  | .pfx s => ∃ len, EncodesPrefix w s r.min len ∧ r.max = r.min + (2 ^ (w - len) - 1)
  | .range a b => EncodesRange w a b r.min r.max
  | .nothing => False

/-- One of the IP extensions lists the address `n` (of `w` bits) in a block of this family. -/
def States (w : Nat) (family : List Byte) (exts : List Ext) (n : Nat) : Prop :=
  ∃ critical blocks l e r, Ext.ip critical (some blocks) ∈ exts ∧ (⟨family, .aors l⟩ : IpBlock) ∈ blocks ∧ e ∈ l ∧ Encodes w e r ∧ r.Has n

/-- One of the IP extensions says that the addresses of this family are inherited. -/
def Inherits (family : List Byte) (exts : List Ext) : Prop :=
  ∃ critical blocks, Ext.ip critical (some blocks) ∈ exts ∧ (⟨family, .inherit⟩ : IpBlock) ∈ blocks

/-- The holder of the first certificate holds the address: each certificate states it or inherits it from the next one; the last one (the
trust anchor's) states it. -/
inductive Holds (w : Nat) (family : List Byte) : List (List Ext) → Nat → Prop where
  | root {e n} : States w family e n → Holds w family [e] n
  | stated {e l n} : States w family e n → Holds w family l n → Holds w family (e :: l) n
  | inherited {e l n} : Inherits family e → Holds w family l n → Holds w family (e :: l) n

/-- The addresses of the VRP are held by the holder of the first certificate. -/
def Vrp.HeldBy (l : List (List Ext)) : Vrp → Prop
  | .v4 _ p _ => ∀ n, p.addr.toNat ≤ n → n ≤ p.addr.toNat + (2 ^ (32 - p.len) - 1) → Holds 32 [0, 1] l n
  | .v6 _ p _ => ∀ n, be p.addr ≤ n → n ≤ be p.addr + (2 ^ (128 - p.len) - 1) → Holds 128 [0, 2] l n

end Verif.Sys
