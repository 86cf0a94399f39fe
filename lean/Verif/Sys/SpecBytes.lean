import Verif.Sys.ModelBytes
import Verif.Sys.Auth
import Verif.Sd.PropsContent
import Verif.Sd.PropsRoa
import Verif.Mft.Spec
import Verif.Mft.MftProps
/-
When a VRP is authorised by a trust anchor, in terms of the bytes of the manifests and the ROAs.
-/
namespace Verif.Sys
open Verif.Tree Verif.Res
open Verif.Mft (Uri FileRes Tm Manifest Usable Sound HasExt extCer extRoa extGbr extCrl)
open Verif.Sd (Carries SignedBy)
open Verif.Cms (Names oidManifest oidRoa)
open Verif.Asn (Ber manifestTy routeOriginAttestationTy)
open Verif.Obj (mftOf roaOf)
variable {σ W X C S E : Type}

/-- The file is a signed object of this type, with this content. The certificate `e` is accepted (with this CRL and below these certificates), and its key has signed the type and the
content's digest. (Or it has signed the octet 0x31 alone: see C182.) -/
def SignedFile (q : Repo σ W X C S E) (s : σ) (c : C) (xs : List X) (oid : List Nat) (file x : List Byte) (e : E) : Prop :=
  ∃ type b, Names type oid ∧ Carries (q.crypto s c xs).nullParamsOk file type (q.sha256 x) x ∧ SignedBy (q.lib s c xs) b e ∧ (Sd.Says b type (q.sha256 x) ∨ b = [0x31])

/-- The bytes begin with an encoding of this manifest, of this ROA. -/
def IsMft (x : List Byte) (m : Manifest) : Prop := ∃ v b rest, x = b ++ rest ∧ Ber manifestTy .own v b ∧ mftOf v = some m
def IsRoa (x : List Byte) (r : Roa) : Prop := ∃ v b rest, x = b ++ rest ∧ Ber routeOriginAttestationTy .own v b ∧ roaOf v = some r

/-- How a manifest finds its files: by its own URI, in the same place as itself. -/
def Repo.siblings (q : Repo σ W X C S E) (s : σ) (u : Uri × W) : Mft.Env :=
  ⟨fun name => q.mkUri u.1 name, fun v => q.read s (v, u.2), q.sha256, q.notFound, q.mismatch, q.stale⟩

/-- There is a manifest at this URI. Its files are there and have the listed hashes (or it is tolerated that they do not: see `Usable`), exactly one is a CRL; they are the publication
point's. It is signed, with the CRL `c`, which its certificate `e` names, and it is valid now. -/
def ManifestedAs (q : Repo σ W X C S E) (m : Manifest) (s s' : σ) (u : Uri × W) (lists : Lists (Uri × W)) (c : C) (xs : List X) (e : E) : Prop :=
  ∃ file x order us crl, q.read s u = .content file ∧ SignedFile q s' c xs oidManifest file x e ∧ IsMft x m ∧
    order.Perm m.files ∧ Usable (q.siblings s u) order us ∧ Sound q.stale (q.now s') m ∧
    lists.certs = (us.filter (HasExt extCer ·)).map (·, u.2) ∧ lists.roas = (us.filter (HasExt extRoa ·)).map (·, u.2) ∧
    lists.gbrs = (us.filter (HasExt extGbr ·)).map (·, u.2) ∧ us.filter (HasExt extCrl ·) = [crl] ∧ lists.crl = (crl, u.2) ∧
    (q.eeRefs e).crldp = some crl ∧ (q.eeRefs e).signedObject = some u.1

def Manifested (q : Repo σ W X C S E) (s s' : σ) (u : Uri × W) (lists : Lists (Uri × W)) (c : C) (xs : List X) (e : E) : Prop := ∃ m, ManifestedAs q m s s' u lists c xs e

/-- The manifest at `w` lists this file, with its hash. -/
def ListsFile (q : Repo σ W X C S E) (m : Manifest) (w u : Uri × W) (file : List Byte) : Prop :=
  u.2 = w.2 ∧ ∃ f ∈ m.files, q.mkUri w.1 f.file = some u.1 ∧ f.unused = 0 ∧ f.hash = q.sha256 file

/-- As `CaOk`; `M` says what a manifest has to be, given the states in which its file is read and in which it is checked. -/
def CaBy (q : Repo σ W X C S E) (M : σ → σ → Uri × W → Lists (Uri × W) → C → List X → E → Prop) (issuers : List (Anc (Uri × W) X Vals)) (parent : Option (Point (Uri × W) C)) (u : Uri × W)
    (a : Anc (Uri × W) X Vals) (pp : Point (Uri × W) C) : Prop :=
  ∃ s₀ s₁ s₂ s₃ s₄ s₅ s₇ t sia d w e, a.u = u ∧
    q.load s₀ u = (s₁, some a.x) ∧
    (∀ p, parent = some p → q.chainOk s₁ a.x p.crl (issuers.map Anc.x) = (s₂, true)) ∧ (parent = none → s₂ = s₁) ∧
    q.certType a.x parent.isNone = some t ∧ (t = .ta ∨ t = .ca) ∧ q.profileOk s₂ a.x t = (s₃, true) ∧
    q.extensions s₃ a.x t (parent.map (·.lists.crl)) = (s₄, some sia) ∧
    q.download s₄ sia = (s₅, some d) ∧
    GrantsCa (issuers.head?.map Anc.r) (q.policy a.x) (if t = .ta then CertType.ta else CertType.ca) (q.exts a.x) a.r ∧
    q.manifest sia d = some w ∧ q.crlLoad s₅ pp.lists.crl = (s₇, some pp.crl) ∧
    M s₅ s₇ w pp.lists pp.crl ((a :: issuers).map Anc.x) e ∧ ∃ v, GrantsAll (some a.r) (q.eePolicy e) false true (q.eeExts e) v

/-- As `Certified`, with the manifests that `M` says. -/
inductive CertifiedBy (q : Repo σ W X C S E) (M : σ → σ → Uri × W → Lists (Uri × W) → C → List X → E → Prop) (root : Uri × W) :
    List (Anc (Uri × W) X Vals) → Point (Uri × W) C → Prop where
  | root {a pp} : CaBy q M [] none root a pp → CertifiedBy q M root [a] pp
  | listed {chain p u a pp} : CertifiedBy q M root chain p → u ∈ p.lists.certs → CaBy q M chain (some p) u a pp → CertifiedBy q M root (a :: chain) pp

/-- As `Asserted`, with the bytes of the ROA. -/
def AssertedB (q : Repo σ W X C S E) (chain : List (Anc (Uri × W) X Vals)) (pp : Point (Uri × W) C) (v : Vrp) (e : E) (ee : Vals) : Prop :=
  ∃ u s file x roa a, u ∈ pp.lists.roas ∧ chain.head? = some a ∧ q.read s u = .content file ∧
    SignedFile q s pp.crl (chain.map Anc.x) oidRoa file x e ∧ IsRoa x roa ∧
    GrantsAll (some a.r) (q.eePolicy e) false true (q.eeExts e) ee ∧ v ∈ roaVrps ee roa

end Verif.Sys
