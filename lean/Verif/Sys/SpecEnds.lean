import Verif.Sys.SpecWritten
import Verif.Sys.SteadyBytes
import Verif.Sys.CycleSpec
/-
What a cycle has to publish, in terms of the bytes of the manifests and of the ROAs.
-/
namespace Verif.Sys
open Verif.Tree Verif.Res
open Verif.Rtr (Table)
open Verif.Cache (Url Cfg)
open Verif.Mft (Uri)
open Verif.Obj (VrpSpec RoaSpec)
variable {σ W X C S E : Type}

/-- One of the TALs has a ROA that states it, below a chain of accepted certificates, all of which hold its addresses: see `AssertedB` and `CertifiedBy`. -/
def FromBytes (q : Tal.Str → Repo σ W X C S E) (tals : List Tal.Str) (root : Tal.Str → Uri × W) (v : Rtr.Vrp) : Prop :=
  ∃ f ∈ tals, ∃ chain pp e ee w, CertifiedBy (q f) (Manifested (q f)) (root f) chain pp ∧ chain.length ≤ (q f).maxDepth ∧ AssertedB (q f) chain pp w e ee ∧
    w.WellFormed ∧ Vrp.HeldBy ((q f).eeExts e :: chain.map fun a => (q f).exts a.x) w ∧ row w = v

/-- The fields of a VRP as they are sent to routers. -/
def fields (v : VrpSpec) : Rtr.Vrp := ⟨BitVec.ofNat 32 v.asn, if v.v6 then .v6 else .v4, BitVec.ofNat 128 v.addr, BitVec.ofNat 8 v.len, BitVec.ofNat 8 v.maxLength⟩

/-- An issuer wrote it into a ROA, below a chain of accepted certificates whose manifests were written as they should be: see `WrittenRoa` and `WrittenMft`. -/
def WrittenBytes (q : Tal.Str → Repo σ W X C S E) (tals : List Tal.Str) (root : Tal.Str → Uri × W) (v : Rtr.Vrp) : Prop :=
  ∃ f ∈ tals, ∃ chain pp r w, CertifiedBy (q f) (WrittenMft (q f)) (root f) chain pp ∧ chain.length ≤ (q f).maxDepth ∧ WrittenRoa (q f) chain pp r ∧ w ∈ r.vrps ∧ fields w = v

/-- As `Published`. What is published is from the bytes of ROAs (unless SLURM filters it), or from SLURM; and what issuers wrote is published, unless files change meanwhile (or SLURM filters
it). -/
def PublishedBytes (q : Tal.Str → Repo σ W X C S E) (c : Cycle (Loaded σ) (Uri × W) X C S) (tals : List Tal.Str) (x : Option Slurm.Lists) (t : Table) : Prop :=
  ∃ root : Tal.Str → Url, (∀ f ∈ tals, ∃ us, (c.ta f).uris = some us ∧ root f ∈ us) ∧
    (∀ v ∈ t.vrpSet, Due (FromBytes q tals fun f => (c.ta f).place (root f)) x v) ∧
    ((∀ f ∈ tals, SteadyRepo (q f) ∧ (q f).notFound = .error ∧ (q f).mismatch = .error ∧ (q f).stale = .error) →
      ∀ v, Due (WrittenBytes q tals fun f => (c.ta f).place (root f)) x v → v ∈ t.vrpSet) ∧
    ∀ k, k ∈ t.keySet ↔ DueKey x k

end Verif.Sys
