import Verif.Sys.Cycle
import Verif.Slurm.SpecLoad
import Verif.Slurm.LoadProps
import Verif.Tal.ThreadsProps
import Verif.Rtr.EndToEndProps
/-
What a cycle has to publish: the specification.
-/
namespace Verif.Sys
open Verif.Tree Verif.Res
open Verif.Rtr (Table)
open Verif.Cache (Url Cfg)
variable {ρ U X C S : Type}

/-- A VRP as it is published. -/
def row : Vrp → Rtr.Vrp
  | .v4 asn p m => ⟨asn, .v4, p.addr.setWidth 128, BitVec.ofNat 8 p.len, m⟩
  | .v6 asn p m => ⟨asn, .v6, BitVec.ofNat 128 (be p.addr), BitVec.ofNat 8 p.len, m⟩

/-- One of these TALs authorises it; `root` is the URI of each one's trust anchor. -/
def Authorised (c : Cycle ρ U X C S) (tals : List Tal.Str) (root : Tal.Str → Url) (v : Rtr.Vrp) : Prop :=
  ∃ f ∈ tals, ∃ w, Auth (c.ta f).pki ((c.ta f).place (root f)) (c.ta f).pki.maxDepth w ∧ row w = v

/-- With the SLURM rules `x` in force (RFC 8416): it is authorised and not filtered, or asserted. -/
def Due (authorised : Rtr.Vrp → Prop) (x : Option Slurm.Lists) (v : Rtr.Vrp) : Prop :=
  match x with
  | none => authorised v
  | some L => (authorised v ∧ ¬ ∃ f ∈ L.filterPfx, f.Matches v) ∨ ∃ p ∈ L.assertPfx, p.IsVrp v

/-- The router keys: those that are asserted. (Router certificates are not supported.) -/
def DueKey (x : Option Slurm.Lists) (k : Rtr.RouterKey) : Prop :=
  ∃ L, x = some L ∧ ∃ b ∈ L.assertBgps, k = ⟨b.ski.take 20, b.asn, b.spk.take 91⟩

/-- The table is what the cycle has to publish. Each TAL's trust anchor is at one of its URIs. What is published is due; and if the files
do not change during the cycle, what is due is published. -/
def Published (c : Cycle ρ U X C S) (tals : List Tal.Str) (x : Option Slurm.Lists) (t : Table) : Prop :=
  ∃ root : Tal.Str → Url, (∀ f ∈ tals, ∃ us, (c.ta f).uris = some us ∧ root f ∈ us) ∧
    (∀ v ∈ t.vrpSet, Due (Authorised c tals root) x v) ∧
    ((∀ f ∈ tals, Steady (c.ta f).pki) → ∀ v, Due (Authorised c tals root) x v → v ∈ t.vrpSet) ∧
    ∀ k, k ∈ t.keySet ↔ DueKey x k

/-- All of the cycle's TALs validate (there are some). -/
def Complete (cfg : Cfg) (tals : List Tal.Str) (c : Cycle ρ U X C S) : Prop :=
  tals ≠ [] ∧ ∀ f ∈ tals, doFileValidation cfg (c.ta f) ≠ none

/-- The SLURM files can be read. -/
def Readable (i : Slurm.CycleIn) : Prop := none ∉ i.csums.files ∧ i.csums.readOk = true

open Classical in
/-- What was found of SLURM by the cycles that looked at it, the last one first. -/
noncomputable def slurms (cfg : Cfg) (tals : Cycle ρ U X C S → List Tal.Str) (cs : List (Cycle ρ U X C S)) : List Slurm.CycleIn :=
  ((cs.filter fun c => decide (Complete cfg (tals c) c)).map Cycle.slurm).reverse

/-- What is assumed of a cycle: the TAL files are there and their threads can be created; what the cache recovers is one of the URIs; the
checksums of the SLURM files tell their contents, and the JSON does not crash the parser (C36). -/
structure Sane (cfg : Cfg) (env : Slurm.Env) (content : List Byte → Option Slurm.Json) (tals : List Tal.Str) (c : Cycle ρ U X C S) : Prop where
  files : Tal.TalFiles (c.world cfg) tals
  spawns : ∀ f ∈ tals, c.spawns f = true
  recovered : ∀ f ∈ tals, ∀ s u, (c.ta f).recovered s = some u → ∀ us, (c.ta f).uris = some us → u ∈ us
  faithful : Slurm.Faithful content c.slurm
  parses : Slurm.loadSlurmFiles env c.slurm.docs ≠ .crash

/-- The cycle is to publish something. -/
def Good (cfg : Cfg) (tals : List Tal.Str) (c : Cycle ρ U X C S) : Prop := Complete cfg tals c ∧ Readable c.slurm

/-- The result of a cycle, given what was found of SLURM up to it. -/
def Result (cfg : Cfg) (env : Slurm.Env) (tals : Cycle ρ U X C S → List Tal.Str) (c : Cycle ρ U X C S) (hist : List Slurm.CycleIn) (r : Option Table) : Prop :=
  (¬ Good cfg (tals c) c → r = none) ∧
  (Good cfg (tals c) c → ∃ t, r = some t ∧ t.WF ∧ t.KeysSized ∧ ∀ x, Slurm.InForce env hist x → Published c (tals c) x t)

/-- The last good cycle of the history, and what was found of SLURM up to it. -/
def LastGood (cfg : Cfg) (tals : Cycle ρ U X C S → List Tal.Str) (cs : List (Cycle ρ U X C S)) (c : Cycle ρ U X C S) (hist : List Slurm.CycleIn) : Prop :=
  ∃ pre post, cs = pre ++ c :: post ∧ Good cfg (tals c) c ∧ (∀ d ∈ post, ¬ Good cfg (tals d) d) ∧ hist = slurms cfg tals (pre ++ [c])

end Verif.Sys
