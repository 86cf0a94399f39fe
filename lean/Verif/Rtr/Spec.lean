/-
Independent specification of a router's view of RTR data (RFC 8210): what a strict router does with
announcements and withdrawals.
-/
import Mathlib.Data.Finset.Basic
import Verif.Rtr.Model

namespace Verif.Rtr

/-- A strict router holding the record set `s` receives one announcement or withdrawal. It treats a duplicate
announcement (RFC 8210 error 7) and the withdrawal of an unknown record (error 6) as errors (`none`). -/
def Router.step {α} [DecidableEq α] (s : Finset α) (e : Ev α) : Option (Finset α) :=
  match e.flag with
  | .announcement => if e.item ∈ s then none else some (insert e.item s)
  | .withdrawal   => if e.item ∈ s then some (s.erase e.item) else none

/-- A strict router processes a whole response. -/
def Router.run {α} [DecidableEq α] : Finset α → List (Ev α) → Option (Finset α)
  | s, [] => some s
  | s, e :: es => (Router.step s e).bind (fun s' => Router.run s' es)

/-- The set of VRPs of a table. -/
def Table.vrpSet (t : Table) : Finset Vrp := t.roas.toFinset
/-- The set of router keys of a table. -/
def Table.keySet (t : Table) : Finset RouterKey := t.keys.toFinset

/-- An IPv4 VRP holds a 32-bit address. -/
def Vrp.WF (v : Vrp) : Prop := v.fam = .v4 → v.prefix_.toNat < 2 ^ 32

/-- Tables as the API builds them: no duplicates, well-formed VRPs. (`C02` shows the API guarantees it.) -/
structure Table.WF (t : Table) : Prop where
  roasNodup : t.roas.Nodup
  keysNodup : t.keys.Nodup
  vrpsWF : ∀ v ∈ t.roas, v.WF

/-- Store a sequence of elements, oldest first, as successive `darray_add` calls do. -/
def DArray.addAll {α} (d : DArray α) : List α → Option (DArray α)
  | [] => some d
  | x :: xs => (d.add x).bind (fun d => d.addAll xs)

/-- Both tables hold the same data. -/
def Table.SameData (a b : Table) : Prop := a.vrpSet = b.vrpSet ∧ a.keySet = b.keySet

instance (a b : Table) : Decidable (a.SameData b) := by unfold Table.SameData; infer_instance

/-- One more validation cycle of the published history: `none` (failed) and "same data as the last publication"
publish nothing. -/
def publish (snaps : List Table) (r : Option Table) : List Table :=
  match r with
  | none => snaps
  | some t =>
    match snaps.getLast? with
    | none => [t]
    | some last => if last.SameData t then snaps else snaps ++ [t]

/-- The data sets published by a sequence of validation cycles, oldest first. Snapshot number `j` (from 0) has
serial `j + 1`. -/
def snapshots (rs : List (Option Table)) : List Table := rs.foldl publish []

/-- Run the code's update cycles; `none` if one of them has undefined behaviour. -/
def State.updates (st : State) : List (Option Table) → Option State
  | [] => some st
  | r :: rs => match st.update r with
    | (_, .ub) => none
    | (st', _) => st'.updates rs

/-- All tables of the cycles are as the API builds them. -/
def ResultsWF (rs : List (Option Table)) : Prop := ∀ t, some t ∈ rs → t.WF

end Verif.Rtr
