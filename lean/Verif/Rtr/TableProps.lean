/-
C02 (the table is a set), C03 (deltas are exact differences), C20 (router key AS ranges).
-/
import Mathlib.Data.Finset.Card
import Mathlib.Data.Finset.Sort
import Mathlib.Order.Interval.Finset.Nat
import Mathlib.Data.Finset.Image
import Verif.Rtr.TableLemmas

namespace Verif.Rtr

/-- Any way of building a table through the API. -/
inductive TProg
  | create
  | roa4 (p : TProg) (asn addr : BitVec 32) (len maxLen : BitVec 8)
  | roa6 (p : TProg) (asn : BitVec 32) (addr : BitVec 128) (len maxLen : BitVec 8)
  | key (p : TProg) (k : RouterKey)
  | join (dst src : TProg)
  | delRoa (p : TProg) (v : Vrp)
  | delKey (p : TProg) (k : RouterKey)

/-- What the code builds. -/
def TProg.run : TProg → Table
  | .create => Table.create
  | .roa4 p asn addr len ml => handleRoaV4 p.run asn addr len ml
  | .roa6 p asn addr len ml => handleRoaV6 p.run asn addr len ml
  | .key p k => p.run.addKey k
  | .join d s => d.run.join s.run
  | .delRoa p v => p.run.removeRoa v
  | .delKey p k => p.run.removeKey k

/-- What the user expects: sets of VRPs. -/
def TProg.vrps : TProg → Finset Vrp
  | .create => ∅
  | .roa4 p asn addr len ml => insert ⟨asn, .v4, addr.setWidth 128, len, ml⟩ p.vrps
  | .roa6 p asn addr len ml => insert ⟨asn, .v6, addr, len, ml⟩ p.vrps
  | .key p _ => p.vrps
  | .join d s => d.vrps ∪ s.vrps
  | .delRoa p v => p.vrps.erase v
  | .delKey p _ => p.vrps

/-- What the user expects: sets of router keys. -/
def TProg.keys : TProg → Finset RouterKey
  | .create => ∅
  | .roa4 p .. => p.keys
  | .roa6 p .. => p.keys
  | .key p k => insert k p.keys
  | .join d s => d.keys ∪ s.keys
  | .delRoa p _ => p.keys
  | .delKey p k => p.keys.erase k

/-- Tables built through the API are duplicate-free and well-formed. -/
theorem TProg.wf (p : TProg) : p.run.WF := by
  induction p with
  | create => exact WF.create
  | roa4 p asn addr len ml ih => exact WF.addRoa ih (vrpWF_v4 _ _ _ _)
  | roa6 p asn addr len ml ih => exact WF.addRoa ih (vrpWF_v6 _ _ _ _)
  | key p k ih => exact WF.addKey ih k
  | join d s ihd ihs => exact WF.join ihd ihs
  | delRoa p v ih => exact WF.removeRoa ih v
  | delKey p k ih => exact WF.removeKey ih k

theorem mem_erase_iff {α} [DecidableEq α] {l : List α} (h : l.Nodup) {x y : α} :
    x ∈ l.erase y ↔ x ≠ y ∧ x ∈ l := List.Nodup.mem_erase_iff h

theorem TProg.run_vrps (p : TProg) : p.run.roas.toFinset = p.vrps := by
  induction p with
  | create => rfl
  | roa4 p asn addr len ml ih =>
    ext v; rw [TProg.vrps, ← ih]; simp [TProg.run, handleRoaV4, Table.addRoa, mem_hashReplace]
  | roa6 p asn addr len ml ih =>
    ext v; rw [TProg.vrps, ← ih]; simp [TProg.run, handleRoaV6, Table.addRoa, mem_hashReplace]
  | key p k ih => exact ih
  | join d s ihd ihs =>
    ext v; rw [TProg.vrps, ← ihd, ← ihs]; simp [TProg.run, join_eq, mem_foldl_hashReplace]
  | delRoa p v ih =>
    ext w; rw [TProg.vrps, ← ih]
    simp [TProg.run, Table.removeRoa, mem_erase_iff p.wf.roasNodup]
  | delKey p k ih => exact ih

theorem TProg.run_keys (p : TProg) : p.run.keys.toFinset = p.keys := by
  induction p with
  | create => rfl
  | roa4 p asn addr len ml ih => exact ih
  | roa6 p asn addr len ml ih => exact ih
  | key p k ih =>
    ext v; rw [TProg.keys, ← ih]; simp [TProg.run, Table.addKey, mem_hashReplace]
  | join d s ihd ihs =>
    ext v; rw [TProg.keys, ← ihd, ← ihs]; simp [TProg.run, join_eq, mem_foldl_hashReplace]
  | delRoa p v ih => exact ih
  | delKey p k ih =>
    ext w; rw [TProg.keys, ← ih]
    simp [TProg.run, Table.removeKey, mem_erase_iff p.wf.keysNodup]

/-- C02. Whatever sequence of additions, joins and removals built the table, iterating over it visits exactly
the expected VRPs and router keys, each once, and the counters are the numbers of distinct payloads. -/
theorem C02_table_is_set (p : TProg) :
    p.run.roas.toFinset = p.vrps ∧ p.run.keys.toFinset = p.keys ∧
    p.run.roas.Nodup ∧ p.run.keys.Nodup ∧
    p.run.roaCount = p.vrps.card ∧ p.run.keyCount = p.keys.card := by
  refine ⟨p.run_vrps, p.run_keys, p.wf.roasNodup, p.wf.keysNodup, ?_, ?_⟩
  · rw [← p.run_vrps, Table.roaCount, List.toFinset_card_of_nodup p.wf.roasNodup]
  · rw [← p.run_keys, Table.keyCount, List.toFinset_card_of_nodup p.wf.keysNodup]

/-- A duplicate addition, a join with an overlap and a removal: one VRP and no key is left. -/
example :
    (TProg.delRoa (.join (.roa4 (.roa4 .create 1 0x0A000000 8 8) 1 0x0A000000 8 8)
      (.roa6 (.roa4 .create 1 0x0A000000 8 8) 2 0x2001 16 16)) ⟨2, .v6, 0x2001, 16, 16⟩).run
    = ⟨[⟨1, .v4, 0x0A000000, 8, 8⟩], []⟩ := by decide

/-- C03. The delta between two tables built through the API is absent exactly when they hold the same payloads.
Otherwise a strict router that holds `old`'s records and processes the delta's events ends up with `new`'s
records, without ever seeing a duplicate announcement or an unknown withdrawal. -/
theorem C03_delta_transforms (p q : TProg) :
    match computeDeltas p.run q.run with
    | none => p.vrps = q.vrps ∧ p.keys = q.keys
    | some d => (p.vrps ≠ q.vrps ∨ p.keys ≠ q.keys) ∧
        Router.run p.vrps d.vrpEvents = some q.vrps ∧ Router.run p.keys d.rkEvents = some q.keys := by
  have hpv : p.run.vrpSet = p.vrps := p.run_vrps
  have hqv : q.run.vrpSet = q.vrps := q.run_vrps
  have hpk : p.run.keySet = p.keys := p.run_keys
  have hqk : q.run.keySet = q.keys := q.run_keys
  rw [computeDeltas_eq]
  have h := diff_isEmpty_iff p.run q.run
  rw [hpv, hqv, hpk, hqk] at h
  by_cases he : (diffDeltas p.run q.run).isEmpty = true
  · simp only [he, if_true]
    exact h.1 he
  · simp only [he, if_false]
    refine ⟨?_, ?_, ?_⟩
    · rw [h] at he; tauto
    · rw [← hpv, ← hqv]; exact run_vrp_diff p.wf q.wf
    · rw [← hpk, ← hqk]; exact run_key_diff p.wf q.wf

/-- C03. The announcements are exactly the payloads of `new` missing from `old`, the withdrawals exactly those
of `old` missing from `new`; no payload is mentioned twice. -/
theorem C03_delta_is_difference (p q : TProg) (d : Deltas) (h : computeDeltas p.run q.run = some d) :
    (∀ v, ⟨.announcement, v⟩ ∈ d.vrpEvents ↔ v ∈ q.vrps \ p.vrps) ∧
    (∀ v, ⟨.withdrawal, v⟩ ∈ d.vrpEvents ↔ v ∈ p.vrps \ q.vrps) ∧
    (∀ k, ⟨.announcement, k⟩ ∈ d.rkEvents ↔ k ∈ q.keys \ p.keys) ∧
    (∀ k, ⟨.withdrawal, k⟩ ∈ d.rkEvents ↔ k ∈ p.keys \ q.keys) ∧
    (d.vrpEvents.map Ev.item).Nodup ∧ (d.rkEvents.map Ev.item).Nodup := by
  rw [computeDeltas_eq] at h
  split at h
  · cases h
  · injection h with h
    subst h
    have no := p.wf.roasNodup
    have nn := q.wf.roasNodup
    have ko := p.wf.keysNodup
    have kn := q.wf.keysNodup
    rw [← p.run_vrps, ← q.run_vrps, ← p.run_keys, ← q.run_keys]
    refine ⟨?_, ?_, ?_, ?_, ?_, ?_⟩
    · rintro ⟨asn, fam, pre, len, ml⟩
      cases fam <;> simp [Deltas.vrpEvents, diffDeltas]
    · rintro ⟨asn, fam, pre, len, ml⟩
      cases fam <;> simp [Deltas.vrpEvents, diffDeltas]
    · intro k; simp [Deltas.rkEvents, diffDeltas]
    · intro k; simp [Deltas.rkEvents, diffDeltas]
    · simp only [Deltas.vrpEvents, diffDeltas, List.map_append, List.map_map]
      simp only [Function.comp_def, List.map_id']
      rw [List.nodup_append, List.nodup_append, List.nodup_append]
      refine ⟨⟨⟨nn.filter _, no.filter _, ?_⟩, nn.filter _, ?_⟩, no.filter _, ?_⟩
      all_goals
        intro a ha b hb
        rintro rfl
        simp at ha hb
        try simp_all
    · simp only [Deltas.rkEvents, diffDeltas, List.map_append, List.map_map]
      simp only [Function.comp_def, List.map_id']
      rw [List.nodup_append]
      refine ⟨kn.filter _, ko.filter _, ?_⟩
      intro a ha b hb
      rintro rfl
      simp at ha hb
      tauto

/-- Old {10/8 AS1, 11/8 AS1}, new {11/8 AS1, 2001::/16 AS2}: one announcement, one withdrawal. -/
example :
    computeDeltas (TProg.roa4 (.roa4 .create 1 0x0A000000 8 8) 1 0x0B000000 8 8).run
      (TProg.roa6 (.roa4 .create 1 0x0B000000 8 8) 2 0x2001 16 16).run
    = some ⟨[], [⟨1, .v4, 0x0A000000, 8, 8⟩], [⟨2, .v6, 0x2001, 16, 16⟩], [], [], []⟩ := by decide

/-! ### C20 -/

/-- AS numbers `lo, lo+1, ..., lo+n-1` as 32-bit numbers. -/
def asList (lo n : Nat) : List (BitVec 32) := (List.range n).map (fun i => BitVec.ofNat 32 (lo + i))

theorem handleRouterKeyLoop_spec (ski : List Byte) (spk : List Byte) (max : BitVec 32) :
    ∀ (n : Nat) (asn : BitVec 64) (t : Table), asn.toNat + n = max.toNat + 1 → ∀ extra : Nat,
      handleRouterKeyLoop ski spk max (n + 1 + extra) asn t =
        some ((asList asn.toNat n).foldl (fun t a => t.addKey ⟨ski, a, spk⟩) t) := by
  intro n
  have hm := max.isLt
  induction n with
  | zero =>
    intro asn t h extra
    rw [show 0 + 1 + extra = extra + 1 by omega, handleRouterKeyLoop]
    have : ¬ asn ≤ max.setWidth 64 := by
      rw [BitVec.le_def, BitVec.toNat_setWidth]; omega
    simp [this, asList]
  | succ n ih =>
    intro asn t h extra
    rw [show n + 1 + 1 + extra = (n + 1 + extra) + 1 by omega, handleRouterKeyLoop]
    have hle : asn ≤ max.setWidth 64 := by
      rw [BitVec.le_def, BitVec.toNat_setWidth]; omega
    have h1 : (asn + 1).toNat = asn.toNat + 1 := by
      rw [BitVec.toNat_add]; simp; omega
    rw [if_pos hle, ih (asn + 1) _ (by omega)]
    have hl : asList asn.toNat (n + 1) = asn.setWidth 32 :: asList (asn + 1).toNat n := by
      rw [asList, asList, List.range_succ_eq_map, List.map_cons, h1, List.map_map]
      congr 1
      apply List.map_congr_left
      intro i _
      simp only [Function.comp_apply]
      congr 1; omega
    rw [hl, List.foldl_cons]

/-- C20. For every AS range the loop terminates (any number of iterations beyond `max - min + 2` suffices) and
the table gains exactly one key per AS of `[min, max]` - including for `max = 2^32 - 1`. -/
theorem C20_router_key_range (t : Table) (ski : List Byte) (spk : List Byte) (min max : BitVec 32)
    (fuel : Nat) (hf : max.toNat - min.toNat + 2 ≤ fuel) :
    ∃ t', handleRouterKeyLoop ski spk max fuel (min.setWidth 64) t = some t' ∧
      t'.roas = t.roas ∧
      ∀ k, k ∈ t'.keys ↔ k ∈ t.keys ∨
        (k.ski = ski ∧ k.spk = spk ∧ min.toNat ≤ k.as.toNat ∧ k.as.toNat ≤ max.toNat) := by
  have hmin := min.isLt
  have hmax := max.isLt
  have h64 : (min.setWidth 64).toNat = min.toNat := by
    rw [BitVec.toNat_setWidth]; omega
  by_cases hle : min.toNat ≤ max.toNat
  · have hspec := handleRouterKeyLoop_spec ski spk max (max.toNat + 1 - min.toNat) (min.setWidth 64) t
      (by omega) (fuel - (max.toNat + 1 - min.toNat + 1))
    rw [show max.toNat + 1 - min.toNat + 1 + (fuel - (max.toNat + 1 - min.toNat + 1)) = fuel by omega] at hspec
    refine ⟨_, hspec, ?_, ?_⟩
    · rw [← List.foldl_map (f := fun a => (⟨ski, a, spk⟩ : RouterKey)) (g := Table.addKey), foldl_addKey]
    · intro k
      rw [← List.foldl_map (f := fun a => (⟨ski, a, spk⟩ : RouterKey)) (g := Table.addKey), foldl_addKey]
      simp only [mem_foldl_hashReplace, h64]
      refine or_congr_right ?_
      simp only [asList, List.mem_map, List.mem_range, exists_exists_and_eq_and]
      constructor
      · rintro ⟨i, hi, rfl⟩
        refine ⟨rfl, rfl, ?_⟩
        simp only [BitVec.toNat_ofNat]
        omega
      · rintro ⟨rfl, rfl, h1, h2⟩
        refine ⟨k.as.toNat - min.toNat, by omega, ?_⟩
        obtain ⟨ski', as', spk'⟩ := k
        simp only [RouterKey.mk.injEq, and_true, true_and]
        apply BitVec.eq_of_toNat_eq
        simp only [BitVec.toNat_ofNat]
        simp only at h1 h2
        have := as'.isLt
        omega
  · refine ⟨t, ?_, rfl, ?_⟩
    · obtain ⟨f, rfl⟩ : ∃ f, fuel = f + 1 := ⟨fuel - 1, by omega⟩
      rw [handleRouterKeyLoop, if_neg]
      rw [BitVec.le_def, h64, BitVec.toNat_setWidth]
      omega
    · intro k
      constructor
      · exact Or.inl
      · rintro (h | h)
        · exact h
        · omega

example : handleRouterKeyLoop [7] [9] 0xFFFFFFFF 3 (0xFFFFFFFE#32 |>.setWidth 64) Table.create
    = some ⟨[], [⟨[7], 0xFFFFFFFE, [9]⟩, ⟨[7], 0xFFFFFFFF, [9]⟩]⟩ := by decide

end Verif.Rtr
