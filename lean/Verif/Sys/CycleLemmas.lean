import Verif.Sys.CycleSpec
import Verif.Cache.DownloadProps
import Verif.Rtr.EndToEndProps
/-
Cycles: lemmas.
-/
namespace Verif.Sys
open Verif.Tree Verif.Res
open Verif.Rtr (Table)
open Verif.Cache (Url Cfg Works)
variable {ρ U X C S : Type}

theorem taRun_spec (p : Pki ρ U X C S) (s : ρ) (root : U) : ∃ fuel, validateTa p fuel s root = .done (taRun p s root) := by
  obtain ⟨N, h⟩ := (validateTa_ends p s root).choose_spec
  exact ⟨N, h N (Nat.le_refl _)⟩

theorem walk_false {p : Pki ρ U X C S} {n : Nat} {ch : List (Anc U X Vals)} {parent : Option (Point U C)} {u : U}
    {w : W (ρ × List Vrp) U X C Vals} (h : (walk p.byValue n ch parent u w).2 = false) : (walk p.byValue n ch parent u w).1.1.2 = w.1.2 := by
  cases n with
  | zero => rfl
  | succ n =>
    unfold walk at h ⊢
    have hv := judge_vrps p ch parent u w.1
    cases hj : judge p.byValue ch parent u w.1 with
    | mk m v =>
      rw [hj] at h hv
      cases v with
      | rejected => exact hv
      | ignored => cases h
      | accepted a pp => cases h

/-- A trust anchor that does not validate yields nothing. -/
theorem done_fail {p : Pki ρ U X C S} {fuel : Nat} {s : ρ} {root : U} {st : St (Mem ρ) U X C Resources} {r : TalRes}
    (h : validateTa p fuel s root = .done (st, r)) (hr : r ≠ .ok) : st.s.vrps = [] := by
  rcases done_vrps h with ⟨_, e⟩ | ⟨hroot, e⟩
  · exact e
  · rw [e]
    obtain ⟨N, hN⟩ := C164_by_value p s root hroot
    obtain ⟨st', e', -, -⟩ := hN (fuel + N) (by omega)
    unfold validateTa at h e'
    rw [handleTalUri_mono N (by rw [h]; exact fun h => by cases h), h] at e'
    cases e'
    cases hw : (walk p.byValue p.maxDepth [] none root ((s, []), [])).2 with
    | false => exact walk_false hw
    | true => rw [hw] at hr; exact absurd rfl hr

theorem addVrp_eq (t : Table) (w : Vrp) : addVrp t w = t.addRoa (row w) := by cases w <;> rfl

theorem row_wf (w : Vrp) : (row w).WF := by
  cases w with
  | v4 asn p m => exact Rtr.vrpWF_v4 asn p.addr _ m
  | v6 asn p m => exact Rtr.vrpWF_v6 asn _ _ m

theorem addVrps_spec (ws : List Vrp) : ∀ t : Table, t.WF → (ws.foldl addVrp t).WF ∧ (ws.foldl addVrp t).keys = t.keys ∧
    ∀ v, v ∈ (ws.foldl addVrp t).roas ↔ (∃ w ∈ ws, row w = v) ∨ v ∈ t.roas := by
  induction ws with
  | nil => intro t ht; exact ⟨ht, rfl, fun v => by simp⟩
  | cons w ws ih =>
    intro t ht
    rw [List.foldl_cons, addVrp_eq]
    obtain ⟨h1, h2, h3⟩ := ih (t.addRoa (row w)) (Rtr.WF.addRoa ht (row_wf w))
    refine ⟨h1, h2, fun v => ?_⟩
    rw [h3]
    show (_ ∨ v ∈ Rtr.hashReplace t.roas (row w)) ↔ _
    rw [Rtr.mem_hashReplace]
    simp only [List.mem_cons, exists_eq_or_imp]
    constructor
    · rintro (h | rfl | h)
      · exact .inl (.inr h)
      · exact .inl (.inl rfl)
      · exact .inr h
    · rintro ((rfl | h) | h)
      · exact .inr (.inl rfl)
      · exact .inl h
      · exact .inr (.inr h)

/-- The world of a TAL, for `cache_download_alt`. -/
noncomputable def taWorld (ta : Ta ρ U X C S) : Cache.World (ρ × Table) :=
  ⟨fun s u => ((ta.dl s.1 u).1, ((ta.dl s.1 u).2, s.2)), tryUri ta⟩

theorem tryUri_out (ta : Ta ρ U X C S) (s : ρ) (t : Table) (u : Url) : ∃ st r fuel, validateTa ta.pki fuel s (ta.place u) = .done (st, r) ∧
    tryUri ta (s, t) u = (code r, (st.s.rest, st.s.vrps.foldl addVrp t)) := by
  obtain ⟨fuel, h⟩ := taRun_spec ta.pki s (ta.place u)
  exact ⟨(taRun ta.pki s (ta.place u)).1, (taRun ta.pki s (ta.place u)).2, fuel, h, rfl⟩

theorem code_zero {r : TalRes} : code r = 0 ↔ r = .ok := by cases r <;> decide

/-- The URI that was used in the end is the only one that contributes. -/
theorem works_zero {ta : Ta ρ U X C S} {us : List Url} {s s' : ρ × Table} {r : Int} {ev : List Cache.Event}
    (h : Works (taWorld ta) (fun s => ta.recovered s.1) us s r s' ev) (hs : s.2 = Table.create) (hr : r = 0) :
    ∃ u s₁ st fuel, (u ∈ us ∨ ∃ s, ta.recovered s = some u) ∧ validateTa ta.pki fuel s₁ (ta.place u) = .done (st, .ok) ∧
      s'.2 = st.s.vrps.foldl addVrp Table.create := by
  have use : ∀ {s s' : ρ × Table} {u : Url} {r : Int}, s.2 = Table.create → (taWorld ta).cb s u = (r, s') →
      (r = 0 → ∃ s₁ st fuel, validateTa ta.pki fuel s₁ (ta.place u) = .done (st, .ok) ∧ s'.2 = st.s.vrps.foldl addVrp Table.create) ∧
      (r ≠ 0 → s'.2 = Table.create) := by
    intro s s' u r hs h
    obtain ⟨st, r', fuel, h1, h2⟩ := tryUri_out ta s.1 s.2 u
    have h : tryUri ta s u = (r, s') := h
    rw [show s = (s.1, s.2) from rfl, h2, hs] at h
    cases h
    refine ⟨fun h => ?_, fun h => ?_⟩
    · rw [code_zero] at h; subst h; exact ⟨s.1, st, fuel, h1, rfl⟩
    · rw [ne_eq, code_zero] at h
      show st.s.vrps.foldl addVrp Table.create = Table.create
      rw [done_fail h1 h]; rfl
  have dl : ∀ {s s₁ : ρ × Table} {u : Url} {e : Int}, s.2 = Table.create → (taWorld ta).dl s u = (e, s₁) → s₁.2 = Table.create := by
    intro s s₁ u e hs h; cases h; exact hs
  induction h with
  | @done u us s s₁ s₂ r h₁ h₂ hr' =>
    obtain ⟨s₁, st, fuel, k1, k2⟩ := (use (dl hs h₁) h₂).1 hr
    exact ⟨u, s₁, st, fuel, .inl List.mem_cons_self, k1, k2⟩
  | @rejected u us s s₁ s₂ r r' s' ev h₁ h₂ hr' h ih =>
    obtain ⟨u', s₁, st, fuel, k0, k1, k2⟩ := ih ((use (dl hs h₁) h₂).2 (by omega)) hr
    exact ⟨u', s₁, st, fuel, k0.imp (List.mem_cons_of_mem _) id, k1, k2⟩
  | @failed u us s s₁ e r' s' ev h₁ he h ih =>
    obtain ⟨u', s₁, st, fuel, k0, k1, k2⟩ := ih (dl hs h₁) hr
    exact ⟨u', s₁, st, fuel, k0.imp (List.mem_cons_of_mem _) id, k1, k2⟩
  | @old u s s' r h₁ h₂ =>
    obtain ⟨s₁, st, fuel, k1, k2⟩ := (use hs h₂).1 hr
    exact ⟨u, s₁, st, fuel, .inr ⟨s.1, h₁⟩, k1, k2⟩
  | nothing h₁ => cases hr

theorem order_mem {cfg : Cfg} {us : List Url} {u : Url} (h : u ∈ Cache.order cfg us) : u ∈ us := by
  unfold Cache.order at h
  split at h
  · rcases List.mem_append.1 h with h | h <;> exact (List.mem_filter.1 h).1
  · split at h
    · rcases List.mem_append.1 h with h | h <;> exact (List.mem_filter.1 h).1
    · exact h

theorem doFile_out {cfg : Cfg} {ta : Ta ρ U X C S} {t : Table} (h : doFileValidation cfg ta = some t) :
    ∃ us u s st fuel, ta.uris = some us ∧ (u ∈ us ∨ ∃ s, ta.recovered s = some u) ∧ validateTa ta.pki fuel s (ta.place u) = .done (st, .ok) ∧
      t = st.s.vrps.foldl addVrp Table.create := by
  unfold doFileValidation at h
  cases hu : ta.uris with
  | none => rw [hu] at h; cases h
  | some us =>
    rw [hu] at h
    have hw := Cache.C43_works cfg (taWorld ta) (fun s => ta.recovered s.1) us (ta.start, Table.create)
    have h : (if (Cache.cacheDownloadAlt cfg (taWorld ta) (fun s => ta.recovered s.1) us (ta.start, Table.create)).1 = 0 then
      some (Cache.cacheDownloadAlt cfg (taWorld ta) (fun s => ta.recovered s.1) us (ta.start, Table.create)).2.1.2 else none) = some t := h
    split at h
    · rename_i hr
      cases h
      obtain ⟨u, s₁, st, fuel, k0, k1, k2⟩ := works_zero hw rfl hr
      exact ⟨us, u, s₁, st, fuel, rfl, k0.imp order_mem id, k1, k2⟩
    · cases h

end Verif.Sys
