import Verif.Sys.HoldLemmas
import Verif.Tree.Props
/-
C164-C166: which VRPs a trust anchor yields.
-/
namespace Verif.Sys
open Verif.Tree Verif.Res
variable {ρ U X C S : Type}

theorem noHeap_good : GoodHeap ⟨[], [], []⟩ := ⟨fun _ => by simp, fun _ => by simp, fun _ => by simp⟩

/-- **C164.** The run ends, and it yields the same VRPs, in the same order, leaves the same state and the same result as if each
certificate carried its own copy of its resources: resources that are shared between certificates (inherited) are never altered, freed
or mixed up. -/
theorem C164_by_value (p : Pki ρ U X C S) (s : ρ) (root : U) (hroot : p.isCert root = true) :
    ∃ N, ∀ fuel, N ≤ fuel → ∃ st, validateTa p fuel s root =
        .done (st, talRes p.byValue (walk p.byValue p.maxDepth [] none root ((s, []), [])).1.1 (walk p.byValue p.maxDepth [] none root ((s, []), [])).2) ∧
      st.s.vrps = (walk p.byValue p.maxDepth [] none root ((s, []), [])).1.1.2 ∧
      st.s.rest = (walk p.byValue p.maxDepth [] none root ((s, []), [])).1.1.1 := by
  obtain ⟨N, k, h⟩ := C51_walk p.env ⟨s, ⟨[], [], []⟩, []⟩ root hroot
  obtain ⟨⟨⟨e1, e2, _⟩, _⟩, e3⟩ := walk_sim p p.maxDepth ⟨s, ⟨[], [], []⟩, []⟩ [] [] .nil none root
    (⟨s, ⟨[], [], []⟩, []⟩, []) ((s, []), []) ⟨⟨rfl, rfl, noHeap_good⟩, .refl _⟩
  refine ⟨N, fun fuel hf => ?_⟩
  have e := h fuel hf
  have e4 : talRes p.env (walk p.env p.env.maxDepth [] none root (⟨s, ⟨[], [], []⟩, []⟩, [])).1.1
      (walk p.env p.env.maxDepth [] none root (⟨s, ⟨[], [], []⟩, []⟩, [])).2 =
      talRes p.byValue (walk p.byValue p.maxDepth [] none root ((s, []), [])).1.1 (walk p.byValue p.maxDepth [] none root ((s, []), [])).2 := by
    unfold talRes
    rw [show p.env.maxDepth = p.maxDepth from rfl, e3]
    rw [show ∀ m, p.env.keyState m = p.keyState m.rest from fun _ => rfl, e1]
    rfl
  rw [e4] at e
  exact ⟨_, e, e2, e1⟩

/-- A run that ended yields the VRPs of the walk by value. -/
theorem done_vrps {p : Pki ρ U X C S} {fuel : Nat} {s : ρ} {root : U} {st : St (Mem ρ) U X C Resources} {r : TalRes}
    (h : validateTa p fuel s root = .done (st, r)) :
    (p.isCert root = false ∧ st.s.vrps = []) ∨
    (p.isCert root = true ∧ st.s.vrps = (walk p.byValue p.maxDepth [] none root ((s, []), [])).1.1.2) := by
  cases hroot : p.isCert root with
  | false =>
    refine .inl ⟨rfl, ?_⟩
    unfold validateTa at h
    rw [C51_not_cert p.env fuel _ root hroot] at h
    cases h
    rfl
  | true =>
    refine .inr ⟨rfl, ?_⟩
    obtain ⟨N, hN⟩ := C164_by_value p s root hroot
    obtain ⟨st', e, e2, _⟩ := hN (fuel + N) (by omega)
    unfold validateTa at h e
    rw [handleTalUri_mono N (by rw [h]; exact fun h => by cases h), h] at e
    cases e
    exact e2

/-- What is asserted below a chain is well formed, and held by all of the certificates. -/
theorem asserted_held {p : Pki ρ U X C S} {root : U} {chain : List (Anc U X Vals)} {pp : Point U C} (h1 : Certified p root chain pp) {v : Vrp} {exts : List Ext} {ee : Vals}
    (h3 : Asserted p chain pp v exts ee) :
    v.WellFormed ∧ Vrp.In ee v ∧ (∀ a ∈ chain, Vrp.In a.r v) ∧ Vrp.HeldBy (exts :: chain.map fun a => p.exts a.x) v := by
  obtain ⟨roa, hroa⟩ : ∃ roa, v ∈ roaVrps ee roa := by
    obtain ⟨_, _, _, _, _, roa, _, _, _, _, _, _, _, _, _, h⟩ := h3
    exact ⟨roa, h⟩
  obtain ⟨hin, hlt, b, _, _, a, _, hst⟩ := roaVrps_mem hroa
  refine ⟨(stated_wf hlt hst).1, hin, ?_, ?_⟩
  · intro c hc
    cases v with
    | v4 asn q m => exact fun n hn hn2 => (asserted_holds kind4 h1 h3 (hin n hn hn2)).1 c hc
    | v6 asn q m => exact fun n hn hn2 => (asserted_holds kind6 h1 h3 (hin n hn hn2)).1 c hc
  · cases v with
    | v4 asn q m => exact fun n hn hn2 => (asserted_holds kind4 h1 h3 (hin n hn hn2)).2
    | v6 asn q m => exact fun n hn hn2 => (asserted_holds kind6 h1 h3 (hin n hn hn2)).2

/-- **C165.** Every VRP that a trust anchor yields is stated by a ROA below an unbroken chain of acceptable certificates, not longer than
the maximum depth, each one listed in the manifest of the next, up to the certificate of the trust anchor. It is well formed. All of its
addresses are among the resources of the certificate of the ROA and of every certificate of the chain, and each of these certificates
either states them, or inherits them, the trust anchor's stating them. -/
theorem C165_authorised (p : Pki ρ U X C S) {fuel : Nat} {s : ρ} {root : U} {st : St (Mem ρ) U X C Resources} {r : TalRes}
    (h : validateTa p fuel s root = .done (st, r)) {v : Vrp} (hv : v ∈ st.s.vrps) :
    ∃ chain pp exts ee, Certified p root chain pp ∧ chain.length ≤ p.maxDepth ∧ Asserted p chain pp v exts ee ∧
      v.WellFormed ∧ Vrp.In ee v ∧ (∀ a ∈ chain, Vrp.In a.r v) ∧ Vrp.HeldBy (exts :: chain.map fun a => p.exts a.x) v := by
  rcases done_vrps h with ⟨_, e⟩ | ⟨_, e⟩
  · rw [e] at hv; cases hv
  · rw [e] at hv
    rcases walk_sound (root := root) p.maxDepth [] none root ((s, []), []) v (fun a pp hok => .root hok) hv with h | h
    · cases h
    · obtain ⟨chain, pp, exts, ee, h1, h2, h3⟩ := h
      rw [List.length_nil, Nat.zero_add] at h2
      exact ⟨chain, pp, exts, ee, h1, h2, h3, asserted_held h1 h3⟩

/-- **C166.** If what is not modelled (the files, the clock...) does not change during the run (see `Steady`: only the order in which the files of a manifest are listed may), then a trust anchor yields
exactly the VRPs that are authorised: no object that is fine is lost because of others that are not, or because of the order. -/
theorem C166_exactly (p : Pki ρ U X C S) (hs : Steady p) {fuel : Nat} {s : ρ} {root : U} {st : St (Mem ρ) U X C Resources} {r : TalRes}
    (hroot : p.isCert root = true) (h : validateTa p fuel s root = .done (st, r)) (v : Vrp) :
    v ∈ st.s.vrps ↔ Auth p root p.maxDepth v := by
  constructor
  · intro hv
    obtain ⟨chain, pp, exts, ee, h1, h2, h3, _⟩ := C165_authorised p h hv
    exact ⟨chain, pp, exts, ee, h1, h2, h3⟩
  · rintro ⟨chain, pp, exts, ee, h1, h2, h3⟩
    rcases done_vrps h with ⟨e, _⟩ | ⟨_, e⟩
    · rw [hroot] at e; cases e
    · rw [e]
      cases chain with
      | nil => cases h1
      | cons a ch =>
        rw [List.length_cons] at h2
        have := walk_complete hs h1 (p.maxDepth - 1 - ch.length) v a ch rfl (by
          intro pp' hp w
          exact foldl_mono (fun w u h => walk_mono p _ _ _ _ _ h) _ _ (walkFiles_complete hs (h3.alike hp) w)) ((s, []), [])
        rwa [show p.maxDepth - 1 - ch.length + 1 + ch.length = p.maxDepth by omega] at this

/-- **C166.** Two runs over the same files yield the same VRPs, whatever the state they begin in. -/
theorem C166_same (p : Pki ρ U X C S) (hs : Steady p) {fuel fuel' : Nat} {s s' : ρ} {root : U} {st st' : St (Mem ρ) U X C Resources} {r r' : TalRes}
    (h : validateTa p fuel s root = .done (st, r)) (h' : validateTa p fuel' s' root = .done (st', r')) (v : Vrp) :
    v ∈ st.s.vrps ↔ v ∈ st'.s.vrps := by
  cases hroot : p.isCert root with
  | true => rw [C166_exactly p hs hroot h, C166_exactly p hs hroot h']
  | false =>
    rcases done_vrps h with ⟨_, e⟩ | ⟨e, _⟩
    · rcases done_vrps h' with ⟨_, e'⟩ | ⟨e', _⟩
      · rw [e, e']
      · rw [hroot] at e'; cases e'
    · rw [hroot] at e; cases e

/-! ### An example -/

/-- The trust anchor's certificate 0 has 10.0.0.0/8, and lists 1 (10.1.0.0/16), 2 (12.0.0.0/8, which is not the issuer's) and 3, which
inherits. 1 has the ROAs 7 (10.1.0.0/16) and 8 (10.2.0.0/16, which is not 1's). 3 has the ROA 8, and lists itself. -/
def exPki : Pki Nat Nat Nat Nat Nat where
  maxDepth := 3
  isCert := fun _ => true
  crlLoad := fun s u => (s + 1, some u)
  load := fun s u => (s + 1, some u)
  chainOk := fun s _ _ _ => (s, true)
  certType := fun _ ta => some (if ta then .ta else .ca)
  profileOk := fun s _ _ => (s, true)
  keyState := fun _ => .valid
  extensions := fun s x _ _ => (s, some x)
  download := fun s _ => (s, some 100)
  policy := fun _ => .rfc6484
  exts := fun x => [.ip true (some [⟨[0, 1], if x = 0 then .aors [.pfx ⟨[10], 0⟩] else if x = 1 then .aors [.pfx ⟨[10, 1], 0⟩] else
    if x = 2 then .aors [.pfx ⟨[12], 0⟩] else .inherit⟩])]
  mftDecode := fun s x _ => (s, some (if x = 0 then ⟨if s % 2 = 1 then [1, 2, 3] else [3, 2, 1], 50, [], []⟩ else if x = 1 then ⟨[], 51, [7, 8], []⟩ else ⟨[3], 53, [8], []⟩))
  mftFile := fun s _ _ _ _ _ => (s, ⟨true, .rfc6484, exEe⟩)
  roaDecode := fun s _ => (s, true)
  roaFile := fun s u _ _ _ => (s + 1, exRoa [if u = 7 then exAddr else ⟨⟨[10, 2], 0⟩, none⟩] [2] true)
  gbrDecode := fun s _ => (s, true)
  gbrFile := fun s _ _ _ _ => (s, ⟨true, .rfc6484, exEe⟩)

/-- It is steady, although the state changes, and the order. -/
theorem exPki_steady : Steady exPki where
  crlLoad _ _ _ := rfl
  load _ _ _ := rfl
  chainOk _ _ _ _ _ := rfl
  profileOk _ _ _ _ := rfl
  extensions _ _ _ _ _ := rfl
  download _ _ _ := rfl
  mftDecode s s' x _ l h := by
    simp only [exPki, Option.some.injEq] at h
    refine ⟨_, rfl, ?_⟩
    subst h
    have p : List.Perm (if s % 2 = 1 then [1, 2, 3] else [3, 2, 1]) (if s' % 2 = 1 then [1, 2, 3] else [3, 2, 1] : List Nat) := by
      by_cases h : s % 2 = 1 <;> by_cases h' : s' % 2 = 1 <;> simp only [h, h', if_true, if_false] <;> decide
    by_cases h0 : x = 0
    · simp only [h0, if_true]
      exact ⟨p, rfl, .refl _, .refl _⟩
    · simp only [h0, if_false]
      exact ⟨.refl _, rfl, .refl _, .refl _⟩
  mftFile _ _ _ _ _ _ _ _ _ _ := rfl
  roaDecode _ _ _ := rfl
  roaFile _ _ _ _ _ _ _ := rfl

/-- What a run yields, if it ended. -/
def vrpsOf (x : Run (St (Mem Nat) Nat Nat Nat Resources × TalRes)) : Option (List Vrp × TalRes) :=
  match x with
  | .done (st, r) => some (st.s.vrps, r)
  | _ => none

/-- The ROA 7 counts once, the ROA 8 twice under 3 (which is its own child), not under 1. -/
theorem exPki_run : vrpsOf (validateTa exPki 20 0 0) =
    some ([.v4 2 ⟨0x0A010000, 16⟩ 24, .v4 2 ⟨0x0A020000, 16⟩ 16, .v4 2 ⟨0x0A020000, 16⟩ 16], .ok) := by decide +kernel

example : ∃ st r, validateTa exPki 20 0 0 = .done (st, r) ∧ (Vrp.v4 2 ⟨0x0A010000, 16⟩ 24) ∈ st.s.vrps := by
  have h := exPki_run
  unfold vrpsOf at h
  split at h
  · rename_i st r e
    simp only [Option.some.injEq, Prod.mk.injEq] at h
    exact ⟨st, r, e, by rw [h.1]; simp⟩
  · cases h

end Verif.Sys
