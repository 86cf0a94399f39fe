import Verif.Gbr.Lemmas
/-
C129, C130: Ghostbusters records.
-/
namespace Verif.Gbr
open Verif.Res (Byte)

theorem starts_iff (line : List Byte) (tag : String) : Starts line tag ↔ (bytes tag).map lower <+: line.map lower := by
  unfold Starts
  simp only [caseEq_iff]
  constructor
  · rintro ⟨p, rest, rfl, h⟩
    rw [List.map_append, h]; exact List.prefix_append ..
  · rintro ⟨r, h⟩
    refine ⟨line.take (bytes tag).length, line.drop (bytes tag).length, (List.take_append_drop ..).symm, ?_⟩
    rw [List.map_take, ← h, List.take_left' (by simp)]

theorem starts_excl {line : List Byte} {a b : String} (ha : Starts line a) (hb : Starts line b)
    (hab : ¬ ((bytes a).map lower <+: (bytes b).map lower) ∧ ¬ ((bytes b).map lower <+: (bytes a).map lower)) : False := by
  rw [starts_iff] at ha hb
  rcases List.prefix_or_prefix_of_prefix ha hb with h | h
  · exact hab.1 h
  · exact hab.2 h

theorem lines_cons_inv {t x : List Byte} {xs : List (List Byte)} (h : Lines t (x :: xs)) : ∃ rest, Unfold t x rest ∧ Lines rest xs := by
  cases h with
  | cons h1 h2 => exact ⟨_, h1, h2⟩

theorem lines_nil_inv {t : List Byte} (h : Lines t []) : t = [] := by cases h; rfl

theorem bind_ok {α β : Type} (a : α) (f : α → Out β) : (Out.ok a).bind f = f a := rfl
theorem bind_err {α β : Type} (f : α → Out β) : (Out.err : Out α).bind f = .err := rfl
theorem bind_ub {α β : Type} (f : α → Out β) : (Out.ub : Out α).bind f = .ub := rfl
theorem bind_stuck {α β : Type} (f : α → Out β) : (Out.stuck : Out α).bind f = .stuck := rfl

theorem n_fn : NoNul "FN:" := by unfold NoNul; decide
theorem n_end : NoNul "END:" := by unfold NoNul; decide
theorem n_end' : NoNul "END:VCARD" := by unfold NoNul; decide
theorem n_begin : NoNul "BEGIN:VCARD" := by unfold NoNul; decide
theorem n_version : NoNul "VERSION:4.0" := by unfold NoNul; decide

theorem linesLoop_spec (text : List Byte) : ∀ (fuel : Nat) (line : Line) (fn useful : Bool), 0 < line.buf.length → line.offset ≤ text.length → text.length - line.offset < fuel →
    linesLoop text fuel line fn useful = .err ∨
    ∃ line' fn' useful' mid e, linesLoop text fuel line fn useful = .ok (line', fn', useful') ∧ Good line' e ∧ line'.offset ≤ text.length ∧
      (∀ ls, Lines (text.drop line'.offset) ls → Lines (text.drop line.offset) (mid ++ e :: ls)) ∧ (∀ l ∈ mid, Starts l "FN:" ∨ Useful l) ∧
      (fn' = true ↔ fn = true ∨ ∃ l ∈ mid, Starts l "FN:") ∧ (useful' = true → useful = true ∨ ∃ l ∈ mid, Useful l)
  | 0, _, _, _, _, _, h => by omega
  | fuel + 1, line, fn, useful, hb, ho, hfuel => by
    have hn := lineNext_spec line text hb ho
    unfold linesLoop
    cases hr : unfoldF (text.drop line.offset) with
    | none => rw [hr] at hn; simp only at hn; rw [hn]; exact Or.inl rfl
    | some q =>
      obtain ⟨l, rest⟩ := q
      have hu := (unfoldF_iff ..).1 hr
      rw [hr] at hn
      obtain ⟨l1, g1, g2, g3, g4, g5⟩ := hn
      rw [g1]
      simp only
      obtain ⟨b1, e1, f1⟩ := starts_spec g2 "FN:" n_fn
      rw [e1]
      cases b1 with
      | true =>
        simp only
        rcases linesLoop_spec text fuel l1 true useful g2.ready g4 (by omega) with h | ⟨line', fn', useful', mid, e, k1, k2, k3, k4, k5, k6, k7⟩
        · exact Or.inl h
        · right
          refine ⟨line', fn', useful', l :: mid, e, k1, k2, k3, ?_, ?_, ?_, ?_⟩
          · intro ls hls
            refine .cons hu ?_
            rw [← g5]; exact k4 ls hls
          · rw [List.forall_mem_cons]; exact ⟨Or.inl (f1.1 rfl), k5⟩
          · rw [k6]; simp [f1.1 rfl]
          · intro hx
            rcases k7 hx with h | ⟨x, hx1, hx2⟩
            · exact Or.inl h
            · exact Or.inr ⟨x, List.mem_cons_of_mem _ hx1, hx2⟩
      | false =>
        have nf : ¬ Starts l "FN:" := fun h => by have := f1.2 h; cases this
        simp only
        obtain ⟨b2, e2, f2⟩ := useful_spec g2
        rw [e2]
        cases b2 with
        | true =>
          simp only
          rcases linesLoop_spec text fuel l1 fn true g2.ready g4 (by omega) with h | ⟨line', fn', useful', mid, e, k1, k2, k3, k4, k5, k6, k7⟩
          · exact Or.inl h
          · right
            refine ⟨line', fn', useful', l :: mid, e, k1, k2, k3, ?_, ?_, ?_, ?_⟩
            · intro ls hls
              refine .cons hu ?_
              rw [← g5]; exact k4 ls hls
            · rw [List.forall_mem_cons]; exact ⟨Or.inr (f2.1 rfl), k5⟩
            · rw [k6]; simp [nf]
            · intro _; exact Or.inr ⟨l, List.mem_cons_self, f2.1 rfl⟩
        | false =>
          simp only
          obtain ⟨b3, e3, f3⟩ := starts_spec g2 "END:" n_end
          rw [e3]
          cases b3 with
          | true =>
            right
            refine ⟨l1, fn, useful, [], l, rfl, g2, g4, ?_, by simp, by simp, fun h => Or.inl h⟩
            intro ls hls
            exact .cons hu (by rw [← g5]; exact hls)
          | false =>
            left
            simp only
            obtain ⟨-, tail, ht⟩ := g2
            rw [ht, cstring_good]; rfl

theorem linesLoop_complete (text : List Byte) (e : List Byte) (he : CaseEq e (bytes "END:VCARD")) : ∀ (mid : List (List Byte)) (fuel : Nat) (line : Line) (fn useful : Bool),
    0 < line.buf.length → line.offset ≤ text.length → text.length - line.offset < fuel → Lines (text.drop line.offset) (mid ++ [e]) → (∀ l ∈ mid, Starts l "FN:" ∨ Useful l) →
    ∃ line' fn' useful', linesLoop text fuel line fn useful = .ok (line', fn', useful') ∧ Good line' e ∧ line'.offset = text.length ∧
      (fn = true ∨ (∃ l ∈ mid, Starts l "FN:") → fn' = true) ∧ (useful = true ∨ (∃ l ∈ mid, Useful l) → useful' = true)
  | _, 0, _, _, _, _, _, h, _, _ => by omega
  | mid, fuel + 1, line, fn, useful, hb, ho, hfuel, hl, hmid => by
    have hsE : Starts e "END:" := by
      rw [starts_iff]
      rw [caseEq_iff] at he
      rw [he]; decide
    have hn := lineNext_spec line text hb ho
    unfold linesLoop
    cases mid with
    | nil =>
      · obtain ⟨rest, hu, hrest⟩ := lines_cons_inv hl
        have hnil := lines_nil_inv hrest
        subst hnil
        rw [(unfoldF_iff ..).2 hu] at hn
        obtain ⟨l1, g1, g2, g3, g4, g5⟩ := hn
        rw [g1]
        simp only
        obtain ⟨b1, e1, f1⟩ := starts_spec g2 "FN:" n_fn
        obtain ⟨b2, e2, f2⟩ := useful_spec g2
        obtain ⟨b3, e3, f3⟩ := starts_spec g2 "END:" n_end
        have h1 : b1 = false := by
          rw [Bool.eq_false_iff]; intro h; exact starts_excl (f1.1 h) hsE (by decide)
        have h2 : b2 = false := by
          rw [Bool.eq_false_iff]; intro h
          rcases f2.1 h with h | h | h | h | h <;> exact starts_excl h hsE (by decide)
        have h3 : b3 = true := f3.2 hsE
        rw [e1, h1]; simp only
        rw [e2, h2]; simp only
        rw [e3, h3]; simp only
        refine ⟨l1, fn, useful, rfl, g2, ?_, ?_, ?_⟩
        · have := congrArg List.length g5
          rw [List.length_drop, List.length_nil] at this
          omega
        · rintro (h | ⟨_, h, _⟩)
          · exact h
          · cases h
        · rintro (h | ⟨_, h, _⟩)
          · exact h
          · cases h
    | cons l mid =>
      rw [List.cons_append] at hl
      · obtain ⟨rest, hu, hrest⟩ := lines_cons_inv hl
        rw [(unfoldF_iff ..).2 hu] at hn
        obtain ⟨l1, g1, g2, g3, g4, g5⟩ := hn
        rw [g1]
        simp only
        rw [← g5] at hrest
        rw [List.forall_mem_cons] at hmid
        obtain ⟨b1, e1, f1⟩ := starts_spec g2 "FN:" n_fn
        obtain ⟨b2, e2, f2⟩ := useful_spec g2
        rw [e1]
        cases b1 with
        | true =>
          simp only
          have nu : ¬ Useful l := by
            intro h
            have h' := f1.1 rfl
            rcases h with h | h | h | h | h <;> exact starts_excl h h' (by decide)
          obtain ⟨line', fn', useful', k1, k2, k3, k4, k5⟩ := linesLoop_complete text e he mid fuel l1 true useful g2.ready g4 (by omega) hrest hmid.2
          refine ⟨line', fn', useful', k1, k2, k3, fun _ => k4 (Or.inl rfl), ?_⟩
          rintro (h | ⟨x, hx, hx'⟩)
          · exact k5 (Or.inl h)
          · rw [List.mem_cons] at hx
            rcases hx with rfl | hx
            · exact absurd hx' nu
            · exact k5 (Or.inr ⟨x, hx, hx'⟩)
        | false =>
          have nf : ¬ Starts l "FN:" := fun h => by have := f1.2 h; cases this
          have hus : b2 = true := f2.2 (hmid.1.resolve_left nf)
          simp only
          rw [e2, hus]
          simp only
          obtain ⟨line', fn', useful', k1, k2, k3, k4, k5⟩ := linesLoop_complete text e he mid fuel l1 fn true g2.ready g4 (by omega) hrest hmid.2
          refine ⟨line', fn', useful', k1, k2, k3, ?_, fun _ => k5 (Or.inl rfl)⟩
          rintro (h | ⟨x, hx, hx'⟩)
          · exact k4 (Or.inl h)
          · rw [List.mem_cons] at hx
            rcases hx with rfl | hx
            · exact absurd hx' nf
            · exact k4 (Or.inr ⟨x, hx, hx'⟩)

theorem step (line : Line) (text : List Byte) (hb : 0 < line.buf.length) (ho : line.offset ≤ text.length) (tag : String) (ht : NoNul tag) :
    (∃ l1 l, lineNext line text = .ok l1 ∧ Unfold (text.drop line.offset) l (text.drop l1.offset) ∧ CaseEq l (bytes tag) ∧ lineValidate l1 (bytes tag) = .ok () ∧ Good l1 l ∧ l1.offset ≤ text.length) ∨
    (((lineNext line text).bind fun line => (lineValidate line (bytes tag)).bind fun _ => (.ok line : Out Line)) = .err ∧
      ∀ l rest, Unfold (text.drop line.offset) l rest → ¬ CaseEq l (bytes tag)) := by
  have hn := lineNext_spec line text hb ho
  cases hr : unfoldF (text.drop line.offset) with
  | none =>
    rw [hr] at hn
    simp only at hn
    right
    rw [hn]
    refine ⟨rfl, ?_⟩
    intro l rest hu
    rw [(unfoldF_iff ..).2 hu] at hr
    cases hr
  | some q =>
    obtain ⟨l, rest⟩ := q
    have hu := (unfoldF_iff ..).1 hr
    rw [hr] at hn
    obtain ⟨l1, g1, g2, g3, g4, g5⟩ := hn
    obtain ⟨v1, v2⟩ := validate_spec g2 tag ht
    rcases v2 with hv | hv
    · left
      exact ⟨l1, l, g1, by rw [g5]; exact hu, v1.1 hv, hv, g2, g4⟩
    · right
      rw [g1]
      refine ⟨by simp only [Out.bind, hv], ?_⟩
      intro l' rest' hu' hc
      have := (unfoldF_iff ..).2 hu'
      rw [hr] at this
      injection this with this
      injection this with this
      subst this
      rw [v1.2 hc] at hv
      cases hv

/-- **C129.** For any bytes, the record is accepted if and only if its lines, unfolded, are BEGIN, VERSION, then FN, ORG, ADR, TEL and EMAIL (in any order; with FN, and with some of the others) and END, and
there's nothing else; otherwise it's an error. Memory is never read or written out of bounds, or read before it's written; and it always ends. -/
theorem C129 (text : List Byte) : (handleVcard text = .ok () ↔ Accepted text) ∧ (handleVcard text = .ok () ∨ handleVcard text = .err) := by
  unfold handleVcard handleLines
  rcases step ⟨List.replicate 81 none, 0, 0⟩ text (by simp) (Nat.zero_le _) "BEGIN:VCARD" n_begin with ⟨l1, b, g1, g2, g3, g4, g5, g6⟩ | ⟨h, hno⟩
  · simp only [g1, bind_ok, g4]
    simp only [List.drop_zero] at g2
    rcases step l1 text g5.ready g6 "VERSION:4.0" n_version with ⟨l2, v, k1, k2, k3, k4, k5, k6⟩ | ⟨h, hno⟩
    · simp only [k1, bind_ok, k4]
      rcases hs : linesLoop text (text.length + 1) l2 false false with ⟨line', fn', useful'⟩ | _ | _ | _
      · have hspec := linesLoop_spec text (text.length + 1) l2 false false k5.ready k6 (by omega)
        rw [hs] at hspec
        rcases hspec with h | ⟨line'', fn'', useful'', mid, e, q1, q2, q3, q4, q5, q6, q7⟩
        · cases h
        · injection q1 with q1
          injection q1 with q1 q1'
          injection q1' with q1' q1''
          subst q1 q1' q1''
          obtain ⟨v1, v2⟩ := validate_spec q2 "END:VCARD" n_end'
          have hcomp : Accepted text → lineValidate line' (bytes "END:VCARD") = .ok () ∧ line'.offset = text.length ∧ fn' = true ∧ useful' = true := by
            rintro ⟨b', v', mid', e', a1, a2, a3, a4, a5, a6, a7⟩
            cases a1 with
            | cons u1 a1 =>
              cases a1 with
              | cons u2 a1 =>
                have w1 := (unfoldF_iff ..).2 u1
                rw [(unfoldF_iff ..).2 g2] at w1
                injection w1 with w1
                injection w1 with w1 w2
                subst w2
                have w3 := (unfoldF_iff ..).2 u2
                rw [(unfoldF_iff ..).2 k2] at w3
                injection w3 with w3
                injection w3 with w3 w4
                subst w4
                obtain ⟨l', f', u', c1, c2, c3, c4, c5⟩ := linesLoop_complete text e' a4 mid' (text.length + 1) l2 false false k5.ready k6 (by omega) a1 a5
                rw [hs] at c1
                injection c1 with c1
                injection c1 with c1 c1'
                injection c1' with c1' c1''
                subst c1 c1' c1''
                exact ⟨(validate_spec c2 "END:VCARD" n_end').1.2 a4, c3, c4 (Or.inr a6), c5 (Or.inr a7)⟩
          simp only [bind_ok]
          rcases v2 with hv | hv
          · rw [hv, bind_ok]
            by_cases ho : text.length = line'.offset
            · rw [if_neg (by simp [ho])]
              cases fn' with
              | false =>
                refine ⟨⟨(fun h => by cases h), fun h => ?_⟩, Or.inr rfl⟩
                have := (hcomp h).2.2.1
                cases this
              | true =>
                cases useful' with
                | false =>
                  refine ⟨⟨(fun h => by cases h), fun h => ?_⟩, Or.inr rfl⟩
                  have := (hcomp h).2.2.2
                  cases this
                | true =>
                  refine ⟨⟨fun _ => ?_, fun _ => rfl⟩, Or.inl rfl⟩
                  refine ⟨b, v, mid, e, ?_, g3, k3, v1.1 hv, q5, (q6.1 rfl).resolve_left (by simp), (q7 rfl).resolve_left (by simp)⟩
                  refine .cons g2 (.cons k2 ?_)
                  apply q4
                  rw [← ho, List.drop_length]
                  exact .nil
            · rw [if_pos ho]
              refine ⟨⟨(fun h => by cases h), fun h => ?_⟩, Or.inr rfl⟩
              exact absurd (hcomp h).2.1.symm ho
          · rw [hv, bind_err]
            refine ⟨⟨(fun h => by cases h), fun h => ?_⟩, Or.inr rfl⟩
            rw [(hcomp h).1] at hv
            cases hv
      · rw [bind_err]
        refine ⟨⟨(fun h => by cases h), ?_⟩, Or.inr rfl⟩
        rintro ⟨b', v', mid', e', a1, a2, a3, a4, a5, a6, a7⟩
        cases a1 with
        | cons u1 a1 =>
          cases a1 with
          | cons u2 a1 =>
            have w1 := (unfoldF_iff ..).2 u1
            rw [(unfoldF_iff ..).2 g2] at w1
            injection w1 with w1
            injection w1 with w1 w2
            subst w2
            have w3 := (unfoldF_iff ..).2 u2
            rw [(unfoldF_iff ..).2 k2] at w3
            injection w3 with w3
            injection w3 with w3 w4
            subst w4
            obtain ⟨l', f', u', c1, -⟩ := linesLoop_complete text e' a4 mid' (text.length + 1) l2 false false k5.ready k6 (by omega) a1 a5
            rw [hs] at c1
            cases c1
      · have hspec := linesLoop_spec text (text.length + 1) l2 false false k5.ready k6 (by omega)
        rw [hs] at hspec
        rcases hspec with h | ⟨_, _, _, _, _, h, _⟩ <;> cases h
      · have hspec := linesLoop_spec text (text.length + 1) l2 false false k5.ready k6 (by omega)
        rw [hs] at hspec
        rcases hspec with h | ⟨_, _, _, _, _, h, _⟩ <;> cases h
    · have herr : ∀ f : Line → Out Unit, ((lineNext l1 text).bind fun line => (lineValidate line (bytes "VERSION:4.0")).bind fun _ => f line) = .err := by
        intro f
        cases h1 : lineNext l1 text with
        | ok a =>
          rw [h1] at h
          cases h2 : lineValidate a (bytes "VERSION:4.0") with
          | ok _ => simp only [Out.bind, h2] at h; cases h
          | err => simp only [Out.bind, h2]
          | ub => simp only [Out.bind, h2] at h; cases h
          | stuck => simp only [Out.bind, h2] at h; cases h
        | err => rfl
        | ub => rw [h1] at h; cases h
        | stuck => rw [h1] at h; cases h
      rw [herr]
      refine ⟨⟨(fun h => by cases h), ?_⟩, Or.inr rfl⟩
      rintro ⟨b', v', mid', e', a1, a2, a3, a4, a5, a6, a7⟩
      cases a1 with
      | cons u1 a1 =>
        cases a1 with
        | cons u2 a1 =>
          have w1 := (unfoldF_iff ..).2 u1
          rw [(unfoldF_iff ..).2 g2] at w1
          injection w1 with w1
          injection w1 with w1 w2
          subst w2
          exact absurd a3 (hno _ _ u2)
  · have herr : ∀ f : Line → Out Unit, ((lineNext ⟨List.replicate 81 none, 0, 0⟩ text).bind fun line => (lineValidate line (bytes "BEGIN:VCARD")).bind fun _ => f line) = .err := by
      intro f
      cases h1 : lineNext ⟨List.replicate 81 none, 0, 0⟩ text with
      | ok a =>
        rw [h1] at h
        cases h2 : lineValidate a (bytes "BEGIN:VCARD") with
        | ok _ => simp only [Out.bind, h2] at h; cases h
        | err => simp only [Out.bind, h2]
        | ub => simp only [Out.bind, h2] at h; cases h
        | stuck => simp only [Out.bind, h2] at h; cases h
      | err => rfl
      | ub => rw [h1] at h; cases h
      | stuck => rw [h1] at h; cases h
    rw [herr]
    refine ⟨⟨(fun h => by cases h), ?_⟩, Or.inr rfl⟩
    rintro ⟨b', v', mid', e', a1, a2, a3, a4, a5, a6, a7⟩
    cases a1 with
    | cons u1 a1 => exact absurd a2 (hno _ _ u1)

/-- A record that's accepted; its second line is folded, and has lower case. -/
def exText : List Byte := bytes "BEGIN:VCARD\r\nver\r\n sion:4.0\r\nFN:A\r\nEMAIL:B\r\nEND:VCARD\r\n"
example : handleVcard exText = .ok () := by decide +kernel
example : Accepted exText := (C129 exText).1.1 (by decide +kernel)
example : handleVcard (bytes "BEGIN:VCARD\r\nVERSION:4.0\r\nFN:A\r\nEMAIL:B\r\nEND:VCARD\r\nx") = .err := by decide +kernel
example : handleVcard (bytes "BEGIN:VCARD\r\nVERSION:4.0\r\nFN:A\r\nEND:VCARD\r\n") = .err := by decide +kernel
example : handleVcard [] = .err := by decide +kernel

/-! ## C130 -/

theorem useful_property {l : List Byte} (h : Useful l) : ∃ n ∈ ["ORG", "ADR", "TEL", "EMAIL"], Property l n := by
  rcases h with h | h | h | h | h
  · exact ⟨"ORG", by simp, Or.inl h⟩
  · exact ⟨"ADR", by simp, Or.inr h⟩
  · exact ⟨"TEL", by simp, Or.inr h⟩
  · exact ⟨"EMAIL", by simp, Or.inl h⟩
  · exact ⟨"EMAIL", by simp, Or.inr h⟩

/-- **C130 (part).** Every record that's accepted has the profile of RFC 6493. -/
theorem C130_sound_partial (text : List Byte) (h : handleVcard text = .ok ()) : Rfc6493 text := by
  obtain ⟨b, v, mid, e, h1, h2, h3, h4, h5, ⟨x, h6, h6'⟩, y, h7, h7'⟩ := (C129 text).1.1 h
  refine ⟨b, v, mid, e, h1, h2, h3, h4, ?_, ⟨x, h6, Or.inl h6'⟩, y, h7, useful_property h7'⟩
  intro l hl
  rcases h5 l hl with h | h
  · exact ⟨"FN", by simp, Or.inl h⟩
  · obtain ⟨n, hn, hp⟩ := useful_property h
    exact ⟨n, List.mem_cons_of_mem _ hn, hp⟩

/-- **C130 (part).** A record with the profile is accepted, if its FN and ORG have no parameters, and its ADR and TEL have them. -/
theorem C130_complete_partial (text : List Byte) (h : Rfc6493 text)
    (hp : ∀ lines, Lines text lines → ∀ l ∈ lines, ¬ Starts l "FN;" ∧ ¬ Starts l "ORG;" ∧ ¬ Starts l "ADR:" ∧ ¬ Starts l "TEL:") : handleVcard text = .ok () := by
  apply (C129 text).1.2
  obtain ⟨b, v, mid, e, h1, h2, h3, h4, h5, ⟨x, h6, h6'⟩, y, h7, n, h8, h8'⟩ := h
  have hm : ∀ l ∈ mid, ¬ Starts l "FN;" ∧ ¬ Starts l "ORG;" ∧ ¬ Starts l "ADR:" ∧ ¬ Starts l "TEL:" := by
    intro l hl
    exact hp _ h1 l (by simp [hl])
  have conv : ∀ l ∈ mid, ∀ n ∈ ["ORG", "ADR", "TEL", "EMAIL"], Property l n → Useful l := by
    intro l hl n hn hpr
    obtain ⟨q1, q2, q3, q4⟩ := hm l hl
    simp only [List.mem_cons, List.not_mem_nil, or_false] at hn
    rcases hn with rfl | rfl | rfl | rfl <;> rcases hpr with hpr | hpr
    · exact Or.inl hpr
    · exact absurd hpr q2
    · exact absurd hpr q3
    · exact Or.inr (Or.inl hpr)
    · exact absurd hpr q4
    · exact Or.inr (Or.inr (Or.inl hpr))
    · exact Or.inr (Or.inr (Or.inr (Or.inl hpr)))
    · exact Or.inr (Or.inr (Or.inr (Or.inr hpr)))
  have convFn : ∀ l ∈ mid, Property l "FN" → Starts l "FN:" := by
    intro l hl hpr
    rcases hpr with hpr | hpr
    · exact hpr
    · exact absurd hpr (hm l hl).1
  refine ⟨b, v, mid, e, h1, h2, h3, h4, ?_, ⟨x, h6, convFn x h6 h6'⟩, y, h7, conv y h7 n h8 h8'⟩
  intro l hl
  obtain ⟨m, hm1, hm2⟩ := h5 l hl
  rw [List.mem_cons] at hm1
  rcases hm1 with rfl | hm1
  · exact Or.inl (convFn l hl hm2)
  · exact Or.inr (conv l hl m hm1 hm2)

/-- A record with the profile: the phone number doesn't have parameters. -/
def exTel : List Byte := bytes "BEGIN:VCARD\r\nVERSION:4.0\r\nFN:A\r\nTEL:1\r\nEND:VCARD\r\n"

theorem exTel_lines : Lines exTel [bytes "BEGIN:VCARD", bytes "VERSION:4.0", bytes "FN:A", bytes "TEL:1", bytes "END:VCARD"] := by
  refine .cons (rest := bytes "VERSION:4.0\r\nFN:A\r\nTEL:1\r\nEND:VCARD\r\n") ((unfoldF_iff ..).1 (by decide +kernel)) ?_
  refine .cons (rest := bytes "FN:A\r\nTEL:1\r\nEND:VCARD\r\n") ((unfoldF_iff ..).1 (by decide +kernel)) ?_
  refine .cons (rest := bytes "TEL:1\r\nEND:VCARD\r\n") ((unfoldF_iff ..).1 (by decide +kernel)) ?_
  refine .cons (rest := bytes "END:VCARD\r\n") ((unfoldF_iff ..).1 (by decide +kernel)) ?_
  exact .cons (rest := []) ((unfoldF_iff ..).1 (by decide +kernel)) .nil

/-- **C130 is false of the code.** A record with the profile of RFC 6493 is rejected, because of a phone number without parameters. -/
theorem C130_refuted : Rfc6493 exTel ∧ handleVcard exTel = .err := by
  refine ⟨⟨_, _, [bytes "FN:A", bytes "TEL:1"], _, exTel_lines, rfl, rfl, rfl, ?_, ?_, ?_⟩, by decide +kernel⟩
  · intro l hl
    simp only [List.mem_cons, List.not_mem_nil, or_false] at hl
    rcases hl with rfl | rfl
    · exact ⟨"FN", by simp, Or.inl ((starts_iff ..).2 (by decide))⟩
    · exact ⟨"TEL", by simp, Or.inl ((starts_iff ..).2 (by decide))⟩
  · exact ⟨bytes "FN:A", by simp, Or.inl ((starts_iff ..).2 (by decide))⟩
  · exact ⟨bytes "TEL:1", by simp, "TEL", by simp, Or.inl ((starts_iff ..).2 (by decide))⟩

end Verif.Gbr
