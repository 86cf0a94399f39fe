import Verif.Asn.TagLemmas
/-
Strings: what is accepted is an element; the loop ends.
-/
namespace Verif.Asn
open Verif.Res (Byte be)
open Verif.Cms (berFetchLength Len isConstructed)

/-- Only inside of the outermost element. -/
def inside (stk : List Frame) (b : List Byte) : List Byte := if stk = [] then [] else b

/-- What has been read: all bytes; those inside of the outermost element; the contents of the primitive elements. -/
inductive Inv (ok : Nat → Tag → Prop) : List Frame → List Byte → List Byte → List (List Byte) → Prop where
  | nil : Inv ok [] [] [] []
  | openDef {stk p body ls tag t l x ls' left} : Inv ok stk p body ls → IsTag tag true t → IsLen (x.length + left) true l → ok stk.length tag →
      Els ok .seq (stk.length + 1) x ls' →
      Inv ok (⟨some left, t.length + l.length + x.length, false⟩ :: stk) (p ++ (t ++ l ++ x)) (body ++ (inside stk (t ++ l) ++ x)) (ls ++ ls')
  | openInd {stk p body ls tag t x ls' left} : Inv ok stk p body ls → IsTag tag true t → ok stk.length tag →
      Els ok .items (stk.length + 1) x ls' →
      Inv ok (⟨left, t.length + 1 + x.length, true⟩ :: stk) (p ++ (t ++ [0x80] ++ x)) (body ++ (inside stk (t ++ [0x80]) ++ x)) (ls ++ ls')
  | closed {stk p body ls e c ls'} : Inv ok stk p body ls → Els ok .one stk.length e ls' → (∀ f, stk.head? = some f → f.nulls = true → e.take 2 ≠ [0, 0]) →
      (stk = [] → ∃ tag constr, Tlv tag constr c e ∧ ok 0 tag ∧ (constr = true → Els ok .seq 1 c ls')) → (stk ≠ [] → c = e) →
      Inv ok (⟨some 0, e.length, false⟩ :: stk) (p ++ e) (body ++ c) (ls ++ ls')

theorem els_one_len {ok : Nat → Tag → Prop} {d : Nat} {e : List Byte} {ls : List (List Byte)} (h : Els ok .one d e ls) : 2 ≤ e.length := by
  cases h with
  | nil h => exact absurd rfl h
  | cons _ h => exact absurd rfl h
  | prim h1 h2 _ => have := isTag_ne h1; have := isLen_ne h2; simp only [List.length_append]; omega
  | defn h1 h2 _ _ => have := isTag_ne h1; have := isLen_ne h2; simp only [List.length_append]; omega
  | indef h1 _ _ => have := isTag_ne h1; simp only [List.length_append, List.length_cons]; omega

theorem els_snoc {ok : Nat → Tag → Prop} {k : Kind} {d : Nat} {x e : List Byte} {l m : List (List Byte)} (h : Els ok k d x l) (hk : k ≠ .one)
    (hz : k = .items → e.take 2 ≠ [0, 0]) (he : Els ok .one d e m) : Els ok k d (x ++ e) (l ++ m) := by
  induction h with
  | prim => exact absurd rfl hk
  | defn => exact absurd rfl hk
  | indef => exact absurd rfl hk
  | nil => simpa using Els.cons he hk hz (.nil hk)
  | cons h1 h2 h3 _ _ ih2 =>
    rw [List.append_assoc, List.append_assoc]
    exact .cons h1 h2 h3 (ih2 hk hz he)

theorem els_seq {ok : Nat → Tag → Prop} {d : Nat} {x : List Byte} {l : List (List Byte)} (h : Els ok .items d x l) : Els ok .seq d x l := by
  generalize hk : Kind.items = k at h
  induction h with
  | prim => cases hk
  | defn => cases hk
  | indef => cases hk
  | nil => exact .nil (by simp)
  | cons h1 _ _ _ _ ih2 => exact .cons h1 (by simp) (by simp) (ih2 hk)

/-- Constructed elements do not begin with a zero. -/
theorem isTag_nz {tag : Tag} {t : List Byte} (h : IsTag tag true t) (r : List Byte) : (t ++ r).take 2 ≠ [0, 0] := by
  obtain ⟨b, bs, rfl, -, h2, -⟩ := h
  intro he
  simp only [List.cons_append, List.take_succ_cons, List.cons.injEq] at he
  have := h2.2 rfl
  rw [he.1] at this
  simp at this

theorem isTag_ne_zero {tag : Nat} {c : Bool} {t : List Byte} (h : IsTag tag c t) (h0 : tag ≠ 0) (r : List Byte) : (t ++ r).take 2 ≠ [0, 0] := by
  obtain ⟨b, bs, rfl, h1, h2, h3⟩ := h
  intro he
  simp only [List.cons_append, List.take_succ_cons, List.cons.injEq] at he
  rw [he.1] at h1 h3
  simp at h1 h3
  omega

/-- The element on top is complete. -/
theorem inv_top {ok : Nat → Tag → Prop} {got : Nat} {stk : List Frame} {p body : List Byte} {ls : List (List Byte)}
    (h : Inv ok (⟨some 0, got, false⟩ :: stk) p body ls) :
    ∃ p' body' ls' e c ls'', p = p' ++ e ∧ body = body' ++ c ∧ ls = ls' ++ ls'' ∧ got = e.length ∧ Inv ok stk p' body' ls' ∧ Els ok .one stk.length e ls'' ∧
      (∀ f, stk.head? = some f → f.nulls = true → e.take 2 ≠ [0, 0]) ∧
      (stk = [] → ∃ tag constr, Tlv tag constr c e ∧ ok 0 tag ∧ (constr = true → Els ok .seq 1 c ls'')) ∧ (stk ≠ [] → c = e) := by
  cases h with
  | openDef h1 h2 h3 h4 h5 =>
    refine ⟨_, _, _, _, _, _, rfl, rfl, rfl, by simp only [List.length_append], h1, .defn h2 h3 h4 h5, fun _ _ _ => by rw [List.append_assoc]; exact isTag_nz h2 _, ?_, ?_⟩
    · rintro rfl
      exact ⟨_, _, by simpa [inside] using Tlv.defn h2 h3, h4, fun _ => h5⟩
    · intro hne
      simp only [inside, if_neg hne]
  | closed h1 h2 h5 h3 h4 => exact ⟨_, _, _, _, _, _, rfl, rfl, rfl, rfl, h1, h2, h5, h3, h4⟩

/-- A complete element becomes part of the one below. -/
theorem inv_pop {ok : Nat → Tag → Prop} {f : Frame} {stk : List Frame} {p body : List Byte} {ls : List (List Byte)}
    {e : List Byte} {ls' : List (List Byte)} (h : Inv ok (f :: stk) p body ls) (he : Els ok .one (stk.length + 1) e ls')
    (hz : f.nulls = true → e.take 2 ≠ [0, 0]) (hroom : ∀ l, f.left = some l → e.length ≤ l) :
    Inv ok (⟨f.left.map (· - e.length), f.got + e.length, f.nulls⟩ :: stk) (p ++ e) (body ++ e) (ls ++ ls') := by
  have h2 := els_one_len he
  cases h with
  | openDef h1 g2 g3 g4 g5 =>
    have := hroom _ rfl
    simp only [Option.map_some, List.append_assoc, Nat.add_assoc]
    rename_i p0 b0 l0 tag t l x ls0 left
    have hl : x.length + left = (x ++ e).length + (left - e.length) := by rw [List.length_append]; omega
    rw [hl] at g3
    have := Inv.openDef h1 g2 g3 g4 (els_snoc g5 (by simp) (by simp) he)
    simpa only [List.append_assoc, List.length_append, Nat.add_assoc] using this
  | openInd h1 g2 g4 g5 =>
    rename_i p0 b0 l0 tag t x ls0 left
    have := Inv.openInd (left := left.map (· - e.length)) h1 g2 g4 (els_snoc g5 (by simp) (fun _ => hz rfl) he)
    simpa only [List.append_assoc, List.length_append, Nat.add_assoc] using this
  | closed h1 g2 _ g3 g4 =>
    have := hroom _ rfl
    omega

/-- The end of contents. -/
theorem inv_eoc {ok : Nat → Tag → Prop} {f : Frame} {stk : List Frame} {p body : List Byte} {ls : List (List Byte)}
    (h : Inv ok (f :: stk) p body ls) (hn : f.nulls = true) :
    Inv ok (⟨some 0, f.got + 2, false⟩ :: stk) (p ++ [0, 0]) (body ++ inside stk [0, 0]) ls := by
  cases h with
  | openDef => cases hn
  | closed => cases hn
  | openInd h1 g2 g4 g5 =>
    rename_i p0 b0 l0 tag t x ls0 left
    have := Inv.closed (c := inside stk (t ++ [0x80]) ++ x ++ inside stk [0, 0]) h1 (.indef g2 g4 g5) (fun _ _ _ => by rw [List.append_assoc, List.append_assoc]; exact isTag_nz g2 _) ?_ ?_
    · have hlen : (t ++ [0x80] ++ x ++ ([0, 0] : List Byte)).length = t.length + 1 + x.length + 2 := by
        simp only [List.length_append, List.length_cons, List.length_nil]
      rw [hlen] at this
      simpa only [List.append_assoc] using this
    · rintro rfl
      refine ⟨tag, true, ?_, g4, fun _ => ?_⟩
      · simpa [inside] using Tlv.indef (c := x) g2 rfl
      · simpa [inside] using els_seq g5
    · intro hne
      simp only [inside, if_neg hne]

/-- The number of unused bits: the last one that was there. -/
def lastHead (ls : List (List Byte)) : Nat := ((((ls.filter (· ≠ [])).getLast?.bind List.head?)).map BitVec.toNat).getD 0

/-- What the string is, so far. -/
def StOk (k : StrKind) (m : Mode) (p body : List Byte) (ls : List (List Byte)) (st : Str) : Prop :=
  match k with
  | .octets => st.buf = ls.flatten
  | .bits => st.buf = ls.flatMap List.tail ∧ st.unused = lastHead ls
  | .any => st.buf = if m = .explicit then body else p

theorem lastHead_snoc_nil (ls : List (List Byte)) : lastHead (ls ++ [[]]) = lastHead ls := by
  unfold lastHead
  simp

theorem lastHead_snoc_cons (ls : List (List Byte)) (b : Byte) (c : List Byte) : lastHead (ls ++ [b :: c]) = b.toNat := by
  unfold lastHead
  simp

theorem stOk_outer {k : StrKind} {m : Mode} {p body : List Byte} {ls : List (List Byte)} {st : Str} {stk : List Frame} (b : List Byte)
    (h : StOk k m p body ls st) : StOk k m (p ++ b) (body ++ inside stk b) ls (st.outer k m stk.length b) := by
  unfold Str.outer
  cases k with
  | octets => rw [if_neg (by simp)]; exact h
  | bits => rw [if_neg (by simp)]; exact h
  | any =>
    simp only [true_and]
    unfold StOk at h ⊢
    simp only at h ⊢
    unfold inside
    by_cases hm : m = .explicit
    · subst hm
      by_cases hs : stk = []
      · subst hs
        simpa using h
      · have : stk.length ≠ 0 := fun h0 => hs (List.length_eq_zero_iff.1 h0)
        simp only [ne_eq, not_true_eq_false, this, not_false_eq_true, or_true, if_true, if_neg hs] at h ⊢
        rw [h]
    · simp only [ne_eq, hm, not_false_eq_true, true_or, if_true, if_false] at h ⊢
      rw [h]

theorem stOk_leaf {k : StrKind} {m : Mode} {p body : List Byte} {ls : List (List Byte)} {st : Str} (c : List Byte)
    (h : StOk k m p body ls st) : StOk k m (p ++ c) (body ++ c) (ls ++ [c]) (st.leaf k c) := by
  unfold StOk at h ⊢
  cases k with
  | octets => simp only [Str.leaf] at h ⊢; rw [h]; simp
  | bits =>
    cases c with
    | nil => simp only [Str.leaf] at h ⊢; rw [h.1, h.2, lastHead_snoc_nil]; simp
    | cons b c => simp only [Str.leaf] at h ⊢; rw [h.1, lastHead_snoc_cons]; simp
  | any =>
    simp only [Str.leaf] at h ⊢
    rw [h]
    split <;> rfl

/-- What the loop says when it ends. -/
def Done (k : StrKind) (m : Mode) (ok : Nat → Tag → Prop) (s : List Byte) (v : Val) (n : Nat) : Prop :=
  n ≤ s.length ∧ ∃ c ls st, Els ok .one 0 (s.take n) ls ∧ (∃ tag constr, Tlv tag constr c (s.take n) ∧ ok 0 tag ∧ (constr = true → Els ok .seq 1 c ls)) ∧
    StOk k m (s.take n) c ls st ∧ finalize k st.buf st.unused n = .ok v n

theorem finalize_n {k : StrKind} {b : List Byte} {u n n' : Nat} {v : Val} (h : finalize k b u n = .ok v n') : n' = n := by
  unfold finalize at h
  split at h
  · split at h
    · split at h <;> cases h; rfl
    · split at h <;> cases h; rfl
  · cases h; rfl

theorem room_take {l : Option Nat} {s : List Byte} : ∃ j, room l s = s.take j ∧ ∀ r, l = some r → j = r := by
  cases l with
  | none => exact ⟨s.length, by simp [room], by simp⟩
  | some r => exact ⟨r, rfl, by simp⟩

theorem fetchLen_indef_take {c : Bool} {s : List Byte} {k : Nat} (h : berFetchLength c (s.take k) = .indef) :
    berFetchLength c s = .indef ∧ 1 ≤ k := by
  obtain ⟨h1, h2, h3⟩ := fetchLen_indef h
  subst h1
  have hk : 1 ≤ k := by rw [List.length_take] at h2; omega
  cases s with
  | nil => rw [List.take_nil] at h2; simp at h2
  | cons b s =>
    rw [List.take_take, Nat.min_eq_left hk] at h3
    simp only [List.take_succ_cons, List.take_zero, List.cons.injEq, and_true] at h3
    subst h3
    exact ⟨fetchLen_indef_complete s, hk⟩

theorem strPush_sound {k : StrKind} {m : Mode} {ok : Nat → Tag → Prop} {next : List Frame → List Byte → Str → Nat → R Val}
    {stk : List Frame} {rm : Option Nat} {s0 s : List Byte} {tag tl : Nat} {st : Str} {consumed : Nat} {v : Val} {n : Nat}
    {p body : List Byte} {ls : List (List Byte)}
    (hnext : ∀ stk s st consumed p body ls, Inv ok stk p body ls → StOk k m p body ls st → s0 = p ++ s → consumed = p.length →
      next stk s st consumed = .ok v n → Done k m ok s0 v n)
    (hinv : Inv ok stk p body ls) (hst : StOk k m p body ls st) (hs : s0 = p ++ s) (hc : consumed = p.length)
    (hf : fetchTag (room rm s) = .ok tag tl) (hok : ok stk.length tag) (hz : ∀ f, stk.head? = some f → f.nulls = true → s.take 2 ≠ [0, 0])
    (h : strPush k m next stk rm (room rm s) s tl st consumed = .ok v n) : Done k m ok s0 v n := by
  obtain ⟨j, hj, hjr⟩ := room_take (l := rm) (s := s)
  rw [hj] at hf h
  obtain ⟨f1, f2, f3⟩ := fetchTag_take hf
  obtain ⟨g1, g2, g3⟩ := fetchTag_sound f1
  have htl : (s.take tl).length = tl := by rw [List.length_take]; omega
  unfold strPush at h
  simp only at h
  rw [List.drop_take] at h
  cases hl : berFetchLength (isConstructed s) ((s.drop tl).take (j - tl)) with
  | more => rw [hl] at h; cases h
  | bad => rw [hl] at h; cases h
  | indef =>
    rw [hl] at h
    simp only at h
    obtain ⟨l1, l2⟩ := fetchLen_indef_take hl
    obtain ⟨k1, k2, k3⟩ := fetchLen_indef l1
    rw [List.length_drop] at k2
    by_cases hr : (rm.any fun r => decide (r < tl + 1)) = true
    · rw [if_pos hr] at h; cases h
    · rw [if_neg hr] at h
      have e : s.take (tl + 1) = s.take tl ++ [0x80] := by rw [hdr_take, k3]
      have hi := Inv.openInd (left := rm.map (· - (tl + 1))) hinv (by rw [← k1]; exact g3) hok (Els.nil (d := stk.length + 1) (by simp))
      have hlen : (s.take tl).length + 1 + ([] : List Byte).length = tl + 1 := by rw [htl]; rfl
      rw [hlen, List.append_nil, List.append_nil, List.append_nil, ← e] at hi
      refine hnext _ _ _ _ _ _ _ hi (stOk_outer _ hst) ?_ ?_ h
      · rw [hs, List.append_assoc, List.take_append_drop]
      · rw [hc, List.length_append, List.length_take]; omega
  | defn ll len =>
    rw [hl] at h
    simp only at h
    obtain ⟨l1, l2⟩ := fetchLen_take hl
    obtain ⟨k1, k2, k3, k4⟩ := fetchLen_sound l1
    rw [List.length_drop] at k2
    have hll : ((s.drop tl).take ll).length = ll := by rw [List.length_take, List.length_drop]; omega
    by_cases hr : (rm.any fun r => decide (r < tl + ll + len)) = true
    · rw [if_pos hr] at h; cases h
    · rw [if_neg hr] at h
      have e : s.take (tl + ll) = s.take tl ++ (s.drop tl).take ll := hdr_take
      by_cases hcon : isConstructed s = true
      · rw [if_pos hcon] at h
        rw [hcon] at g3 k4
        have hi := Inv.openDef (left := len) (x := []) hinv g3 (by simpa using k4) hok (Els.nil (by simp))
        have hlen : (s.take tl).length + ((s.drop tl).take ll).length + ([] : List Byte).length = tl + ll := by rw [htl, hll]; rfl
        rw [hlen, List.append_nil, List.append_nil, List.append_nil, ← e] at hi
        refine hnext _ _ _ _ _ _ _ hi (stOk_outer _ hst) ?_ ?_ h
        · rw [hs, List.append_assoc, List.take_append_drop]
        · rw [hc, List.length_append, List.length_take]; omega
      · rw [if_neg hcon] at h
        have hcon : isConstructed s = false := by simpa using hcon
        by_cases hlong : (s.drop (tl + ll)).length < len
        · rw [if_pos hlong] at h; cases h
        · rw [if_neg hlong] at h
          rw [hcon] at g3 k4
          have hlen : ((s.drop (tl + ll)).take len).length = len := by rw [List.length_take]; omega
          have hi := Inv.closed (c := inside stk (s.take (tl + ll)) ++ (s.drop (tl + ll)).take len) hinv
            (.prim g3 (by rw [hlen]; exact k4) hok) (fun f h1 h2 => by
              rw [← e, ← List.take_add, List.take_take, Nat.min_eq_left (by omega)]; exact hz f h1 h2) ?_ ?_
          · rw [← e] at hi
            have hlen' : (s.take (tl + ll) ++ (s.drop (tl + ll)).take len).length = tl + ll + len := by
              rw [List.length_append, hlen, List.length_take]; omega
            rw [hlen', ← List.append_assoc, ← List.append_assoc] at hi
            refine hnext _ _ _ _ _ _ _ hi (stOk_leaf _ (stOk_outer _ hst)) ?_ ?_ h
            · rw [hs, List.append_assoc, List.append_assoc, ← List.drop_drop (i := len) (j := tl + ll), List.take_append_drop, List.take_append_drop]
            · rw [hc, List.length_append, List.length_append, hlen, List.length_take]; omega
          · rintro rfl
            refine ⟨tag, false, ?_, hok, fun h => by cases h⟩
            simpa [inside] using Tlv.defn (c := (s.drop (tl + ll)).take len) g3 (by rw [hlen]; exact k4)
          · intro hne
            simp only [inside, if_neg hne, e]

theorem strLoop_sound (k : StrKind) (all : List Tag) (m : Mode) (outer : Option Tag) (s0 : List Byte) (v : Val) (n : Nat)
    (h0 : ∀ t, FirstTag s0 t → ∀ o, outer = some o → t = o) : ∀ (f : Nat) (stk : List Frame) (s : List Byte) (st : Str) (consumed : Nat)
    (p body : List Byte) (ls : List (List Byte)), Inv (StrTags k outer all) stk p body ls → StOk k m p body ls st → s0 = p ++ s → consumed = p.length →
    strLoop k all m f stk s st consumed = .ok v n → Done k m (StrTags k outer all) s0 v n := by
  intro f
  induction f with
  | zero => intro stk s st consumed p body ls _ _ _ _ h; unfold strLoop at h; cases h
  | succ f ih =>
    intro stk s st consumed p body ls hinv hst hs hc h
    cases stk with
    | nil =>
      unfold strLoop at h
      cases hf : fetchTag s with
      | more => rw [hf] at h; cases h
      | bad => rw [hf] at h; cases h
      | ok tag tl =>
        rw [hf] at h
        have hp : p = [] := by cases hinv; rfl
        subst hp
        exact strPush_sound (rm := none) ih hinv hst hs hc hf (h0 tag ⟨tl, by rw [hs]; exact hf⟩) (by simp) h
    | cons top below =>
      unfold strLoop at h
      by_cases hcl : top.left = some 0 ∧ top.nulls = false
      · rw [if_pos hcl] at h
        obtain ⟨tleft, tgot, tnulls⟩ := top
        obtain ⟨rfl, rfl⟩ := hcl
        obtain ⟨p', body', ls', e, c, ls'', rfl, rfl, rfl, rfl, i1, i2, i5, i3, i4⟩ := inv_top hinv
        cases below with
        | nil =>
          simp only at h
          cases i1
          have hn := finalize_n h
          simp only [List.nil_append] at hst hs hc
          rw [hc] at hn
          rw [hc, ← hn] at h
          rw [← hn] at hc
          have e1 : s0.take n = e := by rw [hs, hn, List.take_left]
          refine ⟨by rw [hs, hn, List.length_append]; omega, c, ls'', st, ?_, ?_, ?_, h⟩
          · rw [e1]; exact i2
          · rw [e1]; exact i3 rfl
          · rw [e1]; exact hst
        | cons q below =>
          simp only at h
          by_cases hr : (q.left.any fun l => decide (l < e.length)) = true
          · rw [if_pos hr] at h; cases h
          · rw [if_neg hr] at h
            have hc' := i4 (by simp)
            subst hc'
            have := inv_pop i1 i2 (i5 _ rfl) (by
              intro l hl
              rw [hl] at hr
              simpa using hr)
            exact ih _ _ _ _ _ _ _ this hst hs hc h
      · rw [if_neg hcl] at h
        simp only at h
        cases hf : fetchTag (room top.left s) with
        | more => rw [hf] at h; cases h
        | bad => rw [hf] at h; cases h
        | ok tag tl =>
          rw [hf] at h
          simp only at h
          have key : (match s with
            | b0 :: b1 :: rest =>
              if top.nulls = true ∧ b0 = 0 ∧ b1 = 0 then
                strLoop k all m f (⟨some 0, top.got + 2, false⟩ :: below) rest (st.outer k m below.length [0, 0]) (consumed + 2)
              else if expected k all below.length ≠ none ∧ expected k all below.length ≠ some tag then .fail
              else strPush k m (strLoop k all m f) (top :: below) top.left (room top.left s) s tl st consumed
            | _ => .crash) = .ok v n := by
            cases hl : berFetchLength (isConstructed s) ((room top.left s).drop tl) <;> rw [hl] at h
            all_goals first | exact h | (cases h; done)
          clear h
          cases s with
          | nil => cases key
          | cons b0 s =>
            cases s with
            | nil => cases key
            | cons b1 rest =>
              simp only at key
              by_cases hz : top.nulls = true ∧ b0 = 0 ∧ b1 = 0
              · rw [if_pos hz] at key
                obtain ⟨z1, rfl, rfl⟩ := hz
                refine ih _ _ _ _ _ _ _ (inv_eoc hinv z1) (stOk_outer _ hst) ?_ ?_ key
                · rw [hs, List.append_assoc]; rfl
                · rw [hc, List.length_append]; rfl
              · rw [if_neg hz] at key
                by_cases he : expected k all below.length ≠ none ∧ expected k all below.length ≠ some tag
                · rw [if_pos he] at key; cases key
                · rw [if_neg he] at key
                  refine strPush_sound ih hinv hst hs hc hf ?_ (fun f h1 h2 h3 => by
                    cases h1
                    simp only [List.take_succ_cons, List.take_zero, List.cons.injEq, and_true] at h3
                    exact hz ⟨h2, h3⟩) key
                  intro e he'
                  by_contra hc
                  exact he ⟨by rw [he']; simp, by rw [he']; intro hx; exact hc (Option.some.inj hx).symm⟩

theorem byte_mask (x : Byte) (u : Nat) (hu : u ≤ 7) : (x &&& (0xff#8 <<< u)).toNat = x.toNat / 2 ^ u * 2 ^ u := by
  have : ∀ (u : Fin 8) (x : Byte), (x &&& (0xff#8 <<< u.val)).toNat = x.toNat / 2 ^ u.val * 2 ^ u.val := by decide +kernel
  exact this ⟨u, by omega⟩ x

theorem strVal_of {k : StrKind} {m : Mode} {p body : List Byte} {ls : List (List Byte)} {st : Str} {v : Val} {n : Nat}
    (hst : StOk k m p body ls st) (h : finalize k st.buf st.unused n = .ok v n) :
    (k = .any → v = .bytes (if m = .explicit then body else p)) ∧ (k ≠ .any → StrVal k ls v) := by
  cases k with
  | octets => refine ⟨fun h => by (cases h), fun _ => ?_⟩; simp only [finalize] at h; cases h; simp only [StOk] at hst; rw [hst]; exact .octets
  | any => refine ⟨fun _ => ?_, fun h => absurd rfl h⟩; simp only [finalize] at h; cases h; simp only [StOk] at hst; rw [hst]
  | bits =>
    refine ⟨fun h => by (cases h), fun _ => ?_⟩
    simp only [finalize] at h
    obtain ⟨h1, h2⟩ := hst
    have hun : ∀ b, (ls.filter (· ≠ [])).getLast?.bind List.head? = some b → st.unused = b.toNat := by
      intro b hb
      rw [h2]
      unfold lastHead
      rw [hb]
      rfl
    by_cases hb : st.buf = []
    · rw [if_pos hb] at h
      by_cases hu : st.unused ≠ 0
      · rw [if_pos hu] at h; cases h
      · rw [if_neg hu] at h
        cases h
        refine .empty (by rw [← h1]; exact hb) ?_
        intro u hb
        have := hun u hb
        exact BitVec.eq_of_toNat_eq (by rw [← this]; simpa using hu)
    · rw [if_neg hb] at h
      by_cases hu : st.unused > 7
      · rw [if_pos hu] at h; cases h
      · rw [if_neg hu] at h
        cases h
        obtain ⟨init, x, hx⟩ : ∃ init x, st.buf = init ++ [x] := ⟨_, _, (List.dropLast_append_getLast hb).symm⟩
        rw [hx]
        simp only [List.dropLast_concat, List.getLast?_concat, Option.map_some, Option.toList_some]
        refine .bits (by rw [← h1]; exact hx) (by omega) ?_ (byte_mask x _ (by omega))
        have : ∃ l ∈ ls, l ≠ [] := by
          by_contra hc
          refine hb ?_
          rw [h1]
          rw [List.flatMap_eq_nil_iff]
          intro l hl
          have : l = [] := by
            by_contra hne
            exact hc ⟨l, hl, hne⟩
          rw [this]
          rfl
        obtain ⟨l, hl, hne⟩ := this
        have hf : ls.filter (· ≠ []) ≠ [] := List.ne_nil_of_mem (List.mem_filter.2 ⟨hl, by simpa using hne⟩)
        have hl' := List.getLast_mem hf
        have hne' := (List.mem_filter.1 hl').2
        have e1 := List.getLast?_eq_getLast_of_ne_nil hf
        generalize (ls.filter (· ≠ [])).getLast hf = y at *
        cases y with
        | nil => simp at hne'
        | cons a y =>
          have e2 : (ls.filter (· ≠ [])).getLast?.bind List.head? = some a := by rw [e1]; rfl
          rw [e2, hun a e2]
          simp

/-- String types as they are. -/
def StrOk (k : StrKind) (tags all : List Tag) : Prop :=
  match k with
  | .any => tags = []
  | _ => ∃ t, tags = [t] ∧ t ≠ 0 ∧ all[0]? = some t

theorem nest_els {ok : Nat → Tag → Prop} {ts : List Tag} {c b : List Byte} (h : Nest ts false c b) (h0 : ts ≠ [])
    (hz : ∀ t ∈ ts.tail, t ≠ 0) (hok : ∀ i t, ts[i]? = some t → ok i t) : Els ok .one 0 b [c] := by
  have key : ∀ (ts : List Tag) (d : Nat) (b : List Byte), Nest ts false c b → ts ≠ [] → (∀ t ∈ ts.tail, t ≠ 0) → (∀ i t, ts[i]? = some t → ok (d + i) t) →
      Els ok .one d b [c] ∧ (ts.headD 0 ≠ 0 → b.take 2 ≠ [0, 0]) := by
    intro ts
    induction ts with
    | nil => intro d b _ h0; exact absurd rfl h0
    | cons t ts ih =>
      intro d b h _ hz hok
      have ht := hok 0 t rfl
      cases ts with
      | nil =>
        cases h with
        | defn h1 h2 => exact ⟨.prim h1 h2 ht, fun h0 => by rw [List.append_assoc]; exact isTag_ne_zero h1 h0 _⟩
        | indef _ h2 => cases h2
      | cons t' ts =>
        obtain ⟨x, h1, h2⟩ := h
        obtain ⟨i1, i2⟩ := ih (d + 1) x h1 (by simp) (fun u hu => hz u (List.mem_cons_of_mem _ hu)) (fun i u hu => by
          have := hok (i + 1) u (by simpa using hu)
          rwa [show d + (i + 1) = d + 1 + i by omega] at this)
        have hs : ∀ k : Kind, k ≠ .one → Els ok k (d + 1) x [c] := fun k hk => by
          simpa using Els.cons i1 hk (fun _ => i2 (hz t' (by simp))) (.nil hk)
        cases h2 with
        | defn g1 g2 => exact ⟨.defn g1 g2 ht (hs _ (by simp)), fun _ => by rw [List.append_assoc]; exact isTag_nz g1 _⟩
        | indef g1 _ => exact ⟨.indef g1 ht (hs _ (by simp)), fun _ => by rw [List.append_assoc, List.append_assoc]; exact isTag_nz g1 _⟩
  exact (key ts 0 b h h0 hz (by simpa using hok)).1

theorem els_mono {ok ok' : Nat → Tag → Prop} (hm : ∀ d t, ok d t → ok' d t) {k : Kind} {d : Nat} {b : List Byte} {ls : List (List Byte)} (h : Els ok k d b ls) :
    Els ok' k d b ls := by
  induction h with
  | prim h1 h2 h3 => exact .prim h1 h2 (hm _ _ h3)
  | defn h1 h2 h3 _ ih => exact .defn h1 h2 (hm _ _ h3) ih
  | indef h1 h2 _ ih => exact .indef h1 (hm _ _ h2) ih
  | nil h => exact .nil h
  | cons _ h2 h3 _ ih1 ih2 => exact .cons ih1 h2 h3 ih2

theorem firstTag_isTag {tag tag' : Nat} {c : Bool} {t : List Byte} {rest s : List Byte} (h : IsTag tag c t) (h' : FirstTag s tag') (he : ∃ n, s.take n = t ++ rest) : tag = tag' := by
  obtain ⟨n, he⟩ := he
  obtain ⟨k, h'⟩ := h'
  have h1 := (fetchTag_complete h rest).1
  rw [← he] at h1
  have := (fetchTag_take h1).1
  rw [h'] at this
  cases this
  rfl

theorem tlv_first {tag tag' : Nat} {c : Bool} {x s : List Byte} {n : Nat} (h : Tlv tag c x (s.take n)) (h' : FirstTag s tag') : tag = tag' := by
  generalize he : s.take n = e at h
  cases h with
  | defn h1 _ => exact firstTag_isTag h1 h' ⟨n, by rw [he, List.append_assoc]⟩
  | indef h1 _ => exact firstTag_isTag h1 h' ⟨n, by rw [he, List.append_assoc, List.append_assoc]⟩

theorem ber_str {k : StrKind} {tags all : List Tag} {g : Tagging} {v : Val} {b : List Byte} (hk : k ≠ .any)
    (h : ∃ ls, Els (StrTags k (g.tags tags).head? all) .one 0 b ls ∧ StrVal k ls v) : Ber (.str k tags all) g v b := by
  cases k with
  | any => exact absurd rfl hk
  | octets => unfold Ber; exact h
  | bits => unfold Ber; exact h

theorem firstTag_head {s : List Byte} {g : Tagging} (hg : ∀ t, g.outer = some t → FirstTag s t) : ∀ t, FirstTag s t → ∀ o, g.outer = some o → t = o :=
  fun _ h o ho => h.unique (hg o ho)

theorem any_head (g : Tagging) : (g.tags []).head? = g.outer := by cases g <;> rfl

theorem decStr_sound {k : StrKind} {tags all : List Tag} {m : Mode} {s : List Byte} {v : Val} {n : Nat} (hw : StrOk k tags all)
    (h : decStr k tags all m s = .ok v n) (g : Tagging) (hm : g.mode = m) (hg : ∀ t, g.outer = some t → FirstTag s t) :
    2 ≤ n ∧ n ≤ s.length ∧ Ber (.str k tags all) g v (s.take n) := by
  unfold decStr at h
  cases hc : checkTags tags m none s with
  | more => rw [hc] at h; cases h
  | fail => rw [hc] at h; cases h
  | hang => rw [hc] at h; cases h
  | crash => rw [hc] at h; cases h
  | ok tl n0 =>
    rw [hc] at h
    simp only [R.andThen] at h
    by_cases hform : tl.form = true
    · /- the loop -/
      rw [if_pos hform] at h
      by_cases hk : k = .any
      · subst hk
        simp only [StrOk] at hw
        subst hw
        have := strLoop_sound .any all m g.outer s v n (firstTag_head hg) _ _ _ _ _ _ _ _ .nil (by simp [StOk]) rfl rfl h
        obtain ⟨d1, c, ls, st, d2, ⟨tag, constr, d3, d4, d5⟩, d6, d7⟩ := this
        have d8 := els_one_len d2
        rw [List.length_take] at d8
        have hv := (strVal_of d6 d7).1 rfl
        refine ⟨by omega, d1, ?_⟩
        subst hm
        cases g with
        | own => unfold Ber; exact ⟨hv, ls, els_mono (fun d t => by cases d <;> simp [StrTags, expected, Tagging.tags, Tagging.outer]) d2⟩
        | implicit t => unfold Ber; exact ⟨hv, ls, els_mono (fun d t => by cases d <;> simp [StrTags, expected, Tagging.tags, Tagging.outer]) d2⟩
        | explicit t =>
          unfold Ber
          have := d4 t rfl
          subst this
          exact ⟨c, constr, d3, hv, fun hc => ⟨ls, els_mono (fun _ _ _ => trivial) (d5 hc)⟩, ls, els_mono (fun _ _ _ => trivial) d2⟩
      · have hts : ∃ t, tags = [t] ∧ t ≠ 0 ∧ all[0]? = some t := by cases k <;> first | exact hw | exact absurd rfl hk
        obtain ⟨t0, rfl, hnz, hall⟩ := hts
        have hne : ¬ ([t0] = [] ∧ m = .none) := by simp
        obtain ⟨c1, c2, c3, c3', c4, c5, c6, c7⟩ := checkTags_sound hne hc g hm hg
        have h0 : ∀ t, FirstTag s t → ∀ o, (g.tags [t0]).head? = some o → t = o := by
          intro t ht o ho
          have : (g.tags [t0]).headD 0 = o := by cases g <;> simpa [Tagging.tags] using ho
          rw [this] at c7
          exact ht.unique c7
        have hempty : StOk k m [] [] [] ⟨[], 0⟩ := by cases k <;> simp [StOk, lastHead]
        have := strLoop_sound k all m _ s v n h0 _ _ _ _ _ _ _ _ .nil hempty rfl rfl h
        obtain ⟨d1, c, ls, st, d2, d3, d6, d7⟩ := this
        have d8 := els_one_len d2
        rw [List.length_take] at d8
        exact ⟨by omega, d1, ber_str hk ⟨ls, d2, (strVal_of d6 d7).2 hk⟩⟩
    · rw [if_neg hform] at h
      have hform : tl.form = false := by simpa using hform
      cases hleft : tl.left with
      | indef e => rw [hleft] at h; cases h
      | defn len =>
        rw [hleft] at h
        simp only at h
        by_cases hshort : (s.drop n0).length < len
        · rw [if_pos hshort] at h; cases h
        · rw [if_neg hshort] at h
          have hlen : ((s.drop n0).take len).length = len := by rw [List.length_take]; omega
          have hn := finalize_n h
          subst hn
          have htake : s.take (n0 + len) = s.take n0 ++ (s.drop n0).take len := by rw [List.take_add]
          by_cases hk : k = .any
          · subst hk
            simp only [StrOk] at hw
            subst hw
            have hv : v = .bytes ((if m ≠ .explicit then s.take n0 else []) ++ (s.drop n0).take len) := by
              simp only [finalize, true_and, Str.leaf] at h
              cases h
              rfl
            have hc1 : 2 ≤ n0 ∧ n0 ≤ s.length ∧ ∃ tag, FirstTag s tag ∧ Hdr [tag] tl.form tl.left (s.take n0) ∧ ∀ t, g.outer = some t → t = tag := by
              cases g with
              | own =>
                subst hm
                obtain ⟨a1, a2, a3, a4, tag, a5, a6⟩ := anyTags_sound hc
                exact ⟨a1, a2, tag, a5, a6, by simp [Tagging.outer]⟩
              | implicit t => subst hm; cases hc
              | explicit t =>
                obtain ⟨c1, c2, c3, c3', c4, c5, c6, c7⟩ := checkTags_sound (by subst hm; simp [Tagging.mode]) hc (.explicit t) hm hg
                exact ⟨c1, c2, t, c7, c4, by simp [Tagging.outer]⟩
            obtain ⟨a1, a2, tag, a3, a4, a5⟩ := hc1
            rw [hleft, hform] at a4
            have htlv := a4 _ hlen
            rw [← htake] at htlv
            refine ⟨by omega, ?_, ?_⟩
            · rw [List.length_drop] at hshort; omega
            · have hel : Els (StrTags .any g.outer []) .one 0 (s.take (n0 + len)) [(s.drop n0).take len] :=
                nest_els htlv (by simp) (by simp) (by
                  intro i t hi
                  cases i with
                  | zero => simp at hi; subst hi; intro o ho; exact (a5 o ho).symm
                  | succ i => simp at hi)
              subst hm
              cases g with
              | own =>
                unfold Ber
                simp only [Tagging.mode, ne_eq, reduceCtorEq, not_false_eq_true, if_true, ← htake] at hv
                exact ⟨hv, _, hel⟩
              | implicit t => cases hc
              | explicit t =>
                unfold Ber
                simp only [Tagging.mode, ne_eq, not_true_eq_false, if_false, List.nil_append] at hv
                have := a5 t rfl
                subst this
                exact ⟨_, false, htlv, hv, fun h => by (cases h), _, els_mono (fun _ _ _ => trivial) hel⟩
          · have hts : ∃ t, tags = [t] ∧ t ≠ 0 ∧ all[0]? = some t := by cases k <;> first | exact hw | exact absurd rfl hk
            obtain ⟨t0, rfl, hnz, hall⟩ := hts
            obtain ⟨c1, c2, c3, c3', c4, c5, c6, c7⟩ := checkTags_sound (by simp) hc g hm hg
            rw [hleft, hform] at c4
            have htlv := c4 _ hlen
            rw [← htake] at htlv
            refine ⟨by omega, ?_, ?_⟩
            · rw [List.length_drop] at hshort; omega
            · refine ber_str hk ⟨_, nest_els htlv (by cases g <;> simp [Tagging.tags]) (by cases g <;> simp [Tagging.tags, hnz]) ?_, ?_⟩
              · intro i t hi
                cases i with
                | zero => intro o ho; rw [← List.head?_eq_getElem?, ho] at hi; exact (Option.some.inj hi).symm
                | succ i =>
                  intro e he
                  have hi0 : i = 0 ∧ t = t0 := by
                    cases g with
                    | own => simp [Tagging.tags] at hi
                    | implicit o => simp [Tagging.tags] at hi
                    | explicit o =>
                      cases i with
                      | zero => simp [Tagging.tags] at hi; exact ⟨rfl, hi.symm⟩
                      | succ i => simp [Tagging.tags] at hi
                  obtain ⟨rfl, rfl⟩ := hi0
                  have h0 : 0 < all.length := by
                    by_contra hc
                    have : all = [] := List.length_eq_zero_iff.1 (by omega)
                    subst this
                    simp at hall
                  cases k with
                  | any => exact absurd rfl hk
                  | octets => simp only [expected, if_pos h0, hall] at he; exact Option.some.inj he
                  | bits => simp only [expected, if_pos h0, hall] at he; exact Option.some.inj he
              · have hst : StOk k m ([] ++ (s.drop n0).take len) ([] ++ (s.drop n0).take len) ([] ++ [(s.drop n0).take len]) ((⟨[], 0⟩ : Str).leaf k ((s.drop n0).take len)) :=
                  stOk_leaf (p := []) (body := []) (ls := []) _ (by cases k <;> simp [StOk, lastHead])
                have e : (⟨if k = .any ∧ m ≠ .explicit then s.take n0 else [], 0⟩ : Str) = ⟨[], 0⟩ := by simp [hk]
                rw [e] at h
                exact (strVal_of hst h).2 hk

end Verif.Asn
