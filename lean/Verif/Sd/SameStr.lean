import Verif.Sd.Prefix
/-
Strings: the decoder does not look at what follows.
-/
namespace Verif.Sd
open Verif.Res (Byte be)
open Verif.Cms (berFetchLength isConstructed)
open Verif.Asn

theorem room_len {o : Option Nat} {s : List Byte} : (room o s).length ≤ s.length := by
  cases o with
  | some L => simp only [room, List.length_take]; omega
  | none => exact le_rfl

theorem room_drop_len {o : Option Nat} {s : List Byte} {tl ll : Nat} (h1 : 1 ≤ ll) (h : ll ≤ ((room o s).drop tl).length) : tl + ll ≤ (room o s).length := by
  rw [List.length_drop] at h; omega

theorem constr_same {n : Nat} {s s' : List Byte} (h : Same n s s') (hn : 1 ≤ n) : isConstructed s' = isConstructed s := by
  obtain ⟨h1, h2, h3⟩ := h
  match s, s', h1, h2, h3 with
  | [], _, h1, _, _ => simp at h1; omega
  | _ :: _, [], _, h2, _ => simp at h2; omega
  | a :: s, b :: s', _, _, h3 =>
    obtain ⟨n, rfl⟩ : ∃ k, n = k + 1 := ⟨n - 1, by omega⟩
    simp only [List.take_succ_cons, List.cons.injEq] at h3
    obtain ⟨rfl, -⟩ := h3
    rfl

theorem strPush_same {k : StrKind} {m : Mode} {next next' : List Frame → List Byte → Str → Nat → R Val} {stk : List Frame} {rm : Option Nat}
    {s : List Byte} {tl : Nat} {st : Str} {c n f' : Nat} {v : Val} (htl : 1 ≤ tl) (hs : tl ≤ (room rm s).length)
    (h : strPush k m next stk rm (room rm s) s tl st c = .ok v n)
    (hnext : ∀ stk s st c, next stk s st c = .ok v n → c ≤ n ∧ n - c ≤ s.length ∧
      ∀ s', Same (n - c) s s' → 2 * s'.length + stk.length < f' → next' stk s' st c = .ok v n) :
    c + tl + 1 ≤ n ∧ n - c ≤ s.length ∧ ∀ s', Same (n - c) s s' → 2 * s'.length + stk.length < f' + 1 →
      strPush k m next' stk rm (room rm s') s' tl st c = .ok v n := by
  have hle := room_len (o := rm) (s := s)
  unfold strPush at h ⊢
  simp only at h ⊢
  cases hl : berFetchLength (isConstructed s) ((room rm s).drop tl) with
  | more => rw [hl] at h; cases h
  | bad => rw [hl] at h; cases h
  | indef =>
    rw [hl] at h
    simp only at h
    have hp := fetchLen_pos (by rw [hl]; simp : berFetchLength (isConstructed s) ((room rm s).drop tl) ≠ .more)
    have hp := room_drop_len le_rfl hp
    by_cases hr : (rm.any fun r => decide (r < tl + 1)) = true
    · rw [if_pos hr] at h; cases h
    · rw [if_neg hr] at h
      obtain ⟨b1, b2, b3⟩ := hnext _ _ _ _ h
      rw [List.length_drop] at b2
      refine ⟨by omega, by omega, fun s' hs' hf => ?_⟩
      have hw := (hs'.le (k := tl + 1) (by omega)).room hp
      rw [constr_same hs' (by omega), fetchLen_indef_same hl hw.drop]
      simp only
      rw [if_neg hr, hs'.getTake (by omega)]
      have hlen := hs'.right
      refine b3 _ (Same.drop ?_) ?_
      · rw [show tl + 1 + (n - (c + (tl + 1))) = n - c by omega]; exact hs'
      · simp only [List.length_drop, List.length_cons]; omega
  | defn ll x =>
    rw [hl] at h
    simp only at h
    obtain ⟨l1, l2, -, -⟩ := fetchLen_sound hl
    have hp := room_drop_len l1 l2
    by_cases hr : (rm.any fun r => decide (r < tl + ll + x)) = true
    · rw [if_pos hr] at h; cases h
    · rw [if_neg hr] at h
      by_cases hc : isConstructed s = true
      · rw [if_pos hc] at h
        obtain ⟨b1, b2, b3⟩ := hnext _ _ _ _ h
        rw [List.length_drop] at b2
        refine ⟨by omega, by omega, fun s' hs' hf => ?_⟩
        have hw := (hs'.le (k := tl + ll) (by omega)).room hp
        rw [constr_same hs' (by omega), fetchLen_same hl hw.drop]
        simp only
        rw [if_neg hr, if_pos hc, hs'.getTake (by omega)]
        have hlen := hs'.right
        refine b3 _ (Same.drop ?_) ?_
        · rw [show tl + ll + (n - (c + (tl + ll))) = n - c by omega]; exact hs'
        · simp only [List.length_drop, List.length_cons]; omega
      · rw [if_neg hc] at h
        by_cases hx : (s.drop (tl + ll)).length < x
        · rw [if_pos hx] at h; cases h
        · rw [if_neg hx] at h
          obtain ⟨b1, b2, b3⟩ := hnext _ _ _ _ h
          rw [List.length_drop] at b2 hx
          refine ⟨by omega, by omega, fun s' hs' hf => ?_⟩
          have hw := (hs'.le (k := tl + ll) (by omega)).room hp
          have hlen := hs'.right
          rw [constr_same hs' (by omega), fetchLen_same hl hw.drop]
          simp only
          rw [if_neg hr, if_neg hc, if_neg (by rw [List.length_drop]; omega), hs'.getTake (by omega), hs'.dropTake (by omega)]
          refine b3 _ (Same.drop ?_) ?_
          · rw [show tl + ll + x + (n - (c + (tl + ll + x))) = n - c by omega]; exact hs'
          · simp only [List.length_drop, List.length_cons]; omega

theorem strLoop_same (k : StrKind) (all : List Tag) (m : Mode) (v : Val) (n : Nat) : ∀ (f : Nat) (stk : List Frame) (s : List Byte) (st : Str) (c : Nat),
    strLoop k all m f stk s st c = .ok v n → c ≤ n ∧ n - c ≤ s.length ∧
      ∀ (f' : Nat) (s' : List Byte), Same (n - c) s s' → 2 * s'.length + stk.length < f' → strLoop k all m f' stk s' st c = .ok v n := by
  intro f
  induction f with
  | zero => intro stk s st c h; cases h
  | succ f ih =>
    intro stk s st c h
    cases stk with
    | nil =>
      unfold strLoop at h
      cases hf : fetchTag s with
      | more => rw [hf] at h; cases h
      | bad => rw [hf] at h; cases h
      | ok tag tl =>
        rw [hf] at h
        simp only at h
        obtain ⟨h1, h2, -⟩ := fetchTag_sound hf
        have key := fun f' => strPush_same (rm := none) (f' := f') (next' := strLoop k all m f') h1 h2 h
          (fun stk s st c h => ⟨(ih _ _ _ _ h).1, (ih _ _ _ _ h).2.1, fun s' hs' hlt => (ih _ _ _ _ h).2.2 f' s' hs' hlt⟩)
        obtain ⟨k1, k2, -⟩ := key 0
        refine ⟨by omega, k2, fun f' s' hs' hlt => ?_⟩
        cases f' with
        | zero => omega
        | succ f' =>
          unfold strLoop
          rw [(fetchTag_same hf (hs'.le (by omega))).1]
          exact (key f').2.2 s' hs' hlt
    | cons top below =>
      unfold strLoop at h
      by_cases hcl : top.left = some 0 ∧ top.nulls = false
      · rw [if_pos hcl] at h
        cases below with
        | nil =>
          simp only at h
          have := finalize_n h
          subst this
          refine ⟨le_rfl, by omega, fun f' s' hs' hlt => ?_⟩
          cases f' with
          | zero => omega
          | succ f' => unfold strLoop; rw [if_pos hcl]; exact h
        | cons q below =>
          simp only at h
          by_cases hg : (q.left.any fun l => decide (l < top.got)) = true
          · rw [if_pos hg] at h; cases h
          · rw [if_neg hg] at h
            obtain ⟨k1, k2, k3⟩ := ih _ _ _ _ h
            refine ⟨k1, k2, fun f' s' hs' hlt => ?_⟩
            cases f' with
            | zero => omega
            | succ f' =>
              unfold strLoop
              rw [if_pos hcl]
              simp only
              rw [if_neg hg]
              refine k3 f' s' hs' ?_
              simp only [List.length_cons] at hlt ⊢
              omega
      · rw [if_neg hcl] at h
        simp only at h
        cases hf : fetchTag (room top.left s) with
        | more => rw [hf] at h; cases h
        | bad => rw [hf] at h; cases h
        | ok tag tl =>
          rw [hf] at h
          simp only at h
          obtain ⟨h1, h2, -⟩ := fetchTag_sound hf
          have hne : berFetchLength (isConstructed s) ((room top.left s).drop tl) ≠ .more ∧ berFetchLength (isConstructed s) ((room top.left s).drop tl) ≠ .bad := by
            constructor <;> (intro hk; rw [hk] at h; cases h)
          have h' : (match (generalizing := false) s with
              | b0 :: b1 :: rest =>
                if top.nulls = true ∧ b0 = 0 ∧ b1 = 0 then
                  strLoop k all m f (⟨some 0, top.got + 2, false⟩ :: below) rest (st.outer k m below.length [0, 0]) (c + 2)
                else if expected k all below.length ≠ none ∧ expected k all below.length ≠ some tag then .fail
                else strPush k m (strLoop k all m f) (top :: below) top.left (room top.left s) s tl st c
              | _ => .crash) = R.ok v n := by
            cases hl : berFetchLength (isConstructed s) ((room top.left s).drop tl) with
            | more => exact absurd hl hne.1
            | bad => exact absurd hl hne.2
            | indef => rw [hl] at h; exact h
            | defn a b => rw [hl] at h; exact h
          clear h
          /- what the other side needs -/
          have fin : ∀ (f' : Nat) (s' : List Byte), Same (n - c) s s' → c + tl ≤ n →
              berFetchLength (isConstructed s') ((room top.left s').drop tl) ≠ .more → berFetchLength (isConstructed s') ((room top.left s').drop tl) ≠ .bad →
              (match (generalizing := false) s' with
              | b0 :: b1 :: rest =>
                if top.nulls = true ∧ b0 = 0 ∧ b1 = 0 then
                  strLoop k all m f' (⟨some 0, top.got + 2, false⟩ :: below) rest (st.outer k m below.length [0, 0]) (c + 2)
                else if expected k all below.length ≠ none ∧ expected k all below.length ≠ some tag then .fail
                else strPush k m (strLoop k all m f') (top :: below) top.left (room top.left s') s' tl st c
              | _ => .crash) = R.ok v n → strLoop k all m (f' + 1) (top :: below) s' st c = .ok v n := by
            intro f' s' hs' hle hm hb hgo
            unfold strLoop
            rw [if_neg hcl]
            simp only
            rw [(fetchTag_same hf ((hs'.le (by omega)).room h2)).1]
            simp only
            cases hl : berFetchLength (isConstructed s') ((room top.left s').drop tl) with
            | more => exact absurd hl hm
            | bad => exact absurd hl hb
            | indef => exact hgo
            | defn a b => exact hgo
          match s, h' with
          | b0 :: b1 :: rest, h' =>
            simp only at h'
            by_cases hz : top.nulls = true ∧ b0 = 0 ∧ b1 = 0
            · rw [if_pos hz] at h'
              obtain ⟨k1, k2, k3⟩ := ih _ _ _ _ h'
              refine ⟨by omega, by simp only [List.length_cons]; omega, fun f' s' hs' hlt => ?_⟩
              obtain ⟨f', rfl⟩ : ∃ g, f' = g + 1 := ⟨f' - 1, by omega⟩
              have htl1 : tl = 1 := by
                obtain ⟨-, rfl, rfl⟩ := hz
                cases hr : room top.left (0 :: 0 :: rest) with
                | nil => rw [hr] at h2; simp at h2; omega
                | cons a t =>
                  have : a = 0 := by
                    cases hle : top.left with
                    | none => rw [hle] at hr; simp only [room, List.cons.injEq] at hr; exact hr.1.symm
                    | some L =>
                      rw [hle] at hr
                      cases L with
                      | zero => cases hr
                      | succ L => simp only [room, List.take_succ_cons, List.cons.injEq] at hr; exact hr.1.symm
                  subst this
                  rw [hr, fetchTag_cons, if_pos (by decide)] at hf
                  cases hf
                  rfl
              subst htl1
              have hsame2 := hs'.le (k := 2) (by omega)
              have hroom := room_drop_len le_rfl (fetchLen_pos hne.1)
              have hrs : Same (1 + 1) (room top.left (b0 :: b1 :: rest)) (room top.left s') := hsame2.room hroom
              obtain ⟨b0', b1', rest', rfl⟩ : ∃ a b r, s' = a :: b :: r := by
                have := hsame2.right
                match s', this with
                | a :: b :: r, _ => exact ⟨a, b, r, rfl⟩
              have heq := hsame2.eq
              simp only [List.take_succ_cons, List.take_zero, List.cons.injEq, and_true] at heq
              obtain ⟨rfl, rfl⟩ := heq
              have hlen : berFetchLength (isConstructed (b0 :: b1 :: rest')) ((room top.left (b0 :: b1 :: rest')).drop 1) = .defn 1 0 := by
                obtain ⟨-, rfl, rfl⟩ := hz
                have hr := hrs.right
                have : ∃ t, (room top.left (0 :: 0 :: rest')).drop 1 = 0 :: t := by
                  cases hle : top.left with
                  | none => exact ⟨rest', by simp [room]⟩
                  | some L =>
                    rw [hle] at hr
                    simp only [room, List.length_take] at hr
                    obtain ⟨L, rfl⟩ : ∃ q, L = q + 2 := ⟨L - 2, by omega⟩
                    exact ⟨rest'.take L, by simp [room]⟩
                obtain ⟨t, ht⟩ := this
                rw [ht]
                exact fetchLen_complete (n := 0) (c := isConstructed (0 :: 0 :: rest')) (.inl ⟨0, rfl, rfl, by omega⟩) (by omega) t
              refine fin f' _ hs' (by omega) (by rw [hlen]; simp) (by rw [hlen]; simp) ?_
              simp only
              rw [if_pos hz]
              refine k3 f' _ ?_ ?_
              · have := Same.drop (n := n - (c + 2)) (k := 2) (by rw [show 2 + (n - (c + 2)) = n - c by omega]; exact hs')
                simpa using this
              · simp only [List.length_cons] at hlt ⊢; omega
            · rw [if_neg hz] at h'
              by_cases he : expected k all below.length ≠ none ∧ expected k all below.length ≠ some tag
              · rw [if_pos he] at h'; cases h'
              · rw [if_neg he] at h'
                have key := fun f' => strPush_same (f' := f') (next' := strLoop k all m f') h1 h2 h'
                  (fun stk s st c h => ⟨(ih _ _ _ _ h).1, (ih _ _ _ _ h).2.1, fun s' hs' hlt => (ih _ _ _ _ h).2.2 f' s' hs' hlt⟩)
                obtain ⟨k1, k2, -⟩ := key 0
                refine ⟨by omega, k2, fun f' s' hs' hlt => ?_⟩
                obtain ⟨f', rfl⟩ : ∃ g, f' = g + 1 := ⟨f' - 1, by omega⟩
                have kk := (key f').2.2 s' hs' hlt
                have hsame2 := hs'.le (k := 2) (by omega)
                obtain ⟨b0', b1', rest', rfl⟩ : ∃ a b r, s' = a :: b :: r := by
                  have := hsame2.right
                  match s', this with
                  | a :: b :: r, _ => exact ⟨a, b, r, rfl⟩
                have heq := hsame2.eq
                simp only [List.take_succ_cons, List.take_zero, List.cons.injEq, and_true] at heq
                obtain ⟨rfl, rfl⟩ := heq
                refine fin f' _ hs' (by omega) ?_ ?_ ?_
                · intro hx; unfold strPush at kk; simp only at kk; rw [hx] at kk; cases kk
                · intro hx; unfold strPush at kk; simp only at kk; rw [hx] at kk; cases kk
                · simp only
                  rw [if_neg hz, if_neg he]
                  exact kk

theorem decStr_same {k : StrKind} {tags all : List Tag} {m : Mode} {s s' : List Byte} {v : Val} {n : Nat} (hw : StrOk k tags all)
    (h : decStr k tags all m s = .ok v n) (hs : Same n s s') : decStr k tags all m s' = .ok v n := by
  obtain ⟨t1, t2, t3⟩ := decStr_tlvs hw h
  unfold decStr at h ⊢
  obtain ⟨tl, n0, h1, h2⟩ := andThen_ok h
  have hle := hdrT_le (checkTags_hdrT h1) (checkTags_tag h1).2.1 t2 t3
  rw [checkTags_same h1 (hs.le hle)]
  simp only [R.andThen] at h2 ⊢
  by_cases hf : tl.form = true
  · rw [if_pos hf] at h2 ⊢
    exact (strLoop_same _ _ _ _ _ _ _ _ _ _ h2).2.2 _ s' (by simpa using hs) (by simp)
  · rw [if_neg hf] at h2 ⊢
    cases hl : tl.left with
    | indef e => rw [hl] at h2; cases h2
    | defn len =>
      rw [hl] at h2
      simp only at h2 ⊢
      by_cases hx : (s.drop n0).length < len
      · rw [if_pos hx] at h2; cases h2
      · rw [if_neg hx] at h2
        have hn := finalize_n h2
        subst hn
        have := hs.right
        rw [if_neg (by rw [List.length_drop]; omega), hs.getTake (by omega), hs.dropTake (by omega)]
        exact h2

end Verif.Sd
