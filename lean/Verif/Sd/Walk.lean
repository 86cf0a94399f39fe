import Verif.Sd.SameAll
import Verif.Asn.Types
import Verif.Asn.Check
/-
`find_signedAttrs` and the decoder find the same attributes.
-/
namespace Verif.Sd
open Verif.Res (Byte be)
open Verif.Cms (berFetchLength isConstructed skipT skipTL skipTLV findSignedAttrs signedBytes Signed)
open Verif.Asn

/-! ### One step -/

theorem firstTag_view {left : Left} {s : List Byte} {tag : Tag} (h : FirstTag (view left s) tag) : FirstTag s tag := by
  obtain ⟨k, h⟩ := h
  cases left with
  | defn L => exact ⟨k, (fetchTag_take h).1⟩
  | indef e => exact ⟨k, h⟩

theorem firstTag_byte {b : Byte} (hb : b.toNat % 32 ≠ 31) (s : List Byte) : FirstTag (b :: s) (b.toNat % 32 * 4 + b.toNat / 64) := by
  refine ⟨1, ?_⟩
  rw [fetchTag_cons, if_pos ((Cms.byte_low5 b).2 hb), byte_low5']

/-- The members that the decoder takes next. -/
theorem decMems_next {h : Head} {ty : Ty} {rest : Mems} {left : Left} {s : List Byte} {vs : List (Option Val)} {n : Nat}
    (ho : optCount (h :: rest.heads) ≠ (h :: rest.heads).length) (hd : decMems (.cons h ty rest) none left s = .ok vs n) :
    ∃ k tag, FirstTag s tag ∧ FirstTag (view left s) tag ∧ lookup (h :: rest.heads) tag = some k ∧ decMems (.cons h ty rest) (some k) left s = .ok vs n := by
  have hd' := hd
  unfold decMems at hd
  simp only at hd
  cases hs : sync (h :: rest.heads) left s with
  | done => exact absurd (sync_sound.1 hs).2 ho
  | eoc => exact absurd (sync_sound.2.1 hs) ho
  | more => rw [hs] at hd; cases hd
  | fail => rw [hs] at hd; cases hd
  | crash => rw [hs] at hd; cases hd
  | «at» k =>
    rw [hs] at hd
    have hl : ∃ tag, FirstTag (view left s) tag ∧ lookup (h :: rest.heads) tag = some k := by
      unfold sync at hs
      rw [if_neg (fun hc => ho hc.2)] at hs
      cases hf : fetchTag (view left s) with
      | more => rw [hf] at hs; simp only at hs; split at hs <;> cases hs
      | bad => rw [hf] at hs; cases hs
      | ok tag tl =>
        rw [hf] at hs
        simp only at hs
        refine ⟨tag, ⟨tl, hf⟩, ?_⟩
        have key : (match lookup (h :: rest.heads) tag with | some k => Sync.at k | none => Sync.fail) = .at k → lookup (h :: rest.heads) tag = some k := by
          intro hk
          cases hl : lookup (h :: rest.heads) tag with
          | none => rw [hl] at hk; cases hk
          | some j => rw [hl] at hk; cases hk; rfl
        cases he : eocAt left s with
        | crash => rw [he] at hs; cases hs
        | more => rw [he] at hs; cases hs
        | yes => rw [he] at hs; simp only at hs; rw [if_neg (fun hc => ho hc.2)] at hs; exact key hs
        | no => rw [he] at hs; simp only at hs; rw [if_neg (fun hc => ho hc.2)] at hs; exact key hs
    obtain ⟨tag, h1, h2⟩ := hl
    refine ⟨k, tag, firstTag_view h1, h1, h2, ?_⟩
    unfold decMems
    exact hd

theorem decMems_zero {h : Head} {ty : Ty} {rest : Mems} {left : Left} {s : List Byte} {vs : List (Option Val)} {n : Nat}
    (hd : decMems (.cons h ty rest) (some 0) left s = .ok vs n) :
    ∃ x n1 ws n2, vs = some x :: ws ∧ n = n1 + n2 ∧ dec ty h.mode (view left s) = .ok x n1 ∧ decMems rest none (left.sub n1) (s.drop n1) = .ok ws n2 := by
  unfold decMems at hd
  simp only at hd
  obtain ⟨x, n1, h1, h2⟩ := andThen_ok hd
  obtain ⟨ws, n2, h3, h4⟩ := andThen_ok h2
  cases h4
  exact ⟨x, n1, ws, n2, rfl, rfl, frame_ok h1, h3⟩

theorem decMems_succ {h : Head} {ty : Ty} {rest : Mems} {k : Nat} {left : Left} {s : List Byte} {vs : List (Option Val)} {n : Nat}
    (hd : decMems (.cons h ty rest) (some (k + 1)) left s = .ok vs n) : ∃ ws, vs = none :: ws ∧ decMems rest (some k) left s = .ok ws n := by
  unfold decMems at hd
  simp only at hd
  obtain ⟨ws, n1, h1, h2⟩ := andThen_ok hd
  cases h2
  exact ⟨ws, rfl, h1⟩

/-- A member that is next: the decoder's bytes. -/
structure Step (ty : Ty) (m : Mode) (rest : Mems) (s : List Byte) (vs : List (Option Val)) (x : Val) (e : List Byte) : Prop where
  next : ∃ left ws s1 n, vs = some x :: ws ∧ s = e ++ s1 ∧ decMems rest none left s1 = .ok ws n
  dec : ∃ t n, dec ty m (e ++ t) = .ok x n ∧ n = e.length ∧ e ++ t <+: s

theorem step_of {h : Head} {ty : Ty} {rest : Mems} {left : Left} {s : List Byte} {vs : List (Option Val)} {n : Nat}
    (hb : ∀ (s : List Byte) (v : Val) (n : Nat), dec ty h.mode s = .ok v n → n ≤ s.length)
    (hd : decMems (.cons h ty rest) (some 0) left s = .ok vs n) : ∃ x e, Step ty h.mode rest s vs x e := by
  obtain ⟨x, n1, ws, n2, h1, h2, h3, h4⟩ := decMems_zero hd
  obtain ⟨v1, v2, v3⟩ := view_take (hb _ _ _ h3)
  refine ⟨x, s.take n1, ⟨_, ws, s.drop n1, n2, h1, (List.take_append_drop n1 s).symm, h4⟩, ?_⟩
  have hl : (s.take n1).length = n1 := by rw [List.length_take]; omega
  have e1 : s.take n1 ++ (view left s).drop n1 = view left s := by
    rw [← v1]; exact List.take_append_drop n1 (view left s)
  refine ⟨(view left s).drop n1, n1, by rw [e1]; exact h3, hl.symm, ?_⟩
  rw [e1]
  cases left with
  | defn L => exact List.take_prefix _ _
  | indef k => exact List.prefix_refl _

theorem step_first {h : Head} {ty : Ty} {rest : Mems} {left : Left} {s : List Byte} {vs : List (Option Val)} {n : Nat}
    (hb : ∀ (s : List Byte) (v : Val) (n : Nat), dec ty h.mode s = .ok v n → n ≤ s.length)
    (ho : optCount (h :: rest.heads) ≠ (h :: rest.heads).length) (hk : ∀ tag, FirstTag s tag → ∀ k, lookup (h :: rest.heads) tag = some k → k = 0)
    (hd : decMems (.cons h ty rest) none left s = .ok vs n) : ∃ x e, Step ty h.mode rest s vs x e := by
  obtain ⟨k, tag, h1, -, h2, h3⟩ := decMems_next ho hd
  have := hk tag h1 k h2
  subst this
  exact step_of hb h3

/-- Members that cannot be missing. -/
theorem step_mandatory {h : Head} {ty : Ty} {rest : Mems} {left : Left} {s : List Byte} {vs : List (Option Val)} {n : Nat}
    (hb : ∀ (s : List Byte) (v : Val) (n : Nat), dec ty h.mode s = .ok v n → n ≤ s.length)
    (ho : h.opt = false) (hd : decMems (.cons h ty rest) none left s = .ok vs n) : ∃ x e, Step ty h.mode rest s vs x e := by
  have h0 : optCount (h :: rest.heads) = 0 := by simp [optCount, ho]
  refine step_first hb (by rw [h0]; simp) (fun tag _ k hk => ?_) hd
  have := (lookup_sound hk).1
  omega

/-- The contents of a structure, for the decoder and for `skip_tl`. (The decoder may see a shorter buffer.) -/
theorem skipTL_hdr {s u s1 : List Byte} {b : Byte} {t : Tag} {tl : Tl} {n : Nat} (hb : b.toNat % 32 ≠ 31) (hc : b.toNat / 32 % 2 = 1)
    (hs : skipTL (s ++ u) b = some s1) (hd : checkTags [t] .none (some true) s = .ok tl n) : s1 = s.drop n ++ u := by
  unfold skipTL at hs
  cases h1 : skipT (s ++ u) b with
  | none => rw [h1] at hs; cases hs
  | some s' =>
    rw [h1] at hs
    simp only at hs
    have h2 := skipT_head h1
    cases s with
    | nil => simp [checkTags, chain, tagsLoop, fetchTag] at hd
    | cons b' s0 =>
      simp only [List.cons_append, List.cons.injEq] at h2
      obtain ⟨rfl, rfl⟩ := h2
      have hf : fetchTag (b' :: s0) = .ok (b'.toNat % 32 * 4 + b'.toNat / 64) 1 := by
        rw [fetchTag_cons, if_pos ((Cms.byte_low5 b').2 hb), byte_low5']
      simp only [checkTags, chain, List.map_cons, List.map_nil, tagsLoop, hf] at hd
      by_cases g1 : some t ≠ none ∧ some t ≠ some (b'.toNat % 32 * 4 + b'.toNat / 64)
      · rw [if_pos g1] at hd; cases hd
      · rw [if_neg g1, if_neg (by simp)] at hd
        have hcon : isConstructed (b' :: s0) = true := (isConstructed_cons b' s0).2 hc
        rw [hcon] at hd
        rw [if_neg (by simp)] at hd
        simp only [List.drop_succ_cons, List.drop_zero] at hd
        have htk : (s0 ++ u).take s0.length = s0 := List.take_left
        cases hl : berFetchLength true s0 with
        | more => rw [hl] at hd; cases hd
        | bad => rw [hl] at hd; cases hd
        | indef =>
          have hl' := (fetchLen_indef_take (s := s0 ++ u) (k := s0.length) (by rw [htk]; exact hl)).1
          have hle := (fetchLen_indef hl).2.1
          rw [hl'] at hs
          rw [hl] at hd
          simp only [ne_eq, not_true_eq_false, if_false, Nat.zero_add] at hs hd
          cases hs
          simp at hd
          rw [← hd.2, List.drop_append_of_le_length hle]
          rfl
        | defn ll v =>
          have hl' := (fetchLen_take (s := s0 ++ u) (k := s0.length) (by rw [htk]; exact hl)).1
          have hle := (fetchLen_sound hl).2.1
          rw [hl'] at hs
          rw [hl] at hd
          simp only [Option.some.injEq] at hs
          rw [List.drop_append_of_le_length hle] at hs
          simp at hd
          rw [← hs, ← hd.2, Nat.add_comm 1 ll]
          rfl

theorem skipTL_seq {ms : Mems} {s u s1 : List Byte} {b : Byte} {t : Tag} {v : Val} {n : Nat} (hb : b.toNat % 32 ≠ 31) (hc : b.toNat / 32 % 2 = 1)
    (hs : skipTL (s ++ u) b = some s1) (hd : dec (.seq [t] ms) .none s = .ok v n) :
    ∃ left vs n' s2 pre, v = .seq vs ∧ s = pre ++ s2 ∧ s1 = s2 ++ u ∧ decMems ms none left s2 = .ok vs n' := by
  unfold dec at hd
  obtain ⟨tl, n0, h1, h2⟩ := andThen_ok hd
  obtain ⟨vs, n1, h3, h4⟩ := andThen_ok h2
  cases h4
  exact ⟨tl.left, vs, n1, s.drop n0, s.take n0, rfl, (List.take_append_drop n0 s).symm, skipTL_hdr hb hc hs h1, h3⟩

theorem skipTL_set {el : Ty} {o : Option Tag} {s u s1 : List Byte} {b : Byte} {t : Tag} {v : Val} {n : Nat} (hb : b.toNat % 32 ≠ 31) (hc : b.toNat / 32 % 2 = 1)
    (hs : skipTL (s ++ u) b = some s1) (hd : dec (.setOf [t] o el) .none s = .ok v n) :
    ∃ f left vs n' s2 pre, v = .list vs ∧ s = pre ++ s2 ∧ s1 = s2 ++ u ∧ setLoop (fun b => dec el .none b) o f left s2 = .ok vs n' := by
  unfold dec at hd
  obtain ⟨tl, n0, h1, h2⟩ := andThen_ok hd
  obtain ⟨vs, n1, h3, h4⟩ := andThen_ok h2
  cases h4
  exact ⟨_, tl.left, vs, n1, s.drop n0, s.take n0, rfl, (List.take_append_drop n0 s).symm, skipTL_hdr hb hc hs h1, h3⟩

/-- The first element of a SET OF. -/
theorem setLoop_first {d : List Byte → R Val} {o : Option Tag} {f : Nat} {left : Left} {s : List Byte} {x : Val} {xs : List Val} {n : Nat}
    (h : setLoop d o f left s = .ok (x :: xs) n) : ∃ n1, d (view left s) = .ok x n1 := by
  cases f with
  | zero => unfold setLoop at h; cases h
  | succ f =>
    unfold setLoop at h
    by_cases h0 : left = .defn 0
    · rw [if_pos h0] at h; cases h
    · rw [if_neg h0] at h
      cases hf : fetchTag (view left s) with
      | more => rw [hf] at h; simp only at h; split at h <;> cases h
      | bad => rw [hf] at h; cases h
      | ok t tl =>
        rw [hf] at h
        simp only at h
        cases he : eocAt left s with
        | crash => rw [he] at h; cases h
        | more => rw [he] at h; cases h
        | yes =>
          rw [he] at h
          cases left with
          | defn L => cases h
          | indef k =>
            simp only at h
            obtain ⟨u, j, h1, h2⟩ := andThen_ok h
            cases h2
        | no =>
          rw [he] at h
          simp only at h
          by_cases ht : o ≠ none ∧ o ≠ some t
          · rw [if_pos ht] at h; cases h
          · rw [if_neg ht] at h
            obtain ⟨y, j, h1, h2⟩ := andThen_ok h
            obtain ⟨ys, j', h3, h4⟩ := andThen_ok h2
            cases h4
            exact ⟨j, frame_ok h1⟩

theorem view_prefix (left : Left) (s : List Byte) : ∃ u, s = view left s ++ u := by
  cases left with
  | defn L => exact ⟨s.drop L, (List.take_append_drop L s).symm⟩
  | indef k => exact ⟨[], by simp [view]⟩

/-! ### The attributes -/

/-- What is signed: the attributes, with the tag of SET OF, if their length is definite. Otherwise, one octet. -/
def Fed (a b : List Byte) : Prop :=
  (∃ l v : List Byte, a = l ++ v ∧ IsLen v.length true l ∧ b = 0x31 :: a) ∨ (∃ x : List Byte, a = 0x80 :: x ∧ b = [0x31])

/-- Where `find_signedAttrs` ends. -/
theorem feed {a post : List Byte} {r : List Byte × Nat} (h : Tlvs .one (0xA0 :: a)) (hlen : (a ++ post).length < 2 ^ 31)
    (hb : (match berFetchLength true (a ++ post) with
      | .defn ll v => some (a ++ post, v + ll)
      | .indef => some (a ++ post, 0)
      | .more => none
      | .bad => none) = some r) : (r.2 ≤ r.1.length + 1) ∧ Fed a (0x31 :: (r.1 ++ [0]).take r.2) := by
  generalize hx : (0xA0 : Byte) :: a = x at h
  generalize hk : Cms.Kind.one = k at h
  cases h with
  | @defn tag c t l v ht hl =>
    have h1 : (t ++ (l ++ v)).head? = some 0xA0 := by rw [← List.append_assoc, ← hx]; rfl
    have := isTag_single ht h1 (by decide)
    subst this
    have hc : c = true := by
      obtain ⟨b, bs, e1, -, e2, -⟩ := ht
      simp only [List.cons.injEq] at e1
      rw [← e1.1] at e2
      exact e2.1 (by decide)
    subst hc
    have ha : a = l ++ v := by simpa using hx
    subst ha
    simp only [List.length_append] at hlen
    rw [List.append_assoc, Asn.fetchLen_complete hl (by omega)] at hb
    cases hb
    refine ⟨by simp only [List.length_append]; omega, .inl ⟨l, v, rfl, hl, ?_⟩⟩
    simp only [List.append_assoc]
    rw [← List.append_assoc, List.take_left' (by simp only [List.length_append]; omega)]
  | @indef tag t y ht hi =>
    have h1 : (t ++ ([0x80] ++ y ++ [0, 0])).head? = some 0xA0 := by rw [← List.append_assoc, ← List.append_assoc, ← hx]; rfl
    have := isTag_single ht h1 (by decide)
    subst this
    have ha : a = 0x80 :: (y ++ [0, 0]) := by simpa using hx
    subst ha
    rw [List.cons_append, Cms.fetch_indef] at hb
    cases hb
    exact ⟨by simp, .inr ⟨_, rfl, by simp⟩⟩
  | nil => cases hk
  | cons _ _ _ => cases hk

/-! ### The whole walk -/

/-- A member that is next, and that is one element: both go on after it. -/
theorem hop {h : Head} {ty : Ty} {rest : Mems} {left : Left} {s u s1 : List Byte} {vs : List (Option Val)} {n : Nat} {b : Byte}
    (hok : ty.Ok) (he : ends ty = true) (hlen : s.length < 2 ^ 62) (hb : b.toNat % 32 ≠ 31)
    (hd : decMems (.cons h ty rest) (some 0) left s = .ok vs n) (hs : skipTLV (s ++ u) b = some s1) :
    ∃ x ws left' s2 n' pre, vs = some x :: ws ∧ s = pre ++ s2 ∧ s1 = s2 ++ u ∧ decMems rest none left' s2 = .ok ws n' := by
  obtain ⟨x, e, ⟨left', ws, s2, n', h1, h2, h3⟩, t, k, h4, h5, -⟩ := step_of (fun s v n hd => (dec_tlvs ty hok he _ _ _ _ hd).2.1) hd
  obtain ⟨-, -, h6⟩ := dec_tlvs ty hok he _ _ _ _ h4
  rw [h5, List.take_left] at h6
  subst h2
  rw [List.append_assoc] at hs
  obtain ⟨-, h7⟩ := skipTLV_inv h6 (by simp only [List.length_append] at hlen; omega) hb hs
  exact ⟨x, ws, left', s2, n', e, h1, rfl, h7, h3⟩

/-- The same, for members that cannot be missing. -/
theorem hop_mandatory {h : Head} {ty : Ty} {rest : Mems} {left : Left} {s u s1 : List Byte} {vs : List (Option Val)} {n : Nat} {b : Byte}
    (hok : ty.Ok) (he : ends ty = true) (hlen : s.length < 2 ^ 62) (hb : b.toNat % 32 ≠ 31) (ho : h.opt = false)
    (hd : decMems (.cons h ty rest) none left s = .ok vs n) (hs : skipTLV (s ++ u) b = some s1) :
    ∃ x ws left' s2 n' pre, vs = some x :: ws ∧ s = pre ++ s2 ∧ s1 = s2 ++ u ∧ decMems rest none left' s2 = .ok ws n' := by
  have h0 : optCount (h :: rest.heads) = 0 := by simp [optCount, ho]
  obtain ⟨k, tag, -, -, h2, h3⟩ := decMems_next (by rw [h0]; simp) hd
  have hk := (lookup_sound h2).1
  obtain rfl : k = 0 := by omega
  exact hop hok he hlen hb h3 hs

theorem skipTLV_byte {s r : List Byte} {b : Byte} (h : skipTLV s b = some r) : ∃ s', s = b :: s' := by
  unfold skipTLV at h
  dsimp only at h
  cases h1 : skipT s b with
  | none => rw [h1] at h; cases h
  | some s' => exact ⟨s', skipT_head h1⟩

theorem skipTL_byte {s r : List Byte} {b : Byte} (h : skipTL s b = some r) : ∃ s', s = b :: s' := by
  unfold skipTL at h
  cases h1 : skipT s b with
  | none => rw [h1] at h; cases h
  | some s' => exact ⟨s', skipT_head h1⟩

/-- The first tag that the decoder sees is that of the byte that the other one sees. -/
theorem firstTag_app {left : Left} {s u s' : List Byte} {b : Byte} {tag : Tag} (hb : b.toNat % 32 ≠ 31) (h : FirstTag (view left s) tag)
    (he : s ++ u = b :: s') : tag = b.toNat % 32 * 4 + b.toNat / 64 := by
  have h := firstTag_view h
  obtain ⟨k, h⟩ := h
  cases s with
  | nil => cases h
  | cons b' s0 =>
    simp only [List.cons_append, List.cons.injEq] at he
    obtain ⟨rfl, -⟩ := he
    obtain ⟨k', h'⟩ := firstTag_byte hb s0
    rw [h'] at h
    cases h
    rfl

theorem andThen_bind {α β : Type} {o : Option α} {f : α → Option β} {b : β} (h : o.bind f = some b) : ∃ a, o = some a ∧ f a = some b :=
  Option.bind_eq_some_iff.1 h

/-- SignedData and SignedDataPKCS7: they differ in the content's type. -/
def sdTy (encap : Ty) : Ty :=
  .seq [64] <|
    .cons ⟨some 8, .none, false, false, [8]⟩ cmsVersionTy <|
    .cons ⟨some 68, .none, false, false, [68]⟩ digestAlgorithmIdentifiersTy <|
    .cons ⟨some 64, .none, false, false, [64]⟩ encap <|
    .cons ⟨some 2, .implicit, true, false, [2]⟩ certificateSetTy <|
    .cons ⟨some 6, .implicit, true, false, [6]⟩ revocationInfoChoicesTy <|
    .cons ⟨some 68, .none, false, false, [68]⟩ signerInfosTy <|
    .nil

/-- The signer's identifier, if it begins with the tag of a key identifier. -/
theorem dec_sid {s u s' : List Byte} {x : Val} {n : Nat} (hd : dec signerIdentifierTy .none s = .ok x n) (he : s ++ u = 0x80 :: s') :
    ∃ b, x = .alt 1 (.bytes b) ∧ dec cmsSubjectKeyIdentifierTy .implicit s = .ok (.bytes b) n := by
  unfold signerIdentifierTy dec at hd
  simp only [decide_true, and_self, if_true, R.andThen, view, List.drop_zero] at hd
  cases hf : fetchTag s with
  | more => rw [hf] at hd; simp [violation] at hd
  | bad => rw [hf] at hd; cases hd
  | ok tag k =>
    rw [hf] at hd
    have ht : tag = 2 := firstTag_app (left := .indef 0) (b := 0x80) (by decide) ⟨k, hf⟩ he
    subst ht
    simp only [violation] at hd
    obtain ⟨x', n1, h1, h2⟩ := andThen_ok hd
    have h1 := frame_ok h1
    simp only [choiceEnd, Left.sub, and_self, if_true] at h2
    cases h2
    unfold decAlts at h1
    rw [if_neg (by decide)] at h1
    unfold decAlts at h1
    rw [if_pos (by decide)] at h1
    obtain ⟨y, n2, h3, h4⟩ := andThen_ok h1
    cases h4
    have hok : cmsSubjectKeyIdentifierTy.Ok := Ty.okB_ok _ (by decide)
    obtain ⟨-, -, hber⟩ := dec_sound hok h3 (.implicit 2) rfl (fun t ht => by cases ht; exact ⟨k, hf⟩)
    obtain ⟨ls, -, hv⟩ := hber
    cases hv
    refine ⟨_, rfl, ?_⟩
    simpa using h3

theorem walk_signer {s u : List Byte} {x : Val} {n : Nat} (hlen : (s ++ u).length < 2 ^ 31) (hd : dec signerInfoTy .none s = .ok x n) {r : List Byte × Nat}
    (hs : (do
      let s ← skipTL (s ++ u) 0x30
      let s ← skipTLV s 0x02
      let s ← skipTLV s 0x80
      let s ← skipTLV s 0x30
      let s ← skipT s 0xA0
      match berFetchLength true s with
      | .defn ll v => some (s, v + ll)
      | .indef => some (s, 0)
      | .more => none
      | .bad => none) = some r) :
    r.2 ≤ r.1.length + 1 ∧
    ∃ iv sid da attrs ws pre a post, x = .seq (some iv :: some (.alt 1 (.bytes sid)) :: some da :: some attrs :: ws) ∧
    s = pre ++ 0xA0 :: (a ++ post) ∧ Ber signedAttributesTy (.implicit 2) attrs (0xA0 :: a) ∧
      dec signedAttributesTy .implicit (0xA0 :: a) = .ok attrs (a.length + 1) ∧ Fed a (0x31 :: (r.1 ++ [0]).take r.2) := by
  simp only [Option.bind_eq_bind] at hs
  obtain ⟨t1, g1, hs⟩ := andThen_bind hs
  obtain ⟨t2, g2, hs⟩ := andThen_bind hs
  obtain ⟨t3, g3, hs⟩ := andThen_bind hs
  obtain ⟨t4, g4, hs⟩ := andThen_bind hs
  obtain ⟨t5, g5, hs⟩ := andThen_bind hs
  simp only [List.length_append] at hlen
  obtain ⟨left, vs, n1, s2, pre0, rfl, rfl, rfl, h1⟩ := skipTL_seq (by decide) (by decide) g1 hd
  simp only [List.length_append] at hlen
  obtain ⟨iv, ws1, left1, s3, n2, pre1, rfl, rfl, rfl, h2⟩ := hop_mandatory (Ty.okB_ok _ (by decide)) (by decide) (by omega) (by decide) rfl h1 g2
  simp only [List.length_append] at hlen
  obtain ⟨s', he⟩ := skipTLV_byte g3
  obtain ⟨x, e, ⟨left2, ws2, s4, n3, rfl, h3, h4⟩, t, k, h5, h6, t', h7⟩ := step_mandatory
    (fun s v n hd => (dec_sound (Ty.okB_ok _ (by decide)) hd .own rfl (fun t ht => by cases ht)).2.1) rfl h2
  obtain ⟨sid, rfl, h8⟩ := dec_sid (u := t' ++ u) h5 (by rw [← he, ← h7]; simp only [List.append_assoc])
  obtain ⟨-, -, h9⟩ := dec_tlvs _ (Ty.okB_ok _ (by decide)) (by decide) _ _ _ _ h8
  rw [h6, List.take_left] at h9
  subst h3
  simp only [List.length_append] at hlen
  rw [List.append_assoc] at g3
  obtain ⟨-, rfl⟩ := skipTLV_inv h9 (by omega) (by decide) g3
  obtain ⟨da, ws3, left3, s5, n4, pre3, rfl, rfl, rfl, h10⟩ := hop_mandatory (Ty.okB_ok _ (by decide)) (by decide) (by omega) (by decide) rfl h4 g4
  simp only [List.length_append] at hlen
  have he5 := skipT_head g5
  obtain ⟨k', tag, -, h11, h12, h13⟩ := decMems_next (by decide) h10
  have htag : tag = 2 := firstTag_app (b := 0xA0) (by decide) h11 he5
  subst htag
  have hk' : k' = 0 := by
    have : lookup (⟨some 2, .implicit, true, false, [2]⟩ :: Mems.heads (
      .cons ⟨some 64, .none, false, false, [64]⟩ signatureAlgorithmIdentifierTy <|
      .cons ⟨some 16, .none, false, false, [16]⟩ signatureValueTy <|
      .cons ⟨some 6, .implicit, true, false, [6]⟩ unsignedAttributesTy <|
      .nil)) 2 = some 0 := by decide
    rw [this] at h12
    exact (Option.some.inj h12).symm
  subst hk'
  have hok : signedAttributesTy.Ok := Ty.okB_ok _ (by decide)
  obtain ⟨attrs, m1, ws4, m2, rfl, -, h14, -⟩ := decMems_zero h13
  obtain ⟨b1, b2, b3⟩ := dec_tlvs _ hok (by decide) _ _ _ _ h14
  obtain ⟨-, -, c3⟩ := dec_sound hok h14 (.implicit 2) rfl (fun t ht => by cases ht; exact h11)
  obtain ⟨v1, v2, v3⟩ := view_take b2
  have hsm := dec_same _ hok _ _ ((view left3 s5).take m1) _ _ h14
    ⟨b2, by rw [List.length_take]; omega, by rw [List.take_take, Nat.min_self]⟩
  rw [v1] at b3 c3 hsm
  have e5 := List.take_append_drop m1 s5
  have hl5 : (s5.take m1).length = m1 := by rw [List.length_take]; exact Nat.min_eq_left v2
  generalize s5.take m1 = y at b3 c3 e5 hl5 hsm
  generalize s5.drop m1 = z at e5
  subst e5
  cases y with
  | nil => simp only [List.length_nil] at hl5; omega
  | cons y0 a =>
    simp only [List.cons_append, List.cons.injEq] at he5
    obtain ⟨rfl, he5⟩ := he5
    subst he5
    rw [List.append_assoc] at hs
    simp only [List.length_append, List.length_cons] at hlen
    obtain ⟨f1, f2⟩ := feed b3 (by simp only [List.length_append]; omega) hs
    refine ⟨f1, iv, sid, da, attrs, ws4, pre0 ++ (pre1 ++ (e ++ pre3)), a, z, rfl, ?_, c3, by rw [hsm]; simp only [List.length_cons] at hl5; rw [hl5], f2⟩
    simp only [List.append_assoc, List.cons_append]

/-- **The same attributes.** What is decoded, and what `find_signedAttrs` finds in the same bytes. -/
theorem walk {encap : Ty} (hok : encap.Ok) (hends : ends encap = true) {s : List Byte} {v : Val} {n : Nat} {r : List Byte × Nat} (hlen : s.length < 2 ^ 31)
    (hd : dec (sdTy encap) .none s = .ok v n) (hs : findSignedAttrs s = some r) :
    ∃ version algs enc certs infos, v = .seq [some version, some algs, some enc, some certs, none, some (.list infos)] ∧
      ∀ x xs, infos = x :: xs → (r.2 ≤ r.1.length + 1) ∧
        ∃ iv sid da attrs ws pre a post, x = .seq (some iv :: some (.alt 1 (.bytes sid)) :: some da :: some attrs :: ws) ∧
        s = pre ++ 0xA0 :: (a ++ post) ∧ Ber signedAttributesTy (.implicit 2) attrs (0xA0 :: a) ∧
      dec signedAttributesTy .implicit (0xA0 :: a) = .ok attrs (a.length + 1) ∧ Fed a (0x31 :: (r.1 ++ [0]).take r.2) := by
  unfold findSignedAttrs at hs
  simp only [Option.bind_eq_bind] at hs
  obtain ⟨t1, g1, hs⟩ := andThen_bind hs
  obtain ⟨t2, g2, hs⟩ := andThen_bind hs
  obtain ⟨t3, g3, hs⟩ := andThen_bind hs
  obtain ⟨t4, g4, hs⟩ := andThen_bind hs
  obtain ⟨t5, g5, hs⟩ := andThen_bind hs
  obtain ⟨t6, g6, hs⟩ := andThen_bind hs
  obtain ⟨left, vs, n1, s2, pre0, rfl, rfl, rfl, h1⟩ := skipTL_seq (u := []) (b := 0x30) (by decide) (by decide) (by simpa using g1) hd
  simp only [List.length_append] at hlen
  obtain ⟨version, ws1, left1, s3, n2, pre1, rfl, rfl, rfl, h2⟩ := hop_mandatory (Ty.okB_ok _ (by decide)) (by decide) (by omega) (by decide) rfl h1 g2
  simp only [List.length_append] at hlen
  obtain ⟨algs, ws2, left2, s4, n3, pre2, rfl, rfl, rfl, h3⟩ := hop_mandatory (Ty.okB_ok _ (by decide)) (by decide) (by omega) (by decide) rfl h2 g3
  simp only [List.length_append] at hlen
  obtain ⟨enc, ws3, left3, s5, n4, pre3, rfl, rfl, rfl, h4⟩ := hop_mandatory hok hends (by omega) (by decide) rfl h3 g4
  simp only [List.length_append] at hlen
  -- The certificates.
  obtain ⟨s', he5⟩ := skipTLV_byte g5
  obtain ⟨k, tag, -, h5, h6, h7⟩ := decMems_next (by decide) h4
  have htag : tag = 2 := firstTag_app (b := 0xA0) (by decide) h5 he5
  subst htag
  have hk : k = 0 := by
    have : lookup (⟨some 2, .implicit, true, false, [2]⟩ :: Mems.heads (
      .cons ⟨some 6, .implicit, true, false, [6]⟩ revocationInfoChoicesTy <|
      .cons ⟨some 68, .none, false, false, [68]⟩ signerInfosTy <|
      .nil)) 2 = some 0 := by decide
    rw [this] at h6
    exact (Option.some.inj h6).symm
  subst hk
  obtain ⟨certs, ws4, left4, s6, n5, pre4, rfl, rfl, rfl, h8⟩ := hop (Ty.okB_ok _ (by decide)) (by decide) (by omega) (by decide) h7 g5
  simp only [List.length_append] at hlen
  -- No CRLs.
  obtain ⟨s'', he6⟩ := skipTL_byte g6
  obtain ⟨k, tag, -, h9, h10, h11⟩ := decMems_next (by decide) h8
  have htag : tag = 68 := firstTag_app (b := 0x31) (by decide) h9 he6
  subst htag
  have hk : k = 1 := by
    have : lookup (⟨some 6, .implicit, true, false, [6]⟩ :: Mems.heads (
      .cons ⟨some 68, .none, false, false, [68]⟩ signerInfosTy <|
      .nil)) 68 = some 1 := by decide
    rw [this] at h10
    exact (Option.some.inj h10).symm
  subst hk
  obtain ⟨ws5, rfl, h12⟩ := decMems_succ h11
  obtain ⟨infos, m1, ws6, m2, rfl, -, h13, h14⟩ := decMems_zero h12
  have hw6 : ws6 = [] := by
    unfold decMems at h14
    obtain ⟨_, _, _, h15⟩ := andThen_ok h14
    cases h15
    rfl
  subst hw6
  obtain ⟨u, hu⟩ := view_prefix left4 s6
  rw [List.append_nil, hu] at g6
  obtain ⟨f, left5, infos, m3, s7, pre5, rfl, h16, rfl, h17⟩ := skipTL_set (by decide) (by decide) g6 h13
  refine ⟨version, algs, enc, certs, infos, rfl, ?_⟩
  rintro x xs rfl
  obtain ⟨m4, h18⟩ := setLoop_first h17
  obtain ⟨u', hu'⟩ := view_prefix left5 s7
  have hl6 : s6.length = (pre5 ++ s7).length + u.length := by rw [hu, h16, List.length_append]
  have hl7 : s7.length = (view left5 s7).length + u'.length := by rw [← List.length_append, ← hu']
  simp only [List.length_append] at hl6
  obtain ⟨q1, iv, sid, da, attrs, ws, pre, a, post, q2, q3, q4, q6, q5⟩ := walk_signer (u := u' ++ u) (by simp only [List.length_append]; omega) h18 (r := r) (by
    rw [← List.append_assoc, ← hu']
    exact hs)
  refine ⟨q1, iv, sid, da, attrs, ws, pre0 ++ (pre1 ++ (pre2 ++ (pre3 ++ (pre4 ++ (pre5 ++ pre))))), a, post ++ (u' ++ u), q2, ?_, q4, q6, q5⟩
  rw [hu, h16, hu', q3]
  simp only [List.append_assoc, List.cons_append]

end Verif.Sd
