import Verif.Print.DecLemmas
/-
C142: signed objects reach the decoder as they are. C150: exit status.
-/
namespace Verif.Print
open Verif.Res (Byte be)
open Verif.Cms

/-! ### The decoder accepts elements -/

/-- Many steps. -/
inductive Goes : Dec → List Byte → Dec → List Byte → Prop
  | refl (d : Dec) (a : List Byte) : Goes d a d a
  | step {d d' d'' : Dec} {a b : List Byte} {k : Nat} (h : decStep d a = .advance k d') (t : Goes d' (a.drop k) d'' b) : Goes d a d'' b

theorem Goes.trans {d d' d'' : Dec} {a b c : List Byte} (h1 : Goes d a d' b) (h2 : Goes d' b d'' c) : Goes d a d'' c := by
  induction h1 with
  | refl => exact h2
  | step h _ ih => exact .step h (ih h2)

theorem Goes.call {d d' : Dec} {a b : List Byte} (h : Goes d a d' b) : decCall d a = decCall d' b := by
  induction h with
  | refl => rfl
  | step h _ ih => rw [decCall_eq, h]; exact ih

/-- A frame with room for `n` more bytes. -/
def Frame.Fits (f : Frame) (n : Nat) : Prop := match f.left with | some l => n ≤ l | none => f.wantNulls = true

/-- The frame after `n` bytes. -/
def Frame.adv (f : Frame) (n : Nat) : Frame := ⟨f.left.map (· - n), f.got + n, f.wantNulls⟩

/-- An element of `n` bytes can start here: nothing's around, or a frame with room. -/
def Room (T : List Frame) (x : List Byte) : Prop :=
  match T with
  | [] => True
  | f :: _ => f.Fits x.length ∧ x.take 2 ≠ [0, 0]

theorem isConstructed_append {t : List Byte} (ht : IsTag t) (r : List Byte) : isConstructed (t ++ r) = isConstructed t := by
  have := isTag_len ht
  cases t with
  | nil => simp at this
  | cons a t => rfl

theorem not_constructed {t : List Byte} (ht : IsTag t) (h : ¬ TagConstructed t) : isConstructed t = false := by
  have := isTag_len ht
  cases t with
  | nil => simp at this
  | cons a t =>
    cases hc : isConstructed (a :: t) with
    | false => rfl
    | true =>
      exfalso
      apply h
      unfold isConstructed at hc
      exact ⟨a, t, rfl, (byte_bit5 a).1 (of_decide_eq_true hc)⟩

theorem limited {x r : List Byte} {l : Option Nat} {n : Nat} (h : ∀ k, l = some k → x.length ≤ k) (hn : n = (x ++ r).length) :
    ∃ r', (x ++ r).take (l.getD n) = x ++ r' := by
  cases l with
  | none => exact ⟨r, by rw [Option.getD_none, hn, List.take_length]⟩
  | some k => exact ⟨_, by rw [Option.getD_some, List.take_append, List.take_of_length_le (h k rfl)]⟩

theorem Room.not_over {f : Frame} {T : List Frame} {x : List Byte} (h : Room (f :: T) x) (h2 : 2 ≤ x.length) : f.over = false := by
  obtain ⟨h, _⟩ := h
  unfold Frame.Fits at h
  unfold Frame.over
  cases hl : f.left with
  | none => rw [hl] at h; simp only at h; rw [h]; simp
  | some l =>
    rw [hl] at h
    simp only at h
    have : l ≠ 0 := by omega
    simp [this]

/-- In phase 1, if there's room, the next thing is a header. -/
theorem step_header {T : List Frame} {x r : List Byte} (h : Room T x) (h2 : 2 ≤ x.length) : ∃ r', decStep ⟨T, false⟩ (x ++ r) = header1 ⟨T, false⟩ (x ++ r') := by
  unfold decStep
  rw [if_neg (by simp)]
  cases T with
  | nil => exact ⟨r, rfl⟩
  | cons f T =>
    have ho := h.not_over h2
    have hfit : ∀ k, f.left = some k → x.length ≤ k := by
      intro k hk
      have := h.1
      unfold Frame.Fits at this
      rw [hk] at this
      exact this
    obtain ⟨r', hr⟩ := limited (r := r) (n := (x ++ r).length) hfit rfl
    refine ⟨r', ?_⟩
    cases T with
    | nil => dsimp only; rw [if_neg (by rw [ho]; decide), hr]
    | cons p T => dsimp only; rw [if_neg (by rw [ho]; decide), hr]

theorem not_eoc {x r : List Byte} (h2 : 2 ≤ x.length) (h : x.take 2 ≠ [0, 0]) : ¬ ((x ++ r)[0]? = some 0 ∧ (x ++ r)[1]? = some 0) := by
  match x, h2 with
  | a :: b :: x, _ =>
    rintro ⟨h0, h1⟩
    apply h
    injection h0 with h0
    injection h1 with h1
    simp only [h0, h1]
    rfl

/-- What a header does: a new frame. -/
theorem header_defn {T : List Frame} {t l w x : List Byte} {n : Nat} (ht : IsTag t) (hl : IsLen n l) (hn : n < 2 ^ 62) (hx : x = t ++ (l ++ w))
    (hw : w.length = n) (hr : Room T x) (r : List Byte) :
    header1 ⟨T, false⟩ (x ++ r) = .advance (t.length + l.length) ⟨⟨some n, t.length + l.length, false⟩ :: T, !isConstructed t⟩ := by
  have h1 := isTag_len ht
  have h3 := isLen_len hl
  have hlen : x.length = t.length + (l.length + w.length) := by rw [hx]; simp
  unfold header1
  have e : x ++ r = t ++ (l ++ (w ++ r)) := by rw [hx]; simp
  have hb : berFetchTag (x ++ r) = .ok t.length := by rw [e]; exact fetchTag_spec ht _
  rw [hb]
  dsimp only
  have hc : isConstructed (x ++ r) = isConstructed t := by rw [e]; exact isConstructed_append ht _
  have hd : (x ++ r).drop t.length = l ++ (w ++ r) := by rw [e, List.drop_left]
  rw [hc, hd, fetch_isLen hl (by omega)]
  dsimp only
  cases T with
  | nil => rfl
  | cons f T =>
    dsimp only
    rw [if_neg (fun h => not_eoc (by omega) hr.2 h.2)]
    unfold push
    dsimp only
    have hf := hr.1
    unfold Frame.Fits at hf
    cases hfl : f.left with
    | none => rfl
    | some k =>
      rw [hfl] at hf
      simp only [Option.getD_some] at hf ⊢
      rw [if_neg (by omega)]
      rfl

theorem header_indef {T : List Frame} {t v x : List Byte} (ht : IsTag t) (hc : TagConstructed t) (hx : x = t ++ (0x80 :: (v ++ [0, 0])))
    (hr : Room T x) (r : List Byte) :
    ∃ g : Frame, header1 ⟨T, false⟩ (x ++ r) = .advance (t.length + 1) ⟨g :: T, false⟩ ∧ g.got = t.length + 1 ∧ g.wantNulls = true ∧ g.Fits (v.length + 2) := by
  have h1 := isTag_len ht
  have hlen : x.length = t.length + (v.length + 3) := by rw [hx]; simp
  have e : x ++ r = t ++ (0x80 :: (v ++ [0, 0] ++ r)) := by rw [hx]; simp
  have hc1 := isConstructed_iff hc
  unfold header1
  have hb : berFetchTag (x ++ r) = .ok t.length := by rw [e]; exact fetchTag_spec ht _
  rw [hb]
  dsimp only
  have hc : isConstructed (x ++ r) = true := by rw [e, isConstructed_append ht, hc1]
  have hd : (x ++ r).drop t.length = 0x80 :: (v ++ [0, 0] ++ r) := by rw [e, List.drop_left]
  rw [hc, hd, fetch_indef]
  dsimp only
  unfold push
  cases T with
  | nil => exact ⟨_, rfl, rfl, rfl, rfl⟩
  | cons f T =>
    dsimp only
    have hf := hr.1
    unfold Frame.Fits at hf
    cases hfl : f.left with
    | none => exact ⟨_, rfl, rfl, rfl, rfl⟩
    | some k =>
      rw [hfl] at hf
      simp only [Option.getD_none] at hf ⊢
      rw [if_neg (by omega)]
      refine ⟨_, rfl, rfl, rfl, ?_⟩
      show v.length + 2 ≤ k - (t.length + 1)
      omega

theorem goes_value : ∀ (v : List Byte) (g : Nat) (w : Bool) (T : List Frame) (r : List Byte),
    Goes ⟨⟨some v.length, g, w⟩ :: T, true⟩ (v ++ r) ⟨⟨some 0, g + v.length, w⟩ :: T, false⟩ r := by
  intro v
  induction v with
  | nil => intro g w T r; exact .step (k := 0) (by unfold decStep; rfl) (.refl _ _)
  | cons b v ih =>
    intro g w T r
    refine .step (k := 1) (d' := ⟨⟨some v.length, g + 1, w⟩ :: T, true⟩) (by unfold decStep; rfl) ?_
    have := ih (g + 1) w T r
    rw [show g + 1 + v.length = g + (b :: v).length by simp; omega] at this
    exact this

theorem goes_pop {n g : Nat} {f : Frame} {T : List Frame} {r : List Byte} (hg : g = n) (h : f.Fits n) :
    Goes ⟨⟨some 0, g, false⟩ :: f :: T, false⟩ r ⟨f.adv n :: T, false⟩ r := by
  subst hg
  refine .step (k := 0) (d' := ⟨f.adv g :: T, false⟩) ?_ (.refl _ _)
  unfold decStep Frame.adv
  unfold Frame.Fits at h
  cases hl : f.left with
  | none =>
    simp only [Frame.over]
    rw [hl]
    rfl
  | some l =>
    rw [hl] at h
    simp only at h
    dsimp only
    rw [if_neg (by simp), if_pos (by rfl), hl]
    dsimp only
    rw [if_neg (by omega)]
    rfl

theorem adv_zero (f : Frame) : f.adv 0 = f := by
  obtain ⟨l, g, w⟩ := f
  unfold Frame.adv
  cases l <;> rfl

theorem adv_adv (f : Frame) (n m : Nat) : (f.adv n).adv m = f.adv (n + m) := by
  obtain ⟨l, g, w⟩ := f
  unfold Frame.adv
  cases l with
  | none => simp [Nat.add_assoc]
  | some l => simp [Nat.add_assoc, Nat.sub_sub]

theorem fits_adv {f : Frame} {n m : Nat} (h : f.Fits (n + m)) : (f.adv n).Fits m := by
  obtain ⟨l, g, w⟩ := f
  unfold Frame.Fits Frame.adv at *
  cases l with
  | none => exact h
  | some l => simp only [Option.map_some] at *; omega

theorem fits_le {f : Frame} {n m : Nat} (h : f.Fits n) (hm : m ≤ n) : f.Fits m := by
  obtain ⟨l, g, w⟩ := f
  unfold Frame.Fits at *
  cases l with
  | none => exact h
  | some l => simp only at *; omega

theorem tlv_len {x : List Byte} (h : Tlv .one x) : 2 ≤ x.length := by
  generalize hk : Kind.one = k at h
  cases h with
  | prim t l v ht hc hl => have := isTag_len ht; have := isLen_len hl; simp; omega
  | constr t l v ht hc hl hv => have := isTag_len ht; have := isLen_len hl; simp; omega
  | indef t v ht hc hv => have := isTag_len ht; simp; omega
  | nil => cases hk
  | cons => cases hk

/-- What the decoder does with elements. -/
def Walks : Kind → List Byte → Prop
  | .one, x => ∀ (T : List Frame) (r : List Byte), Room T x → Goes ⟨T, false⟩ (x ++ r) ⟨⟨some 0, x.length, false⟩ :: T, false⟩ r
  | .seq, xs => ∀ (f : Frame) (T : List Frame) (r : List Byte), f.Fits xs.length → Goes ⟨f :: T, false⟩ (xs ++ r) ⟨f.adv xs.length :: T, false⟩ r

theorem walks {k : Kind} {x : List Byte} (h : Tlv k x) (hlen : x.length < 2 ^ 62) : Walks k x := by
  induction h with
  | prim t l v ht hc hl =>
    intro T r hr
    have h1 := isTag_len ht
    have h3 := isLen_len hl
    have hlen' : (t ++ (l ++ v)).length = t.length + (l.length + v.length) := by simp
    obtain ⟨r', hs⟩ := step_header (r := r) hr (by omega)
    rw [header_defn ht hl (by omega) rfl rfl hr, not_constructed ht hc] at hs
    refine .step hs ?_
    have e : (t ++ (l ++ v) ++ r).drop (t.length + l.length) = v ++ r := by
      rw [show t ++ (l ++ v) ++ r = (t ++ l) ++ (v ++ r) by simp, ← List.length_append, List.drop_left]
    rw [e, hlen', ← Nat.add_assoc]
    exact goes_value v _ false T r
  | constr t l v ht hc hl hv ih =>
    intro T r hr
    have h1 := isTag_len ht
    have h3 := isLen_len hl
    have hlen' : (t ++ (l ++ v)).length = t.length + (l.length + v.length) := by simp
    obtain ⟨r', hs⟩ := step_header (r := r) hr (by omega)
    rw [header_defn ht hl (by omega) rfl rfl hr, isConstructed_iff hc] at hs
    refine .step hs ?_
    have e : (t ++ (l ++ v) ++ r).drop (t.length + l.length) = v ++ r := by
      rw [show t ++ (l ++ v) ++ r = (t ++ l) ++ (v ++ r) by simp, ← List.length_append, List.drop_left]
    rw [e, hlen', ← Nat.add_assoc]
    have := ih (by omega) ⟨some v.length, t.length + l.length, false⟩ T r (Nat.le_refl _)
    rw [show Frame.adv ⟨some v.length, t.length + l.length, false⟩ v.length = ⟨some 0, t.length + l.length + v.length, false⟩ by
      unfold Frame.adv; simp] at this
    exact this
  | indef t v ht hc hv ih =>
    intro T r hr
    have h1 := isTag_len ht
    have hlen' : (t ++ (0x80 :: (v ++ [0, 0]))).length = t.length + (v.length + 3) := by simp
    obtain ⟨r', hs⟩ := step_header (r := r) hr (by omega)
    obtain ⟨g, hg, hgot, hw, hfit⟩ := header_indef ht hc rfl hr r'
    rw [hg] at hs
    refine .step hs ?_
    have e : (t ++ (0x80 :: (v ++ [0, 0])) ++ r).drop (t.length + 1) = v ++ ([0, 0] ++ r) := by
      rw [show t ++ (0x80 :: (v ++ [0, 0])) ++ r = (t ++ [0x80]) ++ (v ++ ([0, 0] ++ r)) by simp,
        show t.length + 1 = (t ++ [0x80]).length by simp, List.drop_left]
    rw [e]
    refine (ih (by omega) g T _ (fits_le hfit (by omega))).trans ?_
    have hfit2 := fits_adv hfit
    refine .step (k := 2) (d' := ⟨⟨some 0, (g.adv v.length).got + 2, false⟩ :: T, false⟩) ?_ ?_
    · have hstep : ∃ r', decStep ⟨g.adv v.length :: T, false⟩ ([0, 0] ++ r) = header1 ⟨g.adv v.length :: T, false⟩ ([0, 0] ++ r') := by
        have ho : (g.adv v.length).over = false := by unfold Frame.over; rw [show (g.adv v.length).wantNulls = true from hw]; simp
        have hfit3 : ∀ k, (g.adv v.length).left = some k → ([0, 0] : List Byte).length ≤ k := by
          intro k hk
          unfold Frame.Fits at hfit2
          rw [hk] at hfit2
          exact hfit2
        obtain ⟨r', hr'⟩ := limited (r := r) (n := ([0, 0] ++ r : List Byte).length) hfit3 rfl
        refine ⟨r', ?_⟩
        unfold decStep
        rw [if_neg (by simp)]
        cases T with
        | nil => dsimp only; rw [if_neg (by rw [ho]; decide), hr']
        | cons p T => dsimp only; rw [if_neg (by rw [ho]; decide), hr']
      obtain ⟨r', hr'⟩ := hstep
      rw [hr']
      unfold header1
      have hb : berFetchTag ([0, 0] ++ r') = .ok 1 := by rw [List.cons_append, fetchTag_cons, if_pos (by decide)]
      rw [hb]
      dsimp only
      have hf : berFetchLength (isConstructed ([0, 0] ++ r')) (([0, 0] ++ r').drop 1) = .defn 1 0 := by
        show berFetchLength _ (0 :: r') = _
        rw [fetch_cons, if_pos (by decide)]
        rfl
      rw [hf]
      dsimp only
      rw [if_pos ⟨hw, rfl, rfl⟩]
    · rw [hlen']
      rw [show (g.adv v.length).got + 2 = t.length + (v.length + 3) by show g.got + v.length + 2 = _; omega]
      exact .refl _ _
  | nil =>
    intro f T r _
    rw [show f.adv ([] : List Byte).length = f from adv_zero f]
    exact .refl _ _
  | cons x xs hx h0 hxs ih1 ih2 =>
    intro f T r hf
    have hl : (x ++ xs).length = x.length + xs.length := by simp
    rw [hl] at hf hlen ⊢
    rw [List.append_assoc]
    refine (ih1 (by omega) (f :: T) _ ⟨fits_le hf (by omega), h0⟩).trans ?_
    refine (goes_pop rfl (fits_le hf (by omega))).trans ?_
    have := ih2 (by omega) (f.adv x.length) T r (fits_adv hf)
    rw [adv_adv] at this
    exact this

/-- The decoder accepts every element, whatever follows, if it gets it at once. -/
theorem decCall_element {x : List Byte} (h : IsElement x) (r : List Byte) : decCall Dec.start (x ++ r) = .ok := by
  have : decCall ⟨[], false⟩ (x ++ r) = .ok := by
    rw [(walks h.1 h.2 [] r trivial).call, decCall_eq]
    rfl
  exact this

/-! ### C142 -/

/-- Whatever the sizes of a parser's reads are, it gets the bytes of the file, in order, all of them before it's told that there are no more. -/
theorem C142_reads (configured : FileType) (file : List Byte) (ns : List Nat) (hn : ∀ n ∈ ns, 0 < n) (hf : file ≠ []) :
    (reads (guessBio configured file) ns).flatten <+: file ∧
    ([] ∈ reads (guessBio configured file) ns → (reads (guessBio configured file) ns).flatten = file) := by
  have core : ∀ (ns : List Nat) (b : BioSeq), (∀ n ∈ ns, 0 < n) → (b.prefix ≠ some []) →
      (reads b ns).flatten <+: b.prefix.getD [] ++ b.suffix ∧
      ([] ∈ reads b ns → (reads b ns).flatten = b.prefix.getD [] ++ b.suffix) := by
    intro ns
    induction ns with
    | nil => intro b _ _; exact ⟨List.nil_prefix, (fun h => by cases h)⟩
    | cons n ns ih =>
      intro b hns hb
      have hn0 : 0 < n := hns n (.head _)
      have hns' : ∀ m ∈ ns, 0 < m := fun m hm => hns m (.tail _ hm)
      have key : ∀ (r : List Byte) (b' : BioSeq), bioseqRead b n = (r, b') → b'.prefix ≠ some [] →
          b.prefix.getD [] ++ b.suffix = r ++ (b'.prefix.getD [] ++ b'.suffix) → (r = [] → b.prefix.getD [] ++ b.suffix = []) →
          (reads b (n :: ns)).flatten <+: b.prefix.getD [] ++ b.suffix ∧
          ([] ∈ reads b (n :: ns) → (reads b (n :: ns)).flatten = b.prefix.getD [] ++ b.suffix) := by
        intro r b' hr hb' he hend
        have hrd : reads b (n :: ns) = r :: reads b' ns := by rw [reads, hr]
        obtain ⟨h1, h2⟩ := ih b' hns' hb'
        rw [hrd, List.flatten_cons, he]
        refine ⟨(List.prefix_append_right_inj r).2 h1, fun hm => ?_⟩
        rcases List.mem_cons.1 hm with hm | hm
        · have h3 := hend hm.symm
          rw [he] at h3
          have h4 : b'.prefix.getD [] ++ b'.suffix = [] := (List.append_eq_nil_iff.1 h3).2
          rw [h4] at h1
          rw [List.prefix_nil.1 h1, h4]
        · rw [h2 hm]
      cases hp : b.prefix with
      | none =>
        refine hp ▸ key (b.suffix.take n) ⟨none, b.suffix.drop n⟩ ?_ (fun h => by cases h) ?_ ?_
        · unfold bioseqRead; rw [hp]; simp only [bioRead]
        · rw [hp]; simp
        · intro h
          rw [hp]
          cases hs : b.suffix with
          | nil => rfl
          | cons a t =>
            rw [hs] at h
            cases n with
            | zero => omega
            | succ n => cases h
      | some p =>
        have hpne : p ≠ [] := fun h => hb (by rw [hp, h])
        have hrne : p.take n ≠ [] := by
          cases p with
          | nil => exact absurd rfl hpne
          | cons a t =>
            cases n with
            | zero => omega
            | succ n => exact fun h => by cases h
        by_cases hd : p.drop n = []
        · refine hp ▸ key (p.take n) ⟨none, b.suffix⟩ ?_ (fun h => by cases h) ?_ (fun h => absurd h hrne)
          · unfold bioseqRead
            rw [hp]
            show (if p.drop n = [] ∨ p.take n = [] then _ else _) = _
            rw [if_pos (.inl hd)]
          · rw [hp]
            have := List.take_append_drop n p
            rw [hd, List.append_nil] at this
            rw [this]; rfl
        · refine hp ▸ key (p.take n) ⟨some (p.drop n), b.suffix⟩ ?_ (fun h => hd (by injection h)) ?_ (fun h => absurd h hrne)
          · unfold bioseqRead
            rw [hp]
            show (if p.drop n = [] ∨ p.take n = [] then _ else _) = _
            rw [if_neg (by rintro (h | h); exacts [hd h, hrne h])]
          · rw [hp]
            simp only [Option.getD_some]
            rw [← List.append_assoc, List.take_append_drop]
  have hb : (guessBio configured file).prefix ≠ some [] := by
    unfold guessBio
    split
    · exact fun h => by cases h
    · intro h
      injection h with h
      cases file with
      | nil => exact hf rfl
      | cons a t => cases h
  have he : (guessBio configured file).prefix.getD [] ++ (guessBio configured file).suffix = file := by
    unfold guessBio
    split
    · rfl
    · exact List.take_append_drop 32 file
  have := core ns (guessBio configured file) hn hb
  rw [he] at this
  exact this


theorem bio2ciLoop_clean {file : List Byte} (h : IsElement file) (k0 : Nat)
    (clean : ∀ i, k0 + 4096 * i < file.length → ∃ d, decCall Dec.start (file.take (k0 + 4096 * i)) = .more [] d) :
    ∀ (n i : Nat) (d : Dec), k0 + 4096 * i < file.length → decCall Dec.start (file.take (k0 + 4096 * i)) = .more [] d →
      file.length - (k0 + 4096 * i) < n → bio2ciLoop n d ⟨none, file.drop (k0 + 4096 * i)⟩ = .ok := by
  intro n
  induction n with
  | zero => intro i d _ _ h; omega
  | succ n ih =>
    intro i d hlt hd hn
    unfold bio2ciLoop
    have hrd : bioseqRead ⟨none, file.drop (k0 + 4096 * i)⟩ 4096 =
      ((file.drop (k0 + 4096 * i)).take 4096, ⟨none, (file.drop (k0 + 4096 * i)).drop 4096⟩) := rfl
    rw [hrd]
    dsimp only
    have hne : (file.drop (k0 + 4096 * i)).take 4096 ≠ [] := by
      intro h
      have := congrArg List.length h
      rw [List.length_take, List.length_drop, List.length_nil] at this
      omega
    rw [if_neg hne]
    have happ := decCall_append _ Dec.start (file.take (k0 + 4096 * i)) ((file.drop (k0 + 4096 * i)).take 4096) (size_lt _ _)
    rw [hd] at happ
    simp only [List.nil_append] at happ
    rw [← List.take_add] at happ
    rw [← happ]
    by_cases hend : k0 + 4096 * i + 4096 < file.length
    · have hi : k0 + 4096 * (i + 1) = k0 + 4096 * i + 4096 := by rw [Nat.mul_succ, Nat.add_assoc]
      obtain ⟨d', hd'⟩ := clean (i + 1) (by rw [hi]; exact hend)
      rw [hi] at hd'
      rw [hd']
      dsimp only
      rw [List.drop_drop]
      have := ih (i + 1) d' (by rw [hi]; exact hend) (by rw [hi]; exact hd') (by rw [hi]; omega)
      rw [hi] at this
      exact this
    · rw [List.take_of_length_le (by omega)]
      have := decCall_element h []
      rw [List.append_nil] at this
      rw [this]

/-- An element is decoded, whatever its size is, if the decoder consumes everything it's given at each read but the last one: if no read ends
within a tag or a length. -/
theorem C142_partial (configured : FileType) (file : List Byte) (h : IsElement file)
    (hclean : ∀ k, ReadEnd configured k → k < file.length → ∃ d, decCall Dec.start (file.take k) = .more [] d) :
    bio2ci (guessBio configured file) = .ok := by
  have h2 := tlv_len h.1
  unfold bio2ci guessBio
  by_cases hc : configured = .unk
  · rw [if_neg (by rw [hc]; decide)]
    simp only [Option.getD_some]
    have hr : bioseqRead ⟨some (file.take 32), file.drop 32⟩ 4096 = (file.take 32, ⟨none, file.drop 32⟩) := by
      unfold bioseqRead
      show (if (file.take 32).drop 4096 = [] ∨ (file.take 32).take 4096 = [] then _ else _) = _
      have hd : (file.take 32).drop 4096 = [] := List.drop_eq_nil_of_le (by rw [List.length_take]; omega)
      rw [if_pos (.inl hd)]
      have ht : (file.take 32).take 4096 = file.take 32 := List.take_of_length_le (by rw [List.length_take]; omega)
      show ((file.take 32).take 4096, _) = _
      rw [ht]
    rw [show (file.drop 32).length + (file.take 32).length + 2 = (file.drop 32).length + (file.take 32).length + 1 + 1 from rfl]
    unfold bio2ciLoop
    rw [hr]
    dsimp only
    have hne : file.take 32 ≠ [] := by
      intro h
      have := congrArg List.length h
      rw [List.length_take, List.length_nil] at this
      omega
    rw [if_neg hne]
    by_cases hlt : 32 < file.length
    · obtain ⟨d, hd⟩ := hclean 32 ⟨0, by rw [if_pos hc]⟩ hlt
      rw [hd]
      dsimp only
      have := bio2ciLoop_clean h 32 (fun i hi => hclean _ ⟨i, by rw [if_pos hc]⟩ hi) ((file.drop 32).length + (file.take 32).length + 1) 0 d (by omega) hd
        (by rw [List.length_drop, List.length_take]; omega)
      exact this
    · rw [List.take_of_length_le (by omega)]
      have := decCall_element h []
      rw [List.append_nil] at this
      rw [this]
  · rw [if_pos hc]
    have := bio2ciLoop_clean h 0 (fun i hi => by
        cases i with
        | zero => exact ⟨Dec.start, rfl⟩
        | succ i => exact hclean _ ⟨i, by rw [if_neg hc]; omega⟩ hi) (file.length + 0 + 2) 0 Dec.start (by omega) rfl (by omega)
    exact this

/-- If the type is configured, there's nothing to worry about up to 4096 bytes. -/
theorem C142_partial_small (configured : FileType) (hc : configured ≠ .unk) (file : List Byte) (h : IsElement file) (hs : file.length ≤ 4096) :
    bio2ci (guessBio configured file) = .ok := by
  refine C142_partial configured file h ?_
  rintro k ⟨i, hk⟩ hlt
  rw [if_neg hc] at hk
  omega

/-! ### The witness -/

/-- The start of a SignedData whose digest algorithm is SHA-1, in a ContentInfo: the NULL parameters are at bytes 31 and 32. Print mode's first read ends between them. -/
def exSplit : List Byte :=
  [0x30, 0x25, 0x06, 0x09, 0x2A, 0x86, 0x48, 0x86, 0xF7, 0x0D, 0x01, 0x07, 0x02, 0xA0, 0x18, 0x30, 0x16, 0x02, 0x01, 0x03, 0x31, 0x0B,
   0x30, 0x09, 0x06, 0x05, 0x2B, 0x0E, 0x03, 0x02, 0x1A, 0x05, 0x00, 0x30, 0x04, 0x04, 0x02, 0x0A, 0x0B]

theorem len1 (b : Byte) (h : b.toNat < 128) : IsLen b.toNat [b] := .inl ⟨b, rfl, rfl, h⟩
theorem tag1 (b : Byte) (h : b.toNat % 32 ≠ 31) : IsTag [b] := .inl ⟨b, rfl, h⟩
theorem tlvPrim (t l : Byte) (v : List Byte) (ht : t.toNat % 32 ≠ 31) (hc : t.toNat / 32 % 2 ≠ 1) (hl : l.toNat < 128) (hv : v.length = l.toNat) :
    Tlv .one (t :: l :: v) :=
  .prim [t] [l] v (tag1 t ht) (by rintro ⟨b, bs, h, h2⟩; injection h with h _; subst h; exact hc h2) (hv ▸ len1 l hl)
theorem tlvConstr (t l : Byte) (v : List Byte) (ht : t.toNat % 32 ≠ 31) (hc : t.toNat / 32 % 2 = 1) (hl : l.toNat < 128) (hv : v.length = l.toNat)
    (h : Tlv .seq v) : Tlv .one (t :: l :: v) :=
  .constr [t] [l] v (tag1 t ht) ⟨t, [], rfl, hc⟩ (hv ▸ len1 l hl) h

theorem exSplit_element : IsElement exSplit := by
  refine ⟨?_, by decide⟩
  have oid : Tlv .one [0x06, 0x05, 0x2B, 0x0E, 0x03, 0x02, 0x1A] := tlvPrim _ _ _ (by decide) (by decide) (by decide) (by decide)
  have null : Tlv .one [0x05, 0x00] := tlvPrim _ _ _ (by decide) (by decide) (by decide) (by decide)
  have alg : Tlv .one [0x30, 0x09, 0x06, 0x05, 0x2B, 0x0E, 0x03, 0x02, 0x1A, 0x05, 0x00] :=
    tlvConstr _ _ _ (by decide) (by decide) (by decide) (by decide) (.cons _ _ oid (by decide) (.cons _ [] null (by decide) .nil))
  have algs : Tlv .one [0x31, 0x0B, 0x30, 0x09, 0x06, 0x05, 0x2B, 0x0E, 0x03, 0x02, 0x1A, 0x05, 0x00] :=
    tlvConstr _ _ _ (by decide) (by decide) (by decide) (by decide) (.cons _ [] alg (by decide) .nil)
  have ver : Tlv .one [0x02, 0x01, 0x03] := tlvPrim _ _ _ (by decide) (by decide) (by decide) (by decide)
  have oct : Tlv .one [0x04, 0x02, 0x0A, 0x0B] := tlvPrim _ _ _ (by decide) (by decide) (by decide) (by decide)
  have enc : Tlv .one [0x30, 0x04, 0x04, 0x02, 0x0A, 0x0B] :=
    tlvConstr _ _ _ (by decide) (by decide) (by decide) (by decide) (.cons _ [] oct (by decide) .nil)
  have sd : Tlv .one [0x30, 0x16, 0x02, 0x01, 0x03, 0x31, 0x0B, 0x30, 0x09, 0x06, 0x05, 0x2B, 0x0E, 0x03, 0x02, 0x1A, 0x05, 0x00, 0x30, 0x04, 0x04, 0x02, 0x0A, 0x0B] :=
    tlvConstr _ _ _ (by decide) (by decide) (by decide) (by decide) (.cons _ _ ver (by decide) (.cons _ _ algs (by decide) (.cons _ [] enc (by decide) .nil)))
  have content : Tlv .one [0xA0, 0x18, 0x30, 0x16, 0x02, 0x01, 0x03, 0x31, 0x0B, 0x30, 0x09, 0x06, 0x05, 0x2B, 0x0E, 0x03, 0x02, 0x1A, 0x05, 0x00, 0x30, 0x04, 0x04, 0x02, 0x0A, 0x0B] :=
    tlvConstr _ _ _ (by decide) (by decide) (by decide) (by decide) (.cons _ [] sd (by decide) .nil)
  have ct : Tlv .one [0x06, 0x09, 0x2A, 0x86, 0x48, 0x86, 0xF7, 0x0D, 0x01, 0x07, 0x02] := tlvPrim _ _ _ (by decide) (by decide) (by decide) (by decide)
  exact tlvConstr _ _ _ (by decide) (by decide) (by decide) (by decide) (.cons _ _ ct (by decide) (.cons _ [] content (by decide) .nil))

/-- A signed object that's decoded if its type is given in the command line, and can't be if it's guessed: the bytes the decoder left for the next
call are not given to it again. -/
theorem C142_refuted : ∃ file, IsElement file ∧ (∃ n, SignedObjectStart n file) ∧ (∀ junk, guessFileType .unk file junk = .type .roa) ∧
    bio2ci (guessBio .roa file) = .ok ∧ bio2ci (guessBio .unk file) ≠ .ok := by
  have hstart : SignedObjectStart 3 exSplit := ⟨[0x25], _, rfl, .inl ⟨37, by decide, len1 0x25 (by decide)⟩, rfl⟩
  refine ⟨exSplit, exSplit_element, ⟨3, hstart⟩, ?_, C142_partial_small .roa (by decide) _ exSplit_element (by decide), by decide +kernel⟩
  intro junk
  have hl : 32 ≤ exSplit.length := by decide
  unfold guessFileType
  rw [if_neg (by decide), if_neg (by decide), show header exSplit junk = exSplit.take 32 by
    unfold header; rw [List.take_append_of_le_length (by decide), List.take_take]; rfl]
  decide

/-- The same object with SHA-256: the first read ends within a value, so it's decoded. -/
example : bio2ci (guessBio .unk ([0x30, 0x25, 0x06, 0x09, 0x2A, 0x86, 0x48, 0x86, 0xF7, 0x0D, 0x01, 0x07, 0x02, 0xA0, 0x18, 0x30, 0x16, 0x02, 0x01, 0x03, 0x31, 0x0D,
   0x30, 0x0B, 0x06, 0x09, 0x60, 0x86, 0x48, 0x01, 0x65, 0x03, 0x04, 0x02, 0x01, 0x30, 0x02, 0x04, 0x00])) = .ok := by decide +kernel
example : reads (guessBio .unk exSplit) [4, 100, 5, 5, 5] = [exSplit.take 4, (exSplit.take 32).drop 4, (exSplit.take 37).drop 32, exSplit.drop 37, []] := by decide

/-! ### C150 -/

/-- Bytes of a document. -/
def textOf (chunks : List (List Byte)) : List Byte := chunks.flatten ++ [10]

/-- Exit status 0, although nothing was written: the output is buffered, and nobody looks at whether the last bytes could be written. -/
theorem C150_refuted : ∃ t parsed errno s, 0 < errno ∧ (printMode t (some parsed) errno s).1 = 0 ∧ (printMode t (some parsed) errno s).2 = [] ∧ parsed ≠ [] :=
  ⟨.roa, [[123, 125]], 28, ⟨4096, [], [], 0⟩, by decide, by decide, by decide, by decide⟩

/-- Exit status 0 although the document could not be written, if the library that writes it doesn't say why. -/
theorem C150_refuted_errno : ∃ t parsed s, (printMode t (some parsed) 0 s).1 = 0 ∧ (printMode t (some parsed) 0 s).2 = [] ∧ parsed ≠ [] :=
  ⟨.cer, [[123, 125]], ⟨1, [], [], 0⟩, by decide, by decide, by decide⟩

theorem flush_content (s : Stdout) : s.flush.2.out ++ s.flush.2.buf = s.out ++ s.buf ∧ s.flush.2.size = s.size ∧
    s.flush.2.out.length + s.flush.2.room = max (s.out.length + s.room) s.out.length := by
  unfold Stdout.flush
  refine ⟨?_, rfl, ?_⟩
  · simp only [List.append_assoc, List.take_append_drop]
  · simp only [List.length_append, List.length_take]; omega

theorem write_content (s : Stdout) (b : List Byte) : (s.write b).2.out ++ (s.write b).2.buf = s.out ++ s.buf ++ b ∧
    (s.write b).2.out.length + (s.write b).2.room = s.out.length + s.room := by
  unfold Stdout.write
  dsimp only
  split
  · obtain ⟨h1, _, h3⟩ := flush_content { s with buf := s.buf ++ b }
    refine ⟨by rw [h1]; simp, by rw [h3]; simp⟩
  · exact ⟨by simp, rfl⟩

theorem write_fits (s : Stdout) (b : List Byte) (h : s.buf.length + b.length ≤ s.room) : (s.write b).1 = true := by
  unfold Stdout.write
  dsimp only
  split
  · unfold Stdout.flush
    simp only [List.length_append]
    exact decide_eq_true h
  · rfl

theorem dump_content : ∀ (cs : List (List Byte)) (s s' : Stdout), dump s cs = (true, s') →
    s'.out ++ s'.buf = s.out ++ s.buf ++ cs.flatten ∧ s'.out.length + s'.room = s.out.length + s.room := by
  intro cs
  induction cs with
  | nil => intro s s' h; cases h; simp
  | cons c cs ih =>
    intro s s' h
    unfold dump at h
    cases hw : s.write c with
    | mk ok s1 =>
      rw [hw] at h
      cases ok with
      | false => cases h
      | true =>
        obtain ⟨h1, h2⟩ := ih s1 s' h
        obtain ⟨h3, h4⟩ := write_content s c
        rw [hw] at h3 h4
        dsimp only at h3 h4
        exact ⟨by rw [h1, h3]; simp, by omega⟩

theorem dump_fits : ∀ (cs : List (List Byte)) (s : Stdout), s.buf.length + cs.flatten.length ≤ s.room → (dump s cs).1 = true := by
  intro cs
  induction cs with
  | nil => intro s _; rfl
  | cons c cs ih =>
    intro s h
    rw [List.flatten_cons, List.length_append] at h
    have hw := write_fits s c (by omega)
    obtain ⟨h3, h4⟩ := write_content s c
    unfold dump
    cases he : s.write c with
    | mk ok s1 =>
      rw [he] at hw h3 h4
      dsimp only at hw h3 h4
      subst hw
      dsimp only
      apply ih
      have := congrArg List.length h3
      simp only [List.length_append] at this
      omega

/-- If the document fits in the device, the exit status is 0 and all of it is written, after what was there. -/
theorem C150_partial (t : FileType) (ht : t ≠ .unk ∧ t ≠ .error) (chunks : List (List Byte)) (errno : Int) (s : Stdout) (hb : s.buf = [])
    (hroom : (textOf chunks).length ≤ s.room) :
    printMode t (some chunks) errno s = (0, s.out ++ textOf chunks) := by
  unfold textOf at *
  rw [List.length_append, List.length_singleton] at hroom
  have hf := dump_fits chunks s (by rw [hb, List.length_nil]; omega)
  cases hd : dump s chunks with
  | mk ok s1 =>
    rw [hd] at hf
    dsimp only at hf
    subst hf
    obtain ⟨h1, h2⟩ := dump_content chunks s s1 hd
    obtain ⟨h3, h4⟩ := write_content s1 [10]
    have hp : printFile t (some chunks) errno s = (0, (s1.write [10]).2) := by
      obtain ⟨ht1, ht2⟩ := ht
      unfold printFile
      cases t with
      | unk => exact absurd rfl ht1
      | error => exact absurd rfl ht2
      | _ => dsimp only; rw [hd]
    unfold printMode
    rw [hp]
    dsimp only
    congr 1
    generalize (s1.write [10]).2 = s2 at h3 h4
    rw [h1, hb, List.append_nil] at h3
    have hlen := congrArg List.length h3
    simp only [List.length_append, List.length_singleton] at hlen
    unfold Stdout.flush
    dsimp only
    rw [List.take_of_length_le (by omega), h3, List.append_assoc]

/-- If the file can't be recognised or parsed, or (given that there's a reason) a write fails, the exit status is not 0. -/
theorem C150_partial_failure (t : FileType) (parsed : Option (List (List Byte))) (errno : Int) (he : errno ≠ 0) (s : Stdout)
    (h : t = .unk ∨ t = .error ∨ parsed = none ∨ ∃ chunks, parsed = some chunks ∧ (dump s chunks).1 = false) :
    (printMode t parsed errno s).1 ≠ 0 := by
  unfold printMode
  show (printFile t parsed errno s).1 ≠ 0
  by_cases h1 : t = .unk
  · subst h1; exact (by decide : (-22 : Int) ≠ 0)
  by_cases h2 : t = .error
  · subst h2; exact (by decide : (-22 : Int) ≠ 0)
  rcases h with h | h | rfl | ⟨chunks, rfl, h⟩
  · exact absurd h h1
  · exact absurd h h2
  · unfold printFile
    cases t with
    | unk => exact absurd rfl h1
    | error => exact absurd rfl h2
    | _ => exact (by decide : (-22 : Int) ≠ 0)
  · unfold printFile
    cases hd : dump s chunks with
    | mk ok s1 =>
      rw [hd] at h
      dsimp only at h
      subst h
      cases t with
      | unk => exact absurd rfl h1
      | error => exact absurd rfl h2
      | _ => dsimp only; rw [hd]; exact he

/-- And whatever the status is, if it's 0, all of the document was given to the stream. -/
theorem C150_partial_handed (t : FileType) (parsed : Option (List (List Byte))) (errno : Int) (he : errno ≠ 0) (s s' : Stdout)
    (h : printFile t parsed errno s = (0, s')) : ∃ chunks, parsed = some chunks ∧ s'.out ++ s'.buf = s.out ++ s.buf ++ textOf chunks := by
  have h0 : (printMode t parsed errno s).1 = 0 := by unfold printMode; rw [h]
  cases parsed with
  | none => exact absurd h0 (C150_partial_failure t none errno he s (.inr (.inr (.inl rfl))))
  | some chunks =>
    cases hd : dump s chunks with
    | mk ok s1 =>
      cases ok with
      | false => exact absurd h0 (C150_partial_failure t _ errno he s (.inr (.inr (.inr ⟨chunks, rfl, by rw [hd]⟩))))
      | true =>
        refine ⟨chunks, rfl, ?_⟩
        by_cases h1 : t = .unk
        · exact absurd h0 (C150_partial_failure t _ errno he s (.inl h1))
        by_cases h2 : t = .error
        · exact absurd h0 (C150_partial_failure t _ errno he s (.inr (.inl h2)))
        have hp : printFile t (some chunks) errno s = (0, (s1.write [10]).2) := by
          unfold printFile
          cases t with
          | unk => exact absurd rfl h1
          | error => exact absurd rfl h2
          | _ => dsimp only; rw [hd]
        rw [hp] at h
        injection h with _ h
        subst h
        rw [(write_content s1 [10]).1, (dump_content chunks s s1 hd).1]
        unfold textOf
        simp

example : printMode .roa (some [[123], [125]]) 28 ⟨2, [], [], 10⟩ = (0, [123, 125, 10]) := by decide
example : printFile .roa (some [[123], [125]]) 28 ⟨2, [], [], 1⟩ = (28, ⟨2, [125], [123], 0⟩) := by decide

end Verif.Print
