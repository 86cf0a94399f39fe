import Verif.Print.DecProps
/-
C142, the other direction: what isn't all there is not decoded. C141: empty files.
-/
namespace Verif.Print
open Verif.Res (Byte)
open Verif.Cms (Len berFetchLength Skip berFetchTag isConstructed IsLen IsTag)

/-- The bytes that are still missing for the outermost element, which has a definite length. -/
def Missing : List Frame → Int → Prop
  | [], _ => False
  | [f], R => f.wantNulls = false ∧ ∃ L : Nat, f.left = some L ∧ R = L
  | f :: p :: rest, R => Missing (p :: rest) (R + f.got)

theorem missing_cons {f : Frame} {rest : List Frame} (h : rest ≠ []) (R : Int) : Missing (f :: rest) R = Missing rest (R + f.got) := by
  cases rest with
  | nil => exact absurd rfl h
  | cons p r => rfl

theorem push_missing {d d' : Dec} {c : Bool} {n k : Nat} {l : Option Nat} {R : Int} (hs : d.stack ≠ []) (h : push d c n l = .advance k d') (hm : Missing d.stack R) :
    Missing d'.stack (R - k) := by
  unfold push at h
  cases hd : d.stack with
  | nil => exact absurd hd hs
  | cons f rest =>
    rw [hd] at h hm
    dsimp only at h
    have fin : ∀ g : Frame, g.got = n → Missing (g :: f :: rest) (R - n) := by
      intro g hg
      show Missing (f :: rest) (R - n + g.got)
      rw [hg]
      have : R - (n : Int) + n = R := by omega
      rw [this]; exact hm
    cases hl : f.left with
    | none => rw [hl] at h; cases h; exact fin _ rfl
    | some lf =>
      rw [hl] at h
      dsimp only at h
      by_cases hc : lf < n + l.getD 0
      · rw [if_pos hc] at h; cases h
      · rw [if_neg hc] at h; cases h; exact fin _ rfl

theorem header1_missing {d d' : Dec} {buf : List Byte} {k : Nat} {R : Int} (h : header1 d buf = .advance k d') (hm : Missing d.stack R) : Missing d'.stack (R - k) := by
  have hs : d.stack ≠ [] := by intro e; rw [e] at hm; exact hm
  unfold header1 at h
  cases ht : berFetchTag buf with
  | more => rw [ht] at h; cases h
  | bad => rw [ht] at h; cases h
  | stuck => rw [ht] at h; cases h
  | ok tl =>
    rw [ht] at h
    dsimp only at h
    cases hl : berFetchLength (isConstructed buf) (buf.drop tl) with
    | more => rw [hl] at h; cases h
    | bad => rw [hl] at h; cases h
    | indef => rw [hl] at h; exact push_missing hs h hm
    | defn ll v =>
      rw [hl] at h
      dsimp only at h
      cases hd : d.stack with
      | nil => exact absurd hd hs
      | cons f rest =>
        rw [hd] at h
        dsimp only at h
        by_cases hc : f.wantNulls = true ∧ buf[0]? = some 0 ∧ buf[1]? = some 0
        · rw [if_pos hc] at h
          cases h
          rw [hd] at hm
          cases rest with
          | nil => rw [hm.1] at hc; exact absurd hc.1 (by decide)
          | cons p r =>
            show Missing (p :: r) (R - (2 : Nat) + ((f.got + 2 : Nat) : Int))
            have : R - ((2 : Nat) : Int) + ((f.got + 2 : Nat) : Int) = R + f.got := by omega
            rw [this]; exact hm
        · rw [if_neg hc] at h; exact push_missing hs h hm

theorem decStep_missing {d d' : Dec} {buf : List Byte} {k : Nat} {R : Int} (h : decStep d buf = .advance k d') (hm : Missing d.stack R) : Missing d'.stack (R - k) := by
  unfold decStep at h
  by_cases hv : d.inValue = true
  · rw [if_pos hv] at h
    cases hs : d.stack with
    | nil => rw [hs] at hm; exact hm.elim
    | cons f rest =>
      rw [hs] at h hm
      dsimp only at h
      cases hl : f.left with
      | none => rw [hl] at h; cases h
      | some l =>
        rw [hl] at h
        cases l with
        | zero => cases h; simpa using hm
        | succ l =>
          dsimp only at h
          by_cases hb : buf = []
          · rw [if_pos hb] at h; cases h
          · rw [if_neg hb] at h
            cases h
            cases rest with
            | nil =>
              obtain ⟨h1, L, h2, h3⟩ := hm
              rw [hl] at h2
              cases h2
              exact ⟨h1, l, rfl, by rw [h3]; omega⟩
            | cons p r =>
              show Missing (p :: r) (R - ((1 : Nat) : Int) + ((f.got + 1 : Nat) : Int))
              have : R - ((1 : Nat) : Int) + ((f.got + 1 : Nat) : Int) = R + f.got := by omega
              rw [this]; exact hm
  · rw [if_neg hv] at h
    cases hs : d.stack with
    | nil => rw [hs] at hm; exact hm.elim
    | cons f rest =>
      cases rest with
      | nil =>
        rw [hs] at h
        dsimp only at h
        by_cases ho : f.over = true
        · rw [if_pos ho] at h; cases h
        · rw [if_neg ho] at h; exact header1_missing h hm
      | cons p r =>
        rw [hs] at h
        dsimp only at h
        by_cases ho : f.over = true
        · rw [if_pos ho] at h
          rw [hs] at hm
          cases hp : p.left with
          | none =>
            rw [hp] at h
            cases h
            cases r with
            | nil =>
              obtain ⟨_, L, h2, _⟩ := hm
              rw [hp] at h2; cases h2
            | cons q r =>
              show Missing (q :: r) (R - ((0 : Nat) : Int) + ((p.got + f.got : Nat) : Int))
              have hm' : Missing (q :: r) (R + f.got + p.got) := hm
              have : R - ((0 : Nat) : Int) + ((p.got + f.got : Nat) : Int) = R + f.got + p.got := by omega
              rw [this]; exact hm'
          | some lp =>
            rw [hp] at h
            dsimp only at h
            by_cases hc : lp < f.got
            · rw [if_pos hc] at h; cases h
            · rw [if_neg hc] at h
              cases h
              cases r with
              | nil =>
                obtain ⟨h1, L, h2, h3⟩ := hm
                rw [hp] at h2
                cases h2
                exact ⟨h1, lp - f.got, rfl, by omega⟩
              | cons q r =>
                show Missing (q :: r) (R - ((0 : Nat) : Int) + ((p.got + f.got : Nat) : Int))
                have hm' : Missing (q :: r) (R + f.got + p.got) := hm
                have : R - ((0 : Nat) : Int) + ((p.got + f.got : Nat) : Int) = R + f.got + p.got := by omega
                rw [this]; exact hm'
        · rw [if_neg ho] at h; exact header1_missing h hm

theorem decStep_done {d : Dec} {buf : List Byte} {R : Int} (h : decStep d buf = .done) (hm : Missing d.stack R) : R = 0 := by
  have hh : ∀ b, header1 d b ≠ .done := by
    intro b hb
    unfold header1 at hb
    have hp : ∀ c n l, push d c n l ≠ .done := by
      intro c n l hp
      unfold push at hp
      split at hp
      · cases hp
      · split at hp
        · split at hp <;> cases hp
        · cases hp
    split at hb
    · cases hb
    · cases hb
    · cases hb
    · dsimp only at hb
      split at hb
      · cases hb
      · cases hb
      · split at hb
        · split at hb
          · cases hb
          · exact hp _ _ _ hb
        · exact hp _ _ _ hb
      · exact hp _ _ _ hb
  unfold decStep at h
  by_cases hv : d.inValue = true
  · rw [if_pos hv] at h
    split at h
    · split at h
      · cases h
      · split at h <;> cases h
      · cases h
    · cases h
  · rw [if_neg hv] at h
    cases hs : d.stack with
    | nil => rw [hs] at hm; exact hm.elim
    | cons f rest =>
      rw [hs] at h hm
      cases rest with
      | nil =>
        dsimp only at h
        by_cases ho : f.over = true
        · obtain ⟨h1, L, h2, h3⟩ := hm
          simp only [Frame.over, h2, Bool.and_eq_true, decide_eq_true_eq] at ho
          rcases ho.1 with h | h
          · cases h
          · cases h; simpa using h3
        · rw [if_neg ho] at h; exact absurd h (hh _)
      | cons p r =>
        dsimp only at h
        by_cases ho : f.over = true
        · rw [if_pos ho] at h
          split at h
          · split at h <;> cases h
          · cases h
        · rw [if_neg ho] at h; exact absurd h (hh _)

theorem decLoop_missing : ∀ (n : Nat) (d : Dec) (buf : List Byte) (R : Int), Missing d.stack R →
    (decLoop n d buf = .ok → R ≤ buf.length) ∧ (∀ u d', decLoop n d buf = .more u d' → ∃ R', Missing d'.stack R' ∧ R ≤ R' + buf.length) := by
  intro n
  induction n with
  | zero => intro d buf R hm; exact ⟨(fun h => by cases h), (fun u d' h => by cases h)⟩
  | succ n ih =>
    intro d buf R hm
    unfold decLoop
    cases hs : decStep d buf with
    | done => exact ⟨fun _ => by rw [decStep_done hs hm]; omega, (fun u d' h => by cases h)⟩
    | fail => exact ⟨(fun h => by cases h), (fun u d' h => by cases h)⟩
    | more => exact ⟨(fun h => by cases h), (fun u d' h => by cases h; exact ⟨R, hm, by omega⟩)⟩
    | advance k d1 =>
      have hk := decStep_le hs
      obtain ⟨i1, i2⟩ := ih d1 (buf.drop k) (R - k) (decStep_missing hs hm)
      rw [List.length_drop] at i1 i2
      refine ⟨fun h => by have := i1 h; omega, fun u d' h => ?_⟩
      obtain ⟨R', hR, hle⟩ := i2 u d' h
      exact ⟨R', hR, by omega⟩

/-- What's left to read. -/
def BioSeq.avail (b : BioSeq) : Nat := (b.prefix.getD []).length + b.suffix.length

theorem avail_read (b : BioSeq) (n : Nat) : (bioseqRead b n).1.length + (bioseqRead b n).2.avail ≤ b.avail := by
  unfold bioseqRead
  cases hp : b.prefix with
  | none =>
    simp [bioRead, BioSeq.avail, hp]
    omega
  | some p =>
    have hx : ∀ x y : List Byte × BioSeq, ∀ c : Prop, ∀ _ : Decidable c, (c → x.1.length + x.2.avail ≤ b.avail) → (¬ c → y.1.length + y.2.avail ≤ b.avail) →
        (if c then x else y).1.length + (if c then x else y).2.avail ≤ b.avail := by
      intro x y c _ h1 h2
      by_cases hc : c
      · rw [if_pos hc]; exact h1 hc
      · rw [if_neg hc]; exact h2 hc
    apply hx
    · intro _; simp [BioSeq.avail, hp]
    · intro _; simp [BioSeq.avail, hp]; omega

theorem bio2ciLoop_missing : ∀ (n : Nat) (d : Dec) (b : BioSeq) (R : Int), Missing d.stack R → (b.avail : Int) < R → bio2ciLoop n d b ≠ .ok := by
  intro n
  induction n with
  | zero => intro d b R _ _ h; cases h
  | succ n ih =>
    intro d b R hm hlt
    unfold bio2ciLoop
    have hav := avail_read b 4096
    generalize bioseqRead b 4096 = x at hav
    obtain ⟨buf, b'⟩ := x
    dsimp only at hav ⊢
    by_cases hb : buf = []
    · rw [if_pos hb]; exact fun h => by cases h
    · rw [if_neg hb]
      unfold decCall
      obtain ⟨i1, i2⟩ := decLoop_missing (3 * buf.length + 2 * d.stack.length + 3) d buf R hm
      generalize decLoop (3 * buf.length + 2 * d.stack.length + 3) d buf = r at i1 i2
      cases r with
      | ok => have := i1 rfl; omega
      | fail => exact fun h => by cases h
      | stuck => exact fun h => by cases h
      | more u d' =>
        obtain ⟨R', hR, hle⟩ := i2 u d' rfl
        exact ih d' b' R' hR (by omega)

/-- The first step, on a header of definite length. -/
theorem decStep_first {t l w : List Byte} {n : Nat} (ht : IsTag t) (hl : IsLen n l) (hn : n < 2 ^ 62) :
    ∃ c, decStep Dec.start (t ++ (l ++ w)) = .advance (t.length + l.length) ⟨[⟨some n, t.length + l.length, false⟩], c⟩ := by
  refine ⟨!isConstructed (t ++ (l ++ w)), ?_⟩
  simp only [decStep, Dec.start, header1, Verif.Cms.fetchTag_spec ht]
  rw [List.drop_left, Verif.Cms.fetch_isLen hl (by omega)]
  simp [push]

/-- **C142 (partial), truncated files.** A file that ends before the length at its start says is not decoded, whatever it has and wherever reads end (if that length is in
the first 32 bytes). -/
theorem C142_partial_truncated (configured : FileType) (t l rest : List Byte) (n : Nat) (ht : IsTag t) (hl : IsLen n l) (hn : n < 2 ^ 62)
    (h32 : t.length + l.length ≤ 32) (hshort : rest.length < n) : bio2ci (guessBio configured (t ++ (l ++ rest))) ≠ .ok := by
  unfold bio2ci
  generalize hN : (guessBio configured (t ++ (l ++ rest))).suffix.length + ((guessBio configured (t ++ (l ++ rest))).prefix.getD []).length + 2 = N
  clear hN
  cases N with
  | zero => exact fun h => by cases h
  | succ N =>
    -- what the first read returns starts with the header
    obtain ⟨w, b', hr, hlen⟩ : ∃ w b', bioseqRead (guessBio configured (t ++ (l ++ rest))) 4096 = (t ++ (l ++ w), b') ∧ w.length + b'.avail ≤ rest.length := by
      unfold guessBio
      by_cases hc : configured = .unk
      · rw [if_neg (by rw [hc]; decide)]
        have hhd : (t ++ (l ++ rest)).take 32 = t ++ (l ++ rest.take (32 - t.length - l.length)) := by
          rw [List.take_append, List.take_of_length_le (by omega), List.take_append, List.take_of_length_le (by omega)]
        have hdr : (t ++ (l ++ rest)).drop 32 = rest.drop (32 - t.length - l.length) := by
          rw [List.drop_append, List.drop_eq_nil_of_le (by omega), List.nil_append, List.drop_append, List.drop_eq_nil_of_le (by omega), List.nil_append]
        rw [hhd, hdr]
        refine ⟨rest.take (32 - t.length - l.length), ⟨none, rest.drop (32 - t.length - l.length)⟩, ?_, ?_⟩
        · have hle : (t ++ (l ++ rest.take (32 - t.length - l.length))).length ≤ 4096 := by
            simp only [List.length_append, List.length_take]; omega
          generalize hq : t ++ (l ++ rest.take (32 - t.length - l.length)) = q at hle
          generalize rest.drop (32 - t.length - l.length) = z
          unfold bioseqRead
          show (if q.drop 4096 = [] ∨ q.take 4096 = [] then _ else _) = _
          rw [if_pos (.inl (List.drop_eq_nil_of_le hle))]
          show (q.take 4096, _) = _
          rw [List.take_of_length_le hle]
        · simp [BioSeq.avail]; omega
      · rw [if_pos hc]
        refine ⟨rest.take (4096 - t.length - l.length), ⟨none, rest.drop (4096 - t.length - l.length)⟩, ?_, ?_⟩
        · simp only [bioseqRead, bioRead]
          rw [List.take_append, List.take_of_length_le (by omega), List.take_append, List.take_of_length_le (by omega)]
          rw [List.drop_append, List.drop_eq_nil_of_le (by omega), List.nil_append, List.drop_append, List.drop_eq_nil_of_le (by omega), List.nil_append]
        · simp [BioSeq.avail]; omega
    unfold bio2ciLoop
    rw [hr]
    dsimp only
    have htl : 1 ≤ t.length := (Verif.Cms.fetchTag_le (Verif.Cms.fetchTag_spec ht [])).1
    have hne : t ++ (l ++ w) ≠ [] := by
      intro h
      have := congrArg List.length h
      simp only [List.length_append, List.length_nil] at this
      omega
    rw [if_neg hne]
    obtain ⟨c, hstep⟩ := decStep_first (w := w) ht hl hn
    unfold decCall
    rw [show 3 * (t ++ (l ++ w)).length + 2 * Dec.start.stack.length + 3 = (3 * (t ++ (l ++ w)).length + 2 * Dec.start.stack.length + 2) + 1 from rfl]
    unfold decLoop
    rw [hstep]
    dsimp only
    rw [show (t ++ (l ++ w)).drop (t.length + l.length) = w by rw [← List.append_assoc, List.drop_left' (by simp)]]
    obtain ⟨i1, i2⟩ := decLoop_missing (3 * (t ++ (l ++ w)).length + 2 * Dec.start.stack.length + 2) ⟨[⟨some n, t.length + l.length, false⟩], c⟩ w n ⟨rfl, n, rfl, rfl⟩
    generalize decLoop (3 * (t ++ (l ++ w)).length + 2 * Dec.start.stack.length + 2) ⟨[⟨some n, t.length + l.length, false⟩], c⟩ w = r at i1 i2
    cases r with
    | ok => have := i1 rfl; omega
    | fail => exact fun h => by cases h
    | stuck => exact fun h => by cases h
    | more u d' =>
      obtain ⟨R', hR, hle⟩ := i2 u d' rfl
      exact bio2ciLoop_missing N d' b' R' hR (by omega)

/-- The first 36 bytes of an object of 39 bytes. -/
example : ∃ (t l rest : List Byte) (n : Nat), exSplit.take 36 = t ++ (l ++ rest) ∧ IsTag t ∧ IsLen n l ∧ n < 2 ^ 62 ∧ t.length + l.length ≤ 32 ∧ rest.length < n :=
  ⟨[0x30], [0x25], _, 0x25, rfl, .inl ⟨0x30, rfl, by decide⟩, len1 0x25 (by decide), by decide, by decide, by decide⟩

/-- **C141**, empty files: they're not taken for anything, whatever the stack has; and nothing is printed. -/
theorem C141_empty (junk : List Byte) (parsed : Option (List (List Byte))) (errno : Int) (s : Stdout) :
    ∃ t, guessFileType .unk [] junk = .type t ∧ t ≠ .roa ∧ t ≠ .mft ∧ t ≠ .gbr ∧ t ≠ .cer ∧ t ≠ .crl ∧ (printFile t parsed errno s).1 ≠ 0 ∧ (printFile t parsed errno s).2 = s :=
  ⟨.error, rfl, by decide, by decide, by decide, by decide, by decide, by simp [printFile], rfl⟩

end Verif.Print
