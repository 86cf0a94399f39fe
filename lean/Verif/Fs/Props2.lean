import Verif.Fs.Spec
import Mathlib.Tactic.ByContra
/-
C136 to C140.
-/
namespace Verif.Fs
open Verif.Rtr (Byte)
open Verif.Tal (lf)

/-! ## C136 -/

/-- The ways in which a file is opened. -/
theorem fileOpen_spec (f : File) (h : Held) :
    (∃ e, fileOpen f h = (.error e, h) ∧ (f.Errnos → e ≠ 0) ∧ ∀ n, ¬ Readable f n) ∨
    (fileOpen f h = (.ok ⟨f.content, f.failsAt, false, false⟩, { h with streams := h.streams + 1 }) ∧ f.fopen = none ∧ f.fstat = none ∧ f.regular = true) := by
  unfold fileOpen
  cases h1 : f.fopen with
  | some e => exact Or.inl ⟨e, rfl, fun w hz => w.fopen (by rw [h1, show e = 0 from by exact_mod_cast hz]), (fun n r => by rw [r.opens] at h1; cases h1)⟩
  | none =>
    cases h2 : f.fstat with
    | some e => exact Or.inl ⟨e, rfl, fun w hz => w.fstat (by rw [h2, show e = 0 from by exact_mod_cast hz]), (fun n r => by rw [r.stats] at h2; cases h2)⟩
    | none =>
      cases h3 : f.regular with
      | false => exact Or.inl ⟨-22, rfl, fun _ => by decide, (fun n r => by rw [r.regular] at h3; cases h3)⟩
      | true => exact Or.inr ⟨rfl, rfl, rfl, rfl⟩

/-- The stream can be read to its end. -/
def Stream.Reads (s : Stream) : Prop := ∀ k, s.ok = some k → s.rest.length < k

theorem hashLoop_spec (evp : Evp) (blk : Nat) (hb : 0 < blk) : ∀ (fuel i : Nat) (s : Stream) (acc : List Byte), s.rest.length < fuel → s.eof = false → s.err = false →
    ∃ r, hashLoop evp blk fuel i s acc = some r ∧
      (∀ data, r = .ok data → data = acc ++ s.rest ∧ s.Reads) ∧ (∀ e, r = .error e → e ≠ 0) ∧
      (s.Reads → (∀ i, evp.update i = true) → r = .ok (acc ++ s.rest))
  | 0, _, _, _, h, _, _ => absurd h (Nat.not_lt_zero _)
  | fuel + 1, i, s, acc, hf, he, hr => by
    rw [hashLoop]
    by_cases hbad : ∃ k, s.ok = some k ∧ k < blk ∧ k ≤ s.rest.length
    · obtain ⟨k, hk, h1, h2⟩ := hbad
      have hfr : fread s blk = (s.rest.take k, ⟨s.rest.drop k, some 0, s.eof, true⟩) := by
        unfold fread; rw [hk]; simp only; rw [if_pos ⟨h1, h2⟩]
      rw [hfr]
      simp only [if_true]
      refine ⟨_, rfl, (fun _ h => by cases h), fun e h => ?_, fun h => ?_⟩
      · injection h with h; rw [← h]; decide
      · have := h k hk; omega
    · have hfr : ∃ ok', fread s blk = (s.rest.take blk, ⟨s.rest.drop blk, ok', decide ((s.rest.take blk).length < blk), false⟩) ∧
          ((s.rest.take blk).length = blk → ((∀ k', ok' = some k' → (s.rest.drop blk).length < k') ↔ s.Reads)) ∧ ((s.rest.take blk).length < blk → s.Reads) := by
        unfold fread
        cases hk : s.ok with
        | none =>
          refine ⟨none, by simp [he, hr], fun _ => ⟨(fun _ k h => by rw [hk] at h; cases h), (fun _ k h => by cases h)⟩, (fun _ k h => by rw [hk] at h; cases h)⟩
        | some k =>
          have hn : ¬ (k < blk ∧ k ≤ s.rest.length) := fun h => hbad ⟨k, hk, h⟩
          simp only
          rw [if_neg hn]
          refine ⟨some (k - (s.rest.take blk).length), by simp [he, hr], ?_, ?_⟩
          · intro hl
            rw [hl, List.length_drop]
            rw [List.length_take] at hl
            constructor
            · intro h k2 hk2
              rw [hk] at hk2
              injection hk2 with hk2
              subst hk2
              have := h _ rfl
              omega
            · intro h k' hk'
              injection hk' with hk'
              have := h k hk
              omega
          · intro hl k2 hk2
            rw [hk] at hk2
            injection hk2 with hk2
            subst hk2
            rw [List.length_take] at hl
            omega
      obtain ⟨ok', hfr, hmore, hend⟩ := hfr
      rw [hfr]
      simp only [Bool.false_eq_true, if_false]
      cases hu : evp.update i with
      | false =>
        simp only [Bool.not_false, if_true]
        refine ⟨_, rfl, (fun _ h => by cases h), fun e h => ?_, fun _ h => ?_⟩
        · injection h with h; rw [← h]; decide
        · rw [h i] at hu; cases hu
      | true =>
        simp only [Bool.not_true, Bool.false_eq_true, if_false]
        by_cases hl : (s.rest.take blk).length < blk
        · rw [decide_eq_true hl]
          simp only [Bool.not_true, Bool.false_eq_true, if_false]
          have hall : s.rest.take blk = s.rest := by
            rw [List.length_take] at hl
            exact List.take_of_length_le (by omega)
          rw [hall]
          exact ⟨_, rfl, (fun d h => ⟨(by injection h with h; exact h.symm), hend hl⟩), (fun e h => by cases h), fun _ _ => rfl⟩
        · have hl' : (s.rest.take blk).length = blk := by
            have := List.length_take_le blk s.rest
            omega
          rw [decide_eq_false hl]
          simp only [Bool.not_false, if_true]
          have hlen : (s.rest.drop blk).length < fuel := by
            rw [List.length_drop]
            rw [List.length_take] at hl'
            omega
          obtain ⟨r, e1, e2, e3, e4⟩ := hashLoop_spec evp blk hb fuel (i + 1) ⟨s.rest.drop blk, ok', false, false⟩ (acc ++ s.rest.take blk) hlen rfl rfl
          refine ⟨r, e1, fun d hd => ?_, e3, fun hR hU => ?_⟩
          · obtain ⟨h1, h2⟩ := e2 d hd
            refine ⟨?_, (hmore hl').1 h2⟩
            rw [h1]; simp
          · rw [e4 ((hmore hl').2 hR) hU]; simp

theorem held_back (h : Held) : ({ { { h with streams := h.streams + 1 } with buffers := h.buffers + 1, contexts := h.contexts + 1 } with
    buffers := h.buffers + 1 - 1, contexts := h.contexts + 1 - 1, streams := h.streams + 1 - 1 } : Held) = h := by cases h; rfl

/-- **C136.** Whatever the file and the size of its blocks, the validation of a file's hash ends, and whatever was taken was released; if it succeeds then the file was read to its end, and the digest of everything that
was in it is the expected one; and if nothing fails and it's the expected one then it succeeds. -/
theorem C136 (digest : List Byte → List Byte) (evp : Evp) (f : File) (expected : List Byte) (h : Held) (fuel : Nat) (hb : 0 < f.blksize) (hfuel : f.content.length < fuel) (hw : f.Errnos) :
    ∃ r, hashValidateFile digest evp fuel f expected h = some (r, h) ∧
      (r = 0 → Readable f (f.content.length + 1) ∧ expected = digest f.content) ∧
      (Readable f (f.content.length + 1) → evp.Works → (r = 0 ↔ expected = digest f.content)) := by
  unfold hashValidateFile hashLocalFile
  cases hk : evp.known with
  | false =>
    simp only [Bool.not_false, if_true]
    exact ⟨_, rfl, fun h => absurd h (by decide), (fun _ w => by rw [w.known] at hk; cases hk)⟩
  | true =>
    simp only [Bool.not_true, Bool.false_eq_true, if_false]
    rcases fileOpen_spec f h with ⟨e, ho, he, hn⟩ | ⟨ho, h1, h2, h3⟩
    · rw [ho]
      exact ⟨e, rfl, fun h => absurd h (he hw), fun hr => absurd hr (hn _)⟩
    · rw [ho]
      simp only
      cases hi : evp.init with
      | false =>
        simp only [Bool.not_false, if_true]
        exact ⟨_, by rw [held_back], fun h => absurd h (by decide), (fun _ w => by rw [w.init] at hi; cases hi)⟩
      | true =>
        simp only [Bool.not_true, Bool.false_eq_true, if_false]
        obtain ⟨r, e1, e2, e3, e4⟩ := hashLoop_spec evp f.blksize hb fuel 0 ⟨f.content, f.failsAt, false, false⟩ [] hfuel rfl rfl
        rw [e1]
        cases r with
        | error e =>
          simp only
          refine ⟨e, by rw [held_back], fun h => absurd h (e3 e rfl), fun hR w => ?_⟩
          have := e4 (fun k hk => hR.reads k hk) w.update
          cases this
        | ok data =>
          obtain ⟨h4, h5⟩ := e2 data rfl
          rw [List.nil_append] at h4
          simp only at h4
          subst h4
          simp only
          cases hf : evp.final with
          | false =>
            simp only [Bool.not_false, if_true]
            exact ⟨_, by rw [held_back], fun h => absurd h (by decide), (fun _ w => by rw [w.final] at hf; cases hf)⟩
          | true =>
            simp only [Bool.not_true, Bool.false_eq_true, if_false, held_back]
            by_cases hm : expected = digest f.content
            · rw [if_pos ⟨congrArg List.length hm, hm⟩]
              exact ⟨0, rfl, fun _ => ⟨⟨h1, h2, h3, fun k hk => h5 k hk⟩, hm⟩, fun _ _ => ⟨fun _ => hm, fun _ => rfl⟩⟩
            · rw [if_neg (fun h => hm h.2)]
              exact ⟨-22, rfl, fun h => absurd h (by decide), fun _ _ => ⟨fun h => absurd h (by decide), fun h => absurd h hm⟩⟩

/-- 10 bytes in blocks of 4, and 8, whose end is only found by another read. -/
def exFile (n : Nat) (failsAt : Option Nat) : File := ⟨none, none, true, n, 4, (List.range n).map (BitVec.ofNat 8), failsAt⟩
def exEvp : Evp := ⟨true, true, fun _ => true, true⟩
example : hashValidateFile (·.map (· + 1#8)) exEvp 11 (exFile 10 none) ((List.range 10).map (fun i => BitVec.ofNat 8 (i + 1))) {} = some (0, {}) := by decide +kernel
example : hashValidateFile (·.map (· + 1#8)) exEvp 11 (exFile 8 none) ((List.range 8).map (fun i => BitVec.ofNat 8 (i + 1))) {} = some (0, {}) := by decide +kernel
example : hashValidateFile id exEvp 11 (exFile 10 (some 9)) ((List.range 9).map (BitVec.ofNat 8)) {} = some (1, {}) := by decide +kernel
example : hashValidateFile id exEvp 11 (exFile 10 none) ((List.range 9).map (BitVec.ofNat 8)) {} = some (-22, {}) := by decide +kernel
example : Readable (exFile 10 none) 11 ∧ exEvp.Works ∧ (exFile 10 none).Errnos := ⟨⟨rfl, rfl, rfl, (fun _ h => by cases h)⟩, ⟨rfl, rfl, fun _ => rfl, rfl⟩, ⟨by decide, by decide⟩⟩
/-- Blocks of size 0 would never end. -/
example (fuel : Nat) : hashLoop exEvp 0 fuel 0 ⟨[], none, false, false⟩ [] = none := by
  have : ∀ (fuel i : Nat) (acc : List Byte), hashLoop exEvp 0 fuel i ⟨[], none, false, false⟩ acc = none := by
    intro fuel
    induction fuel with
    | zero => intros; rfl
    | succ n ih => intro i acc; rw [hashLoop]; simp [fread, exEvp]; exact ih _ _
  exact this fuel 0 []

/-! ## C137 -/

/-- **C137.** Loading a file yields as many bytes as it had when it was opened, from its start (hence all of them, if it didn't change since), and then only that buffer is held; or else it's an error, and nothing else is held. It
isn't an error unless the file can't be read, or became shorter. -/
theorem C137 (f : File) (h : Held) (hw : f.Errnos) :
    (∃ data, fileLoad f h = (.ok data, { h with buffers := h.buffers + 1 }) ∧ data.length = f.size ∧ data <+: f.content ∧ (f.content.length = f.size → data = f.content)) ∨
    (∃ e, fileLoad f h = (.error e, h) ∧ e ≠ 0 ∧ ¬ (Readable f f.size ∧ f.size ≤ f.content.length)) := by
  unfold fileLoad
  rcases fileOpen_spec f h with ⟨e, ho, he, hn⟩ | ⟨ho, h1, h2, h3⟩
  · rw [ho]; exact Or.inr ⟨e, rfl, he hw, fun hr => hn _ hr.1⟩
  · rw [ho]
    simp only
    by_cases hbad : ∃ k, f.failsAt = some k ∧ k < f.size ∧ k ≤ f.content.length
    · obtain ⟨k, hk, hk1, hk2⟩ := hbad
      have hfr : fread ⟨f.content, f.failsAt, false, false⟩ f.size = (f.content.take k, ⟨f.content.drop k, some 0, false, true⟩) := by
        unfold fread; simp only [hk]; rw [if_pos ⟨hk1, hk2⟩]
      rw [hfr]
      simp only [if_true]
      rw [if_pos (by rw [List.length_take]; omega)]
      refine Or.inr ⟨1, by cases h; rfl, by decide, fun hr => ?_⟩
      have := hr.1.reads k hk
      omega
    · have hfr : ∃ s, fread ⟨f.content, f.failsAt, false, false⟩ f.size = (f.content.take f.size, s) ∧ s.err = false := by
        unfold fread
        cases hk : f.failsAt with
        | none => exact ⟨_, rfl, rfl⟩
        | some k =>
          simp only
          rw [if_neg (fun hc => hbad ⟨k, hk, hc⟩)]
          exact ⟨_, rfl, rfl⟩
      obtain ⟨s, hfr, hs⟩ := hfr
      rw [hfr]
      simp only
      by_cases hl : (f.content.take f.size).length < f.size
      · rw [if_pos hl, hs]
        simp only [Bool.false_eq_true, if_false]
        refine Or.inr ⟨-22, by cases h; rfl, by decide, fun hr => ?_⟩
        rw [List.length_take] at hl
        omega
      · rw [if_neg hl]
        refine Or.inl ⟨_, by cases h; rfl, ?_, List.take_prefix .., fun he => ?_⟩
        · have := List.length_take_le f.size f.content
          omega
        · rw [List.take_of_length_le (by omega)]

example : fileLoad (exFile 10 none) {} = (.ok ((List.range 10).map (BitVec.ofNat 8)), { buffers := 1 }) := by decide +kernel
/-- It became shorter, and it can't be read. -/
example : fileLoad { exFile 10 none with size := 11 } {} = (.error (-22), {}) ∧ fileLoad (exFile 10 (some 9)) {} = (.error 1, {}) := by decide +kernel

/-! ## C138 -/

theorem decodeLoop_spec (outLen : Nat) : ∀ (fuel : Nat) (b : Bio) (out : List Byte), out.length ≤ outLen → outLen - out.length < fuel →
    ∃ got, decodeLoop outLen fuel b out = some (out ++ got) ∧ got <+: b.rest ∧ (out ++ got).length ≤ outLen ∧
      ((∀ rest len, rest ≠ [] → 0 < len → 0 < b.step rest len) → got = b.rest.take (outLen - out.length))
  | 0, _, _, _, h => absurd h (Nat.not_lt_zero _)
  | fuel + 1, b, out, hl, hf => by
    rw [decodeLoop]
    unfold Bio.read
    simp only
    generalize hn : min (min (outLen - out.length) b.rest.length) (b.step b.rest (outLen - out.length)) = n
    have hlen : (b.rest.take n).length = n := by rw [List.length_take]; omega
    rw [hlen]
    by_cases h0 : 0 < n
    · rw [if_pos h0]
      obtain ⟨got, e1, ⟨q, hq⟩, e3, e4⟩ := decodeLoop_spec outLen fuel { b with rest := b.rest.drop n } (out ++ b.rest.take n) (by rw [List.length_append, hlen]; omega) (by rw [List.length_append, hlen]; omega)
      refine ⟨b.rest.take n ++ got, ?_, ⟨q, ?_⟩, ?_, fun hs => ?_⟩
      · rw [e1, List.append_assoc]
      · rw [List.append_assoc, hq, List.take_append_drop]
      · rw [← List.append_assoc]; exact e3
      · rw [e4 hs]
        simp only [List.length_append, hlen]
        rw [show outLen - out.length = n + (outLen - (out.length + n)) by omega, List.take_add]
    · rw [if_neg h0]
      refine ⟨[], by rw [List.append_nil], List.nil_prefix, by rw [List.append_nil]; exact hl, fun hs => ?_⟩
      by_cases hr : b.rest = []
      · rw [hr]; simp
      · by_cases hz : outLen - out.length = 0
        · rw [hz]; simp
        · have := hs b.rest (outLen - out.length) hr (by omega)
          have : 0 < b.rest.length := List.length_pos_iff.2 hr
          omega

/-- **C138.** However the BIO splits what it decodes, decoding ends, nothing is written outside of the buffer, and what's written is a prefix of what was decoded, in order; all of it if it fits and the BIO doesn't stall. -/
theorem C138 (created pushed failed : Bool) (outLen : Nat) (b : Bio) :
    ∃ r, base64Decode created pushed failed outLen (outLen + 1) b = some r ∧
      (∀ out, r = some out → out <+: b.rest ∧ out.length ≤ outLen) ∧
      (created = true → pushed = true → failed = false → (∀ rest len, rest ≠ [] → 0 < len → 0 < b.step rest len) → b.rest.length ≤ outLen → r = some b.rest) := by
  obtain ⟨got, e1, e2, e3, e4⟩ := decodeLoop_spec outLen (outLen + 1) b [] (Nat.zero_le _) (by simp)
  rw [List.nil_append] at e1 e3
  unfold base64Decode
  rw [e1]
  cases created with
  | false => exact ⟨none, rfl, (fun _ h => by cases h), (fun h => by cases h)⟩
  | true =>
    cases pushed with
    | false => exact ⟨none, rfl, (fun _ h => by cases h), (fun _ h => by cases h)⟩
    | true =>
      cases failed with
      | true => exact ⟨none, rfl, (fun _ h => by cases h), (fun _ _ h => by cases h)⟩
      | false =>
        refine ⟨some got, rfl, (fun out h => by injection h with h; subst h; exact ⟨e2, e3⟩), fun _ _ _ hs hl => ?_⟩
        rw [e4 hs, List.take_of_length_le (by simpa using hl)]

theorem decode_all (d : Decoder) (tmp key : List Byte) (hm : Verif.Tal.MaxLine 80 tmp) (hs : d.meaning tmp = d.meaning key) :
    base64Decode true true false (evpDecodeLength key.length) (evpDecodeLength key.length + 1) (d.bio tmp) = some (some (d.meaning key)) := by
  obtain ⟨r, h1, _, h3⟩ := C138 true true false (evpDecodeLength key.length) (d.bio tmp)
  have hy := d.yields tmp hm
  rw [h1, h3 rfl rfl rfl (d.moves tmp), hy, hs]
  rw [hy, hs]
  have := d.short key
  unfold evpDecodeLength
  omega

/-- **C138, TALs.** The key of a TAL is what its text means, whole, however it's split into lines. -/
theorem C138_tal (d : Decoder) (key : List Byte) : readSpki d.bio false key = .ok (some (d.meaning key)) := by
  obtain ⟨out, h1, h2, h3⟩ := Verif.Tal.C55_tal_partial key
  unfold readSpki
  simp only [h1]
  rw [decode_all d out key (fun r hr hn => Nat.le_trans (h3 r hr hn) (by decide)) (by rw [← d.lfs out, h2.same, d.lfs])]

theorem meaning_white (d : Decoder) : ∀ (pre t : List Byte), (∀ c ∈ pre, Verif.Tal.White c) → d.meaning (pre ++ t) = d.meaning t
  | [], _, _ => rfl
  | c :: pre, t, h => by
    rw [List.cons_append, d.white c _ (h c (List.mem_cons_self ..))]
    exact meaning_white d pre t (fun c hc => h c (List.mem_cons_of_mem _ hc))

/-- The property: a file that's published by RRDP is what its text means. -/
def PublishMeans : Prop :=
  ∀ (d : Decoder) (content : List Byte), (∃ c ∈ content, ¬ Verif.Tal.White c) → base64Read d.bio true false content = .ok (some (d.meaning content))

/-- **C138, RRDP (part).** A file that's published by RRDP is what its text means, provided that its text has more than 65 characters after the white space at its start, or no line of its text has more than 80. If it's
only white space it's an error. -/
theorem C138_publish_partial (d : Decoder) (content tmp : List Byte) (ht : Verif.Tal.Trimmed content tmp) :
    (tmp = [] → base64Read d.bio true false content = .ok none) ∧
    (tmp ≠ [] → 65 < tmp.length ∨ Verif.Tal.MaxLine 80 content → base64Read d.bio true false content = .ok (some (d.meaning content))) := by
  obtain ⟨r, tmp2, h1, h2, h3⟩ := Verif.Tal.C55_publish content
  have huniq : tmp2 = tmp := by
    obtain ⟨p1, e1, w1, n1⟩ := ht
    obtain ⟨p2, e2, w2, n2⟩ := h2
    rw [e1] at e2
    rcases List.append_eq_append_iff.1 e2 with ⟨q, a1, a2⟩ | ⟨q, a1, a2⟩
    · cases q with
      | nil => exact a2.symm
      | cons c q => exact absurd (w2 c (by rw [a1]; simp)) (n1 c (by rw [a2]; rfl))
    · cases q with
      | nil => exact a2
      | cons c q => exact absurd (w1 c (by rw [a1]; simp)) (n2 c (by rw [a2]; rfl))
  subst huniq
  obtain ⟨pre, e, w, n⟩ := h2
  have hm : d.meaning content = d.meaning tmp2 := by rw [e]; exact meaning_white d pre tmp2 w
  unfold base64Read
  rw [h1]
  rcases h3 with ⟨h3, h4⟩ | ⟨h3, ⟨c, hc, hw⟩, h4⟩ | ⟨out, h3, h4, h5, h6⟩
  · subst h3
    simp only
    refine ⟨fun _ => by trivial, fun hne => ?_⟩
    cases tmp2 with
    | nil => exact absurd rfl hne
    | cons c l => exact absurd (h4 c (by rw [e]; simp)) (n c rfl)
  · subst h3
    simp only [Bool.not_true, Bool.false_eq_true, if_false]
    refine ⟨fun hz => ?_, fun _ hor => ?_⟩
    · subst hz; rw [List.append_nil] at e; subst e; exact absurd (w c hc) hw
    · rcases hor with hor | hor
      · omega
      · rw [decode_all d content content hor rfl]
  · subst h3
    simp only [Bool.not_true, Bool.false_eq_true, if_false]
    refine ⟨fun hz => ?_, fun _ _ => ?_⟩
    · subst hz; simp at h4
    · rw [decode_all d out content (fun r hr hn => Nat.le_trans (h6 r hr hn) (by decide)) (by rw [← d.lfs out, h5.same, d.lfs, hm])]

/-- A decoder for which what has at least 4 characters means 3 bytes, and which doesn't understand texts that have lines longer than 80. -/
noncomputable def toyDecoder : Decoder where
  meaning t := if 4 ≤ (t.filter (fun c => !Verif.Tal.isSpace c)).length then [1#8, 2#8, 3#8] else []
  bio t := open Classical in ⟨if Verif.Tal.MaxLine 80 t then (if 4 ≤ (t.filter (fun c => !Verif.Tal.isSpace c)).length then [1#8, 2#8, 3#8] else []) else [], fun _ _ => 2⟩
  lfs t := by
    rw [List.filter_filter]
    have : t.filter (fun a => !Verif.Tal.isSpace a && decide (a ≠ lf)) = t.filter (fun c => !Verif.Tal.isSpace c) := by
      apply List.filter_congr
      intro c _
      by_cases hc : c = lf
      · subst hc; decide
      · rw [decide_eq_true hc, Bool.and_true]
    rw [this]
  white c t h := by rw [List.filter_cons, (Verif.Tal.isSpace_iff c).2 h]; rfl
  short t := by
    split
    · rename_i h
      have := List.length_filter_le (fun c => !Verif.Tal.isSpace c) t
      simp only [List.length_cons, List.length_nil]
      omega
    · simp
  yields t h := by simp only [if_pos h]
  moves _ _ _ _ _ := (by decide : 0 < 2)

theorem replicate_maxLine {n k : Nat} {c : Byte} (hc : c ≠ lf) (h : n < k) (t : List Byte) : ¬ Verif.Tal.MaxLine n (List.replicate k c ++ t) := by
  intro hm
  have := hm (List.replicate k c) (List.prefix_append ..).isInfix (by rw [List.mem_replicate]; exact fun h => hc h.2.symm)
  rw [List.length_replicate] at this
  omega

/-- **C138, RRDP.** The property is false of the code: the text is given to the decoder as it is if it has at most 65 characters after its leading white space, no matter how much of the latter there is in its line. -/
theorem C138_publish_refuted : ¬ PublishMeans := by
  intro h
  have h1 := h toyDecoder (List.replicate 81 32#8 ++ [65#8, 65#8, 65#8, 65#8]) ⟨65#8, by simp, by unfold Verif.Tal.White; decide⟩
  have hsan : Verif.Tal.publishSanitize (List.replicate 81 32#8 ++ [65#8, 65#8, 65#8, 65#8]) = .ok (some (List.replicate 81 32#8 ++ [65#8, 65#8, 65#8, 65#8])) := by decide +kernel
  unfold base64Read at h1
  rw [hsan] at h1
  simp only [Bool.not_true, Bool.false_eq_true, if_false] at h1
  obtain ⟨r, e1, e2, _⟩ := C138 true true false (evpDecodeLength (List.replicate 81 32#8 ++ [65#8, 65#8, 65#8, 65#8]).length) (toyDecoder.bio (List.replicate 81 32#8 ++ [65#8, 65#8, 65#8, 65#8]))
  rw [e1] at h1
  simp only at h1
  have hr : r = some (toyDecoder.meaning (List.replicate 81 32#8 ++ [65#8, 65#8, 65#8, 65#8])) := by injection h1
  have hz : (toyDecoder.bio (List.replicate 81 32#8 ++ [65#8, 65#8, 65#8, 65#8])).rest = [] := by
    unfold toyDecoder
    simp only
    rw [if_neg (replicate_maxLine (by decide) (by decide) _)]
  have hm : toyDecoder.meaning (List.replicate 81 32#8 ++ [65#8, 65#8, 65#8, 65#8]) = [1#8, 2#8, 3#8] := by
    unfold toyDecoder
    decide +kernel
  have := (e2 _ hr).1
  rw [hz, hm] at this
  exact absurd this (by decide)

example : readSpki toyDecoder.bio false [65#8, 66#8, 67#8, lf, 68#8] = .ok (some [1#8, 2#8, 3#8]) := by
  rw [C138_tal]
  unfold toyDecoder
  decide +kernel
/-- A BIO that yields 2 bytes at a time, and a buffer which is too small. -/
example : base64Decode true true false 5 6 ⟨[1#8, 2#8, 3#8, 4#8], fun _ _ => 2⟩ = some (some [1#8, 2#8, 3#8, 4#8]) := by decide +kernel
example : base64Decode true true false 3 4 ⟨[1#8, 2#8, 3#8, 4#8], fun _ _ => 2⟩ = some (some [1#8, 2#8, 3#8]) := by decide +kernel

/-! ## C139 -/

/-- The property: if a published file was written, then it has all of its content. -/
def WriteComplete : Prop :=
  ∀ (mkdirResult : Int) (fopen : Option Nat) (content : List Byte) (written flushed : Nat) (onDisk : Option (List Byte)),
    writeFile mkdirResult fopen content written flushed = (0, onDisk) → onDisk = some content

/-- **C139.** The property is false of the code: a file that couldn't be flushed (say, because the disk is full) counts as written. -/
theorem C139_refuted : ¬ WriteComplete := by
  intro h
  have := h 0 none [1#8, 2#8] 2 0 (some []) rfl
  cases this

/-- **C139 (part).** If it succeeds then the file is there, it has nothing but the start of the content, and all of it if closing it succeeded. If it fails then either the file wasn't opened, or `fwrite` failed; and it succeeds if
nothing fails. -/
theorem C139_partial (mkdirResult : Int) (fopen : Option Nat) (content : List Byte) (written flushed : Nat) (h0 : fopen ≠ some 0) :
    (∀ onDisk, writeFile mkdirResult fopen content written flushed = (0, onDisk) → ∃ s, onDisk = some s ∧ s <+: content ∧ (content.length ≤ flushed → s = content)) ∧
    ((writeFile mkdirResult fopen content written flushed).1 = 0 ↔ mkdirResult = 0 ∧ fopen = none ∧ written = content.length) ∧
    ((writeFile mkdirResult fopen content written flushed).2 = none ↔ mkdirResult ≠ 0 ∨ fopen ≠ none) := by
  unfold writeFile
  by_cases hm : mkdirResult = 0
  · rw [if_neg (by simpa using hm)]
    cases fopen with
    | some e =>
      have he : (e : Int) ≠ 0 := fun h => h0 (by rw [show e = 0 from by exact_mod_cast h])
      refine ⟨fun _ h => ?_, ⟨fun h => absurd h he, fun h => by cases h.2.1⟩, ⟨fun _ => Or.inr (by simp), fun _ => rfl⟩⟩
      exact absurd (congrArg Prod.fst h) he
    | none =>
      simp only
      by_cases hw : written = content.length
      · rw [if_neg (by simpa using hw)]
        refine ⟨fun d h => ?_, ⟨fun _ => ⟨hm, by trivial, hw⟩, fun _ => rfl⟩, ⟨(fun h => by cases h), fun h => ?_⟩⟩
        · injection h with _ h
          exact ⟨_, h.symm, List.take_prefix .., fun hl => List.take_of_length_le hl⟩
        · rcases h with h | h
          · exact absurd hm h
          · exact absurd rfl h
      · rw [if_pos hw]
        refine ⟨fun d h => ?_, ⟨(fun h => absurd h (by simp)), fun h => absurd h.2.2 hw⟩, ⟨(fun h => by cases h), fun h => ?_⟩⟩
        · exact absurd (congrArg Prod.fst h) (by simp)
        · rcases h with h | h
          · exact absurd hm h
          · exact absurd rfl h
  · rw [if_pos hm]
    refine ⟨fun _ h => absurd (congrArg Prod.fst h) hm, ⟨fun h => absurd h hm, fun h => absurd h.1 hm⟩, ⟨fun _ => Or.inl hm, fun _ => rfl⟩⟩

example : writeFile 0 none [1#8, 2#8] 2 2 = (0, some [1#8, 2#8]) ∧ writeFile 0 none [1#8, 2#8] 1 1 = (-22, some [1#8]) ∧ writeFile 0 (some 28) [1#8] 1 1 = (28, none) := by decide

/-! ## C140 -/

/-- The property: as long as the version is the same, nothing that was stored is lost, whenever the validator dies. -/
def CacheSurvives : Prop :=
  ∀ (α : Type) (v : List Char) (l : List (Run α)) (r : Run α), (∀ x ∈ r :: l, x.version = v) →
    (runs (r :: l) ⟨.missing, []⟩).files = kept (r :: l) []

/-- **C140.** The property is false of the code: the metafile is only written at the end, so what was stored by a first run that died is removed by the next one. -/
theorem C140_refuted : ¬ CacheSurvives := by
  intro h
  have := h Nat ['1'] [⟨['1'], id, none⟩] ⟨['1'], fun _ => [7], none⟩ (by simp)
  exact absurd this (by decide)

/-- **C140.** It's false even if every run but one gets to its end: it's also lost if it dies while it writes the metafile, which begins by emptying it. -/
theorem C140_refuted_end : ¬ ∀ (α : Type) (v : List Char) (a b r : Run α), a.Completes v → b.version = v → r.Completes v → (runs [a, b, r] ⟨.missing, []⟩).files = kept [a, b, r] [] := by
  intro h
  have := h Nat ['1'] ⟨['1'], fun _ => [7], some .done⟩ ⟨['1'], id, some .opened⟩ ⟨['1'], id, some .done⟩ ⟨rfl, rfl⟩ rfl ⟨rfl, rfl⟩
  exact absurd this (by decide)

theorem exec_keeps {α : Type} (v : List Char) (r : Run α) (d : Disk α) (hv : r.version = v) (hd : d.metafile = .version v) (ht : r.teardown ≠ some .opened) :
    (r.exec d).metafile = .version v ∧ (r.exec d).files = r.stores d.files := by
  unfold Run.exec initCacheMetafile
  rw [hd, hv]
  simp only [if_true]
  cases hw : r.teardown with
  | none => exact ⟨hd, rfl⟩
  | some t =>
    cases t with
    | cannotOpen => exact ⟨hd, rfl⟩
    | opened => exact absurd hw ht
    | done => exact ⟨rfl, rfl⟩

theorem runs_keep {α : Type} (v : List Char) : ∀ (l : List (Run α)) (d : Disk α), d.metafile = .version v → (∀ r ∈ l, r.version = v ∧ r.teardown ≠ some .opened) →
    (runs l d).metafile = .version v ∧ (runs l d).files = kept l d.files
  | [], d, hd, _ => ⟨hd, rfl⟩
  | r :: l, d, hd, h => by
    obtain ⟨h1, h2⟩ := exec_keeps v r d (h r (List.mem_cons_self ..)).1 hd (h r (List.mem_cons_self ..)).2
    have := runs_keep v l (r.exec d) h1 (fun r hr => h r (List.mem_cons_of_mem _ hr))
    rw [h2] at this
    exact this

/-- **C140 (part).** Once a run of a version got to its end, everything that it and the following runs of the same version store is kept, whenever they die, as long as it's not while they write the metafile. -/
theorem C140_partial {α : Type} (v : List Char) (first : Run α) (d : Disk α) (l : List (Run α)) (hf : first.Completes v) (h : ∀ r ∈ l, r.version = v ∧ r.teardown ≠ some .opened) :
    (runs (first :: l) d).files = kept l (first.exec d).files := by
  refine (runs_keep v l (first.exec d) ?_ h).2
  unfold Run.exec
  rw [hf.2, hf.1]
  rfl

/-- **C140, other versions.** What another version left (or whatever is there without a metafile that says it's of this one) is removed before anything is stored; nothing of it is ever used. -/
theorem C140_other {α : Type} (r : Run α) (d : Disk α) (h : d.metafile ≠ .version r.version) : (r.exec d).files = r.stores [] := by
  unfold Run.exec
  have : initCacheMetafile r.version d = ⟨.missing, []⟩ := by
    unfold initCacheMetafile
    cases hm : d.metafile with
    | version v => simp only; rw [if_neg]; intro hv; exact h (by rw [hm, hv])
    | _ => rfl
  rw [this]
  cases r.teardown with
  | none => rfl
  | some t => cases t <;> rfl

example : (runs [⟨['1'], (· ++ [1]), some .done⟩, ⟨['1'], (· ++ [2]), none⟩, ⟨['1'], (· ++ [3]), some .cannotOpen⟩, ⟨['1'], (· ++ [4]), some .done⟩] (⟨.notJson, [0]⟩ : Disk Nat)).files = [1, 2, 3, 4] := by decide
example : (runs [⟨['1'], (· ++ [1]), some .done⟩, ⟨['2'], (· ++ [2]), some .done⟩] (⟨.missing, []⟩ : Disk Nat)).files = [2] := by decide

end Verif.Fs
