import Verif.Tal.FileModel
import Mathlib.Data.List.Forall2
/-
C60, C59: lines, and the structure of TAL files.
-/
namespace Verif.Tal
open Verif.Rtr (Byte)

/-! ### Specification -/

/-- The file starts with that line (without its terminator), and continues with the rest. A line ends with LF or CRLF, or with the file if
it isn't empty. -/
inductive IsLine : List Byte → Str → List Byte → Prop
  | lf (s : Str) (rest : List Byte) : lf ∉ s → nul ∉ s → s.getLast? ≠ some cr → IsLine (s ++ Tal.lf :: rest) s rest
  | crlf (s : Str) (rest : List Byte) : Tal.lf ∉ s → nul ∉ s → IsLine (s ++ cr :: Tal.lf :: rest) s rest
  | last (s : Str) : Tal.lf ∉ s → nul ∉ s → s ≠ [] → IsLine s s []

/-- The file starts with those lines. -/
inductive Lines : List Byte → List Str → List Byte → Prop
  | nil (file : List Byte) : Lines file [] file
  | cons {file rest end_ : List Byte} {s : Str} {ls : List Str} : IsLine file s rest → Lines rest ls end_ → Lines file (s :: ls) end_

variable {U : Type}

/-- The line is an rsync or HTTPS URL. -/
inductive IsUrl (create : UriType → Str → Option U) (s : Str) (u : U) : Prop
  | rsync : rsyncPrefix <+: s → create .rsync s = some u → IsUrl create s u
  | https : httpsPrefix <+: s → create .https s = some u → IsUrl create s u

/-- A TAL file: comments, URLs, an empty line, the key. -/
structure IsTalFile (create : UriType → Str → Option U) (file : List Byte) (uris : List U) (key : List Byte) : Prop where
  ex : ∃ comments urls, Lines file (comments ++ urls ++ [[]]) key ∧ (∀ c ∈ comments, c.head? = some hash) ∧ urls ≠ [] ∧
    List.Forall₂ (IsUrl create) urls uris

/-! ### Lines -/

theorem takeWhile_lf {s : List Byte} (h : lf ∉ s) (r : List Byte) : (s ++ lf :: r).takeWhile (· ≠ lf) = s ∧ (s ++ lf :: r).dropWhile (· ≠ lf) = lf :: r := by
  induction s with
  | nil => simp
  | cons c s ih =>
    have hc : c ≠ lf := fun e => h (by rw [e]; exact List.mem_cons_self ..)
    obtain ⟨h1, h2⟩ := ih fun hm => h (List.mem_cons_of_mem _ hm)
    have hd : decide (c ≠ lf) = true := by simpa using hc
    constructor
    · rw [List.cons_append, List.takeWhile_cons, hd, if_pos rfl, h1]
    · rw [List.cons_append, List.dropWhile_cons, hd, if_pos rfl, h2]

theorem takeWhile_none {s : List Byte} (h : lf ∉ s) : s.takeWhile (· ≠ lf) = s ∧ s.dropWhile (· ≠ lf) = [] := by
  induction s with
  | nil => simp
  | cons c s ih =>
    have hc : c ≠ lf := fun e => h (by rw [e]; exact List.mem_cons_self ..)
    obtain ⟨h1, h2⟩ := ih fun hm => h (List.mem_cons_of_mem _ hm)
    have hd : decide (c ≠ lf) = true := by simpa using hc
    constructor
    · rw [List.takeWhile_cons, hd, if_pos rfl, h1]
    · rw [List.dropWhile_cons, hd, if_pos rfl, h2]

theorem getline_lf {s : List Byte} (h : lf ∉ s) (r : List Byte) : getline (s ++ lf :: r) = some (s ++ [lf], r) := by
  unfold getline
  rw [if_neg (by simp), (takeWhile_lf h r).1, (takeWhile_lf h r).2]
  rfl

theorem getline_last {s : List Byte} (h : lf ∉ s) (hn : s ≠ []) : getline s = some (s, []) := by
  unfold getline
  rw [if_neg hn, (takeWhile_none h).1, (takeWhile_none h).2]
  simp

theorem split_file (file : List Byte) : (lf ∉ file) ∨ ∃ s r, file = s ++ lf :: r ∧ lf ∉ s := by
  by_cases h : lf ∈ file
  · right
    obtain ⟨s, r, e, hs⟩ := List.eq_append_cons_of_mem h
    exact ⟨s, r, e, hs⟩
  · exact .inl h

theorem cstr_append_nul {s : List Byte} (h : nul ∉ s) (r : List Byte) : cstr (s ++ nul :: r) = s := by
  unfold cstr
  induction s with
  | nil => simp
  | cons c s ih =>
    have hc : decide (c ≠ nul) = true := by simpa using fun e : c = nul => h (by rw [e]; exact List.mem_cons_self ..)
    rw [List.cons_append, List.takeWhile_cons, hc, if_pos rfl, ih fun hm => h (List.mem_cons_of_mem _ hm)]

theorem lfileRead_nul {file l rest : List Byte} (hg : getline file = some (l, rest)) (h : nul ∈ l) : lfileRead file = .error := by
  unfold lfileRead
  rw [hg]
  simp only
  rw [if_pos h]

theorem mem_append_lf {s : List Byte} : nul ∈ s ++ [lf] ↔ nul ∈ s := by
  simp only [List.mem_append, List.mem_singleton]
  constructor
  · rintro (h | h)
    · exact h
    · exact absurd h (by decide)
  · exact .inl

theorem lfileRead_lf {s : List Byte} (h : lf ∉ s) (hn : nul ∉ s) (hc : s.getLast? ≠ some cr) (r : List Byte) :
    lfileRead (s ++ lf :: r) = .line s r := by
  unfold lfileRead
  rw [getline_lf h]
  simp only
  rw [if_neg (fun h => hn (mem_append_lf.1 h))]
  have hlen : (s ++ [lf]).length = s.length + 1 := by simp
  have hbuf : s ++ [lf] ++ [nul] = s ++ [lf, nul] := by simp
  have h1 : (s ++ [lf, nul])[s.length]? = some lf := by simp
  rw [hlen, hbuf, Nat.add_sub_cancel]
  have first : (if s.length + 1 ≥ 2 then (if (s ++ [lf, nul])[s.length + 1 - 2]? = some cr ∧ (s ++ [lf, nul])[s.length]? = some lf then
      (s ++ [lf, nul]).set (s.length + 1 - 2) nul else s ++ [lf, nul]) else s ++ [lf, nul]) = s ++ [lf, nul] := by
    split
    · rename_i hl
      rw [if_neg]
      rintro ⟨hcr, _⟩
      rw [List.getElem?_append_left (by omega)] at hcr
      apply hc
      rw [List.getLast?_eq_getElem?]
      exact hcr
    · rfl
  rw [first, if_pos (Nat.le_add_left ..), h1, if_pos rfl]
  have : (s ++ [lf, nul]).set s.length nul = s ++ [nul, nul] := by simp
  rw [this, cstr_append_nul hn]

theorem lfileRead_crlf {s : List Byte} (h : lf ∉ s) (hn : nul ∉ s) (r : List Byte) :
    lfileRead (s ++ cr :: lf :: r) = .line s r := by
  have e : s ++ cr :: lf :: r = (s ++ [cr]) ++ lf :: r := by simp
  have h' : lf ∉ s ++ [cr] := by simp only [List.mem_append, List.mem_singleton, not_or]; exact ⟨h, by decide⟩
  have hn' : nul ∉ s ++ [cr] := by simp only [List.mem_append, List.mem_singleton, not_or]; exact ⟨hn, by decide⟩
  unfold lfileRead
  rw [e, getline_lf h']
  simp only
  rw [if_neg (fun h => hn' (mem_append_lf.1 h))]
  have hlen : (s ++ [cr] ++ [lf]).length = s.length + 2 := by simp
  have hbuf : s ++ [cr] ++ [lf] ++ [nul] = s ++ [cr, lf, nul] := by simp
  rw [hlen, hbuf]
  have h1 : (s ++ [cr, lf, nul])[s.length + 2 - 2]? = some cr := by simp
  have h2 : (s ++ [cr, lf, nul])[s.length + 2 - 1]? = some lf := by
    rw [show s.length + 2 - 1 = s.length + 1 by omega, List.getElem?_append_right (by omega)]
    simp
  have h3 : (s ++ [cr, lf, nul]).set (s.length + 2 - 2) nul = s ++ [nul, lf, nul] := by simp
  have first : (if s.length + 2 ≥ 2 then (if (s ++ [cr, lf, nul])[s.length + 2 - 2]? = some cr ∧ (s ++ [cr, lf, nul])[s.length + 2 - 1]? = some lf then
      (s ++ [cr, lf, nul]).set (s.length + 2 - 2) nul else s ++ [cr, lf, nul]) else s ++ [cr, lf, nul]) = s ++ [nul, lf, nul] := by
    rw [if_pos (Nat.le_add_left ..), if_pos ⟨h1, h2⟩, h3]
  rw [first, if_pos (Nat.le_trans (by decide) (Nat.le_add_left 2 _))]
  have h4 : (s ++ [nul, lf, nul])[s.length + 2 - 1]? = some lf := by
    rw [show s.length + 2 - 1 = s.length + 1 by omega, List.getElem?_append_right (by omega)]
    simp
  rw [if_pos h4]
  have h5 : (s ++ [nul, lf, nul]).set (s.length + 2 - 1) nul = s ++ [nul, nul, nul] := by
    rw [show s.length + 2 - 1 = s.length + 1 by omega, List.set_append_right _ _ (by omega)]
    simp
  rw [h5, cstr_append_nul hn]

theorem lfileRead_last {s : List Byte} (h : lf ∉ s) (hn : nul ∉ s) (hne : s ≠ []) : lfileRead s = .line s [] := by
  unfold lfileRead
  rw [getline_last h hne]
  simp only
  rw [if_neg hn]
  have hl : 0 < s.length := List.length_pos_iff.2 hne
  have key : (s ++ [nul])[s.length - 1]? ≠ some lf := by
    rw [List.getElem?_append_left (by omega)]
    intro he
    exact h (List.mem_of_getElem? he)
  simp only [key, and_false, if_false, ite_self]
  rw [cstr_append_nul hn]

theorem lfileRead_nul_lf {s : List Byte} (h : lf ∉ s) (hn : nul ∈ s) (r : List Byte) : lfileRead (s ++ lf :: r) = .error :=
  lfileRead_nul (getline_lf h r) (List.mem_append_left _ hn)

theorem lfileRead_nul_last {s : List Byte} (h : lf ∉ s) (hn : nul ∈ s) : lfileRead s = .error :=
  lfileRead_nul (getline_last h (fun e => by rw [e] at hn; cases hn)) hn

/-- Everything that a line can be. -/
theorem read_cases (file : List Byte) : (file = [] ∧ lfileRead file = .eof) ∨
    (nul ∈ file.takeWhile (· ≠ lf) ∧ lfileRead file = .error) ∨
    (nul ∉ file.takeWhile (· ≠ lf) ∧ ∃ s rest, IsLine file s rest ∧ lfileRead file = .line s rest) := by
  rcases split_file file with h | ⟨s, r, rfl, h⟩
  · by_cases hne : file = []
    · subst hne; exact .inl ⟨rfl, rfl⟩
    · rw [(takeWhile_none h).1]
      by_cases hn : nul ∈ file
      · exact .inr (.inl ⟨hn, lfileRead_nul_last h hn⟩)
      · exact .inr (.inr ⟨hn, file, [], .last file h hn hne, lfileRead_last h hn hne⟩)
  · rw [(takeWhile_lf h r).1]
    by_cases hn : nul ∈ s
    · exact .inr (.inl ⟨hn, lfileRead_nul_lf h hn r⟩)
    · by_cases hc : s.getLast? = some cr
      · obtain ⟨t, rfl⟩ := List.getLast?_eq_some_iff.1 hc
        have h1 : lf ∉ t := fun hm => h (List.mem_append_left _ hm)
        have h2 : nul ∉ t := fun hm => hn (List.mem_append_left _ hm)
        refine .inr (.inr ⟨hn, t, r, ?_, ?_⟩)
        · rw [List.append_assoc]; exact .crlf t r h1 h2
        · rw [List.append_assoc]; exact lfileRead_crlf h1 h2 r
      · exact .inr (.inr ⟨hn, s, r, .lf s r h hn hc, lfileRead_lf h hn hc r⟩)

/-- **C60.** A line is what's before the next LF or CRLF, or before the end of the file, if there's no NUL in it. -/
theorem C60_line (file : List Byte) (s : Str) (rest : List Byte) : lfileRead file = .line s rest ↔ IsLine file s rest := by
  constructor
  · intro h
    rcases read_cases file with ⟨_, e⟩ | ⟨_, e⟩ | ⟨_, s', r', hl, e⟩
    · rw [e] at h; cases h
    · rw [e] at h; cases h
    · rw [e] at h; cases h; exact hl
  · intro h
    cases h with
    | lf _ _ h1 h2 h3 => exact lfileRead_lf h1 h2 h3 _
    | crlf _ _ h1 h2 => exact lfileRead_crlf h1 h2 _
    | last _ h1 h2 h3 => exact lfileRead_last h1 h2 h3

/-- **C60.** The end of the file, and errors, are exactly what they should be. -/
theorem C60_else (file : List Byte) : (lfileRead file = .eof ↔ file = []) ∧ (lfileRead file = .error ↔ nul ∈ file.takeWhile (· ≠ lf)) := by
  constructor
  · constructor
    · intro h
      rcases read_cases file with ⟨e, _⟩ | ⟨_, e⟩ | ⟨_, s', r', hl, e⟩
      · exact e
      · rw [e] at h; cases h
      · rw [e] at h; cases h
    · rintro rfl; rfl
  · constructor
    · intro h
      rcases read_cases file with ⟨_, e⟩ | ⟨hm, _⟩ | ⟨_, s', r', hl, e⟩
      · rw [e] at h; cases h
      · exact hm
      · rw [e] at h; cases h
    · intro h
      rcases read_cases file with ⟨e, _⟩ | ⟨_, e⟩ | ⟨hn, _⟩
      · subst e; cases h
      · exact e
      · exact absurd h hn

/-- Lines do not overlap, and none of the bytes of a line is lost except for its terminator. -/
theorem IsLine.length {file : List Byte} {s : Str} {rest : List Byte} (h : IsLine file s rest) : rest.length < file.length := by
  cases h with
  | lf => simp; omega
  | crlf => simp; omega
  | last _ _ _ h => exact List.length_pos_iff.2 h

theorem IsLine.unique {file : List Byte} {s s' : Str} {rest rest' : List Byte} (h : IsLine file s rest) (h' : IsLine file s' rest') :
    s = s' ∧ rest = rest' := by
  have h1 := (C60_line ..).2 h
  rw [(C60_line ..).2 h'] at h1
  cases h1
  exact ⟨rfl, rfl⟩

/-! ### TAL files -/

theorem startsWith_iff {s pre : Str} : startsWith s pre = true ↔ pre <+: s := by
  unfold startsWith
  rw [beq_iff_eq, List.prefix_iff_eq_take, eq_comm]

theorem not_both {s : Str} (h1 : rsyncPrefix <+: s) (h2 : httpsPrefix <+: s) : False := by
  have e1 := List.prefix_iff_eq_take.1 h1
  have e2 := List.prefix_iff_eq_take.1 h2
  rw [show httpsPrefix.length = rsyncPrefix.length from rfl, ← e1] at e2
  revert e2
  decide

theorem addUri_iff {create : UriType → Str → Option U} {uris uris' : List U} {s : Str} :
    addUri create uris s = some uris' ↔ ∃ u, IsUrl create s u ∧ uris' = uris ++ [u] := by
  unfold addUri
  by_cases h1 : startsWith s rsyncPrefix = true
  · rw [if_pos h1]
    constructor
    · intro h
      cases hc : create .rsync s with
      | none => rw [hc] at h; cases h
      | some u => rw [hc] at h; cases h; exact ⟨u, .rsync (startsWith_iff.1 h1) hc, rfl⟩
    · rintro ⟨u, hu, rfl⟩
      cases hu with
      | rsync _ hc => rw [hc]; rfl
      | https h2 _ => exact (not_both (startsWith_iff.1 h1) h2).elim
  · rw [if_neg h1]
    by_cases h2 : startsWith s httpsPrefix = true
    · rw [if_pos h2]
      constructor
      · intro h
        cases hc : create .https s with
        | none => rw [hc] at h; cases h
        | some u => rw [hc] at h; cases h; exact ⟨u, .https (startsWith_iff.1 h2) hc, rfl⟩
      · rintro ⟨u, hu, rfl⟩
        cases hu with
        | https _ hc => rw [hc]; rfl
        | rsync h _ => exact absurd (startsWith_iff.2 h) h1
    · rw [if_neg h2]
      constructor
      · intro h; cases h
      · rintro ⟨u, hu, rfl⟩
        cases hu with
        | https h _ => exact absurd (startsWith_iff.2 h) h2
        | rsync h _ => exact absurd (startsWith_iff.2 h) h1

theorem IsUrl.ne {create : UriType → Str → Option U} {s : Str} {u : U} (h : IsUrl create s u) : s ≠ [] ∧ s.head? ≠ some hash := by
  cases h with
  | rsync h _ => obtain ⟨t, rfl⟩ := h; exact ⟨(fun h => by cases h), (by show some _ ≠ some hash; decide)⟩
  | https h _ => obtain ⟨t, rfl⟩ := h; exact ⟨(fun h => by cases h), (by show some _ ≠ some hash; decide)⟩

theorem uriLoop_iff {create : UriType → Str → Option U} : ∀ (fuel : Nat) (uri : Str) (file : List Byte) (acc uris : List U) (key : List Byte),
    file.length < fuel → (uriLoop create fuel uri file acc = some (uris, key) ↔
      ∃ urls us, Lines file (urls ++ [[]]) key ∧ List.Forall₂ (IsUrl create) (uri :: urls) us ∧ uris = acc ++ us)
  | 0, _, _, _, _, _, h => absurd h (Nat.not_lt_zero _)
  | fuel + 1, uri, file, acc, uris, key, h => by
    unfold uriLoop
    cases ha : addUri create acc uri with
    | none =>
      simp only
      constructor
      · intro h; cases h
      · rintro ⟨urls, us, _, hu, _⟩
        cases hu with
        | cons hu _ => rw [addUri_iff.2 ⟨_, hu, rfl⟩] at ha; cases ha
    | some acc' =>
      obtain ⟨u, hu, rfl⟩ := addUri_iff.1 ha
      simp only
      rcases read_cases file with ⟨e, hr⟩ | ⟨_, hr⟩ | ⟨_, s, rest, hl, hr⟩
      · rw [hr]
        simp only
        constructor
        · intro h; cases h
        · rintro ⟨urls, us, hlines, _⟩
          subst e
          cases urls <;> (cases hlines with | cons h _ => have := h.length; cases this)
      · rw [hr]
        simp only
        constructor
        · intro h; cases h
        · rintro ⟨urls, us, hlines, _⟩
          cases urls <;> (cases hlines with | cons h _ => rw [(C60_line ..).2 h] at hr; cases hr)
      · rw [hr]
        simp only
        by_cases hs : s = []
        · rw [if_pos hs]
          subst hs
          constructor
          · intro h
            cases h
            exact ⟨[], [u], .cons hl (.nil _), .cons hu .nil, rfl⟩
          · rintro ⟨urls, us, hlines, hf, rfl⟩
            cases urls with
            | nil =>
              cases hlines with
              | cons h h' =>
                cases h'
                obtain ⟨_, rfl⟩ := hl.unique h
                cases hf with
                | cons h1 h2 =>
                  cases h2
                  rename_i u'
                  have : addUri create acc uri = some (acc ++ [u']) := addUri_iff.2 ⟨u', h1, rfl⟩
                  rw [ha] at this
                  rw [Option.some.inj this]
            | cons x urls =>
              cases hlines with
              | cons h _ =>
                obtain ⟨rfl, _⟩ := hl.unique h
                cases hf with
                | cons _ h2 => cases h2 with | cons h3 _ => exact absurd rfl h3.ne.1
        · rw [if_neg hs, uriLoop_iff fuel s rest _ _ _ (by have := hl.length; omega)]
          constructor
          · rintro ⟨urls, us, hlines, hf, rfl⟩
            exact ⟨s :: urls, u :: us, .cons hl hlines, .cons hu hf, by simp⟩
          · rintro ⟨urls, us, hlines, hf, rfl⟩
            cases urls with
            | nil => cases hlines with | cons h _ => exact absurd (hl.unique h).1 hs
            | cons x urls =>
              cases hlines with
              | cons h h' =>
                obtain ⟨rfl, rfl⟩ := hl.unique h
                cases hf with
                | cons h1 h2 =>
                  rename_i u' us
                  refine ⟨urls, us, h', h2, ?_⟩
                  have : addUri create acc uri = some (acc ++ [u']) := addUri_iff.2 ⟨u', h1, rfl⟩
                  rw [ha] at this
                  rw [Option.some.inj this]
                  simp

theorem Lines.append {file mid end_ : List Byte} {l l' : List Str} (h : Lines file l mid) (h' : Lines mid l' end_) : Lines file (l ++ l') end_ := by
  induction h with
  | nil => exact h'
  | cons h1 _ ih => exact .cons h1 (ih h')

theorem Lines.split {l l' : List Str} {file end_ : List Byte} (h : Lines file (l ++ l') end_) : ∃ mid, Lines file l mid ∧ Lines mid l' end_ := by
  induction l generalizing file with
  | nil => exact ⟨file, .nil _, h⟩
  | cons s l ih =>
    cases h with
    | cons h1 h2 =>
      obtain ⟨mid, h3, h4⟩ := ih h2
      exact ⟨mid, .cons h1 h3, h4⟩

theorem commentLoop_iff : ∀ (fuel : Nat) (file : List Byte) (s : Str) (rest : List Byte), file.length < fuel →
    (commentLoop fuel file = some (s, rest) ↔
      ∃ comments, Lines file (comments ++ [s]) rest ∧ (∀ c ∈ comments, c.head? = some hash) ∧ s ≠ [] ∧ s.head? ≠ some hash)
  | 0, _, _, _, h => absurd h (Nat.not_lt_zero _)
  | fuel + 1, file, s, rest, h => by
    unfold commentLoop
    rcases read_cases file with ⟨e, hr⟩ | ⟨_, hr⟩ | ⟨_, t, r, hl, hr⟩
    · rw [hr]
      simp only
      constructor
      · intro h; cases h
      · rintro ⟨cs, hlines, _⟩
        subst e
        cases cs <;> (cases hlines with | cons h _ => have := h.length; cases this)
    · rw [hr]
      simp only
      constructor
      · intro h; cases h
      · rintro ⟨cs, hlines, _⟩
        cases cs <;> (cases hlines with | cons h _ => rw [(C60_line ..).2 h] at hr; cases hr)
    · rw [hr]
      simp only
      have hfirst : ∀ cs, Lines file (cs ++ [s]) rest → (cs = [] ∧ t = s ∧ r = rest) ∨ ∃ cs', cs = t :: cs' ∧ Lines r (cs' ++ [s]) rest := by
        intro cs hlines
        cases cs with
        | nil =>
          cases hlines with
          | cons h h' =>
            cases h'
            obtain ⟨h1, h2⟩ := hl.unique h
            exact .inl ⟨rfl, h1, h2⟩
        | cons c cs =>
          cases hlines with
          | cons h h' =>
            obtain ⟨rfl, rfl⟩ := hl.unique h
            exact .inr ⟨cs, rfl, h'⟩
      by_cases ht : t = []
      · rw [if_pos ht]
        constructor
        · intro h; cases h
        · rintro ⟨cs, hlines, hc, hs, _⟩
          rcases hfirst cs hlines with ⟨_, e, _⟩ | ⟨cs', rfl, _⟩
          · exact absurd (e.symm.trans ht) hs
          · have := hc t (List.mem_cons_self ..)
            rw [ht] at this; cases this
      · rw [if_neg ht]
        by_cases hh : t.head? = some hash
        · rw [if_pos hh, commentLoop_iff fuel r s rest (by have := hl.length; omega)]
          constructor
          · rintro ⟨cs, h1, h2, h3⟩
            refine ⟨t :: cs, .cons hl h1, ?_, h3⟩
            intro c hc
            rcases List.mem_cons.1 hc with rfl | hc
            · exact hh
            · exact h2 c hc
          · rintro ⟨cs, hlines, hc, hs, hs'⟩
            rcases hfirst cs hlines with ⟨_, e, _⟩ | ⟨cs', rfl, h'⟩
            · rw [e] at hh; exact absurd hh hs'
            · exact ⟨cs', h', fun c hm => hc c (List.mem_cons_of_mem _ hm), hs, hs'⟩
        · rw [if_neg hh]
          constructor
          · intro h
            cases h
            exact ⟨[], .cons hl (.nil _), (fun _ h => by cases h), ht, hh⟩
          · rintro ⟨cs, hlines, hc, hs, hs'⟩
            rcases hfirst cs hlines with ⟨_, rfl, rfl⟩ | ⟨cs', rfl, h'⟩
            · rfl
            · exact absurd (hc t (List.mem_cons_self ..)) hh

/-- `read_uris` skips the comments, then reads the URLs. -/
theorem readUris_eq (create : UriType → Str → Option U) (file : List Byte) : readUris create file =
    match commentLoop (file.length + 1) file with
    | none => none
    | some (s, rest) => uriLoop create (rest.length + 1) s rest [] := by
  unfold readUris
  rw [commentLoop]
  rcases read_cases file with ⟨e, hr⟩ | ⟨_, hr⟩ | ⟨_, t, r, hl, hr⟩
  · rw [hr]
  · rw [hr]
  · rw [hr]
    simp only
    by_cases ht : t = []
    · rw [if_pos ht, if_pos ht]
    · rw [if_neg ht, if_neg ht]
      by_cases hh : t.head? = some hash
      · rw [if_pos hh, if_pos hh]
        have hlt := hl.length
        cases h1 : commentLoop file.length r with
        | some p =>
          obtain ⟨s, rest⟩ := p
          rw [(commentLoop_iff (r.length + 1) r s rest (Nat.lt_succ_self _)).2 ((commentLoop_iff _ r s rest hlt).1 h1)]
        | none =>
          cases h2 : commentLoop (r.length + 1) r with
          | none => rfl
          | some p =>
            obtain ⟨s, rest⟩ := p
            rw [(commentLoop_iff _ r s rest hlt).2 ((commentLoop_iff _ r s rest (Nat.lt_succ_self _)).1 h2)] at h1
            cases h1
      · rw [if_neg hh, if_neg hh]

/-- **C59.** A TAL's URLs and key text are found exactly in the files which consist of comment lines, at least one line that's an
rsync or HTTPS URL, an empty line and the key text; and they are the ones which are in the file. -/
theorem C59 (create : UriType → Str → Option U) (file : List Byte) (uris : List U) (key : List Byte) :
    readUris create file = some (uris, key) ↔ IsTalFile create file uris key := by
  rw [readUris_eq]
  constructor
  · intro h
    cases h1 : commentLoop (file.length + 1) file with
    | none => rw [h1] at h; cases h
    | some p =>
      obtain ⟨s, rest⟩ := p
      rw [h1] at h
      obtain ⟨cs, h2, h3, h4, h5⟩ := (commentLoop_iff _ file s rest (Nat.lt_succ_self _)).1 h1
      obtain ⟨urls, us, h6, h7, h8⟩ := (uriLoop_iff _ s rest [] uris key (Nat.lt_succ_self _)).1 h
      rw [List.nil_append] at h8
      subst h8
      refine ⟨cs, s :: urls, ?_, h3, (fun h => by cases h), h7⟩
      have := h2.append h6
      simpa using this
  · rintro ⟨cs, urls, h1, h2, h3, h4⟩
    cases urls with
    | nil => exact absurd rfl h3
    | cons s urls =>
      have h1' : Lines file ((cs ++ [s]) ++ (urls ++ [[]])) key := by simpa using h1
      obtain ⟨mid, h5, h6⟩ := h1'.split
      have hne : s ≠ [] ∧ s.head? ≠ some hash := by
        cases h4 with
        | cons h _ => exact h.ne
      rw [(commentLoop_iff _ file s mid (Nat.lt_succ_self _)).2 ⟨cs, h5, h2, hne⟩]
      exact (uriLoop_iff _ s mid [] uris key (Nat.lt_succ_self _)).2 ⟨urls, uris, h6, h4, rfl⟩

/-- Everything else is an error: comments after the first URL, files without URLs, without an empty line, or with another line. -/
theorem C59_rejects (create : UriType → Str → Option U) (file : List Byte) (h : ¬ ∃ uris key, IsTalFile create file uris key) :
    readUris create file = none := by
  cases h1 : readUris create file with
  | none => rfl
  | some p => exact absurd ⟨p.1, p.2, (C59 create file p.1 p.2).1 h1⟩ h

/-- "#c\r\nrsync://a\nhttps://b\n\nMII" -/
example : readUris (fun t s => some (t, s)) ([35#8, 99#8, cr, lf] ++ rsyncPrefix ++ [97#8, lf] ++ httpsPrefix ++ [98#8, lf, lf, 77#8, 73#8, 73#8]) =
    some ([(.rsync, rsyncPrefix ++ [97#8]), (.https, httpsPrefix ++ [98#8])], [77#8, 73#8, 73#8]) := by decide

/-- A comment after the first URL is an error. -/
example : readUris (fun t s => some (t, s)) (rsyncPrefix ++ [97#8, lf, hash, lf, lf, 77#8]) = none := by decide

/-- No URLs. -/
example : readUris (fun t s => some (t, s)) [hash, lf, lf, 77#8] = none := by decide

example : IsLine [97#8, cr, lf, 98#8] [97#8] [98#8] := .crlf [97#8] [98#8] (by decide) (by decide)
example : lfileRead [97#8, nul, lf, 98#8] = .error := by decide

end Verif.Tal
