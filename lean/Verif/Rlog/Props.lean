import Verif.Rlog.Model
/-
C201: What rsync says is in the log.
-/
namespace Verif.Rlog
open Verif.Rtr (Byte)

/-! ### Specification -/

/-- Lines, as text. -/
def unlines (ls : List (List Byte)) : List Byte := (ls.map (· ++ [nl])).flatten

/-- A line: without line feeds, nor NULs. -/
def Line (l : List Byte) : Prop := nl ∉ l ∧ nul ∉ l

/-- What's written to a stream, by the reads that got it. -/
def written (s : Stream) (reads : List (Stream × List Byte)) : List Byte := ((reads.filter (·.1 = s)).map (·.2)).flatten

/-- The texts of a stream's messages. -/
def texts (s : Stream) (ms : List Msg) : List (List Byte) := (ms.filter (·.error = decide (s = .err))).map (·.text)

/-- The messages that tell a text: its lines that aren't empty. -/
def expected (ls : List (List Byte)) : List (List Byte) := (ls.filter (· ≠ [])).map (prefix_ ++ ·)

/-! ### Lemmas -/

theorem strchr_line {l : List Byte} (h : nl ∉ l) (r : List Byte) : strchr (l ++ nl :: r) = some (l, r) := by
  induction l with
  | nil => simp [strchr]
  | cons b l ih =>
    simp only [List.mem_cons, not_or] at h
    rw [List.cons_append, strchr, if_neg (fun e => h.1 e.symm), ih h.2]

theorem strchr_none {r : List Byte} (h : nl ∉ r) : strchr r = none := by
  induction r with
  | nil => rfl
  | cons b l ih =>
    simp only [List.mem_cons, not_or] at h
    rw [strchr, if_neg (fun e => h.1 e.symm), ih h.2]

theorem logLoop_none {r : List Byte} (h : nl ∉ r) : logLoop r = [] := by
  rw [logLoop]
  split
  · rfl
  · rename_i h'; rw [strchr_none h] at h'; cases h'

theorem logLoop_line {l : List Byte} (h : nl ∉ l) (r : List Byte) : logLoop (l ++ nl :: r) = if l = [] then logLoop r else l :: logLoop r := by
  rw [logLoop]
  split
  · rename_i h'; rw [strchr_line h] at h'; cases h'
  · rename_i line rest h'
    rw [strchr_line h] at h'
    cases h'
    simp only [List.length_eq_zero_iff]

theorem logLoop_lines (ls : List (List Byte)) (r : List Byte) (hl : ∀ l ∈ ls, nl ∉ l) (hr : nl ∉ r) : logLoop (unlines ls ++ r) = ls.filter (· ≠ []) := by
  induction ls with
  | nil => exact logLoop_none hr
  | cons l ls ih =>
    have e : unlines (l :: ls) ++ r = l ++ nl :: (unlines ls ++ r) := by simp [unlines]
    rw [e, logLoop_line (hl l List.mem_cons_self), ih fun x hx => hl x (List.mem_cons_of_mem _ hx)]
    by_cases h : l = []
    · simp [h]
    · simp [h]

theorem nul_unlines {ls : List (List Byte)} (h : ∀ l ∈ ls, nul ∉ l) : nul ∉ unlines ls := by
  simp only [unlines, List.mem_flatten, List.mem_map, not_exists, not_and]
  rintro x ⟨l, hl, rfl⟩ hx
  rcases List.mem_append.1 hx with h1 | h1
  · exact h l hl h1
  · exact absurd (List.mem_singleton.1 h1) (by decide)

theorem takeWhile_nul (a b : List Byte) (h : nul ∉ a) : (a ++ nul :: b).takeWhile (· ≠ nul) = a := by
  induction a with
  | nil => simp
  | cons x a ih =>
    simp only [List.mem_cons, not_or] at h
    have : ¬ x = nul := fun e => h.1 e.symm
    simpa [this] using ih h.2

theorem takeWhile_all (a : List Byte) (h : nul ∉ a) : a.takeWhile (· ≠ nul) = a := by
  induction a with
  | nil => rfl
  | cons x a ih =>
    simp only [List.mem_cons, not_or] at h
    have : ¬ x = nul := fun e => h.1 e.symm
    simpa [this] using ih h.2

theorem logBuffer_lines {ls : List (List Byte)} {r : List Byte} (hl : ∀ l ∈ ls, Line l) (hr : Line r) : logBuffer (unlines ls ++ r) = ls.filter (· ≠ []) := by
  unfold logBuffer
  rw [takeWhile_all _ (by
    intro h
    rcases List.mem_append.1 h with h | h
    · exact nul_unlines (fun l h => (hl l h).2) h
    · exact hr.2 h)]
  exact logLoop_lines ls r (fun l h => (hl l h).1) hr.1

theorem logBuffer_nul {ls : List (List Byte)} {r : List Byte} (hl : ∀ l ∈ ls, Line l) (hr : Line r) (b : List Byte) : logBuffer (unlines ls ++ r ++ nul :: b) = ls.filter (· ≠ []) := by
  unfold logBuffer
  rw [takeWhile_nul _ _ (by
    intro h
    rcases List.mem_append.1 h with h | h
    · exact nul_unlines (fun l h => (hl l h).2) h
    · exact hr.2 h)]
  exact logLoop_lines ls r (fun l h => (hl l h).1) hr.1

/-- Every text without NULs is lines, and an unfinished line. -/
theorem text_lines : ∀ (s : List Byte), nul ∉ s → ∃ ls r, (∀ l ∈ ls, Line l) ∧ Line r ∧ s = unlines ls ++ r
  | [], _ => ⟨[], [], (fun _ h => by cases h), ⟨List.not_mem_nil, List.not_mem_nil⟩, rfl⟩
  | b :: s, h => by
    simp only [List.mem_cons, not_or] at h
    obtain ⟨ls, r, h1, h2, h3⟩ := text_lines s h.2
    by_cases hb : b = nl
    · refine ⟨[] :: ls, r, ?_, h2, by rw [h3, hb]; simp [unlines]⟩
      intro l hl
      rcases List.mem_cons.1 hl with rfl | hl
      · exact ⟨List.not_mem_nil, List.not_mem_nil⟩
      · exact h1 l hl
    · cases ls with
      | nil =>
        refine ⟨[], b :: r, (fun _ h => by cases h), ⟨?_, ?_⟩, by rw [h3]; rfl⟩
        · simp only [List.mem_cons, not_or]; exact ⟨fun e => hb e.symm, h2.1⟩
        · simp only [List.mem_cons, not_or]; exact ⟨h.1, h2.2⟩
      | cons l ls =>
        refine ⟨(b :: l) :: ls, r, ?_, h2, by rw [h3]; simp [unlines]⟩
        intro x hx
        rcases List.mem_cons.1 hx with rfl | hx
        · have := h1 l List.mem_cons_self
          refine ⟨?_, ?_⟩
          · simp only [List.mem_cons, not_or]; exact ⟨fun e => hb e.symm, this.1⟩
          · simp only [List.mem_cons, not_or]; exact ⟨h.1, this.2⟩
        · exact h1 x (List.mem_cons_of_mem _ hx)

/-! ### C201 -/

/-- A read: the lines that end in it, what is after the last one, and what is after its first NUL. -/
structure Read where
  stream : Stream
  lines : List (List Byte)
  rest : List Byte
  afterNul : Option (List Byte)

def Read.bytes (r : Read) : List Byte := unlines r.lines ++ r.rest ++ (match r.afterNul with | none => [] | some b => nul :: b)

structure Read.Ok (r : Read) : Prop where
  lines : ∀ l ∈ r.lines, Line l
  rest : Line r.rest

/-- Every read is a `Read`. -/
theorem read_complete (s : Stream) (b : List Byte) : ∃ r : Read, r.Ok ∧ r.stream = s ∧ r.bytes = b := by
  by_cases h : nul ∈ b
  · obtain ⟨x, y, e, hx⟩ := List.eq_append_cons_of_mem h
    obtain ⟨ls, r, h1, h2, h3⟩ := text_lines x hx
    exact ⟨⟨s, ls, r, some y⟩, ⟨h1, h2⟩, rfl, by rw [e, h3]; rfl⟩
  · obtain ⟨ls, r, h1, h2, h3⟩ := text_lines b h
    exact ⟨⟨s, ls, r, none⟩, ⟨h1, h2⟩, rfl, by rw [h3]; simp [Read.bytes]⟩

theorem logBuffer_read {r : Read} (h : r.Ok) : logBuffer r.bytes = r.lines.filter (· ≠ []) := by
  unfold Read.bytes
  cases r.afterNul with
  | none => rw [List.append_nil]; exact logBuffer_lines h.lines h.rest
  | some b => exact logBuffer_nul h.lines h.rest b

/-- **C201.** Exactly what is logged, whatever rsync writes and however it's read: of each read, in order, the lines that end in it, before its first NUL; as errors if they
come from the standard error. -/
theorem C201_exact : ∀ (reads : List Read), (∀ r ∈ reads, r.Ok) →
    messages (reads.map fun r => (r.stream, r.bytes)) = reads.flatMap fun r => (expected r.lines).map fun t => ⟨r.stream = .err, t⟩
  | [], _ => rfl
  | r :: reads, h => by
    rw [List.map_cons, messages, C201_exact reads fun x hx => h x (List.mem_cons_of_mem _ hx), logBuffer_read (h r List.mem_cons_self), List.flatMap_cons]
    simp [expected, List.map_map, Function.comp_def]

theorem texts_append (s : Stream) (a b : List Msg) : texts s (a ++ b) = texts s a ++ texts s b := by simp [texts]

theorem texts_of (s s' : Stream) (l : List (List Byte)) : texts s (l.map fun t => ⟨s' = .err, t⟩) = if s' = s then l else [] := by
  induction l with
  | nil => simp [texts]
  | cons t l ih =>
    rw [List.map_cons, ← List.singleton_append, texts_append, ih]
    cases s <;> cases s' <;> simp [texts]

/-- **C201 (partial).** If every read ends where a line ends, then the log has each line of each stream, in order, but the empty ones, and nothing else; with its prefix. -/
theorem C201_partial (reads : List Read) (h : ∀ r ∈ reads, r.Ok) (hr : ∀ r ∈ reads, r.rest = [] ∧ r.afterNul = none) (s : Stream) :
    ∃ ls, (∀ l ∈ ls, Line l) ∧ written s (reads.map fun r => (r.stream, r.bytes)) = unlines ls ∧
      texts s (messages (reads.map fun r => (r.stream, r.bytes))) = expected ls := by
  refine ⟨(reads.filter (·.stream = s)).flatMap (·.lines), ?_, ?_, ?_⟩
  · intro l hl
    obtain ⟨r, hr1, hr2⟩ := List.mem_flatMap.1 hl
    exact (h r (List.mem_filter.1 hr1).1).lines l hr2
  · clear h
    induction reads with
    | nil => rfl
    | cons r reads ih =>
      have ih := ih fun x hx => hr x (List.mem_cons_of_mem _ hx)
      obtain ⟨h1, h2⟩ := hr r List.mem_cons_self
      unfold written at ih ⊢
      by_cases hs : r.stream = s
      · simp only [List.map_cons, List.filter_cons, hs, decide_true, if_true, List.flatten_cons, List.flatMap_cons, ih]
        simp [Read.bytes, h1, h2, unlines]
      · simp only [List.map_cons, List.filter_cons, hs, decide_false, Bool.false_eq_true, if_false, ih]
  · rw [C201_exact reads h]
    clear h hr
    induction reads with
    | nil => rfl
    | cons r reads ih =>
      rw [List.flatMap_cons, texts_append, texts_of, ih]
      by_cases hs : r.stream = s
      · simp [hs, expected]
      · simp [hs]

/-- rsync's message "no" arrives in two reads, and its end isn't a line feed. -/
def split_ : List (Stream × List Byte) := [(.err, [110#8]), (.err, [111#8, nl]), (.err, [98#8, 121#8, 101#8])]

/-- **C201 (refuted).** rsync writes "no", in a line, and "bye". If the line is read in two parts then its first part isn't logged; and what is after the last line feed never
is. -/
theorem C201_refuted : written .err split_ = unlines [[110#8, 111#8]] ++ [98#8, 121#8, 101#8] ∧ messages split_ = [⟨true, prefix_ ++ [111#8]⟩] := by
  constructor
  · rfl
  · have h := C201_exact [⟨.err, [], [110#8], none⟩, ⟨.err, [[111#8]], [], none⟩, ⟨.err, [], [98#8, 121#8, 101#8], none⟩] (by
      intro r hr
      simp only [List.mem_cons, List.not_mem_nil, or_false] at hr
      rcases hr with rfl | rfl | rfl <;> exact ⟨by simp [Line, nl, nul], by simp [Line, nl, nul]⟩)
    exact h

/-- **C201 (refuted).** A line of 4096 bytes or more is never logged whole, however it's read: reads get at most 4096 bytes. -/
theorem C201_refuted_long (l : List Byte) (hl : 4096 ≤ l.length) (reads : List (Stream × List Byte)) (hr : ∀ r ∈ reads, r.2.length ≤ 4096) (e : Bool) :
    (⟨e, prefix_ ++ l⟩ : Msg) ∉ messages reads := by
  intro h
  induction reads with
  | nil => cases h
  | cons r reads ih =>
    rw [messages] at h
    rcases List.mem_append.1 h with h | h
    · obtain ⟨x, hx, hx2⟩ := List.mem_map.1 h
      have hxl : x = l := List.append_cancel_left (Msg.mk.inj hx2).2
      obtain ⟨q, hq1, _, hq3⟩ := read_complete r.1 r.2
      rw [← hq3, logBuffer_read hq1] at hx
      have hm := (List.mem_filter.1 hx).1
      have hlen : (unlines q.lines).length ≤ r.2.length := by rw [← hq3]; simp [Read.bytes]
      have : x.length + 1 ≤ (unlines q.lines).length := by
        clear hx hq1 hq3 h hlen
        obtain ⟨a, b, hab⟩ := List.append_of_mem hm
        rw [hab]
        simp [unlines]
        omega
      have := hr r List.mem_cons_self
      rw [hxl] at *
      omega
    · exact ih (fun x hx => hr x (List.mem_cons_of_mem _ hx)) h

/-- C201_partial's and C201_exact's hypotheses are met by two reads of lines of both streams. -/
example : ∀ r ∈ [(⟨.err, [[110#8, 111#8], []], [], none⟩ : Read), ⟨.out, [[98#8]], [], none⟩], r.Ok ∧ r.rest = [] ∧ r.afterNul = none := by
  intro r hr
  simp only [List.mem_cons, List.not_mem_nil, or_false] at hr
  rcases hr with rfl | rfl <;> exact ⟨⟨by simp [Line, nl, nul], by simp [Line, nl, nul]⟩, rfl, rfl⟩

end Verif.Rlog
