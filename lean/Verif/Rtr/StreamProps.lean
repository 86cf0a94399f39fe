/-
C15, C16, C17, C18, C67, C68: the request parser.
-/
import Verif.Rtr.StreamLemmas

namespace Verif.Rtr

open Rfc

/-! ### C15 -/

/-- Any prefix of queries followed by an incomplete one is queries followed by an incomplete one. -/
theorem split_prefix {v : BitVec 8} (items : List (List Byte × Query)) (hq : Queries v items) (rest : List Byte)
    (hr : Incomplete v rest) (p t : List Byte) (h : p ++ t = items.flatMap Prod.fst ++ rest) :
    ∃ i1 i2 r1, items = i1 ++ i2 ∧ p = i1.flatMap Prod.fst ++ r1 ∧ Incomplete v r1 ∧
      r1 ++ t = i2.flatMap Prod.fst ++ rest := by
  induction items generalizing p with
  | nil =>
    simp only [List.flatMap_nil, List.nil_append] at h
    obtain ⟨x, q, hx, hxq⟩ := hr
    refine ⟨[], [], p, rfl, rfl, ⟨t ++ x, q, by simp [hx], ?_⟩, by simpa using h⟩
    rw [← List.append_assoc, h]; exact hxq
  | cons i items ih =>
    rw [List.flatMap_cons, List.append_assoc] at h
    rcases List.append_eq_append_iff.1 h with ⟨c, hc1, hc2⟩ | ⟨c, hc1, hc2⟩
    · by_cases hc : c = []
      · subst hc
        simp only [List.append_nil, List.nil_append] at hc1 hc2
        obtain ⟨x, q, hx, hxq⟩ := hr
        have hi := hq i (by simp)
        have : Incomplete v [] := ⟨i.1, i.2, by intro h0; have := hi.inv.1; rw [h0] at this; simp at this, hi⟩
        refine ⟨[i], items, [], rfl, by simp [hc1], this, by simpa using hc2⟩
      · refine ⟨[], i :: items, p, rfl, by simp, ⟨c, i.2, hc, ?_⟩, ?_⟩
        · rw [← hc1]; exact hq i (by simp)
        · rw [List.flatMap_cons, List.append_assoc, h]
    · obtain ⟨i1, i2, r1, rfl, h2, h3, h4⟩ := ih (fun j hj => hq j (by simp [hj])) c hc2.symm
      exact ⟨i :: i1, i2, r1, rfl, by rw [hc1, h2]; simp, h3, h4⟩

theorem readLoop_eq (es : List SockEv) (buf : List Byte) :
    readLoop es buf = if 1024 ≤ buf.length then (buf, es, .keepReading)
      else match es with
      | [] => (buf, [], .wouldBlock)
      | .block :: es => (buf, es, .wouldBlock)
      | .error :: es => (buf, es, .error)
      | .data bs :: es =>
        if bs.length = 0 then (buf, es, .eos)
        else if bs.length ≤ 1024 - buf.length then readLoop es (buf ++ bs)
        else (buf ++ bs.take (1024 - buf.length), .data (bs.drop (1024 - buf.length)) :: es, .keepReading) := by
  cases es with
  | nil => rw [readLoop]
  | cons e es => cases e <;> rw [readLoop]

/-- One round of `pdustream_next`. -/
theorem pdustreamNext_succ {fuel : Nat} {s s1 : Stream} {es es1 : List SockEv} {st : BufState}
    (h : updateBuffer s es = (s1, es1, st)) (last : Option Request) :
    pdustreamNext (fuel + 1) s es last =
      if st = .error then .close .none
      else
        match parseLoop s1 last with
        | .ub => .ub
        | .stale => .stale
        | .closed e => .close e
        | .gotError _ => .close .none
        | .fine s' req =>
          match (generalizing := false) st with
          | .eos => match req with
            | none => .close .none
            | some r => .ok s' es1 (some { r with eos := true })
          | .wouldBlock => .ok s' es1 req
          | .keepReading => pdustreamNext fuel s' es1 req
          | .error => .ub := by
  simp only [pdustreamNext, h]
  cases st <;> rfl

/-- What one round of reading does, whatever is on the socket. -/
theorem readLoop_spec (es : List SockEv) (buf : List Byte) (hb : buf.length ≤ 1024) :
    let r := readLoop es buf
    r.1.length ≤ 1024 ∧ (∃ got, r.1 = buf ++ got ∧ pending r.2.1 + got.length ≤ pending es ∧
      (r.2.2 = .keepReading → r.1.length = 1024) ∧ got ++ allData r.2.1 = allData es) ∧
    (r.2.2 ≠ .keepReading → r.1.length < 1024) := by
  induction es generalizing buf with
  | nil =>
    rw [readLoop_eq]
    by_cases h : 1024 ≤ buf.length
    · simp only [if_pos h]
      exact ⟨hb, ⟨[], by simp, by simp, fun _ => by omega, by simp⟩, by simp⟩
    · simp only [if_neg h]
      exact ⟨hb, ⟨[], by simp, by simp, by simp, by simp⟩, fun _ => by omega⟩
  | cons e es ih =>
    rw [readLoop_eq]
    by_cases h : 1024 ≤ buf.length
    · simp only [if_pos h]
      exact ⟨hb, ⟨[], by simp, by simp, fun _ => by omega, by simp⟩, by simp⟩
    · simp only [if_neg h]
      cases e with
      | block => exact ⟨hb, ⟨[], by simp, by simp [pending], by simp, by simp [allData]⟩, fun _ => by simp only; omega⟩
      | error => exact ⟨hb, ⟨[], by simp, by simp [pending], by simp, by simp [allData]⟩, fun _ => by simp only; omega⟩
      | data bs =>
        simp only
        by_cases h0 : bs.length = 0
        · rw [if_pos h0]
          refine ⟨hb, ⟨[], by simp, by simp [pending], by simp, ?_⟩, fun _ => by simp only; omega⟩
          simp [allData, List.length_eq_zero_iff.1 h0]
        · rw [if_neg h0]
          by_cases hl : bs.length ≤ 1024 - buf.length
          · rw [if_pos hl]
            obtain ⟨h1, ⟨got, h2, h3, h4, h5⟩, h6⟩ := ih (buf ++ bs) (by rw [List.length_append]; omega)
            refine ⟨h1, ⟨bs ++ got, by rw [h2, List.append_assoc], ?_, h4, ?_⟩, h6⟩
            · simp only [pending, List.length_append]; omega
            · rw [List.append_assoc, h5]; rfl
          · rw [if_neg hl]
            refine ⟨by simp; omega, ⟨bs.take (1024 - buf.length), rfl, ?_, ?_, ?_⟩, by simp⟩
            · simp only [pending, List.length_take, List.length_drop]; omega
            · intro _; simp; omega
            · simp only [allData]
              rw [← List.append_assoc, List.take_append_drop]

/-- The chunks of a call, then nothing more (`none`), or the end of the connection. -/
def script (chunks : List (List Byte)) (eof : Bool) : List SockEv :=
  chunks.map .data ++ if eof then [.data []] else []

/-- What one round of reading does with such a script. -/
theorem readLoop_script (chunks : List (List Byte)) (hne : ∀ c ∈ chunks, c ≠ []) (eof : Bool) (buf : List Byte)
    (hb : buf.length ≤ 1024) :
    (readLoop (script chunks eof) buf = (buf ++ chunks.flatten, [], if eof then .eos else .wouldBlock)) ∨
    (∃ got chunks', readLoop (script chunks eof) buf = (buf ++ got, script chunks' eof, .keepReading) ∧
      (buf ++ got).length = 1024 ∧ got ++ chunks'.flatten = chunks.flatten ∧ (∀ c ∈ chunks', c ≠ [])) := by
  induction chunks generalizing buf with
  | nil =>
    by_cases h : 1024 ≤ buf.length
    · right
      refine ⟨[], [], ?_, by simp; omega, rfl, by simp⟩
      rw [readLoop_eq, if_pos h]; simp
    · left
      rw [readLoop_eq, if_neg h]
      cases eof <;> simp [script]
  | cons c cs ih =>
    have hs : script (c :: cs) eof = .data c :: script cs eof := by simp [script]
    by_cases h : 1024 ≤ buf.length
    · right
      refine ⟨[], c :: cs, ?_, by simp; omega, rfl, hne⟩
      rw [readLoop_eq, if_pos h]; simp
    · have hc : c.length ≠ 0 := by
        have := hne c (by simp)
        intro h0; exact this (List.length_eq_zero_iff.1 h0)
      rw [readLoop_eq, if_neg h, hs]
      simp only
      rw [if_neg hc]
      by_cases hl : c.length ≤ 1024 - buf.length
      · rw [if_pos hl]
        rcases ih (fun x hx => hne x (by simp [hx])) (buf ++ c) (by rw [List.length_append]; omega) with h1 | h1
        · left; rw [h1]; simp
        · obtain ⟨got, cs', h1, h2, h3, h4⟩ := h1
          right
          refine ⟨c ++ got, cs', by rw [h1, List.append_assoc], ?_, ?_, h4⟩
          · rw [← List.append_assoc]; exact h2
          · rw [List.append_assoc, h3]; simp
      · rw [if_neg hl]
        right
        refine ⟨c.take (1024 - buf.length), c.drop (1024 - buf.length) :: cs, by simp [script], by simp; omega, ?_, ?_⟩
        · simp only [List.flatten_cons]
          rw [← List.append_assoc, List.take_append_drop]
        · intro x hx
          rcases List.mem_cons.1 hx with rfl | hx
          · intro h0
            have := congrArg List.length h0
            simp at this; omega
          · exact hne x (by simp [hx])

theorem incomplete_short {v : BitVec 8} {r : List Byte} (h : Incomplete v r) : r.length < 12 := by
  obtain ⟨x, q, hx, hxq⟩ := h
  have h1 := hxq.inv
  have hxl : 0 < x.length := List.length_pos_iff.2 hx
  rw [List.length_append] at h1
  cases q <;> simp only at h1 <;> omega

theorem pending_script (chunks : List (List Byte)) (eof : Bool) :
    pending (script chunks eof) = chunks.flatten.length := by
  induction chunks with
  | nil => cases eof <;> rfl
  | cons c cs ih =>
    have hs : script (c :: cs) eof = .data c :: script cs eof := by simp [script]
    rw [hs]
    simp only [pending, ih, List.flatten_cons, List.length_append]

/-- The `eos` mark of the result. -/
def withEos (eof : Bool) (r : Request) : Request := { r with eos := eof }

theorem verAfter_trans (ver : Option (BitVec 8)) (v : BitVec 8) (n m : Nat) (r1 rest : List Byte)
    (hm : m = 0 → r1.length ≤ rest.length) :
    verAfter (verAfter ver v n r1) v m rest = verAfter ver v (n + m) rest := by
  unfold verAfter
  by_cases h1 : m = 0 ∧ rest.length < 8
  · have := hm h1.1
    by_cases h2 : n = 0
    · rw [if_pos h1, if_pos ⟨h2, by omega⟩, if_pos ⟨by omega, h1.2⟩]
    · rw [if_pos h1, if_neg (by tauto), if_neg (by omega)]
  · rw [if_neg h1, if_neg (by omega)]

theorem next_queries_aux {v : BitVec 8} (hv : v = 0 ∨ v = 1) (fuel : Nat) (chunks : List (List Byte))
    (hne : ∀ c ∈ chunks, c ≠ []) (eof : Bool) (items : List (List Byte × Query)) (hq : Queries v items)
    (rest : List Byte) (hr : Incomplete v rest) (ver : Option (BitVec 8)) (hver : ver = none ∨ ver = some v)
    (off : Nat) (buf : List Byte) (hb : buf.length < 1024)
    (hdata : buf ++ chunks.flatten = items.flatMap Prod.fst ++ rest)
    (hf : chunks.flatten.length < fuel) (last : Option Request) :
    ∃ off', pdustreamNext fuel ⟨ver, off, buf⟩ (script chunks eof) last =
      if eof then
        (match (items.getLast?.map (reqOf v)).or last with
         | none => .close .none
         | some r => .ok ⟨verAfter ver v items.length rest, off', rest⟩ [] (some (withEos true r)))
      else .ok ⟨verAfter ver v items.length rest, off', rest⟩ [] ((items.getLast?.map (reqOf v)).or last) := by
  induction fuel generalizing chunks items ver off buf last with
  | zero => omega
  | succ fuel ih =>
    rcases readLoop_script chunks hne eof buf (by omega) with h | ⟨got, cs', h, hfull, hgot, hne'⟩
    · have hu : updateBuffer ⟨ver, off, buf⟩ (script chunks eof) =
          (⟨ver, 0, items.flatMap Prod.fst ++ rest⟩, [], if eof then .eos else .wouldBlock) := by
        simp only [updateBuffer, h, hdata]
      rw [pdustreamNext_succ hu]
      obtain ⟨off', hp⟩ := parseLoop_queries hv items hq rest hr ver hver 0 last
      refine ⟨off', ?_⟩
      rw [if_neg (by cases eof <;> simp), hp]
      cases eof with
      | false => simp
      | true => simp only [if_true, withEos]
    · have hu : updateBuffer ⟨ver, off, buf⟩ (script chunks eof) =
          (⟨ver, 0, buf ++ got⟩, script cs' eof, .keepReading) := by
        simp only [updateBuffer, h]
      rw [pdustreamNext_succ hu, if_neg (by simp)]
      have hgp : 0 < got.length := by rw [List.length_append] at hfull; omega
      have hsp := split_prefix items hq rest hr (buf ++ got) cs'.flatten (by rw [List.append_assoc, hgot, hdata])
      obtain ⟨i1, i2, r1, rfl, e1, hr1, e2⟩ := hsp
      rw [e1]
      obtain ⟨off1, hp⟩ := parseLoop_queries hv i1 (fun j hj => hq j (by simp [hj])) r1 hr1 ver hver 0 last
      rw [hp]
      simp only
      have hs12 := incomplete_short hr1
      have hlen : cs'.flatten.length + got.length = chunks.flatten.length := by
        rw [← hgot, List.length_append]; omega
      obtain ⟨off', hi⟩ := ih cs' hne' i2 (fun j hj => hq j (by simp [hj])) (verAfter ver v i1.length r1)
        (by unfold verAfter; split; exact hver; exact Or.inr rfl) off1 r1 (by omega) e2 (by omega)
        ((i1.getLast?.map (reqOf v)).or last)
      refine ⟨off', ?_⟩
      rw [hi]
      have e3 : verAfter (verAfter ver v i1.length r1) v i2.length rest = verAfter ver v (i1 ++ i2).length rest := by
        rw [List.length_append]
        apply verAfter_trans
        intro h0
        have : i2 = [] := List.length_eq_zero_iff.1 h0
        subst this
        have := congrArg List.length e2
        simp at this; omega
      have e4 : (i2.getLast?.map (reqOf v)).or ((i1.getLast?.map (reqOf v)).or last) =
          ((i1 ++ i2).getLast?.map (reqOf v)).or last := by
        rw [List.getLast?_append]
        cases i2.getLast? <;> simp
      rw [e3, e4]

/-- C15, one call. A stream holds the bytes `buf` of earlier calls; the socket yields any non-empty chunks, cut
anywhere, and then nothing for now (or, with `eof`, the end of the connection). Together the bytes are the queries
`items` (as the RFC decoder reads them) and the beginning `rest` of another one. The call returns the last of the
queries (nothing if there is none), and leaves exactly `rest` for later. -/
theorem C15_one_call {v : BitVec 8} (hv : v = 0 ∨ v = 1) (chunks : List (List Byte))
    (hne : ∀ c ∈ chunks, c ≠ []) (eof : Bool) (items : List (List Byte × Query)) (hq : Queries v items)
    (rest : List Byte) (hr : Incomplete v rest) (s : Stream) (hver : s.ver = none ∨ s.ver = some v)
    (hb : s.buf.length < 1024) (hdata : s.buf ++ chunks.flatten = items.flatMap Prod.fst ++ rest) :
    match s.next (script chunks eof) with
    | .ok s' es r => es = [] ∧ s'.buf = rest ∧ (s'.ver = none ∨ s'.ver = some v) ∧
        r = items.getLast?.map (fun i => ⟨v, i.2, i.1, eof⟩) ∧ (eof = true → items ≠ [])
    | .close e => e = .none ∧ eof = true ∧ items = []
    | _ => False := by
  obtain ⟨off', h⟩ := next_queries_aux hv (pending (script chunks eof) + 2) chunks hne eof items hq rest hr s.ver
    hver s.off s.buf hb hdata (by rw [pending_script]; omega) none
  unfold Stream.next
  rw [show s = ⟨s.ver, s.off, s.buf⟩ from rfl] at *
  rw [h]
  have hvv : verAfter s.ver v items.length rest = none ∨ verAfter s.ver v items.length rest = some v := by
    unfold verAfter; split
    · exact hver
    · exact Or.inr rfl
  cases eof with
  | false =>
    simp only [Bool.false_eq_true, if_false, Option.or_none]
    refine ⟨trivial, trivial, hvv, ?_, by simp⟩
    cases items.getLast? <;> rfl
  | true =>
    simp only [if_true, Option.or_none]
    cases hl : items.getLast? with
    | none => exact ⟨rfl, trivial, List.getLast?_eq_none_iff.1 hl⟩
    | some i =>
      refine ⟨rfl, rfl, hvv, rfl, ?_⟩
      rintro - rfl
      cases hl

/-- Calls of the parser, each with what arrived since the previous one. -/
def runCalls (s : Stream) : List (List (List Byte)) → Option (Stream × List (Option Request))
  | [] => some (s, [])
  | c :: cs =>
    match s.next (script c false) with
    | .ok s' _ r => (runCalls s' cs).map (fun x => (x.1, r :: x.2))
    | _ => none

/-- C15, any number of calls. A router sends queries `items`, and then perhaps the beginning `rest` of another
one. However the stream is cut into chunks and calls, every call succeeds, and the queries can be divided among
the calls, in order and without losing or repeating any, such that each call returns the last query of its share
(nothing if its share is empty). What is left in the buffer at the end is exactly `rest`. -/
theorem C15_fragmentation {v : BitVec 8} (hv : v = 0 ∨ v = 1) (calls : List (List (List Byte)))
    (hne : ∀ c ∈ calls, ∀ b ∈ c, b ≠ []) (items : List (List Byte × Query)) (hq : Queries v items)
    (rest : List Byte) (hr : Incomplete v rest)
    (hdata : (calls.map List.flatten).flatten = items.flatMap Prod.fst ++ rest) :
    ∃ (s' : Stream) (shares : List (List (List Byte × Query))), runCalls Stream.new calls = some (s', shares.map (fun sh =>
        sh.getLast?.map (fun i => ⟨v, i.2, i.1, false⟩))) ∧
      shares.length = calls.length ∧ shares.flatten = items ∧ s'.buf = rest := by
  suffices h : ∀ (calls : List (List (List Byte))) (items : List (List Byte × Query)) (s : Stream),
      (∀ c ∈ calls, ∀ b ∈ c, b ≠ []) → Queries v items → (s.ver = none ∨ s.ver = some v) → Incomplete v s.buf →
      s.buf ++ (calls.map List.flatten).flatten = items.flatMap Prod.fst ++ rest →
      ∃ (s' : Stream) (shares : List (List (List Byte × Query))), runCalls s calls = some (s', shares.map (fun sh =>
        sh.getLast?.map (fun i => ⟨v, i.2, i.1, false⟩))) ∧
      shares.length = calls.length ∧ shares.flatten = items ∧ s'.buf = rest by
    refine h calls items Stream.new hne hq (Or.inl rfl) ?_ hdata
    -- the empty buffer is the beginning of a query
    obtain ⟨x, q, hx, hxq⟩ := hr
    exact ⟨rest ++ x, q, by simp [hx], hxq⟩
  intro calls
  induction calls with
  | nil =>
    intro items s _ hq _ hi hd
    simp only [List.map_nil, List.flatten_nil, List.append_nil] at hd
    refine ⟨s, [], rfl, rfl, ?_, ?_⟩
    · cases items with
      | nil => rfl
      | cons i items =>
        exfalso
        -- an incomplete query is no complete query
        obtain ⟨x, q, hx, hxq⟩ := hi
        have hi1 := hq i (by simp)
        have h1 := hi1.inv
        have hl := hxq.inv.2.2.1
        rw [hd, List.flatMap_cons, List.append_assoc, List.append_assoc, readHdr_append _ _ h1.1, h1.2.2.1] at hl
        have hxl : 0 < x.length := List.length_pos_iff.2 hx
        simp only [List.length_append] at hl
        omega
    · cases items with
      | nil => simpa using hd
      | cons i items =>
        exfalso
        obtain ⟨x, q, hx, hxq⟩ := hi
        have hi1 := hq i (by simp)
        have h1 := hi1.inv
        have hl := hxq.inv.2.2.1
        rw [hd, List.flatMap_cons, List.append_assoc, List.append_assoc, readHdr_append _ _ h1.1, h1.2.2.1] at hl
        have hxl : 0 < x.length := List.length_pos_iff.2 hx
        simp only [List.length_append] at hl
        omega
  | cons c cs ih =>
    intro items s hne hq hver hi hd
    simp only [List.map_cons, List.flatten_cons] at hd
    rw [← List.append_assoc] at hd
    obtain ⟨i1, i2, r1, rfl, e1, hr1, e2⟩ := split_prefix items hq rest hr (s.buf ++ c.flatten) _ hd
    have h12 := incomplete_short hi
    have hone := C15_one_call hv c (hne c (by simp)) false i1 (fun j hj => hq j (by simp [hj])) r1 hr1 s hver
      (by omega) e1
    cases hn : s.next (script c false) with
    | ok s1 es r =>
      rw [hn] at hone
      simp only at hone
      obtain ⟨_, hb1, hv1, hr', _⟩ := hone
      obtain ⟨s', shares, h1, h2, h3, h4⟩ := ih i2 s1 (fun c hc => hne c (by simp [hc]))
        (fun j hj => hq j (by simp [hj])) hv1 (by rw [hb1]; exact hr1) (by rw [hb1]; exact e2)
      refine ⟨s', i1 :: shares, ?_, by simp [h2], by simp [h3], h4⟩
      simp only [runCalls, hn, h1, Option.map_some, List.map_cons, hr']
    | close e => rw [hn] at hone; simp at hone
    | stale => rw [hn] at hone; exact hone.elim
    | ub => rw [hn] at hone; exact hone.elim
    | spin => rw [hn] at hone; exact hone.elim

/-- A Serial Query cut in the middle of its serial, a Reset Query, and the beginning of another: the hypotheses
are met. -/
example : Queries 1 [([1, 1, 0, 5, 0, 0, 0, 12, 0, 0, 1, 0], .serial 5 256), ([1, 2, 0, 0, 0, 0, 0, 8], .reset)] ∧
    Incomplete 1 [1, 2, 0] := by
  constructor
  · intro i hi
    simp only [List.mem_cons, List.not_mem_nil, or_false] at hi
    rcases hi with rfl | rfl <;> (unfold IsQuery; decide)
  · exact ⟨[0, 0, 0, 0, 8], .reset, by decide, by unfold IsQuery; decide⟩

end Verif.Rtr
