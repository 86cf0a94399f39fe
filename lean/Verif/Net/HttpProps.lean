import Verif.Net.HttpModel
import Mathlib.Tactic.ByContra
/-
C57 (HTTP), C58, C96: HTTP downloads.
-/
namespace Verif.Net
open Verif.Rtr (Byte)

/-! ### Specification -/

/-- The bytes that the server sent. -/
def Answer.body (a : Answer) : List Byte := (a.chunks.map Chunk.data).flatten

/-- HTTP codes after which it's worth trying again. -/
def RetryCode (code : Int) : Prop := code = 408 ∨ code = 429 ∨ (500 ≤ code ∧ code ≤ 599)

/-- All the bytes can be stored, and there aren't too many. -/
structure Storable (max : Nat) (a : Answer) : Prop where
  size : a.body.length ≤ max
  opens : ∀ c ∈ a.chunks, c.openErr = 0
  writes : ∀ c ∈ a.chunks, c.data.length ≤ c.writable

/-- A response with a document. -/
structure Success (a : Answer) : Prop where
  init : a.initOk = true
  res : a.res = .ok
  info : a.infoOk = true
  code : a.code < 400 ∧ a.code ≠ 204 ∧ a.code ≠ 304

/-! ### The callback -/

/-- libcurl's blocks, and the configured limit, are far from overflowing. -/
structure Sane (max : Nat) (chunks : List Chunk) : Prop where
  max : max < 2 ^ 63
  data : ∀ c ∈ chunks, c.data.length < 2 ^ 63

theorem Sane.tail {max : Nat} {c : Chunk} {cs : List Chunk} (h : Sane max (c :: cs)) : Sane max cs :=
  ⟨h.max, fun d hd => h.data d (List.mem_cons_of_mem _ hd)⟩

/-- What holds between calls, while the transfer goes on. -/
structure Inv (max : Nat) (arg : WriteArg) : Prop where
  total : arg.total ≤ max
  file : ∀ w, arg.file = some w → w.length ≤ arg.total

theorem callback_cases (max : Nat) (arg : WriteArg) (c : Chunk) (hm : max < 2 ^ 63) (hc : c.data.length < 2 ^ 63) (hi : Inv max arg) :
    (arg.total + c.data.length > max ∧ ∃ a', writeCallback max arg c = (a', 0) ∧ a'.error = -eFBIG ∧ a'.file = arg.file) ∨
    (arg.total + c.data.length ≤ max ∧ Inv max (writeCallback max arg c).1 ∧ (writeCallback max arg c).1.total = arg.total + c.data.length ∧
      (writeCallback max arg c).2 ≤ c.data.length) := by
  have hlt : arg.total + c.data.length < 2 ^ 64 := by have := hi.total; omega
  have htake : (c.data.take c.writable).length ≤ c.data.length := by rw [List.length_take]; omega
  unfold writeCallback
  simp only
  rw [Nat.mod_eq_of_lt hlt]
  by_cases h : arg.total + c.data.length > max
  · rw [if_pos h]
    exact .inl ⟨h, _, rfl, rfl, rfl⟩
  · rw [if_neg h]
    refine .inr ⟨by omega, ?_⟩
    cases hf : arg.file with
    | some w =>
      simp only
      refine ⟨⟨by simp only; omega, ?_⟩, by trivial, htake⟩
      intro w' hw
      simp only [Option.some.injEq] at hw
      subst hw
      have := hi.file w hf
      simp only [List.length_append]
      omega
    | none =>
      simp only
      by_cases ho : c.openErr ≠ 0
      · rw [if_pos ho]
        exact ⟨⟨by simp only; omega, fun w hw => by simp only at hw; cases hw⟩, by trivial, Nat.zero_le _⟩
      · rw [if_neg ho]
        refine ⟨⟨by simp only; omega, ?_⟩, by trivial, htake⟩
        intro w' hw
        simp only [Option.some.injEq] at hw
        subst hw
        simp only
        omega

theorem transfer_bound (max : Nat) : ∀ (cs : List Chunk) (arg : WriteArg), Sane max cs → Inv max arg →
    ∀ w, (transfer max cs arg).1.file = some w → w.length ≤ max
  | [], arg, _, hi, w, hw => Nat.le_trans (hi.file w hw) hi.total
  | c :: cs, arg, hs, hi, w, hw => by
    rw [transfer] at hw
    rcases callback_cases max arg c hs.max (hs.data c (List.mem_cons_self ..)) hi with ⟨_, a', e, _, hf⟩ | ⟨_, hi', _, _⟩
    · rw [e] at hw
      simp only at hw
      by_cases h0 : 0 = c.data.length
      · exfalso
        have := hi.total
        omega
      · rw [if_neg h0] at hw
        rw [hf] at hw
        exact Nat.le_trans (hi.file w hw) hi.total
    · by_cases h : (writeCallback max arg c).2 = c.data.length
      · rw [if_pos h] at hw
        exact transfer_bound max cs _ hs.tail hi' w hw
      · rw [if_neg h] at hw
        exact Nat.le_trans (hi'.file w hw) hi'.total

/-- If everything is accepted then there wasn't too much. -/
theorem transfer_accepted (max : Nat) : ∀ (cs : List Chunk) (arg : WriteArg), Sane max cs → Inv max arg → (transfer max cs arg).2 = true →
    arg.total + ((cs.map Chunk.data).flatten).length ≤ max
  | [], arg, _, hi, _ => hi.total
  | c :: cs, arg, hs, hi, ht => by
    rw [transfer] at ht
    simp only [List.map_cons, List.flatten_cons, List.length_append]
    rcases callback_cases max arg c hs.max (hs.data c (List.mem_cons_self ..)) hi with ⟨h1, a', e, _, hf⟩ | ⟨_, hi', htot, _⟩
    · rw [e] at ht
      simp only at ht
      by_cases h0 : 0 = c.data.length
      · exfalso
        have := hi.total
        omega
      · rw [if_neg h0] at ht
        cases ht
    · by_cases h : (writeCallback max arg c).2 = c.data.length
      · rw [if_pos h] at ht
        have := transfer_accepted max cs _ hs.tail hi' ht
        rw [htot] at this
        omega
      · rw [if_neg h] at ht
        cases ht

/-- If everything's accepted then everything is written, unless there's nothing. -/
theorem transfer_written (max : Nat) : ∀ (cs : List Chunk) (arg : WriteArg) (w : List Byte), arg.file = some w → (transfer max cs arg).2 = true →
    (∀ c ∈ cs, c.data ≠ []) → (transfer max cs arg).1.file = some (w ++ (cs.map Chunk.data).flatten)
  | [], arg, w, hw, _, _ => by simp [transfer, hw]
  | c :: cs, arg, w, hw, ht, hne => by
    rw [transfer] at ht ⊢
    by_cases h : (writeCallback max arg c).2 = c.data.length
    · rw [if_pos h] at ht ⊢
      have hc := hne c (List.mem_cons_self ..)
      have hpos : 0 < c.data.length := List.length_pos_iff.2 hc
      have hf : (writeCallback max arg c).1.file = some (w ++ c.data) := by
        unfold writeCallback at h ⊢
        simp only [hw] at h ⊢
        by_cases hm : (arg.total + c.data.length) % 2 ^ 64 > max
        · rw [if_pos hm] at h
          simp only at h
          omega
        · rw [if_neg hm] at h ⊢
          simp only at h ⊢
          rw [List.take_of_length_le]
          rw [List.length_take] at h
          omega
      rw [transfer_written max cs _ _ hf ht fun d hd => hne d (List.mem_cons_of_mem _ hd)]
      simp
    · rw [if_neg h] at ht
      cases ht

theorem transfer_written_first (max : Nat) : ∀ (cs : List Chunk), (transfer max cs ⟨0, 0, none⟩).2 = true → (∀ c ∈ cs, c.data ≠ []) →
    (transfer max cs ⟨0, 0, none⟩).1.file = if cs = [] then none else some (cs.map Chunk.data).flatten
  | [], _, _ => rfl
  | c :: cs, ht, hne => by
    rw [transfer] at ht ⊢
    by_cases h : (writeCallback max ⟨0, 0, none⟩ c).2 = c.data.length
    · rw [if_pos h] at ht ⊢
      have hc := hne c (List.mem_cons_self ..)
      have hpos : 0 < c.data.length := List.length_pos_iff.2 hc
      have hf : (writeCallback max ⟨0, 0, none⟩ c).1.file = some c.data := by
        unfold writeCallback at h ⊢
        simp only at h ⊢
        by_cases hm : (0 + c.data.length) % 2 ^ 64 > max
        · rw [if_pos hm] at h
          simp only at h
          omega
        · rw [if_neg hm] at h ⊢
          by_cases ho : c.openErr ≠ 0
          · rw [if_pos ho] at h
            simp only at h
            omega
          · rw [if_neg ho] at h ⊢
            simp only at h ⊢
            rw [List.take_of_length_le]
            rw [List.length_take] at h
            omega
      rw [transfer_written max cs _ _ hf ht fun d hd => hne d (List.mem_cons_of_mem _ hd)]
      simp
    · rw [if_neg h] at ht
      cases ht

/-- If nothing goes wrong, the only reason not to accept something is its size. -/
theorem transfer_refused (max : Nat) : ∀ (cs : List Chunk) (arg : WriteArg), Sane max cs → Inv max arg → (∀ c ∈ cs, c.openErr = 0) →
    (∀ c ∈ cs, c.data.length ≤ c.writable) → arg.total + ((cs.map Chunk.data).flatten).length > max →
    (transfer max cs arg).1.error = -eFBIG ∧ (transfer max cs arg).2 = false
  | [], arg, _, hi, _, _, h => by
    have := hi.total
    simp only [List.map_nil, List.flatten_nil, List.length_nil] at h
    omega
  | c :: cs, arg, hs, hi, ho, hw, h => by
    rw [transfer]
    simp only [List.map_cons, List.flatten_cons, List.length_append] at h
    rcases callback_cases max arg c hs.max (hs.data c (List.mem_cons_self ..)) hi with ⟨h1, a', e, he, hf⟩ | ⟨h1, hi', htot, _⟩
    · rw [e]
      simp only
      rw [if_neg (by have := hi.total; omega)]
      exact ⟨he, rfl⟩
    · have hacc : (writeCallback max arg c).2 = c.data.length := by
        have hlt : arg.total + c.data.length < 2 ^ 64 := by have := hs.max; omega
        have htk := List.take_of_length_le (hw c (List.mem_cons_self ..))
        unfold writeCallback
        simp only
        rw [Nat.mod_eq_of_lt hlt, if_neg (by omega), htk, if_neg (by rw [ho c (List.mem_cons_self ..)]; simp)]
        cases arg.file <;> rfl
      rw [if_pos hacc]
      exact transfer_refused max cs _ hs.tail hi' (fun d hd => ho d (List.mem_cons_of_mem _ hd)) (fun d hd => hw d (List.mem_cons_of_mem _ hd))
        (by rw [htot]; omega)

theorem transfer_ok (max : Nat) : ∀ (cs : List Chunk) (arg : WriteArg), Sane max cs → Inv max arg → (∀ c ∈ cs, c.openErr = 0) →
    (∀ c ∈ cs, c.data.length ≤ c.writable) → arg.error = 0 → arg.total + ((cs.map Chunk.data).flatten).length ≤ max →
    (transfer max cs arg).1.error = 0 ∧ (transfer max cs arg).2 = true
  | [], arg, _, hi, _, _, he, h => ⟨he, rfl⟩
  | c :: cs, arg, hs, hi, ho, hw, he, h => by
    rw [transfer]
    simp only [List.map_cons, List.flatten_cons, List.length_append] at h
    rcases callback_cases max arg c hs.max (hs.data c (List.mem_cons_self ..)) hi with ⟨h1, _⟩ | ⟨h1, hi', htot, _⟩
    · omega
    · have hlt : arg.total + c.data.length < 2 ^ 64 := by have := hs.max; omega
      have htk := List.take_of_length_le (hw c (List.mem_cons_self ..))
      have hoc := ho c (List.mem_cons_self ..)
      have hacc : (writeCallback max arg c).2 = c.data.length ∧ (writeCallback max arg c).1.error = 0 := by
        unfold writeCallback
        simp only
        rw [Nat.mod_eq_of_lt hlt, if_neg (by omega), htk, if_neg (by rw [hoc]; simp)]
        cases arg.file
        · exact ⟨rfl, hoc⟩
        · exact ⟨rfl, he⟩
      rw [if_pos hacc.1]
      exact transfer_ok max cs _ hs.tail hi' (fun d hd => ho d (List.mem_cons_of_mem _ hd)) (fun d hd => hw d (List.mem_cons_of_mem _ hd))
        hacc.2 (by rw [htot]; omega)

theorem Inv.init (max : Nat) : Inv max ⟨0, 0, none⟩ := ⟨Nat.zero_le _, fun w h => by cases h⟩

/-! ### Fetching -/

theorem responseCode_ne (code : Int) : responseCode code ≠ 0 := by
  unfold responseCode
  split
  · decide
  · split <;> decide

theorem responseCode_again (code : Int) : responseCode code = eAGAIN ↔ RetryCode code := by
  unfold responseCode RetryCode
  split
  · rename_i h
    constructor
    · intro _
      rcases h with h | h
      · exact .inl h
      · exact .inr (.inl h)
    · intro _; rfl
  · rename_i h
    split
    · rename_i h'
      constructor
      · intro _; exact .inr (.inr ⟨h'.1, by omega⟩)
      · intro _; rfl
    · constructor
      · intro hh; cases hh
      · intro hh; omega

/-- A fetch that succeeds. -/
theorem fetch_ok {max : Nat} {a : Answer} {dst : Option (List Byte)} {changed : Bool} (h : (httpFetch max a dst changed).error = 0) :
    a.initOk = true ∧ a.infoOk = true ∧ a.res = .ok ∧ a.code < 400 ∧ a.code ≠ 204 ∧ (transfer max a.chunks ⟨0, 0, none⟩).2 = true ∧
    (httpFetch max a dst changed) = ⟨0, afterTransfer max a dst, changed || decide (a.code ≠ 304)⟩ := by
  unfold httpFetch at h ⊢
  cases h0 : a.initOk with
  | false =>
    rw [if_pos h0] at h
    exact absurd h (show ¬ -eINVAL = 0 by decide)
  | true =>
    rw [if_neg (by rw [h0]; decide)] at h
    rw [if_neg (by decide)]
    simp only at h ⊢
    have h1 : (fetchResult max a).1 = 0 := by
      by_contra hn
      rw [if_pos hn] at h
      exact hn h
    rw [if_neg (by rw [h1]; decide)]
    clear h
    have key : a.infoOk = true ∧ a.res = .ok ∧ a.code < 400 ∧ a.code ≠ 204 ∧ (transfer max a.chunks ⟨0, 0, none⟩).2 = true ∧ (fetchResult max a).2 = decide (a.code ≠ 304) := by
      unfold fetchResult at h1 ⊢
      simp only at h1 ⊢
      by_cases h2 : (transfer max a.chunks ⟨0, 0, none⟩).1.error = -eFBIG
      · rw [if_pos h2] at h1
        exact absurd h1 (by decide)
      · rw [if_neg h2] at h1 ⊢
        cases h3 : a.infoOk with
        | false => rw [if_pos h3] at h1; exact absurd h1 (by decide)
        | true =>
          rw [if_neg (by rw [h3]; decide)] at h1
          rw [if_neg (by decide)]
          cases h4 : (transfer max a.chunks ⟨0, 0, none⟩).2 with
          | false =>
            rw [h4, if_neg (by decide)] at h1
            exact absurd h1 (responseCode_ne _)
          | true =>
            rw [h4, if_pos rfl] at h1
            cases h5 : a.res with
            | ok =>
              rw [h5] at h1
              simp only [if_true] at h1 ⊢
              by_cases h6 : a.code ≥ 400 ∨ a.code = 204
              · rw [if_pos h6] at h1
                exact absurd h1 (responseCode_ne _)
              · rw [if_neg h6]
                refine ⟨trivial, trivial, by omega, by omega, trivial, ?_⟩
                by_cases h7 : a.code = 304
                · rw [if_pos h7]; simp [h7]
                · rw [if_neg h7]; simp [h7]
            | other => rw [h5] at h1; exact absurd h1 (responseCode_ne _)
            | _ => rw [h5] at h1; cases h1
    obtain ⟨k1, k2, k3, k4, k5, k6⟩ := key
    refine ⟨by trivial, k1, k2, k3, k4, k5, ?_⟩
    rw [k6]

/-- A fetch that fails. -/
theorem fetch_fail {max : Nat} {a : Answer} {dst : Option (List Byte)} {changed : Bool} (h : (httpFetch max a dst changed).error ≠ 0) :
    (httpFetch max a dst changed).changed = changed ∧ ((httpFetch max a dst changed).dst = none ∨ (a.initOk = false ∧ (httpFetch max a dst changed).dst = dst)) := by
  unfold httpFetch at h ⊢
  cases h0 : a.initOk with
  | false =>
    simp only [if_true]
    exact ⟨trivial, .inr ⟨trivial, trivial⟩⟩
  | true =>
    simp only [h0, Bool.true_eq_false, if_false] at h ⊢
    by_cases h1 : (fetchResult max a).1 ≠ 0
    · rw [if_pos h1]
      exact ⟨rfl, .inl rfl⟩
    · rw [if_neg h1] at h
      exact absurd rfl h

/-- The error of a fetch depends only on what happens in it. -/
theorem fetch_error (max : Nat) (a : Answer) (dst dst' : Option (List Byte)) (changed changed' : Bool) :
    (httpFetch max a dst changed).error = (httpFetch max a dst' changed').error := by
  unfold httpFetch
  cases h0 : a.initOk with
  | false => simp only [if_true]
  | true =>
    simp only [Bool.true_eq_false, if_false]
    by_cases h1 : (fetchResult max a).1 ≠ 0
    · rw [if_pos h1, if_pos h1]
    · rw [if_neg h1, if_neg h1]

/-- The error of an attempt. -/
def attemptError (max : Nat) (a : Answer) : Int := (httpFetch max a none false).error

/-! ### Theorems -/

/-- **C58.** At no point of a transfer has more than the maximum been written to the file. -/
theorem C58_bounded {max : Nat} {chunks : List Chunk} (hs : Sane max chunks) (w : List Byte)
    (h : (transfer max chunks ⟨0, 0, none⟩).1.file = some w) : w.length ≤ max :=
  transfer_bound max chunks _ hs (.init max) w h

/-- **C58.** A response with more bytes than the maximum is an error, and its file is removed. -/
theorem C58_rejected {max : Nat} {a : Answer} (hs : Sane max a.chunks) (hi : a.initOk = true) (h : a.body.length > max) (dst : Option (List Byte)) (changed : Bool) :
    (httpFetch max a dst changed).error ≠ 0 ∧ (httpFetch max a dst changed).dst = none := by
  have he : (httpFetch max a dst changed).error ≠ 0 := by
    intro e
    obtain ⟨_, _, _, _, _, ht, _⟩ := fetch_ok e
    have := transfer_accepted max a.chunks _ hs (.init max) ht
    simp only [Nat.zero_add] at this
    unfold Answer.body at h
    omega
  rcases (fetch_fail he).2 with h' | ⟨h', _⟩
  · exact ⟨he, h'⟩
  · rw [hi] at h'; cases h'

/-- **C58.** If nothing else fails then the error says so, and there are no retries. -/
theorem C58_efbig {max : Nat} {a : Answer} (hs : Sane max a.chunks) (hi : a.initOk = true) (h : a.body.length > max) (ho : ∀ c ∈ a.chunks, c.openErr = 0)
    (hw : ∀ c ∈ a.chunks, c.data.length ≤ c.writable) : attemptError max a = -eFBIG := by
  have h1 := (transfer_refused max a.chunks ⟨0, 0, none⟩ hs (.init max) ho hw (by simpa [Answer.body] using h)).1
  have h2 : fetchResult max a = (-eFBIG, false) := by
    unfold fetchResult
    simp only
    rw [if_pos h1]
  unfold attemptError httpFetch
  rw [if_neg (by rw [hi]; decide)]
  simp only
  rw [h2, if_pos (by decide)]

/-- **C57.** Only these answers are worth another attempt: timeouts, names that don't resolve, and HTTP codes 408, 429 and 5xx. -/
theorem C57_retriable {max : Nat} {a : Answer} (h : attemptError max a = eAGAIN) : a.initOk = true ∧ a.infoOk = true ∧
    (a.res = .timedOut ∨ a.res = .resolveHost ∨ a.res = .resolveProxy ∨ a.res = .ftpAcceptTimeout ∨ RetryCode a.code) := by
  unfold attemptError httpFetch at h
  cases h0 : a.initOk with
  | false => rw [if_pos h0] at h; exact absurd h (by decide)
  | true =>
    simp only [h0, Bool.true_eq_false, if_false] at h
    by_cases h1 : (fetchResult max a).1 ≠ 0
    · rw [if_pos h1] at h
      simp only at h
      clear h1
      unfold fetchResult at h
      simp only at h
      by_cases h2 : (transfer max a.chunks ⟨0, 0, none⟩).1.error = -eFBIG
      · rw [if_pos h2] at h; exact absurd h (by decide)
      · rw [if_neg h2] at h
        cases h3 : a.infoOk with
        | false => rw [if_pos h3] at h; exact absurd h (by decide)
        | true =>
          rw [if_neg (by rw [h3]; decide)] at h
          refine ⟨rfl, rfl, ?_⟩
          cases h4 : (transfer max a.chunks ⟨0, 0, none⟩).2 with
          | false =>
            rw [h4, if_neg (by decide)] at h
            exact .inr (.inr (.inr (.inr ((responseCode_again _).1 h))))
          | true =>
            rw [h4, if_pos rfl] at h
            cases h5 : a.res with
            | timedOut => exact .inl rfl
            | resolveHost => exact .inr (.inl rfl)
            | resolveProxy => exact .inr (.inr (.inl rfl))
            | ftpAcceptTimeout => exact .inr (.inr (.inr (.inl rfl)))
            | other => rw [h5] at h; exact .inr (.inr (.inr (.inr ((responseCode_again _).1 h))))
            | filesizeExceeded => rw [h5] at h; cases h
            | tooManyRedirects => rw [h5] at h; cases h
            | ok =>
              rw [h5] at h
              simp only at h
              by_cases h6 : a.code ≥ 400 ∨ a.code = 204
              · rw [if_pos h6] at h
                exact .inr (.inr (.inr (.inr ((responseCode_again _).1 h))))
              · rw [if_neg h6] at h
                by_cases h7 : a.code = 304
                · rw [if_pos h7] at h; exact absurd h (by decide)
                · rw [if_neg h7] at h; exact absurd h (by decide)
    · rw [if_neg h1] at h
      cases h

/-- **C57.** And they are worth it, if the local file isn't the problem. -/
theorem C57_retried {max : Nat} {a : Answer} (hs : Sane max a.chunks) (hst : Storable max a) (h0 : a.initOk = true) (h1 : a.infoOk = true)
    (h : a.res = .timedOut ∨ a.res = .resolveHost ∨ a.res = .resolveProxy ∨ a.res = .ftpAcceptTimeout ∨ ((a.res = .ok ∨ a.res = .other) ∧ RetryCode a.code)) :
    attemptError max a = eAGAIN := by
  obtain ⟨t1, t2⟩ := transfer_ok max a.chunks ⟨0, 0, none⟩ hs (.init max) hst.opens hst.writes rfl (by simpa [Answer.body] using hst.size)
  have key : (fetchResult max a).1 = eAGAIN := by
    unfold fetchResult
    simp only
    rw [if_neg (by rw [t1]; decide), if_neg (by rw [h1]; decide), t2, if_pos rfl]
    rcases h with h | h | h | h | ⟨h | h, hr⟩
    · rw [h]
    · rw [h]
    · rw [h]
    · rw [h]
    · rw [h]
      simp only
      rw [if_pos]
      · exact (responseCode_again _).2 hr
      · unfold RetryCode at hr; omega
    · rw [h]
      exact (responseCode_again _).2 hr
  unfold attemptError httpFetch
  rw [if_neg (by rw [h0]; decide)]
  simp only
  rw [key, if_pos (by decide)]

theorem retries_spec (max count : Nat) (answers : Nat → Answer) (r : Nat) (dst : Option (List Byte)) : r ≤ count →
    ∃ k d, r ≤ k ∧ k ≤ count ∧ (doRetries max count answers r dst false).2 = k + 1 ∧
      (∀ j, r ≤ j → j < k → attemptError max (answers j) = eAGAIN) ∧
      (doRetries max count answers r dst false).1.changed = (httpFetch max (answers k) d false).changed ∧
      (doRetries max count answers r dst false).1.dst = (httpFetch max (answers k) d false).dst ∧
      (k = r → d = dst) ∧ (r < k → d = none) ∧
      ((attemptError max (answers k) ≠ eAGAIN ∧ (doRetries max count answers r dst false).1.error = attemptError max (answers k)) ∨
       (attemptError max (answers k) = eAGAIN ∧ k = count ∧ (doRetries max count answers r dst false).1.error = eIO)) := by
  induction hn : count - r generalizing r dst with
  | zero =>
    intro hr
    refine ⟨r, dst, Nat.le_refl _, hr, ?_⟩
    rw [doRetries]
    simp only
    have he := fetch_error max (answers r) dst none false false
    change _ = attemptError max (answers r) at he
    by_cases h1 : (httpFetch max (answers r) dst false).error = 0
    · rw [if_pos h1]
      exact ⟨rfl, fun j h h' => by omega, rfl, rfl, (fun _ => by trivial), fun h => by omega, .inl ⟨by rw [← he, h1]; decide, he⟩⟩
    · rw [if_neg h1]
      by_cases h2 : (httpFetch max (answers r) dst false).error = eAGAIN
      · rw [if_pos h2, if_pos (by omega)]
        exact ⟨rfl, fun j h h' => by omega, rfl, rfl, (fun _ => by trivial), fun h => by omega, .inr ⟨by rw [← he, h2], by omega, rfl⟩⟩
      · rw [if_neg h2]
        exact ⟨rfl, fun j h h' => by omega, rfl, rfl, (fun _ => by trivial), fun h => by omega, .inl ⟨by rw [← he]; exact h2, he⟩⟩
  | succ n ih =>
    intro hr
    have he := fetch_error max (answers r) dst none false false
    change _ = attemptError max (answers r) at he
    by_cases h1 : (httpFetch max (answers r) dst false).error = 0
    · refine ⟨r, dst, Nat.le_refl _, hr, ?_⟩
      rw [doRetries]
      simp only
      rw [if_pos h1]
      exact ⟨rfl, fun j h h' => by omega, rfl, rfl, (fun _ => by trivial), fun h => by omega, .inl ⟨by rw [← he, h1]; decide, he⟩⟩
    · by_cases h2 : (httpFetch max (answers r) dst false).error = eAGAIN
      · have hstep : doRetries max count answers r dst false = doRetries max count answers (r + 1) none false := by
          conv => lhs; rw [doRetries]
          rw [if_neg h1, if_pos h2, if_neg (by omega)]
          obtain ⟨hc, hd⟩ := fetch_fail h1
          rw [hc]
          rcases hd with hd | ⟨hi, _⟩
          · rw [hd]
          · exfalso
            rw [he] at h2
            have := (C57_retriable h2).1
            rw [hi] at this; cases this
        obtain ⟨k, d, k1, k2, k3, k4, k5, k6, k7, k8, k9⟩ := ih (r + 1) none (by omega) (by omega)
        rw [hstep]
        refine ⟨k, d, by omega, k2, k3, ?_, k5, k6, fun h => by omega, ?_, k9⟩
        · intro j hj hjk
          by_cases hjr : j = r
          · rw [hjr, ← he]; exact h2
          · exact k4 j (by omega) hjk
        · intro _
          by_cases hk : k = r + 1
          · exact k7 hk
          · exact k8 (by omega)
      · refine ⟨r, dst, Nat.le_refl _, hr, ?_⟩
        rw [doRetries]
        simp only
        rw [if_neg h1, if_neg h2]
        exact ⟨rfl, fun j h h' => by omega, rfl, rfl, (fun _ => by trivial), fun h => by omega, .inl ⟨by rw [← he]; exact h2, he⟩⟩

/-- **C57 (HTTP).** There is at least one attempt and at most one more than the configured retries. All but the last one failed in a way that's worth
another attempt; and it's the last one's result, except that running out of retries is EIO. -/
theorem C57_http (max count : Nat) (answers : Nat → Answer) : ∃ n, (doRetries max count answers 0 none false).2 = n + 1 ∧ n ≤ count ∧
    (∀ j, j < n → attemptError max (answers j) = eAGAIN) ∧
    ((attemptError max (answers n) ≠ eAGAIN ∧ (doRetries max count answers 0 none false).1.error = attemptError max (answers n)) ∨
     (attemptError max (answers n) = eAGAIN ∧ n = count ∧ (doRetries max count answers 0 none false).1.error = eIO)) := by
  obtain ⟨k, d, _, k2, k3, k4, _, _, _, _, k9⟩ := retries_spec max count answers 0 none (Nat.zero_le _)
  exact ⟨k, k3, k2, fun j hj => k4 j (Nat.zero_le _) hj, k9⟩

/-- The attempt that decides the download. -/
theorem retries_success {max count : Nat} {answers : Nat → Answer} (h : (doRetries max count answers 0 none false).1.error = 0)
    (hne : ∀ j, ∀ c ∈ (answers j).chunks, c.data ≠ []) :
    ∃ k, k ≤ count ∧ (∀ j, j < k → attemptError max (answers j) = eAGAIN) ∧ (answers k).initOk = true ∧ (answers k).res = .ok ∧ (answers k).infoOk = true ∧
      (answers k).code < 400 ∧ (answers k).code ≠ 204 ∧
      (doRetries max count answers 0 none false).1.changed = decide ((answers k).code ≠ 304) ∧
      (transfer max (answers k).chunks ⟨0, 0, none⟩).2 = true ∧
      (doRetries max count answers 0 none false).1.dst = if (answers k).chunks = [] then none else some ((answers k).body.take (answers k).flushed) := by
  obtain ⟨k, d, _, k2, _, k4, k5, k6, k7, k8, k9⟩ := retries_spec max count answers 0 none (Nat.zero_le _)
  have hd : d = none := by
    by_cases hk : k = 0
    · exact k7 hk
    · exact k8 (by omega)
  subst hd
  rcases k9 with ⟨_, h2⟩ | ⟨_, _, h2⟩
  · rw [h] at h2
    obtain ⟨g1, g2, g3, g4, g5, g6, g7⟩ := fetch_ok (changed := false) (dst := none) h2.symm
    refine ⟨k, k2, fun j hj => k4 j (Nat.zero_le _) hj, g1, g3, g2, g4, g5, ?_, g6, ?_⟩
    · rw [k5, g7]; simp
    · rw [k6, g7]
      simp only
      unfold afterTransfer
      rw [transfer_written_first max _ g6 (hne k)]
      by_cases hc : (answers k).chunks = []
      · rw [if_pos hc, if_pos hc]
      · rw [if_neg hc, if_neg hc]; rfl
  · rw [h] at h2; exact absurd h2 (by decide)

/-- **C96.** Either the file is what it was, or the download succeeds, and the file is the body of a successful response to one of the attempts — as much
of it as was flushed when the temporary file was closed. -/
theorem C96_partial (max count : Nat) (answers : Nat → Answer) (fs : Fs) (final : Option (List Byte)) (hne : ∀ j, ∀ c ∈ (answers j).chunks, c.data ≠ []) :
    (httpDownload max count answers fs final).2.1.final = final ∨
    ((httpDownload max count answers fs final).1 = 0 ∧ ∃ k, k ≤ count ∧ Success (answers k) ∧ (answers k).chunks ≠ [] ∧
      (httpDownload max count answers fs final).2.1 = ⟨none, some ((answers k).body.take (answers k).flushed)⟩) := by
  unfold httpDownload
  by_cases h1 : fs.tmpfile ≠ 0
  · rw [if_pos h1]; exact .inl rfl
  · rw [if_neg h1]
    by_cases h2 : fs.stat ≠ 0
    · rw [if_pos h2]; exact .inl rfl
    · rw [if_neg h2]
      simp only
      by_cases h3 : (doRetries max count answers 0 none false).1.error ≠ 0 ∨ (doRetries max count answers 0 none false).1.changed = false
      · rw [if_pos h3]; exact .inl rfl
      · rw [if_neg h3]
        by_cases h4 : fs.mkdir ≠ 0
        · rw [if_pos h4]; exact .inl rfl
        · rw [if_neg h4]
          cases h5 : (doRetries max count answers 0 none false).1.dst with
          | none => exact .inl rfl
          | some content =>
            simp only
            by_cases h6 : fs.rename ≠ 0
            · rw [if_pos h6]; exact .inl rfl
            · rw [if_neg h6]
              right
              have h7 : (doRetries max count answers 0 none false).1.error = 0 := by
                by_contra h; exact h3 (.inl h)
              obtain ⟨k, g1, _, g2, g3, g4, g5, g6, g7, _, g9⟩ := retries_success h7 hne
              have hc : (answers k).chunks ≠ [] := by
                intro hc
                rw [if_pos hc, h5] at g9; cases g9
              rw [if_neg hc, h5] at g9
              cases g9
              refine ⟨rfl, k, g1, ⟨g2, g3, g4, g5, g6, ?_⟩, hc, rfl⟩
              intro e
              apply h3
              right
              rw [g7, e]; rfl

/-- **C96.** A download says that the file changed, without an error, exactly if it replaced it; and if the response is stored completely then that's the
whole body. -/
theorem C96_changed {max count : Nat} {answers : Nat → Answer} {fs : Fs} {final : Option (List Byte)} (hne : ∀ j, ∀ c ∈ (answers j).chunks, c.data ≠ [])
    (he : (httpDownload max count answers fs final).1 = 0) :
    ((httpDownload max count answers fs final).2.2 = true ∧
      ∃ k, k ≤ count ∧ Success (answers k) ∧ (httpDownload max count answers fs final).2.1 = ⟨none, some ((answers k).body.take (answers k).flushed)⟩) ∨
    ((httpDownload max count answers fs final).2.2 = false ∧ (httpDownload max count answers fs final).2.1.final = final ∧
      ∃ k, k ≤ count ∧ (answers k).code = 304) := by
  unfold httpDownload at he ⊢
  by_cases h1 : fs.tmpfile ≠ 0
  · rw [if_pos h1] at he; exact absurd he h1
  · rw [if_neg h1] at he ⊢
    by_cases h2 : fs.stat ≠ 0
    · rw [if_pos h2] at he; exact absurd he h2
    · rw [if_neg h2] at he ⊢
      simp only at he ⊢
      by_cases h7 : (doRetries max count answers 0 none false).1.error = 0
      · obtain ⟨k, g1, _, g2, g3, g4, g5, g6, g7, _, g9⟩ := retries_success h7 hne
        by_cases h3 : (doRetries max count answers 0 none false).1.changed = false
        · rw [if_pos (.inr h3)]
          refine .inr ⟨h3, rfl, k, g1, ?_⟩
          rw [g7] at h3
          simpa using h3
        · have hc : ¬ ((doRetries max count answers 0 none false).1.error ≠ 0 ∨ (doRetries max count answers 0 none false).1.changed = false) := by
            rintro (h | h)
            · exact h h7
            · exact h3 h
          rw [if_neg hc] at he ⊢
          by_cases h4 : fs.mkdir ≠ 0
          · rw [if_pos h4] at he; exact absurd he h4
          · rw [if_neg h4] at he ⊢
            cases h5 : (doRetries max count answers 0 none false).1.dst with
            | none => rw [h5] at he; cases he
            | some content =>
              rw [h5] at he
              simp only at he ⊢
              by_cases h6 : fs.rename ≠ 0
              · rw [if_pos h6] at he; exact absurd he h6
              · rw [if_neg h6]
                refine .inl ⟨rfl, ?_⟩
                have hc : (answers k).chunks ≠ [] := by
                  intro hc
                  rw [if_pos hc, h5] at g9; cases g9
                rw [if_neg hc, h5] at g9
                cases g9
                refine ⟨k, g1, ⟨g2, g3, g4, g5, g6, ?_⟩, rfl⟩
                intro e
                rw [g7, e] at h3
                exact h3 rfl
      · rw [if_pos (.inl h7)] at he
        exact absurd he h7

/-- **C96 (refuted).** The errors of closing the file are only logged: if the disk is full then, the file is replaced by a truncated one, and the download is a
success. -/
theorem C96_refuted : ∃ (answers : Nat → Answer) (final : Option (List Byte)), Success (answers 0) ∧ Storable 1000 (answers 0) ∧
    httpDownload 1000 1 answers ⟨0, 0, 0, 0⟩ final = (0, ⟨none, some [1#8]⟩, true) ∧ (answers 0).body = [1#8, 2#8] := by
  refine ⟨fun _ => ⟨true, [⟨[1#8, 2#8], 0, 2⟩], .ok, true, 200, 1⟩, some [7#8], ⟨rfl, rfl, rfl, by decide⟩, ⟨by decide, by decide, by decide⟩, ?_, rfl⟩
  have h : doRetries 1000 1 (fun _ => ⟨true, [⟨[1#8, 2#8], 0, 2⟩], .ok, true, 200, 1⟩) 0 none false = (⟨0, some [1#8], true⟩, 1) := by
    rw [doRetries]; decide
  unfold httpDownload
  rw [h]
  rfl

/-- **C96.** Nothing is left of the temporary file, except if the server says "not modified" and sends a document anyway. -/
theorem C96_tmp (max count : Nat) (answers : Nat → Answer) (fs : Fs) (final : Option (List Byte)) (hne : ∀ j, ∀ c ∈ (answers j).chunks, c.data ≠ [])
    (h304 : ∀ j, (answers j).code = 304 → (answers j).chunks = []) :
    (httpDownload max count answers fs final).2.1.tmp = none := by
  unfold httpDownload
  by_cases h1 : fs.tmpfile ≠ 0
  · rw [if_pos h1]
  · rw [if_neg h1]
    by_cases h2 : fs.stat ≠ 0
    · rw [if_pos h2]
    · rw [if_neg h2]
      simp only
      by_cases h3 : (doRetries max count answers 0 none false).1.error ≠ 0 ∨ (doRetries max count answers 0 none false).1.changed = false
      · rw [if_pos h3]
        simp only
        by_cases h7 : (doRetries max count answers 0 none false).1.error = 0
        · obtain ⟨k, _, _, _, _, _, _, _, g7, _, g9⟩ := retries_success h7 hne
          rcases h3 with h3 | h3
          · exact absurd h7 h3
          · rw [g7] at h3
            rw [g9, if_pos (h304 k (by simpa using h3))]
        · obtain ⟨k, d, _, _, _, _, _, k6, k7, k8, k9⟩ := retries_spec max count answers 0 none (Nat.zero_le _)
          have hd : d = none := by
            by_cases hk : k = 0
            · exact k7 hk
            · exact k8 (by omega)
          subst hd
          rw [k6]
          have he : (httpFetch max (answers k) none false).error ≠ 0 := by
            rcases k9 with ⟨_, h⟩ | ⟨h, _⟩
            · intro h'; rw [h] at h7; exact h7 h'
            · change attemptError max (answers k) ≠ 0
              rw [h]; decide
          rcases (fetch_fail he).2 with h | ⟨_, h⟩ <;> exact h
      · rw [if_neg h3]
        by_cases h4 : fs.mkdir ≠ 0
        · rw [if_pos h4]
        · rw [if_neg h4]
          cases h5 : (doRetries max count answers 0 none false).1.dst with
          | none => rfl
          | some content =>
            simp only
            by_cases h6 : fs.rename ≠ 0
            · rw [if_pos h6]
            · rw [if_neg h6]

/-- A 503, then a document. -/
def sample : Nat → Answer := fun j => if j = 0 then ⟨true, [], .other, true, 503, 0⟩ else ⟨true, [⟨[1#8], 0, 9⟩, ⟨[2#8], 0, 9⟩], .ok, true, 200, 99⟩

example : (doRetries 1000 1 sample 0 none false) = (⟨0, some [1#8, 2#8], true⟩, 2) := by
  rw [doRetries, doRetries]; decide

example : (doRetries 1000 0 sample 0 none false) = (⟨eIO, none, false⟩, 1) := by rw [doRetries]; decide

/-- A document that's too big. -/
example : attemptError 1 (sample 1) = -eFBIG ∧ Sane 1 (sample 1).chunks := ⟨by decide, ⟨by decide, by decide⟩⟩

end Verif.Net
