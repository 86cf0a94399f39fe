import Verif.Rtr.Model
/-
The messages of rsync: src/rsync/rsync.c, `exhaust_read_fds` and `log_buffer`.
-/
namespace Verif.Rlog
open Verif.Rtr (Byte)

abbrev nl : Byte := 10#8
abbrev nul : Byte := 0#8

/-- `strchr(cur, '\n')`: what's before the first line feed of a string, and what's after it. -/
def strchr : List Byte → Option (List Byte × List Byte)
  | [] => none
  | b :: s =>
    if b = nl then some ([], s)
    else match strchr s with
      | none => none
      | some (l, r) => some (b :: l, r)

theorem strchr_length {s l r : List Byte} (h : strchr s = some (l, r)) : r.length < s.length := by
  induction s generalizing l r with
  | nil => cases h
  | cons b s ih =>
    unfold strchr at h
    by_cases hb : b = nl
    · rw [if_pos hb] at h; cases h; simp
    · rw [if_neg hb] at h
      cases hs : strchr s with
      | none => rw [hs] at h; cases h
      | some p =>
        rw [hs] at h
        cases h
        have := ih hs
        simp only [List.length_cons]
        omega

/-- The loop of src/rsync/rsync.c:137-164 `log_buffer`: the messages. -/
def logLoop (cur : List Byte) : List (List Byte) :=
  match h : strchr cur with
  | none => []
  | some (line, rest) =>
    have := strchr_length h
    if line.length = 0 then logLoop rest else line :: logLoop rest
  termination_by cur.length

/-- src/rsync/rsync.c:137-164 `log_buffer`: `strncpy` copies the buffer until its first NUL. -/
def logBuffer (buffer : List Byte) : List (List Byte) := logLoop (buffer.takeWhile (· ≠ nul))

/-- The streams that rsync writes. -/
inductive Stream where
  | err | out
  deriving DecidableEq, Repr

/-- A message in the validation log: an error or a debug message. -/
structure Msg where
  error : Bool
  text : List Byte
  deriving DecidableEq, Repr

/-- "[RSYNC exec]: " -/
def prefix_ : List Byte := [91#8, 82#8, 83#8, 89#8, 78#8, 67#8, 32#8, 101#8, 120#8, 101#8, 99#8, 93#8, 58#8, 32#8]

/-- The messages of src/rsync/rsync.c:183-266 `exhaust_read_fds`: for each `read` that returns something, in the order of the reads. (The rest of the loop is in
Verif/Net/RsyncModel.lean.) A read of 0 bytes has no messages. -/
def messages : List (Stream × List Byte) → List Msg
  | [] => []
  | (s, b) :: reads => (logBuffer b).map (fun l => ⟨s = .err, prefix_ ++ l⟩) ++ messages reads

end Verif.Rlog
