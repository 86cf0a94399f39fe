import Verif.Log.Model
/-
What's expected of the logs, in terms of what's configured and of what ends up in the outputs.
-/
namespace Verif.Log

/-- The outputs after these critical sections, of one thread that's alone. -/
def observe (l : List (List Act)) : World := l.flatten.foldl World.act (World.start fun _ => [])

/-- Whether a message belongs in an output of a log. -/
def Wanted (c : Conf) (level : Nat) (o : Output) : Prop := c.enabled = true ∧ c.output = o ∧ level ≤ c.level

instance (c : Conf) (level : Nat) (o : Output) : Decidable (Wanted c level o) := by unfold Wanted; infer_instance

/-- The levels that exist, with their labels and colours, and whether they're for standard error. -/
def levels : List (Nat × String × String × Bool) :=
  [(LOG_ERR, "ERR", "31", true), (LOG_WARNING, "WRN", "33", true), (LOG_INFO, "INF", "37", false), (LOG_DEBUG, "DBG", "36", false)]

/-- A text that's followed by something, if it's there. -/
def opt (before : String) (t : Option Text) (after : String) : Text :=
  match t with
  | none => []
  | some t => before.toList ++ t ++ after.toList

/-- A line, without colours and without its end. -/
def plainLine (label : String) (c : Conf) (date file : Option Text) (msg : Text) : Text :=
  opt "" date " " ++ label.toList ++ opt " [" c.tag "]" ++ ": ".toList ++ opt "" file ": " ++ msg

/-- A line, without its end. -/
def line (label color : String) (c : Conf) (date file : Option Text) (msg : Text) : Text :=
  if c.color then
    Char.ofNat 27 :: '[' :: (color.toList ++ ['m']) ++ plainLine label c date file msg ++ (Char.ofNat 27 :: "[0m".toList)
  else plainLine label c date file msg

/-- The lines of a text that ends each line with a line feed; what's after the last one is not a line. -/
def linesAcc : Text → Text → List Text
  | _, [] => []
  | acc, c :: cs => if c = '\n' then acc :: linesAcc [] cs else linesAcc (acc ++ [c]) cs

/-- The lines of a text. -/
def linesOf (t : Text) : List Text := linesAcc [] t

mutual
/-- Each message with the file that was being processed. -/
def named (cur : Option Text) : Work → List (Option Text × Text)
  | .msg m => [(cur, m)]
  | .file name body => nameds (some name) body
def nameds (cur : Option Text) : List Work → List (Option Text × Text)
  | [] => []
  | w :: ws => named cur w ++ nameds cur ws
end

mutual
/-- How many files are being processed at the same time, at most. -/
def depth : Work → Nat
  | .msg _ => 0
  | .file _ body => 1 + depths body
def depths : List Work → Nat
  | [] => 0
  | w :: ws => max (depth w) (depths ws)
end

/-- What `fnstack_peek` should return. -/
def peekOf : Option Text → Peek
  | none => .null
  | some t => .name t

/-- What a critical section is meant to add to a stream. -/
def onStream (s : Stream) (m : List Act) : Text :=
  m.flatMap fun a => match a with
    | .write s' t => if s' = s then t else []
    | _ => []

/-- What a critical section is meant to add to the system's log: with the text that it put in the buffer itself. -/
def onSys (m : List Act) : List (Nat × Text) := (observe [m]).sys

end Verif.Log
