import Verif.Out.Model
/-
What the output files mean: CSV (RFC 4180, without quotes), JSON (RFC 8259); and what stdio does to files.
-/
namespace Verif.Out

/-! ### CSV -/

/-- A field that needs no quotes. -/
def Field (f : Text) : Prop := ∀ c ∈ f, c ≠ ',' ∧ c ≠ '\n' ∧ c ≠ '\r' ∧ c ≠ '"'

/-- Fields, separated by commas; then a line feed. -/
inductive CsvRow : List Text → Text → Prop where
  | last {f} : Field f → CsvRow [f] (f ++ ['\n'])
  | more {f fs t} : Field f → CsvRow fs t → CsvRow (f :: fs) (f ++ ',' :: t)

/-- Rows. -/
inductive Csv : List (List Text) → Text → Prop where
  | nil : Csv [] []
  | cons {r rs a b} : CsvRow r a → Csv rs b → Csv (r :: rs) (a ++ b)

/-! ### JSON -/

/-- Values (the ones that are needed). Members are ordered. -/
inductive Json where
  | str (s : Text)
  | num (n : Nat)
  | arr (l : List Json)
  | obj (l : List (Text × Json))

/-- White space. -/
def Ws (t : Text) : Prop := ∀ c ∈ t, c = ' ' ∨ c = '\t' ∨ c = '\n' ∨ c = '\r'

/-- Characters that need no escape in a string. -/
def Plain (t : Text) : Prop := ∀ c ∈ t, c ≠ '"' ∧ c ≠ '\\' ∧ 32 ≤ c.toNat

mutual
/-- The value is written like this. -/
inductive Value : Json → Text → Prop where
  | str {s} : Plain s → Value (.str s) ('"' :: (s ++ ['"']))
  | num (n) : Value (.num n) (Nat.toDigits 10 n)
  | arr {l t} : Elems l t → Value (.arr l) ('[' :: (t ++ [']']))
  | obj {l t} : Members l t → Value (.obj l) ('{' :: (t ++ ['}']))
/-- Elements of an array. -/
inductive Elems : List Json → Text → Prop where
  | empty {w} : Ws w → Elems [] w
  | one {a v t b} : Ws a → Value v t → Ws b → Elems [v] (a ++ t ++ b)
  | more {a v t b w ws t'} : Ws a → Value v t → Ws b → Elems (w :: ws) t' → Elems (v :: w :: ws) (a ++ t ++ b ++ ',' :: t')
/-- Members of an object. -/
inductive Members : List (Text × Json) → Text → Prop where
  | empty {w} : Ws w → Members [] w
  | one {a k b c v t d} : Ws a → Plain k → Ws b → Ws c → Value v t → Ws d → Members [(k, v)] (a ++ '"' :: k ++ '"' :: b ++ ':' :: c ++ t ++ d)
  | more {a k b c v t d m ms t'} : Ws a → Plain k → Ws b → Ws c → Value v t → Ws d → Members (m :: ms) t' →
      Members ((k, v) :: m :: ms) (a ++ '"' :: k ++ '"' :: b ++ ':' :: c ++ t ++ d ++ ',' :: t')
end

/-- A JSON text. -/
def JsonText (v : Json) (text : Text) : Prop := ∃ a t b, Ws a ∧ Value v t ∧ Ws b ∧ text = a ++ t ++ b

/-! ### Files -/

/-- The disk, what the terminal got, and the stream that's open, if there's one: its file, and what isn't on the disk yet. -/
structure World where
  disk : Text → Option Text
  stdout : Text
  stream : Option (Text × Text)

/-- The disk, after a file was written. -/
def setFile (disk : Text → Option Text) (name : Text) (content : Text) : Text → Option Text := fun n => if n = name then some content else disk n

/-- More bytes at the end of a file. -/
def appendFile (disk : Text → Option Text) (name : Text) (more : Text) : Text → Option Text := fun n => if n = name then (disk n).map (· ++ more) else disk n

/-- What a call does. If `faulty` then writes can fail, in which case part of the text is lost; the printer doesn't notice. -/
inductive Step (faulty : Prop) : World → Call → World → Prop where
  | fopen {w n} : w.stream = none → Step faulty w (.fopen n) { w with disk := setFile w.disk n [], stream := some (n, []) }
  | stdout {w t} : Step faulty w (.fprintf .stdout t) { w with stdout := w.stdout ++ t }
  | write {w n p t} : w.stream = some (n, p) → Step faulty w (.fprintf (.file n) t) { w with stream := some (n, p ++ t) }
  | lost {w n p t} (t') : faulty → w.stream = some (n, p) → t' <+: t → Step faulty w (.fprintf (.file n) t) { w with stream := some (n, p ++ t') }
  | close {w n p} : w.stream = some (n, p) → Step faulty w (.fclose (.file n)) { w with disk := appendFile w.disk n p, stream := none }
  | closeLost {w n p} (p') : faulty → w.stream = some (n, p) → p' <+: p → Step faulty w (.fclose (.file n)) { w with disk := appendFile w.disk n p', stream := none }

/-- Calls in order; what's buffered can go to the disk at any time. -/
inductive Exec (faulty : Prop) : World → List Call → World → Prop where
  | refl {w} : Exec faulty w [] w
  | call {w c w' cs w''} : Step faulty w c w' → Exec faulty w' cs w'' → Exec faulty w (c :: cs) w''
  | flush {w n p q cs w''} : w.stream = some (n, p ++ q) → Exec faulty { w with disk := appendFile w.disk n p, stream := some (n, q) } cs w'' → Exec faulty w cs w''

/-- What's on the disk if the program dies at some point of these calls: only some of them happened, and buffers are lost. -/
def Dies (faulty : Prop) (w : World) (cs : List Call) (disk : Text → Option Text) : Prop := ∃ done w', done <+: cs ∧ Exec faulty w done w' ∧ w'.disk = disk

end Verif.Out
