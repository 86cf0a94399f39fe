import Verif.Gbr.Model
/-
What a Ghostbusters record has to be (RFC 6493), and how lines are folded (RFC 6350, 3.2).
-/
namespace Verif.Gbr
open Verif.Res (Byte)

/-- Space or tab. -/
def Wsp (b : Byte) : Prop := b = 32#8 ∨ b = 9#8

/-- `Unfold text line rest`: the first line of the text is `line`, and what's after it is `rest`. A line ends at CRLF, unless there's a space or a tab after it; in that case the three are removed. -/
inductive Unfold : List Byte → List Byte → List Byte → Prop where
  | ended (rest) : (∀ b bs, rest = b :: bs → ¬ Wsp b) → Unfold (13#8 :: 10#8 :: rest) [] rest
  | folded {text line rest} (w) : Wsp w → Unfold text line rest → Unfold (13#8 :: 10#8 :: w :: text) line rest
  | chara {text line rest} (c) : (c = 13#8 → ∀ bs, text ≠ 10#8 :: bs) → Unfold text line rest → Unfold (c :: text) (c :: line) rest

/-- The lines of a text. -/
inductive Lines : List Byte → List (List Byte) → Prop where
  | nil : Lines [] []
  | cons {text line rest lines} : Unfold text line rest → Lines rest lines → Lines text (line :: lines)

/-- The lower case of an ASCII character. -/
def fold (b : Byte) : Byte := BitVec.ofNat 8 (Char.toLower (Char.ofNat b.toNat)).toNat

/-- The same, if the case of letters doesn't matter. -/
def CaseEq (a b : List Byte) : Prop := a.map fold = b.map fold

/-- The line starts with this, if the case doesn't matter. -/
def Starts (line : List Byte) (tag : String) : Prop := ∃ p rest, line = p ++ rest ∧ CaseEq p (bytes tag)

/-- The lines that give information to get in touch. -/
def Useful (line : List Byte) : Prop := Starts line "ORG:" ∨ Starts line "ADR;" ∨ Starts line "TEL;" ∨ Starts line "EMAIL:" ∨ Starts line "EMAIL;"

/-- What the code accepts. -/
def Accepted (text : List Byte) : Prop :=
  ∃ b v mid e, Lines text (b :: v :: mid ++ [e]) ∧ CaseEq b (bytes "BEGIN:VCARD") ∧ CaseEq v (bytes "VERSION:4.0") ∧ CaseEq e (bytes "END:VCARD") ∧
    (∀ l ∈ mid, Starts l "FN:" ∨ Useful l) ∧ (∃ l ∈ mid, Starts l "FN:") ∧ ∃ l ∈ mid, Useful l

/-- A property with this name: it might have parameters. -/
def Property (line : List Byte) (name : String) : Prop := Starts line (name ++ ":") ∨ Starts line (name ++ ";")

/-- RFC 6493, section 5: the properties are BEGIN, VERSION, FN, ORG, ADR, TEL, EMAIL and END; FN is mandatory, and one of ORG, ADR, TEL, EMAIL is too. -/
def Rfc6493 (text : List Byte) : Prop :=
  ∃ b v mid e, Lines text (b :: v :: mid ++ [e]) ∧ CaseEq b (bytes "BEGIN:VCARD") ∧ CaseEq v (bytes "VERSION:4.0") ∧ CaseEq e (bytes "END:VCARD") ∧
    (∀ l ∈ mid, ∃ n ∈ ["FN", "ORG", "ADR", "TEL", "EMAIL"], Property l n) ∧ (∃ l ∈ mid, Property l "FN") ∧ ∃ l ∈ mid, ∃ n ∈ ["ORG", "ADR", "TEL", "EMAIL"], Property l n

end Verif.Gbr
