import Verif.Uri.ModelUri
/-
What a URL means as a place in the local cache, independently of how the code walks it.
-/
namespace Verif.Uri
open Verif.Res (Byte)

/-- The path of these components below a base. -/
def pathOf (base : List Byte) (cs : List (List Byte)) : List Byte := base ++ cs.flatMap (fun c => slash :: c)

/-- The text between slashes. -/
def splitSlash : List Byte → List (List Byte)
  | [] => [[]]
  | c :: cs =>
    if c = slash then [] :: splitSlash cs
    else match splitSlash cs with
      | [] => [[c]]
      | t :: ts => (c :: t) :: ts

/-- Names that mean something special to a file system. -/
def Proper (c : List Byte) : Prop := c ≠ [] ∧ slash ∉ c ∧ c ≠ [dot] ∧ c ≠ [dot, dot]

/-- The meaning of a relative path below a directory: empty and "." segments stay, ".." goes up, and going up from the
start is not allowed. `acc` is where one is. -/
def normalize : List (List Byte) → List (List Byte) → Option (List (List Byte))
  | [], acc => some acc
  | s :: ss, acc =>
    if s = [] ∨ s = [dot] then normalize ss acc
    else if s = [dot, dot] then
      if acc = [] then none else normalize ss acc.dropLast
    else normalize ss (acc ++ [s])

/-- The components a URL names, after its (8 character long) scheme: domain and normalized path. The domain cannot be "."
or "..", and the path cannot go above the domain. -/
def urlComps (g : List Byte) : Option (List (List Byte)) :=
  match splitSlash (g.drop 8) with
  | [] => none
  | d :: segs =>
    if g.drop 8 = [] ∨ d = [dot] ∨ d = [dot, dot] then none
    else (normalize segs []).map (fun cs => (if d = [] then [] else [d]) ++ cs)

/-- The scheme of each type of URL. -/
def UriType.prefix : UriType → List Byte
  | .https => httpsPrefix
  | _ => rsyncPrefix

/-- The scheme's first five characters. -/
def UriType.scheme (t : UriType) : List Byte := t.prefix.take 5

/-- The specification of the local path of a plain URL. -/
def specSimple (repo t : List Byte) (type : UriType) (g : List Byte) : Option (List Byte) :=
  if type.prefix <+: g then (urlComps g).map (fun cs => pathOf repo ([t, type.scheme] ++ cs)) else none

/-- The specification of the directory of an RRDP repository. -/
def specCage (repo t notif : List Byte) : Option (List Byte) :=
  if httpsPrefix <+: notif then (urlComps notif).map (fun ns => pathOf repo ([t, rrdpName] ++ ns)) else none

/-- The specification of the local path of a file of an RRDP repository. -/
def specCaged (repo t notif g : List Byte) : Option (List Byte) :=
  match specCage repo t notif with
  | none => none
  | some cage =>
    if g = [] then some cage
    else if rsyncPrefix <+: g then (urlComps g).map (fun cs => pathOf cage cs) else none

end Verif.Uri
