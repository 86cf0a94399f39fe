import Verif.Res.ModelAddr
/-
How print mode builds JSON documents: jansson's constructors, and the pattern every `..2json` function follows.

A builder is run with an environment (which of jansson's allocations succeed, which strings jansson takes for UTF-8, how libc writes addresses),
and counts allocations and live nodes. It returns a node or NULL, or does something undefined (`ub`). `live` is an integer, so that freeing too much shows.
`null`, `true` and `false` are not allocated. libcrypto's and the C library's own allocations are assumed to succeed (Fort's `pmalloc` ends the program otherwise).
-/
namespace Verif.Print
open Verif.Res (Byte)

/-- `json_t` -/
inductive J where
  | null
  | bool (b : Bool)
  | int (i : Int)
  | str (s : List Byte)
  | arr (l : List J)
  | obj (l : List (String × J))

mutual
/-- Allocated nodes of a document. -/
def J.nodes : J → Nat
  | .null => 0
  | .bool _ => 0
  | .int _ => 1
  | .str _ => 1
  | .arr l => 1 + nodesL l
  | .obj l => 1 + nodesF l
def nodesL : List J → Nat
  | [] => 0
  | j :: l => j.nodes + nodesL l
def nodesF : List (String × J) → Nat
  | [] => 0
  | (_, j) :: l => j.nodes + nodesF l
end

/-- What's outside: whether jansson's n-th allocation succeeds, the strings it accepts, and `inet_ntop` (of 4 or 16 bytes). -/
structure Env where
  alloc : Nat → Bool
  utf8 : List Byte → Bool
  ntop4 : List Byte → List Byte
  ntop6 : List Byte → List Byte

/-- Allocations tried, live nodes. -/
structure St where
  n : Nat
  live : Int
  deriving DecidableEq

/-- What a function returns: a node or NULL; `ub` is undefined behaviour. -/
inductive Out where
  | ub
  | ret (j : Option J) (s : St)

abbrev B := Env → St → Out

/-- `json_null`, `json_true`, `json_false`: never fail. -/
def static (j : J) : B := fun _ s => .ret (some j) s

/-- NULL, after a message. -/
def fail : B := fun _ s => .ret none s

/-- Undefined behaviour. -/
def crash : B := fun _ _ => .ub

/-- The allocation of one node. -/
def alloc1 (j : J) : B := fun e s => if e.alloc s.n then .ret (some j) ⟨s.n + 1, s.live + 1⟩ else .ret none ⟨s.n + 1, s.live⟩

/-- src/json_util.c:270-277 `json_obj_new` -/
def objNew : B := alloc1 (.obj [])

/-- src/json_util.c:279-286 `json_array_new` -/
def arrayNew : B := alloc1 (.arr [])

/-- src/json_util.c:288-296 `json_int_new`. -/
def intNew (i : Int) : B := alloc1 (.int i)

/-- src/json_util.c:307-315 `json_strn_new`, src/json_util.c:298-305 `json_str_new`: jansson refuses strings that aren't UTF-8. -/
def strNew (s : List Byte) : B := fun e st => if e.utf8 s then alloc1 (.str s) e st else .ret none st

/-- Failure, after `json_decref` of the root (`held` are the nodes of the root that are not in `cur`). -/
def drop (held : Nat) (cur : J) (s : St) : Out := .ret none ⟨s.n, s.live - (held + cur.nodes)⟩

/-- src/json_util.c:317-330 `json_object_add`, once for each member, and `goto fail`. `done` are the members so far.
`json_object_set_new` might allocate; it decrements the reference to the value if it fails. (The keys are different in all callers.) -/
def fillObj (held : Nat) : List (String × J) → List (String × B) → B
  | done, [] => fun _ s => .ret (some (.obj done)) s
  | done, (k, b) :: rest => fun e s =>
    match b e s with
    | .ub => .ub
    | .ret none s => drop held (.obj done) s
    | .ret (some j) s =>
      if e.alloc s.n then fillObj held (done ++ [(k, j)]) rest e ⟨s.n + 1, s.live⟩
      else drop held (.obj done) ⟨s.n + 1, s.live - j.nodes⟩

/-- src/json_util.c:332-344 `json_array_add`, once for each element, and `goto fail`. -/
def fillArr (held : Nat) : List J → List B → B
  | done, [] => fun _ s => .ret (some (.arr done)) s
  | done, b :: rest => fun e s =>
    match b e s with
    | .ub => .ub
    | .ret none s => drop held (.arr done) s
    | .ret (some j) s =>
      if e.alloc s.n then fillArr held (done ++ [j]) rest e ⟨s.n + 1, s.live⟩
      else drop held (.arr done) ⟨s.n + 1, s.live - j.nodes⟩

/-- An array of objects, each one added to the array before its members are added to it. -/
def fillRows (held : Nat) : List J → List (List (String × B)) → B
  | done, [] => fun _ s => .ret (some (.arr done)) s
  | done, row :: rest => fun e s =>
    match objNew e s with
    | .ub => .ub
    | .ret none s => drop held (.arr done) s
    | .ret (some j) s =>
      if e.alloc s.n then
        match fillObj (held + (J.arr done).nodes) [] row e ⟨s.n + 1, s.live⟩ with
        | .ret (some j) s => fillRows held (done ++ [j]) rest e s
        | o => o
      else drop held (.arr done) ⟨s.n + 1, s.live - j.nodes⟩

/-- A function that makes an object. -/
def objB (l : List (String × B)) : B := fun e s =>
  match objNew e s with
  | .ret (some _) s => fillObj 0 [] l e s
  | o => o

/-- A function that makes an array. -/
def arrB (l : List B) : B := fun e s =>
  match arrayNew e s with
  | .ret (some _) s => fillArr 0 [] l e s
  | o => o

/-- A function that makes an array of objects. -/
def rowsB (l : List (List (String × B))) : B := fun e s =>
  match arrayNew e s with
  | .ret (some _) s => fillRows 0 [] l e s
  | o => o

/-- The end of a function that makes an object whose last member is an array, filled once it's in: `done` are the other members. -/
def lastArray (done : List (String × J)) (k : String) (fill : Nat → B) : B := fun e s =>
  match arrayNew e s with
  | .ub => .ub
  | .ret none s => drop 0 (.obj done) s
  | .ret (some j) s =>
    if e.alloc s.n then
      match fill (J.obj done).nodes e ⟨s.n + 1, s.live⟩ with
      | .ret (some j) s => .ret (some (.obj (done ++ [(k, j)]))) s
      | o => o
    else drop 0 (.obj done) ⟨s.n + 1, s.live - j.nodes⟩

/-- A function that makes an object whose last member is an array, filled once it's in. -/
def objArrB (l : List (String × B)) (k : String) (fill : Nat → B) : B := fun e s =>
  match objB l e s with
  | .ret (some (.obj done)) s => lastArray done k fill e s
  | .ret (some j) s => .ret (some j) s
  | o => o

/-- ASCII text. -/
def lit (s : String) : List Byte := s.toList.map (fun c => BitVec.ofNat 8 c.toNat)

end Verif.Print
