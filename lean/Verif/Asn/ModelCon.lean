import Verif.Asn.Model
import Verif.Mft.ModelTime
/-
Model of the checks that follow a decoding: src/asn1/asn1c/constraints.c and the constraint functions of the types; and of
src/asn1/decode.c. Not modelled: the messages.
-/
namespace Verif.Asn
open Verif.Res (Byte)

mutual
/-- Constraint functions (`general_constraints`). -/
inductive Con where
  /-- src/asn1/asn1c/constraints.c:5-16 `asn_generic_no_constraint` -/
  | none
  /-- src/asn1/asn1c/BIT_STRING.c:52-73 `BIT_STRING_constraint` -/
  | bits
  /-- src/asn1/asn1c/IA5String.c:39-71 `IA5String_constraint` -/
  | ia5
  /-- src/asn1/asn1c/OBJECT_IDENTIFIER.c:49-71 `OBJECT_IDENTIFIER_constraint` -/
  | oid
  /-- src/asn1/asn1c/GeneralizedTime.c:99-113 `GeneralizedTime_constraint` -/
  | gtime
  /-- src/asn1/asn1c/UTCTime.c:56-72 `UTCTime_constraint` -/
  | utime
  /-- The size of an OCTET STRING: src/asn1/asn1c/IPAddressFamily.c:10-34 `memb_addressFamily_constraint_1` -/
  | size (lo hi : Nat)
  /-- The sign of an INTEGER: src/asn1/asn1c/Manifest.c:13-38 `memb_manifestNumber_constraint_1` -/
  | nonneg
  /-- At least one element, and the type's constraint: src/asn1/asn1c/RouteOriginAttestation.c:13-37 `memb_ipAddrBlocks_constraint_1` -/
  | filled (c : Con)
  /-- The type's constraint: src/asn1/asn1c/Manifest.c:40-57 `memb_fileList_constraint_1` -/
  | same (c : Con)
  /-- src/asn1/asn1c/constr_SEQUENCE.c:808-848 `SEQUENCE_constraint` -/
  | seq (ms : Cons)
  /-- src/asn1/asn1c/constr_SET_OF.c:740-773 `SET_OF_constraint` -/
  | setOf (el : Con)
  /-- src/asn1/asn1c/constr_CHOICE.c:479-524 `CHOICE_constraint` -/
  | choice (as : Cons)

/-- The constraints of members: whether the member is optional, whether it has a constraint of its own (else: its type's). -/
inductive Cons where
  | nil
  | cons (opt own : Bool) (c : Con) (rest : Cons)
end

/-- What a check ends with. `abort` is a call of abort(); `crash` is undefined behaviour. -/
inductive Chk where
  | pass
  | fail
  | abort
  | crash
  deriving DecidableEq, Repr

/-- The loop of src/asn1/asn1c/constr_SET_OF.c:740-773 `SET_OF_constraint` -/
def checkAll (f : Nat → Val → Chk) : Nat → List Val → Chk
  | _, [] => .pass
  | i, v :: vs => match f i v with | .pass => checkAll f (i + 1) vs | r => r

/-- Which of the buffers of the strings are null pointers, though nothing says so in the value: an empty string's is if it was
encoded as a constructed element and no piece was appended to it (src/asn1/asn1c/OCTET_STRING.c:173-523 `OCTET_STRING_decode_ber`). The
list is the place of the string: the index of the member or element on each level. -/
abbrev Nul := List Nat → Bool

/-- The places inside of the member with this index. -/
def Nul.at (nul : Nul) (i : Nat) : Nul := fun p => nul (i :: p)

/-- No buffer is a null pointer: the strings are not constructed (DER). -/
def Nul.never : Nul := fun _ => false

mutual
/-- src/asn1/asn1c/constraints.c:77-93 `asn_check_constraints`. The octet after an INTEGER of no octets is 0 (src/asn1/asn1c/asn_codecs_prim.c:16-82
`ber_decode_primitive`). -/
def check (nul : Nul) : Con → Val → Chk
  | .none, _ => .pass
  | .bits, .bits b u => if b = [] then (if nul [] ∨ u ≠ 0 then .fail else .pass) else if u > 7 then .fail else .pass
  | .ia5, .bytes b => if b = [] ∧ nul [] then .fail else if b.any (fun x => decide (x > 0x7F)) then .fail else .pass
  | .oid, .bytes b => if b.length < 1 then .fail else .pass
  | .gtime, .bytes b => match Mft.gt2time b with | .ok _ => .pass | .garbage => .fail | .oob => .crash
  | .utime, _ => .abort
  | .size lo hi, .bytes b => if lo ≤ b.length ∧ b.length ≤ hi then .pass else .fail
  | .nonneg, .bytes b => if b.headD 0 &&& 0x80 ≠ 0 then .fail else .pass
  | .filled c, .list l => if l.length ≥ 1 then check nul c (.list l) else .fail
  | .same c, v => check nul c v
  | .seq ms, .seq vs => checkSeq nul 0 ms vs
  | .setOf c, .list l => checkAll (fun i => check (nul.at i) c) 0 l
  | .choice as, .alt i v => checkAlt nul as i v
  | _, _ => .crash

/-- The loop of src/asn1/asn1c/constr_SEQUENCE.c:808-848 `SEQUENCE_constraint`. It returns after the first member that is there and has no
constraint of its own. -/
def checkSeq (nul : Nul) : Nat → Cons → List (Option Val) → Chk
  | _, .nil, _ => .pass
  | i, .cons opt _ _ rest, none :: vs => if opt then checkSeq nul (i + 1) rest vs else .fail
  | i, .cons _ own c rest, some v :: vs =>
    if own then (match check (nul.at i) c v with | .pass => checkSeq nul (i + 1) rest vs | r => r) else check (nul.at i) c v
  | _, _, _ => .crash

/-- src/asn1/asn1c/constr_CHOICE.c:479-524 `CHOICE_constraint` -/
def checkAlt (nul : Nul) : Cons → Nat → Val → Chk
  | .nil, _, _ => .fail
  | .cons _ _ c _, 0, v => check nul c v
  | .cons _ _ _ rest, i + 1, v => checkAlt nul rest i v
end

/-- What src/asn1/decode.c:33-59 `asn1_decode` ends with. -/
inductive Decoded where
  | ok (v : Val)
  | error
  | abort
  | crash
  | hang
  deriving Repr

/-- src/asn1/decode.c:33-59 `asn1_decode`, and src/asn1/decode.c:15-31 `validate`. What follows the encoding is ignored. The callers
src/asn1/decode.c:61-68 `asn1_decode_any`, src/asn1/decode.c:70-77 `asn1_decode_octet_string` and src/asn1/decode.c:84-89
`asn1_decode_fc` give it their buffer. -/
def asn1Decode (nul : Nul) (ty : Ty) (con : Con) (buf : List Byte) : Decoded :=
  match berDecode ty buf with
  | .ok v _ =>
    match check nul con v with
    | .pass => .ok v
    | .fail => .error
    | .abort => .abort
    | .crash => .crash
  | .more => .error
  | .fail => .error
  | .crash => .crash
  | .hang => .hang

end Verif.Asn
