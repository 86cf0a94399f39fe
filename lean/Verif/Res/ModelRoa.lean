import Verif.Res.ModelRes
/-
Model of the handling of ROAs. Files modelled: src/object/roa.c, the two queries of src/resource.c that it uses.
Not modelled: the DER decoding, the CMS envelope (see the parameters of `roaTraverse`), log messages.
-/
namespace Verif.Res

/-- `struct ROAIPAddress`; the INTEGER is its encoding. -/
structure RoaAddr where
  address : BitStr
  maxLength : Option (List Byte)
  deriving DecidableEq, Repr

/-- `struct ROAIPAddressFamily`. -/
structure RoaBlock where
  family : List Byte
  addresses : List RoaAddr
  deriving DecidableEq, Repr

/-- `struct RouteOriginAttestation`. -/
structure Roa where
  version : Option (List Byte)
  asId : List Byte
  blocks : List RoaBlock
  deriving DecidableEq, Repr

/-- Arguments of src/validation_handler.c:21-32 `vhandler_handle_roa_v4` and
src/validation_handler.c:34-45 `vhandler_handle_roa_v6`. The parameters are `uint32_t` and `uint8_t`. -/
inductive Vrp
  | v4 (asn : BitVec 32) (p : Prefix4) (maxLength : BitVec 8)
  | v6 (asn : BitVec 32) (p : Prefix6) (maxLength : BitVec 8)
  deriving DecidableEq, Repr

/-- src/resource.c:559-563 `resources_contains_ipv4`. -/
def resourcesContains4 (h : Heap) (r : Resources) (p : Prefix4) : Option Bool :=
  sarrayContains cmp32 (h.h4.deref r.ip4) (pton4 p)

/-- src/resource.c:565-569 `resources_contains_ipv6`. -/
def resourcesContains6 (h : Heap) (r : Resources) (p : Prefix6) : Option Bool :=
  sarrayContains cmp6 (h.h6.deref r.ip6) (ptor6 p)

/-- The maxLength part of src/object/roa.c:20-74 `____handle_roa_v4` (`w` is 32) and
src/object/roa.c:76-130 `____handle_roa_v6` (128). -/
def roaMaxLength (w len : Nat) (m : Option (List Byte)) : Option Nat :=
  match m with
  | none => some len
  | some b =>
    match integer2ulong b with
    | none => none
    | some n => if n > w then none else if len > n then none else some n

/-- src/object/roa.c:20-74 `____handle_roa_v4`: the VRP, none when the function fails. (The handler is assumed to
succeed: it fails only when memory is exhausted.) -/
def handleRoaV4 (h : Heap) (r : Resources) (asn : Nat) (a : RoaAddr) : Option Vrp :=
  match prefix4Decode a.address with
  | none => none
  | some p =>
    match roaMaxLength 32 p.len a.maxLength with
    | none => none
    | some n =>
      match resourcesContains4 h r p with
      | some true => some (.v4 (BitVec.ofNat 32 asn) p (BitVec.ofNat 8 n))
      | _ => none

/-- src/object/roa.c:76-130 `____handle_roa_v6`. -/
def handleRoaV6 (h : Heap) (r : Resources) (asn : Nat) (a : RoaAddr) : Option Vrp :=
  match prefix6Decode a.address with
  | none => none
  | some p =>
    match roaMaxLength 128 p.len a.maxLength with
    | none => none
    | some n =>
      match resourcesContains6 h r p with
      | some true => some (.v6 (BitVec.ofNat 32 asn) p (BitVec.ofNat 8 n))
      | _ => none

/-- src/object/roa.c:132-144 `____handle_roa`. -/
def handleRoaAddr (h : Heap) (r : Resources) (asn : Nat) (family : Byte) (a : RoaAddr) : Option Vrp :=
  if family = 1 then handleRoaV4 h r asn a
  else if family = 2 then handleRoaV6 h r asn a
  else none

/-- Inner loop of src/object/roa.c:146-245 `__handle_roa`: the VRPs, and whether it went to the end. -/
def roaAddrs (h : Heap) (r : Resources) (asn : Nat) (family : Byte) : List RoaAddr → List Vrp × Bool
  | [] => ([], true)
  | a :: as =>
    match handleRoaAddr h r asn family a with
    | none => ([], false)
    | some v => (v :: (roaAddrs h r asn family as).1, (roaAddrs h r asn family as).2)

/-- Outer loop of src/object/roa.c:146-245 `__handle_roa`. asn1c leaves the array of an empty list NULL. -/
def roaBlocks (h : Heap) (r : Resources) (asn : Nat) : List RoaBlock → List Vrp × Bool
  | [] => ([], true)
  | b :: bs =>
    if b.family.length ≠ 2 then ([], false)
    else if b.family.getD 0 0 ≠ 0 then ([], false)
    else if b.family.getD 1 0 ≠ 1 ∧ b.family.getD 1 0 ≠ 2 then ([], false)
    else if b.addresses = [] then ([], false)
    else
      match roaAddrs h r asn (b.family.getD 1 0) b.addresses with
      | (vs, false) => (vs, false)
      | (vs, true) => (vs ++ (roaBlocks h r asn bs).1, (roaBlocks h r asn bs).2)

/-- The version check of src/object/roa.c:146-245 `__handle_roa`. -/
def roaVersionBad : Option (List Byte) → Bool
  | none => false
  | some v => integer2ulong v ≠ some 0

/-- src/object/roa.c:146-245 `__handle_roa`: the VRPs given to the database, in order, and whether the function
succeeded. -/
def handleRoa (h : Heap) (r : Resources) (roa : Roa) : List Vrp × Bool :=
  if roaVersionBad roa.version then ([], false)
  else
    match integer2ulong roa.asId with
    | none => ([], false)
    | some asn =>
      if asn > 0xFFFFFFFF then ([], false)
      else if roa.blocks = [] then ([], false)
      else roaBlocks h r asn roa.blocks

/-- The ROA file: its content when it decodes and the CRL of the publication point is available; whether all checks of
`signed_object_validate` before the resources succeed; policy and extensions of its certificate; whether
`refs_validate_ee` succeeds. -/
structure RoaFile where
  content : Option Roa
  envelopeOk : Bool
  policy : Policy
  exts : List Ext
  refsOk : Bool

/-- src/object/roa.c:247-295 `roa_traverse`; `top` is the certificate that signed the certificate of the ROA. -/
def roaTraverse (h : Heap) (top : Resources) (f : RoaFile) : Heap × List Vrp × Out :=
  match f.content with
  | none => (h, [], .err)
  | some roa =>
    if !f.envelopeOk then (h, [], .err)
    else
      match certificateGetResources h (Resources.create f.policy false) (some top) f.exts .ee with
      | (h', r, .ok) =>
        match handleRoa h' r roa with
        | (vs, false) => (h', vs, .err)
        | (vs, true) => (h', vs, if f.refsOk then .ok else .err)
      | (h', _, o) => (h', [], o)

end Verif.Res
