import Verif.Res.ModelSet
/-
Model of the resources of certificates. Files modelled: src/resource.c, the resource part of
src/object/certificate.c, and the part of src/cert_stack.c that pushes a certificate.

Resource sets are shared by pointer between a certificate that inherits and its issuer, and the code compares these
pointers. The sets are therefore kept in a heap (one per kind); a pointer is an index, NULL is `none`. Freed sets are not
reclaimed (reference counts are not modelled).
-/
namespace Verif.Res

/-- `enum rpki_policy`. -/
inductive Policy | rfc6484 | rfc8360
  deriving DecidableEq, Repr

/-- How a function of src/resource.c ends: 0, an error, or `pr_crit` (the process aborts). -/
inductive Out | ok | err | crit
  deriving DecidableEq, Repr

/-- Sets of one kind. -/
abbrev Sets (α : Type) := List (List α)

/-- The set behind a pointer. -/
def Sets.deref {α} (h : Sets α) (p : Option Nat) : Option (List α) :=
  match p with
  | none => none
  | some i => h[i]?

/-- Sets of all kinds. -/
structure Heap where
  h4 : Sets R32
  h6 : Sets R6
  ha : Sets R32
  deriving DecidableEq

/-- `struct resources` (src/resource.c:12-27). -/
structure Resources where
  ip4 : Option Nat
  ip6 : Option Nat
  asn : Option Nat
  policy : Policy
  forceInherit : Bool
  deriving DecidableEq, Repr

/-- src/resource.c:28-42 `resources_create`. -/
def Resources.create (policy : Policy) (forceInherit : Bool) : Resources :=
  { ip4 := none, ip6 := none, asn := none, policy, forceInherit }

/-- `parent && !res4_contains_prefix(parent->ip4s, ...)` of src/resource.c:119-159 `add_prefix4` and its siblings,
negated; an issuer that does not exist (trust anchor) has everything. -/
def issuerHas {α} (cmp : α → α → Cmp) (h : Sets α) (parent : Option (Option Nat)) (x : α) : Option Bool :=
  match parent with
  | none => some true
  | some p => sarrayContains cmp (h.deref p) x

/-- What src/resource.c:119-159 `add_prefix4`, src/resource.c:161-201 `add_prefix6`,
src/resource.c:217-258 `add_range4`, src/resource.c:260-301 `add_range6` and (with its part of
src/resource.c:462-496 `add_asior`) src/resource.c:423-460 `add_asn` have in common. `own` is the pointer of the
certificate, `parent` that of the issuer (outer `none`: there is no issuer), `dec` the decoded element, `none` when
decoding failed. An undefined array access of the lookup would be `crit` (it does not happen, see C24). -/
def addElem {α} (cmp : α → α → Cmp) (h : Sets α) (own : Option Nat) (parent : Option (Option Nat)) (policy : Policy)
    (dec : Option α) : Sets α × Option Nat × Out :=
  if parent = some own then (h, own, .err)
  else match dec with
    | none => (h, own, .err)
    | some x =>
      match issuerHas cmp h parent x with
      | none => (h, own, .crit)
      | some false =>
        match policy with
        | .rfc6484 => (h, own, .err)
        | .rfc8360 => (h, own, .ok)
      | some true =>
        let r : Sets α × Nat := match own with
          | none => (h ++ [[]], h.length)
          | some i => (h, i)
        match r.1[r.2]? with
        | none => (r.1, some r.2, .crit)
        | some l =>
          match sarrayAdd cmp l x with
          | none => (r.1, some r.2, .err)
          | some l' => (r.1.set r.2 l', some r.2, .ok)

/-- `IPAddressOrRange`. -/
inductive AddrOrRange
  | pfx (s : BitStr)
  | range (min max : BitStr)
  | nothing
  deriving DecidableEq, Repr

/-- `ipAddressChoice` of `IPAddressFamily`. -/
inductive IpChoice
  | nothing
  | inherit
  | aors (l : List AddrOrRange)
  deriving DecidableEq, Repr

/-- Decoding of an IPv4 element: the range of src/resource.c:119-159 `add_prefix4` or
src/resource.c:217-258 `add_range4`, as stored by src/resource/ip4.c. -/
def decode4 : AddrOrRange → Option R32
  | .pfx s => (prefix4Decode s).map pton4
  | .range a b => range4Decode a b
  | .nothing => none

/-- Decoding of an IPv6 element. -/
def decode6 : AddrOrRange → Option R6
  | .pfx s => (prefix6Decode s).map ptor6
  | .range a b => range6Decode a b
  | .nothing => none

/-- A loop that adds elements until one fails: src/resource.c:317-353 `add_aors`,
src/resource.c:498-519 `add_asiors`. -/
def addLoop {α β} (cmp : α → α → Cmp) (decode : β → Option α) (parent : Option (Option Nat)) (policy : Policy) :
    List β → Sets α → Option Nat → Sets α × Option Nat × Out
  | [], h, own => (h, own, .ok)
  | e :: es, h, own =>
    match addElem cmp h own parent policy (decode e) with
    | (h', own', .ok) => addLoop cmp decode parent policy es h' own'
    | r => r

/-- src/resource.c:317-353 `add_aors` and src/resource.c:498-519 `add_asiors`. -/
def addList {α β} (cmp : α → α → Cmp) (decode : β → Option α) (parent : Option (Option Nat)) (policy : Policy)
    (force : Bool) (es : List β) (h : Sets α) (own : Option Nat) : Sets α × Option Nat × Out :=
  if force then (h, own, .err)
  else if es.length = 0 then (h, own, .err)
  else addLoop cmp decode parent policy es h own

/-- src/resource.c:86-117 `inherit_aors` (one family) and src/resource.c:379-396 `inherit_asiors`. -/
def inheritSet {α} (parent : Option (Option Nat)) (h : Sets α) (own : Option Nat) : Sets α × Option Nat × Out :=
  match parent with
  | none => (h, own, .crit)
  | some p => if own ≠ none then (h, own, .err) else (h, p, .ok)

/-- Address family: the two octets of src/resource.c:56-78 `get_addr_family`. -/
inductive Family | ip4 | ip6 | bad
  deriving DecidableEq, Repr

/-- src/resource.c:56-78 `get_addr_family`. -/
def getAddrFamily (octets : List Byte) : Family :=
  if octets.length ≠ 2 then .bad
  else if octets.getD 0 0 ≠ 0 then .bad
  else if octets.getD 1 0 = 1 then .ip4
  else if octets.getD 1 0 = 2 then .ip6
  else .bad

/-- `IPAddressFamily`. -/
structure IpBlock where
  family : List Byte
  choice : IpChoice
  deriving DecidableEq, Repr

/-- src/resource.c:355-377 `resources_add_ip`. -/
def resourcesAddIp (h : Heap) (r : Resources) (parent : Option Resources) (b : IpBlock) : Heap × Resources × Out :=
  match getAddrFamily b.family with
  | .bad => (h, r, .err)
  | .ip4 =>
    match b.choice with
    | .nothing => (h, r, .err)
    | .inherit =>
      let o := inheritSet (parent.map (·.ip4)) h.h4 r.ip4
      ({ h with h4 := o.1 }, { r with ip4 := o.2.1 }, o.2.2)
    | .aors l =>
      let o := addList cmp32 decode4 (parent.map (·.ip4)) r.policy r.forceInherit l h.h4 r.ip4
      ({ h with h4 := o.1 }, { r with ip4 := o.2.1 }, o.2.2)
  | .ip6 =>
    match b.choice with
    | .nothing => (h, r, .err)
    | .inherit =>
      let o := inheritSet (parent.map (·.ip6)) h.h6 r.ip6
      ({ h with h6 := o.1 }, { r with ip6 := o.2.1 }, o.2.2)
    | .aors l =>
      let o := addList cmp6 decode6 (parent.map (·.ip6)) r.policy r.forceInherit l h.h6 r.ip6
      ({ h with h6 := o.1 }, { r with ip6 := o.2.1 }, o.2.2)

/-- src/asn1/asn1c/INTEGER.c `asn_INTEGER2umax` and `asn_INTEGER2ulong` (unsigned long has 64 bits): leading zero
bytes beyond eight are dropped, another leading byte is an error; then the bytes are read as an unsigned number. -/
def integer2ulong (b : List Byte) : Option Nat :=
  if (b.take (b.length - 8)).any (· ≠ 0) then none
  else some ((b.drop (b.length - 8)).foldl (fun v x => (v * 256 + x.toNat) % 2 ^ 64) 0)

/-- src/resource.c:398-421 `ASId2u32`. -/
def asId2u32 (b : List Byte) : Option (BitVec 32) :=
  match integer2ulong b with
  | none => none
  | some n => if n > 0xFFFFFFFF then none else some (BitVec.ofNat 32 n)

/-- `ASIdOrRange`; the integers are their encodings. -/
inductive AsIdOrRange
  | nothing
  | id (b : List Byte)
  | range (min max : List Byte)
  deriving DecidableEq, Repr

/-- The decoding part of src/resource.c:462-496 `add_asior`, with the order check of
src/resource.c:423-460 `add_asn`. -/
def decodeAs : AsIdOrRange → Option R32
  | .nothing => none
  | .id b => (asId2u32 b).map (fun n => ⟨n, n⟩)
  | .range a b =>
    match asId2u32 a with
    | none => none
    | some min =>
      match asId2u32 b with
      | none => none
      | some max => if min > max then none else some ⟨min, max⟩

/-- `ASIdentifierChoice`. -/
inductive AsChoice
  | nothing
  | inherit
  | list (l : List AsIdOrRange)
  deriving DecidableEq, Repr

/-- `ASIdentifiers`. -/
structure AsIds where
  asnum : Option AsChoice
  rdi : Bool
  deriving DecidableEq, Repr

/-- src/resource.c:521-543 `resources_add_asn`. -/
def resourcesAddAsn (h : Heap) (r : Resources) (parent : Option Resources) (ids : AsIds) (allowInherit : Bool) :
    Heap × Resources × Out :=
  match ids.asnum with
  | none => (h, r, .err)
  | some c =>
    if ids.rdi then (h, r, .err)
    else match c with
      | .nothing => (h, r, .err)
      | .inherit =>
        if !allowInherit then (h, r, .err)
        else
          let o := inheritSet (parent.map (·.asn)) h.ha r.asn
          ({ h with ha := o.1 }, { r with asn := o.2.1 }, o.2.2)
      | .list l =>
        let o := addList cmp32 decodeAs (parent.map (·.asn)) r.policy r.forceInherit l h.ha r.asn
        ({ h with ha := o.1 }, { r with asn := o.2.1 }, o.2.2)

/-! ### Extensions -/

/-- The loop of src/object/certificate.c:1090-1137 `handle_ip_extension`. -/
def addBlocks (parent : Option Resources) : List IpBlock → Heap → Resources → Heap × Resources × Out
  | [], h, r => (h, r, .ok)
  | b :: bs, h, r =>
    match resourcesAddIp h r parent b with
    | (h', r', .ok) => addBlocks parent bs h' r'
    | x => x

/-- src/object/certificate.c:1090-1137 `handle_ip_extension`; `none` when the extension does not decode. -/
def handleIpExtension (h : Heap) (r : Resources) (parent : Option Resources) (blocks : Option (List IpBlock)) :
    Heap × Resources × Out :=
  match blocks with
  | none => (h, r, .err)
  | some [b] => addBlocks parent [b] h r
  | some [b, c] =>
    if getAddrFamily b.family ≠ .ip4 then (h, r, .err)
    else if getAddrFamily c.family ≠ .ip6 then (h, r, .err)
    else addBlocks parent [b, c] h r
  | some _ => (h, r, .err)

/-- src/object/certificate.c:1139-1157 `handle_asn_extension`. -/
def handleAsnExtension (h : Heap) (r : Resources) (parent : Option Resources) (ids : Option AsIds)
    (allowInherit : Bool) : Heap × Resources × Out :=
  match ids with
  | none => (h, r, .err)
  | some ids => resourcesAddAsn h r parent ids allowInherit

/-- An extension of a certificate, as src/object/certificate.c:1159-1220 `__certificate_get_resources` sees it under
the policy of the certificate: the resource extensions of this policy, those of the other policy, or any other. -/
inductive Ext
  | ip (critical : Bool) (blocks : Option (List IpBlock))
  | asn (critical : Bool) (ids : Option AsIds)
  | badPolicy
  | other
  deriving DecidableEq, Repr

/-- The loop of src/object/certificate.c:1159-1220 `__certificate_get_resources`. -/
def extLoop (parent : Option Resources) (allowInherit : Bool) :
    List Ext → Bool → Bool → Heap → Resources → Heap × Resources × Out
  | [], ipFound, asnFound, h, r => if !ipFound && !asnFound then (h, r, .err) else (h, r, .ok)
  | e :: es, ipFound, asnFound, h, r =>
    match e with
    | .ip critical blocks =>
      if ipFound then (h, r, .err)
      else if !critical then (h, r, .err)
      else match handleIpExtension h r parent blocks with
        | (h', r', .ok) => extLoop parent allowInherit es true asnFound h' r'
        | x => x
    | .asn critical ids =>
      if asnFound then (h, r, .err)
      else if !critical then (h, r, .err)
      else match handleAsnExtension h r parent ids allowInherit with
        | (h', r', .ok) => extLoop parent allowInherit es ipFound true h' r'
        | x => x
    | .badPolicy => (h, r, .err)
    | .other => extLoop parent allowInherit es ipFound asnFound h r

/-- `enum cert_type`. -/
inductive CertType | ta | ca | bgpsec | ee
  deriving DecidableEq, Repr

/-- src/object/certificate.c:1225-1246 `certificate_get_resources`. -/
def certificateGetResources (h : Heap) (r : Resources) (parent : Option Resources) (exts : List Ext) (type : CertType) :
    Heap × Resources × Out :=
  extLoop parent (type ≠ .bgpsec) exts false false h r

/-- `sarray_empty` behind a pointer (src/sorted_array.c:116-120 `sarray_empty`). -/
def emptySet {α} (h : Sets α) (p : Option Nat) : Bool :=
  match h.deref p with
  | none => true
  | some l => l.length = 0

/-- src/resource.c:545-551 `resources_empty`. -/
def resourcesEmpty (h : Heap) (r : Resources) : Bool :=
  emptySet h.ha r.asn && emptySet h.h4 r.ip4 && emptySet h.h6 r.ip6

/-- src/cert_stack.c:242-273 `init_resources`. -/
def initResources (h : Heap) (parent : Option Resources) (policy : Policy) (exts : List Ext) (type : CertType) :
    Heap × Resources × Out :=
  match certificateGetResources h (Resources.create policy false) parent exts type with
  | (h', r, .ok) => if type = .ta ∧ resourcesEmpty h' r then (h', r, .err) else (h', r, .ok)
  | x => x

end Verif.Res
