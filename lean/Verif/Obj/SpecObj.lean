import Verif.Obj.SpecEnc
/-
What issuers mean, and how they write it: ROAs (RFC 6482), the resources of certificates (RFC 3779) and manifests (RFC 6486). Numbers and
addresses are natural numbers.
-/
namespace Verif.Obj
open Verif.Res (Byte)

/-- The number of bits of an address. -/
def width (v6 : Bool) : Nat := if v6 then 128 else 32

/-- The two octets of an address family: 1 is IPv4, 2 is IPv6. -/
def familyOctets (v6 : Bool) : List Byte := [0, if v6 then 2 else 1]

/-! ### ROAs -/

structure RoaPrefix where
  addr : Nat
  len : Nat
  maxLength : Option Nat
  deriving DecidableEq, Repr

structure RoaFamily where
  v6 : Bool
  prefixes : List RoaPrefix
  deriving DecidableEq, Repr

/-- A statement that an AS may originate these prefixes. -/
structure RoaSpec where
  asn : Nat
  families : List RoaFamily
  deriving DecidableEq, Repr

/-- Validated ROA payload: what routers are told. -/
structure VrpSpec where
  asn : Nat
  v6 : Bool
  addr : Nat
  len : Nat
  maxLength : Nat
  deriving DecidableEq, Repr

def RoaPrefix.Valid (w : Nat) (p : RoaPrefix) : Prop :=
  p.len ≤ w ∧ p.addr < 2 ^ w ∧ 2 ^ (w - p.len) ∣ p.addr ∧ ∀ m, p.maxLength = some m → p.len ≤ m ∧ m ≤ w

def RoaSpec.Valid (o : RoaSpec) : Prop :=
  o.asn < 2 ^ 32 ∧ o.families ≠ [] ∧ ∀ f ∈ o.families, f.prefixes ≠ [] ∧ ∀ p ∈ f.prefixes, p.Valid (width f.v6)

/-- One for each prefix, in order. -/
def RoaSpec.vrps (o : RoaSpec) : List VrpSpec :=
  o.families.flatMap fun f => f.prefixes.map fun p => ⟨o.asn, f.v6, p.addr, p.len, p.maxLength.getD p.len⟩

/-- RFC 6482, 3: ROAIPAddress -/
def RoaPrefix.enc (w : Nat) (p : RoaPrefix) : List Byte :=
  derSeq (derPrefix w p.addr p.len ++ match p.maxLength with | none => [] | some m => derInt m)

/-- RFC 6482, 3: ROAIPAddressFamily -/
def RoaFamily.enc (f : RoaFamily) : List Byte :=
  derSeq (derOctets (familyOctets f.v6) ++ derSeq (f.prefixes.flatMap (RoaPrefix.enc (width f.v6))))

/-- RFC 6482, 3: RouteOriginAttestation. (The version is 0, which is the default, and left out.) -/
def RoaSpec.enc (o : RoaSpec) : List Byte := derSeq (derInt o.asn ++ derSeq (o.families.flatMap RoaFamily.enc))

/-! ### Resources -/

/-- The number of zeros at the end of a number, up to `w`. -/
def trailing : Nat → Nat → Nat
  | 0, _ => 0
  | w + 1, n => if n % 2 = 0 then trailing w (n / 2) + 1 else 0

/-- Addresses: a prefix, or from one to another. -/
inductive IpRes where
  | pfx (addr len : Nat)
  | range (min max : Nat)
  deriving DecidableEq, Repr

def IpRes.rng (w : Nat) : IpRes → Res.Rng
  | .pfx addr len => ⟨addr, addr + (2 ^ (w - len) - 1)⟩
  | .range min max => ⟨min, max⟩

/-- RFC 3779, 2.2.3.7: what can be a prefix must be one. -/
def IpRes.Valid (w : Nat) : IpRes → Prop
  | .pfx addr len => len ≤ w ∧ addr < 2 ^ w ∧ 2 ^ (w - len) ∣ addr
  | .range min max => min ≤ max ∧ max < 2 ^ w ∧ ¬ ∃ len, Res.IsPrefix w len min max

/-- RFC 3779, 2.2.3.8 and 2.2.3.9: zeros at the end of the lowest address are left out, and ones at the end of the highest. -/
def IpRes.enc (w : Nat) : IpRes → List Byte
  | .pfx addr len => derPrefix w addr len
  | .range min max =>
    derSeq (derPrefix w min (w - trailing w min) ++
      derPrefix w (max + 1 - 2 ^ trailing w (max + 1)) (w - trailing w (max + 1)))

/-- The addresses of a family; none is "inherit". -/
structure IpFam where
  v6 : Bool
  res : Option (List IpRes)
  deriving DecidableEq, Repr

/-- RFC 3779, 2.2.3.3 -/
def IpFam.enc (f : IpFam) : List Byte :=
  derSeq (derOctets (familyOctets f.v6) ++
    match f.res with | none => derNull | some l => derSeq (l.flatMap (IpRes.enc (width f.v6))))

/-- RFC 3779, 2.2.3.2: IPAddrBlocks -/
def encIp (l : List IpFam) : List Byte := derSeq (l.flatMap IpFam.enc)

/-- AS numbers: one, or from one to another. -/
inductive AsRes where
  | one (n : Nat)
  | range (min max : Nat)
  deriving DecidableEq, Repr

def AsRes.rng : AsRes → Res.Rng
  | .one n => ⟨n, n⟩
  | .range min max => ⟨min, max⟩

def AsRes.Valid : AsRes → Prop
  | .one n => n < 2 ^ 32
  | .range min max => min ≤ max ∧ max < 2 ^ 32

def AsRes.enc : AsRes → List Byte
  | .one n => derInt n
  | .range min max => derSeq (derInt min ++ derInt max)

/-- RFC 3779, 3.2.3: ASIdentifiers, with AS numbers only; none is "inherit". -/
def encAs (l : Option (List AsRes)) : List Byte :=
  derSeq (tlv 0xA0 (match l with | none => derNull | some l => derSeq (l.flatMap AsRes.enc)))

/-! ### Manifests -/

/-- One file: the name, and the hash. -/
structure FileSpec where
  name : List Byte
  hash : List Byte
  deriving DecidableEq, Repr

/-- The dates are texts (GeneralizedTime). -/
structure MftSpec where
  number : Nat
  thisUpdate : List Byte
  nextUpdate : List Byte
  files : List FileSpec
  deriving DecidableEq, Repr

/-- 2.16.840.1.101.3.4.2.1 (RFC 5754) -/
def sha256Oid : List Byte := [0x60, 0x86, 0x48, 1, 0x65, 3, 4, 2, 1]

def FileSpec.enc (f : FileSpec) : List Byte := derSeq (tlv 0x16 f.name ++ tlv 3 (0 :: f.hash))

/-- RFC 6486, 4.2. (The version is 0, which is the default, and left out.) -/
def MftSpec.enc (m : MftSpec) : List Byte :=
  derSeq (derInt m.number ++ (tlv 0x18 m.thisUpdate ++ (tlv 0x18 m.nextUpdate ++ (tlv 6 sha256Oid ++ derSeq (m.files.flatMap FileSpec.enc)))))

end Verif.Obj
