import Verif.Slurm.ModelParser
/-
Specification of SLURM (RFC 8416), independent of the code: prefixes are sets of numbers, rules have optional members.
-/
namespace Verif.Slurm
open Verif.Res (Byte)
open Verif.Rtr (Fam Vrp RouterKey Table)

/-- Number of bits of an address. -/
def width : Fam → Nat
  | .v4 => 32
  | .v6 => 128

/-- An IP prefix. -/
structure Pfx where
  fam : Fam
  addr : Nat
  len : Nat
  deriving DecidableEq, Repr

/-- The address is one of the prefix: it has the same first `len` bits. -/
def Pfx.Has (p : Pfx) (n : Nat) : Prop :=
  n < 2 ^ width p.fam ∧ n / 2 ^ (width p.fam - p.len) = p.addr / 2 ^ (width p.fam - p.len)

/-- Every address of the second prefix is an address of the first. -/
def Pfx.Covers (p q : Pfx) : Prop := p.fam = q.fam ∧ ∀ n, q.Has n → p.Has n

/-- There is an address that both contain. -/
def Pfx.Overlap (p q : Pfx) : Prop := p.fam = q.fam ∧ ∃ n, p.Has n ∧ q.Has n

/-- A proper prefix: the length fits, and the bits after the length are zero. -/
def Pfx.Proper (p : Pfx) : Prop :=
  p.len ≤ width p.fam ∧ p.addr < 2 ^ width p.fam ∧ 2 ^ (width p.fam - p.len) ∣ p.addr

/-- The prefix of a VRP. -/
def pfxOf (v : Vrp) : Pfx := ⟨v.fam, v.prefix_.toNat, v.len.toNat⟩

/-- The "asn" member of a stored rule. -/
def SPrefix.asn? (r : SPrefix) : Option (BitVec 32) := if r.flag.getLsbD 0 then some r.asn else none
/-- The "prefix" member of a stored rule. -/
def SPrefix.pfx? (r : SPrefix) : Option Pfx :=
  if r.flag.getLsbD 2 then r.fam.map (fun f => ⟨f, r.prefix_.toNat, r.len.toNat⟩) else none
/-- The "maxPrefixLength" member of a stored rule. -/
def SPrefix.maxLen? (r : SPrefix) : Option Nat := if r.flag.getLsbD 3 then some r.maxLen.toNat else none

/-- RFC 8416, section 3.3.1: the filter removes the VRP when every member it has matches. -/
def SPrefix.Matches (f : SPrefix) (v : Vrp) : Prop :=
  (∀ a, f.asn? = some a → v.asn = a) ∧ (∀ p, f.pfx? = some p → p.Covers (pfxOf v))

/-- A stored prefix filter: an ASN, a prefix, or both, and no maximum length. -/
structure SPrefix.IsFilter (f : SPrefix) : Prop where
  some_member : f.asn? ≠ none ∨ f.pfx? ≠ none
  no_max : f.maxLen? = none
  fam : f.flag.getLsbD 2 = true → f.fam ≠ none
  proper : ∀ p, f.pfx? = some p → p.Proper
  high : f.flag.toNat < 16

/-- A stored prefix assertion: an ASN, a prefix, and possibly a maximum length in the range RFC 8416 gives. -/
structure SPrefix.IsAssertion (f : SPrefix) : Prop where
  asn : f.asn? ≠ none
  pfx : ∃ p, f.pfx? = some p ∧ p.Proper ∧ ∀ m, f.maxLen? = some m → p.len ≤ m ∧ m ≤ width p.fam

/-- The VRP an assertion stands for: without "maxPrefixLength", the length of the prefix. -/
def SPrefix.IsVrp (f : SPrefix) (v : Vrp) : Prop :=
  f.asn? = some v.asn ∧ f.pfx? = some (pfxOf v) ∧ v.maxLen.toNat = f.maxLen?.getD v.len.toNat

/-- The "asn" member of a stored BGPsec rule. -/
def SBgpsec.asn? (r : SBgpsec) : Option (BitVec 32) := if r.flag.getLsbD 0 then some r.asn else none
/-- The "SKI" member of a stored BGPsec rule, 20 bytes. -/
def SBgpsec.ski? (r : SBgpsec) : Option (List Byte) := if r.flag.getLsbD 2 then some (r.ski.take 20) else none

/-- RFC 8416, section 3.3.2. -/
def SBgpsec.Matches (f : SBgpsec) (k : RouterKey) : Prop :=
  (∀ a, f.asn? = some a → k.as = a) ∧ (∀ s, f.ski? = some s → k.ski = s)

/-- A stored BGPsec filter. -/
structure SBgpsec.IsFilter (f : SBgpsec) : Prop where
  some_member : f.asn? ≠ none ∨ f.ski? ≠ none
  no_key : f.flag.getLsbD 3 = false
  high : f.flag.toNat < 16

/-- A stored BGPsec assertion: ASN, SKI and key, both blocks at least as long as what is read of them. -/
structure SBgpsec.IsAssertion (f : SBgpsec) : Prop where
  asn : f.asn? ≠ none
  ski : f.ski? ≠ none
  skiLen : 20 ≤ f.ski.length
  spkLen : 91 ≤ f.spk.length

/-- All rules of a loaded SLURM are as RFC 8416 wants. -/
structure Lists.WF (l : Lists) : Prop where
  filterPfx : ∀ f ∈ l.filterPfx, f.IsFilter
  assertPfx : ∀ f ∈ l.assertPfx, f.IsAssertion
  filterBgps : ∀ f ∈ l.filterBgps, f.IsFilter
  assertBgps : ∀ f ∈ l.assertBgps, f.IsAssertion

end Verif.Slurm
