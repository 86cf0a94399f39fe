import Verif.Slurm.Spec
/-
Specification of the members of a SLURM file (RFC 8416, section 3).
-/
namespace Verif.Slurm
open Verif.Res (Byte)
open Verif.Rtr (Fam)

/-- No member name appears twice (jansson's JSON_REJECT_DUPLICATES). -/
def Distinct (o : List (String × Json)) : Prop := (o.map Prod.fst).Nodup

/-- The text has a first and a second field separated by "/"; the first is an address `inet_pton` accepts, and `strtoul`
reads the length in the second. Nothing else is required: the code also accepts leading slashes, further fields, and
anything after the digits of the length. -/
def PrefixText (env : Env) (s : List Byte) (p : Pfx) : Prop :=
  ∃ pre tok seps ltok rest, s = pre ++ tok ++ seps ++ ltok ++ rest ∧
    (∀ b ∈ pre, b = 0x2F) ∧ (∀ b ∈ seps, b = 0x2F) ∧ seps ≠ [] ∧
    (∀ b ∈ tok, b ≠ 0x2F) ∧ tok ≠ [] ∧ (∀ b ∈ ltok, b ≠ 0x2F) ∧ ltok ≠ [] ∧
    (rest = [] ∨ rest.head? = some 0x2F) ∧
    strtoul ltok = some p.len ∧
    (match p.fam with
     | .v4 => 0x3A ∉ tok ∧ (env.pton4 tok).map BitVec.toNat = some p.addr
     | .v6 => 0x3A ∈ tok ∧ (env.pton6 tok).map BitVec.toNat = some p.addr)

/-- The members of a prefix filter or assertion. -/
structure PfxMembers where
  asn : Option (BitVec 32)
  pfx : Option Pfx
  max : Option Nat
  comment : Bool

/-- The object has these members, with these values. -/
structure PfxMembers.Of (env : Env) (o : List (String × Json)) (m : PfxMembers) : Prop where
  asn : match m.asn with
    | none => o.lookup "asn" = none
    | some a => o.lookup "asn" = some (.int a.toNat)
  pfx : match m.pfx with
    | none => o.lookup "prefix" = none
    | some p => ∃ s, o.lookup "prefix" = some (.str s) ∧ PrefixText env s p ∧ p.Proper
  max : match m.max with
    | none => o.lookup "maxPrefixLength" = none
    | some n => o.lookup "maxPrefixLength" = some (.int n)
  comment : if m.comment then ∃ s, o.lookup "comment" = some (.str s) else o.lookup "comment" = none

/-- RFC 8416, sections 3.3.1 (filters) and 3.4.1 (assertions). -/
def PfxMembers.Valid (m : PfxMembers) (isAssertion : Bool) : Prop :=
  if isAssertion then
    m.asn ≠ none ∧ ∃ p, m.pfx = some p ∧ ∀ n, m.max = some n → p.len ≤ n ∧ n ≤ width p.fam
  else m.max = none ∧ (m.asn ≠ none ∨ m.pfx ≠ none)

/-- The text is base64url without padding; `d` is what it stands for (the base64 decoder is a parameter). -/
def B64Text (env : Env) (s d : List Byte) : Prop :=
  0x3D ∉ s ∧ d ≠ [] ∧
    env.b64 (s.map (fun b => if b = 0x2D then 0x2B else if b = 0x5F then 0x2F else b) ++
      List.replicate ((4 - s.length % 4) % 4) 0x3D) = some d

/-- The members of a BGPsec filter or assertion. -/
structure BgpsMembers where
  asn : Option (BitVec 32)
  ski : Option (List Byte)
  key : Option (List Byte)
  comment : Bool

/-- The object has these members, with these values. -/
structure BgpsMembers.Of (env : Env) (o : List (String × Json)) (m : BgpsMembers) : Prop where
  asn : match m.asn with
    | none => o.lookup "asn" = none
    | some a => o.lookup "asn" = some (.int a.toNat)
  ski : match m.ski with
    | none => o.lookup "SKI" = none
    | some d => ∃ s, o.lookup "SKI" = some (.str s) ∧ B64Text env s d ∧ d.length = 20
  key : match m.key with
    | none => o.lookup "routerPublicKey" = none
    | some d => ∃ s, o.lookup "routerPublicKey" = some (.str s) ∧ B64Text env s d ∧ env.spkiOk d = true
  comment : if m.comment then ∃ s, o.lookup "comment" = some (.str s) else o.lookup "comment" = none

/-- RFC 8416, sections 3.3.2 (filters) and 3.4.2 (assertions). -/
def BgpsMembers.Valid (m : BgpsMembers) (isAssertion : Bool) : Prop :=
  if isAssertion then m.asn ≠ none ∧ m.ski ≠ none ∧ m.key ≠ none
  else m.key = none ∧ (m.asn ≠ none ∨ m.ski ≠ none)

end Verif.Slurm
