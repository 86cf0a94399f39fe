import Verif.Sys.Model
import Verif.Res.SetLemmas
/-
What the resources of a certificate are, and which VRPs a ROA yields: by value, in terms of numbers, without pointers.
-/
namespace Verif.Sys
open Verif.Tree Verif.Res

/-- Resources by value: ranges of numbers. An empty list: none of this kind. -/
structure Vals where
  ip4 : List Rng
  ip6 : List Rng
  asn : List Rng

/-- What a certificate says of one kind of resources; an element that cannot be decoded is `none`. -/
inductive Says where
  | inherits
  | lists (l : List (Option Rng))

/-- The issuer has the whole range. A trust anchor's issuer (`none`) has everything. -/
def Has (issuer : Option (List Rng)) (x : Rng) : Prop := ∀ l, issuer = some l → ∀ n, x.Has n → Covered l n

open Classical in
/-- A certificate that says so has these resources of one kind. Inherited ones are the issuer's. Listed ones are those that the issuer
has entirely (RFC 8360); if the policy is that of RFC 6484, the issuer has all of them. `force`: it has to inherit. -/
def Grants (issuer : Option (List Rng)) (policy : Policy) (force : Bool) (own : List Rng) : Says → Prop
  | .inherits => issuer = some own
  | .lists l => force = false ∧ l ≠ [] ∧ issuer ≠ some [] ∧ ∃ xs, l = xs.map some ∧
      own = xs.filter (fun x => decide (Has issuer x)) ∧ (policy = .rfc6484 → own = xs) ∧ Canonical own

/-- What a choice of addresses says. -/
def ipMeaning (decode : AddrOrRange → Option Rng) : IpChoice → Option Says
  | .nothing => none
  | .inherit => some .inherits
  | .aors l => some (.lists (l.map decode))

/-- What a choice of AS numbers says; `allow`: it is permitted to inherit. -/
def asMeaning (allow : Bool) : AsChoice → Option Says
  | .nothing => none
  | .inherit => if allow then some .inherits else none
  | .list l => some (.lists (l.map fun e => (decodeAs e).map R32.rng))

/-- The range of an element of IPv4, of IPv6. -/
def range4 (e : AddrOrRange) : Option Rng := (decode4 e).map R32.rng
def range6 (e : AddrOrRange) : Option Rng := (decode6 e).map R6.rng

/-- A certificate with this IP extension has these addresses: IPv4 first, at most once each. -/
def GrantsIp (issuer : Option Vals) (policy : Policy) (force : Bool) (v : Vals) (blocks : List IpBlock) : Prop :=
  (∃ c w, blocks = [⟨[0, 1], c⟩] ∧ ipMeaning range4 c = some w ∧
    Grants (issuer.map (·.ip4)) policy force v.ip4 w ∧ v.ip6 = []) ∨
  (∃ c w, blocks = [⟨[0, 2], c⟩] ∧ ipMeaning range6 c = some w ∧
    Grants (issuer.map (·.ip6)) policy force v.ip6 w ∧ v.ip4 = []) ∨
  (∃ c d w w', blocks = [⟨[0, 1], c⟩, ⟨[0, 2], d⟩] ∧ ipMeaning range4 c = some w ∧ ipMeaning range6 d = some w' ∧
    Grants (issuer.map (·.ip4)) policy force v.ip4 w ∧ Grants (issuer.map (·.ip6)) policy force v.ip6 w')

/-- A certificate with this AS number extension has these AS numbers. -/
def GrantsAs (issuer : Option Vals) (policy : Policy) (force allow : Bool) (v : Vals) (ids : AsIds) : Prop :=
  ids.rdi = false ∧ ∃ c w, ids.asnum = some c ∧ asMeaning allow c = some w ∧ Grants (issuer.map (·.asn)) policy force v.asn w

/-- The IP extensions, and the AS number extensions. -/
def ips (exts : List Ext) : List (Bool × Option (List IpBlock)) :=
  exts.filterMap fun | .ip critical b => some (critical, b) | _ => none
def ases (exts : List Ext) : List (Bool × Option AsIds) :=
  exts.filterMap fun | .asn critical b => some (critical, b) | _ => none

/-- A certificate with these extensions has these resources (and is acceptable as far as resources go): at most one extension of each
kind, at least one, all critical, none of the other policy. -/
def GrantsAll (issuer : Option Vals) (policy : Policy) (force allow : Bool) (exts : List Ext) (v : Vals) : Prop :=
  Ext.badPolicy ∉ exts ∧ (ips exts ≠ [] ∨ ases exts ≠ []) ∧
  ((ips exts = [] ∧ v.ip4 = [] ∧ v.ip6 = []) ∨ ∃ blocks, ips exts = [(true, some blocks)] ∧ GrantsIp issuer policy force v blocks) ∧
  ((ases exts = [] ∧ v.asn = []) ∨ ∃ ids, ases exts = [(true, some ids)] ∧ GrantsAs issuer policy force allow v ids)

/-- A certification authority's certificate; a trust anchor's is not empty. -/
def GrantsCa (issuer : Option Vals) (policy : Policy) (type : CertType) (exts : List Ext) (v : Vals) : Prop :=
  GrantsAll issuer policy false (type ≠ .bgpsec) exts v ∧ (type = .ta → ¬ (v.asn = [] ∧ v.ip4 = [] ∧ v.ip6 = []))

/-- What a ROA's address states, whatever the certificate: the prefix, and a maximum length between the prefix's and the address's. -/
def stated (asn : Nat) (family : Byte) (a : RoaAddr) : Option Vrp :=
  if family = 1 then
    (prefix4Decode a.address).bind fun p => (roaMaxLength 32 p.len a.maxLength).map fun n => .v4 (BitVec.ofNat 32 asn) p (BitVec.ofNat 8 n)
  else if family = 2 then
    (prefix6Decode a.address).bind fun p => (roaMaxLength 128 p.len a.maxLength).map fun n => .v6 (BitVec.ofNat 32 asn) p (BitVec.ofNat 8 n)
  else none

/-- The VRP's addresses are among these resources. -/
def Vrp.In (v : Vals) : Vrp → Prop
  | .v4 _ p _ => ∀ n, p.addr.toNat ≤ n → n ≤ p.addr.toNat + (2 ^ (32 - p.len) - 1) → Covered v.ip4 n
  | .v6 _ p _ => ∀ n, be p.addr ≤ n → n ≤ be p.addr + (2 ^ (128 - p.len) - 1) → Covered v.ip6 n

/-- The addresses of a ROA in order, with those blocks that are not acceptable as addresses that state nothing. -/
def items (asn : Nat) (blocks : List RoaBlock) : List (Option Vrp) :=
  blocks.flatMap fun b =>
    if (b.family = [0, 1] ∨ b.family = [0, 2]) ∧ b.addresses ≠ [] then b.addresses.map (stated asn (b.family.getD 1 0)) else [none]

open Classical in
/-- The VRPs of a ROA whose certificate has these resources: those of its addresses up to the first one that is not acceptable. -/
noncomputable def roaVrps (v : Vals) (roa : Roa) : List Vrp :=
  if (roa.version = none ∨ ∃ b, roa.version = some b ∧ be b = 0) ∧ be roa.asId < 2 ^ 32 then
    ((items (be roa.asId) roa.blocks).takeWhile fun o => decide (∃ x, o = some x ∧ Vrp.In v x)).filterMap id
  else []

open Classical in
/-- The resources that are granted, if there are any. (There is only one answer: `GrantsAll.unique`.) -/
noncomputable def grant (spec : Vals → Prop) : Option Vals := if h : ∃ v, spec v then some h.choose else none

/-- The VRPs of a ROA file: none unless its content decodes, its signature is fine, and the issuer grants its certificate resources. -/
noncomputable def roaFileVrps (issuer : Vals) (f : RoaFile) : List Vrp :=
  match f.content, f.envelopeOk, grant (GrantsAll (some issuer) f.policy false true f.exts) with
  | some roa, true, some v => roaVrps v roa
  | _, _, _ => []

variable {ρ U X C S : Type}

/-- The same trust anchor, by value: certificates carry their resources, there is no memory. The state is what is not modelled, and the
VRPs. -/
noncomputable def Pki.byValue (p : Pki ρ U X C S) : Env (ρ × List Vrp) U X C Vals S where
  maxDepth := p.maxDepth
  isCert := p.isCert
  crlLoad m u := (((p.crlLoad m.1 u).1, m.2), (p.crlLoad m.1 u).2)
  load m u := (((p.load m.1 u).1, m.2), (p.load m.1 u).2)
  chainOk m x c xs := (((p.chainOk m.1 x c xs).1, m.2), (p.chainOk m.1 x c xs).2)
  certType := p.certType
  profileOk m x t := (((p.profileOk m.1 x t).1, m.2), (p.profileOk m.1 x t).2)
  keyState m := p.keyState m.1
  extensions m x t u := (((p.extensions m.1 x t u).1, m.2), (p.extensions m.1 x t u).2)
  download m sia := (((p.download m.1 sia).1, m.2), (p.download m.1 sia).2)
  resources m x _ t issuer := (m, grant (GrantsCa issuer (p.policy x) (resType t) (p.exts x)))
  mftDecode m sia d := (((p.mftDecode m.1 sia d).1, m.2), (p.mftDecode m.1 sia d).2)
  mftOk m sia d lists c xs issuer :=
    let (s, f) := p.mftFile m.1 sia d lists c xs
    ((s, m.2), f.ok && (grant (GrantsAll (some issuer) f.policy false true f.exts)).isSome)
  roaDecode m u := (((p.roaDecode m.1 u).1, m.2), (p.roaDecode m.1 u).2)
  gbrDecode m u := (((p.gbrDecode m.1 u).1, m.2), (p.gbrDecode m.1 u).2)
  roa m u crl c xs issuer :=
    let (s, f) := p.roaFile m.1 u crl c xs
    (s, m.2 ++ roaFileVrps issuer f)
  gbr m u crl c xs _ := ((p.gbrFile m.1 u crl c xs).1, m.2)

end Verif.Sys
