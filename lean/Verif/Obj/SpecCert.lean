import Verif.Obj.SpecObj
import Verif.Obj.Model
import Verif.Res.ResProps
/-
The resources of a certificate, as its issuer means them and writes them.
-/
namespace Verif.Obj
open Verif.Res (Byte Rng Covered Canonical Heap Resources Ext)

/-- The address families (none: there is no such extension), and the AS numbers (none: no such extension; `some none` is "inherit"). -/
structure CertRes where
  ip : List IpFam
  as : Option (Option (List AsRes))
  deriving DecidableEq, Repr

/-- RFC 6487, 4.8.10 and 4.8.11, and RFC 3779: one of the extensions or both; IPv4 first; at least one range in each list, and they are sorted
and can't be merged. -/
structure CertRes.Valid (c : CertRes) : Prop where
  any : c.ip ≠ [] ∨ c.as ≠ none
  families : c.ip.map IpFam.v6 ∈ [[], [false], [true], [false, true]]
  ip : ∀ f ∈ c.ip, ∀ l, f.res = some l → l ≠ [] ∧ (∀ x ∈ l, x.Valid (width f.v6)) ∧ Canonical (l.map (IpRes.rng (width f.v6)))
  as : ∀ l, c.as = some (some l) → l ≠ [] ∧ (∀ x ∈ l, x.Valid) ∧ Canonical (l.map AsRes.rng)

/-- The extensions are short enough. -/
def CertRes.Small (c : CertRes) : Prop := (encIp c.ip).length < 2 ^ 62 ∧ ∀ l, c.as = some l → (encAs l).length < 2 ^ 62

/-- The extensions of the certificate, as the program finds them: they are critical. -/
def CertRes.exts (c : CertRes) : List Ext :=
  (if c.ip = [] then [] else [.ip true (decodeIp .never (encIp c.ip)).toOption]) ++
  (match c.as with
   | none => []
   | some l => [.asn true (decodeAs .never (encAs l)).toOption])

/-- The addresses that the certificate says its subject has; `issuer` are those of the issuer. -/
def CertRes.addrs (c : CertRes) (v6 : Bool) (issuer : Nat → Prop) (n : Nat) : Prop :=
  ∃ f ∈ c.ip, f.v6 = v6 ∧ match f.res with
    | none => issuer n
    | some l => Covered (l.map (IpRes.rng (width v6))) n

/-- And the AS numbers. -/
def CertRes.asns (c : CertRes) (issuer : Nat → Prop) (n : Nat) : Prop :=
  match c.as with
  | none => False
  | some none => issuer n
  | some (some l) => Covered (l.map AsRes.rng) n

end Verif.Obj
