import Verif.Sd.Model
import Verif.Cms.SpecOid
/-
ROAs, from the bytes of the file to the VRPs.
-/
namespace Verif.Sd
open Verif.Res (Byte Policy Ext RoaFile)
open Verif.Asn (Nul)
open Verif.Cms (oidRoa signedObjectValidate)
open Verif.Obj (decodeRoa)

/-- What the program reads in the certificate of a signed object, apart from what it checks: the policy and the resource extensions; and whether
src/certificate_refs.c:88-99 `refs_validate_ee` finds the files that it should point to. -/
structure Ee (C : Type) where
  policy : C → Policy
  exts : C → List Ext
  refs : C → Bool

/-- The certificate of the signed object. -/
def certOf {C : Type} (y : Crypto C) (sd : Cms.SignedData) : Option C :=
  match sd.certificates with
  | some (c :: _) => y.decodeCert c
  | _ => none

/-- src/object/roa.c:247-295 `roa_traverse` up to the call of `certificate_get_resources`, and what follows is `Verif.Res.roaTraverse`: the content is decoded, then the CRL
of the publication point is fetched (`crlOk`), then the signed object is validated. The resources are the last thing that is looked at in there
(src/asn1/signed_data.c:49-113 `handle_sdata_certificate`). -/
def roaFile {C : Type} (y : Crypto C) (ee : Ee C) (nuls : Nuls) (crlOk : Bool) (file : List Byte) : RoaFile :=
  match signedObjectDecode nuls file with
  | .ok (c, sd) =>
    { content := match sd.eContent with
        | none => none
        | some x => (decodeRoa (nuls Asn.routeOriginAttestationTy x) x).toOption
      envelopeOk := crlOk && decide (signedObjectValidate (({ y with resourcesOk := fun _ => true } : Crypto C).env nuls) oidRoa c sd = .ok)
      policy := match certOf y sd with | some c => ee.policy c | none => .rfc6484
      exts := match certOf y sd with | some c => ee.exts c | none => []
      refsOk := match certOf y sd with | some c => ee.refs c | none => false }
  | _ => ⟨none, false, .rfc6484, [], false⟩

end Verif.Sd
