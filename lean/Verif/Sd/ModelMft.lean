import Verif.Sd.ModelRoa
import Verif.Mft.Model
/-
Manifests, from the bytes of the file to the publication point.
-/
namespace Verif.Sd
open Verif.Res (Byte)
open Verif.Cms (oidManifest signedObjectValidate)
open Verif.Obj (decodeMft)
open Verif.Mft (EeRefs Env Tm Rpp)

/-- What `handle_manifest` decodes: src/object/signed_object.c:6-22 `signed_object_decode` and src/object/manifest.c:25-34 `decode_manifest`. -/
def mftContent (nuls : Nuls) (file : List Byte) : Option Mft.Manifest :=
  match signedObjectDecode nuls file with
  | .ok (_, sd) =>
    match sd.eContent with
    | none => none
    | some x => (decodeMft (nuls Asn.manifestTy x) x).toOption
  | _ => none

/-- src/object/signed_object.c:69-89 `signed_object_validate`, with this CRL, on which the outcome of the checks depends; and the references in the certificate. -/
def mftSigned {C : Type} (y : Mft.Uri → Crypto C) (refs : C → EeRefs) (nuls : Nuls) (file : List Byte) (crl : Mft.Uri) : Option EeRefs :=
  match signedObjectDecode nuls file with
  | .ok (c, sd) =>
    match signedObjectValidate ((y crl).env nuls) oidManifest c sd with
    | .ok => (certOf (y crl) sd).map refs
    | _ => none
  | _ => none

/-- src/object/manifest.c:276-341 `handle_manifest` -/
def handleMftFile {C : Type} (y : Mft.Uri → Crypto C) (refs : C → EeRefs) (nuls : Nuls) (env : Env) (rnd : Nat → Nat) (now : Option Tm) (crlOk : Mft.Uri → Bool)
    (uri : Mft.Uri) (file : List Byte) : Mft.Res Rpp :=
  Mft.handleManifest env rnd now crlOk (mftSigned y refs nuls file) uri (mftContent nuls file)

end Verif.Sd
