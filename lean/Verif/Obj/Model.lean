import Verif.Asn.Cons
import Verif.Asn.Types
import Verif.Asn.ModelCon
import Verif.Res.ModelRoa
import Verif.Mft.Model
/-
From bytes to objects: what the rest of the program reads in the structures that the decoder fills.

asn1c generates one C structure for each type; `Val` is all of them. These functions say which member is in which place. Anything else (`none`)
would be a member that is not there: a null pointer that is followed.
-/
namespace Verif.Obj
open Verif.Res (Byte)
open Verif.Asn (Val Nul asn1Decode Decoded)

/-- All of them, or nothing. -/
def all {α : Type} (f : Val → Option α) : List Val → Option (List α)
  | [] => some []
  | v :: vs => match f v, all f vs with
    | some a, some as => some (a :: as)
    | _, _ => none

/-- A member that can be missing: an INTEGER's octets. -/
def optBytes : Option Val → Option (Option (List Byte))
  | none => some none
  | some (.bytes b) => some (some b)
  | _ => none

/-! ### ROAs -/

/-- `ROAIPAddress_t`: src/asn1/asn1c/ROAIPAddress.c:10-29 `asn_MBR_ROAIPAddress_1` -/
def roaAddrOf : Val → Option Res.RoaAddr
  | .seq [some (.bits b u), m] => (optBytes m).map fun m => ⟨⟨b, u⟩, m⟩
  | _ => none

/-- `ROAIPAddressFamily_t`: src/asn1/asn1c/ROAIPAddressFamily.c:215-234 `asn_MBR_ROAIPAddressFamily_1` -/
def roaBlockOf : Val → Option Res.RoaBlock
  | .seq [some (.bytes f), some (.list l)] => (all roaAddrOf l).map fun l => ⟨f, l⟩
  | _ => none

/-- `RouteOriginAttestation_t`: src/asn1/asn1c/RouteOriginAttestation.c:99-128 `asn_MBR_RouteOriginAttestation_1` -/
def roaOf : Val → Option Res.Roa
  | .seq [v, some (.bytes a), some (.list l)] => match optBytes v, all roaBlockOf l with
    | some v, some l => some ⟨v, a, l⟩
    | _, _ => none
  | _ => none

/-! ### Manifests -/

/-- `struct FileAndHash`: src/asn1/asn1c/FileAndHash.c:10-29 `asn_MBR_FileAndHash_1` -/
def fileOf : Val → Option Mft.FileAndHash
  | .seq [some (.bytes f), some (.bits h u)] => some ⟨f, h, u⟩
  | _ => none

/-- `struct Manifest`: src/asn1/asn1c/Manifest.c:119-175 `asn_MBR_Manifest_1` -/
def mftOf : Val → Option Mft.Manifest
  | .seq [v, some (.bytes n), some (.bytes t), some (.bytes x), some (.bytes a), some (.list l)] => match optBytes v, all fileOf l with
    | some v, some l => some ⟨v, n, t, x, a, l⟩
    | _, _ => none
  | _ => none

/-! ### Resources -/

/-- `IPAddressOrRange_t`: src/asn1/asn1c/IPAddressOrRange.c:10-29 `asn_MBR_IPAddressOrRange_1`, and
src/asn1/asn1c/IPAddressRange.c:10-29 `asn_MBR_IPAddressRange_1` -/
def aorOf : Val → Option Res.AddrOrRange
  | .alt 0 (.bits b u) => some (.pfx ⟨b, u⟩)
  | .alt 1 (.seq [some (.bits b u), some (.bits c v)]) => some (.range ⟨b, u⟩ ⟨c, v⟩)
  | _ => none

/-- `IPAddressChoice_t`: src/asn1/asn1c/IPAddressChoice.c:48-67 `asn_MBR_IPAddressChoice_1` -/
def ipChoiceOf : Val → Option Res.IpChoice
  | .alt 0 .null => some .inherit
  | .alt 1 (.list l) => (all aorOf l).map .aors
  | _ => none

/-- `IPAddressFamily_t`: src/asn1/asn1c/IPAddressFamily.c:36-55 `asn_MBR_IPAddressFamily_1` -/
def ipBlockOf : Val → Option Res.IpBlock
  | .seq [some (.bytes f), some c] => (ipChoiceOf c).map fun c => ⟨f, c⟩
  | _ => none

/-- `IPAddrBlocks_t` -/
def ipBlocksOf : Val → Option (List Res.IpBlock)
  | .list l => all ipBlockOf l
  | _ => none

/-- `ASIdOrRange_t`: src/asn1/asn1c/ASIdOrRange.c:10-29 `asn_MBR_ASIdOrRange_1` and
src/asn1/asn1c/ASRange.c:10-29 `asn_MBR_ASRange_1` -/
def asOrRangeOf : Val → Option Res.AsIdOrRange
  | .alt 0 (.bytes b) => some (.id b)
  | .alt 1 (.seq [some (.bytes b), some (.bytes c)]) => some (.range b c)
  | _ => none

/-- `ASIdentifierChoice_t`: src/asn1/asn1c/ASIdentifierChoice.c:48-67 `asn_MBR_ASIdentifierChoice_1` -/
def asChoiceOf : Val → Option Res.AsChoice
  | .alt 0 .null => some .inherit
  | .alt 1 (.list l) => (all asOrRangeOf l).map .list
  | _ => none

/-- `ASIdentifiers_t`: src/asn1/asn1c/ASIdentifiers.c:10-29 `asn_MBR_ASIdentifiers_1` -/
def asIdsOf : Val → Option Res.AsIds
  | .seq [none, r] => some ⟨none, r.isSome⟩
  | .seq [some c, r] => (asChoiceOf c).map fun c => ⟨some c, r.isSome⟩
  | _ => none

/-! ### Decoding -/

/-- What comes of bytes: an object, an error; or the decoder doesn't return, aborts, or something undefined is done. -/
inductive Got (α : Type) where
  | ok (a : α)
  | error
  | hang
  | bad
  deriving DecidableEq, Repr

/-- The object that is decoded from the bytes, as the callers of src/asn1/decode.c:33-59 `asn1_decode` see it. -/
def got {α : Type} (f : Val → Option α) : Decoded → Got α
  | .ok v => match f v with
    | some a => .ok a
    | none => .bad
  | .error => .error
  | .hang => .hang
  | .abort => .bad
  | .crash => .bad

def Got.toOption {α : Type} : Got α → Option α
  | .ok a => some a
  | _ => none

/-- src/object/roa.c:9-18 `decode_roa`; the bytes are the content of the signed object. -/
def decodeRoa (nul : Nul) (s : List Byte) : Got Res.Roa :=
  got roaOf (asn1Decode nul Asn.routeOriginAttestationTy Asn.routeOriginAttestationCon s)

/-- src/object/manifest.c:25-34 `decode_manifest` -/
def decodeMft (nul : Nul) (s : List Byte) : Got Mft.Manifest :=
  got mftOf (asn1Decode nul Asn.manifestTy Asn.manifestCon s)

/-- The decoding in src/object/certificate.c:1090-1137 `handle_ip_extension`; the bytes are the value of the extension. -/
def decodeIp (nul : Nul) (s : List Byte) : Got (List Res.IpBlock) :=
  got ipBlocksOf (asn1Decode nul Asn.ipAddrBlocksExtTy Asn.ipAddrBlocksExtCon s)

/-- The decoding in src/object/certificate.c:1139-1157 `handle_asn_extension` -/
def decodeAs (nul : Nul) (s : List Byte) : Got Res.AsIds :=
  got asIdsOf (asn1Decode nul Asn.asIdentifiersTy Asn.asIdentifiersCon s)

end Verif.Obj
