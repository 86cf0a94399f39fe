import Verif.Asn.ConFull
import Verif.Asn.Types
import Verif.Asn.Cons
namespace Verif.Asn

/-- The types of the objects that are decoded, and their constraints. -/
def roots : List (Ty × Con) := [(contentInfoTy, contentInfoCon), (signedDataTy, signedDataCon), (signedDataPKCS7Ty, signedDataPKCS7Con),
  (contentTypePKCS7Ty, contentTypePKCS7Con), (objectIDENTIFIERTy, objectIDENTIFIERCon), (messageDigestTy, messageDigestCon),
  (routeOriginAttestationTy, routeOriginAttestationCon), (manifestTy, manifestCon), (ipAddrBlocksExtTy, ipAddrBlocksExtCon),
  (asIdentifiersTy, asIdentifiersCon)]

theorem roots_ok : ∀ p ∈ roots, p.1.Ok := by
  have h : roots.all (fun p => p.1.okB) = true := by decide +kernel
  exact fun p hp => Ty.okB_ok _ (List.all_eq_true.1 h p hp)

theorem roots_clear : ∀ p ∈ roots, p.1.Clear := by
  have h : roots.all (fun p => p.1.clearB) = true := by decide +kernel
  exact fun p hp => Ty.clearB_clear _ (List.all_eq_true.1 h p hp)

theorem roots_for : ∀ p ∈ roots, p.2.forB p.1 = true := by
  have h : roots.all (fun p => p.2.forB p.1) = true := by decide +kernel
  exact fun p hp => List.all_eq_true.1 h p hp

/-- All but the last one. -/
theorem roots_calm : ∀ p ∈ roots.dropLast, p.1.Calm .none := by
  have h : roots.dropLast.all (fun p => p.1.calmB .none) = true := by decide +kernel
  exact fun p hp => Ty.calmB_calm _ _ (List.all_eq_true.1 h p hp)

end Verif.Asn
