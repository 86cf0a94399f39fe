import Verif.Omem.Model
/-
Files that nothing is lost with.
-/
namespace Verif.Omem

/-- RFC 6487 4.4 and 4.5: a name has one common name, and at most one serial number. Here: no attribute is repeated. -/
def Once (n : Name) : Prop := n.count .cn ≤ 1 ∧ n.count .sn ≤ 1

/-- A certificate whose names don't repeat attributes and whose dates can be printed. -/
def CertF.Clean (f : CertF) : Prop := Once f.issuer ∧ Once f.subject ∧ f.nb = true ∧ f.na = true

/-- A CRL whose issuer doesn't repeat attributes and whose dates can be printed. -/
def CrlF.Clean (g : CrlF) : Prop := Once g.issuer ∧ g.lu = true ∧ g.nu = true

/-- All the files are such. -/
def Op.Clean : Op → Prop
  | .ta f => f.Clean
  | .cert _ f g => f.Clean ∧ g.Clean
  | .obj _ _ f g => f.Clean ∧ g.Clean
  | .mft f g => f.Clean ∧ g.Clean
  | .pop => True
  | .drop _ => True

end Verif.Omem
