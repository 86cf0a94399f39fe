import Verif.Xmem.Model
/-
What RFC 8182's schema (src/xml/relax_ng.h:12-230) says.
-/
namespace Verif.Xmem

def Ev.starts (e : Ev) (n : Nm) : Bool := e.type = .elem ∧ e.name = n

/-- The XML library enforces the schema, as it reads: there is one `notification` element at most, and one `snapshot` element at
most (it's the root, or the root is `notification`), and versions are "1". And once a document has been read: if it is a
notification then it has a `snapshot` element; if it isn't then the root is a `snapshot` or a `delta` that has no URI. -/
structure Enforces (lib : Lib) : Prop where
  notification : ∀ p, lib.valid p = true → p.countP (·.starts .notification) ≤ 1
  snapshot : ∀ p, lib.valid p = true → p.countP (·.starts .snapshot) ≤ 1
  version : ∀ p, lib.valid p = true → ∀ e ∈ p, e.vfits = true
  whole : ∀ p, lib.validEnd p = true →
    (∃ e ∈ p, e.starts .notification) ∧ (∃ e ∈ p, e.starts .snapshot) ∨
    ∃ e ∈ p, (e.starts .snapshot ∨ e.starts .delta) ∧ e.hasUri = false

end Verif.Xmem
