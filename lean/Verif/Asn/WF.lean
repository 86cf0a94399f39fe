import Verif.Asn.StrSafe
/-
What asn1c guarantees about the type descriptors that it generates.
-/
namespace Verif.Asn

/-- The tags of a type. -/
def Ty.tags : Ty → List Tag
  | .prim _ t => t
  | .str _ t _ => t
  | .seq t _ => t
  | .setOf t _ _ => t
  | .choice t _ => t

/-- The tag of a member. If it is not the type's own, then it is the only one in `tag2el`, and the type is not ANY. -/
def Head.Ok (h : Head) (tags : List Tag) : Prop :=
  (h.mode ≠ .none → h.any = false ∧ ∃ t, h.tag = some t ∧ ∀ x ∈ h.t2e, x = t) ∧ (h.mode = .implicit → tags ≠ [])

mutual
/-- All types have tags, except ANY and CHOICE. -/
def Ty.Ok : Ty → Prop
  | .prim _ tags => tags ≠ []
  | .str k tags all => StrOk k tags all
  | .seq tags ms => tags ≠ [] ∧ ms.Ok
  | .setOf tags _ el => tags ≠ [] ∧ el.Ok
  | .choice _ as => as.Ok

def Mems.Ok : Mems → Prop
  | .nil => True
  | .cons h ty rest => h.Ok ty.tags ∧ ty.Ok ∧ rest.Ok
end

theorem head_tagging {h : Head} {tags : List Tag} (hok : h.Ok tags) : h.tagging.mode = h.mode ∧ ∀ t, h.tagging.outer = some t → h.tag = some t ∧ h.mode ≠ .none := by
  obtain ⟨tag, mode, opt, any, t2e⟩ := h
  obtain ⟨h1, h2⟩ := hok
  cases mode with
  | none => exact ⟨rfl, fun t ht => by cases ht⟩
  | implicit =>
    obtain ⟨-, t, ht, -⟩ := h1 (by simp)
    simp only at ht
    subst ht
    exact ⟨rfl, fun t' ht => by cases ht; exact ⟨rfl, by simp⟩⟩
  | explicit =>
    obtain ⟨-, t, ht, -⟩ := h1 (by simp)
    simp only at ht
    subst ht
    exact ⟨rfl, fun t' ht => by cases ht; exact ⟨rfl, by simp⟩⟩

end Verif.Asn
