import Verif.Asn.Spec
/-
How long the strings and the lists in a decoded value are.
-/
namespace Verif.Asn
open Verif.Res (Byte)

/-- The string is somewhere in the value. -/
inductive Leaf (x : List Byte) : Val → Prop where
  | bytes : Leaf x (.bytes x)
  | seq {v l} : some v ∈ l → Leaf x v → Leaf x (.seq l)
  | list {v l} : v ∈ l → Leaf x v → Leaf x (.list l)
  | alt {i v} : Leaf x v → Leaf x (.alt i v)

theorem Tlv.length {tag : Tag} {constr : Bool} {c b : List Byte} (h : Tlv tag constr c b) : c.length < b.length := by
  cases h with
  | defn h1 h2 =>
    obtain ⟨x, xs, rfl, -⟩ := h1
    simp; omega
  | indef h1 h2 =>
    simp; omega

theorem Nest.length : ∀ {tags : List Tag} {constr : Bool} {c b : List Byte}, Nest tags constr c b → c.length ≤ b.length
  | [], _, _, _, h => Nat.le_of_eq (congrArg List.length (Eq.symm h))
  | [_], _, _, _, h => Nat.le_of_lt (Tlv.length h)
  | _ :: _ :: _, _, _, _, ⟨_, h1, h2⟩ => Nat.le_trans (Nest.length h1) (Nat.le_of_lt h2.length)

theorem Els.length {ok : Nat → Tag → Prop} {k : Kind} {d : Nat} {b : List Byte} {ls : List (List Byte)} (h : Els ok k d b ls) : ls.flatten.length ≤ b.length := by
  induction h with
  | prim _ _ _ => simp; omega
  | defn _ _ _ _ ih => simp at ih ⊢; omega
  | indef _ _ _ ih => simp at ih ⊢; omega
  | nil _ => simp
  | cons _ _ _ _ ih1 ih2 => simp at ih1 ih2 ⊢; omega

theorem mem_flatten_length {α : Type} {c : List α} {cs : List (List α)} (h : c ∈ cs) : c.length ≤ cs.flatten.length := by
  induction cs with
  | nil => cases h
  | cons x cs ih =>
    rw [List.flatten_cons, List.length_append]
    rcases List.mem_cons.1 h with rfl | h
    · omega
    · have := ih h; omega

theorem forall₂_mem {α β : Type} {R : α → β → Prop} {l : List α} {m : List β} (h : List.Forall₂ R l m) {a : α} (ha : a ∈ l) : ∃ b ∈ m, R a b := by
  induction h with
  | nil => cases ha
  | cons h1 _ ih =>
    rcases List.mem_cons.1 ha with rfl | ha
    · exact ⟨_, by simp, h1⟩
    · obtain ⟨b, hb, hr⟩ := ih ha
      exact ⟨b, by simp [hb], hr⟩

mutual
/-- A string in a value is not longer than the encoding. -/
theorem ber_leaf {x : List Byte} : ∀ (ty : Ty) (g : Tagging) (v : Val) (b : List Byte), Ber ty g v b → Leaf x v → x.length ≤ b.length
  | .prim k tags, g, v, b, h, hx => by
    obtain ⟨c, h1, h2⟩ := h
    cases k with
    | plain => cases (show v = .bytes c from h2); cases hx; exact h1.length
    | null => obtain ⟨-, rfl⟩ := h2; cases hx
    | bool =>
      rcases h2 with ⟨-, rfl⟩ | ⟨_, _, _, -, -, -, rfl⟩ <;> cases hx
  | .str .any tags all, .explicit t, v, b, h, hx => by
    obtain ⟨c, constr, h1, rfl, -⟩ := h
    cases hx
    exact Nat.le_of_lt h1.length
  | .str .any tags all, .own, v, b, h, hx => by
    obtain ⟨rfl, -⟩ := h
    cases hx
    exact Nat.le_refl _
  | .str .any tags all, .implicit t, v, b, h, hx => by
    obtain ⟨rfl, -⟩ := h
    cases hx
    exact Nat.le_refl _
  | .str .octets tags all, g, v, b, h, hx => by
    obtain ⟨ls, h1, h2⟩ := (show ∃ ls, Els _ .one 0 b ls ∧ StrVal .octets ls v from h)
    cases h2
    cases hx
    exact h1.length
  | .str .bits tags all, g, v, b, h, hx => by
    obtain ⟨ls, h1, h2⟩ := (show ∃ ls, Els _ .one 0 b ls ∧ StrVal .bits ls v from h)
    cases h2 <;> cases hx
  | .seq tags ms, g, v, b, h, hx => by
    obtain ⟨c, vs, h1, rfl, h2⟩ := h
    cases hx with
    | seq hm hl => exact Nat.le_trans (mems_leaf ms vs c h2 hm hl) h1.length
  | .setOf tags t el, g, v, b, h, hx => by
    obtain ⟨cs, vs, h1, rfl, h2⟩ := h
    cases hx with
    | list hm hl =>
      obtain ⟨c, hc, hr⟩ := forall₂_mem h2 hm
      exact Nat.le_trans (ber_leaf el .own _ c hr hl) (Nat.le_trans (mem_flatten_length hc) h1.length)
  | .choice tags as, g, v, b, h, hx => by
    obtain ⟨c, constr, h1, h2⟩ := h
    exact Nat.le_trans (alts_leaf as 0 v c h2 hx) h1.length

theorem mems_leaf {x : List Byte} : ∀ (ms : Mems) (vs : List (Option Val)) (c : List Byte), BerMems ms vs c → ∀ {v : Val}, some v ∈ vs → Leaf x v → x.length ≤ c.length
  | .nil, vs, c, h, v, hm, hx => by
    obtain ⟨rfl, rfl⟩ := h
    cases hm
  | .cons hd ty rest, vs, c, h, v, hm, hx => by
    rcases h with ⟨-, ws, rfl, h⟩ | ⟨y, ws, d, e, rfl, rfl, h1, h2⟩
    · rcases List.mem_cons.1 hm with hm | hm
      · cases hm
      · exact mems_leaf rest ws c h hm hx
    · rw [List.length_append]
      rcases List.mem_cons.1 hm with hm | hm
      · cases hm
        have := ber_leaf ty hd.tagging v d h1 hx
        omega
      · have := mems_leaf rest ws e h2 hm hx
        omega

theorem alts_leaf {x : List Byte} : ∀ (ms : Mems) (i : Nat) (v : Val) (c : List Byte), BerAlts ms i v c → Leaf x v → x.length ≤ c.length
  | .nil, _, _, _, h, _ => absurd h id
  | .cons hd ty rest, i, v, c, h, hx => by
    rcases h with ⟨y, rfl, h⟩ | h
    · cases hx with
      | alt hx => exact ber_leaf ty hd.tagging y c h hx
    · exact alts_leaf rest (i + 1) v c h hx
end

/-- A list is not longer than the encoding, if its elements are tagged. -/
theorem list_length {tags : List Tag} {t : Option Tag} {tag : Tag} {ms : Mems} {g : Tagging} {l : List Val} {b : List Byte} (h : Ber (.setOf tags t (.seq [tag] ms)) g (.list l) b) :
    l.length ≤ b.length := by
  obtain ⟨cs, vs, h1, e, h2⟩ := h
  cases e
  refine Nat.le_trans ?_ h1.length
  clear h1
  induction h2 with
  | nil => simp
  | cons hx _ ih =>
    obtain ⟨c, ws, k1, -⟩ := hx
    have := Tlv.length k1
    simp only [List.length_cons, List.flatten_cons, List.length_append]
    omega

end Verif.Asn
