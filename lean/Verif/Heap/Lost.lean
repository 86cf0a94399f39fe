import Verif.Heap.Basic
/-
How much is lost.
-/
namespace Verif.Heap

/-- `m` loses at most as many objects as `f` says of its result. -/
def Lo {α : Type} (m : HM α) (f : α → Nat) : Prop := ∀ s, (m s).2.lost.length ≤ s.lost.length + f (m s).1

abbrev Lo0 {α : Type} (m : HM α) : Prop := Lo m (fun _ => 0)

theorem Lo.bind {α β : Type} {m : HM α} {k : α → HM β} {f : α → Nat} {g : β → Nat} (h : Lo m f) (hk : ∀ a s, ((k a) s).2.lost.length + f a ≤ s.lost.length + g ((k a) s).1) : Lo (m >>= k) g := by
  intro s
  have h1 := h s
  have h2 := hk (m s).1 (m s).2
  show ((k (m s).1) (m s).2).2.lost.length ≤ s.lost.length + g ((k (m s).1) (m s).2).1
  omega

theorem Lo.bind0 {α β : Type} {m : HM α} {k : α → HM β} {g : β → Nat} (h : Lo0 m) (hk : ∀ a, Lo (k a) g) : Lo (m >>= k) g := Lo.bind h fun a s => hk a s

theorem Lo.pure {α : Type} {a : α} {f : α → Nat} : Lo (Pure.pure a : HM α) f := fun s => Nat.le_add_right _ _

theorem Lo.ite {α : Type} {c : Prop} [Decidable c] {a b : HM α} {f : α → Nat} (ha : Lo a f) (hb : Lo b f) : Lo (if c then a else b) f := by
  by_cases h : c
  · rw [if_pos h]; exact ha
  · rw [if_neg h]; exact hb

theorem Lo.mono {α : Type} {m : HM α} {f g : α → Nat} (h : Lo m f) (hfg : ∀ a, f a ≤ g a) : Lo m g := fun s => Nat.le_trans (h s) (Nat.add_le_add_left (hfg _) _)

theorem Lo.zero {α : Type} {m : HM α} {g : α → Nat} (h : Lo0 m) : Lo m g := h.mono fun _ => Nat.zero_le _

theorem lo_ask : Lo0 ask := fun _ => Nat.le_refl _
theorem lo_askB : Lo0 askB := Lo.bind0 lo_ask fun _ => Lo.pure
theorem lo_crash : Lo0 crash := fun _ => Nat.le_refl _
theorem lo_new : Lo0 new := fun _ => Nat.le_refl _
theorem lo_use {i : Id} : Lo0 (use i) := fun _ => Nat.le_refl _
theorem lo_free {i : Id} : Lo0 (free i) := fun _ => Nat.le_refl _
theorem lo_lose {i : Id} : Lo (lose i) (fun _ => 1) := fun _ => Nat.le_refl _
theorem lo_freeAll : ∀ l, Lo0 (freeAll l)
  | [] => Lo.pure
  | _ :: l => Lo.bind0 lo_free fun _ => lo_freeAll l
theorem lo_useAll : ∀ l, Lo0 (useAll l)
  | [] => Lo.pure
  | _ :: l => Lo.bind0 lo_use fun _ => lo_useAll l
theorem lo_create : Lo0 create := Lo.bind0 lo_askB fun _ => Lo.ite Lo.pure (Lo.bind0 lo_new fun _ => Lo.pure)

/-! ### Nothing -/

/-- `m` loses nothing. -/
def Keeps {α : Type} (m : HM α) : Prop := ∀ s, (m s).2.lost = s.lost

theorem Keeps.bind {α β : Type} {m : HM α} {k : α → HM β} (h : Keeps m) (hk : ∀ a, Keeps (k a)) : Keeps (m >>= k) := fun s => (hk _ _).trans (h s)
theorem Keeps.pure {α : Type} {a : α} : Keeps (Pure.pure a : HM α) := fun _ => rfl
theorem Keeps.ite {α : Type} {c : Prop} [Decidable c] {a b : HM α} (ha : Keeps a) (hb : Keeps b) : Keeps (if c then a else b) := by
  by_cases h : c
  · rw [if_pos h]; exact ha
  · rw [if_neg h]; exact hb

theorem k_ask : Keeps ask := fun _ => rfl
theorem k_new : Keeps new := fun _ => rfl
theorem k_use {i : Id} : Keeps (use i) := fun _ => rfl
theorem k_free {i : Id} : Keeps (free i) := fun _ => rfl
theorem k_freeAll : ∀ l, Keeps (freeAll l)
  | [] => Keeps.pure
  | _ :: l => Keeps.bind k_free fun _ => k_freeAll l
theorem k_useAll : ∀ l, Keeps (useAll l)
  | [] => Keeps.pure
  | _ :: l => Keeps.bind k_use fun _ => k_useAll l

end Verif.Heap
