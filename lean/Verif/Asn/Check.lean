import Verif.Asn.SpecDer
import Verif.Asn.Safe
/-
`Ok`, `Calm` and `Clear` can be computed.
-/
namespace Verif.Asn

def Head.okB (h : Head) (tags : List Tag) : Bool :=
  (h.mode = .none || (!h.any && h.tag.isSome && h.t2e.all fun x => some x = h.tag)) && (!(h.mode = .implicit) || tags != [])

theorem Head.okB_ok {h : Head} {tags : List Tag} (e : h.okB tags = true) : h.Ok tags := by
  obtain ⟨tag, mode, opt, any, t2e⟩ := h
  simp only [Head.okB, Bool.and_eq_true, Bool.or_eq_true, decide_eq_true_eq, Bool.not_eq_true', List.all_eq_true, decide_eq_false_iff_not, bne_iff_ne] at e
  obtain ⟨e1, e2⟩ := e
  refine ⟨fun hm => ?_, fun hm => ?_⟩
  · rcases e1 with e1 | ⟨⟨e3, e4⟩, e5⟩
    · exact absurd e1 hm
    · obtain ⟨t, ht⟩ := Option.isSome_iff_exists.1 e4
      subst ht
      exact ⟨e3, t, rfl, fun x hx => Option.some.inj (e5 x hx)⟩
  · rcases e2 with e2 | e2
    · exact absurd hm e2
    · exact e2

def strOkB (k : StrKind) (tags all : List Tag) : Bool :=
  match k, tags with
  | .any, [] => true
  | .any, _ => false
  | _, [t] => decide (t ≠ 0) && decide (all[0]? = some t)
  | _, _ => false

theorem strOkB_ok {k : StrKind} {tags all : List Tag} (e : strOkB k tags all = true) : StrOk k tags all := by
  rcases tags with _ | ⟨t, _ | ⟨t', ts⟩⟩ <;> cases k <;> simp_all [strOkB, StrOk]

mutual
def Ty.okB : Ty → Bool
  | .prim _ tags => !tags.isEmpty
  | .str k tags all => strOkB k tags all
  | .seq tags ms => !tags.isEmpty && ms.okB
  | .setOf tags _ el => !tags.isEmpty && el.okB
  | .choice _ as => as.okB

def Mems.okB : Mems → Bool
  | .nil => true
  | .cons h ty rest => h.okB ty.tags && ty.okB && rest.okB
end

theorem Ty.okB_ok (ty : Ty) : ty.okB = true → ty.Ok := by
  induction ty using Ty.rec (motive_2 := fun ms => ms.okB = true → ms.Ok) with
  | prim k tags => intro e; simp only [Ty.okB] at e; simp only [Ty.Ok]; rintro rfl; simp at e
  | str k tags all => intro e; simp only [Ty.okB] at e; exact strOkB_ok e
  | seq tags ms ih =>
    intro e; simp only [Ty.okB, Bool.and_eq_true] at e; simp only [Ty.Ok]
    exact ⟨by rintro rfl; simp at e, ih e.2⟩
  | setOf tags tag el ih =>
    intro e; simp only [Ty.okB, Bool.and_eq_true] at e; simp only [Ty.Ok]
    exact ⟨by rintro rfl; simp at e, ih e.2⟩
  | choice tags as ih => intro e; simp only [Ty.okB] at e; simp only [Ty.Ok]; exact ih e
  | nil => trivial
  | cons h ty rest ih1 ih2 =>
    rename_i e
    simp only [Mems.okB, Bool.and_eq_true] at e
    exact ⟨Head.okB_ok e.1.1, ih1 e.1.2, ih2 e.2⟩

mutual
def Ty.calmB : Ty → Mode → Bool
  | .prim _ _, _ => true
  | .str _ _ _, _ => true
  | .seq _ ms, _ => ms.calmB
  | .setOf _ _ el, _ => el.calmB .none
  | .choice tags as, m => m = .none && tags.isEmpty && as.calmB

def Mems.calmB : Mems → Bool
  | .nil => true
  | .cons h ty rest => ty.calmB h.mode && rest.calmB
end

theorem Ty.calmB_calm (ty : Ty) : ∀ m, ty.calmB m = true → ty.Calm m := by
  induction ty using Ty.rec (motive_2 := fun ms => ms.calmB = true → ms.Calm) with
  | prim k tags => intro m e; trivial
  | str k tags all => intro m e; trivial
  | seq tags ms ih => intro m e; simp only [Ty.calmB] at e; exact ih e
  | setOf tags tag el ih => intro m e; simp only [Ty.calmB] at e; exact ih _ e
  | choice tags as ih =>
    intro m e
    simp only [Ty.calmB, Bool.and_eq_true, decide_eq_true_eq, List.isEmpty_iff] at e
    exact ⟨e.1.1, e.1.2, ih e.2⟩
  | nil => trivial
  | cons h ty rest ih1 ih2 =>
    rename_i e
    simp only [Mems.calmB, Bool.and_eq_true] at e
    exact ⟨ih1 _ e.1, ih2 e.2⟩

/-- Both lists; `none` is all tags. -/
def orAll : Option (List Tag) → Option (List Tag) → Option (List Tag)
  | some a, some b => some (a ++ b)
  | _, _ => none

mutual
/-- The tags with which an encoding can begin; `none` is all of them. -/
def Ty.firsts : Ty → Option (List Tag)
  | .prim _ tags => some tags.head?.toList
  | .str .any _ _ => none
  | .str .octets tags _ => some tags.head?.toList
  | .str .bits tags _ => some tags.head?.toList
  | .seq tags _ => some tags.head?.toList
  | .setOf tags _ _ => some tags.head?.toList
  | .choice tags as => if tags.isEmpty then as.firsts else some tags.head?.toList

def Mems.firsts : Mems → Option (List Tag)
  | .nil => some []
  | .cons h ty rest => orAll (if h.mode = .none then ty.firsts else some h.tag.toList) rest.firsts
end

theorem Ty.firsts_mem (ty : Ty) : ∀ t, ty.First t → ∀ l, ty.firsts = some l → t ∈ l := by
  induction ty using Ty.rec (motive_2 := fun ms => ∀ t, ms.First t → ∀ l, ms.firsts = some l → t ∈ l) with
  | prim k tags => intro t h l e; simp only [Ty.firsts] at e; cases e; simp only [Ty.First] at h; simp [h]
  | str k tags all =>
    intro t h l e
    cases k <;> simp only [Ty.firsts] at e <;> cases e <;> simp only [Ty.First] at h <;> simp [h]
  | seq tags ms ih => intro t h l e; simp only [Ty.firsts] at e; cases e; simp only [Ty.First] at h; simp [h]
  | setOf tags tag el ih => intro t h l e; simp only [Ty.firsts] at e; cases e; simp only [Ty.First] at h; simp [h]
  | choice tags as ih =>
    intro t h l e
    simp only [Ty.firsts] at e
    simp only [Ty.First] at h
    rcases h with h | ⟨rfl, h⟩
    · cases tags with
      | nil => cases h
      | cons a ts => simp only [List.isEmpty_cons] at e; cases e; simp [h]
    · exact ih t h l e
  | nil => rename_i t h l e; exact h.elim
  | cons h ty rest ih1 ih2 =>
    rename_i t hf l e
    simp only [Mems.firsts] at e
    simp only [Mems.First] at hf
    cases h1 : (if h.mode = .none then ty.firsts else some h.tag.toList) with
    | none => rw [h1] at e; cases e
    | some a =>
      cases h2 : rest.firsts with
      | none => rw [h1, h2] at e; cases e
      | some b =>
        rw [h1, h2] at e
        cases e
        rcases hf with hf | hf
        · by_cases hm : h.mode = .none
          · rw [if_pos hm] at h1 hf; exact List.mem_append_left _ (ih1 t hf _ h1)
          · rw [if_neg hm] at h1 hf; cases h1; simp [hf]
        · exact List.mem_append_right _ (ih2 t hf _ h2)

def Head.firsts (h : Head) (ty : Ty) : Option (List Tag) := if h.mode = .none then ty.firsts else some h.tag.toList

theorem Head.firsts_mem {h : Head} {ty : Ty} {t : Tag} (hf : h.First ty t) {l : List Tag} (e : h.firsts ty = some l) : t ∈ l := by
  unfold Head.First at hf
  unfold Head.firsts at e
  by_cases hm : h.mode = .none
  · rw [if_pos hm] at e hf; exact Ty.firsts_mem _ _ hf _ e
  · rw [if_neg hm] at e hf; cases e; simp [hf]

def Mems.size : Mems → Nat
  | .nil => 0
  | .cons _ _ rest => rest.size + 1

def Mems.firstsAt : Mems → Nat → Option (List Tag)
  | .nil, _ => some []
  | .cons h ty _, 0 => h.firsts ty
  | .cons _ _ rest, k + 1 => rest.firstsAt k

theorem Mems.firstsAt_mem : ∀ {ms : Mems} {k : Nat} {t : Tag}, ms.FirstAt k t → k < ms.size ∧ ∀ l, ms.firstsAt k = some l → t ∈ l
  | .nil, k, t, h => by simp [Mems.FirstAt] at h
  | .cons h ty rest, 0, t, hf => ⟨by simp [Mems.size], fun l e => Head.firsts_mem hf e⟩
  | .cons h ty rest, k + 1, t, hf => by
    obtain ⟨h1, h2⟩ := Mems.firstsAt_mem (ms := rest) (k := k) hf
    exact ⟨by simp only [Mems.size]; omega, h2⟩

theorem lookup_any {h : Head} {hs : List Head} {t : Tag} (ha : h.any = true) : lookup (h :: hs) t = some 0 := by
  have key : ∀ n, linear t ((h :: hs).take (n + 1)) 0 = .found 0 := by
    intro n
    simp only [List.take_succ_cons, linear]
    by_cases h1 : h.tag = some t
    · rw [if_pos h1]
    · rw [if_neg h1, if_pos ha]
  unfold lookup
  simp only
  by_cases h1 : optCount (h :: hs) + 1 > (h :: hs).length
  · rw [if_pos h1]; simp only [List.length_cons]; rw [key]
  · rw [if_neg h1]
    by_cases h2 : optCount (h :: hs) + 1 > 8
    · rw [if_pos h2]; simp only; rw [key 7]
    · rw [if_neg h2]; simp only; rw [key]

def Mems.seqB : Mems → Bool
  | .nil => true
  | .cons h ty rest =>
    (List.range (rest.size + 1)).all (fun k =>
      k > optCount (h :: rest.heads) ||
      match (Mems.cons h ty rest).firstsAt k with
      | some l => l.all fun t => lookup (h :: rest.heads) t = some k
      | none => k == 0 && h.any) && rest.seqB

theorem Mems.seqB_clear : ∀ (ms : Mems), ms.seqB = true → ms.SeqClear
  | .nil, _ => trivial
  | .cons h ty rest, e => by
    simp only [Mems.seqB, Bool.and_eq_true, List.all_eq_true, List.mem_range] at e
    refine ⟨fun k t hk hf => ?_, Mems.seqB_clear rest e.2⟩
    obtain ⟨h1, h2⟩ := Mems.firstsAt_mem hf
    have := e.1 k h1
    rw [Bool.or_eq_true] at this
    rcases this with this | this
    · simp only [decide_eq_true_eq] at this; exact absurd hk (by omega)
    · cases hl : (Mems.cons h ty rest).firstsAt k with
      | some l =>
        rw [hl] at this
        simp only [List.all_eq_true, decide_eq_true_eq] at this
        exact this t (h2 l hl)
      | none =>
        rw [hl] at this
        simp only [Bool.and_eq_true, beq_iff_eq] at this
        rw [this.1]
        exact lookup_any this.2

def Mems.altB : Mems → Bool
  | .nil => true
  | .cons h ty rest =>
    (match h.firsts ty with | some l => l.all fun t => h.t2e.contains t | none => false) &&
    (match rest.firsts with | some l => h.t2e.all fun t => !l.contains t | none => h.t2e.isEmpty) && rest.altB

theorem Mems.firsts_mem : ∀ (ms : Mems) {t : Tag}, ms.First t → ∀ {l : List Tag}, ms.firsts = some l → t ∈ l
  | ms, t, h, l, e => by
    have := Ty.firsts_mem (.choice [] ms) t (by simp only [Ty.First]; exact Or.inr ⟨trivial, h⟩) l
    exact this e

theorem Mems.altB_clear : ∀ (ms : Mems), ms.altB = true → ms.AltClear
  | .nil, _ => trivial
  | .cons h ty rest, e => by
    simp only [Mems.altB, Bool.and_eq_true] at e
    obtain ⟨⟨e1, e2⟩, e3⟩ := e
    refine ⟨fun t hf => ?_, fun t ht hf => ?_, Mems.altB_clear rest e3⟩
    · cases hl : h.firsts ty with
      | none => rw [hl] at e1; cases e1
      | some l =>
        rw [hl] at e1
        simp only [List.all_eq_true, List.contains_iff_mem] at e1
        exact e1 t (Head.firsts_mem hf hl)
    · cases hl : rest.firsts with
      | none =>
        rw [hl] at e2
        simp only [List.isEmpty_iff] at e2
        rw [e2] at ht
        cases ht
      | some l =>
        rw [hl] at e2
        have := List.all_eq_true.1 e2 t ht
        simp only [Bool.not_eq_true', List.contains_eq_mem, decide_eq_false_iff_not] at this
        exact this (Mems.firsts_mem rest hf hl)

mutual
def Ty.clearB : Ty → Bool
  | .prim _ _ => true
  | .str _ _ _ => true
  | .seq _ ms => ms.clearB && ms.seqB
  | .setOf _ tag el => el.clearB && (tag.isNone || match el.firsts with | some l => l.all (fun t => tag = some t) | none => false)
  | .choice _ as => as.clearB && as.altB

def Mems.clearB : Mems → Bool
  | .nil => true
  | .cons _ ty rest => ty.clearB && rest.clearB
end

theorem Ty.clearB_clear (ty : Ty) : ty.clearB = true → ty.Clear := by
  induction ty using Ty.rec (motive_2 := fun ms => ms.clearB = true → ms.Clear) with
  | prim k tags => intro e; trivial
  | str k tags all => intro e; trivial
  | seq tags ms ih =>
    intro e; simp only [Ty.clearB, Bool.and_eq_true] at e
    exact ⟨ih e.1, Mems.seqB_clear _ e.2⟩
  | setOf tags tag el ih =>
    intro e; simp only [Ty.clearB, Bool.and_eq_true, Bool.or_eq_true] at e
    refine ⟨ih e.1, fun t ht => ?_⟩
    rcases e.2 with h | h
    · exact Or.inl (by simpa using h)
    · cases hl : el.firsts with
      | none => rw [hl] at h; cases h
      | some l =>
        rw [hl] at h
        simp only [List.all_eq_true, decide_eq_true_eq] at h
        exact Or.inr (h t (Ty.firsts_mem _ _ ht _ hl))
  | choice tags as ih =>
    intro e; simp only [Ty.clearB, Bool.and_eq_true] at e
    exact ⟨ih e.1, Mems.altB_clear _ e.2⟩
  | nil => trivial
  | cons h ty rest ih1 ih2 =>
    rename_i e
    simp only [Mems.clearB, Bool.and_eq_true] at e
    exact ⟨ih1 e.1, ih2 e.2⟩

end Verif.Asn
