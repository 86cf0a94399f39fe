import Verif.Res.ModelRes
import Mathlib.Tactic.SplitIfs
/-
C72: only resource extensions that comply with the profile (RFC 3779, 6487, 8360) are accepted.
-/
namespace Verif.Res

/-- The element list of a block or the keyword inherit. -/
def IpChoice.Stated : IpChoice → Prop
  | .nothing => False
  | .inherit => True
  | .aors l => l ≠ []

/-- A block states its addresses. Families are two octets, 0 1 for IPv4 and 0 2 for IPv6. -/
def IpBlock.Is (b : IpBlock) (family : Byte) : Prop := b.family = [0, family] ∧ b.choice.Stated

/-- RFC 6487, section 4.8.10 (IP resources): critical; one block, or the IPv4 block followed by the IPv6 one. -/
def IpProfile (critical : Bool) (blocks : Option (List IpBlock)) : Prop :=
  critical = true ∧ ((∃ b, blocks = some [b] ∧ (b.Is 1 ∨ b.Is 2)) ∨ ∃ b c, blocks = some [b, c] ∧ b.Is 1 ∧ c.Is 2)

/-- RFC 6487, section 4.8.11 (AS resources): critical, AS numbers present, no routing domain identifiers; BGPsec router
certificates must not inherit (RFC 8209). -/
def AsnProfile (type : CertType) (critical : Bool) (ids : Option AsIds) : Prop :=
  critical = true ∧ ∃ c, ids = some ⟨some c, false⟩ ∧
    ((c = .inherit ∧ type ≠ .bgpsec) ∨ ∃ l, c = .list l ∧ l ≠ [])

def Ext.isIp : Ext → Bool
  | .ip _ _ => true
  | _ => false
def Ext.isAsn : Ext → Bool
  | .asn _ _ => true
  | _ => false

/-- The profile of the resource extensions of a certificate. -/
structure Profile (type : CertType) (exts : List Ext) : Prop where
  /-- none under the identifiers of the other policy -/
  policy : Ext.badPolicy ∉ exts
  /-- some resource extension, none twice -/
  some : exts.countP Ext.isIp + exts.countP Ext.isAsn ≠ 0
  ipOnce : exts.countP Ext.isIp ≤ 1
  asnOnce : exts.countP Ext.isAsn ≤ 1
  ip : ∀ c b, Ext.ip c b ∈ exts → IpProfile c b
  asn : ∀ c i, Ext.asn c i ∈ exts → AsnProfile type c i

theorem addList_ok {α β} {cmp : α → α → Cmp} {decode : β → Option α} {P : Option (Option Nat)} {policy : Policy}
    {force : Bool} {es : List β} {h : Sets α} {own : Option Nat}
    (ho : (addList cmp decode P policy force es h own).2.2 = .ok) : es ≠ [] := by
  unfold addList at ho
  split_ifs at ho with h1 h2
  rintro rfl
  exact h2 rfl

theorem family_ip4 {l : List Byte} (h : getAddrFamily l = .ip4) : l = [0, 1] := by
  unfold getAddrFamily at h
  match l with
  | [a, b] =>
    simp only [List.length_cons, List.length_nil, List.getD_cons_zero, List.getD_cons_succ] at h
    split_ifs at h with _ h1 h2 <;> simp_all
  | [] => simp at h
  | [_] => simp at h
  | _ :: _ :: _ :: _ => simp at h

theorem family_ip6 {l : List Byte} (h : getAddrFamily l = .ip6) : l = [0, 2] := by
  unfold getAddrFamily at h
  match l with
  | [a, b] =>
    simp only [List.length_cons, List.length_nil, List.getD_cons_zero, List.getD_cons_succ] at h
    split_ifs at h with _ h1 h2 h3 <;> simp_all
  | [] => simp at h
  | [_] => simp at h
  | _ :: _ :: _ :: _ => simp at h

theorem addIp_ok {h : Heap} {r : Resources} {parent : Option Resources} {b : IpBlock}
    (ho : (resourcesAddIp h r parent b).2.2 = .ok) :
    b.choice.Stated ∧ (getAddrFamily b.family = .ip4 ∨ getAddrFamily b.family = .ip6) := by
  unfold resourcesAddIp at ho
  cases hf : getAddrFamily b.family <;> rw [hf] at ho
  · refine ⟨?_, .inl rfl⟩
    cases hc : b.choice <;> rw [hc] at ho
    · cases ho
    · trivial
    · exact addList_ok ho
  · refine ⟨?_, .inr rfl⟩
    cases hc : b.choice <;> rw [hc] at ho
    · cases ho
    · trivial
    · exact addList_ok ho
  · cases ho

theorem addBlocks_ok {parent : Option Resources} {bs : List IpBlock} {h : Heap} {r : Resources}
    (ho : (addBlocks parent bs h r).2.2 = .ok) :
    ∀ b ∈ bs, b.choice.Stated ∧ (getAddrFamily b.family = .ip4 ∨ getAddrFamily b.family = .ip6) := by
  induction bs generalizing h r with
  | nil => simp
  | cons b bs ih =>
    unfold addBlocks at ho
    have key := addIp_ok (h := h) (r := r) (parent := parent) (b := b)
    generalize resourcesAddIp h r parent b = x at ho key
    obtain ⟨h', r', o⟩ := x
    cases o with
    | ok =>
      intro c hc
      rcases List.mem_cons.1 hc with rfl | hc
      · exact key rfl
      · exact ih ho c hc
    | err => cases ho
    | crit => cases ho

theorem handleIp_ok {h : Heap} {r : Resources} {parent : Option Resources} {blocks : Option (List IpBlock)}
    (ho : (handleIpExtension h r parent blocks).2.2 = .ok) : IpProfile true blocks := by
  refine ⟨rfl, ?_⟩
  unfold handleIpExtension at ho
  split at ho
  · cases ho
  · rename_i b
    left
    obtain ⟨h1, h2⟩ := addBlocks_ok ho b (by simp)
    rcases h2 with h2 | h2
    · exact ⟨b, rfl, .inl ⟨family_ip4 h2, h1⟩⟩
    · exact ⟨b, rfl, .inr ⟨family_ip6 h2, h1⟩⟩
  · rename_i b c
    right
    split_ifs at ho with h1 h2
    have hb := addBlocks_ok ho b (by simp)
    have hc := addBlocks_ok ho c (by simp)
    exact ⟨b, c, rfl, ⟨family_ip4 (by simpa using h1), hb.1⟩, ⟨family_ip6 (by simpa using h2), hc.1⟩⟩
  · cases ho

theorem handleAsn_ok {h : Heap} {r : Resources} {parent : Option Resources} {ids : Option AsIds} {type : CertType}
    (ho : (handleAsnExtension h r parent ids (type ≠ .bgpsec)).2.2 = .ok) : AsnProfile type true ids := by
  refine ⟨rfl, ?_⟩
  unfold handleAsnExtension at ho
  cases ids with
  | none => cases ho
  | some ids =>
    obtain ⟨asnum, rdi⟩ := ids
    simp only [resourcesAddAsn] at ho
    cases asnum with
    | none => cases ho
    | some c =>
      cases rdi with
      | true => cases ho
      | false =>
        refine ⟨c, rfl, ?_⟩
        cases c with
        | nothing => cases ho
        | inherit =>
          left
          refine ⟨rfl, ?_⟩
          rintro rfl
          simp at ho
        | list l => right; exact ⟨l, rfl, addList_ok ho⟩

theorem extLoop_ok {parent : Option Resources} {type : CertType} (es : List Ext) (f g : Bool) {h : Heap} {r : Resources}
    (ho : (extLoop parent (type ≠ .bgpsec) es f g h r).2.2 = .ok) :
    Ext.badPolicy ∉ es ∧ (f = true ∨ g = true ∨ es.countP Ext.isIp + es.countP Ext.isAsn ≠ 0) ∧
    (es.countP Ext.isIp + (if f then 1 else 0) ≤ 1) ∧ (es.countP Ext.isAsn + (if g then 1 else 0) ≤ 1) ∧
    (∀ c b, Ext.ip c b ∈ es → IpProfile c b) ∧ (∀ c i, Ext.asn c i ∈ es → AsnProfile type c i) := by
  induction es generalizing f g h r with
  | nil =>
    unfold extLoop at ho
    cases f <;> cases g <;> simp at ho ⊢
  | cons e es ih =>
    unfold extLoop at ho
    cases e with
    | ip critical blocks =>
      simp only at ho
      split_ifs at ho with hf hc
      have key := handleIp_ok (h := h) (r := r) (parent := parent) (blocks := blocks)
      generalize handleIpExtension h r parent blocks = x at ho key
      obtain ⟨h', r', o⟩ := x
      cases o with
      | err => cases ho
      | crit => cases ho
      | ok =>
        obtain ⟨a1, a2, a3, a4, a5, a6⟩ := ih true g ho
        simp only [if_true] at a3
        have hcr : critical = true := by simpa using hc
        have hf' : f = false := by simpa using hf
        refine ⟨by simpa using a1, .inr (.inr (by simp [Ext.isIp])), ?_, ?_, ?_, ?_⟩
        · rw [List.countP_cons_of_pos (by rfl), hf']; simpa only [Bool.false_eq_true, if_false, Nat.add_zero] using a3
        · simpa [Ext.isAsn] using a4
        · intro c b hm
          rcases List.mem_cons.1 hm with hm | hm
          · cases hm; rw [hcr]; exact key rfl
          · exact a5 c b hm
        · intro c i hm
          rcases List.mem_cons.1 hm with hm | hm
          · cases hm
          · exact a6 c i hm
    | asn critical ids =>
      simp only at ho
      split_ifs at ho with hf hc
      have key := handleAsn_ok (h := h) (r := r) (parent := parent) (ids := ids) (type := type)
      generalize handleAsnExtension h r parent ids (type ≠ .bgpsec) = x at ho key
      obtain ⟨h', r', o⟩ := x
      cases o with
      | err => cases ho
      | crit => cases ho
      | ok =>
        obtain ⟨a1, a2, a3, a4, a5, a6⟩ := ih f true ho
        simp only [if_true] at a4
        have hcr : critical = true := by simpa using hc
        have hg' : g = false := by simpa using hf
        refine ⟨by simpa using a1, .inr (.inr (by simp [Ext.isAsn])), ?_, ?_, ?_, ?_⟩
        · simpa [Ext.isIp] using a3
        · rw [List.countP_cons_of_pos (by rfl), hg']; simpa only [Bool.false_eq_true, if_false, Nat.add_zero] using a4
        · intro c b hm
          rcases List.mem_cons.1 hm with hm | hm
          · cases hm
          · exact a5 c b hm
        · intro c i hm
          rcases List.mem_cons.1 hm with hm | hm
          · cases hm; rw [hcr]; exact key rfl
          · exact a6 c i hm
    | badPolicy => cases ho
    | other =>
      obtain ⟨a1, a2, a3, a4, a5, a6⟩ := ih f g ho
      refine ⟨by simpa using a1, by simpa [Ext.isIp, Ext.isAsn] using a2, by simpa [Ext.isIp] using a3,
        by simpa [Ext.isAsn] using a4, ?_, ?_⟩
      · intro c b hm; exact a5 c b (by simpa using hm)
      · intro c b hm; exact a6 c b (by simpa using hm)

/-- C72. The resources of a certificate are accepted only if its resource extensions comply with the profile. -/
theorem C72_profile (h h' : Heap) (r r' : Resources) (parent : Option Resources) (exts : List Ext) (type : CertType)
    (he : certificateGetResources h r parent exts type = (h', r', .ok)) : Profile type exts := by
  have ho : (extLoop parent (type ≠ .bgpsec) exts false false h r).2.2 = .ok := by
    unfold certificateGetResources at he; rw [he]
  obtain ⟨a1, a2, a3, a4, a5, a6⟩ := extLoop_ok exts false false ho
  exact ⟨a1, by simpa using a2, by simpa using a3, by simpa using a4, a5, a6⟩

/-- An accepted trust anchor. -/
example : ∃ h r, certificateGetResources ⟨[], [], []⟩ (Resources.create .rfc6484 false) none
    [.other, .asn true (some ⟨some (.list [.range [1] [10]]), false⟩)] .ta = (h, r, .ok) := by
  refine ⟨⟨[], [], [[⟨1, 10⟩]]⟩, ⟨none, none, some 0, .rfc6484, false⟩, by decide⟩

end Verif.Res
