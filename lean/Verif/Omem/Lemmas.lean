import Verif.Omem.Model
import Verif.Omem.Spec
import Verif.Heap.Lost
/-
Triples.
-/
namespace Verif.Omem
open Verif.Heap

/-- What's allocated is what's in the list and what's lost, which is nothing if `c`. -/
def O (c : Prop) (L : List Id) (s : H) : Prop := Own L s ∧ (c → s.lost = [])

/-- Nothing that matters changes. -/
abbrev S (c : Prop) (L : List Id) {α : Type} (m : HM α) : Prop := Tri (O c L) m (fun _ => O c L)

variable {c : Prop} {L : List Id}

theorem O.perm {L L' : List Id} {s : H} (h : O c L s) (hL : ∀ i, L.count i = L'.count i) : O c L' s := ⟨h.1.perm hL, h.2⟩
theorem o_perm {α : Type} {L L' : List Id} {m : HM α} {Q : α → H → Prop} (h : Tri (O c L) m Q) (hL : ∀ i, L'.count i = L.count i) : Tri (O c L') m Q := fun s hs => h s (hs.perm hL)
theorem lift {α : Type} {m : HM α} {f : α → List Id} (h : Tri (Own L) m (fun a => Own (f a))) (k : Keeps m) : Tri (O c L) m (fun a => O c (f a)) :=
  fun s hs => ⟨h s hs.1, fun hc => by rw [k]; exact hs.2 hc⟩

theorem o_ask : S c L ask := lift t_ask k_ask
theorem o_askB : S c L askB := lift t_askB (Keeps.bind k_ask fun _ => Keeps.pure)
theorem o_new : Tri (O c L) new (fun x => O c (x :: L)) := lift t_new k_new
theorem o_use {i : Id} (hi : i ∈ L) : S c L (use i) := lift (t_use hi) k_use
theorem o_free {i : Id} : Tri (O c (i :: L)) (free i) (fun _ => O c L) := lift t_free k_free
theorem o_useAll {l : List Id} (hl : ∀ i ∈ l, i ∈ L) : S c L (useAll l) := lift (t_useAll l hl) (k_useAll l)
theorem o_create : Tri (O c L) create (fun r => O c (r.toList ++ L)) :=
  Tri.bind o_askB fun _ => Tri.ite (fun _ => Tri.pure fun _ h => h) fun _ => Tri.bind o_new fun _ => Tri.pure fun _ h => h
theorem o_freeP : ∀ p : Ptr, Tri (O c (p.toList ++ L)) (freeP p) (fun _ => O c L)
  | none => Tri.pure fun _ h => h
  | some _ => o_free
theorem o_useP {p : Ptr} (hp : p ≠ none) (h : ∀ i ∈ p.toList, i ∈ L) : S c L (useP p) := by
  cases p with
  | none => exact absurd rfl hp
  | some i => exact o_use (h i (by simp))
theorem o_peek {p : Ptr} (h : ∀ i ∈ p.toList, i ∈ L) : S c L (peek p) := by
  cases p with
  | none => exact Tri.pure fun _ h => h
  | some i => exact o_use (h i (by simp))
theorem o_loseP {p : Ptr} (h : c → p = none) : Tri (O c (p.toList ++ L)) (loseP p) (fun _ => O c L) := by
  cases p with
  | none => exact Tri.pure fun _ h => h
  | some i => exact fun s hs => ⟨t_lose s hs.1, fun hc => absurd (h hc) (by simp)⟩
theorem o_realloc {i : Id} : Tri (O c (i :: L)) (realloc i) (fun j => O c (j :: L)) := Tri.bind o_free fun _ => o_new
theorem o_when {b : Bool} {m : HM Unit} (h : b = true → S c L m) : S c L (whenB b m) := Tri.ite h fun _ => Tri.pure fun _ h => h
theorem o_pure {α : Type} {a : α} : S c L (pure a : HM α) := Tri.pure fun _ h => h

macro "cnt" : tactic => `(tactic| (simp only [Option.toList, Option.elim, List.count_append, List.count_cons, List.count_nil, List.flatMap_cons, List.flatMap_nil, List.flatMap_append, List.append_assoc, List.cons_append, List.nil_append] <;> omega))

/-! ### Names -/

def RName.things (r : RName) : List Id := r.cn.toList ++ r.sn.toList ++ [r.id]

theorem o_name2string {old : Ptr} (h : c → old = none) : Tri (O c (old.toList ++ L)) (name2string old) (fun x s => O c (x.2.toList ++ L) s ∧ (x.1 = true → x.2 = old)) := by
  refine Tri.bind o_askB fun _ => Tri.ite (fun _ => Tri.pure fun _ h => ⟨h, fun _ => rfl⟩) fun _ => Tri.bind o_new fun r => ?_
  refine Tri.bind (o_perm (o_loseP (L := r :: L) h) fun i => by cnt) fun _ => Tri.pure fun _ h => ⟨h, by simp⟩

def Fits (r : RName) (n : Name) : Prop := (r.cn = none ∧ n.count .cn ≤ 1 ∨ n.count .cn = 0) ∧ (r.sn = none ∧ n.count .sn ≤ 1 ∨ n.count .sn = 0)

theorem o_nameLoop : ∀ (n : Name) (r : RName), (c → Fits r n) → Tri (O c (r.things ++ L)) (nameLoop r n) (fun x s => O c (x.2.things ++ L) s ∧ x.2.id = r.id)
  | [], r, _ => Tri.pure fun _ h => ⟨h, rfl⟩
  | .cn :: l, r, hf => by
    have h1 : c → r.cn = none := fun hc => (hf hc).1.elim (·.1) fun h => by simp at h
    refine Tri.bind (o_perm (o_name2string (L := r.sn.toList ++ r.id :: L) h1) fun i => by simp only [RName.things]; cnt) fun x => Tri.pre fun hx => Tri.ite (fun h => ?_) fun h => ?_
    · rw [hx h]
      exact Tri.pure fun _ h => ⟨h.perm fun i => by simp only [RName.things]; cnt, rfl⟩
    · refine o_perm (o_nameLoop l { r with cn := x.2 } fun hc => ?_) fun i => by simp only [RName.things]; cnt
      have := hf hc
      simp only [Fits, List.count_cons] at this ⊢
      simp only [h1 hc] at this
      refine ⟨?_, ?_⟩
      · right; simpa using this.1
      · simpa using this.2
  | .sn :: l, r, hf => by
    have h1 : c → r.sn = none := fun hc => (hf hc).2.elim (·.1) fun h => by simp at h
    refine Tri.bind (o_perm (o_name2string (L := r.cn.toList ++ r.id :: L) h1) fun i => by simp only [RName.things]; cnt) fun x => Tri.pre fun hx => Tri.ite (fun h => ?_) fun h => ?_
    · rw [hx h]
      exact Tri.pure fun _ h => ⟨h.perm fun i => by simp only [RName.things]; cnt, rfl⟩
    · refine o_perm (o_nameLoop l { r with sn := x.2 } fun hc => ?_) fun i => by simp only [RName.things]; cnt
      have := hf hc
      simp only [Fits, List.count_cons] at this ⊢
      simp only [h1 hc] at this
      refine ⟨?_, ?_⟩
      · simpa using this.1
      · right; simpa using this.2
  | .other :: _, r, _ => Tri.pure fun _ h => ⟨h, rfl⟩

theorem o_namePut {r : RName} : Tri (O c (r.things ++ L)) (namePut r) (fun _ => O c L) := by
  refine Tri.bind (o_use (by simp [RName.things])) fun _ => ?_
  refine Tri.bind (o_perm (o_freeP (L := r.sn.toList ++ r.id :: L) r.cn) fun i => by simp only [RName.things]; cnt) fun _ => Tri.bind (o_freeP _) fun _ => o_free

theorem o_nameDecode {n : Name} (h : c → Once n) : Tri (O c L) (nameDecode n) (fun r s => O c ((r.elim [] RName.things) ++ L) s ∧ ∀ x, r = some x → x.cn ≠ none) := by
  refine Tri.bind o_new fun id => ?_
  refine Tri.bind (o_perm (o_nameLoop (L := L) n ⟨id, none, none⟩ fun hc => ⟨.inl ⟨rfl, (h hc).1⟩, .inl ⟨rfl, (h hc).2⟩⟩) fun i => by simp only [RName.things]; cnt) fun x => Tri.pre fun _ => ?_
  refine Tri.ite (fun _ => Tri.bind o_namePut fun _ => Tri.pure fun _ h => ⟨h, by simp⟩) fun _ => ?_
  refine Tri.ite (fun _ => Tri.bind o_namePut fun _ => Tri.pure fun _ h => ⟨h, by simp⟩) fun hn => Tri.pure fun _ h => ⟨h, ?_⟩
  rintro y hy
  cases hy
  exact hn

theorem o_nameEquals {a b : RName} (ha : a.cn ≠ none) (hb : b.cn ≠ none) (h1 : ∀ i ∈ a.things, i ∈ L) (h2 : ∀ i ∈ b.things, i ∈ L) : S c L (nameEquals a b) := by
  refine Tri.bind (o_useP ha fun i hi => h1 i (by simp [RName.things] at hi ⊢; simp [hi])) fun _ => Tri.bind (o_useP hb fun i hi => h2 i (by simp [RName.things] at hi ⊢; simp [hi])) fun _ => Tri.bind o_askB fun _ => ?_
  refine Tri.ite (fun _ => o_pure) fun _ => ?_
  exact Tri.bind (o_peek fun i hi => h1 i (by simp [RName.things] at hi ⊢; simp [hi])) fun _ => Tri.bind (o_peek fun i hi => h2 i (by simp [RName.things] at hi ⊢; simp [hi])) fun _ => o_askB

/-- The certificate at the top of the stack. -/
def ParentOk (c : Prop) (L : List Id) (p : Option (Id × CertF)) : Prop := ∀ x, p = some x → x.1 ∈ L ∧ (c → x.2.Clean)

theorem ParentOk.mono {L L' : List Id} {p : Option (Id × CertF)} (h : ParentOk c L p) (hL : ∀ i ∈ L, i ∈ L') : ParentOk c L' p := fun x hx => ⟨hL _ (h x hx).1, (h x hx).2⟩

theorem o_validateIssuerName {p : Option (Id × CertF)} {cont : Id} {n : Name} (hp : ParentOk c L p) (hc : cont ∈ L) (hn : c → Once n) : S c L (validateIssuerName p cont n) := by
  cases p with
  | none => exact o_pure
  | some p =>
    obtain ⟨h1, h2⟩ := hp p rfl
    refine Tri.bind (o_use h1) fun _ => Tri.bind (o_nameDecode fun hc => (h2 hc).2.1) fun r => Tri.pre fun hr => ?_
    cases r with
    | none => exact o_pure
    | some ps =>
      have hps := hr ps rfl
      refine Tri.bind (o_use (by simp [hc])) fun _ => Tri.bind (o_nameDecode hn) fun r => Tri.pre fun hr => ?_
      cases r with
      | none => exact Tri.bind o_namePut fun _ => o_pure
      | some ci =>
        have hci := hr ci rfl
        have u1 : S c (ci.things ++ (ps.things ++ L)) (useP ci.cn) := o_useP hci fun i hi => by simp [RName.things] at hi ⊢; simp [hi]
        have u2 : S c (ci.things ++ (ps.things ++ L)) (useP ps.cn) := o_useP hps fun i hi => by simp [RName.things] at hi ⊢; simp [hi]
        refine Tri.bind u1 fun _ => Tri.bind (o_nameEquals hps hci (fun i hi => by simp [hi]) fun i hi => by simp [hi]) fun e => ?_
        refine Tri.bind (o_when fun _ => ?_) fun _ => Tri.bind o_namePut fun _ => Tri.bind o_namePut fun _ => o_pure
        refine Tri.bind (o_peek fun i hi => by simp [RName.things] at hi ⊢; simp [hi]) fun _ => Tri.bind (o_peek fun i hi => by simp [RName.things] at hi ⊢; simp [hi]) fun _ => ?_
        exact Tri.bind u1 fun _ => u2

theorem o_nameShow {cert : Id} {n : Name} (hi : cert ∈ L) (hn : c → Once n) : S c L (nameShow cert n) := by
  refine Tri.bind (o_use hi) fun _ => Tri.bind (o_nameDecode hn) fun r => Tri.pre fun hr => ?_
  cases r with
  | none => exact o_pure
  | some r => exact Tri.bind (o_useP (hr r rfl) fun i hi => by simp [RName.things] at hi ⊢; simp [hi]) fun _ => Tri.bind o_namePut fun _ => o_pure

/-! ### CRLs -/

theorem o_load : Tri (O c L) load (fun r => O c (r.toList ++ L)) := by
  refine Tri.bind o_create fun b => ?_
  cases b with
  | none => exact o_pure
  | some bio =>
    refine Tri.bind o_askB fun _ => Tri.ite (fun _ => Tri.bind o_free fun _ => o_pure) fun _ => Tri.bind (o_use (by simp)) fun _ => Tri.bind o_create fun x => ?_
    refine Tri.bind (o_perm (o_free (L := x.toList ++ L)) fun i => by cnt) fun _ => o_pure

theorem o_debugRevoked : S c L debugRevoked := by
  refine Tri.bind o_create fun b => ?_
  cases b with
  | none => exact o_pure
  | some bn =>
    refine Tri.bind (o_use (by simp)) fun _ => Tri.bind o_create fun b => ?_
    cases b with
    | none => exact o_free
    | some str => exact Tri.bind (o_use (by simp)) fun _ => Tri.bind o_free fun _ => o_free

theorem o_revokedLoop {debug : Bool} {crl : Id} (h : crl ∈ L) : ∀ n, S c L (revokedLoop debug crl n)
  | 0 => o_pure
  | n + 1 => by
    refine Tri.bind (o_use h) fun _ => Tri.bind o_askB fun _ => Tri.ite (fun _ => o_pure) fun _ => ?_
    exact Tri.bind (o_when fun _ => o_debugRevoked) fun _ => Tri.bind o_askB fun _ => Tri.ite (fun _ => o_pure) fun _ => o_revokedLoop h n

theorem o_hashValidate : S c L hashValidate := by
  refine Tri.bind o_askB fun _ => Tri.ite (fun _ => o_pure) fun _ => Tri.bind o_new fun ctx => Tri.bind (o_use (by simp)) fun _ => Tri.bind o_askB fun e => Tri.bind o_free fun _ => ?_
  exact Tri.ite (fun _ => o_pure) fun _ => o_askB

theorem o_handleAkiTa {cert : Id} (h : cert ∈ L) : S c L (handleAkiTa cert) := by
  refine Tri.bind o_askB fun _ => Tri.ite (fun _ => o_pure) fun _ => Tri.bind (o_use h) fun _ => Tri.bind o_create fun r => ?_
  cases r with
  | none => exact o_pure
  | some ski => exact Tri.bind (o_use (by simp)) fun _ => Tri.bind o_askB fun _ => Tri.bind o_free fun _ => o_pure

theorem o_handleCdp : Tri (O c L) (handleCdp none) (fun r => O c (r.2.toList ++ L)) := by
  refine Tri.bind o_askB fun _ => Tri.ite (fun _ => o_pure) fun _ => Tri.bind o_new fun s => ?_
  exact Tri.bind (show S c _ (loseP none) from o_pure) fun _ => o_pure

theorem o_handleAki {p : Option (Id × CertF)} (hp : ParentOk c L p) : S c L (handleAki p) := by
  refine Tri.bind o_askB fun _ => Tri.ite (fun _ => o_pure) fun _ => ?_
  cases p with
  | none => exact o_pure
  | some p => exact Tri.bind (o_use (hp p rfl).1) fun _ => o_hashValidate

theorem o_handleSki {cert : Id} (h : cert ∈ L) : S c L (handleSki cert) :=
  Tri.bind (o_use h) fun _ => Tri.bind o_hashValidate fun _ => Tri.ite (fun _ => o_pure) fun _ => o_askB

theorem o_handler {p : Option (Id × CertF)} {cert d : Id} {crldp : Ptr} {x : Ext} (hp : ParentOk c L p) (hc : cert ∈ L) (hd : d ∈ L) (hx : x = .cdp → crldp = none) :
    Tri (O c (crldp.toList ++ L)) (handler p cert d crldp x) (fun r s => O c (r.2.toList ++ L) s ∧ (x ≠ .cdp → r.2 = crldp)) := by
  refine Tri.bind (o_use (by simp [hd])) fun _ => ?_
  have pl : ∀ m : HM Bool, S c (crldp.toList ++ L) m → Tri (O c (crldp.toList ++ L)) (do return (← m, crldp)) (fun r s => O c (r.2.toList ++ L) s ∧ (x ≠ .cdp → r.2 = crldp)) :=
    fun m hm => Tri.bind hm fun _ => Tri.pure fun _ h => ⟨h, fun _ => rfl⟩
  have hp' : ParentOk c (crldp.toList ++ L) p := hp.mono fun i hi => by simp [hi]
  have hc' : cert ∈ crldp.toList ++ L := by simp [hc]
  cases x with
  | cdp =>
    rw [hx rfl]
    exact fun s hs => ⟨o_handleCdp s hs, by simp⟩
  | ski => exact pl _ (o_handleSki hc')
  | aki => exact pl _ (o_handleAki hp')
  | akiTa => exact pl _ (o_handleAkiTa hc')
  | bc => exact pl _ o_askB
  | ku => exact pl _ o_askB
  | aia => exact pl _ o_askB
  | sia => exact pl _ o_askB
  | cp => exact pl _ o_askB
  | ir => exact pl _ o_askB
  | ar => exact pl _ o_askB
  | ir2 => exact pl _ o_askB
  | ar2 => exact pl _ o_askB
  | cn => exact pl _ o_askB

/-- There's a URI only if the extension was found. -/
def Found (hs found : List Ext) (crldp : Ptr) : Prop := crldp ≠ none → Ext.cdp ∈ found ∧ Ext.cdp ∈ hs

theorem o_handleExtension {hs : List Ext} {p : Option (Id × CertF)} {cert : Id} {found : List Ext} {crldp : Ptr} (hp : ParentOk c L p) (hc : cert ∈ L) (hf : Found hs found crldp) :
    Tri (O c (crldp.toList ++ L)) (handleExtension hs p cert found crldp) (fun r s => O c (r.2.2.toList ++ L) s ∧ Found hs r.2.1 r.2.2) := by
  refine Tri.bind (o_use (by simp [hc])) fun _ => Tri.bind o_ask fun k => ?_
  cases hk : hs[k]? with
  | none => exact Tri.bind o_askB fun _ => Tri.pure fun _ h => ⟨h, hf⟩
  | some x =>
    have hxm : x ∈ hs := List.mem_of_getElem? hk
    have hf' : Found hs (x :: found) crldp := fun h => ⟨List.mem_cons_of_mem _ (hf h).1, (hf h).2⟩
    refine Tri.ite (fun _ => Tri.pure fun _ h => ⟨h, hf⟩) fun hx => Tri.bind o_askB fun _ => Tri.ite (fun _ => Tri.pure fun _ h => ⟨h, hf'⟩) fun _ => ?_
    refine Tri.ite (fun _ => Tri.pure fun _ h => ⟨h, hf'⟩) fun _ => Tri.bind o_create fun d => ?_
    cases d with
    | none => exact Tri.pure fun _ h => ⟨h, hf'⟩
    | some d =>
      have hcd : x = .cdp → crldp = none := by
        rintro rfl
        cases h : crldp with
        | none => rfl
        | some y => exact absurd (hf (by simp [h])).1 hx
      refine Tri.bind (o_perm (o_handler (L := d :: L) (hp.mono fun i hi => by simp [hi]) (by simp [hc]) (by simp) hcd) fun i => by cnt) fun r => Tri.pre fun hr => ?_
      refine Tri.bind (o_perm (o_free (L := r.2.toList ++ L)) fun i => by cnt) fun _ => Tri.pure fun _ h => ⟨h, ?_⟩
      intro hn
      by_cases hxc : x = .cdp
      · exact ⟨by simp [hxc], hxc ▸ hxm⟩
      · have h1 : crldp ≠ none := hr hxc ▸ hn
        exact hf' h1

theorem o_extLoop {hs : List Ext} {p : Option (Id × CertF)} {cert : Id} (hp : ParentOk c L p) (hc : cert ∈ L) :
    ∀ (n : Nat) (found : List Ext) (crldp : Ptr), Found hs found crldp → Tri (O c (crldp.toList ++ L)) (extLoop hs p cert n found crldp) (fun r s => O c (r.2.toList ++ L) s ∧ (r.2 ≠ none → Ext.cdp ∈ hs))
  | 0, _, _, hf => Tri.bind o_askB fun _ => Tri.pure fun _ h => ⟨h, fun h => (hf h).2⟩
  | n + 1, found, crldp, hf => by
    refine Tri.bind (o_handleExtension hp hc hf) fun r => Tri.pre fun hr => Tri.ite (fun _ => Tri.pure fun _ h => ⟨h, fun h => (hr h).2⟩) fun _ => ?_
    exact o_extLoop hp hc n _ _ hr

theorem o_handleExtensions {hs : List Ext} {p : Option (Id × CertF)} {cert : Id} (hp : ParentOk c L p) (hc : cert ∈ L) :
    Tri (O c L) (handleExtensions hs p cert) (fun r s => O c (r.2.toList ++ L) s ∧ (r.2 ≠ none → Ext.cdp ∈ hs)) :=
  Tri.bind o_ask fun n => o_extLoop hp hc n [] none (by simp [Found])

theorem o_crlValidate {debug : Bool} {p : Option (Id × CertF)} {f : CrlF} {crl : Id} (hp : ParentOk c L p) (hc : crl ∈ L) (hf : c → f.Clean) : S c L (crlValidate debug p f crl) := by
  refine Tri.bind (o_use hc) fun _ => Tri.bind o_askB fun _ => Tri.ite (fun _ => o_pure) fun _ => ?_
  refine Tri.bind (o_validateIssuerName hp hc fun h => (hf h).1) fun _ => Tri.ite (fun _ => o_pure) fun _ => ?_
  refine Tri.bind o_ask fun n => Tri.bind (o_revokedLoop hc n) fun _ => Tri.ite (fun _ => o_pure) fun _ => ?_
  refine Tri.bind (o_handleExtensions hp hc) fun r => Tri.pre fun hr => ?_
  have hn : r.2 = none := by
    cases h : r.2 with
    | none => rfl
    | some x => exact absurd (hr (by simp [h])) (by decide)
  rw [hn]
  exact Tri.bind (show S c _ (peek none) from o_pure) fun _ => o_pure

theorem o_crlLoad {debug : Bool} {p : Option (Id × CertF)} {f : CrlF} (hp : ParentOk c L p) (hf : c → f.Clean) : Tri (O c L) (crlLoad debug p f) (fun r => O c (r.toList ++ L)) := by
  refine Tri.bind o_load fun r => ?_
  cases r with
  | none => exact o_pure
  | some crl =>
    refine Tri.bind (o_crlValidate (hp.mono fun i hi => by simp [hi]) (by simp) hf) fun _ => Tri.ite (fun _ => Tri.bind o_free fun _ => o_pure) fun _ => o_pure

def Pp.things (p : Pp) : List Id := p.crls.elim [] fun x => [x.crl, x.stack]

/-- The CRL that was loaded. -/
def CrlsOk (c : Prop) (L : List Id) (x : Crls) : Prop := x.crl ∈ L ∧ x.stack ∈ L ∧ (c → x.file.Clean)
def Pp.Ok (c : Prop) (p : Pp) : Prop := ∀ x, p.crls = some x → c → x.file.Clean

theorem CrlsOk.mono {L L' : List Id} {x : Crls} (h : CrlsOk c L x) (hL : ∀ i ∈ L, i ∈ L') : CrlsOk c L' x := ⟨hL _ h.1, hL _ h.2.1, h.2.2⟩

theorem o_rppCrl {debug : Bool} {p : Option (Id × CertF)} {f : CrlF} {pp : Pp} (hp : ParentOk c L p) (hf : c → f.Clean) (hpp : pp.Ok c) :
    Tri (O c (pp.things ++ L)) (rppCrl debug p f pp) (fun r s => O c (r.1.things ++ L) s ∧ r.1.Ok c ∧ ∀ x, r.2 = some x → CrlsOk c r.1.things x) := by
  unfold rppCrl
  cases hc : pp.crls with
  | some x =>
    refine Tri.pure fun _ h => ⟨h, hpp, ?_⟩
    rintro y hy
    cases hy
    exact ⟨by simp [Pp.things, hc], by simp [Pp.things, hc], fun h => hpp x hc h⟩
  | none =>
    have ht : pp.things = [] := by simp [Pp.things, hc]
    refine Tri.ite (fun _ => Tri.pure fun _ h => ⟨h, hpp, by simp⟩) fun _ => ?_
    rw [ht, List.nil_append]
    have hbad : Pp.Ok c ⟨none, true⟩ := by simp [Pp.Ok]
    refine Tri.bind o_new fun stack => Tri.bind (o_crlLoad (hp.mono fun i hi => by simp [hi]) hf) fun r => ?_
    cases r with
    | none => exact Tri.bind o_free fun _ => Tri.pure fun _ h => ⟨h, hbad, by simp⟩
    | some crl =>
      refine Tri.bind (o_use (by simp)) fun _ => Tri.bind o_askB fun _ => Tri.ite (fun _ => Tri.bind o_free fun _ => Tri.bind o_free fun _ => Tri.pure fun _ h => ⟨h, hbad, by simp⟩) fun _ => ?_
      refine Tri.pure fun _ h => ⟨h, ?_, ?_⟩
      · rintro x hx h
        cases hx
        exact hf h
      · rintro x hx
        cases hx
        exact ⟨by simp [Pp.things], by simp [Pp.things], hf⟩

theorem o_ppDrop {pp : Pp} : Tri (O c (pp.things ++ L)) (ppDrop pp) (fun _ => O c L) := by
  unfold ppDrop Pp.things
  cases pp.crls with
  | none => exact o_pure
  | some x => exact Tri.bind (o_use (by simp)) fun _ => Tri.bind o_free fun _ => o_free

/-! ### The stack -/

def Frame.things (f : Frame) : List Id := f.x509 :: f.node :: f.res :: f.sep :: (f.serials.flatMap (fun p => [p.1, p.2]) ++ f.arr.toList)
def stackThings (st : List Frame) : List Id := st.flatMap Frame.things
def Frame.Ok (c : Prop) (f : Frame) : Prop := (f.serials ≠ [] → f.arr ≠ none) ∧ (c → f.cert.Clean)
def StackOk (c : Prop) (st : List Frame) : Prop := ∀ f ∈ st, f.Ok c

theorem parentOk {st : List Frame} (h : StackOk c st) : ParentOk c (stackThings st ++ L) (peekStack st) := by
  cases st with
  | nil => simp [ParentOk, peekStack]
  | cons f fs =>
    rintro x hx
    cases hx
    exact ⟨by simp [stackThings, Frame.things], (h f (by simp)).2⟩

theorem x509s_mem {st : List Frame} : ∀ i ∈ st.map (·.x509), i ∈ stackThings st := by
  intro i hi
  obtain ⟨f, hf, rfl⟩ := List.mem_map.1 hi
  exact List.mem_flatMap.2 ⟨f, hf, by simp [Frame.things]⟩

theorem o_bn2string {n : Id} (h : n ∈ L) : Tri (O c L) (bn2string n) (fun r => O c (r.toList ++ L)) := by
  refine Tri.bind o_create fun r => ?_
  cases r with
  | none => exact o_pure
  | some bio =>
    refine Tri.bind (o_use (by simp [h])) fun _ => Tri.bind o_askB fun _ => Tri.ite (fun _ => Tri.bind o_free fun _ => o_pure) fun _ => Tri.bind o_new fun r => Tri.bind (o_use (by simp)) fun _ => ?_
    exact Tri.bind (o_perm (o_free (L := r :: L)) fun i => by cnt) fun _ => o_pure

theorem o_serialLoop {n : Id} : ∀ l : List (Id × Id), (∀ p ∈ l, p.1 ∈ L ∧ p.2 ∈ L) → Tri (O c (n :: L)) (serialLoop n l) (fun r s => O c ((if r = true then [] else [n]) ++ L) s)
  | [], _ => Tri.pure fun _ h => h
  | s :: l, h => by
    have h0 := h s (by simp)
    refine Tri.bind (o_use (by simp [h0])) fun _ => Tri.bind (o_use (by simp)) fun _ => Tri.bind o_askB fun _ => Tri.ite (fun _ => ?_) fun _ => o_serialLoop l fun p hp => h p (by simp [hp])
    refine Tri.bind (o_bn2string (by simp)) fun str => Tri.bind (o_peek fun i hi => by simp [hi]) fun _ => Tri.bind (o_use (by simp [h0])) fun _ => ?_
    exact Tri.bind (o_perm (o_free (L := str.toList ++ L)) fun i => by cnt) fun _ => Tri.bind (o_freeP _) fun _ => Tri.pure fun _ h => h

theorem o_arrAdd {a : Ptr} : Tri (O c (a.toList ++ L)) (arrAdd a) (fun r => O c (r :: L)) := by
  cases a with
  | none => exact o_new
  | some a => exact Tri.bind o_askB fun _ => Tri.ite (fun _ => o_realloc) fun _ => o_pure

/-- The post-condition of what may add a serial number to the stack. -/
abbrev PostS (c : Prop) (L : List Id) (st : List Frame) (s : H) : Prop := O c (stackThings st ++ L) s ∧ StackOk c st

theorem o_storeSerial {st : List Frame} {n : Id} (h : StackOk c st) : Tri (O c (n :: (stackThings st ++ L))) (storeSerial st n) (fun r => PostS c L r) := by
  cases st with
  | nil => exact Tri.bind o_free fun _ => Tri.pure fun _ h' => ⟨h', h⟩
  | cons f fs =>
    refine Tri.bind (o_use (by simp [stackThings, Frame.things])) fun _ => ?_
    refine Tri.bind (o_serialLoop (L := stackThings (f :: fs) ++ L) f.serials fun p hp => ?_) fun b => Tri.ite (fun hb => ?_) fun hb => ?_
    · have : ∀ i ∈ [p.1, p.2], i ∈ f.serials.flatMap (fun p => [p.1, p.2]) := fun i hi => List.mem_flatMap.2 ⟨p, hp, hi⟩
      have h1 := this p.1 (by simp)
      have h2 := this p.2 (by simp)
      simp only [stackThings, Frame.things, List.flatMap_cons, List.mem_append, List.mem_cons]
      tauto
    · subst hb
      exact Tri.pure fun _ h' => ⟨h', h⟩
    · have hb : b = false := by simpa using hb
      subst hb
      refine Tri.bind o_new fun file => ?_
      refine Tri.bind (o_perm (o_arrAdd (L := file :: n :: f.x509 :: f.node :: f.res :: f.sep :: (f.serials.flatMap (fun p => [p.1, p.2]) ++ (stackThings fs ++ L))) (a := f.arr)) fun i => ?_) fun a => ?_
      · simp only [stackThings, List.flatMap_cons, Frame.things, Bool.false_eq_true, if_false]; cnt
      refine Tri.bind (o_use (by simp)) fun _ => Tri.pure fun _ h' => ⟨h'.perm fun i => ?_, ?_⟩
      · simp only [stackThings, List.flatMap_cons, Frame.things]; cnt
      · intro g hg
        rcases List.mem_cons.1 hg with rfl | hg
        · exact ⟨by simp, (h f (by simp)).2⟩
        · exact h g (by simp [hg])

theorem o_debugSerial {n : Id} (h : n ∈ L) : S c L (debugSerial n) := by
  refine Tri.bind (o_use h) fun _ => Tri.bind o_create fun r => ?_
  cases r with
  | none => exact o_pure
  | some str => exact Tri.bind (o_use (by simp)) fun _ => o_free

theorem o_validateSerial {debug : Bool} {cert : Id} {st : List Frame} (h : StackOk c st) (hc : cert ∈ L) : Tri (O c (stackThings st ++ L)) (validateSerial debug cert st) (fun r => PostS c L r.2) := by
  refine Tri.bind (o_use (by simp [hc])) fun _ => Tri.bind o_create fun r => ?_
  cases r with
  | none => exact Tri.pure fun _ h' => ⟨h', h⟩
  | some n => exact Tri.bind (o_when fun _ => o_debugSerial (by simp)) fun _ => Tri.bind (o_storeSerial h) fun _ => Tri.pure fun _ h => h

theorem o_validateSpki {cert : Id} (h : cert ∈ L) : S c L (validateSpki cert) := by
  refine Tri.bind o_create fun r => ?_
  cases r with
  | none => exact o_pure
  | some spki =>
    refine Tri.bind (o_use (by simp)) fun _ => Tri.bind o_askB fun _ => Tri.ite (fun _ => Tri.bind o_free fun _ => o_pure) fun _ => ?_
    exact Tri.bind (o_use (by simp [h])) fun _ => Tri.bind o_askB fun _ => Tri.bind o_free fun _ => o_pure

theorem o_validatePublicKey {t : Ty} {cert : Id} (h : cert ∈ L) : S c L (validatePublicKey t cert) := by
  refine Tri.bind (o_use h) fun _ => Tri.bind o_askB fun _ => Tri.ite (fun _ => o_pure) fun _ => Tri.ite (fun _ => ?_) fun _ => o_pure
  exact Tri.bind (o_validateSpki h) fun _ => Tri.ite (fun _ => o_pure) fun _ => Tri.bind (o_use h) fun _ => o_askB

theorem o_validateIssuer {t : Ty} {p : Option (Id × CertF)} {f : CertF} {cert : Id} (hp : ParentOk c L p) (hc : cert ∈ L) (hf : c → f.Clean) : S c L (validateIssuer t p f cert) :=
  Tri.ite (fun _ => o_nameShow hc fun h => (hf h).1) fun _ => o_validateIssuerName hp hc fun h => (hf h).1

theorem o_validateRfc6487 {debug : Bool} {t : Ty} {f : CertF} {cert : Id} {st : List Frame} (h : StackOk c st) (hc : cert ∈ L) (hf : c → f.Clean) :
    Tri (O c (stackThings st ++ L)) (validateRfc6487 debug t f cert st) (fun r => PostS c L r.2) := by
  refine Tri.bind (o_use (by simp [hc])) fun _ => Tri.bind o_askB fun _ => Tri.ite (fun _ => Tri.pure fun _ h' => ⟨h', h⟩) fun _ => ?_
  refine Tri.bind (o_validateSerial h hc) fun r => Tri.pre fun hr => ?_
  have hc' : cert ∈ stackThings r.2 ++ L := by simp [hc]
  refine Tri.ite (fun _ => Tri.pure fun _ h' => ⟨h', hr⟩) fun _ => Tri.bind o_askB fun _ => Tri.ite (fun _ => Tri.pure fun _ h' => ⟨h', hr⟩) fun _ => ?_
  refine Tri.bind (o_validateIssuer (parentOk hr) hc' hf) fun _ => Tri.ite (fun _ => Tri.pure fun _ h' => ⟨h', hr⟩) fun _ => ?_
  refine Tri.bind (o_nameShow hc' fun h => (hf h).2.1) fun _ => Tri.ite (fun _ => Tri.pure fun _ h' => ⟨h', hr⟩) fun _ => ?_
  exact Tri.bind (o_validatePublicKey hc') fun _ => Tri.pure fun _ h' => ⟨h', hr⟩

/-! ### Chains -/

theorem o_asn1time2str {ok : Bool} (h : c → ok = true) : Tri (O c L) (asn1time2str ok) (fun r => O c (r.toList ++ L)) := by
  refine Tri.bind o_new fun bio => Tri.ite (fun _ => ?_) fun hn => ?_
  · exact Tri.bind (o_use (by simp)) fun _ => Tri.bind o_new fun res => Tri.bind (o_perm (o_free (L := res :: L)) fun i => by cnt) fun _ => o_pure
  · exact Tri.bind (o_loseP (p := some bio) fun hc => absurd (h hc) hn) fun _ => o_pure

theorem o_printDates {x : Id} {a b : Bool} (hx : x ∈ L) (ha : c → a = true) (hb : c → b = true) : S c L (printDates x a b) := by
  refine Tri.bind (o_use hx) fun _ => Tri.bind (o_asn1time2str ha) fun s => Tri.bind (o_asn1time2str hb) fun t => ?_
  refine Tri.bind (o_peek fun i hi => by simp [hi]) fun _ => Tri.bind (o_peek fun i hi => by simp [hi]) fun _ => ?_
  exact Tri.bind (o_perm (o_freeP (L := t.toList ++ L) s) fun i => by cnt) fun _ => o_freeP t

theorem o_updateCrlTime {orig : Id} (h : orig ∈ L) : Tri (O c L) (updateCrlTime orig) (fun r => O c (r.toList ++ L)) := by
  refine Tri.bind o_askB fun _ => Tri.ite (fun _ => o_pure) fun _ => Tri.bind o_create fun r => ?_
  cases r with
  | none => exact o_pure
  | some tm =>
    refine Tri.bind (o_use (by simp [h])) fun _ => Tri.bind o_create fun r => ?_
    cases r with
    | none => exact Tri.bind o_free fun _ => o_pure
    | some clone =>
      refine Tri.bind (o_use (by simp)) fun _ => Tri.bind (o_use (by simp)) fun _ => ?_
      exact Tri.bind (o_perm (o_free (L := clone :: L)) fun i => by cnt) fun _ => o_pure

theorem o_verifyStale {debug : Bool} {st : List Frame} {f : CertF} {cert : Id} {x : Crls} (hst : ∀ i ∈ stackThings st, i ∈ L) (hc : cert ∈ L) (hf : c → f.Clean) (hx : CrlsOk c L x) :
    S c L (verifyStale debug st f cert x) := by
  obtain ⟨h1, h2, h3⟩ := hx
  refine Tri.bind o_create fun r => ?_
  cases r with
  | none => exact o_pure
  | some ctx =>
    refine Tri.bind (o_use (by simp [hc])) fun _ => Tri.bind o_askB fun _ => Tri.ite (fun _ => Tri.bind o_free fun _ => o_pure) fun _ => Tri.bind (o_use (by simp [h2])) fun _ => ?_
    refine Tri.bind (o_updateCrlTime (by simp [h1])) fun r => ?_
    cases r with
    | none => exact Tri.bind (o_use (by simp [h2])) fun _ => Tri.bind o_free fun _ => o_pure
    | some clone =>
      refine Tri.bind (o_use (by simp)) fun _ => Tri.bind (o_use (by simp [hc])) fun _ => Tri.bind (o_useAll fun i hi => by simp [hst i (x509s_mem i hi)]) fun _ => Tri.bind (o_use (by simp [h2])) fun _ => ?_
      refine Tri.bind (o_use (by simp)) fun _ => Tri.bind o_askB fun e => Tri.bind (o_when fun _ => o_printDates (by simp [hc]) (fun h => (hf h).2.2.1) fun h => (hf h).2.2.2) fun _ => ?_
      exact Tri.bind (o_use (by simp [h2])) fun _ => Tri.bind o_free fun _ => Tri.bind (o_use (by simp [h2])) fun _ => Tri.bind o_free fun _ => o_pure

theorem o_askVerdict : S c L askVerdict := Tri.bind o_ask fun _ => o_pure

theorem o_validateChain {debug : Bool} {st : List Frame} {f : CertF} {cert : Id} {x : Option Crls} (hst : ∀ i ∈ stackThings st, i ∈ L) (hc : cert ∈ L) (hf : c → f.Clean) (hx : ∀ y, x = some y → CrlsOk c L y) :
    S c L (validateChain debug st f cert x) := by
  cases x with
  | none => exact o_pure
  | some x =>
    obtain ⟨h1, h2, h3⟩ := hx x rfl
    refine Tri.bind o_create fun r => ?_
    cases r with
    | none => exact o_pure
    | some ctx =>
      refine Tri.bind (o_use (by simp [hc])) fun _ => Tri.bind o_askB fun _ => Tri.ite (fun _ => Tri.bind o_free fun _ => o_pure) fun _ => Tri.bind (o_use (by simp)) fun _ => ?_
      refine Tri.bind (o_useAll fun i hi => by simp [hst i (x509s_mem i hi)]) fun _ => Tri.bind (o_use (by simp [h2])) fun _ => Tri.bind (o_use (by simp [h1])) fun _ => Tri.bind o_askVerdict fun v => ?_
      cases v with
      | ok => exact Tri.bind o_free fun _ => o_pure
      | bad => exact Tri.bind o_free fun _ => o_pure
      | stale =>
        refine Tri.bind (o_use (by simp [h2])) fun _ => Tri.bind (o_printDates (by simp [h1]) (fun h => (h3 h).2.1) fun h => (h3 h).2.2) fun _ => Tri.bind o_askB fun e => Tri.bind o_free fun _ => ?_
        exact Tri.ite (fun _ => o_pure) fun _ => o_verifyStale hst hc hf ⟨h1, h2, h3⟩

end Verif.Omem
