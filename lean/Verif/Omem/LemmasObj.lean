import Verif.Omem.Lemmas
/-
Triples: signed objects, certificates, threads.
-/
namespace Verif.Omem
open Verif.Heap

variable {c : Prop} {L : List Id}

/-! ### Resources -/

theorem o_asn1Decode : Tri (O c L) asn1Decode (fun r => O c (r.toList ++ L)) := by
  refine Tri.bind o_askB fun _ => Tri.ite (fun _ => Tri.bind o_create fun p => Tri.bind (o_freeP p) fun _ => o_pure) fun _ => ?_
  exact Tri.bind o_new fun x => Tri.bind (o_use (by simp)) fun _ => Tri.bind o_askB fun _ => Tri.ite (fun _ => Tri.bind o_free fun _ => o_pure) fun _ => o_pure

theorem o_resLoop {cert res : Id} (hc : cert ∈ L) (hr : res ∈ L) : ∀ n, S c L (resLoop cert res n)
  | 0 => o_askB
  | n + 1 => by
    refine Tri.bind (o_use hc) fun _ => Tri.bind o_askB fun _ => Tri.ite (fun _ => o_pure) fun _ => Tri.bind o_askB fun _ => Tri.ite (fun _ => ?_) fun _ => o_resLoop hc hr n
    refine Tri.bind o_asn1Decode fun r => ?_
    cases r with
    | none => exact o_pure
    | some x =>
      refine Tri.bind (o_use (by simp)) fun _ => Tri.bind (o_use (by simp [hr])) fun _ => Tri.bind o_askB fun _ => Tri.bind o_free fun _ => ?_
      exact Tri.ite (fun _ => o_pure) fun _ => o_resLoop hc hr n

theorem o_getResources {cert res : Id} (hc : cert ∈ L) (hr : res ∈ L) : S c L (getResources cert res) := Tri.bind o_ask fun n => o_resLoop hc hr n

/-- Whether the certificate got into the stack, or is still the caller's. -/
def pushed (cert : Id) (r : Option Frame) : List Id := r.elim [cert] Frame.things

theorem o_x509Push {f : CertF} {cert : Id} (hf : c → f.Clean) : Tri (O c (cert :: L)) (x509Push f cert) (fun r s => O c (pushed cert r ++ L) s ∧ ∀ g, r = some g → g.Ok c) := by
  have hn : ∀ g, (none : Option Frame) = some g → g.Ok c := by simp
  refine Tri.bind o_new fun m => Tri.bind o_new fun res => Tri.bind (o_getResources (by simp) (by simp)) fun _ => Tri.ite (fun _ => ?_) fun _ => Tri.bind o_new fun sep => Tri.bind o_askB fun _ => Tri.ite (fun _ => ?_) fun _ => ?_
  · exact Tri.bind o_free fun _ => Tri.bind o_free fun _ => Tri.pure fun _ h => ⟨h, hn⟩
  · exact Tri.bind o_free fun _ => Tri.bind o_free fun _ => Tri.bind o_free fun _ => Tri.pure fun _ h => ⟨h, hn⟩
  · refine Tri.pure fun _ h => ⟨h.perm fun i => ?_, ?_⟩
    · simp only [pushed, Option.elim, Frame.things]; cnt
    · rintro g hg
      cases hg
      exact ⟨by simp, hf⟩

theorem o_serialsFree {a : Ptr} (h : ∀ i ∈ a.toList, i ∈ L) : ∀ l : List (Id × Id), (l ≠ [] → a ≠ none) → Tri (O c (l.flatMap (fun p => [p.1, p.2]) ++ L)) (serialsFree a l) (fun _ => O c L)
  | [], _ => o_pure
  | s :: l, ha => by
    have ha' := ha (by simp)
    exact Tri.bind (o_useP ha' fun i hi => by simp [h i hi]) fun _ => Tri.bind o_free fun _ => Tri.bind o_free fun _ => o_serialsFree h l fun _ => ha'

theorem o_framePop {f : Frame} (hf : f.Ok c) : Tri (O c (f.things ++ L)) (framePop f) (fun _ => O c L) := by
  refine Tri.bind (o_free (L := f.node :: f.res :: f.sep :: (f.serials.flatMap (fun p => [p.1, p.2]) ++ f.arr.toList) ++ L)) fun _ => Tri.bind (o_use (by simp)) fun _ => ?_
  refine Tri.bind (o_perm (o_free (L := f.serials.flatMap (fun p => [p.1, p.2]) ++ (f.arr.toList ++ (f.node :: f.sep :: L)))) fun i => by cnt) fun _ => ?_
  exact Tri.bind (o_serialsFree (fun i hi => by simp [hi]) _ hf.1) fun _ => Tri.bind (o_freeP _) fun _ => Tri.bind o_free fun _ => o_free

/-! ### Decoding -/

theorem o_fileLoad : Tri (O c L) fileLoad (fun r => O c (r.toList ++ L)) := by
  refine Tri.bind o_create fun r => ?_
  cases r with
  | none => exact o_pure
  | some file =>
    refine Tri.bind o_askB fun _ => Tri.ite (fun _ => Tri.bind o_free fun _ => o_pure) fun _ => Tri.bind o_new fun b => Tri.bind (o_use (by simp)) fun _ => Tri.bind o_askB fun _ => ?_
    refine Tri.ite (fun _ => Tri.bind o_free fun _ => Tri.bind o_free fun _ => o_pure) fun _ => ?_
    exact Tri.bind (o_perm (o_free (L := b :: L)) fun i => by cnt) fun _ => o_pure

theorem o_oid2arcs : Tri (O c L) oid2arcs (fun r => O c (r.toList ++ L)) := by
  refine Tri.bind o_new fun a => Tri.bind o_askB fun _ => Tri.ite (fun _ => Tri.bind o_free fun _ => o_pure) fun _ => Tri.bind o_askB fun _ => Tri.ite (fun _ => ?_) fun _ => o_pure
  exact Tri.bind o_realloc fun b => Tri.bind (o_use (by simp)) fun _ => Tri.bind o_askB fun _ => Tri.ite (fun _ => Tri.bind o_free fun _ => o_pure) fun _ => o_pure

theorem o_arcsCheck {x : Id} (h : x ∈ L) : S c L (arcsCheck x) := by
  refine Tri.bind (o_use h) fun _ => Tri.bind o_oid2arcs fun r => ?_
  cases r with
  | none => exact o_pure
  | some a => exact Tri.bind (o_use (by simp)) fun _ => Tri.bind o_askB fun _ => Tri.bind o_free fun _ => o_pure

theorem o_contentInfoLoad : Tri (O c L) contentInfoLoad (fun r => O c (r.toList ++ L)) := by
  refine Tri.bind o_fileLoad fun r => ?_
  cases r with
  | none => exact o_pure
  | some fc =>
    refine Tri.bind (o_use (by simp)) fun _ => Tri.bind o_asn1Decode fun r => ?_
    cases r with
    | none => exact Tri.bind o_free fun _ => o_pure
    | some ci =>
      refine Tri.bind (o_arcsCheck (by simp)) fun _ => Tri.ite (fun _ => Tri.bind o_free fun _ => Tri.bind o_free fun _ => o_pure) fun _ => ?_
      exact Tri.bind (o_perm (o_free (L := ci :: L)) fun i => by cnt) fun _ => o_pure

def SData.things (d : SData) : List Id := d.content.toList ++ [d.rest, d.str]

theorem o_sdataFree {d : SData} : Tri (O c (d.things ++ L)) (sdataFree d) (fun _ => O c L) :=
  o_perm (Tri.bind (o_freeP (L := d.rest :: d.str :: L) _) fun _ => Tri.bind o_free fun _ => o_free) fun i => by simp only [Option.elim, SData.things]; cnt

theorem o_sdataDecode : Tri (O c L) sdataDecode (fun r => O c (r.elim [] SData.things ++ L)) := by
  refine Tri.bind o_asn1Decode fun r => ?_
  cases r with
  | none => exact o_pure
  | some str => exact Tri.bind o_new fun rest => Tri.bind o_create fun p => Tri.pure fun _ h => h.perm fun i => by simp only [Option.elim, SData.things]; cnt

theorem o_decodePkcs7 : Tri (O c L) decodePkcs7 (fun r => O c (r.elim [] SData.things ++ L)) := by
  refine Tri.bind o_sdataDecode fun r => ?_
  cases r with
  | none => exact o_pure
  | some p7 =>
    obtain ⟨str, content, rest⟩ := p7
    refine Tri.bind o_new fun sdata => ?_
    cases content with
    | none => exact Tri.bind o_free fun _ => Tri.bind o_sdataFree fun _ => o_pure
    | some any =>
      refine Tri.bind (o_use (by simp [SData.things])) fun _ => Tri.bind o_asn1Decode fun r => ?_
      cases r with
      | none => exact Tri.bind o_free fun _ => Tri.bind o_sdataFree fun _ => o_pure
      | some content =>
        refine Tri.bind (o_use (by simp [SData.things])) fun _ => ?_
        refine Tri.bind (o_perm (o_free (L := str :: rest :: sdata :: content :: L)) fun i => by simp only [Option.elim, SData.things]; cnt) fun _ => Tri.bind o_free fun _ => ?_
        exact Tri.pure fun _ h => h.perm fun i => by simp only [Option.elim, SData.things]; cnt

theorem o_signedDataDecode {ci : Id} (h : ci ∈ L) : Tri (O c L) (signedDataDecode ci) (fun r => O c (r.elim [] SData.things ++ L)) := by
  refine Tri.bind (o_use h) fun _ => Tri.bind o_sdataDecode fun r => ?_
  cases r with
  | none => exact o_decodePkcs7
  | some d => exact o_pure

/-- What a decoded object is made of. -/
def so (x : Id × SData) : List Id := x.1 :: x.2.things

theorem o_signedObjectDecode : Tri (O c L) signedObjectDecode (fun r => O c (r.elim [] so ++ L)) := by
  refine Tri.bind o_contentInfoLoad fun r => ?_
  cases r with
  | none => exact o_pure
  | some ci =>
    refine Tri.bind (o_signedDataDecode (by simp)) fun r => ?_
    cases r with
    | none => exact Tri.bind o_free fun _ => o_pure
    | some d => exact Tri.pure fun _ h => h.perm fun i => by simp only [Option.elim, so]; cnt

theorem o_signedObjectCleanup {x : Id × SData} : Tri (O c (so x ++ L)) (signedObjectCleanup x) (fun _ => O c L) := Tri.bind o_free fun _ => o_sdataFree

/-! ### Attributes -/

theorem o_contentTypeLoop {d : SData} (h : d.rest ∈ L) : ∀ n, Tri (O c L) (contentTypeLoop d n) (fun r => O c (r.toList ++ L))
  | 0 => o_pure
  | n + 1 => by
    refine Tri.bind (o_use h) fun _ => Tri.bind o_askB fun _ => Tri.ite (fun _ => o_pure) fun _ => Tri.bind o_oid2arcs fun r => ?_
    cases r with
    | none => exact o_pure
    | some a =>
      refine Tri.bind (o_use (by simp)) fun _ => Tri.bind o_askB fun _ => Tri.bind o_free fun _ => Tri.ite (fun _ => ?_) fun _ => o_contentTypeLoop h n
      exact Tri.bind o_askB fun _ => Tri.ite (fun _ => o_pure) fun _ => o_asn1Decode

theorem o_validateContentType {d : SData} (h : d.rest ∈ L) : S c L (validateContentType d) := by
  refine Tri.bind o_ask fun n => Tri.bind (o_contentTypeLoop h n) fun r => ?_
  cases r with
  | none => exact o_pure
  | some ct =>
    refine Tri.bind (o_use (by simp)) fun _ => Tri.bind o_oid2arcs fun r => ?_
    cases r with
    | none => exact Tri.bind o_free fun _ => o_pure
    | some a =>
      exact Tri.bind (o_perm (o_free (L := a :: L)) fun i => by cnt) fun _ => Tri.bind (o_use (by simp)) fun _ => Tri.bind o_askB fun _ => Tri.bind o_free fun _ => o_pure

theorem o_contentTypeAttr {d : SData} (h : d.rest ∈ L) : S c L (contentTypeAttr d) := by
  refine Tri.bind o_asn1Decode fun r => ?_
  cases r with
  | none => exact o_pure
  | some x => exact Tri.bind (o_use (by simp)) fun _ => Tri.bind (o_use (by simp [h])) fun _ => Tri.bind o_askB fun _ => Tri.bind o_free fun _ => o_pure

theorem o_messageDigestAttr {d : SData} (h : ∀ i ∈ d.things, i ∈ L) : Tri (O c L) (messageDigestAttr d) (fun r s => O c L s ∧ (r = false → d.content ≠ none)) := by
  obtain ⟨str, content, rest⟩ := d
  cases content with
  | none => exact Tri.pure fun _ h => ⟨h, by simp⟩
  | some x =>
    refine Tri.bind o_asn1Decode fun r => ?_
    cases r with
    | none => exact Tri.pure fun _ h => ⟨h, by simp⟩
    | some y =>
      refine Tri.bind (o_use (by simp)) fun _ => Tri.bind (o_use ?_) fun _ => Tri.bind o_hashValidate fun _ => Tri.bind o_free fun _ => Tri.pure fun _ h => ⟨h, by simp⟩
      exact List.mem_cons_of_mem _ (h x (by simp [SData.things]))

theorem o_attr {d : SData} {md : Bool} (h : ∀ i ∈ d.things, i ∈ L) (hm : md = true → d.content ≠ none) : Tri (O c L) (attr d md) (fun r s => O c L s ∧ (r.1 = false → r.2 = true → d.content ≠ none)) := by
  have hr : d.rest ∈ L := h _ (by simp [SData.things])
  refine Tri.bind o_ask fun k => Tri.ite (fun _ => Tri.bind (o_contentTypeAttr hr) fun _ => Tri.pure fun _ h => ⟨h, fun _ => hm⟩) fun _ => ?_
  refine Tri.ite (fun _ => Tri.bind (o_messageDigestAttr h) fun _ => Tri.pre fun hc => Tri.pure fun _ h => ⟨h, fun h _ => hc h⟩) fun _ => ?_
  exact Tri.bind o_askB fun _ => Tri.pure fun _ h => ⟨h, fun _ => hm⟩

theorem o_attrLoop {d : SData} (h : ∀ i ∈ d.things, i ∈ L) : ∀ (n : Nat) (md : Bool), (md = true → d.content ≠ none) → Tri (O c L) (attrLoop d n md) (fun r s => O c L s ∧ (r = false → d.content ≠ none))
  | 0, md, hm => Tri.ite (fun _ => Tri.pure fun _ h => ⟨h, by simp⟩) fun h => fun s hs => ⟨o_askB s hs, fun _ => hm (by simpa using h)⟩
  | n + 1, md, hm => by
    have hf : ((true : Bool) = false → d.content ≠ none) := by simp
    refine Tri.bind (o_use (h _ (by simp [SData.things]))) fun _ => Tri.bind o_askB fun _ => Tri.ite (fun _ => Tri.pure fun _ h => ⟨h, hf⟩) fun _ => Tri.bind o_oid2arcs fun r => ?_
    cases r with
    | none => exact Tri.pure fun _ h => ⟨h, hf⟩
    | some a =>
      refine Tri.bind (o_use (by simp)) fun _ => Tri.bind (o_attr (fun i hi => by simp [h i hi]) hm) fun r => Tri.pre fun hr => Tri.bind o_free fun _ => ?_
      exact Tri.ite (fun _ => Tri.pure fun _ h => ⟨h, hf⟩) fun h1 => o_attrLoop h n _ (hr (by simpa using h1))

/-! ### End-entity certificates -/

theorem o_validateSignature {ci cert : Id} {d : SData} (h1 : ci ∈ L) (h2 : cert ∈ L) (h3 : d.rest ∈ L) : S c L (validateSignature ci cert d) := by
  refine Tri.bind (o_use h2) fun _ => Tri.bind o_askB fun _ => Tri.ite (fun _ => o_pure) fun _ => Tri.bind o_create fun r => ?_
  cases r with
  | none => exact o_pure
  | some ctx => exact Tri.bind (o_use (by simp)) fun _ => Tri.bind (o_use (by simp [h1])) fun _ => Tri.bind (o_use (by simp [h3])) fun _ => Tri.bind o_askB fun _ => Tri.bind o_free fun _ => o_pure

/-- The post-condition of the validation of an EE certificate. -/
abbrev PostE (c : Prop) (L : List Id) (r : Bool × Ptr × List Frame) (s : H) : Prop := O c (r.2.1.toList ++ (stackThings r.2.2 ++ L)) s ∧ StackOk c r.2.2

theorem o_eeChecks {debug : Bool} {f : CertF} {cert ci : Id} {d : SData} {x : Crls} {res : Id} {st : List Frame} (hs : StackOk c st) (hf : c → f.Clean) (h1 : cert ∈ L) (h2 : ci ∈ L) (h3 : d.rest ∈ L) (h4 : CrlsOk c L x) (h5 : res ∈ L) :
    Tri (O c (stackThings st ++ L)) (eeChecks debug f cert ci d x res st) (PostE c L) := by
  refine Tri.bind (o_when fun _ => Tri.bind (o_nameShow (by simp [h1]) fun h => (hf h).1) fun _ => o_pure) fun _ => ?_
  refine Tri.bind (o_validateChain (fun i hi => by simp [hi]) (by simp [h1]) hf fun y hy => by cases hy; exact h4.mono fun i hi => by simp [hi]) fun _ => Tri.ite (fun _ => Tri.pure fun _ h => ⟨h, hs⟩) fun _ => ?_
  refine Tri.bind (o_validateRfc6487 hs h1 hf) fun r => Tri.pre fun hr => Tri.ite (fun _ => Tri.pure fun _ h => ⟨h, hr⟩) fun _ => ?_
  refine Tri.bind (o_handleExtensions (parentOk hr) (by simp [h1])) fun y => Tri.pre fun _ => Tri.ite (fun _ => Tri.pure fun _ h => ⟨h, hr⟩) fun _ => ?_
  refine Tri.bind (o_validateSignature (by simp [h2]) (by simp [h1]) (by simp [h3])) fun _ => Tri.ite (fun _ => Tri.pure fun _ h => ⟨h, hr⟩) fun _ => ?_
  exact Tri.bind (o_getResources (by simp [h1]) (by simp [h5])) fun _ => Tri.pure fun _ h => ⟨h, hr⟩

theorem o_sdataCertificate {debug : Bool} {f : CertF} {ci : Id} {d : SData} {x : Crls} {res : Id} {st : List Frame} (hs : StackOk c st) (hf : c → f.Clean) (h2 : ci ∈ L) (h3 : d.rest ∈ L) (h4 : CrlsOk c L x) (h5 : res ∈ L) :
    Tri (O c (stackThings st ++ L)) (sdataCertificate debug f ci d x res st) (PostE c L) := by
  refine Tri.bind (o_use (by simp [h3])) fun _ => Tri.bind o_create fun r => ?_
  cases r with
  | none => exact Tri.pure fun _ h => ⟨h, hs⟩
  | some cert =>
    refine Tri.bind o_askB fun _ => Tri.ite (fun _ => Tri.bind o_free fun _ => Tri.pure fun _ h => ⟨h, hs⟩) fun _ => ?_
    refine Tri.bind (o_perm (o_eeChecks (L := cert :: L) hs hf (by simp) (by simp [h2]) (by simp [h3]) (h4.mono fun i hi => by simp [hi]) (by simp [h5])) fun i => by cnt) fun r => Tri.pre fun hr => ?_
    exact Tri.bind (o_perm (o_free (L := r.2.1.toList ++ (stackThings r.2.2 ++ L))) fun i => by cnt) fun _ => Tri.pure fun _ h => ⟨h, hr⟩

theorem o_signedObjectValidate {debug : Bool} {f : CertF} {x : Id × SData} {y : Crls} {res : Id} {st : List Frame} (hs : StackOk c st) (hf : c → f.Clean) (hx : ∀ i ∈ so x, i ∈ L) (h4 : CrlsOk c L y) (h5 : res ∈ L) :
    Tri (O c (stackThings st ++ L)) (signedObjectValidate debug f x y res st) (fun r s => O c (r.2.1.toList ++ (stackThings r.2.2 ++ L)) s ∧ StackOk c r.2.2 ∧ (r.1 = false → x.2.content ≠ none)) := by
  have hr : x.2.rest ∈ L := hx _ (by simp [so, SData.things])
  have fl : ∀ s, O c (stackThings st ++ L) s → O c ((none : Ptr).toList ++ (stackThings st ++ L)) s ∧ StackOk c st ∧ ((true : Bool) = false → x.2.content ≠ none) := fun _ h => ⟨h, hs, by simp⟩
  refine Tri.bind (o_arcsCheck (by simp [hr])) fun _ => Tri.ite (fun _ => Tri.pure fl) fun _ => ?_
  refine Tri.bind (o_validateContentType (by simp [hr])) fun _ => Tri.ite (fun _ => Tri.pure fl) fun _ => ?_
  refine Tri.bind (o_use (by simp [hr])) fun _ => Tri.bind o_askB fun _ => Tri.ite (fun _ => Tri.pure fl) fun _ => Tri.bind o_ask fun n => ?_
  refine Tri.bind (o_attrLoop (fun i hi => by simp [hx i (by simp [so, hi])]) n false (by simp)) fun r => Tri.pre fun hc => Tri.ite (fun _ => Tri.pure fl) fun hn => ?_
  have hc := hc (by simpa using hn)
  refine Tri.bind o_askB fun _ => Tri.ite (fun _ => Tri.pure fl) fun _ => ?_
  exact Tri.weaken (o_sdataCertificate hs hf (hx _ (by simp [so])) hr h4 h5) (fun _ h => h) fun _ _ h => ⟨h.1, h.2, fun _ => hc⟩

/-! ### Contents -/

theorem o_vcardLoop {p : Ptr} (hp : p ≠ none) (h : ∀ i ∈ p.toList, i ∈ L) : ∀ (n : Nat) (v : Id), Tri (O c (v :: L)) (vcardLoop p n v) (fun r => O c (r.2 :: L))
  | 0, _ => Tri.bind o_askB fun _ => o_pure
  | n + 1, v => by
    refine Tri.bind (o_useP hp fun i hi => by simp [h i hi]) fun _ => Tri.bind (o_use (by simp)) fun _ => Tri.bind o_askB fun _ => Tri.ite (fun _ => ?_) fun _ => o_vcardLoop hp h n v
    exact Tri.bind o_realloc fun w => o_vcardLoop hp h n w

theorem o_handleContent {k : Kind} {inner content : Ptr} {res : Id} (hr : res ∈ L) (hi : k ≠ .gbr → inner ≠ none) (hm : ∀ i ∈ inner.toList, i ∈ L) (hc : content ≠ none) (hn : ∀ i ∈ content.toList, i ∈ L) :
    S c L (handleContent k inner content res) := by
  refine Tri.bind (o_use hr) fun _ => Tri.ite (fun _ => ?_) fun hk => Tri.bind (o_useP (hi hk) hm) fun _ => o_askB
  exact Tri.bind o_new fun v => Tri.bind o_ask fun n => Tri.bind (o_vcardLoop hc hn n v) fun r => Tri.bind o_free fun _ => o_pure

theorem o_eeValidate {debug : Bool} {k : Kind} {f : CertF} {x : Id × SData} {inner : Ptr} {y : Crls} {st : List Frame} (hs : StackOk c st) (hf : c → f.Clean) (hx : ∀ i ∈ so x, i ∈ L)
    (hi : k ≠ .gbr → inner ≠ none) (hm : ∀ i ∈ inner.toList, i ∈ L) (h4 : CrlsOk c L y) :
    Tri (O c (stackThings st ++ L)) (eeValidate debug k f x inner y st) (fun r => PostS c L r.2) := by
  refine Tri.bind o_new fun res => ?_
  refine Tri.bind (o_perm (o_signedObjectValidate (L := res :: L) hs hf (fun i hi => by simp [hx i hi]) (h4.mono fun i hi => by simp [hi]) (by simp)) fun i => by cnt) fun r => Tri.pre fun ⟨hr, hc⟩ => ?_
  have done : ∀ e : Bool, Tri (O c (r.2.1.toList ++ (stackThings r.2.2 ++ (res :: L)))) (do free res; freeP r.2.1; return (e, r.2.2)) (fun r => PostS c L r.2) := fun e =>
    Tri.bind (o_perm (o_free (L := r.2.1.toList ++ (stackThings r.2.2 ++ L))) fun i => by cnt) fun _ => Tri.bind (o_freeP _) fun _ => Tri.pure fun _ h => ⟨h, hr⟩
  refine Tri.ite (fun _ => done true) fun he => ?_
  refine Tri.bind (o_handleContent (by simp) hi (fun i hi => by simp [hm i hi]) (hc (by simpa using he)) fun i hi => ?_) fun _ => Tri.ite (fun _ => done true) fun _ => ?_
  · have := hx i (by simp only [so, SData.things, List.mem_cons, List.mem_append]; exact Or.inr (Or.inl hi))
    simp [this]
  · exact Tri.bind (o_peek fun i hi => by simp [hi]) fun _ => Tri.bind o_askB fun e => done e

theorem o_decodeInner {k : Kind} {content : Ptr} (h : ∀ i ∈ content.toList, i ∈ L) : Tri (O c L) (decodeInner k content) (fun r s => O c (r.elim [] Option.toList ++ L) s ∧ (k ≠ .gbr → r ≠ some none)) := by
  refine Tri.ite (fun hk => Tri.pure fun _ h => ⟨h, fun h => absurd hk h⟩) fun _ => ?_
  cases content with
  | none => exact Tri.pure fun _ h => ⟨h, by simp⟩
  | some x =>
    refine Tri.bind (o_use (h x (by simp))) fun _ => Tri.bind o_asn1Decode fun r => ?_
    cases r with
    | none => exact Tri.pure fun _ h => ⟨h, by simp⟩
    | some y => exact Tri.pure fun _ h => ⟨h, by simp⟩

/-- The post-condition of what uses a publication point. -/
abbrev PostP (c : Prop) (L : List Id) (r : Bool × Pp × List Frame) (s : H) : Prop := O c (stackThings r.2.2 ++ (r.2.1.things ++ L)) s ∧ StackOk c r.2.2 ∧ r.2.1.Ok c

theorem o_withCrl {debug : Bool} {k : Kind} {f : CertF} {g : CrlF} {x : Id × SData} {inner : Ptr} {pp : Pp} {st : List Frame} (hs : StackOk c st) (hp : pp.Ok c) (hf : c → f.Clean) (hg : c → g.Clean) (hx : ∀ i ∈ so x, i ∈ L)
    (hi : k ≠ .gbr → inner ≠ none) (hm : ∀ i ∈ inner.toList, i ∈ L) : Tri (O c (stackThings st ++ (pp.things ++ L))) (withCrl debug k f g x inner pp st) (PostP c L) := by
  refine Tri.bind (o_perm (o_rppCrl (L := stackThings st ++ L) (parentOk hs) hg hp) fun i => by cnt) fun r => Tri.pre fun ⟨h1, h2⟩ => ?_
  cases hr : r.2 with
  | none => exact Tri.pure fun _ h => ⟨h.perm fun i => by cnt, hs, h1⟩
  | some y =>
    refine Tri.bind (o_perm (o_eeValidate (L := r.1.things ++ L) hs hf (fun i hi => by simp [hx i hi]) hi (fun i hi => by simp [hm i hi]) ((h2 y hr).mono fun i hi => by simp [hi])) fun i => by cnt) fun z => Tri.pre fun hz => ?_
    exact Tri.pure fun _ h => ⟨h, hz, h1⟩

theorem o_objectTraverse {debug : Bool} {k : Kind} {f : CertF} {g : CrlF} {pp : Pp} {st : List Frame} (hs : StackOk c st) (hp : pp.Ok c) (hf : c → f.Clean) (hg : c → g.Clean) :
    Tri (O c (stackThings st ++ (pp.things ++ L))) (objectTraverse debug k f g pp st) (PostP c L) := by
  refine Tri.bind o_signedObjectDecode fun r => ?_
  cases r with
  | none => exact Tri.pure fun _ h => ⟨h, hs, hp⟩
  | some x =>
    refine Tri.bind (o_decodeInner fun i hi => ?_) fun r => Tri.pre fun hr => ?_
    · simp only [Option.elim, so, SData.things, List.mem_append, List.mem_cons]; tauto
    cases r with
    | none => exact Tri.bind o_signedObjectCleanup fun _ => Tri.pure fun _ h => ⟨h, hs, hp⟩
    | some inner =>
      have hi : k ≠ .gbr → inner ≠ none := fun h h' => hr h (by rw [h'])
      refine Tri.bind (o_perm (o_withCrl (L := inner.toList ++ (so x ++ L)) hs hp hf hg (fun i hi => by simp [hi]) hi fun i hi => by simp [hi]) fun i => by cnt) fun r => Tri.pre fun hr => ?_
      refine Tri.bind (o_perm (o_freeP (L := so x ++ (stackThings r.2.2 ++ (r.2.1.things ++ L))) inner) fun i => by cnt) fun _ => Tri.bind o_signedObjectCleanup fun _ => ?_
      exact Tri.pure fun _ h => ⟨h, hr⟩

theorem o_hashFile : S c L hashFile := by
  refine Tri.bind o_askB fun _ => Tri.ite (fun _ => o_pure) fun _ => Tri.bind o_create fun r => ?_
  cases r with
  | none => exact o_pure
  | some file =>
    refine Tri.bind o_new fun buf => Tri.bind o_new fun ctx => Tri.bind (o_use (by simp)) fun _ => Tri.bind (o_use (by simp)) fun _ => Tri.bind (o_use (by simp)) fun _ => Tri.bind o_askB fun _ => ?_
    exact Tri.bind o_free fun _ => Tri.bind o_free fun _ => Tri.bind o_free fun _ => o_pure

theorem o_hashLoop : ∀ n, S c L (hashLoop n)
  | 0 => o_pure
  | n + 1 => Tri.bind o_hashFile fun _ => Tri.ite (fun _ => Tri.bind o_askB fun _ => Tri.ite (fun _ => o_pure) fun _ => o_hashLoop n) fun _ => o_hashLoop n

theorem o_handleManifest {debug : Bool} {f : CertF} {g : CrlF} {st : List Frame} (hs : StackOk c st) (hf : c → f.Clean) (hg : c → g.Clean) :
    Tri (O c (stackThings st ++ L)) (handleManifest debug f g st) (fun r s => O c (stackThings r.2 ++ (r.1.elim [] Pp.things ++ L)) s ∧ StackOk c r.2 ∧ ∀ p, r.1 = some p → p.Ok c) := by
  refine Tri.bind o_ask fun n => Tri.bind (o_hashLoop n) fun _ => Tri.ite (fun _ => Tri.pure fun _ h => ⟨h, hs, by simp⟩) fun _ => ?_
  refine Tri.bind (o_perm (o_objectTraverse (L := L) (pp := ⟨none, false⟩) hs (by simp [Pp.Ok]) hf hg) fun i => by simp only [Pp.things]; cnt) fun r => Tri.pre fun ⟨h1, h2⟩ => ?_
  refine Tri.ite (fun _ => ?_) fun _ => Tri.pure fun _ h => ⟨h, h1, fun p hp => by cases hp; exact h2⟩
  exact Tri.bind (o_perm (o_ppDrop (L := stackThings r.2.2 ++ L)) fun i => by cnt) fun _ => Tri.pure fun _ h => ⟨h, h1, by simp⟩

/-! ### Certificates -/

theorem o_typeOk {t : Ty} {cert : Id} (h : cert ∈ L) : S c L (typeOk t cert) := by
  refine Tri.ite (fun _ => o_pure) fun _ => Tri.bind (o_use h) fun _ => Tri.bind o_askB fun _ => Tri.ite (fun _ => o_pure) fun _ => Tri.bind o_create fun r => ?_
  cases r with
  | none => exact o_pure
  | some eku => exact Tri.bind (o_use (by simp)) fun _ => Tri.bind o_free fun _ => o_pure

theorem o_certChecks {debug : Bool} {t : Ty} {f : CertF} {cert : Id} {x : Option Crls} {st : List Frame} (hs : StackOk c st) (hf : c → f.Clean) (h1 : cert ∈ L) (hx : ∀ y, x = some y → CrlsOk c L y) :
    Tri (O c (stackThings st ++ L)) (certChecks debug t f cert x st) (fun r => PostS c L r.2) := by
  refine Tri.bind (o_validateChain (fun i hi => by simp [hi]) (by simp [h1]) hf fun y hy => (hx y hy).mono fun i hi => by simp [hi]) fun _ => Tri.ite (fun _ => Tri.pure fun _ h => ⟨h, hs⟩) fun _ => ?_
  refine Tri.bind (o_typeOk (by simp [h1])) fun _ => Tri.ite (fun _ => Tri.pure fun _ h => ⟨h, hs⟩) fun _ => ?_
  refine Tri.bind (o_validateRfc6487 hs h1 hf) fun r => Tri.pre fun hr => Tri.ite (fun _ => Tri.pure fun _ h => ⟨h, hr⟩) fun _ => ?_
  refine Tri.bind (o_handleExtensions (parentOk hr) (by simp [h1])) fun y => Tri.pre fun _ => Tri.bind (o_peek fun i hi => by simp [hi]) fun _ => Tri.bind (o_freeP _) fun _ => ?_
  exact Tri.ite (fun _ => Tri.pure fun _ h => ⟨h, hr⟩) fun _ => Tri.bind o_askB fun _ => Tri.pure fun _ h => ⟨h, hr⟩

theorem o_certLoad {debug : Bool} {t : Ty} {f : CertF} {x : Option Crls} {st : List Frame} (hs : StackOk c st) (hf : c → f.Clean) (hx : ∀ y, x = some y → CrlsOk c L y) :
    Tri (O c (stackThings st ++ L)) (certLoad debug t f x st) (PostS c L) := by
  refine Tri.bind o_load fun r => ?_
  cases r with
  | none => exact Tri.pure fun _ h => ⟨h, hs⟩
  | some cert =>
    refine Tri.bind (o_perm (o_certChecks (L := cert :: L) hs hf (by simp) fun y hy => (hx y hy).mono fun i hi => by simp [hi]) fun i => by cnt) fun r => Tri.pre fun hr => ?_
    refine o_perm (L := cert :: (stackThings r.2 ++ L)) ?_ fun i => by cnt
    refine Tri.ite (fun _ => Tri.bind o_free fun _ => Tri.pure fun _ h => ⟨h, hr⟩) fun _ => Tri.bind (o_x509Push hf) fun z => Tri.pre fun hz => ?_
    cases z with
    | none => exact Tri.bind o_free fun _ => Tri.pure fun _ h => ⟨h, hr⟩
    | some fr =>
      refine Tri.pure fun _ h => ⟨h.perm fun i => ?_, ?_⟩
      · simp only [pushed, stackThings]; cnt
      · intro g hg
        rcases List.mem_cons.1 hg with rfl | hg
        · exact hz _ rfl
        · exact hr g hg

/-! ### Threads -/

def ppsThings (l : List Pp) : List Id := l.flatMap Pp.things
def W.things (w : W) : List Id := stackThings w.stack ++ ppsThings w.pps
def W.Ok (c : Prop) (w : W) : Prop := StackOk c w.stack ∧ ∀ p ∈ w.pps, p.Ok c

theorem pps_split {l : List Pp} {i : Nat} {p : Pp} (h : l[i]? = some p) (x : Id) : (ppsThings l).count x = (p.things ++ ppsThings (l.eraseIdx i)).count x := by
  induction l generalizing i with
  | nil => simp at h
  | cons q l ih =>
    cases i with
    | zero => simp only [List.getElem?_cons_zero, Option.some.injEq] at h; subst h; simp [ppsThings]
    | succ i =>
      have := ih (i := i) (by simpa using h)
      simp only [ppsThings, List.eraseIdx_cons_succ] at this ⊢
      simp only [List.flatMap_cons, List.count_append] at this ⊢
      omega

theorem pps_set {l : List Pp} {i : Nat} {p q : Pp} (h : l[i]? = some p) (x : Id) : (ppsThings (l.set i q)).count x = (q.things ++ ppsThings (l.eraseIdx i)).count x := by
  induction l generalizing i with
  | nil => simp at h
  | cons r l ih =>
    cases i with
    | zero => simp [ppsThings]
    | succ i =>
      have := ih (i := i) (by simpa using h)
      simp only [ppsThings, List.eraseIdx_cons_succ, List.set_cons_succ] at this ⊢
      simp only [List.flatMap_cons, List.count_append] at this ⊢
      omega

theorem set_ok {l : List Pp} {i : Nat} {q : Pp} (h : ∀ p ∈ l, p.Ok c) (hq : q.Ok c) : ∀ p ∈ l.set i q, p.Ok c := by
  intro p hp
  rcases List.mem_or_eq_of_mem_set hp with h' | rfl
  · exact h p h'
  · exact hq

abbrev PostW (c : Prop) (L : List Id) (w : W) (s : H) : Prop := O c (w.things ++ L) s ∧ w.Ok c

theorem o_step {debug : Bool} {w : W} (hw : w.Ok c) (o : Op) (ho : c → o.Clean) : Tri (O c (w.things ++ L)) (step debug w o) (PostW c L) := by
  obtain ⟨hs, hp⟩ := hw
  cases o with
  | ta f =>
    refine Tri.bind (o_perm (o_certLoad (L := ppsThings w.pps ++ L) hs ho (by simp)) fun i => by simp only [W.things]; cnt) fun st => Tri.pre fun h1 => ?_
    exact Tri.pure fun _ h => ⟨h.perm fun i => by simp only [W.things]; cnt, h1, hp⟩
  | cert i f g =>
    simp only [step]
    cases hi : w.pps[i]? with
    | none => exact Tri.pure fun _ h => ⟨h, hs, hp⟩
    | some pp =>
      have hpp := hp pp (List.mem_of_getElem? hi)
      refine Tri.bind (o_perm (o_rppCrl (L := stackThings w.stack ++ (ppsThings (w.pps.eraseIdx i) ++ L)) (parentOk hs) (fun h => (ho h).2) hpp) fun x => ?_) fun r => Tri.pre fun ⟨h1, h2⟩ => ?_
      · have := pps_split hi x
        simp only [W.things]; simp only [List.count_append] at this ⊢; omega
      cases hr : r.2 with
      | none =>
        refine Tri.pure fun _ h => ⟨h.perm fun x => ?_, hs, set_ok hp h1⟩
        have := pps_set (q := r.1) hi x
        simp only [W.things]; simp only [List.count_append] at this ⊢; omega
      | some y =>
        refine Tri.bind (o_perm (o_certLoad (L := r.1.things ++ (ppsThings (w.pps.eraseIdx i) ++ L)) hs (fun h => (ho h).1) fun z hz => ?_) fun i => by cnt) fun st => Tri.pre fun h3 => ?_
        · cases hz; exact (h2 y hr).mono fun i hi => by simp [hi]
        · refine Tri.pure fun _ h => ⟨h.perm fun x => ?_, h3, set_ok hp h1⟩
          have := pps_set (q := r.1) hi x
          simp only [W.things]; simp only [List.count_append] at this ⊢; omega
  | obj k i f g =>
    simp only [step]
    cases hi : w.pps[i]? with
    | none => exact Tri.pure fun _ h => ⟨h, hs, hp⟩
    | some pp =>
      have hpp := hp pp (List.mem_of_getElem? hi)
      refine Tri.bind (o_perm (o_objectTraverse (L := ppsThings (w.pps.eraseIdx i) ++ L) hs hpp (fun h => (ho h).1) (fun h => (ho h).2)) fun x => ?_) fun r => Tri.pre fun ⟨h1, h2⟩ => ?_
      · have := pps_split hi x
        simp only [W.things]; simp only [List.count_append] at this ⊢; omega
      · refine Tri.pure fun _ h => ⟨h.perm fun x => ?_, h1, set_ok hp h2⟩
        have := pps_set (q := r.2.1) hi x
        simp only [W.things]; simp only [List.count_append] at this ⊢; omega
  | mft f g =>
    refine Tri.bind (o_perm (o_handleManifest (L := ppsThings w.pps ++ L) hs (fun h => (ho h).1) (fun h => (ho h).2)) fun i => by simp only [W.things]; cnt) fun r => Tri.pre fun ⟨h1, h2⟩ => ?_
    obtain ⟨pp, st⟩ := r
    cases pp with
    | none => exact Tri.pure fun _ h => ⟨h.perm fun i => by simp only [W.things]; cnt, h1, hp⟩
    | some pp =>
      refine Tri.pure fun _ h => ⟨h.perm fun i => ?_, h1, ?_⟩
      · simp only [W.things, ppsThings]; cnt
      · intro q hq
        rcases List.mem_append.1 hq with hq | hq
        · exact hp q hq
        · exact List.mem_singleton.1 hq ▸ h2 pp rfl
  | pop =>
    obtain ⟨st, pps⟩ := w
    cases st with
    | nil => exact Tri.pure fun _ h => ⟨h, hs, hp⟩
    | cons f fs =>
      refine Tri.bind (o_perm (o_framePop (L := stackThings fs ++ (ppsThings pps ++ L)) (hs f (by simp))) fun i => by simp only [W.things, stackThings]; cnt) fun _ => ?_
      exact Tri.pure fun _ h => ⟨h.perm fun i => by simp only [W.things]; cnt, fun g hg => hs g (by simp [hg]), hp⟩
  | drop i =>
    simp only [step]
    cases hi : w.pps[i]? with
    | none => exact Tri.pure fun _ h => ⟨h, hs, hp⟩
    | some pp =>
      refine Tri.bind (o_perm (o_ppDrop (L := stackThings w.stack ++ (ppsThings (w.pps.eraseIdx i) ++ L)) (pp := pp)) fun x => ?_) fun _ => ?_
      · have := pps_split hi x
        simp only [W.things]; simp only [List.count_append] at this ⊢; omega
      · exact Tri.pure fun _ h => ⟨h.perm fun i => by simp only [W.things]; cnt, hs, fun p h => hp p (List.mem_of_mem_eraseIdx h)⟩

theorem o_steps {debug : Bool} : ∀ (l : List Op) (w : W), w.Ok c → (c → ∀ o ∈ l, o.Clean) → Tri (O c (w.things ++ L)) (steps debug l w) (PostW c L)
  | [], _, hw, _ => Tri.pure fun _ h => ⟨h, hw⟩
  | o :: l, w, hw, hc => Tri.bind (o_step hw o fun h => hc h o (by simp)) fun w' => Tri.pre fun hw' => o_steps l w' hw' fun h o ho => hc h o (by simp [ho])

theorem o_framesPop : ∀ l : List Frame, StackOk c l → Tri (O c (stackThings l ++ L)) (framesPop l) (fun _ => O c L)
  | [], _ => o_pure
  | f :: fs, h => Tri.bind (o_perm (o_framePop (L := stackThings fs ++ L) (h f (by simp))) fun i => by simp only [stackThings]; cnt) fun _ => o_framesPop fs fun g hg => h g (by simp [hg])

theorem o_ppsDrop : ∀ l : List Pp, Tri (O c (ppsThings l ++ L)) (ppsDrop l) (fun _ => O c L)
  | [] => o_pure
  | p :: ps => Tri.bind (o_perm (o_ppDrop (L := ppsThings ps ++ L) (pp := p)) fun i => by simp only [ppsThings]; cnt) fun _ => o_ppsDrop ps

theorem o_work {debug : Bool} {l : List Op} (h : c → ∀ o ∈ l, o.Clean) : Tri (O c L) (work debug l) (PostW c L) :=
  o_perm (o_steps l ⟨[], []⟩ ⟨by simp [StackOk], by simp⟩ h) fun i => by simp [W.things, stackThings, ppsThings]

theorem o_thread {debug : Bool} {l : List Op} (h : c → ∀ o ∈ l, o.Clean) : S c L (thread debug l) := by
  refine Tri.bind (o_work h) fun w => Tri.pre fun hw => ?_
  refine Tri.bind (o_perm (o_ppsDrop (L := stackThings w.stack ++ L) w.pps) fun i => by simp only [W.things]; cnt) fun _ => o_framesPop _ hw.1

end Verif.Omem
