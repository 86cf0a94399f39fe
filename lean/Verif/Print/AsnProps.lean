import Verif.Print.AsnLemmas
import Verif.Print.CertProps
/-
C148: print mode, signed objects.
-/
namespace Verif.Print
open Verif.Res (Byte BitStr be prefix4Decode prefix6Decode)
open Verif.Mft (Tm gt2time gt2time_iff gt2time_safe)

/-! ### Printers -/

theorem prints_addrs (e : Env) (pf : RoaAddr → B) (w : Nat) (ntop : List Byte → List Byte) (l : List RoaAddr)
    (hp : ∀ a, Prints (pf a) e (if IsPrefix w a.address then object (pfxMembers e w ntop a) else none)) (hm : ∀ a ∈ l, ∃ m, a.maxLength = some m ∧ Whole m) (held : Nat) :
    Fills e held 1 (fillAddrs pf held [] l) (array (l.map (roaAddrDoc e w ntop))) := by
  have h := fillAddrs_ok e pf (fun a => if IsPrefix w a.address then allMembers (pfxMembers e w ntop a) else none) held l
    (by
      intro a _
      have := hp a
      by_cases hi : IsPrefix w a.address
      · simp only [if_pos hi] at this ⊢; exact this
      · simp only [if_neg hi] at this ⊢; exact this) hm []
  have e1 : l.map (fun a => ((fun a => if IsPrefix w a.address then allMembers (pfxMembers e w ntop a) else none) a).bind (fun ms => a.maxLength.map (fun m => J.obj (ms ++ [("maxLength", .int (twos m))])))) =
      l.map (roaAddrDoc e w ntop) := by
    apply List.map_congr_left
    intro a ha
    obtain ⟨m, hma, _⟩ := hm a ha
    unfold roaAddrDoc
    by_cases hi : IsPrefix w a.address
    · simp only [if_pos hi, hma, given]
      show _ = object (pfxMembers e w ntop a ++ [("maxLength", numDoc m)])
      unfold object
      rw [allMembers_append]
      cases allMembers (pfxMembers e w ntop a) <;> rfl
    · simp only [if_neg hi, Option.bind_none]
  rw [e1] at h
  have h1 : (J.arr []).nodes = 1 := by simp [J.nodes, nodesL]
  rw [h1] at h
  exact h

theorem prints_roaFam (e : Env) (f : RoaFam) (h : ∀ a ∈ f.addresses, OptWhole a.maxLength ∧ (f.family = [0, 1] ∨ f.family = [0, 2] → a.maxLength ≠ none)) :
    Prints (roaFamJson f) e (roaFamDoc e f) := by
  have hm : (f.family = [0, 1] ∨ f.family = [0, 2]) → ∀ a ∈ f.addresses, ∃ m, a.maxLength = some m ∧ Whole m := by
    intro hf a ha
    obtain ⟨h1, h2⟩ := h a ha
    cases hc : a.maxLength with
    | none => exact absurd hc (h2 hf)
    | some m => exact ⟨m, rfl, h1 m hc⟩
  unfold roaFamJson roaFamDoc
  by_cases h4 : f.family = [0, 1]
  · rw [if_pos h4, if_pos h4]
    exact prints_objArr e _ [("addressFamily", text e (lit "IPv4"))] _ _ _ (.cons _ _ _ _ _ (prints_str e _) .nil)
      (prints_addrs e _ 32 e.ntop4 f.addresses (prints_prefix4 e) (hm (.inl h4)))
  · rw [if_neg h4, if_neg h4]
    by_cases h6 : f.family = [0, 2]
    · rw [if_pos h6, if_pos h6]
      exact prints_objArr e _ [("addressFamily", text e (lit "IPv6"))] _ _ _ (.cons _ _ _ _ _ (prints_str e _) .nil)
        (prints_addrs e _ 128 e.ntop6 f.addresses (prints_prefix6 e) (hm (.inr h6)))
    · rw [if_neg h6, if_neg h6]
      refine prints_obj e _ _ (.cons _ _ _ _ _ (prints_octets e _) (.cons _ _ _ _ _ (prints_arr e _ _ (elems_map e _ _ _ ?_)) .nil))
      intro a ha
      exact prints_obj e _ _ (.cons _ _ _ _ _ (prints_octets e _) (prints_optWhole (h a ha).1))

theorem prints_roa (e : Env) (r : Roa) (h : r.Fine) : Prints (roaJson r) e (roaDoc e r) :=
  prints_obj e _ _ (members_append (prints_optWhole h.1) (.cons _ _ _ _ _ (prints_integer e _ h.2.1)
    (.cons _ _ _ _ _ (prints_arr e _ _ (elems_map e _ _ _ (fun f hf => prints_roaFam e f (h.2.2 f hf)))) .nil)))

theorem prints_mft (e : Env) (d : Lib) (m : Manifest) (h : m.Fine) : Prints (mftJson d m) e (mftDoc e d m) :=
  prints_obj e _ _ (members_append (prints_optWhole h.1) (.cons _ _ _ _ _ (prints_integer e _ h.2) (.cons _ _ _ _ _ (prints_gt e _) (.cons _ _ _ _ _ (prints_gt e _)
    (.cons _ _ _ _ _ (prints_oidName e d _) (.cons _ _ _ _ _ (prints_arr e _ _ (elems_map e _ _ _ (fun _ _ =>
      prints_obj e _ _ (.cons _ _ _ _ _ (prints_str e _) (.cons _ _ _ _ _ (prints_octets e _) .nil))))) .nil))))))

theorem prints_algId (e : Env) (d : Lib) (a : AlgId) : Prints (algIdJson d a) e (algIdDoc e d a) :=
  prints_obj e _ _ (.cons _ _ _ _ _ (prints_oidName e d _) (members_present _ _ _ _ (fun l _ => prints_octets e l)))

theorem prints_timeVal (e : Env) (t : TimeVal) : Prints (timeJson t) e (timeValDoc e t) := by
  cases t with
  | none => exact prints_static e _ (by simp [J.nodes])
  | utc l => exact prints_utc e l
  | gt l => exact prints_gt e l

theorem prints_attrValue (e : Env) (d : Lib) (type v : List Byte) : Prints (attrValueJson d type v) e (attrValueDoc e d type v) := by
  unfold attrValueJson attrValueDoc
  split
  · exact prints_bind e _ _ _ (fun a _ => prints_oidName e d a)
  · split
    · exact prints_bind e _ _ _ (fun a _ => prints_octets e a)
    · split
      · exact prints_bind e _ _ _ (fun a _ => prints_timeVal e a)
      · exact prints_bind e _ _ _ (fun a _ => prints_octets e a)

theorem prints_attr (e : Env) (d : Lib) (a : Attr) : Prints (attrJson d a) e (attrDoc e d a) := by
  refine prints_objArr e _ [("attrType", nameOfOid e d a.type)] _ _ _ (.cons _ _ _ _ _ (prints_oidName e d _) .nil) (fun held => ?_)
  have h := fillArr_ok e held _ _ (elems_map e (attrValueJson d a.type) (attrValueDoc e d a.type) a.values (fun v _ => prints_attrValue e d a.type v)) []
  simpa only [List.nil_append, array, J.nodes, nodesL] using h

theorem prints_attrs (e : Env) (d : Lib) (l : List Attr) : Prints (arrB (l.map (attrJson d))) e (array (l.map (attrDoc e d))) :=
  prints_arr e _ _ (elems_map e _ _ _ (fun a _ => prints_attr e d a))

theorem prints_sid (e : Env) (d : Lib) (s : Sid) (h : ∀ v, s = .issuer v → v.Small) : Prints (sidJson d s) e (sidDoc e d s) := by
  cases s with
  | none => exact prints_static e _ (by simp [J.nodes])
  | issuer v => exact prints_val e d v (h v rfl)
  | ski l => exact prints_octets e l

theorem prints_signer (e : Env) (d : Lib) (s : Signer) (h : s.Fine) : Prints (signerJson d s) e (signerDoc e d s) :=
  prints_obj e _ _ (members_append (members_append (members_append
    (.cons _ _ _ _ _ (prints_integer e _ h.1) (.cons _ _ _ _ _ (prints_sid e d _ h.2) (.cons _ _ _ _ _ (prints_algId e d _) .nil)))
    (members_present _ _ _ _ (fun l _ => prints_attrs e d l)))
    (.cons _ _ _ _ _ (prints_algId e d _) (.cons _ _ _ _ _ (prints_octets e _) .nil)))
    (members_present _ _ _ _ (fun l _ => prints_attrs e d l)))

theorem prints_certAny (e : Env) (ha : e.Addresses) (d : Lib) (l : List Byte) (h : ∀ x, d.x509 l = some x → x.Fine) :
    Prints (certAny2json d l) e ((d.x509 l).bind (certDoc e)) := by
  unfold certAny2json
  cases hx : d.x509 l with
  | none => exact prints_fail e
  | some c => exact prints_cert e ha c (h c hx)

theorem prints_eContent (e : Env) (d : Lib) (type l : List Byte) (hm : ∀ m, d.decMft l = some m → m.Fine) (hr : ∀ r, d.decRoa l = some r → r.Fine) :
    Prints (if d.nid type = d.mft then ber2json (d.decMft l) (mftJson d)
        else if d.nid type = d.roa then ber2json (d.decRoa l) roaJson
        else if d.nid type = d.gbr then utf8Json l
        else octetsJson l) e (eContentDoc e d type l) := by
  unfold eContentDoc
  split
  · exact prints_bind e _ _ _ (fun m h => prints_mft e d m (hm m h))
  · split
    · exact prints_bind e _ _ _ (fun r h => prints_roa e r (hr r h))
    · split
      · exact prints_str e l
      · exact prints_octets e l

theorem prints_signed (e : Env) (ha : e.Addresses) (d : Lib) (s : Signed) (h : s.Fine d) : Prints (signedJson d s) e (signedDoc e d s) := by
  obtain ⟨h1, ⟨l, hl, h2, h3⟩, h4, h5, h6⟩ := h
  refine prints_obj e _ _ (members_append (members_append (members_append
    (.cons _ _ _ _ _ (prints_integer e _ h1) (.cons _ _ _ _ _ (prints_arr e _ _ (elems_map e _ _ _ (fun a _ => prints_algId e d a))) (.cons _ _ _ _ _ ?_ .nil)))
    (members_present _ _ _ _ (fun l hl => prints_arr e _ _ (elems_map e _ _ _ (fun c hc => prints_certAny e ha d c (h4 l hl c hc))))))
    (members_present _ _ _ _ (fun l hl => prints_arr e _ _ (prints_vals e d l (h5 l hl)))))
    (.cons _ _ _ _ _ (prints_arr e _ _ (elems_map e _ _ _ (fun i hi => prints_signer e d i (h6 i hi)))) .nil))
  rw [hl]
  exact prints_obj e _ _ (.cons _ _ _ _ _ (prints_oidName e d _) (.cons _ _ _ _ _ (prints_eContent e d _ l h2 h3) .nil))

/-- C148. Print mode makes the document of a signed object: all of its fields, decoded, or nothing (only if memory runs out, or a text isn't UTF-8, or a part can't be decoded), never does anything undefined, and
leaves nothing allocated. Here, for objects with content, whose integers fit in 64 bits, whose ROA prefixes have maximum lengths, and whose certificates are among those C143 is about.
Object identifiers are shown by libcrypto's short names. -/
theorem C148_partial (e : Env) (ha : e.Addresses) (d : Lib) (type content : List Byte)
    (h : d.nid type = d.signedData → ∀ s, d.decSigned content = some s → s.Fine d) :
    Prints (contentInfoJson d type content) e (contentInfoDoc e d type content) := by
  unfold contentInfoJson contentInfoDoc
  refine prints_obj e _ _ (.cons _ _ _ _ _ (prints_oidName e d _) (.cons _ _ _ _ _ ?_ .nil))
  by_cases ht : d.nid type = d.signedData
  · rw [if_pos ht, if_pos ht]
    exact prints_bind e _ _ _ (fun s hs => prints_signed e ha d s (h ht s hs))
  · rw [if_neg ht, if_neg ht]
    exact prints_octets e _

/-- C148: a number is shown exactly when it fits in 64 bits, and it's the number. -/
theorem C148_numbers (e : Env) (l : List Byte) (i : Int) (he : e.Plenty) : Returns (integerJson (some l)) e (some (.int i)) ↔ Whole l ∧ i = twos l := by
  rw [← integer2imax_iff]
  unfold Returns
  cases h : integer2imax l with
  | none =>
    have : integerJson (some l) = fail := by simp only [integerJson, h]
    rw [this]
    constructor
    · rintro ⟨s, h⟩; cases h
    · intro h; cases h
  | some i' =>
    have : integerJson (some l) = intNew i' := by simp only [integerJson, h]
    rw [this]
    simp only [intNew, alloc1, he 0, if_true]
    constructor
    · rintro ⟨s, h⟩
      injection h with h1 h2
      injection h1 with h1
      injection h1 with h1
      rw [h1]
    · intro h
      exact ⟨_, by rw [Option.some.inj h]⟩

/-! ### There is a document -/

theorem hexDoc_some (e : Env) (hr : e.Reads) (l : List Byte) : ∃ j, hexDoc e l = some j := text_some e _ (hr _ (hexOf_ascii _ (Or.inr rfl) l))

theorem digits_ascii (n v : Nat) : ∀ b ∈ digits n v, b.toNat < 128 := by
  induction n generalizing v with
  | zero => intro b hb; cases hb
  | succ n ih =>
    intro b hb
    rcases List.mem_append.1 hb with hb | hb
    · exact ih _ b hb
    · rw [List.mem_singleton.1 hb]
      simp only [BitVec.toNat_ofNat]
      omega

theorem stamp_ascii (y m d h mi s : Nat) : ∀ b ∈ stamp y m d h mi s, b.toNat < 128 := by
  intro b hb
  simp only [stamp, List.mem_append, List.mem_singleton] at hb
  rcases hb with ((((((((((hb | hb) | hb) | hb) | hb) | hb) | hb) | hb) | hb) | hb) | hb) | hb
  all_goals first | exact digits_ascii _ _ b hb | (subst hb; decide)

theorem roaAddrDoc_some (e : Env) (hr : e.Reads) (w : Nat) (ntop : List Byte → List Byte) (ht : ∀ l, ∀ x ∈ ntop l, x.toNat < 128) (a : RoaAddr) (h : IsPrefix w a.address) :
    ∃ j, roaAddrDoc e w ntop a = some j := by
  unfold roaAddrDoc
  rw [if_pos h]
  refine object_some _ (fun x hx => ?_)
  rcases List.mem_append.1 hx with hx | hx
  · simp only [List.mem_cons, List.not_mem_nil, or_false] at hx
    rcases hx with rfl | rfl
    · exact text_some e _ (hr _ (ht _))
    · exact ⟨_, rfl⟩
  · cases hm : a.maxLength with
    | none => rw [hm] at hx; cases hx
    | some m => rw [hm, given, List.mem_singleton] at hx; subst hx; exact ⟨_, rfl⟩

theorem given_num (k : String) (o : Option (List Byte)) : ∀ x ∈ given numDoc k o, ∃ j, x.2 = some j := by
  intro x hx
  cases o with
  | none => cases hx
  | some m => rw [given, List.mem_singleton] at hx; subst hx; exact ⟨_, rfl⟩

/-- C148: ROAs are shown, if memory suffices: all those whose prefixes are prefixes, and have maximum lengths. -/
theorem C148_roa_shown (e : Env) (hp : e.Plenty) (hr : e.Reads) (ha : e.AsciiAddresses) (r : Roa) (h : r.Fine)
    (h4 : ∀ f ∈ r.blocks, f.family = [0, 1] → ∀ a ∈ f.addresses, IsPrefix 32 a.address) (h6 : ∀ f ∈ r.blocks, f.family = [0, 2] → ∀ a ∈ f.addresses, IsPrefix 128 a.address) :
    ∃ j, roaDoc e r = some j ∧ Returns (roaJson r) e (some j) := by
  obtain ⟨j, hj⟩ : ∃ j, roaDoc e r = some j := by
    unfold roaDoc
    refine object_some _ (fun x hx => ?_)
    rcases List.mem_append.1 hx with hx | hx
    · exact given_num _ _ x hx
    · simp only [List.mem_cons, List.not_mem_nil, or_false] at hx
      rcases hx with rfl | rfl
      · exact ⟨_, rfl⟩
      · refine array_some _ _ (fun f hf => ?_)
        unfold roaFamDoc
        by_cases g4 : f.family = [0, 1]
        · rw [if_pos g4]
          refine object_some _ (fun x hx => ?_)
          simp only [List.mem_cons, List.not_mem_nil, or_false] at hx
          rcases hx with rfl | rfl
          · exact lit_some e hr _ (by decide)
          · exact array_some _ _ (fun a hm => roaAddrDoc_some e hr 32 _ (fun l => ha.1 l) a (h4 f hf g4 a hm))
        · rw [if_neg g4]
          by_cases g6 : f.family = [0, 2]
          · rw [if_pos g6]
            refine object_some _ (fun x hx => ?_)
            simp only [List.mem_cons, List.not_mem_nil, or_false] at hx
            rcases hx with rfl | rfl
            · exact lit_some e hr _ (by decide)
            · exact array_some _ _ (fun a hm => roaAddrDoc_some e hr 128 _ (fun l => ha.2 l) a (h6 f hf g6 a hm))
          · rw [if_neg g6]
            refine object_some _ (fun x hx => ?_)
            simp only [List.mem_cons, List.not_mem_nil, or_false] at hx
            rcases hx with rfl | rfl
            · exact hexDoc_some e hr _
            · refine array_some _ _ (fun a _ => object_some _ (fun x hx => ?_))
              rcases List.mem_cons.1 hx with rfl | hx
              · exact hexDoc_some e hr _
              · exact given_num _ _ x hx
  obtain ⟨r', s', h1, h2, h3, _⟩ := prints_roa e r h ⟨0, 0⟩
  refine ⟨j, hj, s', ?_⟩
  rw [h1, h3 hp, hj]

/-- C148: manifests are shown, if memory suffices: those whose number fits in 64 bits, whose times are understood, and whose texts are UTF-8. -/
theorem C148_mft_shown (e : Env) (hp : e.Plenty) (hr : e.Reads) (d : Lib) (m : Manifest) (h : m.Fine)
    (ht : ∀ s ∈ [m.thisUpdate, m.nextUpdate], ∃ tm, gt2time s = .ok tm) (ho : e.utf8 (d.sn (d.nid m.hashAlg)) = true) (hf : ∀ f ∈ m.files, e.utf8 f.file = true) :
    ∃ j, mftDoc e d m = some j ∧ Returns (mftJson d m) e (some j) := by
  have hgt : ∀ s ∈ [m.thisUpdate, m.nextUpdate], ∃ j, gtDoc e s = some j := by
    intro s hs
    obtain ⟨tm, htm⟩ := ht s hs
    unfold gtDoc
    rw [htm]
    exact text_some e _ (hr _ (stamp_ascii _ _ _ _ _ _))
  obtain ⟨j, hj⟩ : ∃ j, mftDoc e d m = some j := by
    unfold mftDoc
    refine object_some _ (fun x hx => ?_)
    rcases List.mem_append.1 hx with hx | hx
    · exact given_num _ _ x hx
    · simp only [List.mem_cons, List.not_mem_nil, or_false] at hx
      rcases hx with rfl | rfl | rfl | rfl | rfl
      · exact ⟨_, rfl⟩
      · exact hgt _ (by simp)
      · exact hgt _ (by simp)
      · exact text_some e _ ho
      · refine array_some _ _ (fun f hm => object_some _ (fun x hx => ?_))
        simp only [List.mem_cons, List.not_mem_nil, or_false] at hx
        rcases hx with rfl | rfl
        · exact text_some e _ (hf f hm)
        · exact hexDoc_some e hr _
  obtain ⟨r', s', h1, h2, h3, _⟩ := prints_mft e d m h ⟨0, 0⟩
  refine ⟨j, hj, s', ?_⟩
  rw [h1, h3 hp, hj]

/-! ### Where it isn't so -/

def demoEnv : Env := ⟨fun _ => true, fun s => s.all (fun b => decide (b.toNat < 128)), fun _ => lit "192.0.2.0", fun _ => lit "2001:db8::"⟩

/-- Everything's unknown to libcrypto, other than numbers of one byte. -/
def demoLib : Lib where
  nid := fun l => match l with | [b] => b.toNat | _ => 0
  sn := fun n => if n = 0 then lit "UNDEF" else lit "known"
  signedData := 22
  contentType := 50
  messageDigest := 51
  signingTime := 52
  mft := 60
  roa := 61
  gbr := 62
  decSigned := fun _ => some ⟨[3], [], [61], none, none, none, []⟩
  decRoa := fun _ => none
  decMft := fun _ => none
  decOid := fun _ => none
  decDigest := fun _ => none
  decTime := fun _ => none
  decAny := fun _ => none
  x509 := fun _ => none

/-- AS 64496, 192.0.2.0/24, with a maximum length or without it. -/
def demoRoa (m : Option (List Byte)) : Roa := ⟨none, [0, 0xFB, 0xF0], [⟨[0, 1], [⟨⟨[192, 0, 2], 0⟩, m⟩]⟩]⟩

def demoMft (n : List Byte) : Manifest := ⟨none, n, lit "20240101000000Z", lit "20240102000000Z", [42], [⟨lit "a.roa", ⟨[0xAB, 0xCD], 0⟩⟩]⟩

/-- C148 is false: a ROA with a prefix that has no maximum length (it's optional) isn't shown at all; neither is a manifest whose number needs more than 64 bits (RFC 9286 allows 20 octets); an object without content is
a null pointer dereference; and all object identifiers libcrypto doesn't know look the same. -/
theorem C148_refuted :
    (∃ j, roaDoc demoEnv (demoRoa none) = some j ∧ Returns (roaJson (demoRoa none)) demoEnv none) ∧
    (∃ j, mftDoc demoEnv demoLib (demoMft [1, 0, 0, 0, 0, 0, 0, 0, 0]) = some j ∧ Returns (mftJson demoLib (demoMft [1, 0, 0, 0, 0, 0, 0, 0, 0])) demoEnv none) ∧
    (∃ j, contentInfoDoc demoEnv demoLib [22] [] = some j ∧ contentInfoJson demoLib [22] [] demoEnv ⟨0, 0⟩ = .ub) ∧
    (∃ j, Returns (oidJson demoLib [0x2A, 0x03]) demoEnv (some j) ∧ Returns (oidJson demoLib [0x2A, 0x04]) demoEnv (some j)) := by
  refine ⟨⟨_, rfl, ⟨_, _⟩, rfl⟩, ⟨_, rfl, ⟨_, _⟩, rfl⟩, ⟨_, rfl, rfl⟩, ⟨_, ⟨⟨_, _⟩, rfl⟩, ⟨⟨_, _⟩, rfl⟩⟩⟩

/-- The hypotheses of C148 can be met, and the documents are as expected. -/
example : (demoRoa (some [24])).Fine ∧ IsPrefix 32 ⟨[192, 0, 2], 0⟩ ∧ Returns (roaJson (demoRoa (some [24]))) demoEnv
    (some (.obj [("asId", .int 64496), ("ipAddrBlocks", .arr [.obj [("addressFamily", .str (lit "IPv4")), ("addresses", .arr [.obj [("prefix", .str (lit "192.0.2.0")), ("length", .int 24),
      ("maxLength", .int 24)]])]])])) := by
  refine ⟨⟨(fun _ h => by cases h), by unfold Whole; decide, ?_⟩, by decide +kernel, ⟨_, rfl⟩⟩
  intro f hf a ha
  simp only [demoRoa, List.mem_singleton] at hf
  subst hf
  simp only [List.mem_singleton] at ha
  subst ha
  exact ⟨fun l hl => by rw [← Option.some.inj hl]; unfold Whole; decide, fun _ => by simp⟩

example : (demoMft [7]).Fine ∧ gt2time (demoMft [7]).thisUpdate = .ok ⟨124, 0, 1, 0, 0, 0⟩ ∧ Returns (mftJson demoLib (demoMft [7])) demoEnv
    (some (.obj [("manifestNumber", .int 7), ("thisUpdate", .str (lit "2024-01-01 00:00:00Z")), ("nextUpdate", .str (lit "2024-01-02 00:00:00Z")), ("fileHashAlg", .str (lit "known")),
      ("fileList", .arr [.obj [("file", .str (lit "a.roa")), ("hash", .str (lit "abcd"))]])])) :=
  ⟨⟨(fun _ h => by cases h), by unfold Whole; decide⟩, by decide +kernel, ⟨_, rfl⟩⟩

end Verif.Print
