import Verif.Print.Lemmas
/-
Each printer of src/libcrypto_util.c and src/extension.c.
-/
namespace Verif.Print
open Verif.Res (Byte)

theorem prints_oid (e : Env) (o : Oid) (h : o.Short) : Prints (oid2json o) e (oidDoc e o) := by
  have : oid2json o = strNew o.txt := by unfold oid2json bufStr; rw [if_pos (show o.txt.length < 64 from h)]
  rw [this]
  exact prints_str e o.txt

theorem prints_orNull {α : Type} (e : Env) (f : Option α → B) (g : α → Option J) (o : Option α) (h0 : f none = static .null) (h : ∀ a, o = some a → Prints (f (some a)) e (g a)) :
    Prints (f o) e (orNull g o) := by
  cases o with
  | none => rw [h0]; exact prints_static e _ rfl
  | some a => exact h a rfl

theorem prints_int1 (e : Env) (i : Int) : Prints (asn1int2json (some i)) e (intDoc e i) := prints_str e _

theorem prints_optInt (e : Env) (i : Option Int) : Prints (asn1int2json i) e (orNull (intDoc e) i) := prints_orNull e asn1int2json (intDoc e) i rfl (fun a _ => prints_int1 e a)

theorem prints_bytes (e : Env) (l : List Byte) : Prints (asn1str2json (some l)) e (bytesDoc e l) := by
  unfold bytesDoc
  cases l with
  | nil => exact prints_fail e
  | cons a l => exact prints_str e _

theorem prints_optBytes (e : Env) (l : Option (List Byte)) : Prints (asn1str2json l) e (orNull (bytesDoc e) l) := prints_orNull e asn1str2json (bytesDoc e) l rfl (fun a _ => prints_bytes e a)

theorem prints_time (e : Env) (t : ATime) : Prints (asn1time2json (some t)) e (timeDoc e t) := by
  obtain ⟨t⟩ := t
  cases t with
  | none => exact prints_fail e
  | some t => exact prints_str e t

theorem prints_optTime (e : Env) (t : Option ATime) : Prints (asn1time2json t) e (orNull (timeDoc e) t) := prints_orNull e asn1time2json (timeDoc e) t rfl (fun a _ => prints_time e a)

theorem prints_name (e : Env) (n : Name) : Prints (name2json (some n)) e (nameDoc e n) := by
  refine prints_objArr e [] [] "rdnSequence" _ _ .nil (fun held => ?_)
  have := fillRows_ok e held _ _ (rows_map e (fun (x : List Byte × List Byte) => [("type", strNew x.1), ("value", strNew x.2)])
    (fun x => [("type", text e x.1), ("value", text e x.2)]) n (fun a _ => .cons _ _ _ _ _ (prints_str e _) (.cons _ _ _ _ _ (prints_str e _) .nil))) []
  have hn : (J.arr []).nodes = 1 := by simp [J.nodes, nodesL]
  rw [hn] at this
  simpa only [array, List.nil_append] using this

theorem prints_absent (e : Env) (b : Bool) : Prints (unimplemented b) e (absentDoc e b) := by
  cases b with
  | false => exact prints_static e _ rfl
  | true => exact prints_str e _

theorem prints_genName (e : Env) (g : GenName) : Prints (gn2json g) e (genNameDoc e g) := by
  cases g with
  | uri s => exact prints_str e s
  | other => exact prints_str e _

theorem prints_genNames (e : Env) (l : List GenName) : Prints (gns2json (some l)) e (genNamesDoc e l) :=
  prints_arr e _ _ (elems_map e gn2json (genNameDoc e) l (fun a _ => prints_genName e a))

theorem prints_dpName (e : Env) (n : DpName) (h : n.Fine) : Prints (dpname2json (some n)) e (dpNameDoc e n) := by
  cases n with
  | full l => exact prints_genNames e l
  | relative l =>
    exact prints_rows e _ _ (rows_map e (fun (x : Oid × List Byte) => [("type", oid2json x.1), ("value", asn1str2json (some x.2))])
      (fun x => [("type", oidDoc e x.1), ("value", bytesDoc e x.2)]) l
      (fun a ha => .cons _ _ _ _ _ (prints_oid e _ (h a ha)) (.cons _ _ _ _ _ (prints_bytes e _) .nil)))

theorem mask_bit (i : Nat) (hi : i < 8) (d : Byte) : decide (d &&& BitVec.twoPow 8 i ≠ 0) = d.toNat.testBit i := by
  have h : ∀ (i : Fin 8) (f : Fin 256), decide (BitVec.ofFin f &&& BitVec.twoPow 8 i.val ≠ (0 : BitVec 8)) = Nat.testBit (BitVec.ofFin (w := 8) f).toNat i.val := by decide +kernel
  exact h ⟨i, hi⟩ d.toFin

theorem prints_ku (e : Env) (bits : List Byte) : Prints (ku2json bits) e (kuDoc bits) := by
  unfold ku2json kuDoc
  by_cases h : bits.length < 1 ∨ 2 < bits.length
  · rw [if_pos h, if_neg (by omega)]
    exact prints_fail e
  · rw [if_neg h, if_pos (by omega)]
    have st : ∀ b, Prints (static (.bool b)) e (some (.bool b)) := fun b => prints_static e _ rfl
    have m : ∀ (d : Byte) (i : Nat) (m : Byte), i < 8 → m = BitVec.twoPow 8 i → Prints (static (.bool (decide (d &&& m ≠ 0)))) e (some (.bool (d.toNat.testBit i))) := by
      intro d i m hi hm
      subst hm
      rw [mask_bit i hi]
      exact st _
    exact prints_obj e _ _ (.cons _ _ _ _ _ (m _ 7 _ (by omega) (by decide)) (.cons _ _ _ _ _ (m _ 6 _ (by omega) (by decide)) (.cons _ _ _ _ _ (m _ 5 _ (by omega) (by decide))
      (.cons _ _ _ _ _ (m _ 4 _ (by omega) (by decide)) (.cons _ _ _ _ _ (m _ 3 _ (by omega) (by decide)) (.cons _ _ _ _ _ (m _ 2 _ (by omega) (by decide))
      (.cons _ _ _ _ _ (m _ 1 _ (by omega) (by decide)) (.cons _ _ _ _ _ (m _ 0 _ (by omega) (by decide)) (.cons _ _ _ _ _ (m _ 7 _ (by omega) (by decide)) .nil)))))))))

theorem dec_length (n : Nat) (h : n < 1000) : (dec n).length ≤ 3 := by
  have : ∀ i : Fin 1000, (dec i.val).length ≤ 3 := by decide +kernel
  exact this ⟨n, h⟩

theorem fam_bytes_le (af : Fam) : af.bytes ≤ 16 := by cases af <;> decide

theorem ntop_length (e : Env) (ha : e.Addresses) (af : Fam) (bin : List Byte) (h : bin.length = 16) : (ntop e af bin).length ≤ 45 := by
  cases af with
  | v4 => have := ha.1 (bin.take 4) (by simp [h]); show (e.ntop4 (bin.take 4)).length ≤ 45; omega
  | v6 => exact ha.2 bin h

theorem prints_prefix (e : Env) (ha : e.Addresses) (af : Fam) (b : Bits) (h : b.Fits af) : Prints (p2json b af) e (text e (prefixText e af b)) := by
  obtain ⟨h1, h2, h3⟩ := h
  have h16 := fam_bytes_le af
  have hl : b.left ≤ 8 * b.data.length := by
    cases hd : b.data with
    | nil => simp [h3 hd]
    | cons a l => simp only [List.length_cons]; omega
  have hlen : ((((8 * b.data.length : Nat) : Int) - b.left).emod (2 ^ 32)).toNat = 8 * b.data.length - b.left := by
    have : (((8 * b.data.length : Nat) : Int) - b.left).emod (2 ^ 32) = ((8 * b.data.length : Nat) : Int) - b.left := Int.emod_eq_of_lt (by omega) (by omega)
    rw [this]
    omega
  intro s
  have hn := ntop_length e ha af (b.data ++ List.replicate (16 - b.data.length) 0) (by simp; omega)
  have hd := dec_length (8 * b.data.length - b.left) (by omega)
  have : p2json b af e s = strNew (prefixText e af b) e s := by
    unfold p2json
    rw [if_neg (by omega)]
    simp only [hlen]
    unfold bufStr prefixText
    rw [if_pos (by simp only [List.length_append, List.length_cons, List.length_nil]; omega)]
  rw [this]
  exact prints_str e _ s

theorem prints_ipFam (e : Env) (ha : e.Addresses) (f : IpFam) (h : f.Fine) : Prints (iaf2json f) e (ipFamDoc e f) := by
  unfold iaf2json ipFamDoc
  cases hf : famOf f.af with
  | none =>
    exact prints_obj e _ [("addressFamily", none)] (.cons _ _ _ _ _ (prints_fail e) .nil)
  | some af =>
    refine prints_obj e _ _ (.cons _ _ _ _ _ (prints_str e _) (.cons _ _ _ _ _ ?_ .nil))
    cases hc : f.choice with
    | inherit => exact prints_str e _
    | aors l =>
      refine prints_arr e _ _ (elems_map e (iaor2json af) (ipDoc e af) l ?_)
      intro a hal
      cases a with
      | range x y => exact prints_str e _
      | pfx b =>
        have hb := h af l hf hc b hal
        rw [show ipDoc e af (.pfx b) = if b.Fits af then text e (prefixText e af b) else none from rfl, if_pos hb]
        exact prints_prefix e ha af b hb

theorem prints_as (e : Env) (a : AsAor) : Prints (aor2json a) e (asDoc e a) := by
  cases a with
  | id i => exact prints_int1 e i
  | range a b => exact prints_obj e _ _ (.cons _ _ _ _ _ (prints_int1 e a) (.cons _ _ _ _ _ (prints_int1 e b) .nil))

theorem prints_asChoice (e : Env) (c : Option AsChoice) : Prints (asidc2json c) e (orNull (asChoiceDoc e) c) := by
  refine prints_orNull e asidc2json (asChoiceDoc e) c rfl (fun a _ => ?_)
  cases a with
  | inherit => exact prints_str e _
  | aors l => exact prints_arr e _ _ (elems_map e aor2json (asDoc e) l (fun a _ => prints_as e a))

theorem prints_ext (e : Env) (ha : e.Addresses) (x : ExtVal) (h : x.Fine) : Prints (ext2json x) e (extDoc e x) := by
  cases x with
  | bc ca p => exact prints_obj e _ _ (.cons _ _ _ _ _ (prints_static e _ rfl) (.cons _ _ _ _ _ (prints_optInt e p) .nil))
  | ski id => exact prints_bytes e id
  | aki k i s => exact prints_obj e _ _ (.cons _ _ _ _ _ (prints_optBytes e k) (.cons _ _ _ _ _ (prints_absent e i) (.cons _ _ _ _ _ (prints_optInt e s) .nil)))
  | ku b => exact prints_ku e b
  | cdp l =>
    exact prints_rows e _ _ (rows_map e (fun (d : DistPoint) => [("distributionPoint", dpname2json d.name), ("reasons", unimplemented d.reasons), ("cRLIssuer", gns2json d.issuer)])
      (fun d => [("distributionPoint", orNull (dpNameDoc e) d.name), ("reasons", absentDoc e d.reasons), ("cRLIssuer", orNull (genNamesDoc e) d.issuer)]) l
      (fun d hd => .cons _ _ _ _ _ (prints_orNull e dpname2json (dpNameDoc e) d.name rfl (fun n hn => prints_dpName e n (h d hd n hn)))
        (.cons _ _ _ _ _ (prints_absent e _) (.cons _ _ _ _ _ (prints_orNull e gns2json (genNamesDoc e) d.issuer rfl (fun n _ => prints_genNames e n)) .nil))))
  | aia l =>
    exact prints_rows e _ _ (rows_map e (fun (x : Oid × GenName) => [("accessMethod", oid2json x.1), ("accessLocation", gn2json x.2)])
      (fun x => [("accessMethod", oidDoc e x.1), ("accessLocation", genNameDoc e x.2)]) l
      (fun x hx => .cons _ _ _ _ _ (prints_oid e _ (h x hx)) (.cons _ _ _ _ _ (prints_genName e _) .nil)))
  | cp l =>
    refine prints_arr e _ _ (elems_map e pi2json _ l (fun x hx => ?_))
    obtain ⟨h1, h2⟩ := h x hx
    refine prints_obj e _ _ (.cons _ _ _ _ _ (prints_oid e _ h1) (.cons _ _ _ _ _ ?_ .nil))
    rcases h2 with h2 | h2 <;> rw [h2]
    · exact prints_static e _ rfl
    · exact prints_arr e _ _ .nil
  | ir l => exact prints_arr e _ _ (elems_map e iaf2json (ipFamDoc e) l (fun f hf => prints_ipFam e ha f (h f hf)))
  | ar a r => exact prints_obj e _ _ (.cons _ _ _ _ _ (prints_asChoice e a) (.cons _ _ _ _ _ (prints_asChoice e r) .nil))
  | amended raw => exact h.elim
  | cn n => exact prints_int1 e n
  | eku l => exact prints_arr e _ _ (elems_map e oid2json (oidDoc e) l (fun o ho => prints_oid e o (h o ho)))
  | bad raw => exact prints_fail e
  | unknown raw => exact prints_bytes e raw

theorem prints_exts (e : Env) (ha : e.Addresses) (l : List Ext) (h : ExtsFine l) : Prints (exts2json l) e (extsDoc e l) := by
  cases l with
  | nil => exact prints_static e _ rfl
  | cons x l =>
    unfold extsDoc
    rw [if_neg (by simp)]
    exact prints_rows e _ _ (rows_map e (fun (x : Ext) => [("extnID", oid2json x.oid), ("critical", static (.bool x.critical)), ("extnValue", ext2json x.val)])
      (fun x => [("extnID", oidDoc e x.oid), ("critical", some (.bool x.critical)), ("extnValue", extDoc e x.val)]) (x :: l)
      (fun x hx => .cons _ _ _ _ _ (prints_oid e _ (h x hx).1) (.cons _ _ _ _ _ (prints_static e _ rfl) (.cons _ _ _ _ _ (prints_ext e ha _ (h x hx).2) .nil))))

theorem prints_pubkey (e : Env) (k : Option (List Byte)) : Prints (pubkey2json k) e (k.bind (text e)) := by
  cases k with
  | none => exact prints_fail e
  | some k => exact prints_str e k

theorem prints_cert (e : Env) (ha : e.Addresses) (c : Cert) (h : c.Fine) : Prints (x509ToJson c) e (certDoc e c) := by
  obtain ⟨h1, h2, h3⟩ := h
  refine prints_obj e _ _ (.cons _ _ _ _ _ ?_ (.cons _ _ _ _ _ (prints_oid e _ h2) (.cons _ _ _ _ _ (prints_bytes e _) .nil)))
  refine prints_obj e _ _ (.cons _ _ _ _ _ (prints_int e _) (.cons _ _ _ _ _ (prints_int1 e _) (.cons _ _ _ _ _ (prints_str e _) (.cons _ _ _ _ _ (prints_name e _)
    (.cons _ _ _ _ _ ?_ (.cons _ _ _ _ _ (prints_name e _) (.cons _ _ _ _ _ ?_ (.cons _ _ _ _ _ (prints_optBytes e _) (.cons _ _ _ _ _ (prints_optBytes e _)
    (.cons _ _ _ _ _ (prints_exts e ha _ h3) .nil))))))))))
  · exact prints_obj e _ _ (.cons _ _ _ _ _ (prints_time e _) (.cons _ _ _ _ _ (prints_time e _) .nil))
  · exact prints_obj e _ _ (.cons _ _ _ _ _ (prints_oid e _ h1) (.cons _ _ _ _ _ (prints_pubkey e _) .nil))

theorem prints_crl (e : Env) (ha : e.Addresses) (c : Crl) (h : c.Fine) : Prints (crl2json c) e (crlDoc e c) := by
  obtain ⟨h1, h2, h3⟩ := h
  refine prints_obj e _ _ (.cons _ _ _ _ _ ?_ (.cons _ _ _ _ _ (prints_oid e _ h1) (.cons _ _ _ _ _ (prints_bytes e _) .nil)))
  refine prints_obj e _ _ (.cons _ _ _ _ _ (prints_int e _) (.cons _ _ _ _ _ (prints_str e _) (.cons _ _ _ _ _ (prints_name e _) (.cons _ _ _ _ _ (prints_time e _)
    (.cons _ _ _ _ _ (prints_optTime e _) (.cons _ _ _ _ _ ?_ (.cons _ _ _ _ _ (prints_exts e ha _ h2) .nil)))))))
  exact prints_rows e _ _ (rows_map e (fun (r : Revoked) => [("userCertificate", asn1int2json (some r.serial)), ("revocationDate", asn1time2json (some r.date)), ("crlEntryExtensions", exts2json r.exts)])
    (fun r => [("userCertificate", intDoc e r.serial), ("revocationDate", timeDoc e r.date), ("crlEntryExtensions", extsDoc e r.exts)]) c.revoked
    (fun r hr => .cons _ _ _ _ _ (prints_int1 e _) (.cons _ _ _ _ _ (prints_time e _) (.cons _ _ _ _ _ (prints_exts e ha _ (h3 r hr)) .nil))))

end Verif.Print
