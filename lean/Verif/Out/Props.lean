import Verif.Out.Lemmas
import Mathlib.Tactic.ByContra
/-
C131 to C134: the output files.
-/
namespace Verif.Out
open Verif.Rtr (Fam Vrp RouterKey Table Byte State)
open Verif.Tal (Res Str)
open Verif.B64 (base64 base64url)

/-! ### What's expected -/

/-- The row of a VRP: ASN, prefix, maximum length. -/
def vrpRow (ntop : Fam → BitVec 128 → Text) (v : Vrp) : List Text :=
  [lit "AS" ++ dec v.asn.toNat, ntop v.fam v.prefix_ ++ lit "/" ++ dec v.len.toNat, dec v.maxLen.toNat]

/-- The row of a router key: ASN, subject key identifier, subject public key info. -/
def keyRow (k : RouterKey) : List Text := [lit "AS" ++ dec k.as.toNat, chars (base64url k.ski), chars (base64url k.spk)]

/-- The JSON object of a VRP. -/
def vrpObj (ntop : Fam → BitVec 128 → Text) (v : Vrp) : Json :=
  .obj [(lit "asn", .str (lit "AS" ++ dec v.asn.toNat)), (lit "prefix", .str (ntop v.fam v.prefix_ ++ lit "/" ++ dec v.len.toNat)), (lit "maxLength", .num v.maxLen.toNat)]

/-- The JSON object of a router key. -/
def keyObj (k : RouterKey) : Json :=
  .obj [(lit "asn", .str (lit "AS" ++ dec k.as.toNat)), (lit "ski", .str (chars (base64url k.ski))), (lit "spki", .str (chars (base64url k.spk)))]

/-- The keys for which libcrypto could allocate. -/
def encoded (e : Env) (ks : List RouterKey) : List RouterKey := ks.filter fun k => (e.skiBio k).isSome && (e.spkBio k).isSome

/-- The files of a table, in this format: the one of the ROAs, and the one of the router keys. -/
def Describes (e : Env) (db : Table) (a b : Text) : Format → Prop
  | .csv => Csv ([lit "ASN", lit "Prefix", lit "Max prefix length"] :: db.roas.map (vrpRow e.ntop)) a ∧
      Csv ([lit "ASN", lit "Subject Key Identifier", lit "Subject Public Key Info"] :: (encoded e db.keys).map keyRow) b
  | .json => JsonText (.obj [(lit "roas", .arr (db.roas.map (vrpObj e.ntop)))]) a ∧
      JsonText (.obj [(lit "router-keys", .arr ((encoded e db.keys).map keyObj))]) b

/-- The system and libcrypto do what they should: addresses are digits, points and colons; the encoder encodes. -/
structure EnvOk (e : Env) : Prop where
  ntop : ∀ f p, ∀ c ∈ e.ntop f p, c ∈ lit "0123456789abcdef.:"
  ski : ∀ k t a, e.skiBio k = some (t, a) → t = base64 k.ski
  spk : ∀ k t a, e.spkBio k = some (t, a) → t = base64 k.spk

/-- RK_SKI_LEN and RK_SPKI_LEN. -/
def KeysOk (db : Table) : Prop := ∀ k ∈ db.keys, k.ski.length = 20 ∧ k.spk.length = 91

/-! ### Characters -/

/-- No character that CSV or JSON would have to quote. -/
def Tame (t : Text) : Prop := ∀ c ∈ t, c ≠ ',' ∧ c ≠ '\n' ∧ c ≠ '\r' ∧ c ≠ '"' ∧ c ≠ '\\' ∧ 32 ≤ c.toNat

theorem Tame.field {t : Text} (h : Tame t) : Field t := fun c hc => ⟨(h c hc).1, (h c hc).2.1, (h c hc).2.2.1, (h c hc).2.2.2.1⟩
theorem Tame.plain {t : Text} (h : Tame t) : Plain t := fun c hc => ⟨(h c hc).2.2.2.1, (h c hc).2.2.2.2.1, (h c hc).2.2.2.2.2⟩
theorem Tame.append {a b : Text} (ha : Tame a) (hb : Tame b) : Tame (a ++ b) := fun c hc => by
  rcases List.mem_append.1 hc with h | h
  · exact ha c h
  · exact hb c h

instance (t : Text) : Decidable (Tame t) := inferInstanceAs (Decidable (∀ c ∈ t, _))

theorem dec_digit {n : Nat} : ∀ c ∈ dec n, c ∈ lit "0123456789" := by
  induction n using Nat.strongRecOn with
  | _ n ih =>
    have hd : ∀ d < 10, Nat.digitChar d ∈ lit "0123456789" := by decide
    unfold dec
    rw [Nat.toDigits_eq_if (by decide)]
    split
    · intro c hc
      rw [List.mem_singleton] at hc
      subst hc
      exact hd _ (by omega)
    · intro c hc
      rcases List.mem_append.1 hc with h | h
      · exact ih (n / 10) (by omega) c h
      · rw [List.mem_singleton] at h
        subst h
        exact hd _ (Nat.mod_lt _ (by decide))

theorem tame_of {alpha : Text} (ha : Tame alpha) {t : Text} (h : ∀ c ∈ t, c ∈ alpha) : Tame t := fun c hc => ha c (h c hc)

theorem dec_tame (n : Nat) : Tame (dec n) := tame_of (alpha := lit "0123456789") (by decide) dec_digit

theorem url_tame (x : List Byte) : Tame (chars (base64url x)) := by
  intro c hc
  unfold chars base64url at hc
  rw [List.map_map, List.mem_map] at hc
  obtain ⟨i, hi, rfl⟩ := hc
  have : ∀ i < 64, (Char.ofNat (Verif.B64.alphabet Verif.B64.minus Verif.B64.under i).toNat) ≠ ',' ∧ (Char.ofNat (Verif.B64.alphabet Verif.B64.minus Verif.B64.under i).toNat) ≠ '\n' ∧
    (Char.ofNat (Verif.B64.alphabet Verif.B64.minus Verif.B64.under i).toNat) ≠ '\r' ∧ (Char.ofNat (Verif.B64.alphabet Verif.B64.minus Verif.B64.under i).toNat) ≠ '"' ∧
    (Char.ofNat (Verif.B64.alphabet Verif.B64.minus Verif.B64.under i).toNat) ≠ '\\' ∧ 32 ≤ (Char.ofNat (Verif.B64.alphabet Verif.B64.minus Verif.B64.under i).toNat).toNat := by decide
  exact this i (Verif.B64.sextets_lt x i hi)

theorem ntop_tame {e : Env} (h : EnvOk e) (f : Fam) (p : BitVec 128) : Tame (e.ntop f p) := tame_of (alpha := lit "0123456789abcdef.:") (by decide) (h.ntop f p)

theorem as_tame (n : Nat) : Tame (lit "AS" ++ dec n) := Tame.append (by decide) (dec_tame n)
theorem prefix_tame {e : Env} (h : EnvOk e) (f : Fam) (p : BitVec 128) (n : Nat) : Tame (e.ntop f p ++ lit "/" ++ dec n) :=
  ((ntop_tame h f p).append (by decide)).append (dec_tame n)

/-! ### CSV -/

theorem csv_map {α : Type} (row : α → List Text) (text : α → Text) (l : List α) (h : ∀ x ∈ l, CsvRow (row x) (text x)) : Csv (l.map row) (l.map text).flatten := by
  induction l with
  | nil => exact .nil
  | cons x l ih => exact .cons (h x (List.mem_cons_self ..)) (ih fun y hy => h y (List.mem_cons_of_mem _ hy))

theorem row3 {a b c : Text} (ha : Field a) (hb : Field b) (hc : Field c) : CsvRow [a, b, c] (a ++ ',' :: (b ++ ',' :: (c ++ ['\n']))) := .more ha (.more hb (.last hc))

theorem roaCsv_row {e : Env} (h : EnvOk e) (v : Vrp) : CsvRow (vrpRow e.ntop v) (roaCsv e v) := by
  have := row3 (as_tame v.asn.toNat).field (prefix_tame h v.fam v.prefix_ v.len.toNat).field (dec_tame v.maxLen.toNat).field
  unfold vrpRow roaCsv
  simpa [lit, List.append_assoc] using this

theorem keyCsv_row (k : RouterKey) : CsvRow (keyRow k) (keyCsv k (chars (base64url k.ski), chars (base64url k.spk))) := by
  have := row3 (as_tame k.as.toNat).field (url_tame k.ski).field (url_tame k.spk).field
  unfold keyRow keyCsv
  simpa [lit, List.append_assoc] using this

/-! ### JSON -/

instance (t : Text) : Decidable (Ws t) := inferInstanceAs (Decidable (∀ c ∈ t, _))
instance (t : Text) : Decidable (Plain t) := inferInstanceAs (Decidable (∀ c ∈ t, _))

theorem member {a k b c v t d} (ha : Ws a) (hk : Plain k) (hb : Ws b) (hc : Ws c) (hv : Value v t) (hd : Ws d) :
    Members [(k, v)] (a ++ '"' :: k ++ '"' :: b ++ ':' :: c ++ t ++ d) := .one ha hk hb hc hv hd

theorem vrpObj_value {e : Env} (h : EnvOk e) (v : Vrp) : ∃ t, Value (vrpObj e.ntop v) t ∧ roaJson e v = lit "\n  " ++ t := by
  refine ⟨_, .obj (.more (a := lit " ") (b := []) (c := lit " ") (d := []) (by decide) (by decide) (by decide) (by decide) (.str (as_tame _).plain) (by decide)
    (.more (a := lit " ") (b := []) (c := lit " ") (d := []) (by decide) (by decide) (by decide) (by decide) (.str (prefix_tame h _ _ _).plain) (by decide)
    (.one (a := lit " ") (b := []) (c := lit " ") (d := lit " ") (by decide) (by decide) (by decide) (by decide) (.num _) (by decide)))), ?_⟩
  unfold roaJson
  simp [lit, dec, List.append_assoc]

theorem keyObj_value (k : RouterKey) : ∃ t, Value (keyObj k) t ∧ keyJson k (chars (base64url k.ski), chars (base64url k.spk)) = lit "\n  " ++ t := by
  refine ⟨_, .obj (.more (a := lit " ") (b := []) (c := lit " ") (d := []) (by decide) (by decide) (by decide) (by decide) (.str (as_tame _).plain) (by decide)
    (.more (a := lit " ") (b := []) (c := lit " ") (d := []) (by decide) (by decide) (by decide) (by decide) (.str (url_tame _).plain) (by decide)
    (.one (a := lit " ") (b := []) (c := lit " ") (d := lit " ") (by decide) (by decide) (by decide) (by decide) (.str (url_tame _).plain) (by decide)))), ?_⟩
  unfold keyJson
  simp [lit, dec, List.append_assoc]

theorem elems_map {α : Type} (obj : α → Json) (text : α → Text) : ∀ (l : List α), (∀ x ∈ l, ∃ t, Value (obj x) t ∧ text x = lit "\n  " ++ t) →
    Elems (l.map obj) (((l.map text).intersperse (lit ",")).flatten ++ lit "\n")
  | [], _ => .empty (show Ws (lit "\n") by decide)
  | [x], h => by
    obtain ⟨t, h1, h2⟩ := h x (List.mem_cons_self ..)
    have := Elems.one (a := lit "\n  ") (b := lit "\n") (by decide) h1 (by decide)
    simpa [h2, List.append_assoc] using this
  | x :: y :: l, h => by
    obtain ⟨t, h1, h2⟩ := h x (List.mem_cons_self ..)
    have ih := elems_map obj text (y :: l) fun z hz => h z (List.mem_cons_of_mem _ hz)
    rw [List.map_cons] at ih
    have := Elems.more (a := lit "\n  ") (b := []) (by decide) h1 (by decide) ih
    rw [List.map_cons, List.map_cons, List.map_cons, List.map_cons, List.intersperse_cons_cons]
    rw [List.map_cons] at this
    simpa [h2, List.append_assoc, lit] using this

theorem json_doc (name : Text) (hn : Plain name) (l : List Json) (t : Text) (h : Elems l (t ++ lit "\n")) :
    JsonText (.obj [(name, .arr l)]) (lit "{ \"" ++ name ++ lit "\" : [" ++ t ++ lit "\n]}\n") := by
  refine ⟨[], _, lit "\n", by decide, .obj (.one (a := lit " ") (b := lit " ") (c := lit " ") (d := []) (by decide) hn (by decide) (by decide) (.arr h) (by decide)), by decide, ?_⟩
  simp [lit, List.append_assoc]

/-! ### Keys -/

theorem encodeKey_eq {e : Env} (h : EnvOk e) {k : RouterKey} (hk : k.ski.length = 20 ∧ k.spk.length = 91) :
    encodeKey e k = .ok (if (e.skiBio k).isSome && (e.spkBio k).isSome then some (chars (base64url k.ski), chars (base64url k.spk)) else none) := by
  have enc : ∀ (x t a : List Byte), t = base64 x → x.length % 3 ≠ 0 → Verif.B64.toBase64url t a = .ok (base64url x) := by
    intro x t a ht hx
    subst ht
    exact Verif.B64.C56_encode_partial (encode := base64) rfl hx a
  unfold encodeKey
  rcases h1 : e.skiBio k with _ | ⟨t1, a1⟩
  · rfl
  · simp only [enc k.ski t1 a1 (h.ski k t1 a1 h1) (by rw [hk.1]; decide)]
    rcases h2 : e.spkBio k with _ | ⟨t2, a2⟩
    · rfl
    · simp only [enc k.spk t2 a2 (h.spk k t2 a2 h2) (by rw [hk.2]; decide)]
      rfl

/-- The texts of the router keys. -/
def keyTexts (e : Env) (ks : List RouterKey) : Format → List Text
  | .csv => lit "ASN,Subject Key Identifier,Subject Public Key Info\n" :: (encoded e ks).map fun k => keyCsv k (chars (base64url k.ski), chars (base64url k.spk))
  | .json => lit "{ \"router-keys\" : [" :: ((encoded e ks).map fun k => keyJson k (chars (base64url k.ski), chars (base64url k.spk))).intersperse (lit ",") ++ [lit "\n]}\n"]

theorem keysCsv_eq {e : Env} (h : EnvOk e) (out : Dst) : ∀ (ks : List RouterKey), (∀ k ∈ ks, k.ski.length = 20 ∧ k.spk.length = 91) →
    keysCsv e out ks = .ok (prints out ((encoded e ks).map fun k => keyCsv k (chars (base64url k.ski), chars (base64url k.spk))))
  | [], _ => rfl
  | k :: ks, hk => by
    have ih := keysCsv_eq h out ks fun x hx => hk x (List.mem_cons_of_mem _ hx)
    rw [keysCsv, encodeKey_eq h (hk k (List.mem_cons_self ..))]
    unfold encoded at ih ⊢
    rw [List.filter_cons]
    cases (e.skiBio k).isSome && (e.spkBio k).isSome with
    | true => simp only [if_true, ih]; rfl
    | false => simp only [Bool.false_eq_true, if_false, ih]

theorem keysJson_false {e : Env} (h : EnvOk e) (out : Dst) : ∀ (ks : List RouterKey), (∀ k ∈ ks, k.ski.length = 20 ∧ k.spk.length = 91) →
    keysJson e out false ks = .ok (prints out (commas ((encoded e ks).map fun k => keyJson k (chars (base64url k.ski), chars (base64url k.spk)))))
  | [], _ => rfl
  | k :: ks, hk => by
    have ih := keysJson_false h out ks fun x hx => hk x (List.mem_cons_of_mem _ hx)
    rw [keysJson, encodeKey_eq h (hk k (List.mem_cons_self ..))]
    unfold encoded at ih ⊢
    rw [List.filter_cons]
    cases (e.skiBio k).isSome && (e.spkBio k).isSome with
    | true => simp only [if_true, ih]; rfl
    | false => simp only [Bool.false_eq_true, if_false, ih]

theorem keysJson_eq {e : Env} (h : EnvOk e) (out : Dst) : ∀ (ks : List RouterKey), (∀ k ∈ ks, k.ski.length = 20 ∧ k.spk.length = 91) →
    keysJson e out true ks = .ok (prints out (((encoded e ks).map fun k => keyJson k (chars (base64url k.ski), chars (base64url k.spk))).intersperse (lit ",")))
  | [], _ => rfl
  | k :: ks, hk => by
    have ih := keysJson_eq h out ks fun x hx => hk x (List.mem_cons_of_mem _ hx)
    have ih2 := keysJson_false h out ks fun x hx => hk x (List.mem_cons_of_mem _ hx)
    rw [keysJson, encodeKey_eq h (hk k (List.mem_cons_self ..))]
    unfold encoded at ih ih2 ⊢
    rw [List.filter_cons]
    cases (e.skiBio k).isSome && (e.spkBio k).isSome with
    | true => simp only [if_true, ih2, List.map_cons, commas_intersperse]; rfl
    | false => simp only [Bool.false_eq_true, if_false, ih]

theorem printRouterKeys_eq {e : Env} (h : EnvOk e) (filename : Option Text) (f : Format) (opens : Bool) (db : Table) (hk : KeysOk db) :
    printRouterKeys e filename f opens db = .ok (session filename opens (keyTexts e db.keys f)) := by
  unfold printRouterKeys session
  rcases loadOutputFile filename opens with ⟨_ | out, cs⟩
  · rfl
  · cases f with
    | csv => simp only [keyTexts, keysCsv_eq h out db.keys hk, prints, List.map_cons, List.append_assoc, List.cons_append]
    | json => simp only [keyTexts, keysJson_eq h out db.keys hk, prints, List.map_cons, List.map_append, List.append_assoc, List.cons_append, List.map_nil, List.nil_append]

theorem describes {e : Env} (h : EnvOk e) (db : Table) (f : Format) : Describes e db (roaTexts e db.roas f).flatten (keyTexts e db.keys f).flatten f := by
  cases f with
  | csv =>
    constructor
    · refine .cons ?_ (csv_map _ _ _ fun v _ => roaCsv_row h v)
      exact row3 (a := lit "ASN") (b := lit "Prefix") (c := lit "Max prefix length") (Tame.field (by decide)) (Tame.field (by decide)) (Tame.field (by decide))
    · refine .cons ?_ (csv_map _ _ _ fun k _ => keyCsv_row k)
      exact row3 (a := lit "ASN") (b := lit "Subject Key Identifier") (c := lit "Subject Public Key Info") (Tame.field (by decide)) (Tame.field (by decide)) (Tame.field (by decide))
  | json =>
    constructor
    · have := json_doc (lit "roas") (by decide) _ _ (elems_map (vrpObj e.ntop) (roaJson e) db.roas fun v _ => vrpObj_value h v)
      simpa [roaTexts, lit] using this
    · have := json_doc (lit "router-keys") (by decide) _ _ (elems_map keyObj (fun k => keyJson k (chars (base64url k.ski), chars (base64url k.spk))) (encoded e db.keys) fun k _ => keyObj_value k)
      simpa [keyTexts, lit] using this

/-! ## C131, C132 -/

/-- What remains after everything was printed: `a` is the text of the ROAs, `b` the one of the router keys. "-" is standard output; other names are files. If a file can't be opened then it's as it was. -/
def Outcome (c : Conf) (a b : Text) (w w' : World) : Prop :=
  w'.stdout = w.stdout ++ (if c.roa = some (lit "-") then a else []) ++ (if c.bgpsec = some (lit "-") then b else []) ∧
  (∀ n, w'.disk n =
    if c.bgpsec = some n ∧ n ≠ lit "-" ∧ c.opensBgpsec = true then some b
    else if c.roa = some n ∧ n ≠ lit "-" ∧ c.opensRoa = true then some a
    else w.disk n) ∧
  w'.stream = none

theorem deliver_stdout (filename : Option Text) (opens : Bool) (t : Text) (w : World) :
    (deliver filename opens t w).stdout = w.stdout ++ (if filename = some (lit "-") then t else []) := by
  unfold deliver
  cases filename with
  | none => simp
  | some n =>
    simp only [Option.some.injEq]
    by_cases h : n = lit "-"
    · rw [if_pos h, if_pos h]
    · rw [if_neg h, if_neg h]
      split <;> simp

theorem deliver_disk (filename : Option Text) (opens : Bool) (t : Text) (w : World) (n : Text) :
    (deliver filename opens t w).disk n = if filename = some n ∧ n ≠ lit "-" ∧ opens = true then some t else w.disk n := by
  unfold deliver
  cases filename with
  | none => simp
  | some m =>
    simp only [Option.some.injEq]
    by_cases h : m = lit "-"
    · rw [if_pos h, if_neg]
      rintro ⟨rfl, h2, _⟩
      exact h2 h
    · rw [if_neg h]
      cases opens with
      | false => simp
      | true =>
        simp only [if_true, setFile]
        by_cases hn : n = m
        · subst hn
          rw [if_pos rfl, if_pos ⟨rfl, h, trivial⟩]
        · rw [if_neg hn, if_neg (fun hh => hn hh.1.symm)]

theorem print_both {e : Env} (h : EnvOk e) (c : Conf) (db : Table) (hk : KeysOk db) (w : World) (hw : w.stream = none) :
    ∃ calls a b, outputPrintData e c db = .ok calls ∧ Describes e db a b c.format ∧ (∃ w', Exec False w calls w') ∧ ∀ w', Exec False w calls w' → Outcome c a b w w' := by
  refine ⟨session c.roa c.opensRoa (roaTexts e db.roas c.format) ++ session c.bgpsec c.opensBgpsec (keyTexts e db.keys c.format), _, _, ?_, describes h db c.format, ?_, ?_⟩
  · unfold outputPrintData
    rw [printRouterKeys_eq h _ _ _ _ hk]
    simp only [printRoas_eq]
  · have happ : ∀ {w m w' : World} {a b : List Call}, Exec False w a m → Exec False m b w' → Exec False w (a ++ b) w' := by
      intro w m w' a b h1 h2
      induction h1 with
      | refl => exact h2
      | call hs _ ih => exact .call hs (ih h2)
      | flush hs _ ih => exact .flush hs (ih h2)
    exact ⟨_, happ (session_exec _ _ _ w hw) (session_exec _ _ _ _ (by rw [deliver_stream, hw]))⟩
  · intro w' hx
    obtain ⟨m, h1, h2⟩ := exec_append hx _ _ rfl
    have e1 := exec_session h1 hw
    subst e1
    have e2 := exec_session h2 (by rw [deliver_stream, hw])
    subst e2
    refine ⟨?_, ?_, by rw [deliver_stream, deliver_stream, hw]⟩
    · rw [deliver_stdout, deliver_stdout]
    · intro n
      rw [deliver_disk, deliver_disk]

/-- **C131.** With CSV, the file of the ROAs has the header and one row for each VRP, and the one of the router keys has the header and one row for each key (unless libcrypto couldn't allocate), in
the order of the table; the destinations that aren't configured, or can't be opened, aren't touched, and no file is left open. -/
theorem C131 {e : Env} (h : EnvOk e) (c : Conf) (hf : c.format = .csv) (db : Table) (hk : KeysOk db) (w : World) (hw : w.stream = none) :
    ∃ calls a b, outputPrintData e c db = .ok calls ∧
      Csv ([lit "ASN", lit "Prefix", lit "Max prefix length"] :: db.roas.map (vrpRow e.ntop)) a ∧
      Csv ([lit "ASN", lit "Subject Key Identifier", lit "Subject Public Key Info"] :: (encoded e db.keys).map keyRow) b ∧
      (∃ w', Exec False w calls w') ∧ ∀ w', Exec False w calls w' → Outcome c a b w w' := by
  obtain ⟨calls, a, b, h1, h2, h3, h4⟩ := print_both h c db hk w hw
  rw [hf] at h2
  exact ⟨calls, a, b, h1, h2.1, h2.2, h3, h4⟩

/-- **C132.** With JSON, the files are JSON texts, of an object with an array that has an object for each VRP, or router key. -/
theorem C132 {e : Env} (h : EnvOk e) (c : Conf) (hf : c.format = .json) (db : Table) (hk : KeysOk db) (w : World) (hw : w.stream = none) :
    ∃ calls a b, outputPrintData e c db = .ok calls ∧
      JsonText (.obj [(lit "roas", .arr (db.roas.map (vrpObj e.ntop)))]) a ∧
      JsonText (.obj [(lit "router-keys", .arr ((encoded e db.keys).map keyObj))]) b ∧
      (∃ w', Exec False w calls w') ∧ ∀ w', Exec False w calls w' → Outcome c a b w w' := by
  obtain ⟨calls, a, b, h1, h2, h3, h4⟩ := print_both h c db hk w hw
  rw [hf] at h2
  exact ⟨calls, a, b, h1, h2.1, h2.2, h3, h4⟩

/-! ### The files can be read back -/

theorem field_split {f g s t : Text} {x y : Char} (hf : Field f) (hg : Field g) (hx : x = ',' ∨ x = '\n') (hy : y = ',' ∨ y = '\n') (h : f ++ x :: s = g ++ y :: t) : f = g ∧ x = y ∧ s = t := by
  induction f generalizing g with
  | nil =>
    cases g with
    | nil => injection h with h1 h2; exact ⟨rfl, h1, h2⟩
    | cons c g =>
      injection h with h1 _
      have := hg c (List.mem_cons_self ..)
      rcases hx with rfl | rfl
      · exact absurd h1.symm this.1
      · exact absurd h1.symm this.2.1
  | cons c f ih =>
    cases g with
    | nil =>
      injection h with h1 _
      have := hf c (List.mem_cons_self ..)
      rcases hy with rfl | rfl
      · exact absurd h1 this.1
      · exact absurd h1 this.2.1
    | cons d g =>
      injection h with h1 h2
      obtain ⟨k1, k2, k3⟩ := ih (fun c hc => hf c (List.mem_cons_of_mem _ hc)) (fun c hc => hg c (List.mem_cons_of_mem _ hc)) h2
      exact ⟨by rw [h1, k1], k2, k3⟩

theorem row_unique {r : List Text} {a : Text} (h : CsvRow r a) : ∀ {r' a' b b'}, CsvRow r' a' → a ++ b = a' ++ b' → r = r' ∧ b = b' := by
  induction h with
  | @last f hf =>
    intro r' a' b b' h' e
    cases h' with
    | @last g hg =>
      simp only [List.append_assoc, List.singleton_append] at e
      obtain ⟨k1, _, k3⟩ := field_split hf hg (Or.inr rfl) (Or.inr rfl) e
      exact ⟨by rw [k1], k3⟩
    | more hg _ =>
      simp only [List.append_assoc, List.singleton_append, List.cons_append] at e
      exact absurd (field_split hf hg (Or.inr rfl) (Or.inl rfl) e).2.1 (by decide)
  | @more f fs t hf _ ih =>
    intro r' a' b b' h' e
    cases h' with
    | @last g hg =>
      simp only [List.append_assoc, List.singleton_append, List.cons_append] at e
      exact absurd (field_split hf hg (Or.inl rfl) (Or.inr rfl) e).2.1 (by decide)
    | more hg hr =>
      simp only [List.append_assoc, List.cons_append] at e
      obtain ⟨k1, _, k3⟩ := field_split hf hg (Or.inl rfl) (Or.inl rfl) e
      obtain ⟨k4, k5⟩ := ih hr k3
      exact ⟨by rw [k1, k4], k5⟩

theorem row_ne {r : List Text} {a : Text} (h : CsvRow r a) : a ≠ [] := by
  cases h with
  | last _ => simp
  | more _ _ => simp

/-- A CSV text has one reading. -/
theorem csv_unique {rs : List (List Text)} {t : Text} (h : Csv rs t) : ∀ {rs'}, Csv rs' t → rs = rs' := by
  induction h with
  | nil =>
    intro rs' h'
    generalize ht : ([] : Text) = t at h'
    cases h' with
    | nil => rfl
    | cons hr _ => exact absurd (List.append_eq_nil_iff.1 ht.symm).1 (row_ne hr)
  | @cons r rs a b hr hc ih =>
    intro rs' h'
    generalize ht : a ++ b = t at h'
    cases h' with
    | nil => exact absurd (List.append_eq_nil_iff.1 ht).1 (row_ne hr)
    | cons hr' hc' =>
      obtain ⟨k1, k2⟩ := row_unique hr hr' ht
      subst k1 k2
      rw [ih hc']

theorem dec_inj {m n : Nat} (h : dec m = dec n) : m = n := by
  rw [← Verif.Cert.undec_bn2dec m, ← Verif.Cert.undec_bn2dec n]
  exact congrArg Verif.Cert.undec h

theorem slash_split {a b x y : Text} (ha : ∀ c ∈ a, c ≠ '/') (hb : ∀ c ∈ b, c ≠ '/') (h : a ++ lit "/" ++ x = b ++ lit "/" ++ y) : a = b ∧ x = y := by
  induction a generalizing b with
  | nil =>
    cases b with
    | nil => injection h with _ h; exact ⟨rfl, h⟩
    | cons c b => injection h with h _; exact absurd h.symm (hb c (List.mem_cons_self ..))
  | cons c a ih =>
    cases b with
    | nil => injection h with h _; exact absurd h (ha c (List.mem_cons_self ..))
    | cons d b =>
      injection h with h1 h2
      obtain ⟨k1, k2⟩ := ih (fun c hc => ha c (List.mem_cons_of_mem _ hc)) (fun c hc => hb c (List.mem_cons_of_mem _ hc)) h2
      exact ⟨by rw [h1, k1], k2⟩

/-- **C131.** Nothing is lost: if two tables have the same CSV then they have the same VRPs (if different addresses are written differently). -/
theorem C131_faithful {e : Env} (h : EnvOk e) (db1 db2 : Table)
    (hinj : ∀ v1 ∈ db1.roas, ∀ v2 ∈ db2.roas, e.ntop v1.fam v1.prefix_ = e.ntop v2.fam v2.prefix_ → v1.fam = v2.fam ∧ v1.prefix_ = v2.prefix_) (header : List Text) (a : Text)
    (h1 : Csv (header :: db1.roas.map (vrpRow e.ntop)) a) (h2 : Csv (header :: db2.roas.map (vrpRow e.ntop)) a) : db1.roas = db2.roas := by
  have hr := (List.cons.inj (csv_unique h1 h2)).2
  clear h1 h2
  have hslash : ∀ f p, ∀ c ∈ e.ntop f p, c ≠ '/' := by
    intro f p c hc heq
    subst heq
    exact absurd (h.ntop f p _ hc) (by decide)
  have row : ∀ v1 ∈ db1.roas, ∀ v2 ∈ db2.roas, vrpRow e.ntop v1 = vrpRow e.ntop v2 → v1 = v2 := by
    intro v1 m1 v2 m2 hv
    unfold vrpRow at hv
    injection hv with e1 hv
    injection hv with e2 hv
    injection hv with e3 _
    obtain ⟨e4, e5⟩ := slash_split (hslash _ _) (hslash _ _) e2
    obtain ⟨e6, e7⟩ := hinj v1 m1 v2 m2 e4
    have e1' := BitVec.eq_of_toNat_eq (dec_inj (List.append_cancel_left e1))
    have e5' := BitVec.eq_of_toNat_eq (dec_inj e5)
    have e3' := BitVec.eq_of_toNat_eq (dec_inj e3)
    cases v1; cases v2
    simp only at e1' e3' e5' e6 e7
    subst e1' e3' e5' e6 e7
    rfl
  clear hinj
  generalize db1.roas = l1 at *
  generalize db2.roas = l2 at *
  induction l1 generalizing l2 with
  | nil =>
    cases l2 with
    | nil => rfl
    | cons _ _ => cases hr
  | cons x l1 ih =>
    cases l2 with
    | nil => cases hr
    | cons y l2 =>
      injection hr with k1 k2
      rw [row x (List.mem_cons_self ..) y (List.mem_cons_self ..) k1, ih l2 k2 fun a ha b hb => row a (List.mem_cons_of_mem _ ha) b (List.mem_cons_of_mem _ hb)]

/-! ## C133 -/

/-- The property: whatever happens while printing (including that the program dies, or the disk is full), every file is as it was, or as it's expected to be. -/
def CrashSafe : Prop :=
  ∀ (e : Env) (c : Conf) (db : Table) (w : World) (calls : List Call) (disk : Text → Option Text), EnvOk e → KeysOk db → w.stream = none → outputPrintData e c db = .ok calls →
    Dies True w calls disk → ∀ n, disk n = w.disk n ∨ ∃ w', Exec False w calls w' ∧ disk n = w'.disk n

/-- An environment. -/
def exEnv : Env where
  ntop := fun f p => match f with
    | .v4 => dec (p.toNat / 16777216 % 256) ++ lit "." ++ dec (p.toNat / 65536 % 256) ++ lit "." ++ dec (p.toNat / 256 % 256) ++ lit "." ++ dec (p.toNat % 256)
    | .v6 => dec p.toNat
  skiBio := fun k => some (base64 k.ski, [])
  spkBio := fun k => some (base64 k.spk, [])

theorem exEnv_ok : EnvOk exEnv where
  ntop := by
    have sub : ∀ c ∈ lit "0123456789", c ∈ lit "0123456789abcdef.:" := by decide
    intro f p c hc
    unfold exEnv at hc
    cases f with
    | v6 => exact sub c (dec_digit c hc)
    | v4 =>
      simp only [List.mem_append] at hc
      have dot : ∀ c ∈ lit ".", c ∈ lit "0123456789abcdef.:" := by decide
      rcases hc with (((((h | h) | h) | h) | h) | h) | h
      · exact sub c (dec_digit c h)
      · exact dot c h
      · exact sub c (dec_digit c h)
      · exact dot c h
      · exact sub c (dec_digit c h)
      · exact dot c h
      · exact sub c (dec_digit c h)
  ski := by intro k t a h; injection h with h; exact (Prod.mk.inj h).1.symm
  spk := by intro k t a h; injection h with h; exact (Prod.mk.inj h).1.symm

/-- A table. -/
def exTable : Table := ⟨[⟨64496, .v4, 0xC0000200, 24, 25⟩, ⟨64497, .v4, 0x0A000000, 8, 8⟩], [⟨List.replicate 20 1, 5, List.replicate 91 2⟩]⟩

theorem exKeys : KeysOk exTable := by
  intro k hk
  simp only [exTable, List.mem_singleton] at hk
  subst hk
  exact ⟨by decide, by decide⟩

/-- CSV, in two files. -/
def exConf : Conf := ⟨some (lit "roas.csv"), some (lit "keys.csv"), .csv, true, true⟩

/-- An old file. -/
def exWorld : World := ⟨fun n => if n = lit "roas.csv" then some (lit "old") else none, [], none⟩

example : (roaTexts exEnv exTable.roas .csv).flatten = lit "ASN,Prefix,Max prefix length\nAS64496,192.0.2.0/24,25\nAS64497,10.0.0.0/8,8\n" := by decide +kernel
example : (roaTexts exEnv exTable.roas .json).flatten = lit "{ \"roas\" : [\n  { \"asn\": \"AS64496\", \"prefix\": \"192.0.2.0/24\", \"maxLength\": 25 },\n  { \"asn\": \"AS64497\", \"prefix\": \"10.0.0.0/8\", \"maxLength\": 8 }\n]}\n" := by decide +kernel
/-- The hypotheses of C131 and C132 can be met. -/
example := C131 exEnv_ok exConf rfl exTable exKeys exWorld rfl
example := C132 exEnv_ok { exConf with format := .json } rfl exTable exKeys exWorld rfl
example := C132 exEnv_ok { exConf with format := .json, roa := some (lit "-") } rfl Table.create (fun _ h => by cases h) exWorld rfl

/-- **C133.** The property is false of the code: the file is emptied before it's written. -/
theorem C133_refuted : ¬ CrashSafe := by
  intro h
  obtain ⟨calls, a, b, h1, h2, _, _, h4⟩ := C131 exEnv_ok exConf rfl exTable exKeys exWorld rfl
  have hcalls : calls = .fopen (lit "roas.csv") :: calls.tail := by
    have : outputPrintData exEnv exConf exTable = .ok (printRoas exEnv exConf.roa exConf.format exConf.opensRoa exTable ++ session exConf.bgpsec exConf.opensBgpsec (keyTexts exEnv exTable.keys exConf.format)) := by
      unfold outputPrintData
      rw [printRouterKeys_eq exEnv_ok _ _ _ _ exKeys]
    have h1 := Res.ok.inj (this.symm.trans h1)
    have hl : loadOutputFile exConf.roa exConf.opensRoa = (some (.file (lit "roas.csv")), [.fopen (lit "roas.csv")]) := by decide
    have hc : printRoas exEnv exConf.roa exConf.format exConf.opensRoa exTable = .fopen (lit "roas.csv") :: (prints (.file (lit "roas.csv")) (roaTexts exEnv exTable.roas .csv) ++ closeOutput (.file (lit "roas.csv"))) := by
      rw [printRoas_eq]
      unfold session
      rw [hl]
      rfl
    rw [hc, List.cons_append] at h1
    rw [← h1, List.tail_cons]
  have hdies : Dies True exWorld calls (setFile exWorld.disk (lit "roas.csv") []) :=
    ⟨[.fopen (lit "roas.csv")], _, by rw [hcalls]; exact List.cons_prefix_cons.2 ⟨rfl, List.nil_prefix⟩, .call (.fopen rfl) .refl, rfl⟩
  rcases h exEnv exConf exTable exWorld calls _ exEnv_ok exKeys rfl h1 hdies (lit "roas.csv") with hh | ⟨w', hx, hh⟩
  · exact absurd hh (by decide)
  · obtain ⟨_, hd, _⟩ := h4 w' hx
    rw [hd] at hh
    have e1 : ¬ (exConf.bgpsec = some (lit "roas.csv") ∧ lit "roas.csv" ≠ lit "-" ∧ exConf.opensBgpsec = true) := by decide
    have e2 : exConf.roa = some (lit "roas.csv") ∧ lit "roas.csv" ≠ lit "-" ∧ exConf.opensRoa = true := by decide
    rw [if_neg e1, if_pos e2] at hh
    injection hh with hh
    generalize hm : ([lit "ASN", lit "Prefix", lit "Max prefix length"] :: exTable.roas.map (vrpRow exEnv.ntop)) = m at h2
    cases h2 with
    | nil => cases hm
    | cons hr _ => exact row_ne hr (List.append_eq_nil_iff.1 hh.symm).1

theorem prefix_append_cases {α : Type} {l a b : List α} (h : l <+: a ++ b) : l <+: a ∨ ∃ d, l = a ++ d ∧ d <+: b := by
  rcases List.prefix_or_prefix_of_prefix h (List.prefix_append a b) with h1 | ⟨d, rfl⟩
  · exact Or.inl h1
  · exact Or.inr ⟨d, rfl, (List.prefix_append_right_inj a).1 h⟩

/-- **C133 (part).** If writes don't fail then, wherever the program dies, every file is as it was, or one of the configured files, with a prefix of its text. -/
theorem C133_partial {e : Env} (h : EnvOk e) (c : Conf) (db : Table) (hk : KeysOk db) (w : World) (hw : w.stream = none) :
    ∃ calls a b, outputPrintData e c db = .ok calls ∧ Describes e db a b c.format ∧ ∀ disk, Dies False w calls disk →
      ∀ n, disk n = w.disk n ∨ ∃ pre, disk n = some pre ∧ n ≠ lit "-" ∧ (c.roa = some n ∧ pre <+: a ∨ c.bgpsec = some n ∧ pre <+: b) := by
  refine ⟨session c.roa c.opensRoa (roaTexts e db.roas c.format) ++ session c.bgpsec c.opensBgpsec (keyTexts e db.keys c.format), _, _, ?_, describes h db c.format, ?_⟩
  · unfold outputPrintData
    rw [printRouterKeys_eq h _ _ _ _ hk]
    simp only [printRoas_eq]
  · rintro disk ⟨done, w', hp, hx, rfl⟩ n
    rcases prefix_append_cases hp with hp | ⟨d2, rfl, hq⟩
    · rcases dies_session hp hx hw n with hh | ⟨pre, h1, h2, h3, h4⟩
      · exact Or.inl hh
      · exact Or.inr ⟨pre, h1, h3, Or.inl ⟨h2, h4⟩⟩
    · obtain ⟨m, h1, h2⟩ := exec_append hx _ _ rfl
      have e1 := exec_session h1 hw
      subst e1
      rcases dies_session hq h2 (by rw [deliver_stream, hw]) n with hh | ⟨pre, h1, h2, h3, h4⟩
      · rw [hh, deliver_disk]
        split
        · rename_i hc
          exact Or.inr ⟨_, rfl, hc.2.1, Or.inl ⟨hc.1, List.prefix_rfl⟩⟩
        · exact Or.inl rfl
      · exact Or.inr ⟨pre, h1, h3, Or.inr ⟨h2, h4⟩⟩

example := C133_partial exEnv_ok exConf exTable exKeys exWorld rfl

/-! ## C134 -/

theorem deltas_none {old new : Table} (h : Verif.Rtr.computeDeltas old new = none) : (∀ v, v ∈ old.roas ↔ v ∈ new.roas) ∧ ∀ k, k ∈ old.keys ↔ k ∈ new.keys := by
  rw [Verif.Rtr.computeDeltas_eq] at h
  have he : (Verif.Rtr.diffDeltas old new).isEmpty = true := by
    by_contra hh
    rw [if_neg hh] at h
    cases h
  simp only [Verif.Rtr.Deltas.isEmpty, Verif.Rtr.diffDeltas, Bool.and_eq_true, beq_iff_eq, List.length_eq_zero_iff, List.filter_eq_nil_iff, decide_eq_true_eq, not_and, Decidable.not_not] at he
  obtain ⟨⟨⟨⟨⟨h1, h2⟩, h3⟩, h4⟩, h5⟩, h6⟩ := he
  constructor
  · intro v
    constructor
    · intro hv
      by_contra hn
      rcases hf : v.fam with _ | _
      · exact h2 v hv hn hf
      · exact h4 v hv hn hf
    · intro hv
      by_contra hn
      rcases hf : v.fam with _ | _
      · exact h1 v hv hn hf
      · exact h3 v hv hn hf
  · exact fun k => ⟨fun hv => h6 k hv, fun hv => h5 k hv⟩

/-- **C134.** What's printed is what's served: if an update succeeds then calls are made that print a table (see C131, C132), and it has the VRPs and the router keys of the one that's served from then on;
if it fails before that then nothing is printed and the table that's served is the previous one. -/
theorem C134 (e : Env) (c : Conf) (st : State) (result : Option Table) :
    (∀ ch, (updateAndPrint e c st result).2.2 = .ok ch → ∃ printed served, (updateAndPrint e c st result).1 = outputPrintData e c printed ∧ (updateAndPrint e c st result).2.1.base = some served ∧
      (∀ v, v ∈ printed.roas ↔ v ∈ served.roas) ∧ ∀ k, k ∈ printed.keys ↔ k ∈ served.keys) ∧
    (∀ ch, (updateAndPrint e c st result).2.2 = .failed ch → (updateAndPrint e c st result).1 = .ok [] ∧ (updateAndPrint e c st result).2.1 = st) := by
  unfold updateAndPrint
  cases result with
  | none => exact ⟨fun ch h => (by cases h), fun ch _ => ⟨rfl, rfl⟩⟩
  | some new =>
    simp only [State.update]
    cases hb : st.base with
    | none => exact ⟨fun ch _ => ⟨new, new, rfl, rfl, fun _ => Iff.rfl, fun _ => Iff.rfl⟩, fun ch h => (by cases h)⟩
    | some old =>
      simp only
      cases hd : Verif.Rtr.computeDeltas old new with
      | none =>
        obtain ⟨h1, h2⟩ := deltas_none hd
        exact ⟨fun ch _ => ⟨new, old, rfl, hb, fun v => (h1 v).symm, fun k => (h2 k).symm⟩, fun ch h => (by cases h)⟩
      | some d =>
        simp only
        cases hda : st.deltas.add d with
        | none => exact ⟨fun ch h => (by cases h), fun ch h => (by cases h)⟩
        | some da => exact ⟨fun ch _ => ⟨new, new, rfl, rfl, fun _ => Iff.rfl, fun _ => Iff.rfl⟩, fun ch h => (by cases h)⟩

example : (updateAndPrint exEnv exConf (State.init 2 5) (some exTable)).2.2 = .ok true := by decide +kernel
example : (updateAndPrint exEnv exConf ((State.init 2 5).update (some exTable)).1 (some exTable)).2.2 = .ok false := by decide +kernel

end Verif.Out
