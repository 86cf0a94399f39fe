import Verif.B64.Model
/-
C56: base64url.
-/
namespace Verif.B64
open Verif.Rtr (Byte)
open Verif.Tal (Res Str)

/-! ### Specification: RFC 4648 -/

/-- Groups of 6 bits; the last one is filled up with zeros. -/
def sextets : List Byte → List Nat
  | [] => []
  | [a] => [a.toNat / 4, a.toNat % 4 * 16]
  | [a, b] => [a.toNat / 4, a.toNat % 4 * 16 + b.toNat / 16, b.toNat % 16 * 4]
  | a :: b :: c :: l =>
    a.toNat / 4 :: (a.toNat % 4 * 16 + b.toNat / 16) :: (b.toNat % 16 * 4 + c.toNat / 64) :: (c.toNat % 64) :: sextets l

/-- Table 1 ("The Base 64 Alphabet") with characters for 62 and 63. -/
def alphabet (c62 c63 : Byte) (i : Nat) : Byte :=
  if i < 26 then BitVec.ofNat 8 (65 + i)
  else if i < 52 then BitVec.ofNat 8 (97 + (i - 26))
  else if i < 62 then BitVec.ofNat 8 (48 + (i - 52))
  else if i = 62 then c62
  else c63

/-- Section 4: base64, with padding. -/
def base64 (x : List Byte) : Str :=
  (sextets x).map (alphabet plus slash) ++ List.replicate (if x.length % 3 = 0 then 0 else 3 - x.length % 3) eq

/-- Section 5: base64url, without padding (section 3.2). -/
def base64url (x : List Byte) : Str := (sextets x).map (alphabet minus under)

/-! ### Lemmas -/

theorem sextets_lt : ∀ (x : List Byte), ∀ i ∈ sextets x, i < 64
  | [], _, h => by cases h
  | [a], i, h => by
    have := a.isLt
    simp only [sextets, List.mem_cons, List.not_mem_nil, or_false] at h
    omega
  | [a, b], i, h => by
    have := a.isLt
    have := b.isLt
    simp only [sextets, List.mem_cons, List.not_mem_nil, or_false] at h
    omega
  | a :: b :: c :: l, i, h => by
    have := a.isLt
    have := b.isLt
    have := c.isLt
    simp only [sextets, List.mem_cons] at h
    rcases h with h | h | h | h | h
    · omega
    · omega
    · omega
    · omega
    · exact sextets_lt l i h

theorem sextets_length : ∀ (x : List Byte), (sextets x).length = x.length / 3 * 4 + (if x.length % 3 = 0 then 0 else x.length % 3 + 1)
  | [] => rfl
  | [a] => by simp [sextets]
  | [a, b] => by simp [sextets]
  | a :: b :: c :: l => by
    have := sextets_length l
    simp only [sextets, List.length_cons]
    rw [this]
    have h1 : (l.length + 1 + 1 + 1) % 3 = l.length % 3 := by omega
    have h2 : (l.length + 1 + 1 + 1) / 3 = l.length / 3 + 1 := by omega
    rw [h1, h2]
    omega

theorem alphabet_url : ∀ i, i < 64 → toUrl (alphabet plus slash i) = alphabet minus under i := by decide
theorem alphabet_std : ∀ i, i < 64 → fromUrl (alphabet minus under i) = alphabet plus slash i := by decide
theorem alphabet_ne : ∀ i, i < 64 → alphabet plus slash i ≠ eq ∧ alphabet plus slash i ≠ 0#8 := by decide
theorem url_ne : ∀ i, i < 64 → alphabet minus under i ≠ eq ∧ alphabet minus under i ≠ plus ∧ alphabet minus under i ≠ slash ∧ alphabet minus under i ≠ 0#8 := by decide

/-- The number of a character of the alphabet. -/
def index (c : Byte) : Nat :=
  if 65 ≤ c.toNat ∧ c.toNat ≤ 90 then c.toNat - 65
  else if 97 ≤ c.toNat ∧ c.toNat ≤ 122 then c.toNat - 97 + 26
  else if 48 ≤ c.toNat ∧ c.toNat ≤ 57 then c.toNat - 48 + 52
  else if c = plus ∨ c = minus then 62
  else 63

theorem index_alphabet : ∀ i, i < 64 → index (alphabet plus slash i) = i ∧ index (alphabet minus under i) = i := by decide

theorem strchr_found {a b : List Byte} (h : ∀ c ∈ a, c ≠ eq ∧ c ≠ 0#8) : strchrEq (a ++ eq :: b) = .ok (some a.length) := by
  induction a with
  | nil => rfl
  | cons c a ih =>
    obtain ⟨h1, h2⟩ := h c (List.mem_cons_self ..)
    rw [List.cons_append, strchrEq, if_neg h1, if_neg h2, ih fun c hc => h c (List.mem_cons_of_mem _ hc)]
    rfl

theorem strchr_none {a b : List Byte} (h : ∀ c ∈ a, c ≠ eq ∧ c ≠ 0#8) : strchrEq (a ++ 0#8 :: b) = .ok none := by
  induction a with
  | nil => rfl
  | cons c a ih =>
    obtain ⟨h1, h2⟩ := h c (List.mem_cons_self ..)
    rw [List.cons_append, strchrEq, if_neg h1, if_neg h2, ih fun c hc => h c (List.mem_cons_of_mem _ hc)]
    rfl

theorem std_ne (x : List Byte) : ∀ c ∈ (sextets x).map (alphabet plus slash), c ≠ eq ∧ c ≠ 0#8 := by
  intro c hc
  obtain ⟨i, hi, rfl⟩ := List.mem_map.1 hc
  exact alphabet_ne i (sextets_lt x i hi)

theorem std_to_url (x : List Byte) : ((sextets x).map (alphabet plus slash)).map toUrl = base64url x := by
  unfold base64url
  rw [List.map_map]
  exact List.map_congr_left fun i hi => alphabet_url i (sextets_lt x i hi)

/-! ### Theorems -/

/-- The memory after libcrypto's buffer happens to have a NUL first. -/
theorem encode_nul {encode : List Byte → List Byte} {x : List Byte} (he : encode x = base64 x) (after : List Byte) :
    base64urlEncode encode (0#8 :: after) x = .ok (base64url x) := by
  unfold base64urlEncode toBase64url
  rw [he]
  by_cases h : x.length % 3 = 0
  · have e : base64 x = (sextets x).map (alphabet plus slash) := by
      unfold base64
      rw [if_pos h, List.replicate_zero, List.append_nil]
    rw [e, strchr_none (std_ne x)]
    simp only
    rw [if_neg (by simp), List.take_append_of_le_length (Nat.le_refl _), List.take_length, std_to_url]
  · have e : ∃ t, base64 x = (sextets x).map (alphabet plus slash) ++ eq :: t := by
      unfold base64
      rw [if_neg h]
      obtain ⟨k, hk⟩ : ∃ k, 3 - x.length % 3 = k + 1 := ⟨2 - x.length % 3, by omega⟩
      exact ⟨List.replicate k eq, by rw [hk]; rfl⟩
    obtain ⟨t, e⟩ := e
    rw [e, List.append_assoc, List.cons_append, strchr_found (std_ne x)]
    simp only
    rw [if_neg (by simp), List.take_append_of_le_length (Nat.le_refl _), List.take_length, std_to_url]

/-- **C56.** If the length of the bytes isn't a multiple of 3 then the result is their base64url encoding, whatever comes after libcrypto's
buffer. -/
theorem C56_encode_partial {encode : List Byte → List Byte} {x : List Byte} (he : encode x = base64 x) (h : x.length % 3 ≠ 0) (after : List Byte) :
    base64urlEncode encode after x = .ok (base64url x) := by
  unfold base64urlEncode toBase64url
  rw [he]
  have e : ∃ t, base64 x = (sextets x).map (alphabet plus slash) ++ eq :: t := by
    unfold base64
    rw [if_neg h]
    obtain ⟨k, hk⟩ : ∃ k, 3 - x.length % 3 = k + 1 := ⟨2 - x.length % 3, by omega⟩
    exact ⟨List.replicate k eq, by rw [hk]; rfl⟩
  obtain ⟨t, e⟩ := e
  rw [e, List.append_assoc, List.cons_append, strchr_found (std_ne x)]
  simp only
  rw [if_neg (by simp), List.take_append_of_le_length (Nat.le_refl _), List.take_length, std_to_url]

/-- **C56.** That's the case of everything that's encoded: Subject Key Identifiers (20 bytes) and router keys (91 bytes). -/
theorem C56_callers {encode : List Byte → List Byte} {x : List Byte} (he : encode x = base64 x) (h : x.length = 20 ∨ x.length = 91) (after : List Byte) :
    base64urlEncode encode after x = .ok (base64url x) :=
  C56_encode_partial he (by omega) after

/-- **C56 (refuted in general).** If the length is a multiple of 3, the text that's returned depends on memory which isn't part of libcrypto's
buffer, and might be anything; or it's read past its end. -/
theorem C56_refuted {encode : List Byte → List Byte} (he : ∀ x, encode x = base64 x) :
    base64urlEncode encode [] [0#8, 0#8, 0#8] = .ub ∧
    base64urlEncode encode [66#8, eq] [0#8, 0#8, 0#8] = .ok [65#8, 65#8, 65#8, 65#8, 66#8] ∧ base64url [0#8, 0#8, 0#8] = [65#8, 65#8, 65#8, 65#8] := by
  unfold base64urlEncode
  rw [he]
  decide

/-- **C56.** The encoding contains no padding, no '+' and no '/' (and no NUL). -/
theorem C56_alphabet (x : List Byte) : ∀ c ∈ base64url x, c ≠ eq ∧ c ≠ plus ∧ c ≠ slash ∧ c ≠ 0#8 := by
  intro c hc
  obtain ⟨i, hi, rfl⟩ := List.mem_map.1 hc
  exact url_ne i (sextets_lt x i hi)

/-- The text that's given to the decoder is the base64 text. -/
theorem padded_url (x : List Byte) : padded (base64url x) = base64 x := by
  unfold padded base64
  simp only
  congr 1
  · unfold base64url
    rw [List.map_map]
    exact List.map_congr_left fun i hi => alphabet_std i (sextets_lt x i hi)
  · congr 1
    have : (base64url x).length = (sextets x).length := List.length_map ..
    rw [this, sextets_length]
    by_cases h : x.length % 3 = 0
    · rw [if_pos h, if_pos h, if_neg (by omega)]
    · rw [if_neg h, if_neg h]
      have h1 : (x.length / 3 * 4 + (x.length % 3 + 1)) % 4 = x.length % 3 + 1 := by omega
      rw [h1, if_pos (by omega)]
      omega

/-- **C56.** Decoding an encoding yields the bytes, except that the empty text is an error. -/
theorem C56_roundtrip {decode : Str → Option (List Byte)} (hd : ∀ x, decode (base64 x) = some x) (x : List Byte) :
    base64urlDecode decode (base64url x) = if x = [] then none else some x := by
  unfold base64urlDecode
  rw [padded_url, hd]
  by_cases h : x = []
  · subst h; rfl
  · simp only
    rw [if_neg h, if_neg (fun e => h (List.length_eq_zero_iff.1 e))]

/-- **C56.** What's decoded is what base64 says of the same text with the two other characters, and with padding up to a multiple of 4. -/
theorem C56_decode (decode : Str → Option (List Byte)) (s : Str) (x : List Byte) : base64urlDecode decode s = some x ↔
    x ≠ [] ∧ ∃ t pad, decode (t ++ List.replicate pad eq) = some x ∧ pad < 4 ∧ (s.length + pad) % 4 = 0 ∧ t.length = s.length ∧
      ∀ i (h : i < s.length), t[i]? = some (if s[i] = minus then plus else if s[i] = under then slash else s[i]) := by
  have hkey : ∀ t pad, (pad < 4 ∧ (s.length + pad) % 4 = 0 ∧ t.length = s.length ∧
      ∀ i (h : i < s.length), t[i]? = some (if s[i] = minus then plus else if s[i] = under then slash else s[i])) →
      t ++ List.replicate pad eq = padded s := by
    rintro t pad ⟨h1, h2, h3, h4⟩
    unfold padded
    have e1 : t = s.map fromUrl := by
      apply List.ext_getElem?
      intro i
      by_cases hi : i < s.length
      · rw [h4 i hi, List.getElem?_map, List.getElem?_eq_getElem hi]; rfl
      · rw [List.getElem?_eq_none (by omega), List.getElem?_eq_none (by rw [List.length_map]; omega)]
    have e2 : pad = if s.length % 4 > 0 then 4 - s.length % 4 else 0 := by
      split <;> omega
    rw [e1, e2]
  have hex : ∃ (t : List Byte) (pad : Nat), pad < 4 ∧ (s.length + pad) % 4 = 0 ∧ t.length = s.length ∧
      ∀ i (h : i < s.length), t[i]? = some (if s[i] = minus then plus else if s[i] = under then slash else s[i]) := by
    refine ⟨s.map fromUrl, if s.length % 4 > 0 then 4 - s.length % 4 else 0, by split <;> omega, by split <;> omega, List.length_map .., ?_⟩
    intro i hi
    rw [List.getElem?_map, List.getElem?_eq_getElem hi]; rfl
  unfold base64urlDecode
  constructor
  · intro h
    cases hc : decode (padded s) with
    | none => rw [hc] at h; cases h
    | some y =>
      rw [hc] at h
      simp only at h
      by_cases hy : y.length = 0
      · rw [if_pos hy] at h; cases h
      · rw [if_neg hy] at h
        cases h
        obtain ⟨t, pad, hp⟩ := hex
        exact ⟨fun e => hy (by rw [e]; rfl), t, pad, by rw [hkey t pad hp]; exact hc, hp⟩
  · rintro ⟨hne, t, pad, hdec, hp⟩
    rw [hkey t pad hp] at hdec
    rw [hdec]
    simp only
    rw [if_neg fun e => hne (List.length_eq_zero_iff.1 e)]

/-- **C56.** Different bytes have different encodings. -/
theorem C56_injective {x y : List Byte} (h : base64url x = base64url y) : x = y := by
  have hs : sextets x = sextets y := by
    have h' := congrArg (List.map index) h
    unfold base64url at h'
    have key : ∀ z, ((sextets z).map (alphabet minus under)).map index = sextets z := by
      intro z
      rw [List.map_map]
      conv => rhs; rw [← List.map_id (sextets z)]
      exact List.map_congr_left fun i hi => (index_alphabet i (sextets_lt z i hi)).2
    rwa [key, key] at h'
  clear h
  induction x using sextets.induct generalizing y with
  | case1 =>
    match y, hs with
    | [], _ => rfl
    | [_], h => simp [sextets] at h
    | [_, _], h => simp [sextets] at h
    | _ :: _ :: _ :: _, h => simp [sextets] at h
  | case2 a =>
    match y, hs with
    | [], h => simp [sextets] at h
    | [_, _], h => simp [sextets] at h
    | _ :: _ :: _ :: _, h => simp [sextets] at h
    | [b], h =>
      simp only [sextets, List.cons.injEq, and_true] at h
      congr 1
      exact BitVec.eq_of_toNat_eq (by omega)
  | case3 a b =>
    match y, hs with
    | [], h => simp [sextets] at h
    | [_], h => simp [sextets] at h
    | _ :: _ :: _ :: _, h => simp [sextets] at h
    | [c, d], h =>
      simp only [sextets, List.cons.injEq, and_true] at h
      have := c.isLt
      have := b.isLt
      have := d.isLt
      rw [show a = c from BitVec.eq_of_toNat_eq (by omega), show b = d from BitVec.eq_of_toNat_eq (by omega)]
  | case4 a b c l ih =>
    match y, hs with
    | [], h => simp [sextets] at h
    | [_], h => simp [sextets] at h
    | [_, _], h => simp [sextets] at h
    | d :: e :: f :: m, h =>
      simp only [sextets, List.cons.injEq] at h
      obtain ⟨h1, h2, h3, h4, h5⟩ := h
      have := b.isLt
      have := c.isLt
      have := e.isLt
      have := f.isLt
      rw [show a = d from BitVec.eq_of_toNat_eq (by omega), show b = e from BitVec.eq_of_toNat_eq (by omega),
        show c = f from BitVec.eq_of_toNat_eq (by omega), ih h5]

/-- There's a decoder as in `C56_roundtrip`. -/
example : ∃ decode : Str → Option (List Byte), ∀ x, decode (base64 x) = some x := by
  classical
  refine ⟨fun s => if h : ∃ x, base64 x = s then some h.choose else none, fun x => ?_⟩
  have h : ∃ y, base64 y = base64 x := ⟨x, rfl⟩
  simp only [dif_pos h, Option.some.injEq]
  have e := h.choose_spec
  generalize h.choose = y at e
  apply C56_injective
  rw [← std_to_url, ← std_to_url]
  have key : ∀ z, (base64 z).filter (· ≠ eq) = (sextets z).map (alphabet plus slash) := by
    intro z
    unfold base64
    rw [List.filter_append, List.filter_eq_self.2 (fun c hc => by simpa using (std_ne z c hc).1)]
    simp
  rw [← key, ← key, e]

/-- RFC 4648, section 10: "foob" and "foobar" -/
example : base64 [0x66#8, 0x6f#8, 0x6f#8, 0x62#8] = [90#8, 109#8, 57#8, 118#8, 89#8, 103#8, 61#8, 61#8] ∧
    base64url [0x66#8, 0x6f#8, 0x6f#8, 0x62#8, 0x61#8, 0x72#8] = [90#8, 109#8, 57#8, 118#8, 89#8, 109#8, 70#8, 121#8] := by decide

/-- 0xFB 0xFF is "-_8" -/
example : base64urlEncode base64 [] [0xfb#8, 0xff#8] = .ok [minus, under, 56#8] := by decide

end Verif.B64
