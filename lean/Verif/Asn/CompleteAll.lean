import Verif.Asn.Complete
/-
DER encodings are decoded: all types.
-/
namespace Verif.Asn
open Verif.Res (Byte be)

theorem mode_none {g : Tagging} (h : g.mode = .none) : g = .own := by cases g <;> first | rfl | cases h

theorem first_eq (h : Head) (ty : Ty) (rest : Mems) (t : Tag) : (Mems.cons h ty rest).First t ↔ h.First ty t ∨ rest.First t := by
  constructor
  · intro h; unfold Mems.First at h; exact h
  · intro h; unfold Mems.First; exact h

theorem head_first {h : Head} {ty : Ty} {t : Tag} (hok : h.Ok ty.tags) (h1 : ∀ o, h.tagging.outer = some o → t = o) (h2 : h.tagging = .own → ty.First t) : h.First ty t := by
  unfold Head.First
  have hm := (head_tagging hok).1
  by_cases h0 : h.mode = .none
  · rw [if_pos h0]; exact h2 (mode_none (by rw [hm, h0]))
  · rw [if_neg h0]
    obtain ⟨-, t', ht, -⟩ := hok.1 h0
    have : h.tagging.outer = some t' := by
      obtain ⟨tag, mode, opt, any, t2e⟩ := h
      simp only at ht h0
      subst ht
      cases mode with
      | none => exact absurd rfl h0
      | implicit => rfl
      | explicit => rfl
    rw [ht, h1 _ this]

/-- The first tag of an encoding. -/
theorem der_first (ty : Ty) : ty.Ok → ∀ (g : Tagging) (v : Val) (b : List Byte), Der ty g v b → b.length < 2 ^ 62 →
    ∃ t, FirstTag b t ∧ (∀ o, g.outer = some o → t = o) ∧ (g = .own → ty.First t) := by
  have tagged : ∀ (tags : List Tag) (g : Tagging) (form : Bool) (c b : List Byte), tags ≠ [] ∨ g ≠ .own → DNest (g.tags tags) form c b → b.length < 2 ^ 62 →
      ∃ t, FirstTag b t ∧ (∀ o, g.outer = some o → t = o) ∧ (g = .own → tags.head? = some t) := by
    intro tags g form c b hne hn hb
    cases g with
    | own =>
      cases tags with
      | nil => simp at hne
      | cons a l => exact ⟨a, dnest_firstTag hn hb rfl, by simp [Tagging.outer], by simp⟩
    | implicit t => exact ⟨t, dnest_firstTag hn hb rfl, by simp [Tagging.outer], by simp⟩
    | explicit t => exact ⟨t, dnest_firstTag hn hb rfl, by simp [Tagging.outer], by simp⟩
  induction ty using Ty.rec
    (motive_2 := fun ms => ms.Ok → ∀ (i : Nat) (v : Val) (c : List Byte), DerAlts ms i v c → c.length < 2 ^ 62 → ∃ t, FirstTag c t ∧ ms.First t) with
  | prim k tags =>
    intro hok g v b h hb
    unfold Der at h
    obtain ⟨c, h1, -⟩ := h
    unfold Ty.First
    exact tagged tags g _ c b (.inl hok) h1 hb
  | str k tags all =>
    intro hok g v b h hb
    have gen : k ≠ .any → (∃ c, DNest (g.tags tags) false c b ∧ DStr k c v) → ∃ t, FirstTag b t ∧ (∀ o, g.outer = some o → t = o) ∧ (g = .own → (Ty.str k tags all).First t) := by
      rintro hk ⟨c, h1, -⟩
      have htags : tags ≠ [] := by
        cases k with
        | any => exact absurd rfl hk
        | octets => obtain ⟨t, rfl, -⟩ := hok; simp
        | bits => obtain ⟨t, rfl, -⟩ := hok; simp
      obtain ⟨t, t1, t2, t3⟩ := tagged tags g _ c b (.inl htags) h1 hb
      refine ⟨t, t1, t2, ?_⟩
      cases k with
      | any => exact absurd rfl hk
      | octets => unfold Ty.First; exact t3
      | bits => unfold Ty.First; exact t3
    cases k with
    | octets => unfold Der at h; exact gen (by simp) h
    | bits => unfold Der at h; exact gen (by simp) h
    | any =>
      cases g with
      | implicit t => unfold Der at h; exact absurd h id
      | explicit t =>
        unfold Der at h
        obtain ⟨c, -, h1, -⟩ := h
        exact ⟨t, dtlv_firstTag h1 hb, by simp [Tagging.outer], by simp⟩
      | own =>
        unfold Der at h
        obtain ⟨-, h⟩ := h
        cases h with
        | prim h => exact ⟨_, dtlv_firstTag h hb, by simp [Tagging.outer], fun _ => by unfold Ty.First; trivial⟩
        | constr h _ => exact ⟨_, dtlv_firstTag h hb, by simp [Tagging.outer], fun _ => by unfold Ty.First; trivial⟩
  | seq tags ms ih =>
    intro hok g v b h hb
    unfold Der at h
    obtain ⟨c, vs, h1, -⟩ := h
    unfold Ty.First
    exact tagged tags g _ c b (.inl hok.1) h1 hb
  | setOf tags tag el ih =>
    intro hok g v b h hb
    unfold Der at h
    obtain ⟨c, vs, h1, -⟩ := h
    unfold Ty.First
    exact tagged tags g _ _ b (.inl hok.1) h1 hb
  | choice tags as ih =>
    intro hok g v b h hb
    unfold Der at h
    obtain ⟨c, h1, h2⟩ := h
    unfold Ty.First
    by_cases hu : tags ≠ [] ∨ g ≠ .own
    · obtain ⟨t, t1, t2, t3⟩ := tagged tags g _ c b hu h1 hb
      exact ⟨t, t1, t2, fun h => .inl (t3 h)⟩
    · obtain ⟨u1, u2⟩ := not_or.1 hu
      have u1 : tags = [] := not_not.1 u1
      have u2 : g = .own := not_not.1 u2
      subst u1 u2
      simp only [Tagging.tags, DNest] at h1
      subst h1
      obtain ⟨t, t1, t2⟩ := ih hok _ _ _ h2 hb
      exact ⟨t, t1, by simp [Tagging.outer], fun _ => .inr ⟨rfl, t2⟩⟩
  | nil => rename_i h _; unfold DerAlts at h; exact absurd h id
  | cons hd ty rest ihty ihrest =>
    rename_i hok i v c h hb
    obtain ⟨hok1, hok2, hok3⟩ := hok
    unfold DerAlts at h
    rcases h with ⟨x, -, h⟩ | h
    · obtain ⟨t, t1, t2, t3⟩ := ihty hok2 _ _ _ h hb
      exact ⟨t, t1, (first_eq _ _ _ _).2 (.inl (head_first hok1 t2 t3))⟩
    · obtain ⟨t, t1, t2⟩ := ihrest hok3 _ _ _ h hb
      exact ⟨t, t1, (first_eq _ _ _ _).2 (.inr t2)⟩

theorem derAlts_first {ms : Mems} (hok : ms.Ok) {i : Nat} {v : Val} {c : List Byte} (h : DerAlts ms i v c) (hb : c.length < 2 ^ 62) : ∃ t, FirstTag c t ∧ ms.First t := by
  induction ms using Mems.rec (motive_1 := fun _ => True) generalizing i v c with
  | prim => trivial
  | str => trivial
  | seq => trivial
  | setOf => trivial
  | choice => trivial
  | nil => unfold DerAlts at h; exact absurd h id
  | cons hd ty rest _ ih =>
    obtain ⟨hok1, hok2, hok3⟩ := hok
    unfold DerAlts at h
    rcases h with ⟨x, -, h⟩ | h
    · obtain ⟨t, t1, t2, t3⟩ := der_first ty hok2 _ _ _ h hb
      exact ⟨t, t1, (first_eq _ _ _ _).2 (.inl (head_first hok1 t2 t3))⟩
    · obtain ⟨t, t1, t2⟩ := ih hok3 h hb
      exact ⟨t, t1, (first_eq _ _ _ _).2 (.inr t2)⟩

/-- No members, or the first one. -/
theorem derMems_cases (ms : Mems) : ms.Ok → ∀ (vs : List (Option Val)) (c : List Byte), DerMems ms vs c → c.length < 2 ^ 62 →
    (c = [] ∧ vs = (ms.heads.map fun _ => none) ∧ optCount ms.heads = ms.heads.length) ∨
    ∃ k x ws t, vs = List.replicate k none ++ some x :: ws ∧ k ≤ optCount ms.heads ∧ FirstTag c t ∧ ms.FirstAt k t := by
  induction ms using Mems.rec (motive_1 := fun _ => True) with
  | prim => trivial
  | str => trivial
  | seq => trivial
  | setOf => trivial
  | choice => trivial
  | nil =>
    intro _ vs c h _
    unfold DerMems at h
    exact .inl ⟨h.2, by rw [h.1]; rfl, rfl⟩
  | cons hd ty rest _ ih =>
    intro hok vs c h hb
    obtain ⟨hok1, hok2, hok3⟩ := hok
    unfold DerMems at h
    rcases h with ⟨ho, ws, rfl, h⟩ | ⟨x, ws, d, e, rfl, rfl, h1, h2⟩
    · rcases ih hok3 ws c h hb with ⟨rfl, rfl, h3⟩ | ⟨k, x, ws', t, rfl, h3, h4, h5⟩
      · refine .inl ⟨rfl, by simp [Mems.heads], ?_⟩
        simp only [Mems.heads, optCount, if_pos ho, h3, List.length_cons]
        omega
      · refine .inr ⟨k + 1, x, ws', t, by simp [List.replicate_succ], ?_, h4, h5⟩
        simp only [Mems.heads, optCount, if_pos ho]
        omega
    · rw [List.length_append] at hb
      obtain ⟨t, t1, t2, t3⟩ := der_first ty hok2 _ _ _ h1 (by omega)
      exact .inr ⟨0, x, ws, t, rfl, Nat.zero_le _, firstTag_append t1, head_first hok1 t2 t3⟩

theorem firstTag_pos {s : List Byte} {t : Tag} (h : FirstTag s t) : 1 ≤ s.length := by
  obtain ⟨k, h⟩ := h
  obtain ⟨h1, h2, -⟩ := fetchTag_sound h
  omega

theorem view_all (c rest : List Byte) : view (.defn c.length) (c ++ rest) = c := by simp [view]

theorem sync_complete {hs : List Head} {c rest : List Byte} {t : Tag} {k : Nat} (hf : FirstTag c t) (hl : lookup hs t = some k) :
    sync hs (.defn c.length) (c ++ rest) = .at k := by
  have hpos := firstTag_pos hf
  obtain ⟨j, hf⟩ := hf
  unfold sync
  rw [if_neg (by rintro ⟨h, -⟩; cases h' : c.length with
    | zero => omega
    | succ n => rw [h'] at h; cases h), view_all, hf]
  simp [eocAt, hl]

theorem setLoop_complete {el : Ty} {dec' : List Byte → R Val} {tag : Option Tag}
    (hd : ∀ v c rest, Der el .own v c → c.length < 2 ^ 62 → dec' (c ++ rest) = .ok v c.length)
    (hf : ∀ v c, Der el .own v c → c.length < 2 ^ 62 → ∃ t, FirstTag c t ∧ (tag = none ∨ tag = some t)) :
    ∀ (vs : List Val) (cs : List (List Byte)) (rest : List Byte) (f : Nat), List.Forall₂ (fun x c => Der el .own x c) vs cs → cs.flatten.length < 2 ^ 62 →
      cs.flatten.length < f → setLoop dec' tag f (.defn cs.flatten.length) (cs.flatten ++ rest) = .ok vs cs.flatten.length := by
  intro vs cs rest f h
  induction h generalizing f with
  | nil =>
    intro _ hlt
    obtain ⟨f, rfl⟩ : ∃ f', f = f' + 1 := ⟨f - 1, by simp at hlt; omega⟩
    simp [setLoop]
  | @cons x c vs cs hx _ ih =>
    intro hb hlt
    simp only [List.flatten_cons, List.length_append] at hb hlt ⊢
    obtain ⟨t, ht, htag⟩ := hf _ _ hx (by omega)
    have hpos := firstTag_pos ht
    obtain ⟨f, rfl⟩ : ∃ f', f = f' + 1 := ⟨f - 1, by omega⟩
    unfold setLoop
    rw [if_neg (by
      intro h
      have : c.length + cs.flatten.length = 0 := by injection h
      omega)]
    have hview : view (.defn (c.length + cs.flatten.length)) (c ++ cs.flatten ++ rest) = c ++ cs.flatten := by
      have := view_all (c ++ cs.flatten) rest
      rwa [List.length_append] at this
    obtain ⟨j, hj⟩ := firstTag_append (rest := cs.flatten) ht
    rw [hview, hj]
    simp only [eocAt]
    rw [if_neg (by rintro ⟨a, b⟩; rcases htag with h | h <;> contradiction), hd _ _ _ hx (by omega)]
    simp only [R.frame, R.andThen, Left.sub]
    rw [show c.length + cs.flatten.length - c.length = cs.flatten.length by omega, List.append_assoc, List.drop_left, ih f (by omega) (by omega)]

theorem dec_complete_all (ty : Ty) : ty.Ok → ty.Clear → ∀ (g : Tagging) (v : Val) (b rest : List Byte), ¬ (ty.tags = [] ∧ g.mode = .implicit) → Der ty g v b →
    b.length < 2 ^ 62 → dec ty g.mode (b ++ rest) = .ok v b.length := by
  induction ty using Ty.rec
    (motive_2 := fun ms => ms.Ok → ms.Clear →
      (ms.SeqClear → ∀ (j : Option Nat) (vs : List (Option Val)) (c rest : List Byte), DerMems ms vs c → c.length < 2 ^ 62 →
        (∀ k, j = some k → ∃ x ws, vs = List.replicate k none ++ some x :: ws) → decMems ms j (.defn c.length) (c ++ rest) = .ok vs c.length) ∧
      (ms.AltClear → ∀ (i : Nat) (tag : Tag) (v : Val) (c rest : List Byte), DerAlts ms i v c → c.length < 2 ^ 62 → FirstTag c tag →
        decAlts ms i tag (c ++ rest) = .ok v c.length)) with
  | prim k tags =>
    intro hok _ g v b rest _ h hb
    unfold Der at h
    obtain ⟨c, h1, h2⟩ := h
    obtain ⟨c1, c2, c3⟩ := checkTags_complete (lf := some false) (.inr rfl) (fun h => hok h.1) (fun h => hok h.1) h1 hb rest
    unfold dec decPrim
    rw [c1]
    simp only [R.andThen]
    rw [c3]
    have hlen : ¬ c.length > (c ++ rest).length := by rw [List.length_append]; omega
    cases k with
    | null =>
      obtain ⟨rfl, rfl⟩ := h2
      simp
    | plain =>
      simp only [PrimVal] at h2
      subst h2
      simp only [if_neg hlen, List.take_left]
      congr 1
      omega
    | bool =>
      simp only [if_neg hlen, List.take_left]
      rw [show b.length - c.length + c.length = b.length by omega]
      congr 1
      rcases h2 with ⟨h3, rfl⟩ | ⟨zs, x, r, rfl, h3, h4, rfl⟩
      · rw [List.find?_eq_none.2 (by intro x hx; simp [h3 x hx])]
        rfl
      · rw [List.find?_append, List.find?_eq_none.2 (by intro x hx; simp [h3 x hx]), List.find?_cons_of_pos (by simpa using h4)]
        rfl
  | str k tags all =>
    intro hok _ g v b rest hne h hb
    unfold dec
    cases k with
    | any =>
      simp only [Ty.Ok, StrOk] at hok
      subst hok
      exact decStr_any rfl h hb rest
    | octets =>
      obtain ⟨t, rfl, -⟩ := hok
      unfold Der at h
      obtain ⟨c, h1, h2⟩ := h
      exact decStr_prim (by simp) (by simp) h1 h2 hb rest
    | bits =>
      obtain ⟨t, rfl, -⟩ := hok
      unfold Der at h
      obtain ⟨c, h1, h2⟩ := h
      exact decStr_prim (by simp) (by simp) h1 h2 hb rest
  | seq tags ms ih =>
    intro hok hclear g v b rest _ h hb
    obtain ⟨hok1, hok2⟩ := hok
    unfold Der at h
    obtain ⟨c, vs, h1, rfl, h2⟩ := h
    obtain ⟨c1, c2, c3⟩ := checkTags_complete (lf := some true) (.inr rfl) (fun h => hok1 h.1) (fun h => hok1 h.1) h1 hb rest
    unfold dec
    rw [c1]
    simp only [R.andThen]
    unfold Ty.Clear at hclear
    rw [c3, (ih hok2 hclear.1).1 hclear.2 none vs c rest h2 (by omega) (by simp)]
    simp only
    congr 1
    omega
  | setOf tags tag el ih =>
    intro hok hclear g v b rest _ h hb
    obtain ⟨hok1, hok2⟩ := hok
    unfold Ty.Clear at hclear
    unfold Der at h
    obtain ⟨cs, vs, h1, rfl, h2⟩ := h
    obtain ⟨c1, c2, c3⟩ := checkTags_complete (lf := some true) (.inr rfl) (fun h => hok1 h.1) (fun h => hok1 h.1) h1 hb rest
    unfold dec
    rw [c1]
    simp only [R.andThen]
    have hset := setLoop_complete (dec' := fun b => dec el .none b) (tag := tag) (fun v c rest hd hl => ih hok2 hclear.1 .own v c rest (by simp [Tagging.mode]) hd hl) (by
      intro v c hd hl
      obtain ⟨t, t1, -, t2⟩ := der_first el hok2 .own v c hd hl
      exact ⟨t, t1, hclear.2 t (t2 rfl)⟩) vs cs rest ((b ++ rest).length + 1) h2 (by omega) (by rw [List.length_append]; omega)
    rw [c3, hset]
    simp only
    congr 1
    omega
  | choice tags as ih =>
    intro hok hclear g v b rest hne h hb
    unfold Ty.Clear at hclear
    unfold Der at h
    obtain ⟨c, h1, h2⟩ := h
    have hok : as.Ok := hok
    unfold dec
    simp only
    have hc : c.length < 2 ^ 62 := by have := dnest_len _ _ _ _ h1; omega
    obtain ⟨t, ht, -⟩ := derAlts_first hok h2 hc
    by_cases hu : g.mode = .none ∧ tags = []
    · rw [decide_eq_true hu]
      obtain ⟨hg, rfl⟩ := hu
      have hg := mode_none hg
      subst hg
      simp only [Tagging.tags, DNest] at h1
      subst h1
      obtain ⟨j, hj⟩ := firstTag_append (rest := rest) ht
      simp only [if_true, R.andThen, view, List.drop_zero, hj]
      rw [(ih hok hclear.1).2 hclear.2 0 t v b rest h2 hb ht]
      simp [R.frame, Left.sub, choiceEnd]
    · rw [decide_eq_false hu]
      obtain ⟨c1, c2, c3⟩ := checkTags_complete (lf := none) (.inl rfl) (fun h => hu ⟨h.2, h.1⟩) hne h1 hb rest
      simp only [Bool.false_eq_true, if_false]
      rw [c1]
      simp only [R.andThen]
      rw [c3, view_all]
      obtain ⟨j, hj⟩ := ht
      rw [hj]
      simp only
      have := (ih hok hclear.1).2 hclear.2 0 t v c [] h2 hc ⟨j, hj⟩
      rw [List.append_nil] at this
      rw [this]
      simp only [R.frame, Left.sub, choiceEnd, Nat.sub_self, gt_iff_lt, Nat.lt_irrefl, if_false, R.andThen]
      congr 1
      omega
  | nil =>
    refine ⟨?_, ?_⟩
    · intro _ j vs c rest h _ _
      unfold DerMems at h
      obtain ⟨rfl, rfl⟩ := h
      unfold decMems
      rfl
    · intro _ i tag v c rest h
      unfold DerAlts at h
      exact absurd h id
  | cons hd ty rest' ihty ihrest =>
    rename_i hok hclear
    have hokAll := hok
    obtain ⟨hok1, hok2, hok3⟩ := hok
    unfold Mems.Clear at hclear
    obtain ⟨hc1, hc2⟩ := hclear
    have hdec : ∀ v b r, Der ty hd.tagging v b → b.length < 2 ^ 62 → dec ty hd.mode (b ++ r) = .ok v b.length := by
      intro v b r h hb
      have := ihty hok2 hc1 hd.tagging v b r (by rw [(head_tagging hok1).1]; exact fun h => hok1.2 h.2 h.1) h hb
      rwa [(head_tagging hok1).1] at this
    obtain ⟨r1, r2⟩ := ihrest hok3 hc2
    refine ⟨?_, ?_⟩
    · intro hseq j vs c rest h hb hj
      unfold Mems.SeqClear at hseq
      obtain ⟨hs1, hs2⟩ := hseq
      unfold decMems
      have key : ∀ k, (∃ x ws, vs = List.replicate k none ++ some x :: ws) →
          (match (Sync.at k) with
            | .done => R.ok (none :: rest'.heads.map fun _ => none) 0
            | .eoc => (seqEnd (.defn c.length) (c ++ rest)).andThen fun _ n => .ok (none :: rest'.heads.map fun _ => none) n
            | .more => .more
            | .fail => .fail
            | .crash => .crash
            | .at 0 =>
              ((dec ty hd.mode (view (.defn c.length) (c ++ rest))).frame (violation (.defn c.length) (c ++ rest))).andThen fun x n =>
                (decMems rest' none (Left.sub (.defn c.length) n) ((c ++ rest).drop n)).andThen fun xs n' => .ok (some x :: xs) (n + n')
            | .at (k + 1) => (decMems rest' (some k) (.defn c.length) (c ++ rest)).andThen fun xs n => .ok (none :: xs) n) = .ok vs c.length := by
        rintro k ⟨x, ws, rfl⟩
        unfold DerMems at h
        cases k with
        | zero =>
          rcases h with ⟨-, ws', h, -⟩ | ⟨x', ws', d, e, h1, rfl, h2, h3⟩
          · cases h
          · simp only [List.replicate_zero, List.nil_append] at h1
            cases h1
            rw [List.length_append] at hb
            simp only
            rw [view_all, hdec _ _ _ h2 (by omega)]
            simp only [R.frame, R.andThen, Left.sub, List.length_append]
            rw [show d.length + e.length - d.length = e.length by omega, List.append_assoc, List.drop_left, r1 hs2 none ws e rest h3 (by omega) (by simp)]
            simp
        | succ k =>
          rcases h with ⟨-, ws', h1, h2⟩ | ⟨x', ws', d, e, h1, -⟩
          · simp only [List.replicate_succ, List.cons_append] at h1
            cases h1
            simp only
            rw [r1 hs2 (some k) _ c rest h2 hb (by intro k' hk; cases hk; exact ⟨x, ws, rfl⟩)]
            simp [R.andThen, List.replicate_succ]
          · simp only [List.replicate_succ, List.cons_append] at h1
            cases h1
      cases j with
      | some k => exact key k (hj k rfl)
      | none =>
        simp only
        rcases derMems_cases (.cons hd ty rest') hokAll vs c h hb with ⟨rfl, rfl, h3⟩ | ⟨k, x, ws, t, hvs, h3, h4, h5⟩
        · have : sync (hd :: rest'.heads) (.defn ([] : List Byte).length) ([] ++ rest) = .done := by
            unfold sync
            rw [if_pos ⟨rfl, h3⟩]
          rw [this]
          simp [Mems.heads]
        · rw [sync_complete h4 (hs1 k t h3 h5)]
          exact key k ⟨x, ws, hvs⟩
    · intro halt i tag v c rest h hb hf
      unfold Mems.AltClear at halt
      obtain ⟨ha1, ha2, ha3⟩ := halt
      unfold DerAlts at h
      unfold decAlts
      rcases h with ⟨x, rfl, h⟩ | h
      · obtain ⟨t, t1, t2, t3⟩ := der_first ty hok2 _ _ _ h hb
        have := t1.unique hf
        subst this
        rw [if_pos (ha1 t (head_first hok1 t2 t3)), hdec _ _ _ h hb]
        rfl
      · obtain ⟨t, t1, t2⟩ := derAlts_first hok3 h hb
        have := t1.unique hf
        subst this
        rw [if_neg (fun h => ha2 t h t2), r2 ha3 _ _ _ _ _ h hb hf]

end Verif.Asn
