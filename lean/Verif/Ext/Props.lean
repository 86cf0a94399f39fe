import Verif.Ext.HandlerLemmas
import Verif.Uri.UriProps
/-
Properties of the extensions of resource certificates.
-/
namespace Verif.Ext
open Verif.Res (Byte)
open Verif.Uri (Uri UriType uriCreate R Err)

variable {V S : Type}

/-- **C61 (any table).** With a table that has no repeated identifiers: a list of extensions is accepted, and leads to a state, if and only if
those that are in the table have the table's criticality and are there at most once, the others aren't critical, those that are mandatory are there, and
the callbacks accept them, one after the other, and lead to that state. -/
theorem C61_table (table : List (Handler V S)) (hn : (table.map (·.nid)).Nodup) (exts : List (Ext V)) (s s' : S) :
    handleExtensions table exts s = .ok s' ↔
      (∀ e ∈ exts, ∀ h ∈ table, h.nid = e.nid → e.critical = h.critical) ∧
      (∀ e ∈ exts, (∀ h ∈ table, h.nid ≠ e.nid) → e.critical = false) ∧
      (∀ h ∈ table, AtMostOnce exts h.nid) ∧
      (∀ h ∈ table, h.mandatory = true → ∃ e ∈ exts, e.nid = h.nid) ∧
      Runs table exts s s' := by
  unfold handleExtensions
  rw [mark_nil]
  have hmem : ∀ n, n ∈ (exts.map (·.nid)).reverse ++ [] ↔ ∃ e ∈ exts, e.nid = n := by
    intro n
    rw [List.append_nil, List.mem_reverse, List.mem_map]
  constructor
  · intro h
    cases hr : extLoop exts (mark table []) s with
    | ok p =>
      obtain ⟨hs1, s1⟩ := p
      rw [hr] at h
      simp only at h
      obtain ⟨h1, h2⟩ := (extLoop_iff table hn exts [] s s1 hs1).1 hr
      by_cases hm : hs1.any (fun h => h.1.mandatory && !h.2) = true
      · rw [if_pos hm] at h
        cases h
      · rw [if_neg hm] at h
        injection h with h
        subst h
        rw [h1] at hm
        have hm := (missing_iff table _).1 (Bool.eq_false_iff.2 hm)
        obtain ⟨i1, i2, i3, i4⟩ := (steps_iff table hn exts [] s s1).1 h2
        exact ⟨i1, i2, fun h hh => (i3 h hh).1, fun h hh hmm => (hmem _).1 (hm h hh hmm), i4⟩
    | fail err => rw [hr] at h; cases h
    | ub => rw [hr] at h; cases h
  · rintro ⟨i1, i2, i3, i4, i5⟩
    have h1 := (steps_iff table hn exts [] s s').2 ⟨i1, i2, fun h hh => ⟨i3 h hh, (fun h => by cases h)⟩, i5⟩
    rw [(extLoop_iff table hn exts [] s s' _).2 ⟨rfl, h1⟩]
    simp only
    rw [if_neg]
    rw [Bool.not_eq_true, missing_iff]
    exact fun h hh hm => (hmem _).2 (i4 h hh hm)

theorem once_eq {exts : List (Ext V)} {n : Nid} (h : AtMostOnce exts n) {a b : Ext V} (ha : a ∈ exts) (hb : b ∈ exts) (han : a.nid = n) (hbn : b.nid = n) : a = b := by
  have ha' : a ∈ exts.filter (fun e => e.nid = n) := List.mem_filter.2 ⟨ha, by simpa using han⟩
  have hb' : b ∈ exts.filter (fun e => e.nid = n) := List.mem_filter.2 ⟨hb, by simpa using hbn⟩
  unfold AtMostOnce at h
  match hf : exts.filter (fun e => e.nid = n) with
  | [] => rw [hf] at ha'; cases ha'
  | [x] =>
    rw [hf] at ha' hb'
    rw [List.mem_singleton.1 ha', List.mem_singleton.1 hb']
  | _ :: _ :: _ => rw [hf] at h; simp at h

theorem has_of_mem {exts : List (Ext Val)} {e : Ext Val} {v : Val} (he : e ∈ exts) (hv : e.value = some v) : Has exts e.nid v := ⟨e.critical, by
  cases e
  simp only at hv
  subst hv
  exact he⟩

theorem has_unique {exts : List (Ext Val)} {n : Nid} (h : AtMostOnce exts n) {v w : Val} (hv : Has exts n v) (hw : Has exts n w) : v = w := by
  obtain ⟨c, hc⟩ := hv
  obtain ⟨d, hd⟩ := hw
  have := once_eq h hc hd rfl rfl
  injection this with _ _ this
  injection this

theorem has_value {exts : List (Ext Val)} {n : Nid} (h : AtMostOnce exts n) {v : Val} (hv : Has exts n v) {e : Ext Val} (he : e ∈ exts) (hn : e.nid = n) :
    e.value = some v := by
  obtain ⟨c, hc⟩ := hv
  rw [once_eq h he hc hn rfl]

theorem has_exists {exts : List (Ext Val)} {n : Nid} {v : Val} (hv : Has exts n v) : ∃ e ∈ exts, e.nid = n := by
  obtain ⟨c, hc⟩ := hv
  exact ⟨_, hc, rfl⟩

theorem picked_unique {env : Env} {m : Method} {type : UriType} {ads : List Ad} {a b : Option Uri} (ha : Picked env m type ads a) (hb : Picked env m type ads b) : a = b := by
  rw [← adLoop_none] at ha hb
  rw [ha] at hb
  injection hb

theorem first_unique {names : List Name} {a b : List Byte} (ha : FirstRsync names a) (hb : FirstRsync names b) : a = b := by
  have h1 := (cdpLoop_iff St.init _ names).2 ⟨a, ha, rfl⟩
  have h2 := (cdpLoop_iff St.init _ names).2 ⟨b, hb, rfl⟩
  rw [h1] at h2
  injection h2 with h2
  injection h2 with _ _ h2
  injection h2

theorem siaCa_unique {env : Env} {exts : List (Ext Val)} {o p : St} (h : AtMostOnce exts .sia) (ho : SiaCa env exts o) (hp : SiaCa env exts p) :
    o.rpp = p.rpp ∧ o.mft = p.mft := by
  obtain ⟨a1, r1, n1, m1, h1, h2, h3, h4, h5, h6⟩ := ho
  obtain ⟨a2, r2, n2, m2, g1, g2, g3, g4, g5, g6⟩ := hp
  have ha := has_unique h h1 g1
  injection ha with ha
  subst ha
  rw [h5, h6, g5, g6, picked_unique h2 g2, picked_unique h3 g3]
  have hm := picked_unique h4 g4
  exact ⟨rfl, hm⟩

theorem policy_unique {exts : List (Ext Val)} {o p : St} (h : AtMostOnce exts .cp) (ho : OnePolicy exts o) (hp : OnePolicy exts p) : o.policy = p.policy := by
  obtain ⟨p1, q1, h1, h2, h3⟩ := ho
  obtain ⟨p2, q2, g1, g2, g3⟩ := hp
  have ha := has_unique h h1 g1
  injection ha with ha
  injection ha with ha
  injection ha with ha
  rw [h3, g3, ha]

theorem crldp_unique {exts : List (Ext Val)} {o p : St} (h : AtMostOnce exts .cdp) (ho : Crldp exts o) (hp : Crldp exts p) : o.crldp = p.crldp := by
  obtain ⟨n1, t1, h1, h2, h3⟩ := ho
  obtain ⟨n2, t2, g1, g2, g3⟩ := hp
  have ha := has_unique h h1 g1
  injection ha with ha
  injection ha with ha
  injection ha with _ _ ha
  injection ha with ha
  injection ha with ha
  subst ha
  rw [h3, g3, first_unique h2 g2]

theorem aia_unique {env : Env} {exts : List (Ext Val)} {o p : St} (h : AtMostOnce exts .aia) (ho : Aia env exts o) (hp : Aia env exts p) : o.caIssuers = p.caIssuers := by
  obtain ⟨a1, u1, h1, h2, h3⟩ := ho
  obtain ⟨a2, u2, g1, g2, g3⟩ := hp
  have ha := has_unique h h1 g1
  injection ha with ha
  subst ha
  rw [h3, g3, picked_unique h2 g2]

/-- What each callback leaves alone. -/
def Frame (t : List (Handler Val St)) : Prop :=
  ∀ k ∈ t, ∀ c v s s', k.cb = some c → c v s = .ok s' →
    (k.nid ≠ .cdp → s'.crldp = s.crldp) ∧ (k.nid ≠ .aia → s'.caIssuers = s.caIssuers) ∧ (k.nid ≠ .sia → s'.rpp = s.rpp ∧ s'.mft = s.mft ∧ s'.signedObject = s.signedObject) ∧
    (k.nid ≠ .cp → s'.policy = s.policy)

theorem frame_ta (env : Env) (exts : List (Ext Val)) : Frame (taTable env exts) := by
  intro k hk c v s s' hc hok
  simp only [taTable, resourceRows, List.cons_append, List.nil_append, List.mem_cons, List.not_mem_nil, or_false] at hk
  rcases hk with rfl | rfl | rfl | rfl | rfl | rfl | rfl | rfl | rfl | rfl <;> simp only [Option.some.injEq, reduceCtorEq] at hc <;> subst hc
  · rw [((bc_iff ..).1 hok).2]; simp
  · rw [((skiCa_iff ..).1 hok).2]; simp
  · rw [((akiTa_iff ..).1 hok).2]; simp
  · rw [((ku_iff ..).1 hok).2]; simp
  · obtain ⟨_, _, _, _, _, _, _, _, rfl⟩ := (siaCa_iff ..).1 hok
    simp
  · obtain ⟨_, _, _, _, rfl⟩ := (cp_iff ..).1 hok
    simp

theorem frame_ca (env : Env) : Frame (caTable env) := by
  intro k hk c v s s' hc hok
  simp only [caTable, resourceRows, List.cons_append, List.nil_append, List.mem_cons, List.not_mem_nil, or_false] at hk
  rcases hk with rfl | rfl | rfl | rfl | rfl | rfl | rfl | rfl | rfl | rfl | rfl | rfl <;> simp only [Option.some.injEq, reduceCtorEq] at hc <;> subst hc
  · rw [((bc_iff ..).1 hok).2]; simp
  · rw [((skiCa_iff ..).1 hok).2]; simp
  · rw [((aki_iff ..).1 hok).2]; simp
  · rw [((ku_iff ..).1 hok).2]; simp
  · obtain ⟨_, _, _, _, rfl⟩ := (cdp_iff ..).1 hok
    simp
  · obtain ⟨_, _, _, _, rfl⟩ := (aia_iff ..).1 hok
    simp
  · obtain ⟨_, _, _, _, _, _, _, _, rfl⟩ := (siaCa_iff ..).1 hok
    simp
  · obtain ⟨_, _, _, _, rfl⟩ := (cp_iff ..).1 hok
    simp

theorem frame_ee (env : Env) (sid : List Byte) : Frame (eeTable env sid) := by
  intro k hk c v s s' hc hok
  simp only [eeTable, resourceRows, List.cons_append, List.nil_append, List.mem_cons, List.not_mem_nil, or_false] at hk
  rcases hk with rfl | rfl | rfl | rfl | rfl | rfl | rfl | rfl | rfl | rfl | rfl <;> simp only [Option.some.injEq, reduceCtorEq] at hc <;> subst hc
  · rw [((skiEe_iff ..).1 hok).2]; simp
  · rw [((aki_iff ..).1 hok).2]; simp
  · rw [((ku_iff ..).1 hok).2]; simp
  · obtain ⟨_, _, _, _, rfl⟩ := (cdp_iff ..).1 hok
    simp
  · obtain ⟨_, _, _, _, rfl⟩ := (aia_iff ..).1 hok
    simp
  · obtain ⟨_, _, _, _, rfl⟩ := (siaEe_iff ..).1 hok
    simp
  · obtain ⟨_, _, _, _, rfl⟩ := (cp_iff ..).1 hok
    simp

/-- The callback of a mandatory row was run, and nothing else touched what it writes. -/
theorem row_run {α : Type} {t : List (Handler Val St)} (hn : (t.map (·.nid)).Nodup) (π : St → α) {exts : List (Ext Val)} {s s' : St} {n : Nid} {crit : Bool}
    {cb : Val → St → Out St} (hrow : (⟨n, crit, true, some cb⟩ : Handler Val St) ∈ t)
    (hπ : ∀ k ∈ t, k.nid ≠ n → ∀ c v s s', k.cb = some c → c v s = .ok s' → π s' = π s)
    (hok : handleExtensions t exts s = .ok s') : ∃ v s1 s2, Has exts n v ∧ cb v s1 = .ok s2 ∧ π s1 = π s ∧ π s' = π s2 := by
  obtain ⟨h1, h2, h3, h4, h5⟩ := (C61_table t hn exts s s').1 hok
  obtain ⟨e, he, hen⟩ := h4 _ hrow rfl
  obtain ⟨v, s1, s2, g1, g2, g3, g4⟩ := (runs_field t hn π _ hrow cb rfl hπ exts s s' h5 (h3 _ hrow)).2 e he hen
  have hv := has_of_mem he g1
  rw [hen] at hv
  exact ⟨v, s1, s2, hv, g2, g3, g4⟩

theorem row_pure {t : List (Handler Val St)} (hn : (t.map (·.nid)).Nodup) {exts : List (Ext Val)} {s s' : St} {n : Nid} {crit : Bool}
    {cb : Val → St → Out St} (hrow : (⟨n, crit, true, some cb⟩ : Handler Val St) ∈ t)
    (hok : handleExtensions t exts s = .ok s') : ∃ v s1 s2, Has exts n v ∧ cb v s1 = .ok s2 := by
  obtain ⟨v, s1, s2, h1, h2, -⟩ := row_run (α := Unit) hn (fun _ => ()) hrow (fun _ _ _ _ _ _ _ _ _ => rfl) hok
  exact ⟨v, s1, s2, h1, h2⟩

/-- The shape of the list, from the table. -/
theorem shape_iff {t : List (Handler Val St)} {known criticals : List Nid} (hk : ∀ n, n ∈ known ↔ ∃ h ∈ t, h.nid = n)
    (hc : ∀ h ∈ t, h.critical = true ↔ h.nid ∈ criticals) (hsub : ∀ n ∈ criticals, n ∈ known) (exts : List (Ext Val)) :
    Shape exts known criticals ↔
      (∀ e ∈ exts, ∀ h ∈ t, h.nid = e.nid → e.critical = h.critical) ∧ (∀ e ∈ exts, (∀ h ∈ t, h.nid ≠ e.nid) → e.critical = false) ∧ (∀ h ∈ t, AtMostOnce exts h.nid) := by
  unfold Shape
  constructor
  · rintro ⟨h1, h2⟩
    refine ⟨?_, ?_, fun h hh => h1 _ ((hk _).2 ⟨h, hh, rfl⟩)⟩
    · intro e he h hh hne
      rw [Bool.eq_iff_iff, h2 e he, hc h hh, hne]
    · intro e he hno
      rw [Bool.eq_false_iff]
      intro hcr
      obtain ⟨h, hh, hne⟩ := (hk _).1 (hsub _ ((h2 e he).1 hcr))
      exact hno h hh hne
  · rintro ⟨h1, h2, h3⟩
    refine ⟨fun n hn => ?_, ?_⟩
    · obtain ⟨h, hh, rfl⟩ := (hk n).1 hn
      exact h3 h hh
    · intro e he
      by_cases hex : ∃ h ∈ t, h.nid = e.nid
      · obtain ⟨h, hh, hne⟩ := hex
        rw [h1 e he h hh hne, hc h hh, hne]
      · rw [h2 e he (fun h hh hne => hex ⟨h, hh, hne⟩)]
        constructor
        · intro h; cases h
        · intro hcr
          exact absurd ((hk _).1 (hsub _ hcr)) hex

theorem getSki_eq {exts : List (Ext Val)} (h : AtMostOnce exts .ski) {id : List Byte} (hs : Has exts .ski (.ski id)) : getSki exts = some id := by
  unfold getSki
  obtain ⟨c, hc⟩ := hs
  have hm : (⟨.ski, c, some (.ski id)⟩ : Ext Val) ∈ exts.filter (fun e => e.nid = .ski) := List.mem_filter.2 ⟨hc, by simp⟩
  unfold AtMostOnce at h
  match hf : exts.filter (fun e => e.nid = .ski) with
  | [] => rw [hf] at hm; cases hm
  | [x] =>
    rw [hf] at hm
    rw [hf, ← List.mem_singleton.1 hm]
  | _ :: _ :: _ => rw [hf] at h; simp at h

theorem St.ext' {a b : St} (h1 : a.rpp = b.rpp) (h2 : a.mft = b.mft) (h3 : a.crldp = b.crldp) (h4 : a.caIssuers = b.caIssuers) (h5 : a.signedObject = b.signedObject)
    (h6 : a.policy = b.policy) : a = b := by
  cases a
  cases b
  simp only at h1 h2 h3 h4 h5 h6
  subst h1 h2 h3 h4 h5 h6
  rfl

theorem ta_nodup (env : Env) (exts : List (Ext Val)) : ((taTable env exts).map (·.nid)).Nodup := by
  show [Nid.bc, .ski, .aki, .ku, .sia, .cp, .ir, .ar, .ir2, .ar2].Nodup
  decide

theorem ca_nodup (env : Env) : ((caTable env).map (·.nid)).Nodup := by
  show [Nid.bc, .ski, .aki, .ku, .cdp, .aia, .sia, .cp, .ir, .ar, .ir2, .ar2].Nodup
  decide

theorem ee_nodup (env : Env) (sid : List Byte) : ((eeTable env sid).map (·.nid)).Nodup := by
  show [Nid.ski, .aki, .ku, .cdp, .aia, .sia, .cp, .ir, .ar, .ir2, .ar2].Nodup
  decide

theorem ta_shape (env : Env) (exts' exts : List (Ext Val)) : Shape exts [.bc, .ski, .aki, .ku, .sia, .cp, .ir, .ar, .ir2, .ar2] [.bc, .ku, .cp, .ir, .ar, .ir2, .ar2] ↔
      (∀ e ∈ exts, ∀ h ∈ taTable env exts', h.nid = e.nid → e.critical = h.critical) ∧ (∀ e ∈ exts, (∀ h ∈ taTable env exts', h.nid ≠ e.nid) → e.critical = false) ∧
      (∀ h ∈ taTable env exts', AtMostOnce exts h.nid) := by
  apply shape_iff
  · intro n
    simp [taTable, resourceRows, eq_comm]
  · simp [taTable, resourceRows]
  · decide

theorem ca_shape (env : Env) (exts : List (Ext Val)) : Shape exts [.bc, .ski, .aki, .ku, .cdp, .aia, .sia, .cp, .ir, .ar, .ir2, .ar2] [.bc, .ku, .cp, .ir, .ar, .ir2, .ar2] ↔
      (∀ e ∈ exts, ∀ h ∈ caTable env, h.nid = e.nid → e.critical = h.critical) ∧ (∀ e ∈ exts, (∀ h ∈ caTable env, h.nid ≠ e.nid) → e.critical = false) ∧
      (∀ h ∈ caTable env, AtMostOnce exts h.nid) := by
  apply shape_iff
  · intro n
    simp [caTable, resourceRows, eq_comm]
  · simp [caTable, resourceRows]
  · decide

theorem ee_shape (env : Env) (sid : List Byte) (exts : List (Ext Val)) : Shape exts [.ski, .aki, .ku, .cdp, .aia, .sia, .cp, .ir, .ar, .ir2, .ar2] [.ku, .cp, .ir, .ar, .ir2, .ar2] ↔
      (∀ e ∈ exts, ∀ h ∈ eeTable env sid, h.nid = e.nid → e.critical = h.critical) ∧ (∀ e ∈ exts, (∀ h ∈ eeTable env sid, h.nid ≠ e.nid) → e.critical = false) ∧
      (∀ h ∈ eeTable env sid, AtMostOnce exts h.nid) := by
  apply shape_iff
  · intro n
    simp [eeTable, resourceRows, eq_comm]
  · simp [eeTable, resourceRows]
  · decide

theorem ku_has {exts : List (Ext Val)} {b : Byte} {v : Val} (hv : Has exts .ku v) (h : v = .ku [b] ∨ v = .ku [b, 0#8]) : KeyUsage exts b := by
  rcases h with rfl | rfl
  · exact .inl hv
  · exact .inr hv

theorem ku_accept {exts : List (Ext Val)} {b : Byte} (h : AtMostOnce exts .ku) (hk : KeyUsage exts b) {e : Ext Val} (he : e ∈ exts) (hn : e.nid = .ku) :
    ∃ v, e.value = some v ∧ ∀ s, ∃ s', handleKu b v s = .ok s' := by
  rcases hk with hk | hk
  · exact ⟨_, has_value h hk he hn, fun s => ⟨s, (ku_iff ..).2 ⟨.inl rfl, rfl⟩⟩⟩
  · exact ⟨_, has_value h hk he hn, fun s => ⟨s, (ku_iff ..).2 ⟨.inr rfl, rfl⟩⟩⟩

theorem sia_accept {env : Env} {exts : List (Ext Val)} {out : St} (h : AtMostOnce exts .sia) (hs : SiaCa env exts out) {e : Ext Val} (he : e ∈ exts) (hn : e.nid = .sia) :
    ∃ v, e.value = some v ∧ ∀ s, ∃ s', handleSiaCa env v s = .ok s' := by
  obtain ⟨a, r, n, m, h1, h2, h3, h4, -⟩ := hs
  exact ⟨_, has_value h h1 he hn, fun s => ⟨_, (siaCa_iff ..).2 ⟨a, r, n, m, rfl, h2, h3, h4, rfl⟩⟩⟩

theorem cp_accept {exts : List (Ext Val)} {out : St} (h : AtMostOnce exts .cp) (hs : OnePolicy exts out) {e : Ext Val} (he : e ∈ exts) (hn : e.nid = .cp) :
    ∃ v, e.value = some v ∧ ∀ s, ∃ s', handleCp v s = .ok s' := by
  obtain ⟨p, q, h1, h2, -⟩ := hs
  exact ⟨_, has_value h h1 he hn, fun s => ⟨_, (cp_iff ..).2 ⟨p, q, rfl, h2, rfl⟩⟩⟩

theorem cdp_accept {exts : List (Ext Val)} {out : St} (h : AtMostOnce exts .cdp) (hs : Crldp exts out) {e : Ext Val} (he : e ∈ exts) (hn : e.nid = .cdp) :
    ∃ v, e.value = some v ∧ ∀ s, ∃ s', handleCdp v s = .ok s' := by
  obtain ⟨p, q, h1, h2, -⟩ := hs
  exact ⟨_, has_value h h1 he hn, fun s => ⟨_, (cdp_iff ..).2 ⟨p, q, rfl, h2, rfl⟩⟩⟩

theorem aia_accept {env : Env} {exts : List (Ext Val)} {out : St} (h : AtMostOnce exts .aia) (hs : Aia env exts out) {e : Ext Val} (he : e ∈ exts) (hn : e.nid = .aia) :
    ∃ v, e.value = some v ∧ ∀ s, ∃ s', handleAia env v s = .ok s' := by
  obtain ⟨p, q, h1, h2, -⟩ := hs
  exact ⟨_, has_value h h1 he hn, fun s => ⟨_, (aia_iff ..).2 ⟨p, q, rfl, h2, rfl⟩⟩⟩

theorem aki_accept {env : Env} {exts : List (Ext Val)} (h : AtMostOnce exts .aki) (hs : AkiParent env exts) {e : Ext Val} (he : e ∈ exts) (hn : e.nid = .aki) :
    ∃ v, e.value = some v ∧ ∀ s, ∃ s', handleAki env v s = .ok s' := by
  obtain ⟨p, q, h1, h2, h3⟩ := hs
  exact ⟨_, has_value h h1 he hn, fun s => ⟨_, (aki_iff ..).2 ⟨⟨p, q, rfl, h2, h3⟩, rfl⟩⟩⟩

theorem sia_row {env : Env} {t : List (Handler Val St)} (hn : (t.map (·.nid)).Nodup) (hf : Frame t) (hrow : (⟨.sia, false, true, some (handleSiaCa env)⟩ : Handler Val St) ∈ t)
    {exts : List (Ext Val)} {out : St} (hok : handleExtensions t exts St.init = .ok out) : SiaCa env exts out ∧ out.signedObject = none := by
  obtain ⟨v, s1, s2, h1, h2, h3, h4⟩ := row_run hn (fun s => (s.rpp, s.mft, s.signedObject)) hrow (fun k hk hne c v s s' hc hr => by
    obtain ⟨-, -, h, -⟩ := hf k hk c v s s' hc hr
    obtain ⟨ha, hb, hc⟩ := h hne
    simp only [ha, hb, hc]) hok
  obtain ⟨ads, r, n, m, rfl, g1, g2, g3, rfl⟩ := (siaCa_iff ..).1 h2
  simp only [Prod.mk.injEq] at h3 h4
  refine ⟨⟨ads, r, n, m, h1, g1, g2, g3, ?_, h4.2.1⟩, h4.2.2.trans h3.2.2⟩
  rw [h4.1, h3.1]
  rfl

theorem cp_row {t : List (Handler Val St)} (hn : (t.map (·.nid)).Nodup) (hf : Frame t) (hrow : (⟨.cp, true, true, some handleCp⟩ : Handler Val St) ∈ t)
    {exts : List (Ext Val)} {out : St} (hok : handleExtensions t exts St.init = .ok out) : OnePolicy exts out := by
  obtain ⟨v, s1, s2, h1, h2, h3, h4⟩ := row_run hn (fun s => s.policy) hrow (fun k hk hne c v s s' hc hr => (hf k hk c v s s' hc hr).2.2.2 hne) hok
  obtain ⟨p, q, rfl, g1, rfl⟩ := (cp_iff ..).1 h2
  exact ⟨p, q, h1, g1, h4⟩

theorem cdp_row {t : List (Handler Val St)} (hn : (t.map (·.nid)).Nodup) (hf : Frame t) (hrow : (⟨.cdp, false, true, some handleCdp⟩ : Handler Val St) ∈ t)
    {exts : List (Ext Val)} {out : St} (hok : handleExtensions t exts St.init = .ok out) : Crldp exts out := by
  obtain ⟨v, s1, s2, h1, h2, h3, h4⟩ := row_run hn (fun s => s.crldp) hrow (fun k hk hne c v s s' hc hr => (hf k hk c v s s' hc hr).1 hne) hok
  obtain ⟨p, q, rfl, g1, rfl⟩ := (cdp_iff ..).1 h2
  exact ⟨p, q, h1, g1, h4⟩

theorem aia_row {env : Env} {t : List (Handler Val St)} (hn : (t.map (·.nid)).Nodup) (hf : Frame t) (hrow : (⟨.aia, false, true, some (handleAia env)⟩ : Handler Val St) ∈ t)
    {exts : List (Ext Val)} {out : St} (hok : handleExtensions t exts St.init = .ok out) : Aia env exts out := by
  obtain ⟨v, s1, s2, h1, h2, h3, h4⟩ := row_run hn (fun s => s.caIssuers) hrow (fun k hk hne c v s s' hc hr => (hf k hk c v s s' hc hr).2.1 hne) hok
  obtain ⟨p, q, rfl, g1, rfl⟩ := (aia_iff ..).1 h2
  exact ⟨p, q, h1, g1, h4⟩

theorem aki_row {env : Env} {t : List (Handler Val St)} (hn : (t.map (·.nid)).Nodup) (hrow : (⟨.aki, false, true, some (handleAki env)⟩ : Handler Val St) ∈ t)
    {exts : List (Ext Val)} {out : St} (hok : handleExtensions t exts St.init = .ok out) : AkiParent env exts := by
  obtain ⟨v, s1, s2, h1, h2⟩ := row_pure hn hrow hok
  obtain ⟨⟨id, spk, rfl, g1, g2⟩, -⟩ := (aki_iff ..).1 h2
  exact ⟨id, spk, h1, g1, g2⟩

/-- **C61 (trust anchors).** The extensions of a trust anchor's certificate are accepted, with a result, if and only if they are as the specification says. -/
theorem C61_ta (env : Env) (exts : List (Ext Val)) (out : St) : validateTa env exts = .ok out ↔ TaSpec env exts out := by
  unfold validateTa
  have hn := ta_nodup env exts
  have hf := frame_ta env exts
  have forward : ∀ out, handleExtensions (taTable env exts) exts St.init = .ok out → TaSpec env exts out := by
    intro out hok
    obtain ⟨i1, i2, i3, i4, i5⟩ := (C61_table _ hn exts _ out).1 hok
    have hsh := (ta_shape env exts exts).2 ⟨i1, i2, i3⟩
    obtain ⟨v1, a1, b1, g1, k1⟩ := row_pure hn (n := .bc) (cb := handleBc) (crit := true) (by simp [taTable]) hok
    obtain ⟨v2, a2, b2, g2, k2⟩ := row_pure hn (n := .ski) (cb := handleSkiCa env) (crit := false) (by simp [taTable]) hok
    obtain ⟨v3, a3, b3, g3, k3⟩ := row_pure hn (n := .ku) (cb := handleKu 0x06#8) (crit := true) (by simp [taTable]) hok
    obtain ⟨⟨id, rfl, k4⟩, -⟩ := (skiCa_iff ..).1 k2
    have hsia := sia_row hn hf (env := env) (by simp [taTable]) hok
    refine ⟨hsh, ((bc_iff ..).1 k1).1 ▸ g1, ⟨id, g2, k4, ?_⟩, ku_has g3 ((ku_iff ..).1 k3).1, hsia.1, cp_row hn hf (by simp [taTable]) hok, ?_, ?_, hsia.2⟩
    · intro e he hen
      have hrow : (⟨.aki, false, false, some (handleAkiTa exts)⟩ : Handler Val St) ∈ taTable env exts := by simp [taTable]
      obtain ⟨v, s1, s2, j1, j2, -⟩ := (runs_field _ hn (fun _ => ()) _ hrow (handleAkiTa exts) rfl (fun _ _ _ _ _ _ _ _ _ => rfl) exts _ out i5 (i3 _ hrow)).2 e he hen
      obtain ⟨⟨id', i, m, rfl, hid⟩, -⟩ := (akiTa_iff ..).1 j2
      rw [getSki_eq (hsh.1 .ski (by decide)) g2] at hid
      injection hid with hid
      subst hid
      exact ⟨i, m, j1⟩
    · refine runs_frame (taTable env exts) (fun s => s.crldp) (fun k hk c v s s' hc hr => (hf k hk c v s s' hc hr).1 ?_) exts _ out i5
      simp only [taTable, resourceRows, List.cons_append, List.nil_append, List.mem_cons, List.not_mem_nil, or_false] at hk
      rcases hk with rfl | rfl | rfl | rfl | rfl | rfl | rfl | rfl | rfl | rfl <;> (intro h; cases h)
    · refine runs_frame (taTable env exts) (fun s => s.caIssuers) (fun k hk c v s s' hc hr => (hf k hk c v s s' hc hr).2.1 ?_) exts _ out i5
      simp only [taTable, resourceRows, List.cons_append, List.nil_append, List.mem_cons, List.not_mem_nil, or_false] at hk
      rcases hk with rfl | rfl | rfl | rfl | rfl | rfl | rfl | rfl | rfl | rfl <;> (intro h; cases h)
  refine ⟨forward out, fun hspec => ?_⟩
  obtain ⟨i1, i2, i3⟩ := (ta_shape env exts exts).1 hspec.shape
  have h1 := hspec.shape.1
  obtain ⟨id, hski, hkey, haki⟩ := hspec.ski
  have hruns : ∃ s', Runs (taTable env exts) exts St.init s' := by
    apply runs_exists
    intro e he h hh hne cb hcb
    simp only [taTable, resourceRows, List.cons_append, List.nil_append, List.mem_cons, List.not_mem_nil, or_false] at hh
    rcases hh with rfl | rfl | rfl | rfl | rfl | rfl | rfl | rfl | rfl | rfl <;> simp only [Option.some.injEq, reduceCtorEq] at hcb <;> subst hcb
    · exact ⟨_, has_value (h1 _ (by decide)) hspec.bc he hne.symm, fun s => ⟨s, (bc_iff ..).2 ⟨rfl, rfl⟩⟩⟩
    · exact ⟨_, has_value (h1 _ (by decide)) hski he hne.symm, fun s => ⟨s, (skiCa_iff ..).2 ⟨⟨id, rfl, hkey⟩, rfl⟩⟩⟩
    · obtain ⟨i, n, hv⟩ := haki e he hne.symm
      exact ⟨_, hv, fun s => ⟨s, (akiTa_iff ..).2 ⟨⟨id, i, n, rfl, getSki_eq (h1 _ (by decide)) hski⟩, rfl⟩⟩⟩
    · exact ku_accept (h1 _ (by decide)) hspec.ku he hne.symm
    · exact sia_accept (h1 _ (by decide)) hspec.sia he hne.symm
    · exact cp_accept (h1 _ (by decide)) hspec.cp he hne.symm
  obtain ⟨s', hr⟩ := hruns
  have hmand : ∀ h ∈ taTable env exts, h.mandatory = true → ∃ e ∈ exts, e.nid = h.nid := by
    intro h hh hm
    simp only [taTable, resourceRows, List.cons_append, List.nil_append, List.mem_cons, List.not_mem_nil, or_false] at hh
    rcases hh with rfl | rfl | rfl | rfl | rfl | rfl | rfl | rfl | rfl | rfl <;> simp only [Bool.false_eq_true] at hm
    · exact has_exists hspec.bc
    · exact has_exists hski
    · rcases hspec.ku with h | h <;> exact has_exists h
    · obtain ⟨_, _, _, _, h, -⟩ := hspec.sia
      exact has_exists h
    · obtain ⟨_, _, h, -⟩ := hspec.cp
      exact has_exists h
  have hok := (C61_table _ hn exts St.init s').2 ⟨i1, i2, i3, hmand, hr⟩
  have hs' := forward s' hok
  obtain ⟨u1, u2⟩ := siaCa_unique (h1 _ (by decide)) hs'.sia hspec.sia
  have := St.ext' u1 u2 (hs'.none.1.trans hspec.none.1.symm) (hs'.none.2.1.trans hspec.none.2.1.symm) (hs'.none.2.2.trans hspec.none.2.2.symm)
    (policy_unique (h1 _ (by decide)) hs'.cp hspec.cp)
  rw [hok, this]

theorem ca_table (env : Env) (exts : List (Ext Val)) (out : St) :
    handleExtensions (caTable env) exts St.init = .ok out ↔ CaSpec env exts (out.crldp.getD []) out := by
  have hn := ca_nodup env
  have hf := frame_ca env
  have forward : ∀ out, handleExtensions (caTable env) exts St.init = .ok out → CaSpec env exts (out.crldp.getD []) out := by
    intro out hok
    obtain ⟨i1, i2, i3, i4, i5⟩ := (C61_table _ hn exts _ out).1 hok
    have hsh := (ca_shape env exts).2 ⟨i1, i2, i3⟩
    obtain ⟨v1, a1, b1, g1, k1⟩ := row_pure hn (n := .bc) (cb := handleBc) (crit := true) (by simp [caTable]) hok
    obtain ⟨v2, a2, b2, g2, k2⟩ := row_pure hn (n := .ski) (cb := handleSkiCa env) (crit := false) (by simp [caTable]) hok
    obtain ⟨v3, a3, b3, g3, k3⟩ := row_pure hn (n := .ku) (cb := handleKu 0x06#8) (crit := true) (by simp [caTable]) hok
    obtain ⟨⟨id, rfl, k4⟩, -⟩ := (skiCa_iff ..).1 k2
    have hsia := sia_row hn hf (env := env) (by simp [caTable]) hok
    have hcdp := cdp_row hn hf (by simp [caTable]) hok
    refine ⟨hsh, ((bc_iff ..).1 k1).1 ▸ g1, ⟨id, g2, k4⟩, aki_row hn (by simp [caTable]) hok, ku_has g3 ((ku_iff ..).1 k3).1, hcdp, ?_,
      aia_row hn hf (by simp [caTable]) hok, hsia.1, cp_row hn hf (by simp [caTable]) hok, hsia.2⟩
    obtain ⟨_, text, _, _, ht⟩ := hcdp
    exact ⟨text, ht, by rw [ht]; rfl⟩
  refine ⟨forward out, fun hspec => ?_⟩
  obtain ⟨i1, i2, i3⟩ := (ca_shape env exts).1 hspec.shape
  have h1 := hspec.shape.1
  obtain ⟨id, hski, hkey⟩ := hspec.ski
  have hruns : ∃ s', Runs (caTable env) exts St.init s' := by
    apply runs_exists
    intro e he h hh hne cb hcb
    simp only [caTable, resourceRows, List.cons_append, List.nil_append, List.mem_cons, List.not_mem_nil, or_false] at hh
    rcases hh with rfl | rfl | rfl | rfl | rfl | rfl | rfl | rfl | rfl | rfl | rfl | rfl <;> simp only [Option.some.injEq, reduceCtorEq] at hcb <;> subst hcb
    · exact ⟨_, has_value (h1 _ (by decide)) hspec.bc he hne.symm, fun s => ⟨s, (bc_iff ..).2 ⟨rfl, rfl⟩⟩⟩
    · exact ⟨_, has_value (h1 _ (by decide)) hski he hne.symm, fun s => ⟨s, (skiCa_iff ..).2 ⟨⟨id, rfl, hkey⟩, rfl⟩⟩⟩
    · exact aki_accept (h1 _ (by decide)) hspec.aki he hne.symm
    · exact ku_accept (h1 _ (by decide)) hspec.ku he hne.symm
    · exact cdp_accept (h1 _ (by decide)) hspec.cdp he hne.symm
    · exact aia_accept (h1 _ (by decide)) hspec.aia he hne.symm
    · exact sia_accept (h1 _ (by decide)) hspec.sia he hne.symm
    · exact cp_accept (h1 _ (by decide)) hspec.cp he hne.symm
  obtain ⟨s', hr⟩ := hruns
  have hmand : ∀ h ∈ caTable env, h.mandatory = true → ∃ e ∈ exts, e.nid = h.nid := by
    intro h hh hm
    simp only [caTable, resourceRows, List.cons_append, List.nil_append, List.mem_cons, List.not_mem_nil, or_false] at hh
    rcases hh with rfl | rfl | rfl | rfl | rfl | rfl | rfl | rfl | rfl | rfl | rfl | rfl <;> simp only [Bool.false_eq_true] at hm
    · exact has_exists hspec.bc
    · exact has_exists hski
    · obtain ⟨_, _, h, -⟩ := hspec.aki
      exact has_exists h
    · rcases hspec.ku with h | h <;> exact has_exists h
    · obtain ⟨_, _, h, -⟩ := hspec.cdp
      exact has_exists h
    · obtain ⟨_, _, h, -⟩ := hspec.aia
      exact has_exists h
    · obtain ⟨_, _, _, _, h, -⟩ := hspec.sia
      exact has_exists h
    · obtain ⟨_, _, h, -⟩ := hspec.cp
      exact has_exists h
  have hok := (C61_table _ hn exts St.init s').2 ⟨i1, i2, i3, hmand, hr⟩
  have hs' := forward s' hok
  obtain ⟨u1, u2⟩ := siaCa_unique (h1 _ (by decide)) hs'.sia hspec.sia
  have := St.ext' u1 u2 (crldp_unique (h1 _ (by decide)) hs'.cdp hspec.cdp) (aia_unique (h1 _ (by decide)) hs'.aia hspec.aia) (hs'.none.trans hspec.none.symm)
    (policy_unique (h1 _ (by decide)) hs'.cp hspec.cp)
  rw [hok, this]

/-- **C61 (CAs).** The extensions of a CA certificate are accepted, with a result, if and only if they are as the specification says. -/
theorem C61_ca (env : Env) (exts : List (Ext Val)) (crl : List Byte) (out : St) : validateCa env exts (some crl) = .ok out ↔ CaSpec env exts crl out := by
  unfold validateCa
  constructor
  · intro h
    cases h1 : handleExtensions (caTable env) exts St.init with
    | fail e => rw [h1] at h; cases h
    | ub => rw [h1] at h; cases h
    | ok s =>
      rw [h1] at h
      have hs := (ca_table env exts s).1 h1
      obtain ⟨text, ht, -⟩ := hs.crl
      simp only [refsValidateCa, validateCdp, ht] at h
      by_cases he : cstr text = cstr crl
      · rw [if_pos he] at h
        simp only [hs.none, if_true] at h
        injection h with h
        subst h
        exact ⟨hs.shape, hs.bc, hs.ski, hs.aki, hs.ku, hs.cdp, ⟨text, ht, he⟩, hs.aia, hs.sia, hs.cp, hs.none⟩
      · rw [if_neg he] at h
        cases h
  · intro hs
    obtain ⟨text, ht, he⟩ := hs.crl
    rw [(ca_table env exts out).2 ⟨hs.shape, hs.bc, hs.ski, hs.aki, hs.ku, hs.cdp, ⟨text, ht, by rw [ht]; rfl⟩, hs.aia, hs.sia, hs.cp, hs.none⟩]
    simp only [refsValidateCa, validateCdp, ht]
    rw [if_pos he]
    simp only [hs.none, if_true]

/-- **C61 (EEs).** The extensions of the EE certificate of a signed object are accepted, with a result, if and only if they are as the specification says. -/
theorem C61_ee (env : Env) (sid : List Byte) (exts : List (Ext Val)) (out : St) : validateEe env sid exts = .ok out ↔ EeSpec env sid exts out := by
  unfold validateEe
  have hn := ee_nodup env sid
  have hf := frame_ee env sid
  have forward : ∀ out, handleExtensions (eeTable env sid) exts St.init = .ok out → EeSpec env sid exts out := by
    intro out hok
    obtain ⟨i1, i2, i3, i4, i5⟩ := (C61_table _ hn exts _ out).1 hok
    have hsh := (ee_shape env sid exts).2 ⟨i1, i2, i3⟩
    obtain ⟨v2, a2, b2, g2, k2⟩ := row_pure hn (n := .ski) (cb := handleSkiEe env sid) (crit := false) (by simp [eeTable]) hok
    obtain ⟨v3, a3, b3, g3, k3⟩ := row_pure hn (n := .ku) (cb := handleKu 0x80#8) (crit := true) (by simp [eeTable]) hok
    obtain ⟨⟨rfl, k4⟩, -⟩ := (skiEe_iff ..).1 k2
    obtain ⟨v, s1, s2, h1, h2, h3, h4⟩ := row_run hn (fun s => (s.rpp, s.mft, s.signedObject)) (n := .sia) (cb := handleSiaEe env) (crit := false) (by simp [eeTable])
      (fun k hk hne c v s s' hc hr => by
        obtain ⟨-, -, h, -⟩ := hf k hk c v s s' hc hr
        obtain ⟨ha, hb, hc⟩ := h hne
        simp only [ha, hb, hc]) hok
    obtain ⟨ads, u, rfl, j1, rfl⟩ := (siaEe_iff ..).1 h2
    simp only [Prod.mk.injEq] at h3 h4
    exact ⟨hsh, ⟨g2, k4⟩, aki_row hn (by simp [eeTable]) hok, ku_has g3 ((ku_iff ..).1 k3).1, cdp_row hn hf (by simp [eeTable]) hok,
      aia_row hn hf (by simp [eeTable]) hok, ⟨ads, u, h1, j1, h4.2.2⟩, cp_row hn hf (by simp [eeTable]) hok, h4.1.trans h3.1, h4.2.1.trans h3.2.1⟩
  refine ⟨forward out, fun hspec => ?_⟩
  obtain ⟨i1, i2, i3⟩ := (ee_shape env sid exts).1 hspec.shape
  have h1 := hspec.shape.1
  obtain ⟨hski, hkey⟩ := hspec.ski
  obtain ⟨ads, u, hs1, hs2, hs3⟩ := hspec.sia
  have hruns : ∃ s', Runs (eeTable env sid) exts St.init s' := by
    apply runs_exists
    intro e he h hh hne cb hcb
    simp only [eeTable, resourceRows, List.cons_append, List.nil_append, List.mem_cons, List.not_mem_nil, or_false] at hh
    rcases hh with rfl | rfl | rfl | rfl | rfl | rfl | rfl | rfl | rfl | rfl | rfl <;> simp only [Option.some.injEq, reduceCtorEq] at hcb <;> subst hcb
    · exact ⟨_, has_value (h1 _ (by decide)) hski he hne.symm, fun s => ⟨s, (skiEe_iff ..).2 ⟨⟨rfl, hkey⟩, rfl⟩⟩⟩
    · exact aki_accept (h1 _ (by decide)) hspec.aki he hne.symm
    · exact ku_accept (h1 _ (by decide)) hspec.ku he hne.symm
    · exact cdp_accept (h1 _ (by decide)) hspec.cdp he hne.symm
    · exact aia_accept (h1 _ (by decide)) hspec.aia he hne.symm
    · exact ⟨_, has_value (h1 _ (by decide)) hs1 he hne.symm, fun s => ⟨_, (siaEe_iff ..).2 ⟨ads, u, rfl, hs2, rfl⟩⟩⟩
    · exact cp_accept (h1 _ (by decide)) hspec.cp he hne.symm
  obtain ⟨s', hr⟩ := hruns
  have hmand : ∀ h ∈ eeTable env sid, h.mandatory = true → ∃ e ∈ exts, e.nid = h.nid := by
    intro h hh hm
    simp only [eeTable, resourceRows, List.cons_append, List.nil_append, List.mem_cons, List.not_mem_nil, or_false] at hh
    rcases hh with rfl | rfl | rfl | rfl | rfl | rfl | rfl | rfl | rfl | rfl | rfl <;> simp only [Bool.false_eq_true] at hm
    · exact has_exists hski
    · obtain ⟨_, _, h, -⟩ := hspec.aki
      exact has_exists h
    · rcases hspec.ku with h | h <;> exact has_exists h
    · obtain ⟨_, _, h, -⟩ := hspec.cdp
      exact has_exists h
    · obtain ⟨_, _, h, -⟩ := hspec.aia
      exact has_exists h
    · exact has_exists hs1
    · obtain ⟨_, _, h, -⟩ := hspec.cp
      exact has_exists h
  have hok := (C61_table _ hn exts St.init s').2 ⟨i1, i2, i3, hmand, hr⟩
  have hs' := forward s' hok
  obtain ⟨ads', u', g1, g2, g3⟩ := hs'.sia
  have hads := has_unique (h1 _ (by decide)) hs1 g1
  injection hads with hads
  subst hads
  have hso : s'.signedObject = out.signedObject := by rw [g3, hs3, picked_unique g2 hs2]
  have := St.ext' (hs'.none.1.trans hspec.none.1.symm) (hs'.none.2.trans hspec.none.2.symm) (crldp_unique (h1 _ (by decide)) hs'.cdp hspec.cdp)
    (aia_unique (h1 _ (by decide)) hs'.aia hspec.aia) hso (policy_unique (h1 _ (by decide)) hs'.cp hspec.cp)
  rw [hok, this]

end Verif.Ext
