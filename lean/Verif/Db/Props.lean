import Verif.Db.Spec
import Verif.Db.Lemmas
/-
C193 (threads that share the database), C194 (routers and updates).
-/
namespace Verif.Db
variable {α : Type} {cap : Nat} {c : Content α}

/-- **C193.** Whatever threads do, and in whichever order: no table and no delta is used, or freed, after it was freed. -/
theorem C193_safe (hcap : 1 ≤ cap) {s : St α} (h : Reach cap c s) : s.bad = false := (reach_inv hcap h).good

/-- Between updates, exactly the current table and the history are allocated. -/
theorem C193_noLeak (hcap : 1 ≤ cap) {s : St α} (h : Reach cap c s) (hw : s.writer = .idle) : s.live.Perm ((s.base.map Obj.tab).toList ++ s.hist.map Obj.dl) := by
  have := (reach_inv hcap h).owned
  rw [hw] at this
  simpa [Writer.owns, St.owns] using this

/-- While a thread has the lock, nothing changes: neither the table, nor the history, nor the serial. -/
theorem C193_frozen (hcap : 1 ≤ cap) {s s' : St α} (h : Reach cap c s) (hs : Step cap c s s') {i : Nat} (hi : (s.readers i).holds = true) :
    s'.base = s.base ∧ s'.hist = s.hist ∧ s'.serial = s.serial := by
  have hinv := reach_inv hcap h
  have hl := hinv.unlocked hi
  have hin := hinv.inside
  rw [hl] at hin
  cases hs with
  | writer hs =>
    cases hs with
    | swap hw => rw [hw] at hin; cases hin
    | add hw => rw [hw] at hin; cases hin
    | @free old hw => cases old <;> exact ⟨rfl, rfl, rfl⟩
    | _ => exact ⟨rfl, rfl, rfl⟩
  | reader hs => cases hs <;> exact ⟨rfl, rfl, rfl⟩
  | send hs => cases hs <;> exact ⟨rfl, rfl, rfl⟩
  | request _ => exact ⟨rfl, rfl, rfl⟩

/-- What a thread has sent, when it is done, is the current table, whole; or what the last deltas amount to. -/
theorem C193_whole (hcap : 1 ≤ cap) {s : St α} (h : Reach cap c s) {i : Nat} {sent : List α} (hi : s.readers i = .leaving (some sent)) :
    (∃ b, s.base = some b ∧ sent = c.roas b ++ c.keys b) ∨ ∃ k ≤ s.hist.length, sent = c.filtered (s.hist.drop (s.hist.length - k)) := by
  have := (reach_inv hcap h).readers i
  rw [hi] at this
  exact this

/-! ### C194 -/

/-- A thread that is sending keeps the lock while its router takes nothing. -/
theorem stuck {i : Nat} {s s' : St α} (hi : Inv c s) (hs : StepBut cap c i s s') (hk : Sending c s (s.readers i)) :
    s'.readers i = s.readers i ∧ s'.base = s.base ∧ s'.hist = s.hist ∧ s'.serial = s.serial ∧ (∀ n d old, s.writer = .ready n d old → s'.writer = .ready n d old) := by
  have hh : (s.readers i).holds = true := by
    cases hr : s.readers i <;> rw [hr] at hk <;> first | rfl | cases hk
  have hl := hi.unlocked hh
  have hin := hi.inside
  rw [hl] at hin
  cases hs with
  | writer hs =>
    cases hs with
    | swap hw => rw [hw] at hin; cases hin
    | add hw => rw [hw] at hin; cases hin
    | lock hw _ hr => rw [hr i] at hh; cases hh
    | @free old hw => cases old <;> exact ⟨rfl, rfl, rfl, rfl, (fun n d old h => by rw [hw] at h; cases h)⟩
    | _ => exact ⟨rfl, rfl, rfl, rfl, (fun n d old h => by simp_all)⟩
  | @reader _ j hs =>
    by_cases hj : i = j
    · subst hj
      exfalso
      cases hs with
      | roasEnd hr hb hle =>
        rw [hr] at hk
        obtain ⟨b, e, hlt⟩ := hk
        rw [hb] at e
        cases e
        omega
      | keysEnd hr hb hle =>
        rw [hr] at hk
        obtain ⟨b, e, hlt⟩ := hk
        rw [hb] at e
        cases e
        omega
      | rowsEnd hr => rw [hr] at hk; exact hk rfl
      | lockNone hr => rw [hr] at hk; exact hk
      | lockBase hr => rw [hr] at hk; exact hk
      | lockOld hr => rw [hr] at hk; exact hk
      | lockSince hr => rw [hr] at hk; exact hk
      | visit hr => rw [hr] at hk; exact hk
      | filtered hr => rw [hr] at hk; exact hk
      | unlock hr => rw [hr] at hk; exact hk
    · cases hs <;> exact ⟨by simp [St.set, hj, St.use], rfl, rfl, rfl, fun _ _ _ h => h⟩
  | @send _ j hj hs =>
    have hj : ¬ i = j := fun e => hj e.symm
    cases hs <;> exact ⟨by simp [St.set, hj, St.use], rfl, rfl, rfl, fun _ _ _ h => h⟩
  | @request j _ hr =>
    by_cases hj : i = j
    · subst hj; rw [hr] at hk; cases hk
    · exact ⟨by simp [St.set, hj], rfl, rfl, rfl, fun _ _ _ h => h⟩

theorem stepBut_step {i : Nat} {s s' : St α} (h : StepBut cap c i s s') : Step cap c s s' := by
  cases h with
  | writer h => exact .writer h
  | reader h => exact .reader h
  | send _ h => exact .send h
  | request h => exact .request h

/-- As long as one router does not take what it is being sent, nobody gets new data: the update never lands, whatever the other threads do. -/
theorem C194_stuck (hcap : 1 ≤ cap) {s : St α} (h : Reach cap c s) {i : Nat} (hk : Sending c s (s.readers i)) {s' : St α} (hs : Star (StepBut cap c i) s s') :
    s'.base = s.base ∧ s'.hist = s.hist ∧ s'.serial = s.serial ∧ ∀ n d old, s.writer = .ready n d old → s'.writer = .ready n d old := by
  have key : Inv c s' ∧ s'.readers i = s.readers i ∧ s'.base = s.base ∧ s'.hist = s.hist ∧ s'.serial = s.serial ∧ ∀ n d old, s.writer = .ready n d old → s'.writer = .ready n d old := by
    induction hs with
    | refl => exact ⟨reach_inv hcap h, rfl, rfl, rfl, rfl, fun _ _ _ h => h⟩
    | @tail s1 s2 _ hs ih =>
      obtain ⟨a0, a1, a2, a3, a4, a5⟩ := ih
      have hk' : Sending c s1 (s1.readers i) := by
        rw [a1]
        cases hr : s.readers i <;> rw [hr] at hk <;> simpa [Sending, a2] using hk
      obtain ⟨b1, b2, b3, b4, b5⟩ := stuck a0 hs hk'
      exact ⟨step_inv hcap a0 (stepBut_step hs), b1.trans a1, b2.trans a2, b3.trans a3, b4.trans a4, fun n d old h => b5 n d old (a5 n d old h)⟩
  exact key.2.2

/-! #### If all routers take what they're sent, and there are no new requests -/

/-- How many steps a reader has left, at most. -/
def weight (c : Content α) (s : St α) : Reader α → Nat
  | .idle => 0
  | .leaving _ => 1
  | .keys n _ => 2 + ((s.base.elim [] c.keys).length - n)
  | .roas sent => 4 + (s.base.elim [] c.keys).length + ((s.base.elim [] c.roas).length - sent.length)
  | .rows left _ => 2 + left.length
  | .collect n got => 3 + n + (c.filtered (s.hist.drop (s.hist.length - (n + got.length)))).length
  | .waiting .base => 5 + (s.base.elim [] c.keys).length + (s.base.elim [] c.roas).length
  | .waiting (.since n) => 4 + n + (c.filtered (s.hist.drop (s.hist.length - n))).length

def total (c : Content α) (s : St α) (n : Nat) : Nat := ((List.range n).map fun i => weight c s (s.readers i)).sum

theorem weight_congr {s s' : St α} (h1 : s'.base = s.base) (h2 : s'.hist = s.hist) (r : Reader α) : weight c s' r = weight c s r := by
  cases r with
  | waiting q => cases q <;> simp [weight, h1, h2]
  | _ => simp [weight, h1, h2]

theorem sum_lt {f g : Nat → Nat} {i : Nat} (hlt : f i < g i) (hle : ∀ j, j ≠ i → f j = g j) : ∀ n, i < n → ((List.range n).map f).sum < ((List.range n).map g).sum := by
  intro n
  induction n with
  | zero => intro h; omega
  | succ n ih =>
    intro h
    rw [List.range_succ, List.map_append, List.map_append, List.sum_append, List.sum_append]
    simp only [List.map_cons, List.map_nil, List.sum_cons, List.sum_nil, Nat.add_zero]
    by_cases hn : i = n
    · subst hn
      have : (List.range i).map f = (List.range i).map g := List.map_congr_left fun j hj => hle j (by have := List.mem_range.1 hj; omega)
      rw [this]
      omega
    · have := ih (by omega)
      have := hle n (fun e => hn e.symm)
      omega

theorem total_lt {s s' : St α} (h1 : s'.base = s.base) (h2 : s'.hist = s.hist) {i : Nat} {r : Reader α} (hr : s'.readers = (s.set i r).readers) (hlt : weight c s r < weight c s (s.readers i))
    {n : Nat} (hi : i < n) : total c s' n < total c s n := by
  unfold total
  refine sum_lt (i := i) ?_ (fun j hj => ?_) n hi
  · rw [weight_congr h1 h2, hr]
    simpa [St.set] using hlt
  · rw [weight_congr h1 h2, hr]
    simp [St.set, hj]

theorem rstep_less {s s' : St α} {i : Nat} (hinv : Inv c s) (h : RStep c i s s') {n : Nat} (hi : i < n) :
    s'.base = s.base ∧ s'.hist = s.hist ∧ s'.writer = s.writer ∧ total c s' n < total c s n := by
  have hok := hinv.readers i
  cases h with
  | @lockNone q hr hl hb =>
    refine ⟨rfl, rfl, rfl, total_lt (s := s) (i := i) (by exact rfl) (by exact rfl) (by exact rfl) ?_ hi⟩
    rw [hr]
    cases q <;> simp only [weight] <;> omega
  | lockBase hr hl hb =>
    refine ⟨rfl, rfl, rfl, total_lt (s := s) (i := i) (by exact rfl) (by exact rfl) (by exact rfl) ?_ hi⟩
    rw [hr]
    simp only [weight, List.length_nil]
    omega
  | lockOld hr hl hb hn =>
    refine ⟨rfl, rfl, rfl, total_lt (s := s) (i := i) (by exact rfl) (by exact rfl) (by exact rfl) ?_ hi⟩
    rw [hr]
    simp only [weight]
    omega
  | lockSince hr hl hb hn =>
    refine ⟨rfl, rfl, rfl, total_lt (s := s) (i := i) (by exact rfl) (by exact rfl) (by exact rfl) ?_ hi⟩
    rw [hr]
    simp only [weight, List.length_nil, Nat.add_zero]
    omega
  | @visit n got d hr hd =>
    refine ⟨rfl, rfl, rfl, total_lt (s := s) (i := i) (r := .collect n (got ++ [d])) (by exact rfl) (by exact rfl) (by exact rfl) ?_ hi⟩
    rw [hr]
    simp only [weight, List.length_append, List.length_singleton]
    rw [show n + (got.length + 1) = n + 1 + got.length by omega]
    omega
  | @filtered got hr =>
    rw [hr] at hok
    obtain ⟨h1, h2⟩ := hok
    refine ⟨rfl, rfl, rfl, total_lt (s := s) (i := i) (by exact rfl) (by exact rfl) (by exact rfl) ?_ hi⟩
    rw [hr]
    simp only [weight, Nat.zero_add] at *
    have e : got = s.hist.drop (s.hist.length - got.length) := by
      conv => lhs; rw [h2]
      rw [List.take_of_length_le (by simp; omega)]
    rw [← e]
    omega
  | rowsEnd hr =>
    refine ⟨rfl, rfl, rfl, total_lt (s := s) (i := i) (by exact rfl) (by exact rfl) (by exact rfl) ?_ hi⟩
    rw [hr]
    simp only [weight]
    omega
  | @roasEnd b sent hr hb hle =>
    refine ⟨rfl, rfl, rfl, total_lt (s := s) (i := i) (r := .keys 0 sent) (by exact rfl) (by exact rfl) (by exact rfl) ?_ hi⟩
    rw [hr]
    simp only [weight]
    omega
  | @keysEnd b m sent hr hb hle =>
    refine ⟨rfl, rfl, rfl, total_lt (s := s) (i := i) (r := .leaving (some sent)) (by exact rfl) (by exact rfl) (by exact rfl) ?_ hi⟩
    rw [hr]
    simp only [weight]
    omega
  | unlock hr =>
    refine ⟨rfl, rfl, rfl, total_lt (s := s) (i := i) (by exact rfl) (by exact rfl) (by exact rfl) ?_ hi⟩
    rw [hr]
    simp only [weight]
    omega

theorem sstep_less {s s' : St α} {i : Nat} (h : SStep c i s s') {n : Nat} (hi : i < n) :
    s'.base = s.base ∧ s'.hist = s.hist ∧ s'.writer = s.writer ∧ total c s' n < total c s n := by
  cases h with
  | @roa b sent x hr hb hx =>
    have := (List.getElem?_eq_some_iff.1 hx).1
    refine ⟨rfl, rfl, rfl, total_lt (s := s) (i := i) (r := .roas (sent ++ [x])) (by exact rfl) (by exact rfl) (by exact rfl) ?_ hi⟩
    rw [hr]
    simp only [weight, hb, Option.elim_some, List.length_append, List.length_singleton]
    omega
  | @key b m sent x hr hb hx =>
    have := (List.getElem?_eq_some_iff.1 hx).1
    refine ⟨rfl, rfl, rfl, total_lt (s := s) (i := i) (r := .keys (m + 1) (sent ++ [x])) (by exact rfl) (by exact rfl) (by exact rfl) ?_ hi⟩
    rw [hr]
    simp only [weight, hb, Option.elim_some]
    omega
  | row hr =>
    refine ⟨rfl, rfl, rfl, total_lt (s := s) (i := i) (by exact rfl) (by exact rfl) (by exact rfl) ?_ hi⟩
    rw [hr]
    simp only [weight, List.length_cons]
    omega
  | roaFails hr =>
    refine ⟨rfl, rfl, rfl, total_lt (s := s) (i := i) (by exact rfl) (by exact rfl) (by exact rfl) ?_ hi⟩
    rw [hr]
    simp only [weight]
    omega
  | keyFails hr =>
    refine ⟨rfl, rfl, rfl, total_lt (s := s) (i := i) (by exact rfl) (by exact rfl) (by exact rfl) ?_ hi⟩
    rw [hr]
    simp only [weight]
    omega
  | rowFails hr =>
    refine ⟨rfl, rfl, rfl, total_lt (s := s) (i := i) (by exact rfl) (by exact rfl) (by exact rfl) ?_ hi⟩
    rw [hr]
    simp only [weight]
    omega

/-- A thread that has the lock has something to do. -/
theorem holder_steps {s : St α} (hinv : Inv c s) {i : Nat} (hi : (s.readers i).holds = true) : ∃ s', StepOn cap c s s' := by
  have hok := hinv.readers i
  cases hr : s.readers i with
  | idle => rw [hr] at hi; cases hi
  | waiting q => rw [hr] at hi; cases hi
  | roas sent => exact ⟨_, .send (.roaFails hr)⟩
  | keys n sent => exact ⟨_, .send (.keyFails hr)⟩
  | rows left sent => exact ⟨_, .send (.rowFails hr)⟩
  | leaving r => exact ⟨_, .reader (.unlock hr)⟩
  | collect n got =>
    cases n with
    | zero => exact ⟨_, .reader (.filtered hr)⟩
    | succ n =>
      rw [hr] at hok
      obtain ⟨h1, -⟩ := hok
      exact ⟨_, .reader (.visit hr (List.getElem?_eq_getElem (by omega)))⟩

theorem stepOn_step {s s' : St α} (h : StepOn cap c s s') : Step cap c s s' := by
  cases h with
  | writer h => exact .writer h
  | reader h => exact .reader h
  | send h => exact .send h

theorem rstep_thread {s s' : St α} {i n : Nat} (hn : Threads n s) (h : RStep c i s s') : i < n ∧ Threads n s' := by
  have hi : i < n := by
    by_contra hge
    have := hn i (by omega)
    cases h <;> simp_all
  refine ⟨hi, fun j hj => ?_⟩
  have := hn j hj
  have hne : j ≠ i := by omega
  cases h <;> simpa [St.set, hne, St.use] using this

theorem sstep_thread {s s' : St α} {i n : Nat} (hn : Threads n s) (h : SStep c i s s') : i < n ∧ Threads n s' := by
  have hi : i < n := by
    by_contra hge
    have := hn i (by omega)
    cases h <;> simp_all
  refine ⟨hi, fun j hj => ?_⟩
  have := hn j hj
  have hne : j ≠ i := by omega
  cases h <;> simpa [St.set, hne, St.use] using this

theorem locked_inevitable {s : St α} (hinv : Inv c s) {n : Nat} {d old : Option Nat} (hw : s.writer = .locked n d old) : Inevitable (StepOn cap c) (fun s => s.base = some n) s := by
  have hl : s.wlocked = true := by rw [hinv.inside, hw]; rfl
  have hno := hinv.excl hl
  refine .later ⟨_, .writer (.swap hw)⟩ fun s' h => ?_
  cases h with
  | writer h =>
    cases h with
    | swap hw' =>
      rw [hw] at hw'
      cases hw'
      exact .now rfl
    | _ => simp_all
  | @reader i h =>
    have := hno i
    cases h <;> simp_all [Reader.holds]
  | @send i h =>
    have := hno i
    cases h <;> simp_all [Reader.holds]

/-- **C194.** If every router takes (or refuses) what it is sent, and there are no new requests, an update that is ready lands, in whichever order the threads run. -/
theorem C194_lands_partial (hcap : 1 ≤ cap) {s : St α} (h : Reach cap c s) {threads : Nat} (ht : Threads threads s) {n : Nat} {d old : Option Nat} (hw : s.writer = .ready n d old) :
    Inevitable (StepOn cap c) (fun s => s.base = some n) s := by
  have hinv := reach_inv hcap h
  clear h
  generalize hm : total c s threads = m
  induction m using Nat.strongRecOn generalizing s with
  | _ m ih =>
    have hl : s.wlocked = false := by rw [hinv.inside, hw]; rfl
    refine .later ?_ fun s' hs => ?_
    · by_cases hno : ∀ i, (s.readers i).holds = false
      · exact ⟨_, .writer (.lock hw hl hno)⟩
      · simp only [not_forall, Bool.not_eq_false] at hno
        obtain ⟨i, hi⟩ := hno
        exact holder_steps hinv hi
    · have hinv' := step_inv hcap hinv (stepOn_step hs)
      cases hs with
      | writer hs =>
        cases hs with
        | lock hw' _ _ =>
          rw [hw] at hw'
          cases hw'
          exact locked_inevitable hinv' rfl
        | _ => simp_all
      | reader hs =>
        obtain ⟨hi, ht'⟩ := rstep_thread ht hs
        obtain ⟨-, -, h3, h4⟩ := rstep_less hinv hs hi
        exact ih _ (by omega) ht' (h3.trans hw) hinv' rfl
      | send hs =>
        obtain ⟨hi, ht'⟩ := sstep_thread ht hs
        obtain ⟨-, -, h3, h4⟩ := sstep_less hs hi
        exact ih _ (by omega) ht' (h3.trans hw) hinv' rfl

/-! ### Cases -/

/-- One VRP in each table. -/
def demo : Content Nat := ⟨fun n => [n], fun _ => [], fun l => l⟩

/-- After the first update. -/
def demo1 : St Nat := ⟨[.tab 0], false, 1, some 0, [], 1, .idle, false, fun _ => .idle⟩

theorem demo1_reach : Reach 1 demo demo1 := by
  refine .step (.step (.step (.step (.step (.step (.step (.step .init (.writer (.built rfl))) (.writer (.first rfl rfl))) (.writer (.lock rfl rfl fun _ => rfl))) (.writer (.swap rfl)))
    (.writer (.addNone rfl))) (.writer (.unlock rfl))) (.writer (.free rfl))) ?_
  exact .writer (.report (b := 0) rfl rfl rfl)

/-- The first router is being sent the table; a second table is ready, and a delta. -/
def demo2 : St Nat := ⟨[.dl 2, .tab 1, .tab 0], false, 3, some 0, [], 1, .ready 1 (some 2) (some 0), false, fun i => if i = 0 then .roas [] else .idle⟩

theorem demo2_reach : Reach 1 demo demo2 := by
  have h : Reach 1 demo { demo1 with readers := fun i => if i = 0 then .roas [] else .idle } := by
    refine .step (.step demo1_reach (.request (i := 0) (q := .base) rfl)) ?_
    have := Step.reader (cap := 1) (RStep.lockBase (c := demo) (i := 0) (s := demo1.set 0 (.waiting .base)) (b := 0) rfl rfl rfl)
    convert this using 1
    simp only [St.set, demo1, St.mk.injEq, true_and]
    funext i
    by_cases hi : i = 0 <;> simp [hi]
  exact .step (.step h (.writer (.built rfl))) (.writer (.differs (n := 1) (b := 0) rfl rfl))

/-- After the second update, with a history of one delta. -/
def demo3 : St Nat := ⟨[.dl 2, .tab 1], false, 3, some 1, [2], 2, .idle, false, fun _ => .idle⟩

theorem demo3_reach : Reach 1 demo demo3 := by
  refine .step (.step (.step (.step (.step (.step (.step (.step demo1_reach (.writer (.built rfl))) (.writer (.differs (n := 1) (b := 0) rfl rfl))) (.writer (.lock rfl rfl fun _ => rfl)))
    (.writer (.swap rfl))) (.writer (.add rfl))) (.writer (.unlock rfl))) (.writer (.free rfl))) ?_
  exact .writer (.report (b := 1) rfl rfl rfl)

/-- And a thread that has the last delta to send, and has the lock. -/
def demo4 : St Nat := demo3.set 0 (.waiting (.since 1))

theorem demo4_reach : Reach 1 demo demo4 := .step demo3_reach (.request rfl)

example : demo3.bad = false := C193_safe (by decide) demo3_reach
example : demo3.live.Perm [.tab 1, .dl 2] := C193_noLeak (by decide) demo3_reach rfl
/-- A thread that is done. -/
example : ∃ s, Reach 1 demo s ∧ s.readers 0 = .leaving (some [2]) := by
  have h1 : Reach 1 demo (demo4.set 0 (.collect 1 [])) := .step demo4_reach (.reader (.lockSince (b := 1) rfl rfl rfl (by decide)))
  have h2 : Reach 1 demo (((demo4.set 0 (.collect 1 [])).use (.dl 2)).set 0 (.collect 0 [2])) := .step h1 (.reader (.visit (got := []) rfl rfl))
  have h3 := Reach.step h2 (.reader (i := 0) (.filtered rfl))
  have h4 := Reach.step h3 (.send (i := 0) (.row (x := 2) (left := []) rfl))
  have h5 := Reach.step h4 (.reader (i := 0) (.rowsEnd (sent := [2]) rfl))
  exact ⟨_, h5, rfl⟩
example : ∃ s, Reach 1 demo s ∧ s.readers 0 = .leaving (some [0]) := by
  have h2 := Reach.step demo2_reach (.send (i := 0) (.roa (b := 0) (x := 0) rfl rfl rfl))
  have h3 := Reach.step h2 (.reader (i := 0) (.roasEnd (b := 0) rfl rfl (by decide)))
  have h4 := Reach.step h3 (.reader (i := 0) (.keysEnd (b := 0) (n := 0) (sent := [0]) rfl rfl (by decide)))
  exact ⟨_, h4, rfl⟩

/-- **C194 is false of the code.** An update is ready; one router has been sent the beginning of the table, and takes no more of it. Then the others never get the update, and there are no more updates. -/
theorem C194_refuted : ∃ s : St Nat, Reach 1 demo s ∧ s.writer = .ready 1 (some 2) (some 0) ∧
    ∀ s', Star (StepBut 1 demo 0) s s' → s'.base = some 0 ∧ s'.serial = 1 ∧ s'.writer = .ready 1 (some 2) (some 0) := by
  refine ⟨demo2, demo2_reach, rfl, fun s' hs => ?_⟩
  obtain ⟨h1, -, h3, h4⟩ := C194_stuck (by decide) demo2_reach (i := 0) ⟨0, rfl, by decide⟩ hs
  exact ⟨h1, h3, h4 _ _ _ rfl⟩

/-- Otherwise it lands. -/
example : Inevitable (StepOn 1 demo) (fun s => s.base = some 1) demo2 := by
  refine C194_lands_partial (by decide) demo2_reach (threads := 1) (fun i hi => ?_) rfl
  have : i ≠ 0 := by omega
  simp [demo2, this]

/-! #### Nor do updates land if routers keep asking -/

/-- Where two threads are, when they are served by turns. -/
def turns : Nat → Reader Nat × Reader Nat
  | 0 => (.roas [], .idle)
  | 1 => (.roas [], .waiting .base)
  | 2 => (.roas [], .roas [])
  | 3 => (.roas [0], .roas [])
  | 4 => (.keys 0 [0], .roas [])
  | 5 => (.leaving (some [0]), .roas [])
  | 6 => (.idle, .roas [])
  | 7 => (.waiting .base, .roas [])
  | 8 => (.roas [], .roas [])
  | 9 => (.roas [], .roas [0])
  | 10 => (.roas [], .keys 0 [0])
  | _ => (.roas [], .leaving (some [0]))

def two (p : Reader Nat × Reader Nat) : St Nat := { demo2 with readers := fun i => if i = 0 then p.1 else if i = 1 then p.2 else .idle }

theorem two_use (p : Reader Nat × Reader Nat) : (two p).use (.tab 0) = two p := rfl

theorem two_set0 (p : Reader Nat × Reader Nat) (r : Reader Nat) : (two p).set 0 r = two (r, p.2) := by
  simp only [two, St.set, St.mk.injEq, true_and]
  funext i
  by_cases h : i = 0 <;> simp [h]

theorem two_set1 (p : Reader Nat × Reader Nat) (r : Reader Nat) : (two p).set 1 r = two (p.1, r) := by
  simp only [two, St.set, St.mk.injEq, true_and]
  funext i
  by_cases h : i = 1 <;> simp [h]

theorem turn (k : Nat) (hk : k < 12) : Step 1 demo (two (turns k)) (two (turns ((k + 1) % 12))) := by
  match k, hk with
  | 0, _ => have h := Step.request (cap := 1) (c := demo) (s := two (turns 0)) (i := 1) (q := .base) rfl; rw [two_set1] at h; exact h
  | 1, _ => have h := Step.reader (cap := 1) (RStep.lockBase (c := demo) (s := two (turns 1)) (i := 1) (b := 0) rfl rfl rfl); rw [two_set1] at h; exact h
  | 2, _ => have h := Step.send (cap := 1) (SStep.roa (c := demo) (s := two (turns 2)) (i := 0) (b := 0) (sent := []) (x := 0) rfl rfl rfl); rw [two_use, two_set0] at h; exact h
  | 3, _ => have h := Step.reader (cap := 1) (RStep.roasEnd (c := demo) (s := two (turns 3)) (i := 0) (b := 0) (sent := [0]) rfl rfl (by decide)); rw [two_use, two_set0] at h; exact h
  | 4, _ => have h := Step.reader (cap := 1) (RStep.keysEnd (c := demo) (s := two (turns 4)) (i := 0) (b := 0) (n := 0) (sent := [0]) rfl rfl (by decide)); rw [two_use, two_set0] at h; exact h
  | 5, _ => have h := Step.reader (cap := 1) (RStep.unlock (c := demo) (s := two (turns 5)) (i := 0) (r := some [0]) rfl); rw [two_set0] at h; exact h
  | 6, _ => have h := Step.request (cap := 1) (c := demo) (s := two (turns 6)) (i := 0) (q := .base) rfl; rw [two_set0] at h; exact h
  | 7, _ => have h := Step.reader (cap := 1) (RStep.lockBase (c := demo) (s := two (turns 7)) (i := 0) (b := 0) rfl rfl rfl); rw [two_set0] at h; exact h
  | 8, _ => have h := Step.send (cap := 1) (SStep.roa (c := demo) (s := two (turns 8)) (i := 1) (b := 0) (sent := []) (x := 0) rfl rfl rfl); rw [two_use, two_set1] at h; exact h
  | 9, _ => have h := Step.reader (cap := 1) (RStep.roasEnd (c := demo) (s := two (turns 9)) (i := 1) (b := 0) (sent := [0]) rfl rfl (by decide)); rw [two_use, two_set1] at h; exact h
  | 10, _ => have h := Step.reader (cap := 1) (RStep.keysEnd (c := demo) (s := two (turns 10)) (i := 1) (b := 0) (n := 0) (sent := [0]) rfl rfl (by decide)); rw [two_use, two_set1] at h; exact h
  | 11, _ => have h := Step.reader (cap := 1) (RStep.unlock (c := demo) (s := two (turns 11)) (i := 1) (r := some [0]) rfl); rw [two_set1] at h; exact h

/-- Two routers that ask again and again, and take all they are sent, also keep an update from landing, for ever: there is always one that has the lock, and the lock is not denied to readers because
somebody waits to write. -/
theorem C194_starved : ∃ f : Nat → St Nat, Reach 1 demo (f 0) ∧ Run 1 demo f ∧ (∀ n, (f n).writer = .ready 1 (some 2) (some 0) ∧ (f n).base = some 0) ∧
    ∀ i < 2, ∀ n, ∃ m ≥ n, (f m).readers i = .leaving (some [0]) := by
  refine ⟨fun n => two (turns (n % 12)), ?_, fun n => ?_, fun n => ⟨rfl, rfl⟩, fun i hi n => ?_⟩
  · have : two (turns (0 % 12)) = demo2 := by
      simp only [two, demo2, turns, St.mk.injEq, true_and]
      funext i
      by_cases h : i = 0 <;> simp [h]
    show Reach 1 demo (two (turns (0 % 12)))
    rw [this]
    exact demo2_reach
  · have := turn (n % 12) (Nat.mod_lt _ (by decide))
    rwa [Nat.mod_add_mod] at this
  · match i, hi with
    | 0, _ => exact ⟨12 * n + 5, by omega, by show (two (turns ((12 * n + 5) % 12))).readers 0 = _; rw [Nat.mul_add_mod]; rfl⟩
    | 1, _ => exact ⟨12 * n + 11, by omega, by show (two (turns ((12 * n + 11) % 12))).readers 1 = _; rw [Nat.mul_add_mod]; rfl⟩

end Verif.Db
