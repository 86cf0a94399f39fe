import Verif.Fork.Model
/-
C202: Launching rsync doesn't affect the files that other threads write.
-/
namespace Verif.Fork
open Verif.Rtr (Byte)

/-! ### Specification -/

/-- Every file that was closed is what was written to it. -/
def Intact (s : St) : Prop := ∀ f, (s.streams f).used = true → (s.streams f).opened = false → (s.streams f).content = (s.streams f).written

/-- Whenever a child exits, without becoming rsync, no stream had anything in its buffer when the child was created. -/
def Calm : List Step → St → Prop
  | [], _ => True
  | a :: l, s => (∀ i, a = .exit i → ∀ c, s.children[i]? = some c → ∀ f, c f = []) ∧ Calm l (step s a)

/-- If a child exits: how many bytes of `f` it had in its buffers. -/
def copies (f : Id) (s : St) : Step → Nat
  | .exit i => match s.children[i]? with
    | some c => (c f).length
    | none => 0
  | _ => 0

/-- How many bytes of `f` the children that exit had in their buffers. -/
def copied (f : Id) : List Step → St → Nat
  | [], _ => 0
  | a :: l, s => copies f s a + copied f l (step s a)

/-! ### Lemmas -/

structure Inv (s : St) : Prop where
  all : ∀ f, (s.streams f).content ++ (s.streams f).buffer = (s.streams f).written
  closed : ∀ f, (s.streams f).opened = false → (s.streams f).buffer = []

theorem set_get (s : St) (f g : Id) (x : Stream) : (s.set f x).streams g = if g = f then x else s.streams g := rfl

theorem closed_step {s : St} (h : ∀ f, (s.streams f).opened = false → (s.streams f).buffer = []) (a : Step) :
    ∀ f, ((step s a).streams f).opened = false → ((step s a).streams f).buffer = [] := by
  intro g
  cases a with
  | fopen f =>
    simp only [step]
    by_cases hu : (s.streams f).used = true
    · rw [if_pos hu]; exact h g
    · rw [if_neg hu, set_get]
      by_cases e : g = f
      · rw [if_pos e]; intro _; rfl
      · rw [if_neg e]; exact h g
  | fwrite f d =>
    simp only [step]
    by_cases hu : (s.streams f).opened = true
    · simp only [hu, if_true]
      rw [set_get]
      by_cases e : g = f
      · rw [if_pos e]; intro hh; cases hh
      · rw [if_neg e]; exact h g
    · simp only [hu, if_false]; exact h g
  | flush f n =>
    simp only [step]
    by_cases hu : (s.streams f).opened = true
    · simp only [hu, if_true]
      rw [set_get]
      by_cases e : g = f
      · rw [if_pos e]; intro hh; cases hh
      · rw [if_neg e]; exact h g
    · simp only [hu, if_false]; exact h g
  | fclose f =>
    simp only [step]
    by_cases hu : (s.streams f).opened = true
    · simp only [hu, if_true]
      rw [set_get]
      by_cases e : g = f
      · rw [if_pos e]; intro _; rfl
      · rw [if_neg e]; exact h g
    · simp only [hu, if_false]; exact h g
  | fork => exact h g
  | exec i => exact h g
  | kill i => exact h g
  | exit i =>
    simp only [step]
    cases hc : s.children[i]? with
    | none => simp only [hc]; exact h g
    | some c => simp only [hc]; exact h g

theorem all_step {s : St} (h : Inv s) (a : Step) (hc : ∀ i, a = .exit i → ∀ c, s.children[i]? = some c → ∀ f, c f = []) :
    ∀ g, ((step s a).streams g).content ++ ((step s a).streams g).buffer = ((step s a).streams g).written := by
  intro g
  cases a with
  | fopen f =>
    simp only [step]
    by_cases hu : (s.streams f).used = true
    · rw [if_pos hu]; exact h.all g
    · rw [if_neg hu, set_get]
      by_cases e : g = f
      · rw [if_pos e]; rfl
      · rw [if_neg e]; exact h.all g
  | fwrite f d =>
    simp only [step]
    by_cases hu : (s.streams f).opened = true
    · simp only [hu, if_true]
      rw [set_get]
      by_cases e : g = f
      · rw [if_pos e]
        simp only
        rw [← List.append_assoc, h.all f]
      · rw [if_neg e]; exact h.all g
    · simp only [hu, if_false]; exact h.all g
  | flush f n =>
    simp only [step]
    by_cases hu : (s.streams f).opened = true
    · simp only [hu, if_true]
      rw [set_get]
      by_cases e : g = f
      · rw [if_pos e]
        simp only
        rw [List.append_assoc, List.take_append_drop, h.all f]
      · rw [if_neg e]; exact h.all g
    · simp only [hu, if_false]; exact h.all g
  | fclose f =>
    simp only [step]
    by_cases hu : (s.streams f).opened = true
    · simp only [hu, if_true]
      rw [set_get]
      by_cases e : g = f
      · rw [if_pos e]
        simp only
        rw [List.append_nil, h.all f]
      · rw [if_neg e]; exact h.all g
    · simp only [hu, if_false]; exact h.all g
  | fork => exact h.all g
  | exec i => exact h.all g
  | kill i => exact h.all g
  | exit i =>
    simp only [step]
    cases hx : s.children[i]? with
    | none => simp only [hx]; exact h.all g
    | some c =>
      simp only [hx]
      rw [hc i rfl c hx g, List.append_nil]
      exact h.all g

theorem run_inv : ∀ (l : List Step) (s : St), Inv s → Calm l s → Inv (run l s)
  | [], _, h, _ => h
  | a :: l, _, h, hc => run_inv l _ ⟨all_step h a hc.1, closed_step h.closed a⟩ hc.2

/-- What wasn't opened yet. -/
def Fresh (s : St) : Prop := ∀ f, (s.streams f).used = false → (s.streams f).opened = false ∧ (s.streams f).content = [] ∧ (s.streams f).buffer = [] ∧ (s.streams f).written = [] ∧
  ∀ c ∈ s.children, c f = []

theorem fresh_set {s : St} (h : Fresh s) (f : Id) (x : Stream) (hx : x.used = true) : Fresh (s.set f x) := by
  intro g
  rw [set_get]
  by_cases e : g = f
  · rw [if_pos e]; intro hg; rw [hx] at hg; cases hg
  · rw [if_neg e]; exact h g

theorem used_of_opened {s : St} (h : Fresh s) {f : Id} (ho : (s.streams f).opened = true) : (s.streams f).used = true := by
  cases hu : (s.streams f).used with
  | true => rfl
  | false => rw [(h f hu).1] at ho; cases ho

theorem fresh_erase {s : St} (h : Fresh s) (i : Nat) : Fresh { s with children := s.children.eraseIdx i } := by
  intro f hf
  obtain ⟨h1, h2, h3, h4, h5⟩ := h f hf
  exact ⟨h1, h2, h3, h4, fun c hc => h5 c (List.mem_of_mem_eraseIdx hc)⟩

theorem fresh_step {s : St} (h : Fresh s) (a : Step) : Fresh (step s a) := by
  cases a with
  | fopen f =>
    simp only [step]
    by_cases hu : (s.streams f).used = true
    · rw [if_pos hu]; exact h
    · rw [if_neg hu]; exact fresh_set h f _ rfl
  | fwrite f d =>
    simp only [step]
    by_cases hu : (s.streams f).opened = true
    · rw [if_pos hu]; exact fresh_set h f _ (used_of_opened h hu)
    · rw [if_neg hu]; exact h
  | flush f n =>
    simp only [step]
    by_cases hu : (s.streams f).opened = true
    · rw [if_pos hu]; exact fresh_set h f _ (used_of_opened h hu)
    · rw [if_neg hu]; exact h
  | fclose f =>
    simp only [step]
    by_cases hu : (s.streams f).opened = true
    · rw [if_pos hu]; exact fresh_set h f _ (used_of_opened h hu)
    · rw [if_neg hu]; exact h
  | fork =>
    intro f hf
    obtain ⟨h1, h2, h3, h4, h5⟩ := h f hf
    refine ⟨h1, h2, h3, h4, fun c hc => ?_⟩
    rcases List.mem_append.1 hc with hc | hc
    · exact h5 c hc
    · rw [List.mem_singleton.1 hc]; exact h3
  | exec i => exact fresh_erase h i
  | kill i => exact fresh_erase h i
  | exit i =>
    simp only [step]
    cases hx : s.children[i]? with
    | none => simp only [hx]; exact h
    | some c =>
      simp only [hx]
      intro f hf
      obtain ⟨h1, h2, h3, h4, h5⟩ := h f hf
      refine ⟨h1, ?_, h3, h4, fun c hc => h5 c (List.mem_of_mem_eraseIdx hc)⟩
      show (s.streams f).content ++ c f = []
      rw [h2, h5 c (List.mem_of_getElem? hx)]; rfl

theorem len_step {s : St} (hf : Fresh s) (a : Step) (g : Id) (k : Nat) (h : (s.streams g).content.length + (s.streams g).buffer.length = (s.streams g).written.length + k) :
    ((step s a).streams g).content.length + ((step s a).streams g).buffer.length = ((step s a).streams g).written.length + (k + copies g s a) := by
  cases a with
  | fopen f =>
    simp only [step, copies]
    by_cases hu : (s.streams f).used = true
    · rw [if_pos hu]; exact h
    · rw [if_neg hu, set_get]
      by_cases e : g = f
      · rw [if_pos e]
        obtain ⟨_, h2, h3, h4, _⟩ := hf f (by simpa using hu)
        rw [e, h2, h3, h4] at h
        exact h
      · rw [if_neg e]; exact h
  | fwrite f d =>
    simp only [step, copies]
    by_cases hu : (s.streams f).opened = true
    · rw [if_pos hu, set_get]
      by_cases e : g = f
      · rw [if_pos e]
        rw [e] at h
        simp only [List.length_append]
        omega
      · rw [if_neg e]; exact h
    · rw [if_neg hu]; exact h
  | flush f n =>
    simp only [step, copies]
    by_cases hu : (s.streams f).opened = true
    · rw [if_pos hu, set_get]
      by_cases e : g = f
      · rw [if_pos e]
        rw [e] at h
        have := congrArg List.length (List.take_append_drop n (s.streams f).buffer)
        rw [List.length_append] at this
        simp only [List.length_append]
        omega
      · rw [if_neg e]; exact h
    · rw [if_neg hu]; exact h
  | fclose f =>
    simp only [step, copies]
    by_cases hu : (s.streams f).opened = true
    · rw [if_pos hu, set_get]
      by_cases e : g = f
      · rw [if_pos e]
        rw [e] at h
        simp only [List.length_append, List.length_nil]
        omega
      · rw [if_neg e]; exact h
    · rw [if_neg hu]; exact h
  | fork => exact h
  | exec i => exact h
  | kill i => exact h
  | exit i =>
    simp only [step, copies]
    cases hx : s.children[i]? with
    | none => simp only [hx]; exact h
    | some c =>
      simp only [hx, List.length_append]
      omega

theorem run_len (g : Id) : ∀ (l : List Step) (s : St) (k : Nat), Fresh s → (∀ f, (s.streams f).opened = false → (s.streams f).buffer = []) →
    (s.streams g).content.length + (s.streams g).buffer.length = (s.streams g).written.length + k →
    ((run l s).streams g).content.length + ((run l s).streams g).buffer.length = ((run l s).streams g).written.length + (k + copied g l s) ∧
    (∀ f, ((run l s).streams f).opened = false → ((run l s).streams f).buffer = [])
  | [], _, _, _, hc, h => ⟨h, hc⟩
  | a :: l, s, k, hf, hc, h => by
    have h2 := run_len g l (step s a) (k + copies g s a) (fresh_step hf a) (closed_step hc a) (len_step hf a g k h)
    refine ⟨?_, h2.2⟩
    have h3 := h2.1
    rw [Nat.add_assoc] at h3
    exact h3

/-! ### C202 -/

/-- **C202 (partial).** Whatever the threads write, however the library flushes it, and whenever rsync is launched: if no child exits that had something in its buffers when it
was created — as when `execvp` always succeeds, or nothing else is being written — then every file is what was written to it. -/
theorem C202_partial (l : List Step) (h : Calm l St.init) : Intact (run l St.init) := by
  have hi := run_inv l St.init ⟨fun _ => rfl, fun _ _ => rfl⟩ h
  intro f _ ho
  have := hi.all f
  rw [hi.closed f ho, List.append_nil] at this
  exact this

theorem calm_of_noExit : ∀ (l : List Step) (s : St), (∀ i, Step.exit i ∉ l) → Calm l s
  | [], _, _ => trivial
  | a :: l, s, h => ⟨fun i e => absurd (by rw [e]; exact List.mem_cons_self) (h i), calm_of_noExit l _ fun i hi => h i (List.mem_cons_of_mem _ hi)⟩

/-- **C202.** If rsync can be executed then launching it, any number of times, at any time, affects no file. -/
theorem C202_executable (l : List Step) (h : ∀ i, Step.exit i ∉ l) : Intact (run l St.init) := C202_partial l (calm_of_noExit l _ h)

/-- **C202 (refuted, in general).** For every schedule: a file that's closed is longer than what was written to it by exactly the bytes that were in its buffer each time that rsync was launched
without success. -/
theorem C202_damage (l : List Step) (f : Id) (ho : ((run l St.init).streams f).opened = false) :
    ((run l St.init).streams f).content.length = ((run l St.init).streams f).written.length + copied f l St.init := by
  have h := run_len f l St.init 0 (fun _ _ => ⟨rfl, rfl, rfl, rfl, fun _ h => by cases h⟩) (fun _ _ => rfl) rfl
  have h2 := h.1
  rw [h.2 f ho] at h2
  simpa using h2

/-- Two bytes of a file are written, and rsync is launched by another thread; `execvp` fails. -/
def damage : List Step := [.fopen 0, .fwrite 0 [65#8, 66#8], .fork, .exit 0, .fwrite 0 [67#8], .fclose 0]

/-- **C202 (refuted).** The file has them twice. -/
theorem C202_refuted : ((run damage St.init).streams 0).opened = false ∧ ((run damage St.init).streams 0).used = true ∧
    ((run damage St.init).streams 0).written = [65#8, 66#8, 67#8] ∧ ((run damage St.init).streams 0).content = [65#8, 66#8, 65#8, 66#8, 67#8] := by decide

/-- C202_partial's hypothesis is met by a run in which rsync can't be executed, while a file is open whose buffer is empty. -/
example : Calm [.fopen 0, .fwrite 0 [65#8, 66#8], .flush 0 2, .fork, .exit 0, .fwrite 0 [67#8], .fclose 0] St.init := by
  refine ⟨(fun i e => by cases e), (fun i e => by cases e), (fun i e => by cases e), (fun i e => by cases e), ?_, (fun i e => by cases e), (fun i e => by cases e), trivial⟩
  intro i e c hc f
  cases e
  have : c = fun f => ((run [.fopen 0, .fwrite 0 [65#8, 66#8], .flush 0 2] St.init).streams f).buffer := (Option.some.inj hc).symm
  rw [this]
  by_cases hf : f = 0
  · subst hf; rfl
  · show ((run [.fopen 0, .fwrite 0 [65#8, 66#8], .flush 0 2] St.init).streams f).buffer = []
    simp [run, step, St.set, St.init, hf]

/-- C202_damage's is met by `damage`, in which two bytes are copied. -/
example : ((run damage St.init).streams 0).opened = false ∧ copied 0 damage St.init = 2 := by decide

end Verif.Fork
