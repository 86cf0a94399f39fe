import Verif.Cmem.Spec
import Verif.Cmem.Lemmas
/-
C209: The configuration doesn't misuse memory, and returns what it takes.
-/
namespace Verif.Cmem
open Verif.Heap

/-! ### What's lost -/

abbrev LoN {α : Type} (m : HM α) (n : Nat) : Prop := Lo m (fun _ => n)

theorem LoN.bind {α β : Type} {m : HM α} {k : α → HM β} {a b : Nat} (h : LoN m a) (hk : ∀ x, LoN (k x) b) : LoN (m >>= k) (a + b) :=
  Lo.bind h fun x s => by
    have h1 : ((k x) s).2.lost.length ≤ s.lost.length + b := hk x s
    show ((k x) s).2.lost.length + a ≤ s.lost.length + (a + b)
    omega

theorem LoN.mono {α : Type} {m : HM α} {a b : Nat} (h : LoN m a) (hab : a ≤ b) : LoN m b := Lo.mono h fun _ => hab

theorem lo_freeP (p : Ptr) : Lo0 (freeP p) := by
  cases p with
  | none => exact Lo.pure
  | some i => exact lo_free

theorem lo_loseP (p : Ptr) : LoN (loseP p) 1 := by
  cases p with
  | none => exact Lo.pure
  | some i => exact lo_lose

theorem lo_dups : ∀ n, Lo0 (dups n)
  | 0 => Lo.pure
  | n + 1 => Lo.bind0 lo_new fun _ => Lo.bind0 (lo_dups n) fun _ => Lo.pure

theorem lo_freeVal (v : Val) : Lo0 (freeVal v) := by
  cases v with
  | str p => exact Lo.bind0 (lo_freeP p) fun _ => Lo.pure
  | arr p l => exact Lo.bind0 (lo_freeAll l) fun _ => Lo.bind0 (lo_freeP p) fun _ => Lo.pure

theorem lo_strArgv (v : Val) (e : Bool) : Lo0 (strArgv v e) :=
  Lo.ite Lo.pure (Lo.bind0 (lo_freeVal v) fun _ => Lo.bind0 lo_new fun _ => Lo.pure)

theorem lo_arrArgv (o : Opt) (v : Val) (n : Nat) : Lo0 (arrArgv o v n) :=
  Lo.bind0 (lo_freeVal v) fun _ => Lo.ite Lo.pure (Lo.bind0 lo_new fun _ => Lo.bind0 (lo_dups n) fun _ => Lo.pure)

theorem lo_arrJson (o : Opt) (v : Val) (j : Json) : Lo0 (arrJson o v j) := by
  cases j with
  | array n b =>
    exact Lo.ite (Lo.bind0 (lo_freeVal v) fun _ => Lo.pure) (Lo.ite Lo.pure (Lo.ite
      (Lo.bind0 (lo_freeVal v) fun _ => Lo.bind0 lo_new fun _ => Lo.bind0 (lo_dups n) fun _ => Lo.pure) Lo.pure))
  | _ => exact Lo.pure

/-- 1 if it's null. -/
def isNull : Json → Nat
  | .null => 1
  | _ => 0

theorem lo_strJson (o : Opt) (v : Val) (j : Json) : LoN (strJson o v j) (isNull j) := by
  cases j with
  | null =>
    refine Lo.ite ?_ Lo.pure
    cases v with
    | str p => exact LoN.bind (lo_loseP p) fun _ => (Lo.pure : LoN _ 0)
    | arr p l => exact LoN.mono (LoN.bind (a := 0) (b := 0) Lo.pure fun _ => Lo.pure) (Nat.zero_le _)
  | string e => exact lo_strArgv v e
  | _ => exact Lo.pure

theorem lo_parseJson (o : Opt) (v : Val) (j : Json) : LoN (parseJson o v j) (isNull j) := by
  cases v with
  | str p => exact lo_strJson _ _ _
  | arr p l => exact (lo_arrJson _ _ _).mono (fun _ => Nat.zero_le _)

theorem lo_parseArgv (o : Opt) (v : Val) (t : Text) : Lo0 (parseArgv o v t) := by
  cases v with
  | str p => exact lo_strArgv _ _
  | arr p l => exact lo_arrArgv _ _ _

theorem lo_update (os : List Opt) (c : Cfg) (i : Nat) (k : Opt → Val → HM (Bool × Val)) (n : Nat) (hk : ∀ o v, LoN (k o v) n) : LoN (update os c i k) n := by
  unfold update
  cases os[i]? with
  | none => exact Lo.pure
  | some o =>
    cases c[i]? with
    | none => exact Lo.pure
    | some v => exact LoN.bind (b := 0) (hk o v) fun _ => Lo.pure

theorem lo_name {β : Type} {k : HM β} {n : Nat} (h : LoN k n) : LoN (do let n ← new; use n; free n; k : HM β) n :=
  Lo.bind0 lo_new fun _ => Lo.bind0 lo_use fun _ => Lo.bind0 lo_free fun _ => h

theorem nullsOf_cons (i : Nat) (j : Json) (b : Bool) (l) : nullsOf ((some (i, j), b) :: l) = isNull j + nullsOf l := by
  cases j <;> simp [nullsOf, isNull, Nat.add_comm]

theorem lo_jsonToConfig (os : List Opt) : ∀ (l : List (Option (Nat × Json) × Bool)) (c : Cfg), LoN (jsonToConfig os c l) (nullsOf l)
  | [], _ => Lo.pure
  | (some (i, j), b) :: l, c => by
    rw [nullsOf_cons]
    exact lo_name (LoN.bind (lo_update os c i _ _ fun o v => lo_parseJson o v j) fun r => Lo.ite (lo_jsonToConfig os l r.2) Lo.pure)
  | (none, b) :: l, c => lo_name (Lo.ite (lo_jsonToConfig os l c) Lo.pure)

theorem lo_setFromFile (os : List Opt) (c : Cfg) (l) : LoN (setFromFile os c (some l)) (nullsOf l) :=
  Lo.bind0 lo_new fun _ => LoN.bind (b := 0) (lo_jsonToConfig os l c) fun _ => Lo.bind0 lo_free fun _ => Lo.pure

theorem lo_handleArgs (os : List Opt) : ∀ (l : List Arg) (c : Cfg), LoN (handleArgs os c l) (nulls l)
  | [], _ => Lo.pure
  | .opt i t :: l, c => Lo.bind0 (lo_update os c i _ 0 fun o v => lo_parseArgv o v t) fun r => Lo.ite (lo_handleArgs os l r.2) Lo.pure
  | .other ok :: l, c => Lo.ite (lo_handleArgs os l c) Lo.pure
  | .file none :: l, c => Lo.bind0 (Lo.pure : Lo0 (setFromFile os c none)) fun r => Lo.ite (lo_handleArgs os l r.2) Lo.pure
  | .file (some f) :: l, c => LoN.bind (lo_setFromFile os c f) fun r => Lo.ite (lo_handleArgs os l r.2) Lo.pure

theorem lo_setDefaults : ∀ os, Lo0 (setDefaults os)
  | [] => Lo.pure
  | o :: os => Lo.bind0 (by
      cases o.dflt with
      | null => exact Lo.pure
      | string => exact Lo.bind0 lo_new fun _ => Lo.pure
      | strings n => exact Lo.ite Lo.pure (Lo.bind0 lo_new fun _ => Lo.bind0 (lo_dups n) fun _ => Lo.pure)) fun _ => Lo.bind0 (lo_setDefaults os) fun _ => Lo.pure

theorem lo_freeConfig (p : Ptr) : ∀ c, Lo0 (freeConfig c p)
  | [] => lo_freeP p
  | v :: c => Lo.bind0 (lo_freeVal v) fun _ => lo_freeConfig p c

theorem lo_handleFlags (os : List Opt) (args : List Arg) (hasPayload valid : Bool) : LoN (handleFlags os args hasPayload valid) (nulls args) := by
  unfold handleFlags
  refine Lo.bind0 (lo_setDefaults os) fun c0 => Lo.bind0 lo_new fun _ => Lo.bind0 lo_new fun _ => Lo.bind0 (lo_useAll _) fun _ => ?_
  refine LoN.bind (a := nulls args) (b := 0) (lo_handleArgs os args c0) fun r => Lo.ite ?_ ?_
  · exact Lo.bind0 (lo_freeConfig _ _) fun _ => Lo.bind0 (lo_freeAll _) fun _ => Lo.pure
  · refine Lo.bind0 (Lo.ite (Lo.bind0 lo_new fun _ => Lo.pure) Lo.pure) fun p => Lo.bind0 (lo_useAll _) fun _ => Lo.ite ?_ ?_
    · exact Lo.bind0 (Lo.bind0 (lo_useAll _) fun _ => lo_useAll _) fun _ => Lo.bind0 (lo_freeAll _) fun _ => Lo.pure
    · exact Lo.bind0 (lo_freeConfig _ _) fun _ => Lo.bind0 (lo_freeAll _) fun _ => Lo.pure

theorem lo_program (os : List Opt) (args : List Arg) (hasPayload valid : Bool) (times : Nat) : LoN (program os args hasPayload valid times) (nulls args) := by
  unfold program
  refine LoN.bind (a := nulls args) (b := 0) (lo_handleFlags os args hasPayload valid) fun r => ?_
  cases r with
  | none => exact Lo.pure
  | some c => exact Lo.bind0 (lo_useAll _) fun _ => lo_freeConfig _ _

/-! ### C209 -/

/-- Nothing that isn't allocated is used or released; what's still allocated at the end is what was lost. -/
theorem C209_safe (os : List Opt) (args : List Arg) (hasPayload valid : Bool) (times : Nat) :
    (finally_ os args hasPayload valid times).bad = false ∧ ∀ i, (finally_ os args hasPayload valid times).refs i = (finally_ os args hasPayload valid times).lost.count i := by
  have h := t_program os args hasPayload valid times _ (own_init fun _ => 0)
  exact ⟨h.good, fun i => by
    have := h.bal i
    rw [List.count_nil, Nat.zero_add] at this
    exact this⟩

/-- At most one string is lost for each null in a file. -/
theorem C209_bound (os : List Opt) (args : List Arg) (hasPayload valid : Bool) (times : Nat) :
    (finally_ os args hasPayload valid times).lost.length ≤ nulls args := by
  have := lo_program os args hasPayload valid times (H.init fun _ => 0)
  exact Nat.le_trans this (by simp [H.init])

/-- Everything is released if no file says null. -/
theorem C209_partial (os : List Opt) (args : List Arg) (hasPayload valid : Bool) (times : Nat) (hn : nulls args = 0) :
    ∀ i, (finally_ os args hasPayload valid times).refs i = 0 := by
  intro i
  have h := C209_bound os args hasPayload valid times
  rw [hn] at h
  have : (finally_ os args hasPayload valid times).lost = [] := List.length_eq_zero_iff.1 (Nat.le_zero.1 h)
  rw [(C209_safe os args hasPayload valid times).2 i, this]
  rfl

/-- The command line has a TAL and two addresses; a file has an incidence, rsync.program, rsync.arguments-recursive and log.tag. -/
def someArgs : List Arg :=
  [.opt 0 ⟨false, 1⟩, .opt 3 ⟨false, 2⟩, .other true,
   .file (some [(some (6, .string false), true), (some (7, .array 3 true), true), (some (11, .string false), true), (none, true)])]

/-- Nothing is null, and all is accepted. -/
example : nulls someArgs = 0 ∧ (handleFlags options someArgs true true (H.init fun _ => 0)).1.isSome = true ∧ (finally_ options someArgs true true 2).next = 44 := by
  decide +kernel

/-- **C209 is false as such.** If a file says that the validation log has no tag, the default tag is never released. -/
theorem C209_refuted : ∃ args, (handleFlags options args false true (H.init fun _ => 0)).1.isSome = true ∧ ∃ i, (finally_ options args false true 1).refs i ≠ 0 :=
  ⟨[.opt 0 ⟨false, 1⟩, .file (some [(some (12, .null), true)])], by decide +kernel, 25, by decide +kernel⟩

end Verif.Cmem
