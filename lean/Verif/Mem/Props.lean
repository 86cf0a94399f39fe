import Verif.Mem.LemmasTal
/-
C195, C196: memory of the validation of a TAL.
-/
namespace Verif.Mem

/-- Everything has been released: there are no references to anything; and the structures are empty. -/
structure AllReleased (s : St) : Prop where
  objects : ∀ i, s.refs i = 0
  rpps : ∀ r ∈ s.rpps, r.refs = 0
  defers : s.defers = []
  metas : s.metas = []
  x509s : s.x509s = []
  nodes : s.nodes = []
  names : s.names = []
  state : s.state = none

/-- The TAL can be opened: the first choice. -/
def Opens (orc : Nat → Nat) : Prop := orc 0 = 0

/-- **C195.** Whatever files, servers, libraries and clocks do (the oracle), the thread that validates a TAL doesn't use something that it has released (nor prints its name), doesn't release anything
twice, doesn't use a NULL pointer or one that wasn't initialised, and does not abort; be it until the end or, if there are always more certificates, until any number of them has been handled. This is
unless the TAL can't be opened and debug messages are logged. -/
theorem C195_memory_is_not_misused_partial (debug : Bool) (orc : Nat → Nat) (n : Nat) (ho : debug = true → Opens orc) : (doFileValidation debug n (St.init orc)).2.bad = false := by
  have h := t_doFileValidation debug n (St.init orc) ⟨⟨own_init orc, rfl⟩, ho⟩
  cases hr : (doFileValidation debug n (St.init orc)).1 with
  | none => rw [hr] at h; exact h
  | some x => rw [hr] at h; exact h.1.good

/-- **C195, refuted.** In that case, its last message reads a pointer that was never initialised. -/
theorem C195_refuted : ∃ orc, ∀ n, (doFileValidation true n (St.init orc)).2.bad = true := by
  refine ⟨fun _ => 1, fun n => ?_⟩
  have e : (doFileValidation true n (St.init fun _ => 1)).2 = (talEnd true none 0 { (pushName 0 (new (St.init fun _ => 1)).2).2 with pos := 1 }).2 := by
    unfold doFileValidation; rfl
  rw [e]; decide +kernel

theorem released_of_own {s : St} (h1 : Own Fr.nil s) (h2 : s.nodes = []) : AllReleased s := by
  have h3 := own_nil h1 h2
  have hd : s.defers = [] := h1.defers
  obtain ⟨h4, h5⟩ := h1.shape trivial
  rw [hd] at h5
  have hm := List.length_eq_zero_iff.1 h5.symm
  refine ⟨fun i => ?_, fun r hr => ?_, hd, hm, List.length_eq_zero_iff.1 (by rw [← h4, hm]; rfl), h2, h1.names, h1.nostate fun h => h⟩
  · rw [h1.bal i, h3]; rfl
  · obtain ⟨p, hp⟩ := List.getElem?_of_mem hr
    have h6 := h1.rbal p
    rw [hd] at h6
    have h7 : s.rrefs p = r.refs := by simp [St.rrefs, hp]
    rw [← h7, h6]; rfl

/-- **C196.** And when it ends, it has released everything that it allocated. -/
theorem C196_everything_is_released (debug : Bool) (orc : Nat → Nat) (n : Nat) (h : (doFileValidation debug n (St.init orc)).1 = some ()) :
    AllReleased (doFileValidation debug n (St.init orc)).2 := by
  by_cases ho : debug = true → Opens orc
  · have h1 := t_doFileValidation debug n (St.init orc) ⟨⟨own_init orc, rfl⟩, ho⟩
    rw [h] at h1
    exact released_of_own h1.1 h1.2
  · have hd : debug = true := by
      by_cases hd : debug = true
      · exact hd
      · exact absurd (fun h => absurd h hd) ho
    have ho' : orc 0 ≠ 0 := fun e => ho fun _ => e
    subst hd
    have key : ∀ b, decide (orc 0 ≠ 0) = b → b = true → AllReleased (doFileValidation true n (St.init orc)).2 := by
      intro b hb hbt
      subst hbt
      have e1 : (fails (pushName 0 (new (St.init orc)).2).2).1 = true := by
        show ((if decide (orc 0 ≠ 0) = true then (do log; return true : M Bool) else (return false)) _).1 = true
        rw [hb]; rfl
      have e2 : (fails (pushName 0 (new (St.init orc)).2).2).2 = { (pushName 0 (new (St.init orc)).2).2 with pos := 1 } := by
        show ((if decide (orc 0 ≠ 0) = true then (do log; return true : M Bool) else (return false)) _).2 = _
        rw [hb]; rfl
      have e3 : (doFileValidation true n (St.init orc)).2 = (talEnd true none 0 { (pushName 0 (new (St.init orc)).2).2 with pos := 1 }).2 := by
        have e5 : ∀ k : M (Option Unit), ((if (fails (pushName 0 (new (St.init orc)).2).2).1 = true then talEnd true none 0 else k) (fails (pushName 0 (new (St.init orc)).2).2).2).2
            = (talEnd true none 0 { (pushName 0 (new (St.init orc)).2).2 with pos := 1 }).2 := by
          intro k
          rw [e1, e2]; rfl
        exact e5 _
      rw [e3]
      have e4 : ∀ c : Bool, AllReleased ((if (true && c) = true then (do useOpt none; put 0; return some () : M (Option Unit)) else (do put 0; return some ()))
          { (pushName 0 (new (St.init orc)).2).2 with pos := 2, names := [] }).2 := by
        intro c
        cases c
        all_goals refine ⟨fun i => ?_, (fun r hr => by cases hr), rfl, rfl, rfl, rfl, rfl, rfl⟩
        all_goals show (if i = 0 then 1 - 1 else if i = 0 then 1 else 0) = 0
        all_goals by_cases hi : i = 0 <;> simp [hi]
      exact e4 (decide (orc 1 ≠ 0))
    exact key _ rfl (by simpa using ho')

/-! ### Non-vacuity -/

/-- The choices, in order; then zeroes. -/
def choices (l : List Nat) : Nat → Nat := fun i => l.getD i 0

/-- A TAL whose tree has, in an RRDP repository, a manifest with a certificate, a ROA, a ghostbusters record and a CRL. -/
def eeOk : List Nat := [0, 0, 0, 0, 0, 0, 0, 3, 2, 0, 3, 1, 2, 4, 1, 2, 0, 0, 0, 0, 0, 0]

def story : List Nat :=
  [0, 1, 0, 0, 0, 1, 0, 0] ++                       -- a URI, the key, and a node that is loaded
  [0, 0, 1, 5, 0] ++                                -- its certificate is downloaded
  [0, 0] ++                                         -- handle_tal_uri
  [0, 0, 0, 0, 0, 0] ++                             -- the certificate
  [1, 4, 1, 2, 1, 2, 1, 2, 0] ++                    -- with a SIA that has three URIs
  [0, 1, 1, 1, 9, 0, 0, 2, 2, 0, 0, 1, 0, 0, 0] ++  -- RRDP: a notification with a snapshot and a delta
  [1, 0, 1, 9, 0, 1, 0, 0] ++                       -- the delta, with an element
  [0, 0, 1] ++                                      -- x509stack_push
  [0, 0, 4, 0, 2, 0, 3, 0, 4, 0, 6] ++              -- the manifest, and four files
  [0, 0] ++ eeOk ++                                 -- its CRL and its certificate
  [0] ++ eeOk ++ [0] ++ eeOk                        -- the ROA and the ghostbusters record

/-- Half way (the tree's root has been handled, but not the certificates in it) there's a publication point with one of each; several references to the TAL's URI; and a deferred certificate. -/
def half := doFileValidation true 0 (St.init (choices story))

example : half.1 = none ∧ half.2.bad = false ∧ half.2.defers = [some (16, 0), none] := by decide +kernel
example : half.2.rpps.map (fun p => (p.refs, p.certs, p.roas, p.gbrs)) = [(1, [16], [17], [18])] ∧ half.2.rpps.map (fun p => (p.crl, p.stack)) = [(some 19, some (20, 21))] := by decide +kernel
example : (List.range 20).map half.2.refs = [1, 3, 1, 1, 1, 1, 0, 1, 0, 0, 0, 1, 0, 1, 0, 0, 2, 1, 1, 1] ∧ half.2.nodes = [11, 7, 1, 3] ∧ half.2.next = 42 := by decide +kernel

/-- And then it ends. -/
def whole := doFileValidation true 3 (St.init (choices story))

example : whole.1 = some () ∧ whole.2.bad = false ∧ whole.2.next = 45 ∧ (List.range 45).map whole.2.refs = List.replicate 45 0 := by decide +kernel

/-- So this is an instance of the theorems. -/
example : (doFileValidation true 3 (St.init (choices story))).2.bad = false := C195_memory_is_not_misused_partial true (choices story) 3 fun _ => rfl
example : AllReleased (doFileValidation true 3 (St.init (choices story))).2 := C196_everything_is_released _ _ _ (by decide +kernel)

/-- Misuses are noticed: something is released twice; it's used after its release; a message is printed when the name in the stack has been released; the thread's state is used after
`handle_tal_uri`; or something that does not exist is. -/
example : ((do let i ← new; put i; put i) (St.init fun _ => 0)).2.bad = true := by decide +kernel
example : ((do let i ← new; put i; use i) (St.init fun _ => 0)).2.bad = true := by decide +kernel
example : ((do let i ← new; pushName i; put i; log) (St.init fun _ => 0)).2.bad = true := by decide +kernel
example : ((do let i ← new; let _ ← handleTalUri 0 i; useTls) (St.init (choices [0, 1]))).2.bad = true := by decide +kernel
example : (useTls (St.init fun _ => 0)).2.bad = true := by decide +kernel

end Verif.Mem
