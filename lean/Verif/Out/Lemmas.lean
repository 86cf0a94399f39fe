import Verif.Out.Spec
import Verif.B64.Props
import Verif.Cert.Lemmas
import Verif.Rtr.TableLemmas
/-
Helper lemmas.
-/
namespace Verif.Out
open Verif.Rtr (Fam Vrp RouterKey Table Byte State)
open Verif.Tal (Res Str)

/-! ### stdio -/

theorem exec_append {f : Prop} {w w'' : World} {cs : List Call} (h : Exec f w cs w'') : ∀ a b, cs = a ++ b → ∃ m, Exec f w a m ∧ Exec f m b w'' := by
  induction h with
  | refl =>
    intro a b e
    obtain ⟨rfl, rfl⟩ := List.append_eq_nil_iff.1 e.symm
    exact ⟨_, .refl, .refl⟩
  | @call w c w' cs w'' hs hx ih =>
    intro a b e
    cases a with
    | nil => rw [List.nil_append] at e; subst e; exact ⟨w, .refl, .call hs hx⟩
    | cons x a =>
      rw [List.cons_append] at e
      injection e with e1 e2
      subst e1
      obtain ⟨m, h1, h2⟩ := ih a b e2
      exact ⟨m, .call hs h1, h2⟩
  | @flush w n p q cs w'' hst hx ih =>
    intro a b e
    obtain ⟨m, h1, h2⟩ := ih a b e
    exact ⟨m, .flush hst h1, h2⟩

theorem appendFile_nil (d : Text → Option Text) (n : Text) : appendFile d n [] = d := by
  funext m
  unfold appendFile
  split
  · cases d m with
    | none => rfl
    | some t => simp
  · rfl

theorem appendFile_append (d : Text → Option Text) (n a b : Text) : appendFile (appendFile d n a) n b = appendFile d n (a ++ b) := by
  funext m
  unfold appendFile
  split
  · cases d m with
    | none => rfl
    | some t => simp
  · rfl

/-- The calls that print texts. -/
def prints (out : Dst) (ts : List Text) : List Call := ts.map (.fprintf out)

theorem exec_nil {w w' : World} {cs : List Call} (h : Exec False w cs w') : cs = [] → w.stream = none → w' = w := by
  induction h with
  | refl => intros; rfl
  | call _ _ _ => intro h; cases h
  | flush hs _ _ => intro _ h; rw [h] at hs; cases hs

theorem exec_prints_out {w w' : World} {cs : List Call} (h : Exec False w cs w') : ∀ ts, cs = prints .stdout ts → w.stream = none →
    w' = { w with stdout := w.stdout ++ ts.flatten } := by
  induction h with
  | refl =>
    intro ts e hs
    cases ts with
    | nil => simp
    | cons t ts => cases e
  | @call w c w' cs w'' hs hx ih =>
    intro ts e hn
    cases ts with
    | nil => cases e
    | cons t ts =>
      injection e with e1 e2
      subst e1
      cases hs with
      | stdout => 
        rw [ih ts e2 hn]
        simp [List.append_assoc]
  | flush hs _ _ => intro _ _ h; rw [h] at hs; cases hs

theorem exec_prints_file {w w' : World} {cs : List Call} (h : Exec False w cs w') : ∀ n p ts, cs = prints (.file n) ts → w.stream = some (n, p) →
    ∃ p1 p2, w' = { disk := appendFile w.disk n p1, stdout := w.stdout, stream := some (n, p2) } ∧ p1 ++ p2 = p ++ ts.flatten := by
  induction h with
  | @refl w =>
    intro n p ts e hs
    cases ts with
    | nil => exact ⟨[], p, by rw [appendFile_nil, ← hs], by simp⟩
    | cons t ts => cases e
  | @call w c w' cs w'' hs hx ih =>
    intro n p ts e hst
    cases ts with
    | nil => cases e
    | cons t ts =>
      injection e with e1 e2
      subst e1
      cases hs with
      | write h =>
        rw [hst] at h
        injection h with h
        injection h with _ h
        subst h
        obtain ⟨p1, p2, h1, h2⟩ := ih n (p ++ t) ts e2 rfl
        exact ⟨p1, p2, h1, by rw [h2]; simp⟩
      | lost _ h => exact h.elim
  | @flush w n' p' q cs w'' hs hx ih =>
    intro n p ts e hst
    rw [hst] at hs
    injection hs with hs
    injection hs with h1 h2
    subst h1
    obtain ⟨p1, p2, k1, k2⟩ := ih n q ts e rfl
    refine ⟨p' ++ p1, p2, ?_, ?_⟩
    · rw [k1, appendFile_append]
    · rw [List.append_assoc, k2, h2, List.append_assoc]

theorem exec_fopen {w w' : World} {cs : List Call} {n : Text} (h : Exec False w cs w') : ∀ rest, cs = .fopen n :: rest → w.stream = none →
    Exec False { w with disk := setFile w.disk n [], stream := some (n, []) } rest w' := by
  induction h with
  | refl => intro _ h; cases h
  | call hs hx _ =>
    intro rest e _
    injection e with e1 e2
    subst e1 e2
    cases hs
    exact hx
  | flush hs _ _ => intro _ _ h; rw [h] at hs; cases hs

theorem exec_fclose {w w' : World} {cs : List Call} (h : Exec False w cs w') : ∀ n p, cs = [.fclose (.file n)] → w.stream = some (n, p) →
    w' = { w with disk := appendFile w.disk n p, stream := none } := by
  induction h with
  | refl => intro _ _ h; cases h
  | call hs hx _ =>
    intro n p e hst
    injection e with e1 e2
    subst e1 e2
    cases hs with
    | close h =>
      rw [hst] at h
      injection h with h
      injection h with _ h
      subst h
      exact exec_nil hx rfl rfl
    | closeLost _ h => exact h.elim
  | @flush w n' p' q cs w'' hs hx ih =>
    intro n p e hst
    rw [hst] at hs
    injection hs with hs
    injection hs with h1 h2
    subst h1
    rw [ih n q e rfl, appendFile_append, ← h2]

/-- The calls of one file, or of stdout. -/
def session (filename : Option Text) (opens : Bool) (ts : List Text) : List Call :=
  match loadOutputFile filename opens with
  | (none, cs) => cs
  | (some out, cs) => cs ++ (prints out ts ++ closeOutput out)

/-- What a session does. -/
def deliver (filename : Option Text) (opens : Bool) (t : Text) (w : World) : World :=
  match filename with
  | none => w
  | some name =>
    if name = lit "-" then { w with stdout := w.stdout ++ t }
    else if opens then { w with disk := setFile w.disk name t } else w

theorem setFile_append (d : Text → Option Text) (n a b : Text) : appendFile (setFile d n a) n b = setFile d n (a ++ b) := by
  funext m
  unfold appendFile setFile
  split <;> rfl

theorem exec_session {w w' : World} {filename : Option Text} {opens : Bool} {ts : List Text} (h : Exec False w (session filename opens ts) w') (hs : w.stream = none) :
    w' = deliver filename opens ts.flatten w := by
  unfold session loadOutputFile at h
  unfold deliver
  cases filename with
  | none => exact exec_nil h rfl hs
  | some name =>
    simp only at h ⊢
    by_cases hd : name = lit "-"
    · rw [if_pos hd] at h ⊢
      simp only [closeOutput, List.nil_append, ne_eq, not_true, if_false, List.append_nil] at h
      exact exec_prints_out h ts rfl hs
    · rw [if_neg hd] at h ⊢
      cases opens with
      | false => exact exec_nil h rfl hs
      | true =>
        simp only [if_true, closeOutput, ne_eq, reduceCtorEq, not_false_eq_true] at h ⊢
        have h := exec_fopen h _ rfl hs
        obtain ⟨m, h1, h2⟩ := exec_append h (prints (.file name) ts) [.fclose (.file name)] rfl
        obtain ⟨p1, p2, k1, k2⟩ := exec_prints_file h1 name [] ts rfl rfl
        subst k1
        rw [exec_fclose h2 name p2 rfl rfl]
        simp only [setFile_append, List.nil_append] at k2 ⊢
        rw [k2, ← hs]

theorem deliver_stream (filename : Option Text) (opens : Bool) (t : Text) (w : World) : (deliver filename opens t w).stream = w.stream := by
  unfold deliver
  cases filename with
  | none => rfl
  | some n =>
    simp only
    split
    · rfl
    · split <;> rfl

theorem session_exec (filename : Option Text) (opens : Bool) (ts : List Text) (w : World) (hs : w.stream = none) :
    Exec False w (session filename opens ts) (deliver filename opens ts.flatten w) := by
  have hfile : ∀ n ts p (w : World) (rest : List Call) w'', w.stream = some (n, p) → Exec False { w with stream := some (n, p ++ ts.flatten) } rest w'' →
      Exec False w (prints (.file n) ts ++ rest) w'' := by
    intro n ts
    induction ts with
    | nil => intro p w rest w'' h1 h2; rw [List.flatten_nil, List.append_nil, ← h1] at h2; exact h2
    | cons t ts ih =>
      intro p w rest w'' h1 h2
      refine .call (.write h1) (ih (p ++ t) _ _ _ rfl ?_)
      rw [List.flatten_cons, ← List.append_assoc] at h2
      exact h2
  have hout : ∀ ts (w : World), Exec False w (prints .stdout ts) { w with stdout := w.stdout ++ ts.flatten } := by
    intro ts
    induction ts with
    | nil => intro w; simp only [List.flatten_nil, List.append_nil]; exact .refl
    | cons t ts ih =>
      intro w
      have h := ih { w with stdout := w.stdout ++ t }
      rw [List.flatten_cons, ← List.append_assoc]
      exact .call .stdout h
  unfold session loadOutputFile deliver
  cases filename with
  | none => exact .refl
  | some name =>
    simp only
    by_cases hd : name = lit "-"
    · rw [if_pos hd, if_pos hd]
      simp only [closeOutput, List.nil_append, ne_eq, not_true, if_false, List.append_nil]
      exact hout ts w
    · rw [if_neg hd, if_neg hd]
      cases opens with
      | false => exact .refl
      | true =>
        simp only [if_true, closeOutput, ne_eq, reduceCtorEq, not_false_eq_true]
        refine .call (.fopen hs) (hfile name ts [] _ _ _ rfl ?_)
        refine .call (.close rfl) ?_
        simp only [setFile_append, List.nil_append]
        rw [← hs]
        exact .refl

/-! ### Dying -/

theorem prefix_snoc {α : Type} {l a : List α} {x : α} (h : l <+: a ++ [x]) : l <+: a ∨ l = a ++ [x] := by
  rw [List.prefix_concat_iff] at h
  rcases h with h | h
  · exact Or.inr h
  · exact Or.inl h

theorem prefix_prints {out : Dst} {ts : List Text} {l : List Call} (h : l <+: prints out ts) : ∃ ts', ts' <+: ts ∧ l = prints out ts' := by
  have e := List.prefix_iff_eq_take.1 h
  refine ⟨ts.take l.length, List.take_prefix .., ?_⟩
  rw [e]
  simp [prints, List.map_take]

theorem prefix_flatten {α : Type} {a b : List (List α)} (h : a <+: b) : a.flatten <+: b.flatten := by
  obtain ⟨r, rfl⟩ := h
  rw [List.flatten_append]
  exact List.prefix_append ..

/-- Wherever the program dies, the other files are as they were, and the file is as it was, or has a prefix of the text. -/
theorem dies_session {w w' : World} {filename : Option Text} {opens : Bool} {ts : List Text} {done : List Call} (hp : done <+: session filename opens ts)
    (h : Exec False w done w') (hs : w.stream = none) :
    ∀ n, w'.disk n = w.disk n ∨ ∃ pre, w'.disk n = some pre ∧ filename = some n ∧ n ≠ lit "-" ∧ pre <+: ts.flatten := by
  unfold session loadOutputFile at hp
  cases filename with
  | none =>
    simp only at hp
    rw [List.prefix_nil] at hp
    rw [exec_nil h hp hs]
    exact fun _ => Or.inl rfl
  | some name =>
    simp only at hp
    by_cases hd : name = lit "-"
    · rw [if_pos hd] at hp
      simp only [closeOutput, List.nil_append, ne_eq, not_true, if_false, List.append_nil] at hp
      obtain ⟨ts', _, e⟩ := prefix_prints hp
      rw [exec_prints_out h ts' e hs]
      exact fun _ => Or.inl rfl
    · rw [if_neg hd] at hp
      cases opens with
      | false =>
        simp only [Bool.false_eq_true, if_false] at hp
        rw [List.prefix_nil] at hp
        rw [exec_nil h hp hs]
        exact fun _ => Or.inl rfl
      | true =>
        simp only [if_true, closeOutput, ne_eq, reduceCtorEq, not_false_eq_true, List.singleton_append] at hp
        cases done with
        | nil =>
          rw [exec_nil h rfl hs]
          exact fun _ => Or.inl rfl
        | cons c done =>
          obtain ⟨rfl, hq⟩ := List.cons_prefix_cons.1 hp
          have h := exec_fopen h _ rfl hs
          have key : ∀ (t : Text), t <+: ts.flatten → ∀ n, setFile w.disk name t n = w.disk n ∨ ∃ pre, setFile w.disk name t n = some pre ∧ some name = some n ∧ n ≠ lit "-" ∧ pre <+: ts.flatten := by
            intro t ht n
            unfold setFile
            by_cases hn : n = name
            · subst hn
              rw [if_pos rfl]
              exact Or.inr ⟨t, rfl, rfl, hd, ht⟩
            · rw [if_neg hn]; exact Or.inl rfl
          rcases prefix_snoc hq with hp | rfl
          · obtain ⟨ts', ht, e⟩ := prefix_prints hp
            obtain ⟨p1, p2, k1, k2⟩ := exec_prints_file h name [] ts' e rfl
            subst k1
            simp only [setFile_append]
            exact key _ ((List.prefix_append p1 p2).trans (by rw [k2]; exact prefix_flatten ht))
          · obtain ⟨m, h1, h2⟩ := exec_append h (prints (.file name) ts) [.fclose (.file name)] rfl
            obtain ⟨p1, p2, k1, k2⟩ := exec_prints_file h1 name [] ts rfl rfl
            subst k1
            rw [exec_fclose h2 name p2 rfl rfl]
            simp only [setFile_append, List.nil_append] at k2 ⊢
            exact key _ (by rw [k2])

/-! ### The texts -/

/-- The texts of the ROAs. -/
def roaTexts (e : Env) (vs : List Vrp) : Format → List Text
  | .csv => lit "ASN,Prefix,Max prefix length\n" :: vs.map (roaCsv e)
  | .json => lit "{ \"roas\" : [" :: (vs.map (roaJson e)).intersperse (lit ",") ++ [lit "\n]}\n"]

theorem roasCsv_eq (e : Env) (out : Dst) : ∀ vs, roasCsv e out vs = prints out (vs.map (roaCsv e))
  | [] => rfl
  | v :: vs => by rw [roasCsv, roasCsv_eq e out vs]; rfl

/-- `,` before each. -/
def commas : List Text → List Text
  | [] => []
  | t :: ts => lit "," :: t :: commas ts

theorem commas_intersperse (t : Text) : ∀ ts, (t :: ts).intersperse (lit ",") = t :: commas ts
  | [] => rfl
  | u :: us => by
    rw [List.intersperse_cons_cons, commas_intersperse u us]
    rfl

theorem roasJson_false (e : Env) (out : Dst) : ∀ vs, roasJson e out false vs = prints out (commas (vs.map (roaJson e)))
  | [] => rfl
  | v :: vs => by rw [roasJson, roasJson_false e out vs]; rfl

theorem roasJson_eq (e : Env) (out : Dst) (vs : List Vrp) : roasJson e out true vs = prints out ((vs.map (roaJson e)).intersperse (lit ",")) := by
  cases vs with
  | nil => rfl
  | cons v vs =>
    rw [roasJson, roasJson_false, List.map_cons, commas_intersperse]
    rfl

theorem printRoas_eq (e : Env) (filename : Option Text) (f : Format) (opens : Bool) (db : Table) :
    printRoas e filename f opens db = session filename opens (roaTexts e db.roas f) := by
  unfold printRoas session
  rcases loadOutputFile filename opens with ⟨_ | out, cs⟩
  · rfl
  · cases f with
    | csv =>
      simp only [roaTexts, roasCsv_eq, prints, List.map_cons, List.append_assoc, List.cons_append]
    | json =>
      simp only [roaTexts, roasJson_eq, prints, List.map_cons, List.map_append, List.append_assoc, List.cons_append, List.map_nil, List.nil_append]

end Verif.Out
