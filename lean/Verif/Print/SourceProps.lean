import Verif.Print.ModelSource
import Verif.Uri.UriProps
/-
C207: the document that is printed is the one that was named.
-/
namespace Verif.Print.Source
open Verif.Res (Byte)
open Verif.Uri

/-! ### Specification -/

/-- What the user names: standard input, a URL, or a file. -/
inductive Named
  | stdin
  | url (u : List Byte)
  | file (p : List Byte)

/-- Nothing and "-" are standard input; what begins with "rsync://" is a URL. -/
def named : Option (List Byte) → Named
  | none => .stdin
  | some p => if p = txt "-" then .stdin else if txt "rsync://" <+: p then .url p else .file p

/-- `n` is what follows the last slash. -/
def Last (s n : List Byte) : Prop := slash ∉ n ∧ ∃ d, s = d ++ [slash] ++ n

/-- `n` is the file name of the path. -/
def FileName (path n : List Byte) : Prop := Last path n ∨ (slash ∉ path ∧ n = path)

/-- The file of a URL in the validation's cache, for the TAL of this file name. -/
def InCache (repo t url path : List Byte) : Prop := uriCreate repo (some t) .rsync none url = .ok ⟨url, path, .rsync⟩

/-- Where a document that was downloaded from the URL may be: in the cache, if there's one; else in the new directory. -/
def Place (e : Env) (url path : List Byte) : Prop :=
  match e.tal, e.repo with
  | some tal, some repo => ∃ t, FileName tal t ∧ InCache repo t url path
  | _, _ => ∃ dir name, e.tmp = some dir ∧ Last url name ∧ path = if name = [] then dir else pathOf dir [name]

/-! ### Lemmas -/

theorem afterLastSlash_spec (s : List Byte) : (∀ n, afterLastSlash s = some n → Last s n) ∧ (afterLastSlash s = none → slash ∉ s) := by
  induction s with
  | nil => simp [afterLastSlash]
  | cons c s ih =>
    obtain ⟨i1, i2⟩ := ih
    cases h : afterLastSlash s with
    | some t =>
      refine ⟨fun n hn => ?_, fun hn => ?_⟩
      · simp only [afterLastSlash, h, Option.some.injEq] at hn
        subst hn
        obtain ⟨a, d, b⟩ := i1 t h
        exact ⟨a, c :: d, by rw [b]; simp⟩
      · simp [afterLastSlash, h] at hn
    | none =>
      have hs := i2 h
      by_cases hc : c = slash
      · refine ⟨fun n hn => ?_, fun hn => ?_⟩
        · simp only [afterLastSlash, h, hc, if_true, Option.some.injEq] at hn
          subst hn
          exact ⟨hs, [], by simp [hc]⟩
        · simp [afterLastSlash, h, hc] at hn
      · refine ⟨fun n hn => ?_, fun _ => ?_⟩
        · simp [afterLastSlash, h, hc] at hn
        · simp only [List.mem_cons, not_or]
          exact ⟨fun x => hc x.symm, hs⟩

theorem last_unique {s m n : List Byte} (hm : Last s m) (hn : Last s n) : m = n := by
  obtain ⟨a, d, b⟩ := hm
  obtain ⟨a', d', b'⟩ := hn
  rw [b] at b'
  have key : ∀ (x y z w : List Byte), slash ∉ y → slash ∉ w → x ++ [slash] ++ y = z ++ [slash] ++ w → y = w := by
    intro x
    induction x with
    | nil =>
      intro y z w hy hw hh
      cases z with
      | nil => simpa using hh
      | cons c z =>
        simp only [List.nil_append, List.cons_append, List.cons.injEq] at hh
        exact absurd (by rw [hh.2]; simp) hy
    | cons c x ih =>
      intro y z w hy hw hh
      cases z with
      | nil =>
        simp only [List.nil_append, List.cons_append, List.cons.injEq] at hh
        exact absurd (by rw [← hh.2]; simp) hw
      | cons c' z =>
        simp only [List.cons_append, List.cons.injEq] at hh
        exact ih y z w hy hw (by simpa using hh.2)
  exact key _ _ _ _ a a' b'

theorem fileName_iff {tal n : List Byte} : FileName tal n ↔ n = talName tal := by
  obtain ⟨a, b⟩ := afterLastSlash_spec tal
  unfold FileName talName
  cases h : afterLastSlash tal with
  | none =>
    refine ⟨?_, fun hn => .inr ⟨b h, hn⟩⟩
    rintro (⟨-, d, hd⟩ | ⟨-, hn⟩)
    · exact absurd (by rw [hd]; simp) (b h)
    · exact hn
  | some t =>
    refine ⟨?_, fun hn => .inl (by rw [hn]; exact a t h)⟩
    rintro (hn | ⟨hn, -⟩)
    · exact last_unique hn (a t h)
    · obtain ⟨-, d, hd⟩ := a t h
      exact absurd (by rw [hd]; simp) hn

theorem rsyncPrefix_txt : txt "rsync://" = rsyncPrefix := by decide
theorem dash_txt : txt "-" = [0x2D] := by decide

theorem prefix_slash {u : List Byte} (h : rsyncPrefix <+: u) : afterLastSlash u ≠ none := by
  intro hn
  refine (afterLastSlash_spec u).2 hn ?_
  obtain ⟨t, rfl⟩ := h
  simp [rsyncPrefix, slash]

/-! ### C207 -/

/-- What a download does: it's from this URL, to the place above, and nothing else; the document is what was downloaded, and there's none if and only if
it failed (or the path is too long). -/
def Downloads (e : Env) (url : List Byte) (acts : List Act) (src : Option Src) : Prop :=
  (∀ a ∈ acts, (∃ d, e.tmp = some d ∧ a = .mkdtemp d) ∨ ∃ p, Place e url p ∧ a = .rsync url p) ∧
  (∀ s, src = some s → ∃ p, Place e url p ∧ s = .file p ∧ .rsync url p ∈ acts ∧ e.rsync url p = 0) ∧
  (∀ p, Place e url p → p.length < 4096 → e.rsync url p = 0 → src = some (.file p))

theorem tmp_spec (e : Env) (u : List Byte) (hu : rsyncPrefix <+: u) (htmp : ∀ d, e.tmp = some d → d ≠ [])
    (hplace : ∀ p, Place e u p ↔ ∃ dir name, e.tmp = some dir ∧ Last u name ∧ p = if name = [] then dir else pathOf dir [name]) :
    ∃ acts src, rsync2bioTmpdir e u = .ok (acts, src) ∧ Downloads e u acts src := by
  unfold rsync2bioTmpdir
  cases ht : e.tmp with
  | none => exact ⟨[], none, rfl, by simp, by simp, fun p hp => by obtain ⟨dir, -, h1, -⟩ := (hplace p).1 hp; rw [ht] at h1; cases h1⟩
  | some dir =>
    have hd := htmp dir ht
    have huniq : ∀ p name, Place e u p → Last u name → p = if name = [] then dir else pathOf dir [name] := by
      intro p name hp hl
      obtain ⟨dir', name', h1, h2, h3⟩ := (hplace p).1 hp
      rw [ht] at h1
      cases h1
      rw [h3, last_unique h2 hl]
    have hmk : ∀ a ∈ [Act.mkdtemp dir], (∃ d, e.tmp = some d ∧ a = .mkdtemp d) ∨ ∃ p, Place e u p ∧ a = .rsync u p := by
      intro a ha
      rw [List.mem_singleton] at ha
      exact .inl ⟨dir, ht, ha⟩
    rcases pbInit_repo hd with ⟨pb, e1, hi, hs⟩ | ⟨e1, hlong⟩
    · simp only [e1]
      cases hn : afterLastSlash u with
      | none => exact absurd hn (prefix_slash hu)
      | some name =>
        have hlast := (afterLastSlash_spec u).1 name hn
        have fin : ∀ pb' : PB, pb'.str = (if name = [] then dir else pathOf dir [name]) →
            Downloads e u (.mkdtemp dir :: (rsync2bio0 e u pb'.str).1) (rsync2bio0 e u pb'.str).2 := by
          intro pb' hp0
          have hpl : Place e u pb'.str := (hplace _).2 ⟨dir, name, ht, hlast, hp0⟩
          unfold rsync2bio0
          by_cases h0 : e.rsync u pb'.str ≠ 0
          · rw [if_pos h0]
            refine ⟨fun a ha => ?_, by simp, fun p hp _ hz => absurd (by rw [hp0, ← huniq p name hp hlast]; exact hz) h0⟩
            rcases List.mem_cons.1 ha with rfl | ha
            · exact .inl ⟨dir, ht, rfl⟩
            · exact .inr ⟨_, hpl, List.mem_singleton.1 ha⟩
          · rw [if_neg h0]
            refine ⟨fun a ha => ?_, fun s hs => ?_, fun p hp _ _ => by rw [hp0, ← huniq p name hp hlast]⟩
            · rcases List.mem_cons.1 ha with rfl | ha
              · exact .inl ⟨dir, ht, rfl⟩
              · exact .inr ⟨_, hpl, List.mem_singleton.1 ha⟩
            · cases hs
              exact ⟨_, hpl, rfl, by simp, by simpa using h0⟩
        by_cases h0 : name = []
        · subst h0
          have ha : pbAppend pb (some []) = .ok pb := by simp [pbAppend, pbAppendn]
          simp only [ha]
          exact ⟨_, _, rfl, fin pb (by rw [hs]; simp [pathOf])⟩
        · rcases pbAppend_path hi hd hs h0 with ⟨pb', e2, -, hs'⟩ | ⟨e2, hlong⟩
          · simp only [e2]
            exact ⟨_, _, rfl, fin pb' (by rw [hs', if_neg h0]; rfl)⟩
          · simp only [e2]
            refine ⟨_, _, rfl, hmk, by simp, fun p hp hlt => ?_⟩
            have := huniq p name hp hlast
            rw [if_neg h0] at this
            rw [this] at hlt
            simp only [List.nil_append, maxCapacity] at hlong
            omega
    · simp only [e1]
      refine ⟨_, _, rfl, hmk, by simp, fun p hp hlt => ?_⟩
      obtain ⟨dir', name', h1, -, h3⟩ := (hplace p).1 hp
      rw [ht] at h1
      cases h1
      have h4 : dir.length ≤ p.length := by
        rw [h3]
        by_cases h0 : name' = []
        · rw [if_pos h0]
        · rw [if_neg h0]; simp [pathOf]
      simp only [maxCapacity] at hlong
      omega

/-- The document is the one that was named: standard input, the file, or what rsync downloads from the URL, from there only and to the right place
(`Downloads`); nothing is downloaded otherwise. If a download fails, there is no document (an old copy isn't printed). It doesn't crash. -/
theorem C207_partial (e : Env) (payload : Option (List Byte)) (hrepo : ∀ r, e.repo = some r → r ≠ []) (htal : ∀ t, e.tal = some t → ¬ FileName t [])
    (htmp : ∀ d, e.tmp = some d → d ≠ []) :
    ∃ acts src, filename2bio e payload = .ok (acts, src) ∧
      match named payload with
      | .stdin => acts = [] ∧ src = some .stdin
      | .file p => acts = [] ∧ src = some (.file p)
      | .url u => Downloads e u acts src := by
  unfold named filename2bio
  cases payload with
  | none => exact ⟨_, _, rfl, rfl, rfl⟩
  | some f =>
    simp only [dash_txt, rsyncPrefix_txt]
    by_cases h1 : f = [0x2D]
    · simp only [if_pos h1]
      exact ⟨_, _, rfl, rfl, rfl⟩
    · simp only [if_neg h1]
      by_cases h2 : rsyncPrefix <+: f
      · simp only [if_pos h2, if_pos (startsWith_iff.2 h2)]
        unfold rsync2bio
        cases ht : e.tal with
        | none => exact tmp_spec e f h2 htmp (fun p => by unfold Place; rw [ht])
        | some t =>
          cases hr : e.repo with
          | none => exact tmp_spec e f h2 htmp (fun p => by unfold Place; rw [ht, hr])
          | some r =>
            have hpl : ∀ p, Place e f p ↔ InCache r (talName t) f p := fun p => by unfold Place; rw [ht, hr]; simp only [fileName_iff, exists_eq_left]
            simp only
            unfold rsync2bioCache
            rcases C37_mapping (hrepo r hr) (fun h0 => htal t ht (fileName_iff.2 h0.symm)) .rsync none (by simp) f with ⟨l, -, -, h3⟩ | ⟨er, -, h3, -⟩ | ⟨-, h3⟩
            · simp only [h3]
              refine ⟨(rsync2bio0 e f l).1, (rsync2bio0 e f l).2, rfl, ?_⟩
              have hp : Place e f l := (hpl l).2 h3
              have huniq : ∀ p, Place e f p → p = l := by
                intro p hq
                have := (hpl p).1 hq
                unfold InCache at this
                rw [h3] at this
                cases this
                rfl
              unfold rsync2bio0
              by_cases h0 : e.rsync f l ≠ 0
              · rw [if_pos h0]
                exact ⟨fun a ha => .inr ⟨l, hp, List.mem_singleton.1 ha⟩, by simp, fun p hq _ hz => absurd (by rw [← huniq p hq]; exact hz) h0⟩
              · rw [if_neg h0]
                refine ⟨fun a ha => .inr ⟨l, hp, List.mem_singleton.1 ha⟩, fun s hs => ?_, fun p hq _ _ => by rw [huniq p hq]⟩
                cases hs
                exact ⟨l, hp, rfl, List.mem_singleton.2 rfl, by simpa using h0⟩
            · simp only [h3]
              exact ⟨_, _, rfl, by simp, by simp, fun p hq => by have := (hpl p).1 hq; unfold InCache at this; rw [h3] at this; cases this⟩
            · simp only [h3]
              exact ⟨_, _, rfl, by simp, by simp, fun p hq => by have := (hpl p).1 hq; unfold InCache at this; rw [h3] at this; cases this⟩
      · have h3 : startsWith f rsyncPrefix = false := by
          cases hx : startsWith f rsyncPrefix with
          | false => rfl
          | true => exact absurd (startsWith_iff.1 hx) h2
        simp only [if_neg h2, h3, Bool.false_eq_true, if_false]
        exact ⟨_, _, rfl, rfl, rfl⟩

/-- Documents that are downloaded to the cache are in the directory of the TAL. -/
theorem C207_confined (e : Env) (tal name repo u p : List Byte) (ht : e.tal = some tal) (hname : FileName tal name) (hr : e.repo = some repo) (hrepo : repo ≠ [])
    (hne : name ≠ []) (hp : Place e u p) : ∃ cs, splitSlash p = splitSlash repo ++ [name, txt "rsync"] ++ cs ∧ ∀ c ∈ cs, Proper c := by
  rw [fileName_iff] at hname
  subst hname
  have htal := hne
  have hc : InCache repo (talName tal) u p := by unfold Place at hp; rw [ht, hr] at hp; simpa only [fileName_iff, exists_eq_left] using hp
  have hts : slash ∉ talName tal := by
    unfold talName
    obtain ⟨a, b⟩ := afterLastSlash_spec tal
    cases h : afterLastSlash tal with
    | none => exact b h
    | some n => exact (a n h).1
  obtain ⟨cs, h1, -, h3⟩ := C37_confined hrepo htal hts .rsync none (by simp) u _ hc
  refine ⟨cs, ?_, h3⟩
  rw [h1]
  rfl

/-- Without TAL, a document is in the new directory, if the last part of the URL is a proper name. -/
theorem C207_confined_tmp_partial (e : Env) (u n p : List Byte) (ht : e.tal = none) (hn : Last u n) (hproper : Proper n) (hp : Place e u p) :
    ∃ dir, e.tmp = some dir ∧ p = pathOf dir [n] := by
  unfold Place at hp
  rw [ht] at hp
  obtain ⟨dir, name, h1, h2, h3⟩ := hp
  have : name = n := last_unique h2 hn
  subst this
  exact ⟨dir, h1, by rw [h3, if_neg hproper.1]⟩

/-! ### What's wrong -/

namespace Ex
/-- No TAL, and rsync works. -/
def noTal : Env := ⟨none, some (txt "/tmp/fort/repository"), some (txt "/tmp/fort-abcdef"), fun _ _ => 0⟩
/-- A directory of TALs. -/
def talDir : Env := ⟨some (txt "/etc/fort/tal"), some (txt "/tmp/fort/repository"), none, fun _ _ => 0⟩
/-- A TAL. -/
def oneTal : Env := ⟨some (txt "/etc/fort/tal/arin.tal"), some (txt "/tmp/fort/repository"), none, fun _ _ => 0⟩
end Ex

/-- The temporary directory is never removed, and neither is the document in it. -/
theorem C207_refuted : ∃ e payload acts src dir, filename2bio e payload = .ok (acts, src) ∧ .mkdtemp dir ∈ acts ∧ ∀ p, .remove p ∉ acts := by
  refine ⟨Ex.noTal, some (txt "rsync://a/b.cer"), [.mkdtemp (txt "/tmp/fort-abcdef"), .rsync (txt "rsync://a/b.cer") (txt "/tmp/fort-abcdef/b.cer")],
    some (.file (txt "/tmp/fort-abcdef/b.cer")), txt "/tmp/fort-abcdef", by decide +kernel, by simp, by simp⟩

/-- In general: whatever happens, nothing is removed. -/
theorem C207_leftovers (e : Env) (payload : Option (List Byte)) (acts : List Act) (src : Option Src) (h : filename2bio e payload = .ok (acts, src)) (p : List Byte) :
    .remove p ∉ acts := by
  have h0 : ∀ s d, Act.remove p ∉ (rsync2bio0 e s d).1 := by
    intro s d
    unfold rsync2bio0
    by_cases hx : e.rsync s d ≠ 0
    · rw [if_pos hx]; simp
    · rw [if_neg hx]; simp
  have h1 : ∀ s, rsync2bioTmpdir e s = .ok (acts, src) → Act.remove p ∉ acts := by
    intro s hs
    unfold rsync2bioTmpdir at hs
    cases ht : e.tmp with
    | none => rw [ht] at hs; cases hs; simp
    | some dir =>
      simp only [ht] at hs
      cases ha : pbAppend pbInit (some dir) with
      | crash => simp [ha] at hs
      | err _ => simp only [ha] at hs; cases hs; simp
      | ok pb =>
        simp only [ha] at hs
        cases hn : afterLastSlash s with
        | none => simp [hn] at hs
        | some name =>
          simp only [hn] at hs
          cases hb : pbAppend pb (some name) with
          | crash => simp [hb] at hs
          | err _ => simp only [hb] at hs; cases hs; simp
          | ok pb' =>
            simp only [hb] at hs
            cases hs
            simpa using h0 s pb'.str
  have h2 : ∀ t r s, rsync2bioCache e t r s = .ok (acts, src) → Act.remove p ∉ acts := by
    intro t r s hs
    unfold rsync2bioCache at hs
    cases hu : uriCreate r (some (talName t)) .rsync none s with
    | crash => simp [hu] at hs
    | err _ => simp only [hu] at hs; cases hs; simp
    | ok u =>
      simp only [hu] at hs
      have := h0 u.global u.loc
      have h3 : rsync2bio0 e u.global u.loc = (acts, src) := R.ok.inj hs
      rw [h3] at this
      exact this
  unfold filename2bio at h
  cases payload with
  | none => cases h; simp
  | some f =>
    simp only at h
    by_cases ha : f = [0x2D]
    · rw [if_pos ha] at h; cases h; simp
    · rw [if_neg ha] at h
      by_cases hb : startsWith f rsyncPrefix = true
      · rw [if_pos hb] at h
        unfold rsync2bio at h
        cases ht : e.tal with
        | none => rw [ht] at h; exact h1 f h
        | some t =>
          cases hr : e.repo with
          | none => rw [ht, hr] at h; exact h1 f h
          | some r => rw [ht, hr] at h; exact h2 t r f h
      · rw [if_neg hb] at h; cases h; simp

/-- rsync can be told to write to the directory that contains the temporary one. -/
theorem C207_refuted_escape : filename2bio Ex.noTal (some (txt "rsync://a/..")) =
    .ok ([.mkdtemp (txt "/tmp/fort-abcdef"), .rsync (txt "rsync://a/..") (txt "/tmp/fort-abcdef/..")], some (.file (txt "/tmp/fort-abcdef/.."))) := by
  decide +kernel

/-- When `--tal` is a directory, the cache of the validation isn't used: the TAL arin.tal in it has another directory. -/
theorem C207_refuted_directory : ∃ p, filename2bio Ex.talDir (some (txt "rsync://a/b.cer")) = .ok ([.rsync (txt "rsync://a/b.cer") p], some (.file p)) ∧
    ¬ InCache (txt "/tmp/fort/repository") (txt "arin.tal") (txt "rsync://a/b.cer") p := by
  refine ⟨txt "/tmp/fort/repository/tal/rsync/a/b.cer", by decide +kernel, ?_⟩
  have : uriCreate (txt "/tmp/fort/repository") (some (txt "arin.tal")) .rsync none (txt "rsync://a/b.cer") =
      .ok ⟨txt "rsync://a/b.cer", txt "/tmp/fort/repository/arin.tal/rsync/a/b.cer", .rsync⟩ := by decide +kernel
  unfold InCache
  rw [this]
  decide

/-! ### Examples -/

example : filename2bio Ex.oneTal (some (txt "rsync://a/b.cer")) = .ok ([.rsync (txt "rsync://a/b.cer") (txt "/tmp/fort/repository/arin.tal/rsync/a/b.cer")],
    some (.file (txt "/tmp/fort/repository/arin.tal/rsync/a/b.cer"))) := by decide +kernel
example := C207_partial Ex.oneTal (some (txt "rsync://a/b.cer")) (by intro r h; cases h; decide)
  (by intro r h; cases h; rw [fileName_iff]; decide) (by intro r h; cases h)
example := C207_partial Ex.noTal (some (txt "rsync://a/b.cer")) (by intro r h; cases h; decide) (by intro r h; cases h) (by intro r h; cases h; decide)
example : filename2bio Ex.oneTal (some (txt "-")) = .ok ([], some .stdin) := by decide +kernel
example : filename2bio Ex.oneTal (some (txt "rsync:/a")) = .ok ([], some (.file (txt "rsync:/a"))) := by decide +kernel

end Verif.Print.Source
