import Verif.Sys.CycleProps
/-
A history of three cycles that meets the hypotheses of C168: one that filters nothing, one whose TAL does not validate, and one that has
a SLURM file that filters one of the two VRPs.
-/
namespace Verif.Sys.Example
open Verif.Tree Verif.Res Verif.Sys
open Verif.Rtr (Table)
open Verif.Cache (Url Cfg)

/-- The file number `n`. -/
def url (n : Nat) : Url := ⟨⟨List.replicate n 0, [], .rsync⟩, false⟩
/-- The number of a file. -/
def num (u : Url) : Nat := u.uri.global.length

/-- The trust anchor (file 0) has 10.0.0.0/8 and the ROAs 7 (10.1.0.0/16) and 8 (10.2.0.0/16). -/
def pki : Pki Nat Url Nat Nat Nat where
  maxDepth := 3
  isCert := fun _ => true
  crlLoad := fun s u => (s + 1, some (num u))
  load := fun s u => (s + 1, if num u = 0 then some 0 else none)
  chainOk := fun s _ _ _ => (s, true)
  certType := fun _ ta => some (if ta then .ta else .ca)
  profileOk := fun s _ _ => (s, true)
  keyState := fun _ => .valid
  extensions := fun s x _ _ => (s, some x)
  download := fun s _ => (s, some (url 100))
  policy := fun _ => .rfc6484
  exts := fun _ => [.ip true (some [⟨[0, 1], .aors [.pfx ⟨[10], 0⟩]⟩])]
  mftDecode := fun s _ _ => (s, some ⟨[], url 51, [url 7, url 8], []⟩)
  mftFile := fun s _ _ _ _ _ => (s, ⟨true, .rfc6484, exEe⟩)
  roaDecode := fun s _ => (s, true)
  roaFile := fun s u _ _ _ => (s + 1, exRoa [if num u = 7 then exAddr else ⟨⟨[10, 2], 0⟩, none⟩] [2] true)
  gbrDecode := fun s _ => (s, true)
  gbrFile := fun s _ _ _ _ => (s, ⟨true, .rfc6484, exEe⟩)

/-- It is steady. -/
theorem pki_steady : Steady pki where
  crlLoad _ _ _ := rfl
  load _ _ _ := rfl
  chainOk _ _ _ _ _ := rfl
  profileOk _ _ _ _ := rfl
  extensions _ _ _ _ _ := rfl
  download _ _ _ := rfl
  mftDecode _ _ _ _ l h := ⟨l, h, .refl _, rfl, .refl _, .refl _⟩
  mftFile _ _ _ _ _ _ _ _ _ _ := rfl
  roaDecode _ _ _ := rfl
  roaFile _ _ _ _ _ _ _ := rfl

/-- The result and the VRPs. -/
def vrpsOf (x : Run (St (Mem Nat) Url Nat Nat Resources × TalRes)) : Option (List Vrp × TalRes) :=
  match x with
  | .done (st, r) => some (st.s.vrps, r)
  | _ => none

theorem pki_run : vrpsOf (validateTa pki 20 0 (url 0)) = some ([.v4 2 ⟨0x0A010000, 16⟩ 24, .v4 2 ⟨0x0A020000, 16⟩ 16], .ok) := by decide +kernel

/-- The chosen result is that of any run that ends. -/
theorem taRun_eq {ρ U X C S : Type} {p : Pki ρ U X C S} {s : ρ} {root : U} {fuel : Nat} {x : St (Mem ρ) U X C Resources × TalRes}
    (h : validateTa p fuel s root = .done x) : taRun p s root = x := by
  obtain ⟨f, hf⟩ := taRun_spec p s root
  unfold validateTa at h hf
  have a := handleTalUri_mono (n := fuel) f (by rw [h]; exact fun h => by cases h)
  have b := handleTalUri_mono (n := f) fuel (by rw [hf]; exact fun h => by cases h)
  rw [h] at a
  rw [hf, Nat.add_comm, a] at b
  cases b
  rfl

theorem pki_taRun : (taRun pki 0 (url 0)).2 = .ok ∧ (taRun pki 0 (url 0)).1.s.vrps = [.v4 2 ⟨0x0A010000, 16⟩ 24, .v4 2 ⟨0x0A020000, 16⟩ 16] := by
  have h := pki_run
  unfold vrpsOf at h
  split at h
  · rename_i st r e
    simp only [Option.some.injEq, Prod.mk.injEq] at h
    rw [taRun_eq e]
    exact ⟨h.2, h.1⟩
  · cases h

/-- A TAL with one URI; `good`: it can be downloaded. -/
def ta (good : Bool) : Ta Nat Url Nat Nat Nat := ⟨some [url 0], pki, id, fun s _ => (if good then 0 else 5, s), fun _ => none, 0⟩
/-- rsync and HTTP have the same priority. -/
def cfg : Cfg := ⟨true, true, 50, 50⟩
/-- The two VRPs. -/
def table : Table := ⟨[⟨2, .v4, 0x0A020000, 16, 16⟩, ⟨2, .v4, 0x0A010000, 16, 24⟩], []⟩

theorem ta_good : ∃ t, doFileValidation cfg (ta true) = some t ∧ t.vrpSet = table.vrpSet := by
  obtain ⟨h1, h2⟩ := pki_taRun
  have e : tryUri (ta true) (0, Table.create) (url 0) = (0, ((taRun pki 0 (url 0)).1.s.rest, (taRun pki 0 (url 0)).1.s.vrps.foldl addVrp Table.create)) := by
    show (code (taRun pki 0 (url 0)).2, _) = _
    rw [h1]
    rfl
  refine ⟨(taRun pki 0 (url 0)).1.s.vrps.foldl addVrp Table.create, ?_, ?_⟩
  · unfold doFileValidation
    simp only [ta, Cache.cacheDownloadAlt, cfg, Nat.lt_irrefl, ite_false, gt_iff_lt, Cache.downloadEach, if_true, Cache.andThen, Cache.download, ne_eq, not_true_eq_false]
    have e' : tryUri ⟨some [url 0], pki, id, fun s _ => (if true = true then 0 else 5, s), fun _ => none, 0⟩ (0, Table.create) (url 0) = _ := e
    simp only [if_true] at e'
    rw [e']
    rfl
  · rw [h2]
    decide +kernel

theorem ta_bad : doFileValidation cfg (ta false) = none := by
  simp [doFileValidation, ta, Cache.cacheDownloadAlt, cfg, Cache.downloadEach, Cache.andThen, Cache.useRecovered, Cache.download]

/-- The TAL is a file. -/
def cyc (good : Bool) (slurm : Slurm.CycleIn) : Cycle Nat Url Nat Nat Nat :=
  ⟨[1], .file, fun _ => none, fun _ => true, fun _ => true, fun _ => ta good, slurm⟩
/-- No SLURM files. -/
def noSlurm : Slurm.CycleIn := ⟨⟨[], true⟩, ⟨[], true⟩⟩
/-- A file with a filter of AS 2. -/
def doc : Option Slurm.Json := some (Slurm.docWith [.obj [("asn", .int 2)]])
/-- It, and its checksum. -/
def filter2 : Slurm.CycleIn := ⟨⟨[some [1]], true⟩, ⟨[doc], true⟩⟩
/-- The content with some checksum. -/
def content : List Byte → Option Slurm.Json := fun _ => doc

/-- The cycles. -/
def history : List (Cycle Nat Url Nat Nat Nat) := [cyc true noSlurm, cyc false noSlurm, cyc true filter2]
/-- The TALs of each one. -/
def tals : Cycle Nat Url Nat Nat Nat → List Tal.Str := fun _ => [[1]]

theorem history_sane : ∀ c ∈ history, Sane cfg Slurm.env0 content (tals c) c := by
  have sane : ∀ good slurm, Slurm.Faithful content slurm → Slurm.loadSlurmFiles Slurm.env0 slurm.docs ≠ .crash →
      Sane cfg Slurm.env0 content [[1]] (cyc good slurm) := by
    intro good slurm h1 h2
    exact ⟨rfl, fun _ _ => rfl, (fun f _ s u h => by cases h), h1, h2⟩
  have hno : Slurm.Faithful content noSlurm := by
    intro cs h
    have : cs = [] := by cases cs with
      | nil => rfl
      | cons a l => cases h
    subst this
    exact ⟨List.nodup_nil, List.Perm.nil⟩
  intro c hc
  simp only [history, List.mem_cons, List.not_mem_nil, or_false] at hc
  rcases hc with rfl | rfl | rfl
  · exact sane true _ hno (by decide +kernel)
  · exact sane false _ hno (by decide +kernel)
  · refine sane true _ ?_ (by decide +kernel)
    intro cs h
    have : cs = [[1]] := by
      cases cs with
      | nil => cases h
      | cons a l =>
        cases l with
        | nil => cases h; rfl
        | cons b l => cases h
    subst this
    exact ⟨List.nodup_singleton _, List.Perm.refl _⟩

theorem good_cyc (slurm : Slurm.CycleIn) (h : Readable slurm) : Good cfg [[1]] (cyc true slurm) := by
  refine ⟨⟨by simp, fun f _ => ?_⟩, h⟩
  obtain ⟨t, ht, _⟩ := ta_good
  show doFileValidation cfg (ta true) ≠ none
  rw [ht]
  simp

theorem bad_cyc (slurm : Slurm.CycleIn) : ¬ Good cfg [[1]] (cyc false slurm) := by
  rintro ⟨⟨_, h⟩, _⟩
  exact h [1] (by simp) ta_bad

/-- The hypotheses of `C168_reset`, after two cycles and after three, and those of `C168_serial`. -/
example : (∃ hist, LastGood cfg tals (history.take 2) (cyc true noSlurm) hist) ∧ ∃ hist, LastGood cfg tals history (cyc true filter2) hist := by
  refine ⟨⟨_, [], [cyc false noSlurm], rfl, good_cyc _ ⟨by simp [noSlurm], rfl⟩, ?_, rfl⟩,
    ⟨_, [cyc true noSlurm, cyc false noSlurm], [], rfl, good_cyc _ ⟨by simp [filter2], rfl⟩, (fun d hd => by cases hd), rfl⟩⟩
  intro d hd
  simp only [List.mem_singleton] at hd
  subst hd
  exact bad_cyc _

end Verif.Sys.Example
