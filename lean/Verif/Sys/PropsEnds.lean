import Verif.Sys.SpecEnds
import Verif.Sys.CycleProps
import Verif.Sys.CycleExample
import Verif.Sys.BytesExample
/-
C192: from the bytes of the repositories to the bytes that routers receive.
-/
namespace Verif.Sys
open Verif.Tree Verif.Res
open Verif.Rtr (Table Timers NoFailure State handleResetQuery handleSerialQuery Sock SendCall emptyClient synced snapshots)
open Verif.Cache (Url Cfg)
open Verif.Mft (Uri)
open Verif.Obj (VrpSpec RoaSpec plain)
variable {σ W X C S E : Type}

theorem fields_plain (w : Vrp) : fields (plain w) = row w := by
  cases w with
  | v4 a p m => simp [fields, plain, row]
  | v6 a p m => simp [fields, plain, row]

theorem due_mono {P Q : Rtr.Vrp → Prop} (h : ∀ v, P v → Q v) {x : Option Slurm.Lists} {v : Rtr.Vrp} (hd : Due P x v) : Due Q x v := by
  cases x with
  | none => exact h v hd
  | some L => exact hd.imp (fun k => ⟨h v k.1, k.2⟩) id

theorem published_bytes {c : Cycle (Loaded σ) (Uri × W) X C S} {tals : List Tal.Str} {q : Tal.Str → Repo σ W X C S E} (hq : ∀ f ∈ tals, (c.ta f).pki = (q f).pki)
    (hlen : ∀ f ∈ tals, ∀ s u b, (q f).read s u = .content b → b.length < 2 ^ 30) {x : Option Slurm.Lists} {t : Table} (h : Published c tals x t) : PublishedBytes q c tals x t := by
  obtain ⟨root, h1, h2, h3, h4⟩ := h
  refine ⟨root, h1, fun v hv => due_mono ?_ (h2 v hv), fun hs v hv => ?_, h4⟩
  · rintro v ⟨f, hf, w, ⟨chain, pp, exts, ee, a1, a2, a3⟩, e⟩
    rw [hq f hf] at a1 a2 a3
    obtain ⟨b1, -, -, b2⟩ := asserted_held a1 a3
    obtain ⟨e', rfl, k⟩ := asserted_bytes (hlen f hf) a3
    exact ⟨f, hf, chain, pp, e', ee, w, certified_bytes (hlen f hf) a1, a2, k, b1, b2, e⟩
  · refine h3 (fun f hf => ?_) v (due_mono ?_ hv)
    · rw [hq f hf]
      exact (hs f hf).1.steady (hlen f hf)
    · rintro v ⟨f, hf, chain, pp, r, w, a1, a2, a3, a4, rfl⟩
      obtain ⟨-, t1, t2, t3⟩ := hs f hf
      obtain ⟨pp', k1, k2⟩ := written_certified (hlen f hf) t1 t2 t3 a1
      obtain ⟨w', exts, ee, k3, k4⟩ := writtenRoa_asserted (hlen f hf) a3 a4
      refine ⟨f, hf, w', ?_, by rw [← k4, fields_plain]⟩
      rw [hq f hf]
      exact ⟨chain, pp', exts, ee, k2, a2, k3.alike k1⟩

/-- **C192, reset.** After any cycles, of which at least one is good, a router that asks for all the data gets what the bytes of the repositories say in the last good cycle, and all that issuers
wrote. (If it speaks version 0 or 1, no transmission fails, and no update lands in the middle.) -/
theorem C192_reset_partial {cfg : Cfg} {env : Slurm.Env} (he : env.Ok) {content : List Byte → Option Slurm.Json} {tals : Cycle (Loaded σ) (Uri × W) X C S → List Tal.Str}
    (cs : List (Cycle (Loaded σ) (Uri × W) X C S)) (hs : ∀ c ∈ cs, Sane cfg env content (tals c) c) {c : Cycle (Loaded σ) (Uri × W) X C S} {hist : List Slurm.CycleIn}
    (hl : LastGood cfg tals cs c hist) (x : Option Slurm.Lists) (hx : Slurm.InForce env hist x)
    (q : Tal.Str → Repo σ W X C S E) (hq : ∀ f ∈ tals c, (c.ta f).pki = (q f).pki) (hlen : ∀ f ∈ tals c, ∀ s u b, (q f).read s u = .content b → b.length < 2 ^ 30)
    (o : Nat → Int) (hn : NoFailure o) (cap : Nat) (h1 : 1 ≤ cap) (h2 : cap < 2 ^ 31) (now : BitVec 64) (tm : Timers) (v : BitVec 8) (hv : v = 0 ∨ v = 1) :
    ∃ k rs st t n, runCycles cfg env none cs = some (k, rs) ∧ (State.init cap now).updates rs = some st ∧ PublishedBytes q c (tals c) x t ∧
      let sent := (handleResetQuery o st st tm v Sock.new).1.sent
      (Rtr.Rfc.decodeStream sent.length (sent.flatMap SendCall.bytes)).bind emptyClient.run = some (synced v t n) := by
  obtain ⟨k, rs, st, t, n, k1, k2, k3, k4⟩ := C168_reset he cs hs hl x hx o hn cap h1 h2 now tm v hv
  exact ⟨k, rs, st, t, n, k1, k2, published_bytes hq hlen k3, k4⟩

/-- **C192, serial.** A router that got the data after some cycles, and asks for the changes after some more, ends with what the bytes of the repositories say in the last good cycle, and with
all that issuers wrote; or it is told to reset. (Under the same conditions.) -/
theorem C192_serial_partial {cfg : Cfg} {env : Slurm.Env} (he : env.Ok) {content : List Byte → Option Slurm.Json} {tals : Cycle (Loaded σ) (Uri × W) X C S → List Tal.Str}
    (cs more : List (Cycle (Loaded σ) (Uri × W) X C S)) (hs : ∀ c ∈ cs ++ more, Sane cfg env content (tals c) c) {c c' : Cycle (Loaded σ) (Uri × W) X C S} {hist hist' : List Slurm.CycleIn}
    (hl : LastGood cfg tals cs c hist) (hl' : LastGood cfg tals (cs ++ more) c' hist') (x : Option Slurm.Lists) (hx : Slurm.InForce env hist' x)
    (q : Tal.Str → Repo σ W X C S E) (hq : ∀ f ∈ tals c', (c'.ta f).pki = (q f).pki) (hlen : ∀ f ∈ tals c', ∀ s u b, (q f).read s u = .content b → b.length < 2 ^ 30)
    (o : Nat → Int) (hn : NoFailure o) (cap : Nat) (h1 : 1 ≤ cap) (h2 : cap < 2 ^ 31) (hm : more.length < 2 ^ 32) (now : BitVec 64) (tm : Timers)
    (raw : List Byte) (v : BitVec 8) (hv : v = 0 ∨ v = 1) :
    ∃ k rs st rs' st' old n t n', runCycles cfg env none cs = some (k, rs) ∧ (State.init cap now).updates rs = some st ∧
      (let sent := (handleResetQuery o st st tm v Sock.new).1.sent
       (Rtr.Rfc.decodeStream sent.length (sent.flatMap SendCall.bytes)).bind emptyClient.run = some (synced v old n)) ∧
      (∃ k', runCycles cfg env none (cs ++ more) = some (k', rs')) ∧ (State.init cap now).updates rs' = some st' ∧ PublishedBytes q c' (tals c') x t ∧
      ∃ r, handleSerialQuery o st' tm v (st'.sessionId v) (BitVec.ofNat 32 n) raw Sock.new = some r ∧
        let got := Rtr.Rfc.decodeStream r.1.sent.length (r.1.sent.flatMap SendCall.bytes)
        got.bind (synced v old n).run = some (synced v t n') ∨ got = some [⟨v.toNat, .cacheReset⟩] ∧ cap < more.length := by
  obtain ⟨k, rs, st, rs', st', old, n, t, n', k1, k2, k3, k4, k5, k6, k7⟩ := C168_serial he cs more hs hl hl' x hx o hn cap h1 h2 hm now tm raw v hv
  exact ⟨k, rs, st, rs', st', old, n, t, n', k1, k2, k3, k4, k5, published_bytes hq hlen k6, k7⟩

/-! ### The hypotheses are met -/
namespace BytesEx
open Verif.Sys.Example (cfg url noSlurm content)

/-- The repository of `BytesExample`. -/
def ta : Ta (Loaded Nat) (Uri × Unit) Nat Uri Nat := ⟨some [url 0], repo.pki, fun _ => ([0], ()), fun s _ => (0, s), fun _ => none, ⟨0, []⟩⟩

theorem ta_run : (taRun repo.pki ⟨0, []⟩ ([0], ())).2 = .ok := by
  have h := repo_run
  unfold vrpsOf at h
  split at h
  · rename_i st r e
    simp only [Option.some.injEq, Prod.mk.injEq] at h
    rw [Example.taRun_eq e]
    exact h.2
  · cases h

theorem ta_good : doFileValidation cfg ta ≠ none := by
  have e : tryUri ta (⟨0, []⟩, Table.create) (url 0) = (0, ((taRun repo.pki ⟨0, []⟩ ([0], ())).1.s.rest, (taRun repo.pki ⟨0, []⟩ ([0], ())).1.s.vrps.foldl addVrp Table.create)) := by
    show (code (taRun repo.pki ⟨0, []⟩ ([0], ())).2, _) = _
    rw [ta_run]
    rfl
  unfold doFileValidation
  simp only [ta, Cache.cacheDownloadAlt, cfg, Nat.lt_irrefl, ite_false, gt_iff_lt, Cache.downloadEach, if_true, Cache.andThen, Cache.download, ne_eq, not_true_eq_false]
  have e' : tryUri ⟨some [url 0], repo.pki, fun _ => ([0], ()), fun s _ => (0, s), fun _ => none, ⟨0, []⟩⟩ (⟨0, []⟩, Table.create) (url 0) = _ := e
  rw [e']
  simp

def cyc : Cycle (Loaded Nat) (Uri × Unit) Nat Uri Nat := ⟨[1], .file, fun _ => none, fun _ => true, fun _ => true, fun _ => ta, noSlurm⟩

/-- The hypotheses of `C192_reset_partial` (and of `C192_serial_partial`, with no more cycles). -/
example : (∀ c ∈ [cyc], Sane cfg Slurm.env0 content [[1]] c) ∧ (∃ hist, LastGood cfg (fun _ => [[1]]) [cyc] cyc hist) ∧ (∀ f ∈ [[1]], (cyc.ta f).pki = repo.pki) := by
  refine ⟨fun c hc => ?_, ⟨_, [], [], rfl, ⟨⟨by simp, fun f _ => ta_good⟩, by simp [cyc, Readable, noSlurm]⟩, by simp, rfl⟩, fun _ _ => rfl⟩
  rw [List.mem_singleton.1 hc]
  refine ⟨rfl, fun _ _ => rfl, (fun f _ s u h => by cases h), ?_, by decide +kernel⟩
  intro cs h
  have : cs = [] := by cases cs with
    | nil => rfl
    | cons a l => cases h
  subst this
  exact ⟨List.nodup_nil, List.Perm.nil⟩

end BytesEx

end Verif.Sys
