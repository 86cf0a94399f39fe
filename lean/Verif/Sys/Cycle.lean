import Verif.Sys.Props
import Verif.Cache.Model
import Verif.Tal.ThreadsModel
import Verif.Slurm.ModelParser
/-
From the trust anchors to what is published: the table of each TAL, and a whole validation cycle, up to its result.
-/
namespace Verif.Sys
open Verif.Tree Verif.Res
open Verif.Rtr (Table)
open Verif.Cache (Url Cfg)
variable {ρ U X C S : Type}

/-- src/rtr/db/vrps.c:136-141 `handle_roa_v4`, src/rtr/db/vrps.c:143-148 `handle_roa_v6`: a VRP is given to the database. -/
def addVrp (t : Table) : Vrp → Table
  | .v4 asn p m => Rtr.handleRoaV4 t asn p.addr (BitVec.ofNat 8 p.len) m
  | .v6 asn p m => Rtr.handleRoaV6 t asn (BitVec.ofNat 128 (be p.addr)) (BitVec.ofNat 8 p.len) m

/-- A TAL: its URIs (`none`: the file cannot be read or parsed), and what is not modelled of everything below. -/
structure Ta (ρ U X C S : Type) where
  uris : Option (List Url)
  pki : Pki ρ U X C S
  /-- The file of this URL. -/
  place : Url → U
  /-- `cache_download` -/
  dl : ρ → Url → Int × ρ
  /-- `cache_recover` -/
  recovered : ρ → Option Url
  start : ρ

/-- Any run of a trust anchor that is long enough ends, with the same result (C52). -/
theorem validateTa_ends (p : Pki ρ U X C S) (s : ρ) (root : U) : ∃ x N, ∀ fuel, N ≤ fuel → validateTa p fuel s root = .done x := by
  obtain ⟨N, st, r, h⟩ := C52_ends p.env ⟨s, ⟨[], [], []⟩, []⟩ root
  exact ⟨(st, r), N, h⟩

/-- The result of the run of a trust anchor, which ends. -/
noncomputable def taRun (p : Pki ρ U X C S) (s : ρ) (root : U) : St (Mem ρ) U X C Resources × TalRes := (validateTa_ends p s root).choose

/-- 0; EINVAL; some negative error. -/
def code : TalRes → Int
  | .ok => 0
  | .next => 22
  | .fatal => -22

/-- src/object/tal.c:416-421 `__handle_tal_uri`: VRPs are added to the TAL's table as they are found. -/
noncomputable def tryUri (ta : Ta ρ U X C S) (s : ρ × Table) (u : Url) : Int × (ρ × Table) :=
  let (st, r) := taRun ta.pki s.1 (ta.place u)
  (code r, (st.s.rest, st.s.vrps.foldl addVrp s.2))

/-- src/object/tal.c:423-458 `do_file_validation`: what is left in the thread's `db`. -/
noncomputable def doFileValidation (cfg : Cfg) (ta : Ta ρ U X C S) : Option Table :=
  match ta.uris with
  | none => none
  | some us =>
    let (r, s, _) := Cache.cacheDownloadAlt cfg ⟨fun s u => ((ta.dl s.1 u).1, ((ta.dl s.1 u).2, s.2)), tryUri ta⟩ (fun s => ta.recovered s.1) us
      (ta.start, Table.create)
    if r = 0 then some s.2 else none

/-- What a cycle finds: where the TALs are (see `Tal.World`), the TALs, the SLURM files (which are configured). -/
structure Cycle (ρ U X C S : Type) where
  location : Tal.Str
  kind : Tal.Location
  realpath : Tal.Str → Option Tal.Str
  spawns : Tal.Str → Bool
  ended : Tal.Str → Bool
  ta : Tal.Str → Ta ρ U X C S
  slurm : Slurm.CycleIn

/-- Its trust anchors. -/
noncomputable def Cycle.world (cfg : Cfg) (c : Cycle ρ U X C S) : Tal.World :=
  ⟨c.location, c.kind, c.realpath, c.spawns, fun f => doFileValidation cfg (c.ta f), c.ended⟩

/-- src/rtr/db/vrps.c:180-238 `__vrps_update`, up to the new table: the SLURM to keep, and the table if there is one; `none` if something
undefined happens. -/
noncomputable def cycle (cfg : Cfg) (env : Slurm.Env) (kept : Option Slurm.Kept) (c : Cycle ρ U X C S) : Option (Option Slurm.Kept × Option Table) :=
  match Tal.performStandaloneValidation (c.world cfg) with
  | .ub => none
  | .ok none => some (kept, none)
  | .ok (some t) =>
    match Slurm.slurmApply env (some c.slurm) t kept with
    | (_, .crash) => none
    | (k, .err _) => some (k, none)
    | (k, .ok t') => some (k, some t')

/-- Any number of cycles, in order: the SLURM to keep, and their results. -/
noncomputable def runCycles (cfg : Cfg) (env : Slurm.Env) : Option Slurm.Kept → List (Cycle ρ U X C S) → Option (Option Slurm.Kept × List (Option Table))
  | k, [] => some (k, [])
  | k, c :: cs =>
    match cycle cfg env k c with
    | none => none
    | some (k, r) =>
      match runCycles cfg env k cs with
      | none => none
      | some (k, rs) => some (k, r :: rs)

end Verif.Sys
