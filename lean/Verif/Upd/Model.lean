import Verif.Heap.Basic
/-
Who owns what, in the main loop: the tables of ROAs that each validation yields (src/object/tal.c, src/rtr/db/db_table.c), the SLURM (src/slurm), the history of deltas (src/rtr/db/deltas_array.c), and
what src/rtr/db/vrps.c does with them.

What decides which way a function goes (contents of files, results of checks) is an oracle. Simplifications: allocations don't fail; the validation threads run one after the other (they don't share
what is modelled here: see C53, C193) and all of them can be created (C53); the memory of an array list is part of the structure that contains it; rows of ROAs and of router keys are in one list.
-/
namespace Verif.Upd
open Verif.Heap

/-! ### Tables -/

/-- src/rtr/db/db_table.c:19-22 `struct db_table`: its rows, with their contents (the key of the hash table). -/
structure Table where
  self : Id
  rows : List (Nat × Id)

def Table.things (t : Table) : List Id := t.self :: t.rows.map Prod.snd

/-- src/rtr/db/db_table.c:24-34 `db_table_create`. -/
def tableNew : HM Table := do return ⟨← new, []⟩

/-- src/rtr/db/db_table.c:36-56 `db_table_destroy`. -/
def tableDestroy : Option Table → HM Unit
  | none => pure ()
  | some t => do
    freeAll (t.rows.map Prod.snd)
    free t.self

/-- src/rtr/db/db_table.c:58-76 `add_roa`, src/rtr/db/db_table.c:78-96 `add_router_key`. -/
def addRow (t : Table) (k : Nat) (row : Id) : HM Table := do
  use t.self
  use row
  match t.rows.find? (fun x => x.1 = k) with
  | none => return { t with rows := (k, row) :: t.rows }
  | some old =>
    free old.2
    return { t with rows := (k, row) :: t.rows.eraseP (fun x => x.1 = k) }

/-- src/rtr/db/db_table.c:191-204 `rtrhandler_handle_roa_v4`, src/rtr/db/db_table.c:206-219 `rtrhandler_handle_roa_v6`, src/rtr/db/db_table.c:221-237 `rtrhandler_handle_router_key`. -/
def addNew (t : Table) : HM Table := do
  let row ← new
  addRow t (← ask) row

def addRows : Nat → Table → HM Table
  | 0, t => return t
  | n + 1, t => do addRows n (← addNew t)

/-- src/rtr/db/db_table.c:99-121 `db_table_join`. -/
def joinRows : List (Nat × Id) → Table → HM Table
  | [], dst => return dst
  | (k, row) :: l, dst => do joinRows l (← addRow dst k row)

/-- src/rtr/db/db_table.c:166-176 `db_table_remove_roa`, src/rtr/db/db_table.c:178-189 `db_table_remove_router_key`. -/
def removeRow (t : Table) (k : Nat) : HM Table := do
  match t.rows.find? (fun x => x.1 = k) with
  | none => return t
  | some old =>
    free old.2
    return { t with rows := t.rows.eraseP (fun x => x.1 = k) }

def removeRows : Nat → Table → HM Table
  | 0, t => return t
  | n + 1, t => do removeRows n (← removeRow t (← ask))

/-! ### The validation -/

/-- src/object/tal.c:423-458 `do_file_validation`: the table, or nothing if there is an error. -/
def doFileValidation : HM (Option Table) := do
  if ← askB then return none
  let db ← addRows (← ask) (← tableNew)
  if ← askB then
    tableDestroy (some db)
    return none
  return some db

/-- src/object/tal.c:39-47 `struct validation_thread`, once the thread has ended. -/
structure Thread where
  self : Id
  name : Id
  db : Option Table

def tableThings (t : Option Table) : List Id := t.toList.flatMap Table.things

def Thread.things (t : Thread) : List Id := t.self :: t.name :: tableThings t.db

/-- src/object/tal.c:469-492 `spawn_tal_thread`, for each TAL. -/
def spawn : Nat → List Thread → HM (List Thread)
  | 0, l => return l
  | n + 1, l => do
    let self ← new
    let name ← new
    spawn n (⟨self, name, ← doFileValidation⟩ :: l)

/-- src/object/tal.c:460-466 `thread_destroy`. -/
def threadDestroy (t : Thread) : HM Unit := do
  free t.name
  tableDestroy t.db
  free t.self

/-- src/object/tal.c:494-551 `perform_standalone_validation`: the loop that waits for the threads. -/
def joinThreads : List Thread → Option Table → Bool → HM (Option Table)
  | [], db, error =>
    if error then do
      tableDestroy db
      return none
    else return db
  | t :: l, db, error => do
    use t.self
    match error || t.db.isNone, db, t.db with
    | false, none, some d =>
      threadDestroy { t with db := none }
      joinThreads l (some d) false
    | false, some b, some d =>
      let b ← joinRows d.rows b
      threadDestroy { t with db := some { d with rows := [] } }
      joinThreads l (some b) false
    | _, db, _ =>
      threadDestroy t
      joinThreads l db true

/-- src/object/tal.c:494-551 `perform_standalone_validation`. -/
def performValidation : HM (Option Table) := do
  if ← askB then return none
  joinThreads (← spawn (← ask) []) none false

/-! ### SLURM -/

/-- src/slurm/db_slurm.c:16-19 `struct slurm_bgpsec_wrap`: the SKI and the key, if there are. The structure is copied by value, its counter too. -/
structure Wrap where
  things : List Id
  refs : Nat

/-- src/slurm/db_slurm.c:26-31 `struct slurm_lists`. Of the rules for prefixes, whether there are. -/
structure Lists where
  prefixes : Bool
  filters : List Wrap
  assertions : List Wrap

def Lists.empty : Lists := ⟨false, [], []⟩

/-- src/slurm/db_slurm.c:33-38 `struct db_slurm`. -/
structure Slurm where
  self : Id
  lists : Lists
  cache : Option (Id × Lists)
  csums : List Id

/-- src/slurm/db_slurm.c:48-58 `slurm_bgpsec_wrap_refput`. -/
def wrapPut (w : Wrap) : HM Unit := do
  if w.refs = 1 then freeAll w.things

def wrapPuts : List Wrap → HM Unit
  | [] => pure ()
  | w :: l => do wrapPut w; wrapPuts l

/-- src/slurm/db_slurm.c:75-85 `slurm_lists_cleanup`. -/
def listsCleanup (l : Lists) : HM Unit := do
  wrapPuts l.filters
  wrapPuts l.assertions

/-- src/slurm/db_slurm.c:87-92 `slurm_lists_destroy`. -/
def listsDestroy (x : Id × Lists) : HM Unit := do
  listsCleanup x.2
  free x.1

/-- src/slurm/db_slurm.c:597-613 `db_slurm_destroy`. -/
def slurmDestroy (db : Slurm) : HM Unit := do
  use db.self
  listsCleanup db.lists
  match db.cache with
  | none => pure ()
  | some c => listsDestroy c
  freeAll db.csums
  free db.self

/-- src/slurm/slurm_parser.c:223-255 `set_ski`, src/slurm/slurm_parser.c:293-336 `set_router_pub_key`: `none` if there is an error; what was decoded, if there is something. -/
def decodeMember : HM (Option (Option Id)) := do
  match ← ask with
  | 0 => return some none
  | 1 => return none          -- it can't be decoded
  | 2 =>                      -- it is decoded, but wrong
    free (← new)
    return none
  | _ => return some (some (← new))

/-- src/slurm/slurm_parser.c:459-538 `load_single_bgpsec`, with src/slurm/db_slurm.c:348-361 `db_slurm_add_bgpsec_filter` and src/slurm/db_slurm.c:363-376 `db_slurm_add_bgpsec_assertion`. -/
def loadBgpsec (assertion : Bool) (db : Slurm) : HM (Slurm × Bool) := do
  if ← askB then return (db, true)
  match ← decodeMember with
  | none => return (db, true)
  | some ski =>
    match ← decodeMember with
    | none =>
      freeAll ski.toList
      return (db, true)
    | some key =>
      if ← askB then
        freeAll key.toList
        freeAll ski.toList
        return (db, true)
      match db.cache with
      | none =>
        crash
        return (db, true)
      | some (c, l) =>
        use c
        let w : Wrap := ⟨ski.toList ++ key.toList, 1⟩
        return ({ db with cache := some (c, if assertion then { l with assertions := l.assertions ++ [w] } else { l with filters := l.filters ++ [w] }) }, false)

/-- The string that `json_dumps` returns is printed, and nothing else: src/slurm/slurm_parser.c:422-448 `load_prefix_array`, src/slurm/slurm_parser.c:540-566 `load_bgpsec_array`. -/
def dump : HM Unit := do
  let text ← new
  use text
  lose text

/-- src/slurm/slurm_parser.c:540-566 `load_bgpsec_array`. -/
def loadBgpsecs (assertion : Bool) : Nat → Slurm → HM (Slurm × Bool)
  | 0, db => return (db, false)
  | n + 1, db => do
    match ← loadBgpsec assertion db with
    | (db, true) =>
      dump
      return (db, true)
    | (db, false) => loadBgpsecs assertion n db

/-- src/slurm/slurm_parser.c:422-448 `load_prefix_array`, src/slurm/slurm_parser.c:349-420 `load_single_prefix`. -/
def loadPrefixes : Nat → Slurm → HM (Slurm × Bool)
  | 0, db => return (db, false)
  | n + 1, db => do
    if ← askB then
      dump
      return (db, true)
    match db.cache with
    | none =>
      crash
      return (db, true)
    | some (c, l) =>
      use c
      loadPrefixes n { db with cache := some (c, { l with prefixes := true }) }

/-- src/slurm/slurm_parser.c:587-629 `load_filters`, src/slurm/slurm_parser.c:631-672 `load_assertions`. -/
def loadSection (assertion : Bool) (db : Slurm) : HM (Slurm × Bool) := do
  if ← askB then return (db, true)
  match ← loadPrefixes (← ask) db with
  | (db, true) => return (db, true)
  | (db, false) => loadBgpsecs assertion (← ask) db

/-- src/slurm/db_slurm.c:544-553 `persist_filter_bgpsec`, src/slurm/db_slurm.c:564-573 `persist_assertion_bgpsec`: the copies, and what the cache has then. -/
def persist (l : List Wrap) : List Wrap × List Wrap := (l, l.map fun w => { w with refs := w.refs + 1 })

/-- src/slurm/db_slurm.c:576-586 `db_slurm_flush_cache`. -/
def flushCache (db : Slurm) : HM Slurm := do
  match db.cache with
  | none =>
    crash
    return db
  | some (c, l) =>
    use c
    let f := persist l.filters
    let a := persist l.assertions
    listsDestroy (c, ⟨l.prefixes, f.2, a.2⟩)
    return { db with lists := ⟨db.lists.prefixes || l.prefixes, db.lists.filters ++ f.1, db.lists.assertions ++ a.1⟩, cache := none }

/-- src/slurm/slurm_parser.c:674-708 `handle_json`. -/
def handleJson (db : Slurm) : HM (Slurm × Bool) := do
  if ← askB then return (db, true)
  -- src/slurm/db_slurm.c:529-533 `db_slurm_start_cache`
  let db := { db with cache := some (← new, Lists.empty) }
  match ← loadSection false db with
  | (db, true) => return (db, true)
  | (db, false) =>
    match ← loadSection true db with
    | (db, true) => return (db, true)
    | (db, false) =>
      if ← askB then return (db, true)
      return (← flushCache db, false)

/-- src/slurm/slurm_parser.c:38-58 `slurm_parse`, for each file. -/
def slurmFiles : Nat → Slurm → HM (Slurm × Bool)
  | 0, db => do return (db, ← askB)
  | n + 1, db => do
    match ← create with
    | none => return (db, true)
    | some root =>
      let (db, e) ← handleJson db
      free root
      if e then return (db, true)
      slurmFiles n db

/-- src/slurm/db_slurm.c:588-595 `db_slurm_has_data`. -/
def hasData (db : Slurm) : Bool := db.lists.prefixes || !db.lists.filters.isEmpty || !db.lists.assertions.isEmpty

/-- src/slurm/slurm_loader.c:24-51 `load_slurm_files`, with src/slurm/db_slurm.c:94-125 `db_slurm_create`: whether there's an error, the SLURM, and the checksums that are still the caller's. -/
def loadSlurmFiles (csums : List Id) : HM (Bool × Option Slurm × List Id) := do
  let self ← new
  if ← askB then
    free self
    return (true, none, csums)
  let (db, e) ← slurmFiles (← ask) ⟨self, Lists.empty, none, csums⟩
  if e then
    slurmDestroy db
    return (true, none, [])
  if !hasData db then
    slurmDestroy db
    return (false, none, [])
  return (false, some db, [])

/-- src/slurm/slurm_loader.c:159-173 `slurm_load_checksums`, src/slurm/slurm_loader.c:127-145 `__slurm_load_checksums`. `none` if there is an error. -/
def loadChecksums : Nat → List Id → HM (Option (List Id))
  | 0, l => do
    if ← askB then
      freeAll l
      return none
    return some l
  | n + 1, l => do
    let c ← new
    if ← askB then
      free c
      freeAll l
      return none
    loadChecksums n (c :: l)

def slurmDestroyOpt : Option Slurm → HM Unit
  | none => pure ()
  | some db => slurmDestroy db

/-- src/slurm/slurm_loader.c:209-266 `update_slurm`. -/
def updateSlurm (slurm : Option Slurm) : HM (Option Slurm × Bool) := do
  match ← loadChecksums (← ask) [] with
  | none => return (slurm, true)
  | some csums =>
    if csums.isEmpty then
      slurmDestroyOpt slurm
      return (none, false)
    if slurm.isSome && (← askB) then
      useAll (slurm.toList.flatMap Slurm.csums)
      freeAll csums
      return (slurm, false)
    let (e, new, csums) ← loadSlurmFiles csums
    freeAll csums
    if e then return (slurm, false)
    slurmDestroyOpt slurm
    return (new, false)

/-- src/slurm/slurm_loader.c:268-304 `slurm_apply`. -/
def slurmApply (base : Table) (slurm : Option Slurm) : HM (Table × Option Slurm × Bool) := do
  if ← askB then return (base, slurm, false)
  let (slurm, e) ← updateSlurm slurm
  if e then return (base, slurm, true)
  match slurm with
  | none => return (base, none, false)
  | some db =>
    use db.self
    let base ← removeRows (← ask) base
    return (← addRows (← ask) base, some db, false)

/-! ### The state -/

/-- src/rtr/db/vrps.c:33-71 `struct state`, src/rtr/db/deltas_array.c:9-13 `struct deltas_array`. -/
structure Srv where
  base : Option Table
  deltas : List Id
  last : Nat
  slurm : Option Slurm

/-- src/rtr/db/vrps.c:79-121 `vrps_init`. -/
def Srv.init : Srv := ⟨none, [], 2 ^ 32 - 1, none⟩

/-- src/rtr/db/deltas_array.c:44-60 `darray_add`. -/
def darrayAdd (lifetime : Nat) (deltas : List Id) (last : Nat) (d : Id) : HM (List Id × Nat) := do
  if deltas.length < lifetime then
    return (deltas ++ [d], deltas.length)
  let first := if last = deltas.length - 1 then 0 else last + 1
  match deltas[first]? with
  | none =>
    crash
    return (deltas, last)
  | some old =>
    free old
    return (deltas.set first d, first)

/-- src/rtr/db/db_table.c:293-311 `compute_deltas`. -/
def computeDeltas (old new_ : Table) : HM (Option Id) := do
  let d ← new
  useAll old.things
  useAll new_.things
  if ← askB then
    free d
    return none
  return some d

/-- src/rtr/db/vrps.c:180-238 `__vrps_update`. -/
def vrpsUpdate (lifetime : Nat) (st : Srv) : HM Srv := do
  match ← performValidation with
  | none => return st
  | some base =>
    let (base, slurm, e) ← slurmApply base st.slurm
    let st := { st with slurm := slurm }
    if e then
      tableDestroy (some base)
      return st
    -- output_print_data
    useAll base.things
    match st.base with
    | none => return { st with base := some base }
    | some old =>
      match ← computeDeltas old base with
      | none =>
        tableDestroy (some base)
        return st
      | some d =>
        let (deltas, last) ← darrayAdd lifetime st.deltas st.last d
        tableDestroy (some old)
        return { st with base := some base, deltas := deltas, last := last }

/-- src/main.c:30-75 `fort_server`: any number of cycles. -/
def cycles (lifetime : Nat) : Nat → Srv → HM Srv
  | 0, st => return st
  | n + 1, st => do cycles lifetime n (← vrpsUpdate lifetime st)

/-- src/rtr/db/vrps.c:123-134 `vrps_destroy`. -/
def vrpsDestroy (st : Srv) : HM Unit := do
  slurmDestroyOpt st.slurm
  freeAll st.deltas
  tableDestroy st.base

/-- What the state refers to: the table, its rows, the deltas, and the SLURM with its rules and checksums. -/
def Slurm.things (db : Slurm) : List Id :=
  db.self :: (db.lists.filters ++ db.lists.assertions).flatMap Wrap.things ++ db.cache.toList.flatMap (fun x => x.1 :: (x.2.filters ++ x.2.assertions).flatMap Wrap.things) ++ db.csums

def Srv.things (st : Srv) : List Id := tableThings st.base ++ st.deltas ++ st.slurm.toList.flatMap Slurm.things

end Verif.Upd
