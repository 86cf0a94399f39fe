/-
Model of the RTR database: serials, payload tables, deltas, delta history, update cycle.
Files modelled: src/types/serial.c, src/rtr/db/db_table.c, src/rtr/db/delta.c,
src/rtr/db/deltas_array.c, src/rtr/db/vrps.c.
-/
namespace Verif.Rtr

/-- `serial_t` (src/types/serial.h: `typedef uint32_t serial_t`). -/
abbrev Serial := BitVec 32

/-- src/types/serial.c:6-14 `serial_lt`. Same comparisons, same unsigned 32-bit subtraction. -/
def serialLt (s1 s2 : Serial) : Bool :=
  if s1 = s2 then false
  else (decide (s1 < s2) && decide (s2 - s1 < 0x80000000#32)) ||
       (decide (s1 > s2) && decide (s1 - s2 > 0x80000000#32))

/-- Address family stored in `struct vrp.addr_fam` (src/types/vrp.h:17-26). Only AF_INET and AF_INET6 are ever
written (src/rtr/db/db_table.c:191-219), other values make the C code call `pr_crit`. -/
inductive Fam | v4 | v6
  deriving DecidableEq, Repr

/-- `struct vrp` (src/types/vrp.h:17-26). The prefix union is a number (network order); padding is zero because
nodes are allocated with `pzalloc` (db_table.c:195,210), so byte equality is field equality. -/
structure Vrp where
  asn : BitVec 32
  fam : Fam
  prefix_ : BitVec 128
  len : BitVec 8
  maxLen : BitVec 8
  deriving DecidableEq, Repr

/-- `unsigned char`. -/
abbrev Byte := BitVec 8

/-- `struct router_key` (src/types/router_key.h:30-35). SKI and SPKI are arrays of RK_SKI_LEN = 20 and
RK_SPKI_LEN = 91 bytes; the lengths are stated where they matter. -/
structure RouterKey where
  ski : List Byte
  as : BitVec 32
  spk : List Byte
  deriving DecidableEq, Repr

/-- src/types/vrp.c:6-24 `vrp_equals` (the addresses are compared as 32 or 128 bits according to the family). -/
def vrpEquals (a b : Vrp) : Bool :=
  if a.fam ≠ b.fam ∨ a.asn ≠ b.asn ∨ a.len ≠ b.len ∨ a.maxLen ≠ b.maxLen then false
  else match a.fam with
    | .v4 => decide (a.prefix_.setWidth 32 = b.prefix_.setWidth 32)
    | .v6 => decide (a.prefix_ = b.prefix_)

/-- `struct db_table` (src/rtr/db/db_table.c:19-22): two uthash tables, as lists in application order. -/
structure Table where
  roas : List Vrp
  keys : List RouterKey
  deriving Repr, DecidableEq

/-- src/rtr/db/db_table.c:24-34 `db_table_create`. -/
def Table.create : Table := ⟨[], []⟩

/-- uthash HASH_REPLACE as used by src/rtr/db/db_table.c:58-75 and :77-94 (`add_roa`, `add_router_key`):
delete the node with the same key bytes if any, append the new node. -/
def hashReplace {α} [DecidableEq α] (l : List α) (x : α) : List α := l.erase x ++ [x]

/-- src/rtr/db/db_table.c:58-76 `add_roa` (allocation does not fail). -/
def Table.addRoa (t : Table) (v : Vrp) : Table := { t with roas := hashReplace t.roas v }
/-- src/rtr/db/db_table.c:78-96 `add_router_key`. -/
def Table.addKey (t : Table) (k : RouterKey) : Table := { t with keys := hashReplace t.keys k }

/-- src/rtr/db/db_table.c:99-121 `db_table_join`: HASH_ITER over src, each node moved to dst. -/
def Table.join (dst src : Table) : Table :=
  let d1 := src.roas.foldl Table.addRoa dst
  src.keys.foldl Table.addKey d1

/-- src/rtr/db/db_table.c:166-176 `db_table_remove_roa`. -/
def Table.removeRoa (t : Table) (v : Vrp) : Table := { t with roas := t.roas.erase v }
/-- src/rtr/db/db_table.c:178-189 `db_table_remove_router_key`. -/
def Table.removeKey (t : Table) (k : RouterKey) : Table := { t with keys := t.keys.erase k }

/-- src/rtr/db/db_table.c:154-158 `db_table_roa_count`. -/
def Table.roaCount (t : Table) : Nat := t.roas.length
/-- src/rtr/db/db_table.c:160-164 `db_table_router_key_count`. -/
def Table.keyCount (t : Table) : Nat := t.keys.length

/-- src/rtr/db/db_table.c:191-204 and :206-219 `rtrhandler_handle_roa_v4/v6`: fields copied into a zeroed
node. -/
def handleRoaV4 (t : Table) (asn : BitVec 32) (addr : BitVec 32) (len maxLen : BitVec 8) : Table :=
  t.addRoa { asn, fam := .v4, prefix_ := addr.setWidth 128, len, maxLen }
/-- See `handleRoaV4`. -/
def handleRoaV6 (t : Table) (asn : BitVec 32) (addr : BitVec 128) (len maxLen : BitVec 8) : Table :=
  t.addRoa { asn, fam := .v6, prefix_ := addr, len, maxLen }

/-- `struct deltas` (src/rtr/db/delta.c:31-46): six arrays. The per-family structs are represented by the VRPs
they are converted from and back to (delta.c:118-155, 190-258). -/
structure Deltas where
  v4adds : List Vrp
  v4rems : List Vrp
  v6adds : List Vrp
  v6rems : List Vrp
  rkadds : List RouterKey
  rkrems : List RouterKey
  deriving Repr, DecidableEq

/-- src/rtr/db/delta.c:48-64 `deltas_create`. -/
def Deltas.create : Deltas := ⟨[], [], [], [], [], []⟩

/-- FLAG_ANNOUNCEMENT / FLAG_WITHDRAWAL (src/types/delta.h:7-8). -/
inductive Flag | withdrawal | announcement
  deriving DecidableEq, Repr

/-- src/rtr/db/delta.c:118-155 `deltas_add_roa` (with get_deltas_array4/6, :90-116). The unknown family branch
(`pr_crit`) is unreachable. -/
def Deltas.addRoa (d : Deltas) (v : Vrp) (op : Flag) : Deltas :=
  match v.fam, op with
  | .v4, .announcement => { d with v4adds := d.v4adds ++ [v] }
  | .v4, .withdrawal   => { d with v4rems := d.v4rems ++ [v] }
  | .v6, .announcement => { d with v6adds := d.v6adds ++ [v] }
  | .v6, .withdrawal   => { d with v6rems := d.v6rems ++ [v] }

/-- src/rtr/db/delta.c:157-177 `deltas_add_router_key`. -/
def Deltas.addKey (d : Deltas) (k : RouterKey) (op : Flag) : Deltas :=
  match op with
  | .announcement => { d with rkadds := d.rkadds ++ [k] }
  | .withdrawal   => { d with rkrems := d.rkrems ++ [k] }

/-- src/rtr/db/delta.c:179-188 `deltas_is_empty`. -/
def Deltas.isEmpty (d : Deltas) : Bool :=
  d.v4adds.length == 0 && d.v4rems.length == 0 && d.v6adds.length == 0 &&
  d.v6rems.length == 0 && d.rkadds.length == 0 && d.rkrems.length == 0

/-- src/rtr/db/db_table.c:244-266 `add_roa_deltas`: copies `roas1 - roas2` into the delta. -/
def addRoaDeltas (roas1 roas2 : List Vrp) (d : Deltas) (op : Flag) : Deltas :=
  roas1.foldl (fun d n1 => if n1 ∈ roas2 then d else d.addRoa n1 op) d

/-- src/rtr/db/db_table.c:279-291 `add_router_key_deltas`. -/
def addKeyDeltas (keys1 keys2 : List RouterKey) (d : Deltas) (op : Flag) : Deltas :=
  keys1.foldl (fun d n1 => if n1 ∈ keys2 then d else d.addKey n1 op) d

/-- src/rtr/db/db_table.c:293-311 `compute_deltas` (`none` is the NULL result). -/
def computeDeltas (old new : Table) : Option Deltas :=
  let d := Deltas.create
  let d := addRoaDeltas new.roas old.roas d .announcement
  let d := addRoaDeltas old.roas new.roas d .withdrawal
  let d := addKeyDeltas new.keys old.keys d .announcement
  let d := addKeyDeltas old.keys new.keys d .withdrawal
  if d.isEmpty then none else some d

/-- `struct delta_vrp` (src/types/delta.h:10-13) and `struct delta_router_key` (:15-18). -/
structure Ev (α : Type) where
  flag : Flag
  item : α
  deriving DecidableEq, Repr

/-- src/rtr/db/delta.c:190-236, 260-287 `deltas_foreach`, restricted to its VRP callbacks: v4 adds, v4
removes, v6 adds, v6 removes. (The VRP and router key callbacks act on disjoint lists, and all VRP
callbacks run first.) -/
def Deltas.vrpEvents (d : Deltas) : List (Ev Vrp) :=
  d.v4adds.map (⟨.announcement, ·⟩) ++ d.v4rems.map (⟨.withdrawal, ·⟩) ++
  d.v6adds.map (⟨.announcement, ·⟩) ++ d.v6rems.map (⟨.withdrawal, ·⟩)

/-- src/rtr/db/delta.c:238-258, 260-287 `deltas_foreach`, restricted to its router key callbacks. -/
def Deltas.rkEvents (d : Deltas) : List (Ev RouterKey) :=
  d.rkadds.map (⟨.announcement, ·⟩) ++ d.rkrems.map (⟨.withdrawal, ·⟩)

/-! ### Delta history (circular array) -/

/-- `struct deltas_array` (src/rtr/db/deltas_array.c:9-13). `cap` is the number of allocated slots
(`config_get_deltas_lifetime()`, constant during a run); slots start as NULL (`pcalloc`). -/
structure DArray (α : Type) where
  cap : Nat
  slots : List (Option α)
  len : BitVec 32
  last : BitVec 32

/-- src/rtr/db/deltas_array.c:15-28 `darray_create`. -/
def DArray.create {α} (cap : Nat) : DArray α :=
  { cap, slots := List.replicate cap none, len := 0, last := 0xFFFFFFFF#32 }

/-- src/rtr/db/deltas_array.c:44-60 `darray_add`. `none` is undefined behaviour: access outside the allocated
slots, or `deltas_refput(NULL)`. -/
def DArray.add {α} (d : DArray α) (x : α) : Option (DArray α) :=
  if d.len.toNat < d.cap then
    if d.len.toNat < d.slots.length then
      some { d with slots := d.slots.set d.len.toNat (some x), last := d.len, len := d.len + 1 }
    else none
  else
    let first := if d.last = d.len - 1 then 0#32 else d.last + 1
    match d.slots[first.toNat]? with
    | some (some _) => some { d with slots := d.slots.set first.toNat (some x), last := first }
    | _ => none

/-- The loop of src/rtr/db/deltas_array.c:87-94: `for (; i < from; i++)`, as `n` remaining iterations.
`cb` is the callback, threading a state; it returns the new state (the callback used by the code never
fails, see `ovrdRemove`). `none` is undefined behaviour. -/
def DArray.loop {α σ} (d : DArray α) (cb : σ → α → σ) : Nat → BitVec 32 → σ → Option σ
  | 0, _, s => some s
  | n + 1, i, s =>
    let j := if i ≥ d.len then i - d.len else i
    match d.slots[j.toNat]? with
    | some (some x) => d.loop cb n (i + 1) (cb s x)
    | _ => none

/-- Result of `darray_foreach_since`. -/
inductive Since (σ : Type) | ub | einval | ok (s : σ)
  deriving DecidableEq

/-- src/rtr/db/deltas_array.c:71-98 `darray_foreach_since`. The `for` loop runs from `i` to `from + i`; when
`from + i` does not wrap that is `from` iterations, when it wraps (`from + i < i`) it is zero. -/
def DArray.foreachSince {α σ} (d : DArray α) (from_ : BitVec 32) (cb : σ → α → σ) (s : σ) : Since σ :=
  if from_ = 0 then .ok s
  else if from_ > d.len then .einval
  else
    let i := d.last - from_ + 1
    let i := if i > d.len then i + d.len else i
    let stop := from_ + i
    match d.loop cb (stop.toNat - i.toNat) i s with
    | none => .ub
    | some s => .ok s

/-! ### State and update cycle -/

/-- `struct state` (src/rtr/db/vrps.c:34-70), without the SLURM (modelled elsewhere). -/
structure State where
  base : Option Table
  deltas : DArray Deltas
  serial : Serial
  v0session : BitVec 16
  v1session : BitVec 16

/-- src/rtr/db/vrps.c:79-121 `vrps_init`: `now` is the current time (time_t, 64 bits), `cap` is
`server.deltas.lifetime`. -/
def State.init (cap : Nat) (now : BitVec 64) : State :=
  let v0 : BitVec 16 := (now &&& 0xFFFF#64).setWidth 16
  { base := none
    deltas := DArray.create cap
    serial := 0
    v0session := v0
    v1session := if v0 ≠ 0 then v0 - 1 else 0xFFFF#16 }

/-- Outcome of one `__vrps_update` call. -/
inductive UpdateOut
  | ub
  | failed (changed : Bool)
  | ok (changed : Bool)
  deriving DecidableEq

/-- src/rtr/db/vrps.c:180-238 `__vrps_update`. `result` is what `perform_standalone_validation` followed by
`slurm_apply` yielded: `none` if either failed, else the new table. `*changed` starts false. -/
def State.update (st : State) (result : Option Table) : State × UpdateOut :=
  match result with
  | none => (st, .failed false)
  | some new =>
    match st.base with
    | some old =>
      match computeDeltas old new with
      | none => (st, .ok false)
      | some d =>
        match st.deltas.add d with
        | none => (st, .ub)
        | some da => ({ st with base := some new, serial := st.serial + 1, deltas := da }, .ok true)
    | none => ({ st with base := some new, serial := st.serial + 1 }, .ok true)

/-! ### Serving deltas -/

/-- src/rtr/db/vrps.c:319-340 `vrp_ovrd_remove` and :342-369 `router_key_ovrd_remove`: find the first listed
node with the same item and a different flag; unlink it, else insert the delta at the head. `eq` is
`vrp_equals` resp. the field/memcmp comparison. -/
def ovrdRemove {α} (eq : α → α → Bool) (l : List (Ev α)) (d : Ev α) : List (Ev α) :=
  if l.any (fun p => eq d.item p.item && decide (d.flag ≠ p.flag)) then
    l.eraseP (fun p => eq d.item p.item && decide (d.flag ≠ p.flag))
  else d :: l

/-- `struct sorted_lists` (src/rtr/db/vrps.c:29-32). -/
structure Lists where
  vrps : List (Ev Vrp)
  rks : List (Ev RouterKey)
  deriving DecidableEq

/-- src/rtr/db/vrps.c:371-376 `__deltas_foreach`. -/
def deltasForeach (l : Lists) (d : Deltas) : Lists :=
  { vrps := d.vrpEvents.foldl (ovrdRemove vrpEquals) l.vrps
    rks := d.rkEvents.foldl (ovrdRemove (fun a b => decide (a = b))) l.rks }

/-- Outcome of the part of `vrps_foreach_delta_since` before the callbacks run. -/
inductive DeltaAnswer
  | ub
  /-- -EAGAIN -/
  | noData
  /-- -ESRCH -/
  | cacheReset
  /-- 0: run the callbacks on these lists and set `*to`. -/
  | send (l : Lists) (to_ : Serial)
  deriving DecidableEq

/-- src/rtr/db/vrps.c:388-474 `vrps_foreach_delta_since`, up to the callbacks (which the PDU handler model runs
on the lists in order, prefixes first). An error of `darray_foreach_since` jumps to `release_list`: no
callback runs, but 0 is returned and `*to` set, exactly as after an empty list. -/
def State.deltaSince (st : State) (from_ : Serial) : DeltaAnswer :=
  match st.base with
  | none => .noData
  | some _ =>
    if from_ = st.serial then .send ⟨[], []⟩ from_
    else if serialLt from_ (st.serial - st.deltas.len) then .cacheReset
    else if serialLt st.serial from_ then .cacheReset
    else
      match st.deltas.foreachSince (st.serial - from_) deltasForeach ⟨[], []⟩ with
      | .ub => .ub
      | .einval => .send ⟨[], []⟩ st.serial
      | .ok l => .send l st.serial

/-- src/rtr/db/vrps.c:476-493 `get_last_serial_number` (`none` is -EAGAIN). -/
def State.lastSerial (st : State) : Option Serial :=
  match st.base with
  | some _ => some st.serial
  | none => none

/-- src/rtr/db/vrps.c:495-505 `get_current_session_id`. -/
def State.sessionId (st : State) (version : BitVec 8) : BitVec 16 :=
  if version = 1 then st.v1session else st.v0session

/-- src/rtr/db/vrps.c:150-169 `handle_router_key`: `for (asn = min; asn <= max; asn++)` with a 64-bit counter
and 32-bit bounds; `fuel` bounds the iterations (see C20 for termination). -/
def handleRouterKeyLoop (ski : List Byte) (spk : List Byte) (max : BitVec 32) :
    Nat → BitVec 64 → Table → Option Table
  | 0, _, _ => none
  | n + 1, asn, t =>
    if asn ≤ max.setWidth 64 then
      handleRouterKeyLoop ski spk max n (asn + 1) (t.addKey ⟨ski, asn.setWidth 32, spk⟩)
    else some t

end Verif.Rtr
