import Verif.Res.ModelAddr
import Verif.Rtr.Model
/-
Model of the SLURM database and of its application to a table.
Files modelled: src/slurm/db_slurm.c, src/slurm/slurm_loader.c, src/types/vrp.c (`vrp_prefix_cov`),
src/types/address.c (`ipv4_covered`, `ipv6_covered`).
-/
namespace Verif.Slurm
open Verif.Res (Byte In6 u32SuffixMask ipv6SuffixMask bitwiseAnd)
open Verif.Rtr (Fam Vrp RouterKey Table)

/-- Result of a C function: a value, an error code (`true` is -EEXIST, `false` any other), or a crash: undefined
behaviour or `pr_crit`. -/
inductive Out (α : Type) where
  | ok (a : α)
  | err (exist : Bool)
  | crash
  deriving DecidableEq, Repr

/-- `if (error) return error;` -/
def Out.bind {α β} (o : Out α) (f : α → Out β) : Out β :=
  match o with
  | .ok a => f a
  | .err e => .err e
  | .crash => .crash

instance : Monad Out where
  pure := .ok
  bind := Out.bind

/-! ### Flags (src/slurm/db_slurm.h:11-19) -/

/-- SLURM_COM_FLAG_ASN -/
abbrev fAsn : BitVec 8 := 0x01
/-- SLURM_COM_FLAG_COMMENT -/
abbrev fComment : BitVec 8 := 0x02
/-- SLURM_PFX_FLAG_PREFIX -/
abbrev fPrefix : BitVec 8 := 0x04
/-- SLURM_PFX_FLAG_MAX_LENGTH -/
abbrev fMaxLen : BitVec 8 := 0x08
/-- SLURM_BGPS_FLAG_SKI -/
abbrev fSki : BitVec 8 := 0x04
/-- SLURM_BGPS_FLAG_ROUTER_KEY -/
abbrev fKey : BitVec 8 := 0x08

/-- `struct slurm_prefix` (src/slurm/db_slurm.h:21-24). The address family is 0 (`none`) until a prefix is set. The
address is a number; IPv4 addresses are in the 32 lower bits. -/
structure SPrefix where
  flag : BitVec 8
  asn : BitVec 32
  fam : Option Fam
  prefix_ : BitVec 128
  len : BitVec 8
  maxLen : BitVec 8
  deriving DecidableEq, Repr

/-- `struct slurm_bgpsec` (src/slurm/db_slurm.h:26-31). `ski` and `spk` are the contents of the memory blocks the
pointers point to. -/
structure SBgpsec where
  flag : BitVec 8
  asn : BitVec 32
  ski : List Byte
  spk : List Byte
  deriving DecidableEq, Repr

/-- The bytes of a `struct in6_addr`. -/
def bytes6 (x : BitVec 128) : In6 := (List.range 16).map (fun i => (x >>> (8 * (15 - i))).setWidth 8)

/-- src/types/address.c:490-495 `ipv4_covered` (in host byte order). -/
def ipv4Covered (f : BitVec 32) (flen : Nat) (son : BitVec 32) : Bool := decide (son &&& ~~~ u32SuffixMask flen = f)

/-- The loop of src/types/address.c:500-516 `ipv6_covered`, from some byte on. -/
def ipv6CoveredLoop : In6 → In6 → In6 → Bool
  | f :: fs, s :: ss, m :: ms => if s &&& ~~~ m ≠ f then false else ipv6CoveredLoop fs ss ms
  | _, _, _ => true

/-- src/types/address.c:500-516 `ipv6_covered`. -/
def ipv6Covered (f : In6) (flen : Nat) (son : In6) : Bool :=
  ipv6CoveredLoop f son (ipv6SuffixMask flen Res.In6.zero)

/-- src/types/vrp.c:27-44 `vrp_prefix_cov`. -/
def vrpPrefixCov (a b : SPrefix) : Out Bool :=
  if a.fam ≠ b.fam then .ok false
  else match a.fam with
    | some .v4 =>
      .ok (ipv4Covered (a.prefix_.setWidth 32) a.len.toNat (b.prefix_.setWidth 32) && decide (a.len ≤ b.len))
    | some .v6 => .ok (ipv6Covered (bytes6 a.prefix_) a.len.toNat (bytes6 b.prefix_) && decide (a.len ≤ b.len))
    | none => .crash

/-- src/slurm/db_slurm.c:131-177 `prefix_filtered_by`. -/
def prefixFilteredBy (f p : SPrefix) : Out Bool :=
  if f.flag &&& ~~~ fComment ≠ p.flag &&& ~~~ fComment then
    if f.flag &&& ~~~ fComment = fAsn ||| fPrefix then
      if f.asn = p.asn then vrpPrefixCov f p else .ok false
    else if f.flag &&& fAsn > 0 ∧ p.flag &&& fAsn > 0 then .ok (decide (f.asn = p.asn))
    else if f.flag &&& fPrefix > 0 ∧ p.flag &&& fPrefix > 0 then vrpPrefixCov f p
    else .ok false
  else
    let equal := if f.flag &&& fAsn > 0 then decide (f.asn = p.asn) else true
    if equal ∧ f.flag &&& fPrefix > 0 then vrpPrefixCov f p else .ok equal

/-- src/slurm/db_slurm.c:179-189 `prefix_filtered`. -/
def prefixFiltered : List SPrefix → SPrefix → Out Bool
  | [], _ => .ok false
  | f :: fs, p => do if ← prefixFilteredBy f p then .ok true else prefixFiltered fs p

/-- src/slurm/db_slurm.c:191-232 `bgpsec_filtered_by`. `memcmp` compares RK_SKI_LEN = 20 bytes; both blocks have
exactly 20 (src/slurm/slurm_parser.c:239-242). -/
def bgpsecFilteredBy (f b : SBgpsec) : Bool :=
  if f.flag &&& ~~~ fComment ≠ b.flag &&& ~~~ fComment then
    if f.flag &&& ~~~ fComment = fAsn ||| fSki then decide (b.asn = f.asn) && decide (b.ski.take 20 = f.ski.take 20)
    else if b.flag &&& fAsn > 0 ∧ f.flag &&& fAsn > 0 then decide (b.asn = f.asn)
    else if b.flag &&& fSki > 0 ∧ f.flag &&& fSki > 0 then decide (b.ski.take 20 = f.ski.take 20)
    else false
  else
    let equal := if f.flag &&& fAsn > 0 then decide (f.asn = b.asn) else true
    if equal ∧ f.flag &&& fSki > 0 then decide (f.ski.take 20 = b.ski.take 20) else equal

/-- src/slurm/db_slurm.c:234-244 `bgpsec_filtered`. -/
def bgpsecFiltered (fs : List SBgpsec) (b : SBgpsec) : Bool := fs.any (fun f => bgpsecFilteredBy f b)

/-- src/slurm/db_slurm.c:246-257 `prefix_contained`. -/
def prefixContained (l r : SPrefix) : Out Bool :=
  if l.flag &&& fPrefix > 0 ∧ r.flag &&& fPrefix > 0 then vrpPrefixCov l r else .ok false

/-- One of the two loops of src/slurm/db_slurm.c:267-283 `prefix_exists`. -/
def prefixExistsIn : List SPrefix → SPrefix → Out Bool
  | [], _ => .ok false
  | c :: cs, e => do
    if ← prefixContained c e then .ok true
    else if ← prefixContained e c then .ok true
    else prefixExistsIn cs e

/-- `struct slurm_lists` (src/slurm/db_slurm.c:26-31). The reference counts of the wrappers only drive `free`. -/
structure Lists where
  filterPfx : List SPrefix
  assertPfx : List SPrefix
  filterBgps : List SBgpsec
  assertBgps : List SBgpsec
  deriving DecidableEq, Repr

/-- src/slurm/db_slurm.c:60-73 `slurm_lists_create`. -/
def Lists.empty : Lists := ⟨[], [], [], []⟩

/-- `struct db_slurm` (src/slurm/db_slurm.c:33-38) without the load date. A NULL cache is `none`. -/
structure Db where
  lists : Lists
  cache : Option Lists
  deriving DecidableEq, Repr

/-- src/slurm/db_slurm.c:267-283 `prefix_exists`. -/
def prefixExists (db : Db) (e : SPrefix) : Out Bool := do
  if ← prefixExistsIn db.lists.filterPfx e then .ok true else prefixExistsIn db.lists.assertPfx e

/-- The `al_*_add` on the cache that ends the four functions below: a NULL cache would be dereferenced. -/
def Db.addCache (db : Db) (f : Lists → Lists) : Out Db :=
  match db.cache with
  | none => .crash
  | some c => .ok { db with cache := some (f c) }

/-- src/slurm/db_slurm.c:285-298 `db_slurm_add_prefix_filter`. -/
def addPrefixFilter (db : Db) (e : SPrefix) : Out Db := do
  if ← prefixExists db e then .err true
  else db.addCache (fun c => { c with filterPfx := c.filterPfx ++ [e] })

/-- src/slurm/db_slurm.c:300-313 `db_slurm_add_prefix_assertion`. -/
def addPrefixAssertion (db : Db) (e : SPrefix) : Out Db := do
  if ← prefixExists db e then .err true
  else db.addCache (fun c => { c with assertPfx := c.assertPfx ++ [e] })

/-- src/slurm/db_slurm.c:315-321 `bgpsec_contained`. -/
def bgpsecContained (l r : SBgpsec) : Bool :=
  decide (l.flag &&& fAsn > 0) && decide (r.flag &&& fAsn > 0) && decide (l.asn = r.asn)

/-- src/slurm/db_slurm.c:330-346 `bgpsec_exists`. -/
def bgpsecExists (db : Db) (e : SBgpsec) : Bool :=
  db.lists.filterBgps.any (fun c => bgpsecContained c e || bgpsecContained e c) ||
  db.lists.assertBgps.any (fun c => bgpsecContained c e || bgpsecContained e c)

/-- src/slurm/db_slurm.c:348-361 `db_slurm_add_bgpsec_filter`. -/
def addBgpsecFilter (db : Db) (e : SBgpsec) : Out Db :=
  if bgpsecExists db e then .err true
  else db.addCache (fun c => { c with filterBgps := c.filterBgps ++ [e] })

/-- src/slurm/db_slurm.c:363-376 `db_slurm_add_bgpsec_assertion`. -/
def addBgpsecAssertion (db : Db) (e : SBgpsec) : Out Db :=
  if bgpsecExists db e then .err true
  else db.addCache (fun c => { c with assertBgps := c.assertBgps ++ [e] })

/-- src/slurm/db_slurm.c:378-388 `db_slurm_vrp_is_filtered`. -/
def vrpIsFiltered (l : Lists) (v : Vrp) : Out Bool :=
  prefixFiltered l.filterPfx ⟨fAsn ||| fPrefix ||| fMaxLen, v.asn, some v.fam, v.prefix_, v.len, v.maxLen⟩

/-- src/slurm/db_slurm.c:390-404 `db_slurm_bgpsec_is_filtered`. -/
def bgpsecIsFiltered (l : Lists) (k : RouterKey) : Bool :=
  bgpsecFiltered l.filterBgps ⟨fAsn ||| fSki, k.as, k.ski, []⟩

/-- src/slurm/db_slurm.c:529-533 `db_slurm_start_cache`. -/
def Db.startCache (db : Db) : Db := { db with cache := some Lists.empty }

/-- src/slurm/db_slurm.c:576-586 `db_slurm_flush_cache`. -/
def Db.flushCache (db : Db) : Out Db :=
  match db.cache with
  | none => .crash
  | some c => .ok ⟨⟨db.lists.filterPfx ++ c.filterPfx, db.lists.assertPfx ++ c.assertPfx,
      db.lists.filterBgps ++ c.filterBgps, db.lists.assertBgps ++ c.assertBgps⟩, none⟩

/-- src/slurm/db_slurm.c:588-595 `db_slurm_has_data`. -/
def Lists.hasData (l : Lists) : Bool :=
  decide (l.filterPfx.length > 0) || decide (l.filterBgps.length > 0) || decide (l.assertPfx.length > 0) ||
    decide (l.assertBgps.length > 0)

/-! ### Application to a table -/

/-- `db_table_foreach_roa` with src/slurm/slurm_loader.c:53-62 `slurm_pfx_filters_apply`: every node of the table is
visited once (HASH_ITER lets the callback delete the current node). -/
def applyPfxFilters (l : Lists) : List Vrp → Table → Out Table
  | [], t => .ok t
  | v :: vs, t => do
    if ← vrpIsFiltered l v then applyPfxFilters l vs (t.removeRoa v) else applyPfxFilters l vs t

/-- `db_table_foreach_router_key` with src/slurm/slurm_loader.c:100-109 `slurm_bgpsec_filters_apply`. -/
def applyBgpsecFilters (l : Lists) (t : Table) : Table :=
  t.keys.foldl (fun t k => if bgpsecIsFiltered l k then t.removeKey k else t) t

/-- src/slurm/slurm_loader.c:64-91 `slurm_pfx_assertions_add`, with `rtrhandler_handle_roa_v4/v6`. -/
def pfxAssertionAdd (t : Table) (p : SPrefix) : Out Table :=
  let maxLen := if p.flag &&& fMaxLen = 0 then p.len else p.maxLen
  match p.fam with
  | some .v4 => .ok (Rtr.handleRoaV4 t p.asn (p.prefix_.setWidth 32) p.len maxLen)
  | some .v6 => .ok (Rtr.handleRoaV6 t p.asn p.prefix_ p.len maxLen)
  | none => .crash

/-- src/slurm/slurm_loader.c:93-98 `slurm_pfx_assertions_apply`. -/
def applyPfxAssertions : List SPrefix → Table → Out Table
  | [], t => .ok t
  | p :: ps, t => do applyPfxAssertions ps (← pfxAssertionAdd t p)

/-- src/slurm/slurm_loader.c:111-118 `slurm_bgpsec_assertions_add`, with src/rtr/db/db_table.c:221-237
`rtrhandler_handle_router_key` and src/types/router_key.c:6-13 `router_key_init`: 20 bytes of the SKI block and
RK_SPKI_LEN = 91 bytes of the key block are copied; a shorter block is read past its end. -/
def bgpsecAssertionAdd (t : Table) (b : SBgpsec) : Out Table :=
  if b.ski.length < 20 ∨ b.spk.length < 91 then .crash
  else .ok (t.addKey ⟨b.ski.take 20, b.asn, b.spk.take 91⟩)

/-- src/slurm/slurm_loader.c:120-125 `slurm_bgpsec_assertions_apply`. -/
def applyBgpsecAssertions : List SBgpsec → Table → Out Table
  | [], t => .ok t
  | b :: bs, t => do applyBgpsecAssertions bs (← bgpsecAssertionAdd t b)

/-- src/slurm/slurm_loader.c:268-304 `slurm_apply` from line 286 on (the SLURM is known). -/
def applyLists (l : Lists) (t : Table) : Out Table := do
  let t ← applyPfxFilters l t.roas t
  let t := applyBgpsecFilters l t
  let t ← applyPfxAssertions l.assertPfx t
  applyBgpsecAssertions l.assertBgps t

end Verif.Slurm
