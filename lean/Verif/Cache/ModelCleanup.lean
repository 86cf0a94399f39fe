import Verif.Cache.Model
import Verif.Slurm.ModelParser
/-
Model of the cache's cleanup and of its index file (src/cache/local_cache.c).
The file system is the list of its entries. Removals succeed.
-/
namespace Verif.Cache
open Verif.Res (Byte)
open Verif.Uri
open Verif.Slurm (Json)

/-- A file or directory. -/
structure Entry where
  path : List Byte
  isDir : Bool
  deriving DecidableEq, Repr

/-- The file system. -/
abbrev Fs := List Entry

/-- The path is the directory or something in it. -/
def isUnder (dir path : List Byte) : Bool := decide (path = dir) || (dir ++ [slash]).isPrefixOf path

/-- src/file.c:123-128 `file_exists`, when `stat` works -/
def fileExists (fs : Fs) (p : List Byte) : Bool := fs.any (fun e => decide (e.path = p))

/-- src/file.c:138-143 `file_rm_rf`; removals succeed. -/
def rmRf (fs : Fs) (p : List Byte) : Fs := fs.filter (fun e => !isUnder p e.path)

/-- `uri_create_cage` (src/types/uri.h): the directory of an RRDP repository. -/
def cageOf (repo tal : List Byte) (u : Url) : Option (List Byte) :=
  match uriCreate repo (some tal) .caged (some u.uri) [] with
  | .ok c => some c.loc
  | _ => none

/-- src/cache/local_cache.c:786-791 `is_node_fresh` -/
def isNodeFresh (n : Node) (epoch : Int) : Bool := decide (epoch - n.attemptTs < 0)

/-- src/cache/local_cache.c:793-799 `delete_node` -/
def deleteNode (c : Cache) (n : Node) : Cache := { c with nodes := c.nodes.filter (fun m => !decide (m = n)) }

/-- src/cache/local_cache.c:801-815 `delete_node_and_cage` -/
def deleteNodeAndCage (repo : List Byte) (c : Cache) (fs : Fs) (n : Node) : Cache × Fs :=
  let fs := if n.url.isNotif then
      match cageOf repo c.tal n.url with
      | some cage => rmRf fs cage
      | none => fs
    else fs
  (deleteNode c n, fs)

/-- src/cache/local_cache.c:840-867 `cleanup_node`; `statFails` are the paths `stat` fails on for another reason than
ENOENT. -/
def cleanupNode (repo : List Byte) (statFails : List Byte → Bool) (lastWeek : Int) (s : Cache × Fs) (n : Node) : Cache × Fs :=
  if statFails n.key = false ∧ fileExists s.2 n.key = false then deleteNodeAndCage repo s.1 s.2 n
  else if isNodeFresh n lastWeek then s
  else deleteNodeAndCage repo s.1 (rmRf s.2 n.key) n

/-- The comparison of src/cache/local_cache.c:876-902 `is_cached` with one path. The strings have no NUL: the end of the
list is the terminator. -/
def related : List Byte → List Byte → Bool
  | [], [] => true
  | [], b :: _ => decide (b = slash)
  | a :: _, [] => decide (a = slash)
  | a :: f, b :: n => if a = b then related f n else false

/-- src/cache/local_cache.c:876-902 `is_cached` -/
def isCached (dnc : List (List Byte)) (fpath : List Byte) : Bool := dnc.any (fun n => related fpath n)

/-- `remove(3)`: directories with something in them stay. -/
def removeEntry (fs : Fs) (e : Entry) : Fs :=
  if e.isDir = true ∧ fs.any (fun f => isUnder e.path f.path && !decide (f.path = e.path)) = true then fs
  else fs.filter (fun f => !decide (f = e))

/-- src/cache/local_cache.c:904-913 `delete_if_unknown` -/
def deleteIfUnknown (dnc : List (List Byte)) (fs : Fs) (e : Entry) : Fs :=
  if isCached dnc e.path then fs else removeEntry fs e

/-- "tal.json" -/
def talJson : List Byte := [0x74, 0x61, 0x6C, 0x2E, 0x6A, 0x73, 0x6F, 0x6E]

/-- The paths src/cache/local_cache.c:915-960 `delete_unknown_files` adds for a node. -/
def keptPaths (repo tal : List Byte) (n : Node) : List (List Byte) :=
  n.key :: (if n.url.isNotif then (match cageOf repo tal n.url with | some cage => [cage] | none => []) else [])

/-- src/cache/local_cache.c:915-960 `delete_unknown_files`. The walk visits what there is at the start, in any order (the
order of the list). -/
def deleteUnknownFiles (repo : List Byte) (c : Cache) (fs : Fs) : Fs :=
  match pbInitCache repo (some c.tal) (some talJson) with
  | .ok pb =>
    let dnc := pb.str :: c.nodes.flatMap (keptPaths repo c.tal)
    match pbPop pb true with
    | .ok pb => (fs.filter (fun e => isUnder pb.str e.path)).foldl (deleteIfUnknown dnc) fs
    | _ => fs
  | _ => fs

/-- src/cache/local_cache.c:965-978 `cache_cleanup`; `lastWeek` is `get_days_ago(7)`. -/
def cacheCleanup (repo : List Byte) (statFails : List Byte → Bool) (lastWeek : Int) (c : Cache) (fs : Fs) : Cache × Fs :=
  let s := c.nodes.foldl (cleanupNode repo statFails lastWeek) (c, fs)
  (s.1, deleteUnknownFiles repo s.1 s.2)

/-! ### The index file -/

/-- The C library's conversion of timestamps: src/json_util.c:231-244 `tt2str` and src/json_util.c:110-132 `str2tt`. -/
structure TimeEnv where
  tt2str : Int → Option (List Byte)
  str2tt : List Byte → Option Int

/-- A member of a JSON object. -/
def member (o : Json) (k : String) : Option Json :=
  match o with
  | .obj m => (m.find? (fun x => decide (x.1 = k))).map (·.2)
  | _ => none

/-- src/json_util.c:134-145 `json_get_ts`: error, absent, or the value. -/
def getTs (env : TimeEnv) (o : Json) (k : String) : Option (Option Int) :=
  match member o k with
  | none => some none
  | some (.str s) => (env.str2tt s).map some
  | some _ => none

/-- src/cache/local_cache.c:241-301 `json2node` -/
def json2node (env : TimeEnv) (repo tal : List Byte) (o : Json) : Option Node :=
  match member o "url" with
  | some (.str url) =>
    let type := if startsWith url httpsPrefix then some UriType.https
      else if startsWith url rsyncPrefix then some .rsync else none
    match type with
    | none => none
    | some type =>
      let isNotif := match member o "is-rrdp-notification" with
        | none => some false
        | some (.bool b) => some b
        | some _ => none
      match isNotif with
      | none => none
      | some isNotif =>
        match uriCreate repo (some tal) type none url with
        | .ok u =>
          match getTs env o "attempt-timestamp" with
          | some (some ts) =>
            let res := match member o "attempt-result" with
              | none => some 0
              | some (.int i) => if i < -2147483648 ∨ 2147483647 < i then none else some i
              | some _ => none
            match res with
            | none => none
            | some res =>
              match getTs env o "success-timestamp" with
              | none => none
              | some s => some ⟨⟨u, isNotif⟩, ts, res, s⟩
          | _ => none
        | _ => none
  | _ => none

/-- src/cache/local_cache.c:378-405 `node2json` -/
def node2json (env : TimeEnv) (n : Node) : Option Json :=
  match env.tt2str n.attemptTs with
  | none => none
  | some ats =>
    let base : List (String × Json) := [("url", .str n.url.uri.global)] ++
      (if n.url.isNotif then [("is-rrdp-notification", .bool true)] else []) ++
      [("attempt-timestamp", .str ats), ("attempt-result", .int n.attemptRes)]
    match n.success with
    | none => some (.obj base)
    | some t =>
      match env.tt2str t with
      | none => none
      | some s => some (.obj (base ++ [("success-timestamp", .str s)]))

/-- src/cache/local_cache.c:407-427 `build_tal_json` -/
def buildTalJson (env : TimeEnv) (c : Cache) : Json := .arr (c.nodes.filterMap (node2json env))

/-- src/cache/local_cache.c:320-363 `load_tal_json`, when the file is there and is JSON -/
def loadTalJson (env : TimeEnv) (repo tal : List Byte) (j : Json) : List Node :=
  match j with
  | .arr l => l.filterMap (json2node env repo tal)
  | _ => []

/-- src/cache/local_cache.c:365-376 `cache_create`; `none` for the index: it is missing or unreadable. -/
def cacheCreate (env : TimeEnv) (repo tal : List Byte) (now : Int) (index : Option Json) : Cache :=
  ⟨tal, match index with | none => [] | some j => loadTalJson env repo tal j, now⟩

end Verif.Cache
