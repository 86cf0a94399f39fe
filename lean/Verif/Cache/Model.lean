import Verif.Uri.ModelUri
/-
Model of the local cache's downloads (src/cache/local_cache.c): which URLs are fetched, what is remembered about them, and
which one is used when nothing can be fetched. What the network (or the disk, in offline mode) and the clock answer is a
parameter.
-/
namespace Verif.Cache
open Verif.Res (Byte)
open Verif.Uri

/-- A `struct rpki_uri` with its `is_notif` flag. -/
structure Url where
  uri : Uri
  isNotif : Bool
  deriving DecidableEq, Repr

/-- src/cache/local_cache.c:20-36 `struct cache_node`; `success` is `none` when it never happened. Not modelled: the hash
table's hooks. -/
structure Node where
  url : Url
  attemptTs : Int
  attemptRes : Int
  success : Option Int
  deriving DecidableEq, Repr

/-- The table's key: the local path. -/
def Node.key (n : Node) : List Byte := n.url.uri.loc

/-- src/cache/local_cache.c:38-42 `struct rpki_cache`. The table is the list of its nodes, in the order they were added
(the order `HASH_ITER` walks). -/
structure Cache where
  tal : List Byte
  nodes : List Node
  startup : Int
  deriving DecidableEq, Repr

/-- The values `errno`-like results have: `pr_val_err` is -EINVAL. -/
def errCode : Err → Int
  | .inval => -22
  | .nospc => 28
  | .notRsync => 3174
  | .notHttps => 3175

/-- The loop of src/cache/local_cache.c:452-536 `get_url`: the text up to and including the fourth slash, when there is
one; `n` is the number of slashes found so far. -/
def fourthSlash (n : Nat) : List Byte → Option (List Byte)
  | [] => none
  | c :: cs =>
    if c = slash then
      if n + 1 = 4 then some [c] else (fourthSlash (n + 1) cs).map (c :: ·)
    else (fourthSlash n cs).map (c :: ·)

/-- src/cache/local_cache.c:452-536 `get_url`. `repo` is the configured local repository. -/
def getUrl (repo tal : List Byte) (u : Url) : R Url :=
  if u.uri.type ≠ .rsync then .ok u
  else
    match fourthSlash 0 u.uri.global with
    | some g => do .ok ⟨← uriCreate repo (some tal) .rsync none g, false⟩
    | none =>
      if u.uri.global.count slash = 3 ∧ u.uri.global.getLast? ≠ some slash then do
        .ok ⟨← uriCreate repo (some tal) .rsync none (u.uri.global ++ [slash]), false⟩
      else .err .inval

/-- src/cache/local_cache.c:538-542 `was_recently_downloaded`; `difftime` is exact for the timestamps of interest. -/
def wasRecentlyDownloaded (c : Cache) (n : Node) : Bool := decide (c.startup - n.attemptTs ≤ 0)

/-- src/cache/local_cache.c:303-310 `find_node`. Keys are unique (proved, `Cache.Ok`), so which one of several matching
nodes is found does not matter. -/
def findNode (c : Cache) (key : List Byte) : Option Node := c.nodes.find? (fun n => decide (n.key = key))

/-- Writes to a node of the table. -/
def updateNode (c : Cache) (n : Node) : Cache :=
  { c with nodes := c.nodes.map (fun m => if m.key = n.key then n else m) }

/-- src/cache/local_cache.c:312-318 `add_node` -/
def addNode (c : Cache) (n : Node) : Cache := { c with nodes := c.nodes ++ [n] }

/-- Configuration: `rsync.enabled`, `http.enabled`, and the two priorities. -/
structure Cfg where
  rsyncEnabled : Bool
  httpEnabled : Bool
  rsyncPriority : Nat
  httpPriority : Nat

/-- What is done to get the contents of a URL: `rsync_download`, `http_download`, or looking whether it is there. -/
inductive Op where
  | rsync
  | http
  | check
  deriving DecidableEq, Repr

/-- The result of an operation, and the time when it ended. -/
structure Resp where
  result : Int
  now : Int

/-- A request's result, the cache after it, and what was attempted, if something was. -/
structure Dl where
  result : Int
  cache : Cache
  tried : Option (Op × Url)
  deriving DecidableEq, Repr

/-- The second half of src/cache/local_cache.c:568-619 `cache_download`: the download, and what is remembered of it. `none`
is a `pr_crit`. -/
def fetch (cfg : Cfg) (c : Cache) (n : Node) (resp : Op → Url → Resp) : Option Dl :=
  let op : Option Op := match n.url.uri.type with
    | .rsync => some (if cfg.rsyncEnabled then .rsync else .check)
    | .https => some (if cfg.httpEnabled then .http else .check)
    | .caged => none
  match op with
  | none => none
  | some op =>
    let r := resp op n.url
    if r.now = -1 then none
    else
      let n := { n with attemptTs := r.now, attemptRes := r.result,
                        success := if r.result = 0 then some r.now else n.success }
      some ⟨r.result, updateNode c n, some (op, n.url)⟩

/-- src/cache/local_cache.c:568-619 `cache_download`. Not modelled here: `changed`. -/
def cacheDownload (cfg : Cfg) (repo : List Byte) (c : Cache) (u : Url) (resp : Op → Url → Resp) : Option Dl :=
  match getUrl repo c.tal u with
  | .crash => none
  | .err e => some ⟨errCode e, c, none⟩
  | .ok url =>
    match findNode c url.uri.loc with
    | some n =>
      if wasRecentlyDownloaded c n then some ⟨n.attemptRes, c, none⟩
      else fetch cfg c n resp
    | none =>
      let n : Node := ⟨url, 0, 0, none⟩
      fetch cfg (addNode c n) n resp

/-! ### Alternatives -/

/-- What happens during src/cache/local_cache.c:668-701 `cache_download_alt`: a URL is downloaded (with this result), or handed over to the
caller (who answers this). -/
inductive Event where
  | tried (u : Url) (result : Int)
  | used (u : Url) (result : Int)
  deriving DecidableEq, Repr

/-- The world: how a download changes it and what its result is (`rrdp_update` for https URLs when `use_rrdp`,
`cache_download` otherwise), and the same for the callback. -/
structure World (S : Type) where
  dl : S → Url → Int × S
  cb : S → Url → Int × S

/-- src/cache/local_cache.c:621-636 `download` -/
def download {S} (w : World S) (s : S) (u : Url) : Int × S × List Event :=
  let (e, s) := w.dl s u
  if e ≠ 0 then (1, s, [.tried u e])
  else
    let (r, s) := w.cb s u
    (r, s, [.tried u e, .used u r])

/-- A loop of `download`s that goes on while the result is positive; the end of the list is 1. -/
def downloadEach {S} (w : World S) : List Url → S → Int × S × List Event
  | [], s => (1, s, [])
  | u :: us, s =>
    let (r, s, ev) := download w s u
    if r ≤ 0 then (r, s, ev)
    else
      let (r, s, ev') := downloadEach w us s
      (r, s, ev ++ ev')

/-- src/cache/local_cache.c:638-654 `download_uris` -/
def downloadUris {S} (w : World S) (us : List Url) (type : UriType) (s : S) : Int × S × List Event :=
  downloadEach w (us.filter (fun u => decide (u.uri.type = type))) s

/-- One after the other, while the result is positive. -/
def andThen {S} (a : Int × S × List Event) (b : S → Int × S × List Event) : Int × S × List Event :=
  if a.1 ≤ 0 then a
  else
    let (r, s, ev) := b a.2.1
    (r, s, a.2.2 ++ ev)

/-- The end of src/cache/local_cache.c:668-701 `cache_download_alt`: what was recovered is handed over; ESRCH is 3. -/
def useRecovered {S} (w : World S) (recovered : S → Option Url) (s : S) : Int × S × List Event :=
  match recovered s with
  | some u =>
    let (r, s) := w.cb s u
    (r, s, [.used u r])
  | none => (3, s, [])

/-- src/cache/local_cache.c:668-701 `cache_download_alt`. -/
def cacheDownloadAlt {S} (cfg : Cfg) (w : World S) (recovered : S → Option Url) (us : List Url) (s : S) :
    Int × S × List Event :=
  if cfg.httpPriority > cfg.rsyncPriority then
    andThen (downloadUris w us .https s) fun s =>
      andThen (downloadUris w us .rsync s) fun s => useRecovered w recovered s
  else if cfg.httpPriority < cfg.rsyncPriority then
    andThen (downloadUris w us .rsync s) fun s =>
      andThen (downloadUris w us .https s) fun s => useRecovered w recovered s
  else
    andThen (downloadEach w us s) fun s => useRecovered w recovered s

/-! ### Recovery -/

/-- src/cache/local_cache.c:712-734 `choose_better`, whether the new one is chosen (both are real nodes). -/
def newIsBetter (old new : Node) (oldTs newTs : Int) : Bool :=
  if old.attemptRes ≠ 0 ∧ new.attemptRes = 0 then true
  else if old.attemptRes = 0 ∧ new.attemptRes ≠ 0 then false
  else decide (oldTs - newTs < 0)

/-- src/cache/local_cache.c:712-734 `choose_better`. A node that never succeeded cannot be `old`: `old` is NULL or was
chosen. -/
def chooseBetter (old : Option Node) (new : Node) : Option Node :=
  match new.success with
  | none => old
  | some nt =>
    match old with
    | none => some new
    | some o => if newIsBetter o new (o.success.getD 0) nt then some new else some o

/-- The loop of src/cache/local_cache.c:742-763 `__cache_recover`. Nodes are compared as pointers: by key here. -/
def cacheRecoverLoop (repo : List Byte) (c : Cache) : List Url → Option (Url × Node) → Option (Url × Node)
  | [], best => best
  | u :: us, best =>
    match getUrl repo c.tal u with
    | .ok url =>
      match findNode c url.uri.loc with
      | none => cacheRecoverLoop repo c us best
      | some n =>
        if (chooseBetter (best.map (·.2)) n).map Node.key = some n.key then cacheRecoverLoop repo c us (some (u, n))
        else cacheRecoverLoop repo c us best
    | _ => cacheRecoverLoop repo c us best

/-- src/cache/local_cache.c:765-771 `cache_recover` -/
def cacheRecover (repo : List Byte) (c : Cache) (us : List Url) : Option Url :=
  (cacheRecoverLoop repo c us none).map (·.1)

end Verif.Cache
