import Verif.Rrdp.Model
/-
What RRDP documents say, and what following them means.
-/
namespace Verif.Rrdp
open Verif.Res (Byte)
open Verif.Uri

/-- A change of the repository: a file (with its old hash, optionally) is published, a file (with its old hash) is withdrawn. -/
inductive Change where
  | publish (path : List Byte) (expect : Option (List Byte)) (content : List Byte)
  | withdraw (path : List Byte) (expect : List Byte)

/-- The file is there and has this hash. -/
def Has (sha : List Byte → List Byte) (d : Disk) (p h : List Byte) : Prop := ∃ old, d p = some old ∧ sha old = h

/-- Making changes one after the other; each one needs its old file to be as expected. -/
inductive Applies (sha : List Byte → List Byte) : Disk → List Change → Disk → Prop
  | nil (d : Disk) : Applies sha d [] d
  | publish (d d' : Disk) (p : List Byte) (e : Option (List Byte)) (c : List Byte) (cs : List Change)
      (h : ∀ x, e = some x → Has sha d p x) (r : Applies sha (d.set p (some c)) cs d') :
      Applies sha d (.publish p e c :: cs) d'
  | withdraw (d d' : Disk) (p x : List Byte) (cs : List Change) (h : Has sha d p x) (r : Applies sha (d.set p none) cs d') :
      Applies sha d (.withdraw p x :: cs) d'

/-- The hexadecimal text of an attribute, as bytes. -/
def HashAttr (n : XNode) (h : List Byte) : Prop := ∃ s, n.attr "hash" = some s ∧ hexstr2sha256 s = some (some h)

/-- The path of a file of the repository. -/
def PathAttr (env : Env) (tal : List Byte) (notif : Uri) (n : XNode) (p : List Byte) : Prop :=
  ∃ s u, n.attr "uri" = some s ∧ uriCreate env.repo (some tal) .caged (some notif) s = .ok u ∧ u.loc = p

/-- The session and serial a root element has. -/
def SessionAttrs (n : XNode) (s : Session) : Prop :=
  n.ns = rrdpNs ∧ n.attr "session_id" = some s.id ∧ parseSerial n = some s.serial

/-- The changes a snapshot or a delta of a session lists: `publish` elements, followed by their content, `withdraw` elements, the
root element, and no others. In a snapshot there are no hashes and no withdrawals. -/
inductive Lists (env : Env) (tal : List Byte) (notif : Uri) (isDelta : Bool) (s : Session) : List XNode → List Change → Prop
  | nil : Lists env tal notif isDelta s [] []
  | publish (n t : XNode) (rest : List XNode) (p v c : List Byte) (e : Option (List Byte)) (cs : List Change)
      (h1 : n.type = .elem) (h2 : n.name = "publish") (hp : PathAttr env tal notif n p) (hv : t.value = some v)
      (hc : env.b64 v = some c)
      (he : if isDelta then (∀ x, e = some x → HashAttr n x) ∧ (e = none → n.attr "hash" = none) else e = none)
      (r : Lists env tal notif isDelta s rest cs) :
      Lists env tal notif isDelta s (n :: t :: rest) (.publish p e c :: cs)
  | withdraw (n : XNode) (rest : List XNode) (p x : List Byte) (cs : List Change) (hd : isDelta = true)
      (h1 : n.type = .elem) (h2 : n.name = "withdraw") (hp : PathAttr env tal notif n p) (hx : HashAttr n x)
      (r : Lists env tal notif isDelta s rest cs) :
      Lists env tal notif isDelta s (n :: rest) (.withdraw p x :: cs)
  | root (n : XNode) (rest : List XNode) (cs : List Change) (h1 : n.type = .elem)
      (h2 : n.name = if isDelta then "delta" else "snapshot") (hs : SessionAttrs n s) (r : Lists env tal notif isDelta s rest cs) :
      Lists env tal notif isDelta s (n :: rest) cs
  | other (n : XNode) (rest : List XNode) (cs : List Change) (h : n.type ≠ .elem) (r : Lists env tal notif isDelta s rest cs) :
      Lists env tal notif isDelta s (n :: rest) cs

/-- The directory of the repository of this notification. -/
def IsCage (env : Env) (tal : List Byte) (notif : Uri) (cage : List Byte) : Prop :=
  ∃ c, uriCreate env.repo (some tal) .caged (some notif) [] = .ok c ∧ c.loc = cage

/-- A file is the directory, or in it. -/
def In (dir p : List Byte) : Prop := p = dir ∨ (dir ++ [slash]) <+: p

instance (dir p : List Byte) : Decidable (In dir p) := by unfold In; infer_instance

/-- The repository's files only. -/
def only (cage : List Byte) (d : Disk) : Disk := fun p => if In cage p then d p else none

/-- Deltas followed one after the other: for each, a document with its hash, and its serial. -/
inductive Follows (env : Env) (tal : List Byte) (u : Uri) (id : List Byte) : List Delta → Disk → Disk → Prop
  | nil (d : Disk) : Follows env tal u id [] d d
  | cons (x : Delta) (xs : List Delta) (d d1 d2 : Disk) (c : List Byte) (cs : List Change) (hc : env.sha c = x.info.hash.getD [])
      (hl : Lists env tal u true ⟨id, x.serial⟩ (env.xml c).nodes cs) (ha : Applies env.sha d cs d1)
      (r : Follows env tal u id xs d1 d2) : Follows env tal u id (x :: xs) d d2

/-- What the schema and XML itself guarantee of a notification: one root element, `notification`, that is closed, with nothing but
comments and the like around it, and no other element of that name. -/
def SchemaOk (d : Doc) : Prop :=
  ∃ pre root body fin post, d.nodes = pre ++ root :: (body ++ fin :: post) ∧ root.type = .elem ∧ root.name = "notification" ∧
    fin.type = .endElem ∧ fin.name = "notification" ∧ (∀ n ∈ pre, n.type = .other) ∧ (∀ n ∈ post, n.type = .other) ∧
    (∀ n ∈ body, n.type ≠ .other → n.name ≠ "notification") ∧ d.nodes.length < 2 ^ 64

/-- The notification's hashes are hashes of documents that tell what the server's repository is: applied to nothing, the
snapshot gives the repository at the notification's serial; applied to the repository of the serial before its own, each delta
gives the repository of its serial. (No other document has one of these hashes.) -/
def Honest (env : Env) (tal : List Byte) (u : Uri) (nf : Notif) (s : Session) (files : Nat → Disk) : Prop :=
  (∀ m c cs d, nf.snapshot = some m → env.sha c = m.hash.getD [] → Lists env tal u false s (env.xml c).nodes cs →
    Applies env.sha (fun _ => none) cs d → d = files s.serial) ∧
  ∀ x ∈ nf.deltas, ∀ c cs d, env.sha c = x.info.hash.getD [] → Lists env tal u true ⟨s.id, x.serial⟩ (env.xml c).nodes cs →
    Applies env.sha (files (x.serial - 1)) cs d → d = files x.serial

/-- The repository is what the server had at the serial of the local notification. -/
def Synced (env : Env) (tal : List Byte) (u : Uri) (cage : List Byte) (files : List Byte → Nat → Disk) (d : Disk) : Prop :=
  ∀ nf s, parseNotification env tal d u = (.ok, nf) → nf.session = some s → only cage d = files s.id s.serial

/-- The places of the files that a notification lists. -/
def ListedAt (nf : Notif) (q : List Byte) : Prop :=
  (∃ m, nf.snapshot = some m ∧ q = m.uri.loc) ∨ ∃ x ∈ nf.deltas, q = x.info.uri.loc

/-- A server's answers, whichever way its notification's URL is written: each notification is honest and does not list itself. -/
def Serves (env : Env) (tal : List Byte) (u : Uri) (files : List Byte → Nat → Disk) : Prop :=
  ∀ (t : Nat) (url : Verif.Cache.Url) (d : Disk) (nf : Notif) (s : Session), url.uri.loc = u.loc →
    d u.loc = some (env.http t url).body → parseNotification env tal d u = (.ok, nf) → nf.session = some s →
    Honest env tal u nf s (files s.id) ∧ ¬ ListedAt nf u.loc

/-- A history: successful updates of a repository, and whatever else leaves its directory and its notification alone (such as the
beginning of another validation cycle). -/
inductive Runs (env : Env) (u : Uri) (cage : List Byte) : World → World → Prop
  | start (w : World) : Runs env u cage w w
  | update (w w1 w2 : World) (h : Runs env u cage w w1) (hu : rrdpUpdate env w1 u = (.ok, w2)) : Runs env u cage w w2
  | other (w w1 w2 : World) (h : Runs env u cage w w1) (ht : w2.cache.tal = w1.cache.tal)
      (hd : ∀ q, In cage q ∨ q = u.loc → w2.disk q = w1.disk q) : Runs env u cage w w2

end Verif.Rrdp
