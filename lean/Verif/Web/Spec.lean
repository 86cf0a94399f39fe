import Verif.Web.Model
/-
What libcurl does with its options, and what an HTTP server answers.
-/
namespace Verif.Web
open Verif.Rtr (Byte)
open Verif.Net (Answer Chunk)

/-! ### Libcurl -/

inductive Scheme where
  | http | https | ftp | ftps
  deriving DecidableEq, Repr

def Scheme.bit : Scheme → Nat
  | .http => 1
  | .https => 2
  | .ftp => 4
  | .ftps => 8

/-- A request that libcurl makes for a transfer: the first one, or one that's due to a redirection. `authentic`: the server has a certificate of a trusted
authority. `named`: the certificate is for the server's name. `condition` is its If-Modified-Since. -/
structure Hop where
  scheme : Scheme
  authentic : Bool
  named : Bool
  condition : Option Int

/-- A transfer that libcurl finished without an error. -/
structure Transfer where
  first : Hop
  redirects : List Hop
  /-- milliseconds until the connection was made, and until the end -/
  connect : Nat
  time : Nat
  /-- the response's code, and the size that it declared, if it did -/
  code : Int
  declared : Option Nat

/-- CURLOPT_SSL_VERIFYPEER and CURLOPT_SSL_VERIFYHOST, which default to 1 and 2. -/
def HopOk (h : Handle) (x : Hop) : Prop :=
  x.scheme ∈ [.https, .ftps] → ((h.long .sslVerifyPeer).getD 1 ≠ 0 → x.authentic = true) ∧ ((h.long .sslVerifyHost).getD 2 = 2 → x.named = true)

/-- What libcurl's manual says of the options. CURLOPT_PROTOCOLS defaults to everything. CURLOPT_REDIR_PROTOCOLS defaults to HTTP, HTTPS, FTP and FTPS. A timeout
of 0 means none; the default of CURLOPT_CONNECTTIMEOUT is 300 seconds and that of CURLOPT_MAXREDIRS is 30. -/
structure Transfer.Possible (h : Handle) (t : Transfer) : Prop where
  firstOk : HopOk h t.first
  hopsOk : ∀ x ∈ t.redirects, HopOk h x
  protocols : ((h.long .protocols).getD 15).toNat &&& t.first.scheme.bit ≠ 0
  redirProtocols : ∀ x ∈ t.redirects, ((h.long .redirProtocols).getD 15).toNat &&& x.scheme.bit ≠ 0
  follows : t.redirects ≠ [] → (h.long .followLocation).getD 0 ≠ 0
  redirs : (h.long .maxRedirs).getD 30 ≠ -1 → (t.redirects.length : Int) ≤ (h.long .maxRedirs).getD 30
  connect : (t.connect : Int) ≤ 1000 * (if (h.long .connectTimeout).getD 0 = 0 then 300 else (h.long .connectTimeout).getD 0)
  time : (h.long .timeout).getD 0 ≠ 0 → (t.time : Int) ≤ 1000 * (h.long .timeout).getD 0
  code : (h.long .failOnError).getD 0 ≠ 0 → t.code < 400
  size : ∀ n, t.declared = some n → (h.long .maxFileSize).getD 0 ≠ 0 → (n : Int) ≤ (h.long .maxFileSize).getD 0
  conditions : ∀ x ∈ t.first :: t.redirects, x.condition = h.condition

/-- What libcurl accepts, at least: the timeouts whose milliseconds are an int, and all the other values here. -/
def Accepting (accepts : Opt → Int → Bool) : Prop :=
  ∀ o v, 0 ≤ v → (o = .timeout ∨ o = .connectTimeout → v ≤ 2147483) → (o = .maxRedirs → v ≤ 32767) → accepts o v = true

/-- libcurl's: it refuses the timeouts whose milliseconds aren't an int. -/
def curlAccepts (o : Opt) (v : Int) : Bool := match o with
  | .timeout => decide (0 ≤ v ∧ v ≤ 2147483)
  | .connectTimeout => decide (0 ≤ v ∧ v ≤ 2147483)
  | .maxRedirs => decide (-1 ≤ v ∧ v ≤ 32767)
  | _ => true

/-! ### Servers -/

/-- A file of a server: the contents it has had, the first one first, and when it got them, in milliseconds of the server's clock. -/
abbrev Pubs := List (Nat × List Byte)

/-- What was published until `t`. -/
def Pubs.last (p : Pubs) (t : Nat) : Option (Nat × List Byte) := (p.filter fun x => x.1 ≤ t).getLast?

/-- The response to a request at `t`. RFC 9110, section 13.1.3: if the file's last modification, which is a number of seconds, is not after the request's date
then the response is 304 (Not Modified). `cut` is how the document arrives. -/
def Pubs.respond (p : Pubs) (cut : List Byte → List (List Byte)) (t : Nat) (condition : Option Int) : Answer :=
  match p.last t with
  | none => ⟨true, [], .ok, true, 404, 0⟩
  | some x =>
    if ∃ c, condition = some c ∧ ((x.1 / 1000 : Nat) : Int) ≤ c then ⟨true, [], .ok, true, 304, 0⟩
    else ⟨true, (cut x.2).map fun d => ⟨d, 0, d.length⟩, .ok, true, 200, x.2.length⟩

/-- The contents are published in order. -/
def Pubs.Ordered (p : Pubs) : Prop := p.Pairwise fun a b => a.1 ≤ b.1

/-- An attempt to download: when the server answers; or what happens instead, which is a failure. -/
structure Try where
  time : Nat
  fails : Option Answer

def Fails (a : Answer) : Prop := a.res ≠ .ok ∨ a.code ≥ 400 ∨ a.initOk = false ∨ a.infoOk = false

/-- A download: its attempts; when it ends, in seconds of the local clock; and what the file system does. -/
structure Event where
  tries : Nat → Try
  ends : Int
  fs : Verif.Net.Fs

/-- What happens in each attempt, given the request's condition. -/
def Event.answers (p : Pubs) (cut : List Byte → List (List Byte)) (e : Event) (condition : Option Int) (j : Nat) : Answer :=
  match (e.tries j).fails with
  | some a => a
  | none => p.respond cut (e.tries j).time condition

/-- A URL is downloaded again and again: the results, and the file after each. -/
def run (accepts : Opt → Int → Bool) (c : Conf) (count : Nat) (src : List Byte) (p : Pubs) (cut : List Byte → List (List Byte)) : List Event → Option File → List (Int × Option File)
  | [], _ => []
  | e :: es, f =>
    let r := download accepts c count src (e.answers p cut) e.fs e.ends f
    r :: run accepts c count src p cut es r.2

end Verif.Web
