import Verif.Net.HttpModel
/-
HTTP requests: the options that are given to libcurl, and the time of the conditional requests (src/http/http.c); and the servers that answer them.

libcurl's and the servers' behaviours are in Spec.lean.
-/
namespace Verif.Web
open Verif.Rtr (Byte)
open Verif.Net (Answer Fs httpDownload)

/-! ### Options -/

/-- The options of libcurl that are set to a number. -/
inductive Opt where
  | followLocation | maxRedirs | connectTimeout | timeout | lowSpeedLimit | lowSpeedTime | maxFileSize
  | sslVerifyHost | sslVerifyPeer | httpGet | failOnError | noSignal | timeValueLarge | timeCondition
  /-- CURLOPT_PROTOCOLS and CURLOPT_REDIR_PROTOCOLS, as bits: 1 is HTTP, 2 is HTTPS, 4 is FTP and 8 is FTPS. -/
  | protocols | redirProtocols
  deriving DecidableEq, Repr

/-- The options that are set to a string. -/
inductive OptStr where
  | userAgent | acceptEncoding | caPath | url
  deriving DecidableEq, Repr

/-- A handle of libcurl: what its options were set to. -/
structure Handle where
  long : Opt → Option Int
  str : OptStr → Option (List Byte)

/-- `curl_easy_init`: every option has its default. -/
def Handle.new : Handle := ⟨fun _ => none, fun _ => none⟩

/-- src/http/http.c:69-79 `setopt_long`. `accepts`: whether libcurl accepts the value; if it doesn't then the option is what it was, and there's a message. -/
def setoptLong (accepts : Opt → Int → Bool) (h : Handle) (o : Opt) (v : Int) : Handle :=
  if accepts o v then { h with long := fun o' => if o' = o then some v else h.long o' } else h

/-- src/http/http.c:54-67 `setopt_str`. (Libcurl accepts all strings.) -/
def setoptStr (h : Handle) (o : OptStr) : Option (List Byte) → Handle
  | none => h
  | some v => { h with str := fun o' => if o' = o then some v else h.str o' }

/-- The configuration of the requests. -/
structure Conf where
  userAgent : Option (List Byte)
  maxRedirs : Nat
  connectTimeout : Nat
  transferTimeout : Nat
  lowSpeedLimit : Nat
  lowSpeedTime : Nat
  maxFileSize : Nat
  caPath : Option (List Byte)

/-- src/http/http.c:141-206 `http_easy_init`. `curl_easy_init` succeeds. The write function and the error buffer are in Verif/Net/HttpModel.lean. -/
def httpEasyInit (accepts : Opt → Int → Bool) (c : Conf) (ims : Int) : Handle :=
  let h := Handle.new
  let h := setoptStr h .userAgent c.userAgent
  let h := setoptStr h .acceptEncoding (some [])
  let h := setoptLong accepts h .followLocation 1
  let h := setoptLong accepts h .maxRedirs c.maxRedirs
  let h := setoptLong accepts h .connectTimeout c.connectTimeout
  let h := setoptLong accepts h .timeout c.transferTimeout
  let h := setoptLong accepts h .lowSpeedLimit c.lowSpeedLimit
  let h := setoptLong accepts h .lowSpeedTime c.lowSpeedTime
  let h := setoptLong accepts h .maxFileSize c.maxFileSize
  let h := setoptLong accepts h .sslVerifyHost 2
  let h := setoptLong accepts h .sslVerifyPeer 1
  let h := setoptStr h .caPath c.caPath
  let h := setoptLong accepts h .httpGet 1
  let h := setoptLong accepts h .failOnError 1
  let h := setoptLong accepts h .noSignal 1
  if ims > 0 then
    let h := setoptLong accepts h .timeValueLarge ims
    -- CURL_TIMECOND_IFMODSINCE
    setoptLong accepts h .timeCondition 1
  else h

/-- The handle of src/http/http.c:272-354 `http_fetch` when `curl_easy_perform` is called. -/
def fetchHandle (accepts : Opt → Int → Bool) (c : Conf) (src : List Byte) (ims : Int) : Handle :=
  setoptStr (httpEasyInit accepts c ims) .url (some src)

/-! ### Conditional requests -/

/-- The result of `stat`. -/
inductive Stat where
  | ok (mtime : Int)
  | enoent
  | err (e : Int)
  deriving DecidableEq, Repr

/-- src/http/http.c:34-52 `get_ims`: the error, and the time. -/
def getIms : Stat → Int × Int
  | .ok m => (0, m)
  | .enoent => (0, 0)
  | .err e => (e, 0)

/-- The local file: its content, and the second when it was last modified. -/
structure File where
  content : List Byte
  mtime : Int
  deriving DecidableEq, Repr

def statOf : Option File → Stat
  | none => .enoent
  | some f => .ok f.mtime

/-- The time that is sent in the request's If-Modified-Since, if it's sent: CURLOPT_TIMEVALUE_LARGE and CURLOPT_TIMECONDITION. -/
def Handle.condition (h : Handle) : Option Int := if h.long .timeCondition = some 1 then some ((h.long .timeValueLarge).getD 0) else none

/-- A download of a URL: src/http/http.c:409-454 `http_download`, of a file that was `file`. `answers` is what happens in each attempt, which depends on the
condition of the request. `mtime` is when the temporary file is closed, according to the local clock: `rename` doesn't modify it. -/
def download (accepts : Opt → Int → Bool) (c : Conf) (count : Nat) (src : List Byte) (answers : Option Int → Nat → Answer) (fs : Fs) (mtime : Int) (file : Option File) : Int × Option File :=
  let ims := getIms (statOf file)
  let r := httpDownload c.maxFileSize count (answers (fetchHandle accepts c src ims.2).condition) { fs with stat := ims.1 } (file.map File.content)
  (r.1, if r.1 = 0 ∧ r.2.2 then r.2.1.final.map fun b => ⟨b, mtime⟩ else file)

end Verif.Web
