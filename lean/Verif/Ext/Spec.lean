import Verif.Ext.Model
/-
What the extensions of a resource certificate have to be, independently of how the code walks them.
-/
namespace Verif.Ext
open Verif.Res (Byte)
open Verif.Uri (Uri UriType uriCreate R Err)

variable {V S : Type}

/-- The callbacks of the table, run on the extensions in their order, all succeed, and lead from a state to another. -/
inductive Runs (table : List (Handler V S)) : List (Ext V) → S → S → Prop where
  | nil (s : S) : Runs table [] s s
  | skip {e es s s'} : (∀ h ∈ table, h.nid = e.nid → h.cb = none) → Runs table es s s' → Runs table (e :: es) s s'
  | run {e es s s1 s'} (h : Handler V S) (cb : V → S → Out S) (v : V) : h ∈ table → h.nid = e.nid → h.cb = some cb → e.value = some v →
      cb v s = .ok s1 → Runs table es s1 s' → Runs table (e :: es) s s'

/-- No more than one extension has this identifier. -/
def AtMostOnce (exts : List (Ext V)) (n : Nid) : Prop := (exts.filter (fun e => e.nid = n)).length ≤ 1

/-- There's an extension with this identifier and value. -/
def Has (exts : List (Ext Val)) (n : Nid) (v : Val) : Prop := ∃ c, (⟨n, c, some v⟩ : Ext Val) ∈ exts

/-- The extension is not repeated if its identifier is one of those; it's critical if and only if it's one of the others. -/
def Shape (exts : List (Ext Val)) (known criticals : List Nid) : Prop :=
  (∀ n ∈ known, AtMostOnce exts n) ∧ ∀ e ∈ exts, e.critical = true ↔ e.nid ∈ criticals

/-- The identifier is the hash of the key. -/
def KeyId (env : Env) (spk : Option (List Byte)) (id : List Byte) : Prop := ∃ k, spk = some k ∧ env.sha1 k = some id

/-- The first rsync URL of these names. -/
def FirstRsync (names : List Name) (text : List Byte) : Prop :=
  ∃ pre post, names = pre ++ .uri false text :: post ∧ Uri.rsyncPrefix <+: text ∧ ∀ b t, Name.uri b t ∈ pre → ¬ Uri.rsyncPrefix <+: t

/-- The location is a URL of this type, and can be mapped to the cache. -/
def Usable (env : Env) (type : UriType) (ad : Ad) (u : Uri) : Prop :=
  ∃ b text, ad.location = .uri b text ∧ uriCreate env.repo (some env.tal) type none text = .ok u

/-- The location is not a URL of this type. -/
def Foreign (env : Env) (type : UriType) (ad : Ad) : Prop :=
  ad.location = .other ∨ ∃ b text, ad.location = .uri b text ∧
    (uriCreate env.repo (some env.tal) type none text = .err .notRsync ∨ uriCreate env.repo (some env.tal) type none text = .err .notHttps)

/-- All the locations of this method are either foreign or usable, and `r` is the only usable one; `none` if there aren't any. -/
def Picked (env : Env) (method : Method) (type : UriType) (ads : List Ad) (r : Option Uri) : Prop :=
  match r with
  | none => ∀ ad ∈ ads, ad.method = method → Foreign env type ad
  | some u => ∃ pre ad post, ads = pre ++ ad :: post ∧ ad.method = method ∧ Usable env type ad u ∧
      (∀ x ∈ pre ++ post, x.method = method → Foreign env type x)

/-- The values that libcrypto can give for an extension. -/
def WellTyped (e : Ext Val) : Prop :=
  match e.value with
  | none => True
  | some v =>
    match e.nid with
    | .bc => ∃ p, v = .bc p
    | .ski => ∃ id, v = .ski id
    | .aki => ∃ k i s, v = .aki k i s
    | .ku => ∃ d, v = .ku d
    | .cdp => ∃ p, v = .cdp p
    | .aia => ∃ a, v = .info a
    | .sia => ∃ a, v = .info a
    | .cp => ∃ p, v = .cp p
    | _ => True

/-- Key usage: these are the only bits, and the ninth one can be missing. -/
def KeyUsage (exts : List (Ext Val)) (byte : Byte) : Prop := Has exts .ku (.ku [byte]) ∨ Has exts .ku (.ku [byte, 0#8])

/-- The access descriptions of a CA: publication point, manifest. -/
def SiaCa (env : Env) (exts : List (Ext Val)) (out : St) : Prop :=
  ∃ ads repo notify mft, Has exts .sia (.info ads) ∧ Picked env .caRepository .rsync ads repo ∧ Picked env .notify .https ads notify ∧
    Picked env .manifest .rsync ads (some mft) ∧ out.rpp = repo.toList ++ notify.toList ∧ out.mft = some mft

/-- One policy, with no qualifiers or a CPS. -/
def OnePolicy (exts : List (Ext Val)) (out : St) : Prop :=
  ∃ p q, Has exts .cp (.cp [⟨some p, q⟩]) ∧ (q = none ∨ q = some [] ∨ q = some [true]) ∧ out.policy = some p

/-- The distribution point. -/
def Crldp (exts : List (Ext Val)) (out : St) : Prop :=
  ∃ names text, Has exts .cdp (.cdp [⟨false, false, some (.full names)⟩]) ∧ FirstRsync names text ∧ out.crldp = some text

/-- The issuer's certificate. -/
def Aia (env : Env) (exts : List (Ext Val)) (out : St) : Prop :=
  ∃ ads u, Has exts .aia (.info ads) ∧ Picked env .caIssuers .rsync ads (some u) ∧ out.caIssuers = some u

/-- The parent's key identifier. -/
def AkiParent (env : Env) (exts : List (Ext Val)) : Prop :=
  ∃ id spk, Has exts .aki (.aki (some id) false false) ∧ env.parent = some spk ∧ KeyId env spk id

/-- Extensions of a trust anchor, and what is taken from them. -/
structure TaSpec (env : Env) (exts : List (Ext Val)) (out : St) : Prop where
  shape : Shape exts [.bc, .ski, .aki, .ku, .sia, .cp, .ir, .ar, .ir2, .ar2] [.bc, .ku, .cp, .ir, .ar, .ir2, .ar2]
  bc : Has exts .bc (.bc false)
  ski : ∃ id, Has exts .ski (.ski id) ∧ KeyId env env.spk id ∧ ∀ e ∈ exts, e.nid = .aki → ∃ i s, e.value = some (.aki (some id) i s)
  ku : KeyUsage exts 0x06#8
  sia : SiaCa env exts out
  cp : OnePolicy exts out
  none : out.crldp = none ∧ out.caIssuers = none ∧ out.signedObject = none

/-- Extensions of a CA certificate whose parent's publication point has that CRL, and what is taken from them. -/
structure CaSpec (env : Env) (exts : List (Ext Val)) (crl : List Byte) (out : St) : Prop where
  shape : Shape exts [.bc, .ski, .aki, .ku, .cdp, .aia, .sia, .cp, .ir, .ar, .ir2, .ar2] [.bc, .ku, .cp, .ir, .ar, .ir2, .ar2]
  bc : Has exts .bc (.bc false)
  ski : ∃ id, Has exts .ski (.ski id) ∧ KeyId env env.spk id
  aki : AkiParent env exts
  ku : KeyUsage exts 0x06#8
  cdp : Crldp exts out
  crl : ∃ text, out.crldp = some text ∧ cstr text = cstr crl
  aia : Aia env exts out
  sia : SiaCa env exts out
  cp : OnePolicy exts out
  none : out.signedObject = none

/-- Extensions of the EE certificate of a signed object whose signer identifier is `sid`, and what is taken from them. -/
structure EeSpec (env : Env) (sid : List Byte) (exts : List (Ext Val)) (out : St) : Prop where
  shape : Shape exts [.ski, .aki, .ku, .cdp, .aia, .sia, .cp, .ir, .ar, .ir2, .ar2] [.ku, .cp, .ir, .ar, .ir2, .ar2]
  ski : Has exts .ski (.ski sid) ∧ KeyId env env.spk sid
  aki : AkiParent env exts
  ku : KeyUsage exts 0x80#8
  cdp : Crldp exts out
  aia : Aia env exts out
  sia : ∃ ads u, Has exts .sia (.info ads) ∧ Picked env .signedObject .rsync ads (some u) ∧ out.signedObject = some u
  cp : OnePolicy exts out
  none : out.rpp = [] ∧ out.mft = none

end Verif.Ext
