/-
Independent specification of a router that processes decoded RTR PDUs (RFC 8210 sections 5.6-5.11, 8.1, 8.2).
-/
import Mathlib.Data.Finset.Image
import Verif.Rtr.Spec
import Verif.Rtr.SpecPdu

namespace Verif.Rtr.Rfc

/-- A validated prefix record as a router stores it. -/
structure VrpRec where
  v6 : Bool
  addr : Nat
  len : Nat
  maxLen : Nat
  asn : Nat
  deriving DecidableEq

/-- A router key record as a router stores it. -/
structure KeyRec where
  ski : List Byte
  asn : Nat
  spki : List Byte
  deriving DecidableEq

/-- Router state: its records, the serial it believes it is synchronized to, and whether a response is in
progress. -/
structure Client where
  vrps : Finset VrpRec
  keys : Finset KeyRec
  serial : Option Nat
  busy : Bool

/-- Flag of a payload PDU. -/
def flagOf (announce : Bool) : Flag := if announce then .announcement else .withdrawal

/-- A strict router receives a PDU of a response to its query; `none` is an error. -/
def Client.step (c : Client) (p : Pdu) : Option Client :=
  match p.body with
  | .cacheResponse _ => if c.busy then none else some { c with busy := true }
  | .ipv4Prefix a l m ad as_ =>
    if c.busy then (Router.step c.vrps ⟨flagOf a, ⟨false, ad, l, m, as_⟩⟩).map (fun s => { c with vrps := s }) else none
  | .ipv6Prefix a l m ad as_ =>
    if c.busy then (Router.step c.vrps ⟨flagOf a, ⟨true, ad, l, m, as_⟩⟩).map (fun s => { c with vrps := s }) else none
  | .routerKey a ski as_ spki =>
    if c.busy then (Router.step c.keys ⟨flagOf a, ⟨ski, as_, spki⟩⟩).map (fun s => { c with keys := s }) else none
  | .endOfDataV0 _ n => if c.busy then some { c with serial := some n, busy := false } else none
  | .endOfDataV1 _ n _ _ _ => if c.busy then some { c with serial := some n, busy := false } else none
  | _ => none

/-- A router processes a list of PDUs. -/
def Client.run (c : Client) : List Pdu → Option Client
  | [] => some c
  | p :: ps => (c.step p).bind (fun c' => c'.run ps)

/-- The record of a VRP. -/
def recOf (v : Vrp) : VrpRec := ⟨decide (v.fam = .v6), v.prefix_.toNat, v.len.toNat, v.maxLen.toNat, v.asn.toNat⟩

/-- The record of a router key. -/
def keyOf (k : RouterKey) : KeyRec := ⟨k.ski, k.as.toNat, k.spk⟩

/-- The records of a table. -/
def vrpRecs (t : Table) : Finset VrpRec := t.vrpSet.image recOf
/-- See `vrpRecs`. -/
def keyRecs (t : Table) : Finset KeyRec := t.keySet.image keyOf

end Verif.Rtr.Rfc
