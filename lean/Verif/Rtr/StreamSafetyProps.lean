/-
C16, C17, C18, C67, C68: versions, error reports, memory safety and termination of the request parser, for any
bytes whatsoever.
-/
import Verif.Rtr.StreamProps

namespace Verif.Rtr

open Rfc

/-! ### Lemmas -/

theorem validateVersion_inv {ver : Option (BitVec 8)} {hv v : BitVec 8} {raw : List Byte}
    (h : validateVersion ver hv raw = .ok v) : hv = v ∧ (v = 0 ∨ v = 1) ∧ (ver = none ∨ ver = some v) := by
  unfold validateVersion at h
  simp only at h
  cases ver with
  | none =>
    simp only at h
    split at h
    · rename_i hh; cases h; exact ⟨rfl, hh, Or.inl rfl⟩
    · cases h
  | some w =>
    simp only at h
    split at h
    · rename_i hw
      split at h
      · cases h
      · split at h
        · rename_i h1; cases h; exact ⟨h1, Or.inr rfl, Or.inr (by rw [hw])⟩
        · cases h
    · split at h
      · rename_i hw
        split at h
        · rename_i h0; cases h; exact ⟨h0, Or.inl rfl, Or.inr (by rw [hw])⟩
        · split at h <;> cases h
      · cases h

/-- All that the Error Report loader can do. -/
def ErrReportOutcome (v : BitVec 8) (len off : Nat) (b : List Byte) : Step → Prop
  | .frag w => w = some v ∧ b.length < len
  | .fail w e => w = some v ∧ e = .none
  | .text w _ => w = some v
  | .stale => b.length < len
  | .ub => 1024 < off + len
  | .pdu _ _ => False

theorem loadErrorReport_outcome (v : BitVec 8) (hdr : PduHdr) (off : Nat) (b : List Byte) :
    ErrReportOutcome v hdr.len.toNat off b (loadErrorReport v hdr off b) := by
  unfold loadErrorReport
  refine ite_pred (P := ErrReportOutcome v hdr.len.toNat off b) (fun _ => ⟨rfl, rfl⟩) (fun h1 => ?_)
  refine ite_pred (P := ErrReportOutcome v hdr.len.toNat off b) (fun _ => ⟨rfl, rfl⟩) (fun h2 => ?_)
  refine ite_pred (P := ErrReportOutcome v hdr.len.toNat off b) (fun h3 => ⟨rfl, ?_⟩) (fun h3 => ?_)
  · rw [List.length_drop] at h3; omega
  refine ite_pred (P := ErrReportOutcome v hdr.len.toNat off b) (fun _ => ⟨rfl, rfl⟩) (fun h4 => ?_)
  refine ite_pred (P := ErrReportOutcome v hdr.len.toNat off b) (fun _ => ⟨rfl, rfl⟩) (fun h5 => ?_)
  refine ite_pred (P := ErrReportOutcome v hdr.len.toNat off b) (fun h6 => ⟨rfl, ?_⟩) (fun h6 => ?_)
  · simp only [List.length_drop] at h6; omega
  refine ite_pred (P := ErrReportOutcome v hdr.len.toNat off b) (fun h7 => ⟨rfl, ?_⟩) (fun h7 => ?_)
  · simp only [List.length_drop] at h7; omega
  generalize (readU32 (List.drop 8 b)).toNat = epl at *
  generalize hn : readU32 (List.drop epl (List.drop 4 (List.drop 8 b))) = n
  have hnl := n.isLt
  refine ite_pred (P := ErrReportOutcome v hdr.len.toNat off b) (fun _ => ⟨rfl, rfl⟩) (fun h8 => ?_)
  have hlen : hdr.len.toNat = 16 + epl + n.toNat := by
    have h8' := Classical.not_not.1 h8
    have := congrArg BitVec.toNat h8'
    simp only [BitVec.toNat_add, BitVec.toNat_ofNat, show (8 : BitVec 32).toNat = 8 from rfl,
      show (4 : BitVec 32).toNat = 4 from rfl] at this
    omega
  refine ite_pred (P := ErrReportOutcome v hdr.len.toNat off b) (fun _ => rfl) (fun h9 => ?_)
  refine ite_pred (P := ErrReportOutcome v hdr.len.toNat off b) (fun h10 => ?_) (fun h10 => ?_)
  · change 1024 < off + hdr.len.toNat
    omega
  refine ite_pred (P := ErrReportOutcome v hdr.len.toNat off b) (fun h11 => ?_) (fun h11 => rfl)
  simp only [List.length_drop] at h7 h11
  change b.length < hdr.len.toNat
  omega

/-- The version of a stream is unset, 0 or 1. -/
def VerOK (ver : Option (BitVec 8)) : Prop := ver = none ∨ ver = some 0 ∨ ver = some 1

/-- The version of an Error Report is 0 or 1, unless it answers a PDU that is too large. -/
def ReportVer (v : BitVec 8) (b : List Byte) : Prop :=
  (v = 0 ∨ v = 1) ∨ (1024 < (readHdr b).len.toNat ∧ v = (readHdr b).version)

/-- All that one iteration of the parsing loop can do. -/
def StepOutcome (s : Stream) : Step → Prop
  | .frag w => (s.buf.length < 8 ∧ w = s.ver) ∨ (∃ v, w = some v ∧ (v = 0 ∨ v = 1) ∧ (s.ver = none ∨ s.ver = some v) ∧
      s.buf.length < 1024)
  | .fail _ e => 8 ≤ s.buf.length ∧ (e = .none ∨ ∃ ver code msg, e = errOut ver code (rawOf s.buf) msg ∧
      ReportVer ver s.buf)
  | .text _ _ => 8 ≤ s.buf.length ∧ (readHdr s.buf).type = 10
  | .stale => 8 ≤ s.buf.length ∧ (readHdr s.buf).type = 10 ∧ s.buf.length < (readHdr s.buf).len.toNat
  | .ub => 8 ≤ s.buf.length ∧ (readHdr s.buf).type = 10 ∧ 1024 < s.off + (readHdr s.buf).len.toNat
  | .pdu s' r => ∃ v n, (v = 0 ∨ v = 1) ∧ (s.ver = none ∨ s.ver = some v) ∧ s'.ver = some v ∧ r.version = v ∧
      s'.buf = s.buf.drop n ∧ s'.off = s.off + n ∧ n ≤ s.buf.length ∧ 8 ≤ n ∧ r.raw = s.buf.take n ∧ r.eos = false

theorem validateVersion_error {ver : Option (BitVec 8)} {hv : BitVec 8} {raw : List Byte} {e : ErrOut} (hver : VerOK ver)
    (h : validateVersion ver hv raw = .error e) : ∃ v code msg, e = errOut v code raw msg ∧ (v = 0 ∨ v = 1) := by
  unfold validateVersion at h
  simp only at h
  rcases hver with rfl | rfl | rfl
  · simp only at h
    split at h
    · cases h
    · cases h; exact ⟨_, _, _, rfl, by simp⟩
  · simp only at h
    rw [if_neg (by decide), if_pos trivial] at h
    split at h
    · cases h
    · split at h <;> cases h <;> exact ⟨_, _, _, rfl, by simp⟩
  · simp only at h
    rw [if_pos trivial] at h
    split at h
    · cases h; exact ⟨_, _, _, rfl, by simp⟩
    · split at h <;> cases h; exact ⟨_, _, _, rfl, by simp⟩

theorem parseOne_special {s : Stream}
    (hp : (∃ w t, parseOne s = .text w t) ∨ parseOne s = .stale ∨ parseOne s = .ub) :
    8 ≤ s.buf.length ∧ (readHdr s.buf).type = 10 ∧
      ∃ v, parseOne s = loadErrorReport v (readHdr s.buf) s.off s.buf := by
  have key : ∀ x, parseOne s = x → ((∃ w t, x = .text w t) ∨ x = .stale ∨ x = .ub) →
      8 ≤ s.buf.length ∧ (readHdr s.buf).type = 10 ∧
      ∃ v, x = loadErrorReport v (readHdr s.buf) s.off s.buf := by
    intro x hx hp
    unfold parseOne at hx
    by_cases h8 : s.buf.length < 8
    · rw [if_pos h8] at hx; subst hx; simp at hp
    · rw [if_neg h8] at hx
      by_cases hl : (readHdr s.buf).len.toNat > 1024
      · rw [if_pos hl] at hx; subst hx; simp at hp
      · rw [if_neg hl] at hx
        cases hv : validateVersion s.ver (readHdr s.buf).version (rawOf s.buf) with
        | error e => rw [hv] at hx; subst hx; simp at hp
        | ok v =>
          rw [hv] at hx
          simp only at hx
          unfold loadPdu at hx
          by_cases t1 : (readHdr s.buf).type = 1
          · rw [if_pos t1] at hx
            unfold loadSerialQuery at hx
            by_cases hl : (readHdr s.buf).len ≠ 12
            · rw [if_pos hl] at hx; subst hx; simp at hp
            · rw [if_neg hl] at hx
              by_cases h12 : s.buf.length < 12
              · rw [if_pos h12] at hx; subst hx; simp at hp
              · rw [if_neg h12] at hx; subst hx; simp at hp
          · rw [if_neg t1] at hx
            by_cases t2 : (readHdr s.buf).type = 2
            · rw [if_pos t2] at hx
              unfold loadResetQuery at hx
              by_cases hl : (readHdr s.buf).len ≠ 8
              · rw [if_pos hl] at hx; subst hx; simp at hp
              · rw [if_neg hl, if_neg h8] at hx; subst hx; simp at hp
            · rw [if_neg t2] at hx
              by_cases t10 : (readHdr s.buf).type = 10
              · rw [if_pos t10] at hx
                exact ⟨by omega, t10, v, hx.symm⟩
              · rw [if_neg t10] at hx; subst hx; simp at hp
  exact key _ rfl hp

theorem parseOne_outcome (s : Stream) (hver : VerOK s.ver) : StepOutcome s (parseOne s) := by
  cases hp : parseOne s with
  | pdu s' r =>
    obtain ⟨h8, v, hv, ⟨_, hl, h12, rfl, rfl⟩ | ⟨_, hl, rfl, rfl⟩⟩ := parseOne_pdu hp
    · obtain ⟨e1, e2, e3⟩ := validateVersion_inv hv
      refine ⟨v, 12, e2, e3, rfl, e1, rfl, rfl, h12, by omega, ?_, rfl⟩
      simp only [rawOf, hl]
      rw [if_pos (by exact h12)]; rfl
    · obtain ⟨e1, e2, e3⟩ := validateVersion_inv hv
      refine ⟨v, 8, e2, e3, rfl, e1, rfl, rfl, h8, by omega, ?_, rfl⟩
      simp only [rawOf, hl]
      rw [if_pos (by exact h8)]; rfl
  | frag w =>
    unfold parseOne at hp
    by_cases h8 : s.buf.length < 8
    · rw [if_pos h8] at hp; cases hp; exact Or.inl ⟨h8, rfl⟩
    · rw [if_neg h8] at hp
      by_cases hl : (readHdr s.buf).len.toNat > 1024
      · rw [if_pos hl] at hp; cases hp
      · rw [if_neg hl] at hp
        cases hv : validateVersion s.ver (readHdr s.buf).version (rawOf s.buf) with
        | error e => rw [hv] at hp; cases hp
        | ok v =>
          rw [hv] at hp
          simp only at hp
          obtain ⟨e1, e2, e3⟩ := validateVersion_inv hv
          right
          unfold loadPdu at hp
          by_cases t1 : (readHdr s.buf).type = 1
          · rw [if_pos t1] at hp
            unfold loadSerialQuery at hp
            by_cases hl : (readHdr s.buf).len ≠ 12
            · rw [if_pos hl] at hp; cases hp
            · rw [if_neg hl] at hp
              by_cases h12 : s.buf.length < 12
              · rw [if_pos h12] at hp; cases hp; exact ⟨v, rfl, e2, e3, by omega⟩
              · rw [if_neg h12] at hp; cases hp
          · rw [if_neg t1] at hp
            by_cases t2 : (readHdr s.buf).type = 2
            · rw [if_pos t2] at hp
              unfold loadResetQuery at hp
              by_cases hl : (readHdr s.buf).len ≠ 8
              · rw [if_pos hl] at hp; cases hp
              · rw [if_neg hl, if_neg h8] at hp; cases hp
            · rw [if_neg t2] at hp
              by_cases t10 : (readHdr s.buf).type = 10
              · rw [if_pos t10] at hp
                have := loadErrorReport_outcome v (readHdr s.buf) s.off s.buf
                rw [hp] at this
                exact ⟨v, this.1, e2, e3, by have := this.2; omega⟩
              · rw [if_neg t10] at hp; cases hp
  | fail w e =>
    unfold parseOne at hp
    by_cases h8 : s.buf.length < 8
    · rw [if_pos h8] at hp; cases hp
    · rw [if_neg h8] at hp
      refine ⟨by omega, ?_⟩
      by_cases hl : (readHdr s.buf).len.toNat > 1024
      · rw [if_pos hl] at hp; cases hp
        refine Or.inr ⟨_, _, _, rfl, ?_⟩
        rcases hver with h | h | h <;> rw [h]
        · exact Or.inr ⟨hl, rfl⟩
        · exact Or.inl (Or.inl rfl)
        · exact Or.inl (Or.inr rfl)
      · rw [if_neg hl] at hp
        cases hv : validateVersion s.ver (readHdr s.buf).version (rawOf s.buf) with
        | error e' =>
          rw [hv] at hp
          simp only [Step.fail.injEq] at hp
          right
          rw [← hp.2]
          obtain ⟨v, code, msg, h1, h2⟩ := validateVersion_error hver hv
          exact ⟨v, code, msg, h1, Or.inl h2⟩
        | ok v =>
          rw [hv] at hp
          simp only at hp
          obtain ⟨_, e2, _⟩ := validateVersion_inv hv
          unfold loadPdu at hp
          by_cases t1 : (readHdr s.buf).type = 1
          · rw [if_pos t1] at hp
            unfold loadSerialQuery at hp
            by_cases hl : (readHdr s.buf).len ≠ 12
            · rw [if_pos hl] at hp; cases hp; exact Or.inr ⟨_, _, _, rfl, Or.inl e2⟩
            · rw [if_neg hl] at hp
              by_cases h12 : s.buf.length < 12
              · rw [if_pos h12] at hp; cases hp
              · rw [if_neg h12] at hp; cases hp
          · rw [if_neg t1] at hp
            by_cases t2 : (readHdr s.buf).type = 2
            · rw [if_pos t2] at hp
              unfold loadResetQuery at hp
              by_cases hl : (readHdr s.buf).len ≠ 8
              · rw [if_pos hl] at hp; cases hp; exact Or.inr ⟨_, _, _, rfl, Or.inl e2⟩
              · rw [if_neg hl, if_neg h8] at hp; cases hp
            · rw [if_neg t2] at hp
              by_cases t10 : (readHdr s.buf).type = 10
              · rw [if_pos t10] at hp
                have := loadErrorReport_outcome v (readHdr s.buf) s.off s.buf
                rw [hp] at this
                exact Or.inl this.2
              · rw [if_neg t10] at hp; cases hp; exact Or.inr ⟨_, _, _, rfl, Or.inl e2⟩
  | text w t =>
    obtain ⟨h8, t10, _⟩ := parseOne_special (Or.inl ⟨w, t, hp⟩)
    exact ⟨h8, t10⟩
  | stale =>
    obtain ⟨h8, t10, v, hl⟩ := parseOne_special (Or.inr (Or.inl hp))
    have := loadErrorReport_outcome v (readHdr s.buf) s.off s.buf
    rw [← hl, hp] at this
    exact ⟨h8, t10, this⟩
  | ub =>
    obtain ⟨h8, t10, v, hl⟩ := parseOne_special (Or.inr (Or.inr hp))
    have := loadErrorReport_outcome v (readHdr s.buf) s.off s.buf
    rw [← hl, hp] at this
    exact ⟨h8, t10, this⟩

/-- The version is set at most once, to 0 or 1. -/
def VerStep (a b : Option (BitVec 8)) : Prop := b = a ∨ (a = none ∧ (b = some 0 ∨ b = some 1))

theorem VerStep.trans {a b c : Option (BitVec 8)} (h1 : VerStep a b) (h2 : VerStep b c) : VerStep a c := by
  rcases h1 with rfl | ⟨rfl, h1⟩
  · exact h2
  · rcases h2 with rfl | ⟨rfl, _⟩
    · exact Or.inr ⟨rfl, h1⟩
    · simp at h1

theorem VerStep.ok {a b : Option (BitVec 8)} (h : VerStep a b) (ha : VerOK a) : VerOK b := by
  rcases h with rfl | ⟨_, h⟩
  · exact ha
  · exact Or.inr h

theorem verStep_of {a : Option (BitVec 8)} {v : BitVec 8} (hv : v = 0 ∨ v = 1) (h : a = none ∨ a = some v) :
    VerStep a (some v) := by
  rcases h with rfl | rfl
  · refine Or.inr ⟨rfl, ?_⟩; rcases hv with rfl | rfl
    · exact Or.inl rfl
    · exact Or.inr rfl
  · exact Or.inl rfl

/-- A PDU, at the end `b` of the bytes in the buffer, that is an Error Report which claims more bytes than were
received. -/
def Overclaims (b : List Byte) : Prop :=
  8 ≤ b.length ∧ (readHdr b).type = 10 ∧ b.length < (readHdr b).len.toNat

/-- All that the parsing loop can do. -/
def LoopOutcome (s : Stream) : LoopEnd → Prop
  | .fine s' r' => VerStep s.ver s'.ver ∧ (∀ r, r' = some r → s'.ver = some r.version) ∧ s'.buf.length < 1024 ∧
      s'.buf <:+ s.buf
  | .closed e => e = .none ∨ ∃ b, b <:+ s.buf ∧ 8 ≤ b.length ∧ ∃ ver code msg, e = errOut ver code (rawOf b) msg ∧
      ReportVer ver b
  | .gotError _ => True
  | .stale => ∃ b, b <:+ s.buf ∧ Overclaims b
  | .ub => ∃ b, b <:+ s.buf ∧ Overclaims b

theorem parseLoop_outcome (s : Stream) (hver : VerOK s.ver) (last : Option Request)
    (hlast : ∀ r, last = some r → s.ver = some r.version) (hcap : s.off + s.buf.length ≤ 1024) :
    LoopOutcome s (parseLoop s last) := by
  induction hn : s.buf.length using Nat.strongRecOn generalizing s last with
  | _ n ih =>
    unfold parseLoop
    by_cases h0 : s.buf.length = 0
    · rw [if_pos h0]
      exact ⟨Or.inl rfl, hlast, by omega, List.suffix_refl _⟩
    · rw [if_neg h0]
      have ho := parseOne_outcome s hver
      split
      · rename_i v hp
        rw [hp] at ho
        rcases ho with ⟨h1, rfl⟩ | ⟨v', rfl, h2, h3, h4⟩
        · exact ⟨Or.inl rfl, hlast, by simp only; omega, List.suffix_refl _⟩
        · refine ⟨verStep_of h2 h3, ?_, h4, List.suffix_refl _⟩
          intro r hr
          have := hlast r hr
          rcases h3 with h3 | h3
          · rw [this] at h3; cases h3
          · simp only; rw [← h3, this]
      · rename_i v e hp
        rw [hp] at ho
        obtain ⟨h8, rfl | h⟩ := ho
        · exact Or.inl rfl
        · exact Or.inr ⟨s.buf, List.suffix_refl _, h8, h⟩
      · trivial
      · rename_i hp
        rw [hp] at ho
        exact ⟨s.buf, List.suffix_refl _, ho⟩
      · rename_i hp
        rw [hp] at ho
        exact ⟨s.buf, List.suffix_refl _, ho.1, ho.2.1, by have := ho.2.2; omega⟩
      · rename_i s' r hp
        rw [hp] at ho
        obtain ⟨v, k, h1, h2, h3, h4, h5, h6, h7, h8, _⟩ := ho
        have hl : s'.buf.length = s.buf.length - k := by rw [h5, List.length_drop]
        have hvs : VerStep s.ver s'.ver := by rw [h3]; exact verStep_of h1 h2
        have := ih s'.buf.length (by omega) s' (hvs.ok hver) (some r)
          (by intro r' hr'; cases hr'; rw [h3, h4]) (by omega) rfl
        have hsuf : s'.buf <:+ s.buf := by rw [h5]; exact List.drop_suffix _ _
        generalize parseLoop s' (some r) = x at this
        cases x with
        | fine s2 r2 => exact ⟨hvs.trans this.1, this.2.1, this.2.2.1, this.2.2.2.trans hsuf⟩
        | closed e =>
          rcases this with h | ⟨b, hb, h⟩
          · exact Or.inl h
          · exact Or.inr ⟨b, hb.trans hsuf, h⟩
        | gotError t => trivial
        | stale => obtain ⟨b, hb, h⟩ := this; exact ⟨b, hb.trans hsuf, h⟩
        | ub => obtain ⟨b, hb, h⟩ := this; exact ⟨b, hb.trans hsuf, h⟩

/-- All that a call of the parser can do. `all` are the bytes in the buffer and those still to be received. -/
def NextOutcome (ver : Option (BitVec 8)) (all : List Byte) : NextRes → Prop
  | .ok s' es' r => VerStep ver s'.ver ∧ (∀ q, r = some q → s'.ver = some q.version) ∧ s'.buf.length < 1024 ∧
      s'.buf ++ allData es' <:+ all
  | .close e => e = .none ∨ ∃ b, b <:+: all ∧ 8 ≤ b.length ∧ ∃ v code msg, e = errOut v code (rawOf b) msg ∧
      ReportVer v b
  | .stale => ∃ b, b <:+: all ∧ Overclaims b
  | .ub => ∃ b, b <:+: all ∧ Overclaims b
  | .spin => False

theorem suffix_append_infix {b x y all : List Byte} (h1 : b <:+ x) (h2 : x ++ y <:+ all) : b <:+: all := by
  obtain ⟨p, rfl⟩ := h1
  obtain ⟨q, rfl⟩ := h2
  exact ⟨q ++ p, y, by simp⟩

theorem next_outcome_aux (fuel : Nat) (s : Stream) (hver : VerOK s.ver) (hb : s.buf.length < 1024) (es : List SockEv)
    (last : Option Request) (hlast : ∀ r, last = some r → s.ver = some r.version) (hf : pending es < fuel)
    (all : List Byte) (hall : s.buf ++ allData es <:+ all) :
    NextOutcome s.ver all (pdustreamNext fuel s es last) := by
  induction fuel generalizing s es last with
  | zero => omega
  | succ fuel ih =>
    obtain ⟨h1, ⟨got, h2, h3, h4, h5⟩, h6⟩ := readLoop_spec es s.buf (by omega)
    generalize hr : readLoop es s.buf = r at *
    obtain ⟨b1, es1, st⟩ := r
    simp only at h1 h2 h3 h4 h5 h6
    have hu : updateBuffer s es = (⟨s.ver, 0, b1⟩, es1, st) := by simp only [updateBuffer, hr]
    rw [pdustreamNext_succ hu]
    have hall1 : b1 ++ allData es1 <:+ all := by rw [h2, List.append_assoc, h5]; exact hall
    by_cases hst : st = .error
    · rw [if_pos hst]; exact Or.inl rfl
    · rw [if_neg hst]
      have hl := parseLoop_outcome ⟨s.ver, 0, b1⟩ hver last hlast (by simpa using h1)
      cases hp : parseLoop ⟨s.ver, 0, b1⟩ last with
      | closed e =>
        rw [hp] at hl
        rcases hl with h | ⟨b, hbs, h⟩
        · exact Or.inl h
        · exact Or.inr ⟨b, suffix_append_infix hbs hall1, h⟩
      | gotError t => exact Or.inl rfl
      | stale => rw [hp] at hl; obtain ⟨b, hbs, h⟩ := hl; exact ⟨b, suffix_append_infix hbs hall1, h⟩
      | ub => rw [hp] at hl; obtain ⟨b, hbs, h⟩ := hl; exact ⟨b, suffix_append_infix hbs hall1, h⟩
      | fine s' req =>
        rw [hp] at hl
        obtain ⟨l1, l2, l3, l4⟩ := hl
        have hall2 : s'.buf ++ allData es1 <:+ all := by
          obtain ⟨p, hp'⟩ := l4
          have hp' : p ++ s'.buf = b1 := hp'
          refine List.IsSuffix.trans ?_ hall1
          exact ⟨p, by rw [← hp', List.append_assoc]⟩
        cases st with
        | error => exact absurd rfl hst
        | wouldBlock => exact ⟨l1, l2, l3, hall2⟩
        | eos =>
          cases req with
          | none => exact Or.inl rfl
          | some r => exact ⟨l1, fun q hq => by cases hq; exact l2 r rfl, l3, hall2⟩
        | keepReading =>
          have hgot : 0 < got.length := by
            have := h4 rfl
            rw [h2, List.length_append] at this
            omega
          have := ih s' (l1.ok hver) l3 es1 req l2 (by omega) hall2
          simp only
          generalize pdustreamNext fuel s' es1 req = x at this
          cases x with
          | ok s2 es2 r2 => exact ⟨l1.trans this.1, this.2⟩
          | close e => exact this
          | stale => exact this
          | ub => exact this
          | spin => exact this

theorem next_outcome (s : Stream) (hver : VerOK s.ver) (hb : s.buf.length < 1024) (es : List SockEv) :
    NextOutcome s.ver (s.buf ++ allData es) (s.next es) :=
  next_outcome_aux _ s hver hb es none (by simp) (by omega) _ (List.suffix_refl _)

/-! ### Streams that occur -/

/-- The streams that successful calls lead to, starting with a new connection. -/
inductive Reachable : Stream → Prop
  | new : Reachable Stream.new
  | next (s : Stream) (es : List SockEv) (s' : Stream) (es' : List SockEv) (r : Option Request) :
      Reachable s → s.next es = .ok s' es' r → Reachable s'

theorem Reachable.inv {s : Stream} (h : Reachable s) : VerOK s.ver ∧ s.buf.length < 1024 := by
  induction h with
  | new => exact ⟨Or.inl rfl, by simp [Stream.new]⟩
  | next s es s' es' r _ hn ih =>
    have := next_outcome s ih.1 ih.2 es
    rw [hn] at this
    exact ⟨this.1.ok ih.1, this.2.2.1⟩

/-! ### C16 -/

/-- C16. On any connection, whatever has been received and whatever arrives: once the version of the connection is
set, a call leaves it as it is; when it is not set, a call may set it, to 0 or 1; and a query that is returned has
the version of the connection. -/
theorem C16_version_fixed (s : Stream) (hs : Reachable s) (es : List SockEv) (s' : Stream) (es' : List SockEv)
    (r : Option Request) (h : s.next es = .ok s' es' r) :
    (∀ v, s.ver = some v → s'.ver = some v) ∧
    (s.ver = none → s'.ver = none ∨ s'.ver = some 0 ∨ s'.ver = some 1) ∧
    (∀ q, r = some q → s'.ver = some q.version ∧ (q.version = 0 ∨ q.version = 1)) := by
  have ho := next_outcome s hs.inv.1 hs.inv.2 es
  rw [h] at ho
  obtain ⟨h1, h2, _, _⟩ := ho
  refine ⟨?_, ?_, ?_⟩
  · intro v hv
    rcases h1 with h1 | ⟨h1, _⟩
    · rw [h1, hv]
    · rw [hv] at h1; cases h1
  · intro hn
    rcases h1 with h1 | ⟨_, h1⟩
    · exact Or.inl (by rw [h1, hn])
    · exact Or.inr h1
  · intro q hq
    have := h2 q hq
    refine ⟨this, ?_⟩
    rcases h1.ok hs.inv.1 with h | h | h <;> rw [this] at h
    · cases h
    · exact Or.inl (by simpa using h)
    · exact Or.inr (by simpa using h)

/-- C16: a PDU of another version ends the session: with error 8 (Unexpected Protocol Version) when the version
is known, with error 4 (Unsupported Protocol Version) when it is not; the report has the version of the session
(1 when none is set). The PDU is not itself an Error Report, and has a length of 2 to 1024 (C17, C18, C68). -/
theorem C16_wrong_version (s : Stream) (hver : VerOK s.ver) (last : Option Request) (h8 : 8 ≤ s.buf.length)
    (ht : (readHdr s.buf).type ≠ 10) (h2 : 2 ≤ (readHdr s.buf).len.toNat) (hl : (readHdr s.buf).len.toNat ≤ 1024)
    (hv : s.ver ≠ some (readHdr s.buf).version) (hn : s.ver = none → 1 < (readHdr s.buf).version.toNat) :
    ∃ msg, parseLoop s last = .closed (.report (.errorReport (s.ver.getD 1)
      (if (readHdr s.buf).version.toNat ≤ 1 then 8 else 4) (some (rawOf s.buf)) (some msg))) := by
  have hraw : ∃ x, (rawOf s.buf)[1]? = some x ∧ x ≠ 10 := by
    obtain ⟨b0, b1, t, hb⟩ : ∃ b0 b1 t, s.buf = b0 :: b1 :: t := by
      rcases hb : s.buf with _ | ⟨b0, _ | ⟨b1, t⟩⟩
      · rw [hb] at h8; simp at h8
      · rw [hb] at h8; simp at h8
      · exact ⟨_, _, _, rfl⟩
    refine ⟨b1, ?_, ?_⟩
    · unfold rawOf
      rw [List.getElem?_take_of_lt (by split <;> omega), hb]
      rfl
    · intro h; apply ht; rw [hb]; simpa [readHdr] using h
  obtain ⟨x, hx1, hx2⟩ := hraw
  have heo : ∀ v code msg, errOut v code (rawOf s.buf) msg = .report (.errorReport v code (some (rawOf s.buf)) msg) := by
    intro v code msg
    unfold errOut
    rw [hx1]
    simp only [hx2, ne_eq, not_false_eq_true, if_true]
  have hval : ∃ msg, validateVersion s.ver (readHdr s.buf).version (rawOf s.buf) =
      .error (.report (.errorReport (s.ver.getD 1) (if (readHdr s.buf).version.toNat ≤ 1 then 8 else 4)
        (some (rawOf s.buf)) (some msg))) := by
    unfold validateVersion
    simp only [heo]
    generalize (readHdr s.buf).version = w at *
    have hw0 : w = 0 ↔ w.toNat = 0 := by rw [← BitVec.toNat_inj]; rfl
    have hw1 : w = 1 ↔ w.toNat = 1 := by rw [← BitVec.toNat_inj]; rfl
    rcases hver with h | h | h
    · have := hn h
      rw [h]
      simp only
      rw [if_neg (by rw [hw0, hw1]; omega), if_neg (by omega)]
      exact ⟨_, rfl⟩
    · rw [h] at hv ⊢
      simp only [show ¬ ((0 : BitVec 8) = 1) by decide, if_false, if_true]
      have h0 : ¬ w = 0 := fun hh => hv (by rw [hh])
      rw [if_neg h0]
      by_cases h1 : w = 1
      · rw [if_pos h1, if_pos (by rw [hw1] at h1; omega)]; exact ⟨_, rfl⟩
      · rw [if_neg h1, if_neg (by rw [hw1] at h1; rw [hw0] at h0; omega)]; exact ⟨_, rfl⟩
    · rw [h] at hv ⊢
      simp only [if_true]
      have h1 : ¬ w = 1 := fun hh => hv (by rw [hh])
      by_cases h0 : w = 0
      · rw [if_pos h0, if_pos (by rw [hw0] at h0; omega)]; exact ⟨_, rfl⟩
      · rw [if_neg h0, if_neg h1, if_neg (by rw [hw1] at h1; rw [hw0] at h0; omega)]; exact ⟨_, rfl⟩
  obtain ⟨msg, hval⟩ := hval
  refine ⟨msg, ?_⟩
  have hp : parseOne s = .fail s.ver (.report (.errorReport (s.ver.getD 1)
      (if (readHdr s.buf).version.toNat ≤ 1 then 8 else 4) (some (rawOf s.buf)) (some msg))) := by
    unfold parseOne
    rw [if_neg (by omega), if_neg (by omega), hval]
  unfold parseLoop
  rw [if_neg (by omega), hp]

/-- A version 0 Reset Query on a version 1 connection, and a first PDU of version 2. -/
example : (readHdr [0, 2, 0, 0, 0, 0, 0, 8]).version = 0 ∧ (readHdr [0, 2, 0, 0, 0, 0, 0, 8]).len.toNat = 8 ∧
    (readHdr [2, 2, 0, 0, 0, 0, 0, 8]).version.toNat = 2 := by decide

/-! ### C17 -/

/-- C17 (without undefined behaviour, see C18). An Error Report that ends the session is about received bytes, and
the PDU these bytes begin with is not an Error Report. -/
theorem C17_no_report_about_report_partial (s : Stream) (hs : Reachable s) (es : List SockEv) (c : SendCall)
    (h : s.next es = .close (.report c)) :
    ∃ v code msg b raw, c = .errorReport v code (some raw) msg ∧ b <:+: s.buf ++ allData es ∧ raw <+: b ∧
      8 ≤ b.length ∧ be (field b 1 1) ≠ 10 := by
  have ho := next_outcome s hs.inv.1 hs.inv.2 es
  rw [h] at ho
  rcases ho with h | ⟨b, hb, h8, v, code, msg, he, _⟩
  · cases h
  · unfold errOut at he
    cases hx : (rawOf b)[1]? with
    | none => rw [hx] at he; cases he
    | some x =>
      rw [hx] at he
      simp only at he
      split at he
      · rename_i hne
        simp only [ErrOut.report.injEq] at he
        refine ⟨v, code, msg, b, rawOf b, he, hb, List.take_prefix _ _, h8, ?_⟩
        have : b[1]? = some x := by
          unfold rawOf at hx
          generalize (if (readHdr b).len.toNat ≤ b.length then (readHdr b).len.toNat else b.length) = n at hx
          rw [List.getElem?_take] at hx
          by_cases h1 : 1 < n
          · rwa [if_pos h1] at hx
          · rw [if_neg h1] at hx; cases hx
        rcases b with _ | ⟨b0, _ | ⟨b1, t⟩⟩
        · simp at h8
        · simp at h8
        · simp at this
          subst this
          simp only [field, be, List.drop_succ_cons, List.drop_zero, List.take_succ_cons, List.take_zero,
            List.foldl_cons, List.foldl_nil]
          intro h10
          apply hne
          exact BitVec.eq_of_toNat_eq (by simpa using h10)
      · cases he

/-- A PDU of unknown type is answered, an Error Report with the same fault is not. -/
example : (Stream.new.next [.data [1, 77, 0, 0, 0, 0, 0, 8]] =
      .close (.report (.errorReport 1 5 (some [1, 77, 0, 0, 0, 0, 0, 8]) none))) ∧
    Stream.new.next [.data [7, 10, 0, 0, 0, 0, 0, 8]] = .close .none := by
  constructor <;> simp [Stream.next, pdustreamNext, updateBuffer, readLoop, Stream.new, parseLoop, parseOne,
    readHdr, readU16, readU32, rawOf, validateVersion, loadPdu, errOut]

/-! ### C18 -/

/-- A read of bytes that were not received: stale or uninitialized bytes of the buffer, or bytes beyond the
buffer, or beyond the copy of the PDU (`request->bytes[1]`). -/
def NextRes.bad : NextRes → Prop
  | .stale | .ub | .close .ub => True
  | _ => False

/-- C18, the part that holds: such a read only happens when some received PDU has a length field below 2, or is an
Error Report whose length field exceeds the bytes received so far. (In particular: never for a router which sends
its Error Reports in one piece and no length field below 2.) -/
theorem C18_reads_partial (s : Stream) (hs : Reachable s) (es : List SockEv) (h : (s.next es).bad) :
    ∃ b, b <:+: s.buf ++ allData es ∧ 8 ≤ b.length ∧
      (be (field b 4 4) < 2 ∨ (be (field b 1 1) = 10 ∧ b.length < be (field b 4 4))) := by
  have ho := next_outcome s hs.inv.1 hs.inv.2 es
  have over : ∀ b, Overclaims b → 8 ≤ b.length ∧
      (be (field b 4 4) < 2 ∨ (be (field b 1 1) = 10 ∧ b.length < be (field b 4 4))) := by
    rintro b ⟨h8, ht, hl⟩
    obtain ⟨_, f1, _, f4⟩ := readHdr_fields b h8
    exact ⟨h8, Or.inr ⟨by rw [← f1, ht]; rfl, by rw [← f4]; exact hl⟩⟩
  cases hn : s.next es with
  | ok s' es' r => rw [hn] at h; exact h.elim
  | spin => rw [hn] at h; exact h.elim
  | stale => rw [hn] at ho; obtain ⟨b, hb, ho⟩ := ho; exact ⟨b, hb, over b ho⟩
  | ub => rw [hn] at ho; obtain ⟨b, hb, ho⟩ := ho; exact ⟨b, hb, over b ho⟩
  | close e =>
    rw [hn] at h ho
    cases e with
    | none => exact h.elim
    | report c => exact h.elim
    | ub =>
      rcases ho with ho | ⟨b, hb, h8, v, code, msg, he, _⟩
      · cases ho
      · refine ⟨b, hb, h8, Or.inl ?_⟩
        unfold errOut at he
        cases hx : (rawOf b)[1]? with
        | some x =>
          rw [hx] at he
          simp only at he
          split at he <;> cases he
        | none =>
          rw [List.getElem?_eq_none_iff] at hx
          unfold rawOf at hx
          rw [List.length_take] at hx
          obtain ⟨_, _, _, f4⟩ := readHdr_fields b h8
          rw [← f4]
          split at hx <;> omega

/-- C18 is false: an Error Report whose text has not arrived yet is logged from bytes of the buffer that were not
received (16 bytes of header and lengths; the text of 1000 bytes is missing). -/
theorem C18_stale_text : Stream.new.next [.data [1, 10, 0, 0, 0, 0, 3, 0xF8, 0, 0, 0, 0, 0, 0, 3, 0xE8]] = .stale := by
  simp [Stream.next, pdustreamNext, updateBuffer, readLoop, Stream.new, parseLoop, parseOne,
    readHdr, readU16, readU32, rawOf, validateVersion, loadPdu, loadErrorReport]

/-- C18 is false, beyond the buffer: after 126 Reset Queries in the same 1024 bytes, the same Error Report makes the
parser copy 1000 bytes from offset 1024 of the 1024-byte buffer. -/
theorem C18_out_of_bounds :
    Stream.new.next [.data ((List.replicate 126 [1, 2, 0, 0, 0, 0, 0, 8]).flatten ++
      [1, 10, 0, 0, 0, 0, 3, 0xF8, 0, 0, 0, 0, 0, 0, 3, 0xE8])] = .ub := by
  have hq : ∀ (n off : Nat) (ver : Option (BitVec 8)) (last : Option Request) (t : List Byte),
      (ver = none ∨ ver = some 1) → ∃ last', parseLoop ⟨ver, off, (List.replicate n [1, 2, 0, 0, 0, 0, 0, 8]).flatten ++ t⟩ last =
        parseLoop ⟨if n = 0 then ver else some 1, off + 8 * n, t⟩ last' := by
    intro n
    induction n with
    | zero => intro off ver last t _; exact ⟨last, by simp⟩
    | succ n ih =>
      intro off ver last t hv
      have hq : IsQuery 1 [1, 2, 0, 0, 0, 0, 0, 8] .reset := by unfold IsQuery; decide
      rw [List.replicate_succ, List.flatten_cons, List.append_assoc]
      have hp := parseOne_query (Or.inr rfl) hq hv off (t := (List.replicate n [1, 2, 0, 0, 0, 0, 0, 8]).flatten ++ t)
      obtain ⟨last', h⟩ := ih (off + 8) (some 1) (some ⟨1, .reset, [1, 2, 0, 0, 0, 0, 0, 8], false⟩) t (Or.inr rfl)
      refine ⟨last', ?_⟩
      conv => lhs; unfold parseLoop
      rw [if_neg (by simp), hp]
      simp only [List.length_cons, List.length_nil]
      rw [h]
      congr 2
      · simp
      · omega
  generalize hb : (List.replicate 126 ([1, 2, 0, 0, 0, 0, 0, 8] : List Byte)).flatten ++
      [1, 10, 0, 0, 0, 0, 3, 0xF8, 0, 0, 0, 0, 0, 0, 3, 0xE8] = b
  have hlen : b.length = 1024 := by
    rw [← hb, List.length_append, List.length_flatten, List.map_replicate]; simp
  have hu : updateBuffer Stream.new [.data b] = (⟨none, 0, b⟩, [], .keepReading) := by
    simp [updateBuffer, Stream.new, readLoop, hlen]
  unfold Stream.next
  rw [pdustreamNext_succ hu, if_neg (by decide)]
  obtain ⟨last', h⟩ := hq 126 0 none none [1, 10, 0, 0, 0, 0, 3, 0xF8, 0, 0, 0, 0, 0, 0, 3, 0xE8] (Or.inl rfl)
  rw [hb] at h
  rw [h]
  simp [parseLoop, parseOne, readHdr, readU16, readU32, rawOf, validateVersion, loadPdu, loadErrorReport]

/-- C18 is false, beyond the copy of the PDU: the length field of this Reset Query is 0, its copy is empty, and
deciding whether it may be answered with an Error Report reads the second byte of the copy. -/
theorem C18_empty_copy : Stream.new.next [.data [1, 2, 0, 0, 0, 0, 0, 0]] = .close .ub := by
  simp [Stream.next, pdustreamNext, updateBuffer, readLoop, Stream.new, parseLoop, parseOne,
    readHdr, readU16, readU32, rawOf, validateVersion, loadPdu, loadResetQuery, errOut]

/-- C17 is false: the length field of this Error Report, of a version that isn't supported, is 0; so its copy is empty and its type, which would tell that it can't be answered, is
read from beyond the copy. (What's read there decides whether an Error Report is sent.) -/
theorem C17_refuted : Stream.new.next [.data [2, 10, 0, 0, 0, 0, 0, 0]] = .close .ub := by
  simp [Stream.next, pdustreamNext, updateBuffer, readLoop, Stream.new, parseLoop, parseOne,
    readHdr, readU16, readU32, rawOf, validateVersion, errOut]

/-! ### C67 -/

/-- C67. Whatever arrives, a call of the parser comes to an end: `goto again` is not taken more often than there
are bytes to read. -/
theorem C67_no_spin (s : Stream) (hs : Reachable s) (es : List SockEv) : s.next es ≠ .spin := by
  intro h
  have ho := next_outcome s hs.inv.1 hs.inv.2 es
  rw [h] at ho
  exact ho

/-- The limit is not trivial: 3000 bytes make it go around. -/
example : (readLoop [.data (List.replicate 3000 0)] []).2.2 = .keepReading := by
  have h : (List.replicate 3000 (0 : Byte)).length = 3000 := List.length_replicate
  generalize List.replicate 3000 (0 : Byte) = l at h
  simp [readLoop, h]

/-! ### C68 -/

/-- C68 is false: when the first PDU of a connection is too large, the Error Report that answers it has the version
byte of that PDU, which may be a version the server does not speak. -/
theorem C68_echoes_unknown_version :
    Stream.new.next [.data [77, 2, 0, 0, 0, 0, 16, 0]] =
      .close (.report (.errorReport 77 3 (some [77, 2, 0, 0, 0, 0, 16, 0]) (some (strBytes "PDU is too large.")))) := by
  simp [Stream.next, pdustreamNext, updateBuffer, readLoop, Stream.new, parseLoop, parseOne,
    readHdr, readU16, readU32, rawOf, errOut]

/-- C68, where it holds: an Error Report that ends the session has version 0 or 1, unless the PDU it is about claims
more than 1024 bytes; in that case it may also have the version byte of that PDU. -/
theorem C68_report_version_partial (s : Stream) (hs : Reachable s) (es : List SockEv) (c : SendCall)
    (h : s.next es = .close (.report c)) :
    ∃ v code raw msg b, c = .errorReport v code raw msg ∧ b <:+: s.buf ++ allData es ∧ 8 ≤ b.length ∧
      ((v = 0 ∨ v = 1) ∨ (1024 < be (field b 4 4) ∧ v.toNat = be (field b 0 1))) := by
  have ho := next_outcome s hs.inv.1 hs.inv.2 es
  rw [h] at ho
  rcases ho with h | ⟨b, hb, h8, v, code, msg, he, hv⟩
  · cases h
  · unfold errOut at he
    cases hx : (rawOf b)[1]? with
    | none => rw [hx] at he; cases he
    | some x =>
      rw [hx] at he
      simp only at he
      split at he
      · simp only [ErrOut.report.injEq] at he
        refine ⟨v, code, some (rawOf b), msg, b, he, hb, h8, hv.imp_right ?_⟩
        obtain ⟨f1, _, _, f4⟩ := readHdr_fields b h8
        rintro ⟨hl, rfl⟩
        exact ⟨by omega, f1⟩
      · cases he

end Verif.Rtr
