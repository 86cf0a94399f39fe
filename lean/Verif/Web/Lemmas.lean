import Verif.Web.Spec
import Verif.Net.HttpProps
import Mathlib.Tactic.ByContra
/-
Lemmas of C199 and C200.
-/
namespace Verif.Web
open Verif.Rtr (Byte)
open Verif.Net (Answer Chunk Fs httpDownload doRetries retries_success)

/-- A download without an error: the attempt that decides it. -/
theorem download_ok {max count : Nat} {answers : Nat → Answer} {fs : Fs} {final : Option (List Byte)} (hne : ∀ j, ∀ c ∈ (answers j).chunks, c.data ≠ [])
    (he : (httpDownload max count answers fs final).1 = 0) :
    ∃ k, k ≤ count ∧ (answers k).initOk = true ∧ (answers k).res = .ok ∧ (answers k).infoOk = true ∧ (answers k).code < 400 ∧
      (((answers k).code = 304 ∧ (httpDownload max count answers fs final).2.2 = false) ∨
       ((answers k).code ≠ 304 ∧ (httpDownload max count answers fs final).2.2 = true ∧
          (httpDownload max count answers fs final).2.1.final = some ((answers k).body.take (answers k).flushed))) := by
  unfold httpDownload at he ⊢
  by_cases h1 : fs.tmpfile ≠ 0
  · rw [if_pos h1] at he; exact absurd he h1
  · rw [if_neg h1] at he ⊢
    by_cases h2 : fs.stat ≠ 0
    · rw [if_pos h2] at he; exact absurd he h2
    · rw [if_neg h2] at he ⊢
      simp only at he ⊢
      by_cases h7 : (doRetries max count answers 0 none false).1.error = 0
      · obtain ⟨k, g1, _, g2, g3, g4, g5, g6, g7, _, g9⟩ := retries_success h7 hne
        refine ⟨k, g1, g2, g3, g4, g5, ?_⟩
        by_cases h3 : (doRetries max count answers 0 none false).1.changed = false
        · rw [if_pos (.inr h3)]
          rw [g7] at h3
          refine .inl ⟨by simpa using h3, ?_⟩
          show (doRetries max count answers 0 none false).1.changed = false
          rw [g7]; exact h3
        · have hc : ¬ ((doRetries max count answers 0 none false).1.error ≠ 0 ∨ (doRetries max count answers 0 none false).1.changed = false) := by
            rintro (h | h)
            · exact h h7
            · exact h3 h
          rw [if_neg hc] at he ⊢
          by_cases h4 : fs.mkdir ≠ 0
          · rw [if_pos h4] at he; exact absurd he h4
          · rw [if_neg h4] at he ⊢
            cases h5 : (doRetries max count answers 0 none false).1.dst with
            | none => rw [h5] at he; cases he
            | some content =>
              rw [h5] at he
              simp only at he ⊢
              by_cases h6 : fs.rename ≠ 0
              · rw [if_pos h6] at he; exact absurd he h6
              · rw [if_neg h6]
                right
                have hcc : (answers k).chunks ≠ [] := by
                  intro hcc
                  rw [if_pos hcc, h5] at g9; cases g9
                rw [if_neg hcc, h5] at g9
                cases g9
                refine ⟨?_, rfl, rfl⟩
                intro e
                rw [g7, e] at h3
                exact h3 rfl
      · rw [if_pos (.inl h7)] at he
        exact absurd he h7

theorem body_map (l : List (List Byte)) (code : Int) (n : Nat) : (⟨true, l.map fun d => (⟨d, 0, d.length⟩ : Chunk), .ok, true, code, n⟩ : Answer).body = l.flatten := by
  unfold Answer.body
  simp [List.map_map, Function.comp_def]

/-! ### The handle -/

theorem long_set {accepts : Opt → Int → Bool} {h : Handle} {o o' : Opt} {v : Int} :
    (setoptLong accepts h o v).long o' = if o' = o ∧ accepts o v = true then some v else h.long o' := by
  unfold setoptLong
  by_cases ha : accepts o v = true
  · rw [if_pos ha]
    by_cases ho : o' = o
    · simp [ho, ha]
    · simp [ho]
  · rw [if_neg ha, if_neg (fun e => ha e.2)]

theorem long_str {h : Handle} {o : OptStr} {v : Option (List Byte)} {o' : Opt} : (setoptStr h o v).long o' = h.long o' := by
  cases v <;> rfl

theorem str_long {accepts : Opt → Int → Bool} {h : Handle} {o : Opt} {v : Int} {o' : OptStr} : (setoptLong accepts h o v).str o' = h.str o' := by
  unfold setoptLong; split <;> rfl

theorem str_str {h : Handle} {o o' : OptStr} {v : Option (List Byte)} : (setoptStr h o v).str o' = if o' = o ∧ v.isSome then v else h.str o' := by
  cases v with
  | none => simp [setoptStr]
  | some v => by_cases e : o' = o <;> simp [setoptStr, e]

/-- The value of each option, as libcurl sees it. -/
theorem handle_long (accepts : Opt → Int → Bool) (c : Conf) (src : List Byte) (ims : Int) (o : Opt) :
    (fetchHandle accepts c src ims).long o =
      match o with
      | .followLocation => if accepts .followLocation 1 = true then some 1 else none
      | .maxRedirs => if accepts .maxRedirs c.maxRedirs = true then some (c.maxRedirs : Int) else none
      | .connectTimeout => if accepts .connectTimeout c.connectTimeout = true then some (c.connectTimeout : Int) else none
      | .timeout => if accepts .timeout c.transferTimeout = true then some (c.transferTimeout : Int) else none
      | .lowSpeedLimit => if accepts .lowSpeedLimit c.lowSpeedLimit = true then some (c.lowSpeedLimit : Int) else none
      | .lowSpeedTime => if accepts .lowSpeedTime c.lowSpeedTime = true then some (c.lowSpeedTime : Int) else none
      | .maxFileSize => if accepts .maxFileSize c.maxFileSize = true then some (c.maxFileSize : Int) else none
      | .sslVerifyHost => if accepts .sslVerifyHost 2 = true then some 2 else none
      | .sslVerifyPeer => if accepts .sslVerifyPeer 1 = true then some 1 else none
      | .httpGet => if accepts .httpGet 1 = true then some 1 else none
      | .failOnError => if accepts .failOnError 1 = true then some 1 else none
      | .noSignal => if accepts .noSignal 1 = true then some 1 else none
      | .timeValueLarge => if 0 < ims ∧ accepts .timeValueLarge ims = true then some ims else none
      | .timeCondition => if 0 < ims ∧ accepts .timeCondition 1 = true then some 1 else none
      | .protocols => none
      | .redirProtocols => none := by
  unfold fetchHandle httpEasyInit
  by_cases hi : ims > 0
  · have hi' : 0 < ims := hi
    cases o <;> simp [hi, hi', long_str, long_set, Handle.new]
  · have hi' : ¬ 0 < ims := hi
    cases o <;> simp [hi, hi', long_str, long_set, Handle.new]

theorem handle_condition {accepts : Opt → Int → Bool} (ha : Accepting accepts) (c : Conf) (src : List Byte) (ims : Int) :
    (fetchHandle accepts c src ims).condition = if 0 < ims then some ims else none := by
  unfold Handle.condition
  rw [handle_long, handle_long]
  by_cases h : 0 < ims
  · have h1 := ha .timeCondition 1 (by decide) (by simp) (by simp)
    have h2 := ha .timeValueLarge ims (by omega) (by simp) (by simp)
    simp [h, h1, h2]
  · simp [h]

/-! ### Servers -/

theorem last_mem {p : Pubs} {t : Nat} {x : Nat × List Byte} (h : p.last t = some x) : x ∈ p ∧ x.1 ≤ t := by
  have := List.mem_of_getLast? h
  rw [List.mem_filter] at this
  exact ⟨this.1, by simpa using this.2⟩

/-- If what was published until `t` was already published at `t0`, then it's what was published until `t0`. -/
theorem last_eq {p : Pubs} (hp : p.Ordered) {t0 t : Nat} (h : t0 ≤ t) {x : Nat × List Byte} (hx : p.last t = some x) (h0 : x.1 ≤ t0) : p.last t0 = some x := by
  have key : p.filter (fun y => decide (y.1 ≤ t)) = p.filter (fun y => decide (y.1 ≤ t0)) := by
    have hq : ∀ y ∈ p, y.1 ≤ t → y.1 ≤ x.1 := by
      intro y hy hyt
      have hf : (p.filter fun y => decide (y.1 ≤ t)).Pairwise (fun a b => a.1 ≤ b.1) := List.Pairwise.filter _ hp
      have hyf : y ∈ p.filter fun y => decide (y.1 ≤ t) := List.mem_filter.2 ⟨hy, by simpa using hyt⟩
      have hx' : (p.filter fun y => decide (y.1 ≤ t)).getLast? = some x := hx
      obtain ⟨l, hl⟩ := List.getLast?_eq_some_iff.1 hx'
      rw [hl] at hf hyf
      rcases List.mem_append.1 hyf with h1 | h1
      · exact (List.pairwise_append.1 hf).2.2 y h1 x (by simp)
      · rw [List.mem_singleton.1 h1]; exact Nat.le_refl _
    apply List.filter_congr
    intro y hy
    by_cases hyt : y.1 ≤ t
    · have := hq y hy hyt
      have : y.1 ≤ t0 := by omega
      simp [hyt, this]
    · have : ¬ y.1 ≤ t0 := by omega
      simp [hyt, this]
  unfold Pubs.last at hx ⊢
  rw [← key]; exact hx

end Verif.Web
