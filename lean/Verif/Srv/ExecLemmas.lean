import Verif.Srv.Lemmas
/-
Executions: what the server's thread does with descriptors is right whatever the other threads do.
-/
namespace Verif.Srv

def upd (T : Nat → Option Owner) (fd : Nat) (o : Option Owner) : Nat → Option Owner := fun f => if f = fd then o else T f

theorem upd_same (T : Nat → Option Owner) (fd : Nat) (o : Option Owner) : upd T fd o fd = o := by simp [upd]
theorem upd_other (T : Nat → Option Owner) (fd f : Nat) (o : Option Owner) (h : f ≠ fd) : upd T fd o f = T f := by simp [upd, h]

/-- The actions are legal from the server's table `T`, whatever the system answers, and establish `Q`. -/
def Ok : (Nat → Option Owner) → List Act → ((Nat → Option Owner) → Prop) → Prop
  | T, [], Q => Q T
  | T, .accept fd c :: as, Q => T fd = none → Ok (upd T fd (some (.conn c))) as Q
  | T, .close fd o :: as, Q => T fd = some o ∧ Ok (upd T fd none) as Q
  | T, .push fd c :: as, Q => T fd = some (.conn c) ∧ Ok T as Q

theorem Ok_append (a b : List Act) (Q : (Nat → Option Owner) → Prop) (T : Nat → Option Owner) :
    Ok T (a ++ b) Q ↔ Ok T a (fun T' => Ok T' b Q) := by
  induction a generalizing T with
  | nil => rfl
  | cons x a ih =>
    cases x with
    | accept fd c => exact imp_congr_right fun _ => ih _
    | close fd o => exact and_congr_right fun _ => ih _
    | push fd c => exact and_congr_right fun _ => ih _

theorem Ok_mono (a : List Act) (Q Q' : (Nat → Option Owner) → Prop) (hq : ∀ T, Q T → Q' T) (T : Nat → Option Owner) (h : Ok T a Q) : Ok T a Q' := by
  induction a generalizing T with
  | nil => exact hq T h
  | cons x a ih =>
    cases x with
    | accept fd c => exact fun hf => ih _ (h hf)
    | close fd o => exact ⟨h.1, ih _ h.2⟩
    | push fd c => exact ⟨h.1, ih _ h.2⟩

/-- The server's table is what the lists say. -/
structure Inv (st : St) (T : Nat → Option Owner) : Prop where
  sound : ∀ fd o, T fd = some o → (∃ i : Nat, o = .listen i ∧ st.servers[i]? = some (some fd)) ∨ ∃ c ∈ st.clients, o = .conn c.conn ∧ c.fd = fd
  servers : ∀ (i : Nat) fd, st.servers[i]? = some (some fd) → T fd = some (.listen i)
  clients : ∀ c ∈ st.clients, T c.fd = some (.conn c.conn)
  nodup : (st.clients.map (·.conn)).Nodup
  fresh : ∀ c ∈ st.clients, c.conn < st.next

theorem ok_arrivals (as : List (Nat × Bool)) (S : List (Option Nat)) (C : List Client) (n : Nat) (T : Nat → Option Owner) (h : Inv ⟨S, C, n⟩ T) :
    Ok T (arrivalActs n as) (Inv ⟨S, C ++ newcomers n as, n + as.length⟩) := by
  induction as generalizing C n T with
  | nil => show Inv _ T; simpa [newcomers] using h
  | cons a as ih =>
    obtain ⟨fd, nb⟩ := a
    rw [arrivalActs_cons, newcomers_cons]
    cases nb with
    | true =>
      simp only [if_true, List.cons_append, List.nil_append]
      intro hf
      have h' : Inv ⟨S, C ++ [⟨fd, n⟩], n + 1⟩ (upd T fd (some (.conn n))) := by
        constructor
        · intro f o hfo
          by_cases e : f = fd
          · subst e
            rw [upd_same] at hfo
            injection hfo with hfo
            exact Or.inr ⟨⟨f, n⟩, by simp, hfo.symm, rfl⟩
          · rw [upd_other _ _ _ _ e] at hfo
            rcases h.sound f o hfo with h1 | ⟨c, hc, h2⟩
            · exact Or.inl h1
            · exact Or.inr ⟨c, by simp only [List.mem_append]; exact Or.inl hc, h2⟩
        · intro i f hi
          have := h.servers i f hi
          rw [upd_other _ _ _ _ (by intro e; subst e; rw [hf] at this; cases this)]; exact this
        · intro c hc
          simp only [List.mem_append, List.mem_singleton] at hc
          rcases hc with hc | rfl
          · have := h.clients c hc
            rw [upd_other _ _ _ _ (by intro e; rw [e, hf] at this; cases this)]; exact this
          · exact upd_same _ _ _
        · show ((C ++ [(⟨fd, n⟩ : Client)]).map Client.conn).Nodup
          rw [List.map_append, List.nodup_append]
          refine ⟨h.nodup, by simp, ?_⟩
          intro a ha b hb
          simp only [List.map_cons, List.map_nil, List.mem_singleton] at hb
          obtain ⟨c, hc, rfl⟩ := List.mem_map.1 ha
          have := h.fresh c hc
          dsimp only at this
          omega
        · intro c hc
          simp only [List.mem_append, List.mem_singleton] at hc
          rcases hc with hc | rfl
          · have := h.fresh c hc; dsimp only at this ⊢; omega
          · dsimp only; omega
      have := ih (C ++ [⟨fd, n⟩]) (n + 1) _ h'
      simpa [Nat.add_assoc, Nat.add_comm 1] using this
    | false =>
      simp only [Bool.false_eq_true, if_false, List.cons_append, List.nil_append]
      intro hf
      refine ⟨upd_same _ _ _, ?_⟩
      have e : upd (upd T fd (some (.conn n))) fd none = T := by
        funext f
        by_cases e : f = fd
        · subst e; rw [upd_same, hf]
        · rw [upd_other _ _ _ _ e, upd_other _ _ _ _ e]
      rw [e]
      have h' : Inv ⟨S, C, n + 1⟩ T := ⟨h.sound, h.servers, h.clients, h.nodup, fun c hc => Nat.lt_succ_of_lt (h.fresh c hc)⟩
      have := ih C (n + 1) T h'
      simpa [Nat.add_assoc, Nat.add_comm 1] using this

theorem ok_requests (r : Round) (n : Nat) (l : List Client) (i : Nat) (T : Nat → Option Owner) (hl : ∀ c ∈ l, T c.fd = some (.conn c.conn)) (Q : (Nat → Option Owner) → Prop) (hq : Q T) :
    Ok T (requestActs r n l i) Q := by
  induction l generalizing i with
  | nil => exact hq
  | cons c l ih =>
    have f2 : requestActs r n (c :: l) i = (if asks r n i then [.push c.fd c.conn] else []) ++ requestActs r n l (i + 1) := by
      unfold requestActs; rw [List.zipIdx_cons, List.filterMap_cons]; dsimp only; cases asks r n i <;> rfl
    rw [f2]
    have := ih (i + 1) (fun c hc => hl c (List.mem_cons_of_mem _ hc))
    cases asks r n i with
    | true => exact ⟨hl c (List.mem_cons_self ..), this⟩
    | false => exact this

/-- A listening socket is closed. -/
theorem inv_server (S : List (Option Nat)) (C : List Client) (n i fd : Nat) (T : Nat → Option Owner) (h : Inv ⟨S, C, n⟩ T) (hi : S[i]? = some (some fd)) :
    T fd = some (.listen i) ∧ Inv ⟨S.set i none, C, n⟩ (upd T fd none) := by
  have ht := h.servers i fd hi
  refine ⟨ht, ?_, ?_, ?_, h.nodup, h.fresh⟩
  · intro f o hfo
    by_cases e : f = fd
    · subst e; rw [upd_same] at hfo; cases hfo
    · rw [upd_other _ _ _ _ e] at hfo
      rcases h.sound f o hfo with ⟨j, h1, h2⟩ | h2
      · refine Or.inl ⟨j, h1, ?_⟩
        show (S.set i none)[j]? = _
        rw [List.getElem?_set]
        by_cases e' : i = j
        · subst e'; dsimp only at h2; rw [hi] at h2; injection h2 with h2; injection h2 with h2; exact absurd h2.symm e
        · rw [if_neg e']; exact h2
      · exact Or.inr h2
  · intro j f hj
    have hj : (S.set i none)[j]? = some (some f) := hj
    rw [List.getElem?_set] at hj
    by_cases e' : i = j
    · subst e'
      rw [if_pos rfl] at hj
      by_cases h3 : i < S.length
      · rw [if_pos h3] at hj; cases hj
      · rw [if_neg h3] at hj; cases hj
    · rw [if_neg e'] at hj
      have := h.servers j f hj
      rw [upd_other _ _ _ _ (by intro e; subst e; rw [ht] at this; injection this with this; injection this with this; exact e' this)]; exact this
  · intro c hc
    have := h.clients c hc
    rw [upd_other _ _ _ _ (by intro e; rw [e, ht] at this; cases this)]; exact this

theorem ok_serverCloses (r : Round) (C : List Client) (n : Nat) (l pre : List (Option Nat)) (T : Nat → Option Owner) (h : Inv ⟨pre ++ l, C, n⟩ T) :
    Ok T (serverCloses r l pre.length) (Inv ⟨pre ++ remaining r l pre.length, C, n⟩) := by
  induction l generalizing pre T with
  | nil => show Inv _ T; simpa [remaining] using h
  | cons s l ih =>
    have f1 : serverCloses r (s :: l) pre.length = (if serverDown r pre.length then (match s with | some fd => [.close fd (.listen pre.length)] | none => []) else []) ++ serverCloses r l (pre.length + 1) := by
      unfold serverCloses; rw [List.zipIdx_cons, List.filterMap_cons]; dsimp only
      cases serverDown r pre.length <;> cases s <;> rfl
    rw [f1, remaining_cons]
    have hget : (pre ++ s :: l)[pre.length]? = some s := getElem?_mid pre s l
    have hset : (pre ++ s :: l).set pre.length none = pre ++ none :: l := set_mid pre s none l
    have step : ∀ (y : Option Nat) (T : Nat → Option Owner), Inv ⟨pre ++ y :: l, C, n⟩ T →
        Ok T (serverCloses r l (pre.length + 1)) (Inv ⟨pre ++ y :: remaining r l (pre.length + 1), C, n⟩) := by
      intro y T h
      have := ih (pre ++ [y]) T (by simpa using h)
      simpa using this
    cases hd : serverDown r pre.length with
    | true =>
      cases s with
      | none => simp only [if_true]; exact step none T h
      | some fd =>
        simp only [if_true]
        obtain ⟨h1, h2⟩ := inv_server _ C n pre.length fd T h hget
        rw [hset] at h2
        exact ⟨h1, step none _ h2⟩
    | false => simp only [Bool.false_eq_true, if_false]; exact step s T h

/-- A client is closed. -/
theorem inv_client (S : List (Option Nat)) (pre post : List Client) (c : Client) (n : Nat) (T : Nat → Option Owner) (h : Inv ⟨S, pre ++ c :: post, n⟩ T) :
    T c.fd = some (.conn c.conn) ∧ Inv ⟨S, pre ++ post, n⟩ (upd T c.fd none) := by
  have ht := h.clients c (by simp)
  have hnd : ((pre ++ c :: post).map (·.conn)).Nodup := h.nodup
  have hne : ∀ x ∈ pre ++ post, x.conn ≠ c.conn := by
    intro x hx e
    rw [List.map_append, List.map_cons, List.nodup_append] at hnd
    obtain ⟨_, h2, h3⟩ := hnd
    rcases List.mem_append.1 hx with hx | hx
    · exact h3 x.conn (List.mem_map_of_mem hx) c.conn (by simp) e
    · rw [List.nodup_cons] at h2
      exact h2.1 (e ▸ List.mem_map_of_mem hx)
  refine ⟨ht, ?_, ?_, ?_, ?_, ?_⟩
  · intro f o hfo
    by_cases e : f = c.fd
    · subst e; rw [upd_same] at hfo; cases hfo
    · rw [upd_other _ _ _ _ e] at hfo
      rcases h.sound f o hfo with h1 | ⟨x, hx, h1, h2⟩
      · exact Or.inl h1
      · refine Or.inr ⟨x, ?_, h1, h2⟩
        have hx : x ∈ pre ++ c :: post := hx
        rw [List.mem_append, List.mem_cons] at hx
        rcases hx with hx | rfl | hx
        · exact List.mem_append_left _ hx
        · exact absurd h2.symm e
        · exact List.mem_append_right _ hx
  · intro i f hi
    have := h.servers i f hi
    rw [upd_other _ _ _ _ (by intro e; rw [e, ht] at this; cases this)]; exact this
  · intro x hx
    have hx : x ∈ pre ++ post := hx
    have := h.clients x (by
      show x ∈ pre ++ c :: post
      rw [List.mem_append] at hx
      rw [List.mem_append, List.mem_cons]
      rcases hx with hx | hx
      · exact Or.inl hx
      · exact Or.inr (Or.inr hx))
    rw [upd_other _ _ _ _ (by intro e; rw [e, ht] at this; injection this with this; injection this with this; exact hne x hx this.symm)]; exact this
  · show ((pre ++ post).map (·.conn)).Nodup
    exact hnd.sublist (((List.Sublist.refl pre).append (List.sublist_cons_self c post)).map _)
  · intro x hx
    exact h.fresh x ((((List.Sublist.refl pre).append (List.sublist_cons_self c post))).subset hx)

theorem ok_clientCloses (r : Round) (S : List (Option Nat)) (n m : Nat) (l pre post : List Client) (i : Nat) (T : Nat → Option Owner) (h : Inv ⟨S, pre ++ l ++ post, n⟩ T) :
    Ok T (clientCloses r m l i) (Inv ⟨S, pre ++ survivors (clientDown r m) l i ++ post, n⟩) := by
  induction l generalizing pre T i with
  | nil => show Inv _ T; simpa [survivors] using h
  | cons c l ih =>
    have f3 : clientCloses r m (c :: l) i = (if clientDown r m i then [.close c.fd (.conn c.conn)] else []) ++ clientCloses r m l (i + 1) := by
      unfold clientCloses; rw [List.zipIdx_cons, List.filterMap_cons]; dsimp only
      cases clientDown r m i <;> rfl
    have f4 : survivors (clientDown r m) (c :: l) i = (if clientDown r m i then [] else [c]) ++ survivors (clientDown r m) l (i + 1) := by
      unfold survivors; rw [List.zipIdx_cons, List.filter_cons]; dsimp only
      cases clientDown r m i <;> rfl
    rw [f3, f4]
    cases hd : clientDown r m i with
    | true =>
      simp only [if_true, List.nil_append]
      obtain ⟨h1, h2⟩ := inv_client S pre (l ++ post) c n T (by simpa using h)
      exact ⟨h1, ih pre (i + 1) _ (by simpa using h2)⟩
    | false =>
      simp only [Bool.false_eq_true, if_false, List.nil_append]
      have := ih (pre ++ [c]) (i + 1) T (by simpa using h)
      simpa using this

theorem ok_rest (r : Round) (st st' : St) (acts : List Act) (hr : pollRest r st = .more st' acts) (T : Nat → Option Owner) (h : Inv st T) : Ok T acts (Inv st') := by
  rw [pollRest_eq] at hr
  injection hr with h1 h2
  subst h1 h2
  obtain ⟨S, C, n⟩ := st
  dsimp only at *
  rw [List.append_assoc, List.append_assoc, Ok_append]
  refine Ok_mono _ _ _ ?_ _ (ok_arrivals (arrivals r S) S C n T h)
  intro T h
  rw [Ok_append]
  refine ok_requests r _ C 0 T (fun c hc => h.clients c (List.mem_append_left _ hc)) _ ?_
  rw [Ok_append]
  have h3 := ok_serverCloses r (C ++ newcomers n (arrivals r S)) (n + (arrivals r S).length) S [] T (by simpa using h)
  refine Ok_mono _ _ _ ?_ _ h3
  intro T h
  have h4 := ok_clientCloses r ([] ++ remaining r S ([] : List (Option Nat)).length) (n + (arrivals r S).length) S.length C [] (newcomers n (arrivals r S)) 0 T (by simpa using h)
  simpa using h4

theorem ok_round (r : Round) (st st' : St) (acts : List Act) (hr : fddbPoll r st = .more st' acts) (T : Nat → Option Owner) (h : Inv st T) : Ok T acts (Inv st') := by
  unfold fddbPoll at hr
  by_cases hs : r.stop = true
  · rw [if_pos hs] at hr; cases hr
  · rw [if_neg hs] at hr
    cases hp : r.poll with
    | timeout => rw [hp] at hr; injection hr with h1 h2; subst h1 h2; exact h
    | ready => rw [hp] at hr; exact ok_rest r st st' acts hr T h
    | error e =>
      rw [hp] at hr
      dsimp only at hr
      by_cases e1 : e = 4
      · rw [if_pos e1] at hr; cases hr
      · rw [if_neg e1] at hr
        by_cases e2 : e = 12
        · rw [if_pos e2] at hr; cases hr
        · rw [if_neg e2] at hr
          by_cases e3 : e = 11
          · rw [if_pos e3] at hr; injection hr with h1 h2; subst h1 h2; exact h
          · rw [if_neg e3] at hr
            by_cases e4 : e = 14 ∨ e = 22
            · rw [if_pos e4] at hr; cases hr
            · rw [if_neg e4] at hr
              exact ok_rest _ st st' acts hr T h

theorem ok_server (rs : List Round) (st st' : St) (acts : List Act) (b : Bool) (hr : serverCb rs st = some (st', acts, b)) (T : Nat → Option Owner) (h : Inv st T) :
    Ok T acts (Inv st') := by
  induction rs generalizing st acts T with
  | nil =>
    rw [serverCb] at hr
    injection hr with hr; injection hr with h1 h2; injection h2 with h2 h3
    subst h1 h2; exact h
  | cons r rs ih =>
    rw [serverCb] at hr
    cases hp : fddbPoll r st with
    | more st1 acts1 =>
      rw [hp] at hr
      dsimp only at hr
      cases hq : serverCb rs st1 with
      | none => rw [hq] at hr; cases hr
      | some x =>
        obtain ⟨st2, acts2, b2⟩ := x
        rw [hq] at hr
        injection hr with hr; injection hr with h1 h2; injection h2 with h2 h3
        subst h1 h2 h3
        rw [Ok_append]
        exact Ok_mono _ _ _ (fun T h => ih st1 acts2 hq T h) _ (ok_round r st st1 acts1 hp T h)
    | stop =>
      rw [hp] at hr
      injection hr with hr; injection hr with h1 h2; injection h2 with h2 h3
      subst h1 h2; exact h
    | abort => rw [hp] at hr; cases hr
    | ub => rw [hp] at hr; cases hr

theorem ok_destroy_servers (C : List Client) (n : Nat) (l pre : List (Option Nat)) (T : Nat → Option Owner) (h : Inv ⟨pre ++ l, C, n⟩ T) :
    Ok T ((l.zipIdx pre.length).filterMap (fun (fd, i) => fd.map (fun fd => .close fd (.listen i)))) (Inv ⟨pre ++ l.map (fun _ => none), C, n⟩) := by
  induction l generalizing pre T with
  | nil => show Inv _ T; simpa using h
  | cons s l ih =>
    rw [List.zipIdx_cons, List.filterMap_cons]
    dsimp only
    have hget : (pre ++ s :: l)[pre.length]? = some s := getElem?_mid pre s l
    have hset : (pre ++ s :: l).set pre.length none = pre ++ none :: l := set_mid pre s none l
    have step : ∀ (T : Nat → Option Owner), Inv ⟨pre ++ none :: l, C, n⟩ T →
        Ok T ((l.zipIdx (pre.length + 1)).filterMap (fun (fd, i) => fd.map (fun fd => .close fd (.listen i)))) (Inv ⟨pre ++ none :: l.map (fun _ => none), C, n⟩) := by
      intro T h
      have := ih (pre ++ [none]) T (by simpa using h)
      simpa using this
    cases s with
    | none => exact step T h
    | some fd =>
      obtain ⟨h1, h2⟩ := inv_server _ C n pre.length fd T h hget
      rw [hset] at h2
      exact ⟨h1, step _ h2⟩

theorem ok_destroy_clients (S : List (Option Nat)) (n : Nat) (l : List Client) (T : Nat → Option Owner) (h : Inv ⟨S, l, n⟩ T) :
    Ok T (l.map (fun c => .close c.fd (.conn c.conn))) (Inv ⟨S, [], n⟩) := by
  induction l generalizing T with
  | nil => exact h
  | cons c l ih =>
    obtain ⟨h1, h2⟩ := inv_client S [] l c n T h
    exact ⟨h1, ih _ h2⟩

theorem ok_destroy (st : St) (T : Nat → Option Owner) (h : Inv st T) : Ok T (destroyDb st) (fun T => ∀ fd, T fd = none) := by
  obtain ⟨S, C, n⟩ := st
  unfold destroyDb
  rw [Ok_append]
  refine Ok_mono _ _ _ ?_ _ (ok_destroy_servers C n S [] T h)
  intro T h
  refine Ok_mono _ _ _ ?_ _ (ok_destroy_clients _ n C T h)
  intro T h fd
  cases hT : T fd with
  | none => rfl
  | some o =>
    rcases h.sound fd o hT with ⟨i, _, h2⟩ | ⟨c, hc, _⟩
    · simp only [List.nil_append, List.getElem?_map] at h2
      cases hx : S[i]? with
      | none => rw [hx] at h2; cases h2
      | some y => rw [hx] at h2; cases h2
    · cases hc

/-- The part of the table that's the server's. -/
def own (k : K) : Nat → Option Owner := fun fd => match k.table fd with | some (.other _) => none | o => o

theorem own_setFd (k : K) (fd : Nat) (o : Option Owner) (h : ∀ n, o ≠ some (.other n)) : own (k.setFd fd o) = upd (own k) fd o := by
  funext f
  unfold own K.setFd upd
  dsimp only
  by_cases e : f = fd
  · rw [if_pos e, if_pos e]
    cases o with
    | none => rfl
    | some o => cases o with
      | other n => exact absurd rfl (h n)
      | listen i => rfl
      | conn c => rfl
  · rw [if_neg e, if_neg e]

theorem own_none (k : K) (fd : Nat) (h : k.table fd = none) : own k fd = none := by unfold own; rw [h]

theorem own_some (k : K) (fd : Nat) (o : Owner) (h : own k fd = some o) : k.table fd = some o := by
  unfold own at h
  cases ht : k.table fd with
  | none => rw [ht] at h; cases h
  | some o' =>
    rw [ht] at h
    cases o' with
    | other n => cases h
    | listen i => exact h
    | conn c => exact h

theorem ok_step (threads : Nat) (acts acts' : List Act) (k k' : K) (c : Choice) (hs : step threads acts k c = some (acts', k')) (Q : (Nat → Option Owner) → Prop) (h : Ok (own k) acts Q) :
    Ok (own k') acts' Q := by
  cases c with
  | server =>
    cases acts with
    | nil => cases hs
    | cons a acts =>
      unfold step at hs
      dsimp only at hs
      cases a with
      | accept fd c =>
        unfold K.act at hs
        dsimp only at hs
        by_cases hf : k.table fd = none
        · rw [if_pos hf] at hs
          injection hs with hs; injection hs with h1 h2
          subst h1 h2
          rw [own_setFd _ _ _ (by intro n h; cases h)]
          exact h (own_none k fd hf)
        · rw [if_neg hf] at hs; cases hs
      | close fd o =>
        injection hs with hs; injection hs with h1 h2
        subst h1 h2
        rw [own_setFd _ _ _ (by intro n h; cases h)]
        exact h.2
      | push fd c =>
        injection hs with hs; injection hs with h1 h2
        subst h1 h2
        exact h.2
  | take =>
    unfold step at hs
    cases hq : k.queue with
    | nil => rw [hq] at hs; cases hs
    | cons r q =>
      rw [hq] at hs
      dsimp only at hs
      by_cases hlt : k.running.length < threads
      · rw [if_pos hlt] at hs
        injection hs with hs; injection hs with h1 h2
        subst h1 h2; exact h
      · rw [if_neg hlt] at hs; cases hs
  | send i =>
    unfold step at hs
    dsimp only at hs
    cases hq : k.running[i]? with
    | none => rw [hq] at hs; cases hs
    | some r =>
      rw [hq] at hs
      injection hs with hs; injection hs with h1 h2
      subst h1 h2; exact h
  | finish i =>
    unfold step at hs
    dsimp only at hs
    by_cases hlt : i < k.running.length
    · rw [if_pos hlt] at hs
      injection hs with hs; injection hs with h1 h2
      subst h1 h2; exact h
    · rw [if_neg hlt] at hs; cases hs
  | openOther fd o =>
    unfold step at hs
    dsimp only at hs
    by_cases hf : k.table fd = none
    · rw [if_pos hf] at hs
      injection hs with hs; injection hs with h1 h2
      subst h1 h2
      have : own (k.setFd fd (some (.other o))) = own k := by
        funext f
        unfold own K.setFd
        dsimp only
        by_cases e : f = fd
        · subst e; rw [if_pos rfl, hf]
        · rw [if_neg e]
      rw [this]; exact h
    · rw [if_neg hf] at hs; cases hs
  | closeOther fd o =>
    unfold step at hs
    dsimp only at hs
    by_cases hf : k.table fd = some (.other o)
    · rw [if_pos hf] at hs
      injection hs with hs; injection hs with h1 h2
      subst h1 h2
      have : own (k.setFd fd none) = own k := by
        funext f
        unfold own K.setFd
        dsimp only
        by_cases e : f = fd
        · subst e; rw [if_pos rfl, hf]
        · rw [if_neg e]
      rw [this]; exact h
    · rw [if_neg hf] at hs; cases hs

theorem ok_run (threads : Nat) (cs : List Choice) (acts acts' : List Act) (k k' : K) (hs : run threads cs acts k = some (acts', k')) (Q : (Nat → Option Owner) → Prop) (h : Ok (own k) acts Q) :
    Ok (own k') acts' Q := by
  induction cs generalizing acts k with
  | nil =>
    rw [run] at hs
    injection hs with hs; injection hs with h1 h2
    subst h1 h2; exact h
  | cons c cs ih =>
    rw [run] at hs
    cases hst : step threads acts k c with
    | none => rw [hst] at hs; cases hs
    | some x =>
      obtain ⟨a1, k1⟩ := x
      rw [hst] at hs
      exact ih a1 k1 hs (ok_step threads acts a1 k k1 c hst Q h)

theorem inv_init (servers : List Nat) (h : servers.Nodup) : Inv ⟨servers.map some, [], 0⟩ (own (K.init servers)) := by
  have ht : ∀ fd, own (K.init servers) fd = (servers.findIdx? (· == fd)).map .listen := by
    intro fd
    unfold own K.init
    dsimp only
    cases servers.findIdx? (· == fd) <;> rfl
  constructor
  · intro fd o hfo
    rw [ht] at hfo
    cases hx : servers.findIdx? (· == fd) with
    | none => rw [hx] at hfo; cases hfo
    | some i =>
      rw [hx] at hfo
      injection hfo with hfo
      obtain ⟨h1, h2, _⟩ := List.findIdx?_eq_some_iff_getElem.1 hx
      refine Or.inl ⟨i, hfo.symm, ?_⟩
      show (servers.map some)[i]? = _
      rw [List.getElem?_map, List.getElem?_eq_getElem h1]
      simp only [Option.map_some]
      congr 2
      simpa using h2
  · intro i fd hi
    have hi : (servers.map some)[i]? = some (some fd) := hi
    rw [List.getElem?_map] at hi
    cases hx : servers[i]? with
    | none => rw [hx] at hi; cases hi
    | some y =>
      rw [hx] at hi
      injection hi with hi; injection hi with hi; subst hi
      obtain ⟨hlt, hge⟩ := List.getElem?_eq_some_iff.1 hx
      rw [ht]
      have : servers.findIdx? (· == y) = some i := by
        rw [List.findIdx?_eq_some_iff_getElem]
        refine ⟨hlt, by simp [hge], ?_⟩
        intro j hj
        simp only [beq_iff_eq, ← hge]
        intro e
        have := (List.pairwise_iff_getElem.1 h) j i (by omega) hlt hj
        exact this e
      rw [this]; rfl
  · intro c hc; cases hc
  · exact List.nodup_nil
  · intro c hc; cases hc

end Verif.Srv
