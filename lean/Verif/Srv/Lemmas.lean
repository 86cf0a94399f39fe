import Verif.Srv.Spec
/-
The loops of a round.
-/
namespace Verif.Srv

theorem getElem?_mid (pre : List α) (x : α) (post : List α) : (pre ++ x :: post)[pre.length]? = some x := by simp

theorem set_mid (pre : List α) (x y : α) (post : List α) : (pre ++ x :: post).set pre.length y = pre ++ y :: post := by simp

theorem arrivals_cons (r : Round) (s : Option Nat) (l : List (Option Nat)) (i : Nat) :
    arrivals r (s :: l) i = (match (if s.isSome && !(r.revents i).bad && (r.revents i).pin then match r.accept i with | .fd fd nb => some (fd, nb) | .error _ => none
      else none : Option (Nat × Bool)) with | some a => [a] | none => []) ++ arrivals r l (i + 1) := by
  unfold arrivals
  rw [List.zipIdx_cons, List.filterMap_cons]
  dsimp only
  generalize (if s.isSome && !(r.revents i).bad && (r.revents i).pin then match r.accept i with | .fd fd nb => some (fd, nb) | .error _ => none
      else none : Option (Nat × Bool)) = a
  cases a <;> rfl

theorem newcomers_cons (next : Nat) (a : Nat × Bool) (l : List (Nat × Bool)) :
    newcomers next (a :: l) = (if a.2 then [⟨a.1, next⟩] else []) ++ newcomers (next + 1) l := by
  unfold newcomers
  rw [List.zipIdx_cons, List.filterMap_cons]
  dsimp only
  cases a.2 <;> rfl

theorem arrivalActs_cons (next : Nat) (a : Nat × Bool) (l : List (Nat × Bool)) :
    arrivalActs next (a :: l) = (if a.2 then [.accept a.1 next] else [.accept a.1 next, .close a.1 (.conn next)]) ++ arrivalActs (next + 1) l := by
  unfold arrivalActs
  rw [List.zipIdx_cons, List.flatMap_cons]

theorem remaining_cons (r : Round) (s : Option Nat) (l : List (Option Nat)) (i : Nat) :
    remaining r (s :: l) i = (if serverDown r i then none else s) :: remaining r l (i + 1) := by
  unfold remaining; rw [List.zipIdx_cons, List.map_cons]

theorem acceptLoop_eq (r : Round) (l : List (Option Nat)) (pre post : List (Option Nat)) (clients : List Client) (next : Nat) (acts : List Act) :
    acceptLoop r l.length pre.length ⟨pre ++ l ++ post, clients, next, acts⟩ =
      some ⟨pre ++ remaining r l pre.length ++ post, clients ++ newcomers next (arrivals r l pre.length), next + (arrivals r l pre.length).length,
        acts ++ arrivalActs next (arrivals r l pre.length)⟩ := by
  induction l generalizing pre clients next acts with
  | nil => simp [acceptLoop, remaining, arrivals, newcomers, arrivalActs]
  | cons s l ih =>
    rw [List.length_cons, acceptLoop]
    dsimp only
    have e1 : (pre ++ s :: l ++ post)[pre.length]? = some s := by
      rw [List.append_assoc, List.cons_append]; exact getElem?_mid pre s (l ++ post)
    have e2 : ∀ y, (pre ++ s :: l ++ post).set pre.length y = pre ++ y :: l ++ post := by
      intro y
      rw [List.append_assoc, List.cons_append, set_mid]; simp
    have hpre : ∀ y : Option Nat, (pre ++ [y]).length = pre.length + 1 := by simp
    have hap : ∀ y : Option Nat, pre ++ y :: l ++ post = (pre ++ [y]) ++ l ++ post := by simp
    rw [e1, arrivals_cons, remaining_cons]
    cases s with
    | none =>
      dsimp only
      have := ih (pre ++ [none]) clients next acts
      rw [hpre, ← hap] at this
      rw [this]
      simp
    | some fd =>
      dsimp only
      by_cases hb : (r.revents pre.length).bad = true
      · rw [if_pos hb, e2]
        have := ih (pre ++ [none]) clients next acts
        rw [hpre, ← hap] at this
        rw [this]
        have hd : serverDown r pre.length = true := by simp [serverDown, hb]
        simp [hb, hd]
      · rw [if_neg hb]
        have hb' : (r.revents pre.length).bad = false := by simpa using hb
        by_cases hp : (r.revents pre.length).pin = true
        · rw [if_pos hp]
          unfold acceptNewClient
          cases ha : r.accept pre.length with
          | error e =>
            dsimp only
            by_cases he : e ∈ retryErrors
            · have hv : handleAcceptResult e = .clientError := by unfold handleAcceptResult; rw [if_pos he]
              rw [if_neg (by rw [hv]; decide)]
              have := ih (pre ++ [some fd]) clients next acts
              rw [hpre, ← hap] at this
              rw [this]
              have hd : serverDown r pre.length = false := by simp [serverDown, hb', ha, he]
              simp [hb', hp, hd]
            · have hv : handleAcceptResult e = .serverError := by unfold handleAcceptResult; rw [if_neg he]
              rw [if_pos hv, e2]
              have := ih (pre ++ [none]) clients next acts
              rw [hpre, ← hap] at this
              rw [this]
              have hd : serverDown r pre.length = true := by simp [serverDown, hp, ha, he]
              simp [hb', hp, hd]
          | fd f nb =>
            have hd : serverDown r pre.length = false := by simp [serverDown, hb', ha]
            cases nb with
            | true =>
              simp only [if_true]
              rw [if_neg (by decide)]
              have := ih (pre ++ [some fd]) (clients ++ [⟨f, next⟩]) (next + 1) (acts ++ [.accept f next])
              rw [hpre, ← hap] at this
              rw [this]
              simp [hb', hp, hd, newcomers_cons, arrivalActs_cons]
              omega
            | false =>
              simp only [Bool.false_eq_true, if_false]
              rw [if_neg (by decide)]
              have := ih (pre ++ [some fd]) clients (next + 1) (acts ++ [.accept f next, .close f (.conn next)])
              rw [hpre, ← hap] at this
              rw [this]
              simp [hb', hp, hd, newcomers_cons, arrivalActs_cons]
              omega
        · rw [if_neg hp]
          have := ih (pre ++ [some fd]) clients next acts
          rw [hpre, ← hap] at this
          rw [this]
          have hd : serverDown r pre.length = false := by simp [serverDown, hb', hp]
          simp [hb', hp, hd]

/-- The descriptors of `pollfds` for the clients, after the second loop. -/
def clientFds (r : Round) (nservers : Nat) (clients : List Client) (i : Nat) : List (Option Nat) :=
  (clients.zipIdx i).map fun (c, i) => if clientDown r nservers i then none else some c.fd

theorem clientLoop_eq (r : Round) (ss : List (Option Nat)) (l pre new : List Client) (prefds : List (Option Nat)) (hl : prefds.length = pre.length) (next : Nat) (acts : List Act) :
    clientLoop r ss.length l.length pre.length ⟨ss ++ prefds ++ l.map (fun c => some c.fd), pre ++ l ++ new, next, acts⟩ =
      some ⟨ss ++ prefds ++ clientFds r ss.length l pre.length, pre ++ l ++ new, next, acts ++ requestActs r ss.length l pre.length⟩ := by
  induction l generalizing pre prefds acts with
  | nil => simp [clientLoop, clientFds, requestActs]
  | cons c l ih =>
    rw [List.length_cons, clientLoop]
    dsimp only
    have hlt : ss.length + pre.length < (ss ++ prefds ++ (c :: l).map (fun c => some c.fd)).length := by simp [hl]
    rw [if_pos hlt]
    have hset : ∀ y, (ss ++ prefds ++ (c :: l).map (fun c => some c.fd)).set (ss.length + pre.length) y = ss ++ (prefds ++ [y]) ++ l.map (fun c => some c.fd) := by
      intro y
      have e : ss.length + pre.length = (ss ++ prefds).length := by simp [hl]
      rw [e, List.map_cons, set_mid]; simp
    have hkeep : ss ++ prefds ++ (c :: l).map (fun c => some c.fd) = ss ++ (prefds ++ [some c.fd]) ++ l.map (fun c => some c.fd) := by simp
    have hcl : pre ++ c :: l ++ new = (pre ++ [c]) ++ l ++ new := by simp
    have hpre : (pre ++ [c]).length = pre.length + 1 := by simp
    have hfds : ∀ y : Option Nat, (prefds ++ [y]).length = (pre ++ [c]).length := by simp [hl]
    have hget : (pre ++ c :: l ++ new)[pre.length]? = some c := by
      rw [List.append_assoc, List.cons_append]; exact getElem?_mid pre c (l ++ new)
    have f1 : clientFds r ss.length (c :: l) pre.length = (if clientDown r ss.length pre.length then none else some c.fd) :: clientFds r ss.length l (pre.length + 1) := by
      unfold clientFds; rw [List.zipIdx_cons, List.map_cons]
    have f2 : requestActs r ss.length (c :: l) pre.length = (if asks r ss.length pre.length then [.push c.fd c.conn] else []) ++ requestActs r ss.length l (pre.length + 1) := by
      unfold requestActs; rw [List.zipIdx_cons, List.filterMap_cons]; dsimp only; cases asks r ss.length pre.length <;> rfl
    rw [f1, f2]
    have down : clientDown r ss.length pre.length = true → asks r ss.length pre.length = false →
        clientLoop r ss.length l.length (pre.length + 1) ⟨(ss ++ prefds ++ (c :: l).map (fun c => some c.fd)).set (ss.length + pre.length) none, pre ++ c :: l ++ new, next, acts⟩ =
        some ⟨ss ++ prefds ++ (if clientDown r ss.length pre.length then none else some c.fd) :: clientFds r ss.length l (pre.length + 1), pre ++ c :: l ++ new, next,
          acts ++ ((if asks r ss.length pre.length then [.push c.fd c.conn] else []) ++ requestActs r ss.length l (pre.length + 1))⟩ := by
      intro h1 h2
      rw [hset, hcl]
      have := ih (pre ++ [c]) (prefds ++ [none]) (hfds none) acts
      rw [hpre] at this
      rw [this]
      simp [h1, h2]
    have up : clientDown r ss.length pre.length = false → 
        clientLoop r ss.length l.length (pre.length + 1) ⟨ss ++ prefds ++ (c :: l).map (fun c => some c.fd), pre ++ c :: l ++ new, next,
          acts ++ (if asks r ss.length pre.length then [.push c.fd c.conn] else [])⟩ =
        some ⟨ss ++ prefds ++ (if clientDown r ss.length pre.length then none else some c.fd) :: clientFds r ss.length l (pre.length + 1), pre ++ c :: l ++ new, next,
          acts ++ ((if asks r ss.length pre.length then [.push c.fd c.conn] else []) ++ requestActs r ss.length l (pre.length + 1))⟩ := by
      intro h1
      rw [hkeep, hcl]
      have := ih (pre ++ [c]) (prefds ++ [some c.fd]) (hfds _) (acts ++ (if asks r ss.length pre.length then [.push c.fd c.conn] else []))
      rw [hpre] at this
      rw [this]
      simp [h1]
    by_cases hb : (r.revents (ss.length + pre.length)).bad = true
    · rw [if_pos hb]
      exact down (by simp [clientDown, hb]) (by simp [asks, hb])
    · rw [if_neg hb]
      have hb' : (r.revents (ss.length + pre.length)).bad = false := by simpa using hb
      by_cases hp : (r.revents (ss.length + pre.length)).pin = true
      · rw [if_pos hp, hget]
        dsimp only
        cases hn : r.next pre.length with
        | down => exact down (by simp [clientDown, hp, hn]) (by simp [asks, hn])
        | nothing =>
          have ha : asks r ss.length pre.length = false := by simp [asks, hn]
          have := up (by simp [clientDown, hb', hn])
          rw [ha] at this ⊢
          simpa using this
        | request =>
          have ha : asks r ss.length pre.length = true := by simp [asks, hn, hb', hp]
          have := up (by simp [clientDown, hb', hn])
          rw [ha] at this ⊢
          simpa using this
      · rw [if_neg hp]
        have ha : asks r ss.length pre.length = false := by simp [asks, hp]
        have := up (by simp [clientDown, hb', hp])
        rw [ha] at this ⊢
        simpa using this

theorem applyServers_eq (r : Round) (l pre prefds post : List (Option Nat)) (hl : prefds.length = pre.length) (acts : List Act) :
    applyServers (prefds ++ remaining r l pre.length ++ post) l.length pre.length (pre ++ l) acts =
      some (pre ++ remaining r l pre.length, acts ++ serverCloses r l pre.length) := by
  induction l generalizing pre prefds acts with
  | nil => simp [applyServers, remaining, serverCloses]
  | cons s l ih =>
    rw [List.length_cons, applyServers, remaining_cons]
    have e1 : (prefds ++ (if serverDown r pre.length then none else s) :: remaining r l (pre.length + 1) ++ post)[pre.length]? =
        some (if serverDown r pre.length then none else s) := by
      rw [List.append_assoc, List.cons_append, ← hl]; exact getElem?_mid prefds _ _
    have e2 : (pre ++ s :: l)[pre.length]? = some s := getElem?_mid pre s l
    have e3 : (pre ++ s :: l).set pre.length none = pre ++ none :: l := set_mid pre s none l
    have f1 : serverCloses r (s :: l) pre.length = (if serverDown r pre.length then (match s with | some fd => [.close fd (.listen pre.length)] | none => []) else []) ++ serverCloses r l (pre.length + 1) := by
      unfold serverCloses; rw [List.zipIdx_cons, List.filterMap_cons]; dsimp only
      cases serverDown r pre.length <;> cases s <;> rfl
    rw [e1, e2, f1]
    have hpre : ∀ y : Option Nat, (pre ++ [y]).length = pre.length + 1 := by simp
    have hfds : ∀ y z : Option Nat, (prefds ++ [y]).length = (pre ++ [z]).length := by simp [hl]
    have step : ∀ (y z : Option Nat) (acts : List Act),
        applyServers (prefds ++ y :: remaining r l (pre.length + 1) ++ post) l.length (pre.length + 1) (pre ++ z :: l) acts =
          some (pre ++ z :: remaining r l (pre.length + 1), acts ++ serverCloses r l (pre.length + 1)) := by
      intro y z acts
      have := ih (pre ++ [z]) (prefds ++ [y]) (hfds y z) acts
      rw [hpre] at this
      simpa using this
    cases hd : serverDown r pre.length with
    | true =>
      cases s with
      | none => simp only [if_true]; rw [step]; simp
      | some fd => simp only [if_true]; rw [e3, step]; simp
    | false =>
      cases s with
      | none => simp only [Bool.false_eq_true, if_false]; rw [step]; simp
      | some fd => simp only [Bool.false_eq_true, if_false]; rw [step]; simp

/-- The array of clients after the second loop of `apply_pollfds`. -/
def marked (r : Round) (nservers : Nat) (clients : List Client) (i : Nat) : List (Option Client) :=
  (clients.zipIdx i).map fun (c, i) => if clientDown r nservers i then none else some c

theorem applyClients_eq (r : Round) (ss : List (Option Nat)) (l : List Client) (pre post : List (Option Client)) (prefds : List (Option Nat)) (hl : prefds.length = pre.length) (acts : List Act) :
    applyClients (ss ++ prefds ++ clientFds r ss.length l pre.length) ss.length l.length pre.length (pre ++ l.map some ++ post) acts =
      some (pre ++ marked r ss.length l pre.length ++ post, acts ++ clientCloses r ss.length l pre.length) := by
  induction l generalizing pre prefds acts with
  | nil => simp [applyClients, marked, clientCloses]
  | cons c l ih =>
    have f1 : clientFds r ss.length (c :: l) pre.length = (if clientDown r ss.length pre.length then none else some c.fd) :: clientFds r ss.length l (pre.length + 1) := by
      unfold clientFds; rw [List.zipIdx_cons, List.map_cons]
    have f2 : marked r ss.length (c :: l) pre.length = (if clientDown r ss.length pre.length then none else some c) :: marked r ss.length l (pre.length + 1) := by
      unfold marked; rw [List.zipIdx_cons, List.map_cons]
    have f3 : clientCloses r ss.length (c :: l) pre.length = (if clientDown r ss.length pre.length then [.close c.fd (.conn c.conn)] else []) ++ clientCloses r ss.length l (pre.length + 1) := by
      unfold clientCloses; rw [List.zipIdx_cons, List.filterMap_cons]; dsimp only
      cases clientDown r ss.length pre.length <;> rfl
    rw [List.length_cons, applyClients, f1, f2, f3]
    have e1 : (ss ++ prefds ++ (if clientDown r ss.length pre.length then none else some c.fd) :: clientFds r ss.length l (pre.length + 1))[ss.length + pre.length]? =
        some (if clientDown r ss.length pre.length then none else some c.fd) := by
      have e : ss.length + pre.length = (ss ++ prefds).length := by simp [hl]
      rw [e]; exact getElem?_mid _ _ _
    have e2 : (pre ++ (c :: l).map some ++ post)[pre.length]? = some (some c) := by
      rw [List.append_assoc, List.map_cons, List.cons_append]; exact getElem?_mid pre (some c) _
    have e3 : (pre ++ (c :: l).map some ++ post).set pre.length none = (pre ++ [none]) ++ l.map some ++ post := by
      rw [List.append_assoc, List.map_cons, List.cons_append, set_mid]; simp
    have hpre : ∀ y : Option Client, (pre ++ [y]).length = pre.length + 1 := by simp
    have hfds : ∀ (y : Option Nat) (z : Option Client), (prefds ++ [y]).length = (pre ++ [z]).length := by simp [hl]
    rw [e1, e2]
    cases hd : clientDown r ss.length pre.length with
    | true =>
      simp only [if_true]
      rw [e3]
      have := ih (pre ++ [none]) (prefds ++ [none]) (hfds _ _) (acts ++ [.close c.fd (.conn c.conn)])
      rw [hpre] at this
      simpa using this
    | false =>
      simp only [Bool.false_eq_true, if_false]
      have := ih (pre ++ [some c]) (prefds ++ [some c.fd]) (hfds _ _) acts
      rw [hpre] at this
      simpa using this

/-- `src` elements were visited: the live ones of them are at the beginning. -/
theorem deleteDeadLoop_eq (l : List (Option Client)) (live junk : List (Option Client)) :
    ∃ rest, deleteDeadLoop l.length (live.length + junk.length) live.length (live ++ junk ++ l) =
      some ((live ++ (l.filterMap id).map some).length, live ++ (l.filterMap id).map some ++ rest) := by
  induction l generalizing live junk with
  | nil => exact ⟨junk, by simp [deleteDeadLoop]⟩
  | cons x l ih =>
    have e1 : (live ++ junk ++ x :: l)[live.length + junk.length]? = some x := by
      have e : live.length + junk.length = (live ++ junk).length := by simp
      rw [e]; exact getElem?_mid _ _ _
    rw [List.length_cons, deleteDeadLoop, e1]
    cases x with
    | none =>
      obtain ⟨rest, h⟩ := ih live (junk ++ [none])
      refine ⟨rest, ?_⟩
      simpa [Nat.add_assoc] using h
    | some c =>
      dsimp only
      rw [if_pos (by simp; omega)]
      cases junk with
      | nil =>
        obtain ⟨rest, h⟩ := ih (live ++ [some c]) []
        refine ⟨rest, ?_⟩
        have e2 : (live ++ [] ++ some c :: l).set live.length (some c) = live ++ some c :: l := by simp
        rw [e2]
        simpa using h
      | cons j junk =>
        obtain ⟨rest, h⟩ := ih (live ++ [some c]) (junk ++ [some c])
        refine ⟨rest, ?_⟩
        have e2 : (live ++ j :: junk ++ some c :: l).set live.length (some c) = live ++ some c :: (junk ++ some c :: l) := by simp
        rw [e2]
        have e3 : live.length + (j :: junk).length + 1 = (live ++ [some c]).length + (junk ++ [some c]).length := by simp; omega
        rw [e3]
        simpa using h

theorem deleteDead_eq (l : List (Option Client)) : deleteDeadClients l = some (l.filterMap id) := by
  obtain ⟨rest, h⟩ := deleteDeadLoop_eq l [] []
  simp only [List.length_nil, List.nil_append, Nat.add_zero] at h
  unfold deleteDeadClients
  rw [h]
  dsimp only
  rw [List.take_left']
  · rw [if_neg (by simp)]
    simp [List.filterMap_map, Function.comp_def]
  · rfl

theorem marked_live (r : Round) (n : Nat) (l : List Client) (i : Nat) : (marked r n l i).filterMap id = survivors (clientDown r n) l i := by
  unfold marked survivors
  induction l generalizing i with
  | nil => rfl
  | cons c l ih =>
    rw [List.zipIdx_cons, List.map_cons, List.filterMap_cons, List.filter_cons]
    dsimp only
    cases clientDown r n i with
    | true => simpa using ih (i + 1)
    | false => simpa using ih (i + 1)

theorem pollRest_eq (r : Round) (st : St) :
    pollRest r st = .more
      ⟨remaining r st.servers, survivors (clientDown r st.servers.length) st.clients ++ newcomers st.next (arrivals r st.servers), st.next + (arrivals r st.servers).length⟩
      (arrivalActs st.next (arrivals r st.servers) ++ requestActs r st.servers.length st.clients ++ serverCloses r st.servers ++ clientCloses r st.servers.length st.clients) := by
  unfold pollRest
  have h1 := acceptLoop_eq r st.servers [] (st.clients.map (fun c => some c.fd)) st.clients st.next []
  simp only [List.length_nil, List.nil_append] at h1
  dsimp only
  rw [h1]
  dsimp only
  have hrem : (remaining r st.servers 0).length = st.servers.length := by simp [remaining]
  have h2 := clientLoop_eq r (remaining r st.servers 0) st.clients [] (newcomers st.next (arrivals r st.servers 0)) [] rfl (st.next + (arrivals r st.servers 0).length) (arrivalActs st.next (arrivals r st.servers 0))
  simp only [List.length_nil, List.nil_append, List.append_nil] at h2
  rw [hrem] at h2
  rw [h2]
  dsimp only
  have h3 := applyServers_eq r st.servers [] [] (clientFds r st.servers.length st.clients 0) rfl (arrivalActs st.next (arrivals r st.servers 0) ++ requestActs r st.servers.length st.clients 0)
  simp only [List.length_nil, List.nil_append] at h3
  rw [h3]
  dsimp only
  have h4 := applyClients_eq r (remaining r st.servers 0) st.clients [] ((newcomers st.next (arrivals r st.servers 0)).map some) [] rfl
    (arrivalActs st.next (arrivals r st.servers 0) ++ requestActs r st.servers.length st.clients 0 ++ serverCloses r st.servers 0)
  simp only [List.length_nil, List.nil_append, List.append_nil] at h4
  rw [hrem, ← List.map_append] at h4
  rw [h4]
  dsimp only
  rw [deleteDead_eq, List.filterMap_append, marked_live]
  dsimp only
  congr 3
  simp [List.filterMap_map, Function.comp_def]

end Verif.Srv
