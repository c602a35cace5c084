import Verif.Lemmas.Destination
/-!
# C149, C150: lease set queries of a destination, and where its messages go
-/
namespace Emissary.Dest
open Emissary.I2np (Duration)

/-! ## Specification -/

/-- A lease set can be used: neither its header nor all of its leases are past. Header times are seconds in 32 bits. -/
def Valid (l : LSet) (now : Duration) : Prop := now / 1000000000 % 2 ^ 32 ≤ l.expires ∧ ∃ x ∈ l.leases, now ≤ x.expires

instance (l : LSet) (now : Duration) : Decidable (Valid l now) := by unfold Valid; infer_instance

/-- The state of a destination after a history that starts with no remote known. -/
def after (chk : Bool) (t : Duration) (out : List Nat) (ops : List Op) : State := (State.init t out).run chk ops

/-- A running query for a destination. -/
def running (s : State) (d : Nat) : List Fut := s.futures.filter fun f => decide (f.dest = d)

/-- The user is told the outcome of a query for `d`. -/
def Outcome (d : Nat) (o : Out) : Prop := o = .event (.found d) ∨ ∃ e, o = .event (.notFound d e)

/-- A lease that was announced for `d`: it is in a lease set of `d` that came in a message, or in the database's answer to a query for `d`. -/
def Announced (ops : List Op) (d : Nat) (x : Lease) : Prop :=
  (∃ l, Op.receive l ∈ ops ∧ ∃ ls, Clove.store ls ∈ l ∧ ls.dest = d ∧ x ∈ ls.leases) ∨ ∃ ls, Op.answer d (some (.ok ls)) ∈ ops ∧ x ∈ ls.leases

/-! ## Helpers -/

theorem expired_iff (l : LSet) (now : Duration) : l.expired now = false ↔ Valid l now := by
  unfold LSet.expired Valid
  rw [Bool.or_eq_false_iff, decide_eq_false_iff_not, List.all_eq_false]
  simp only [decide_eq_true_eq]
  constructor
  · rintro ⟨a, x, hx, b⟩; exact ⟨Nat.le_of_not_lt a, x, hx, Nat.le_of_not_lt b⟩
  · rintro ⟨a, x, hx, b⟩; exact ⟨Nat.not_lt_of_le a, x, hx, Nat.not_lt_of_le b⟩

theorem expired_true (l : LSet) (now : Duration) : l.expired now = true ↔ ¬ Valid l now := by
  rw [← expired_iff]; simp

theorem pick_some {l : LSet} {now : Duration} (h : Valid l now) (r : Nat) : ∃ x ∈ l.leases, l.leases[r % l.leases.length]? = some x := by
  obtain ⟨_, y, hy, _⟩ := h
  have hl : 0 < l.leases.length := List.length_pos_of_mem hy
  have := Nat.mod_lt r hl
  exact ⟨l.leases[r % l.leases.length], List.getElem_mem _, List.getElem?_eq_getElem this⟩

theorem reachable_iff (s : State) (d : Nat) : s.reachable d = true ↔ ∃ l, s.leaseSet d = some l ∧ Valid l s.now := by
  unfold State.reachable State.leaseSet
  cases s.remotes.get d with
  | none => simp
  | some c =>
    simp only [Option.map_some, Option.some.injEq, Bool.not_eq_true', expired_iff]
    constructor
    · intro h; exact ⟨_, rfl, h⟩
    · rintro ⟨_, rfl, h⟩; exact h

/-- The log grows by outputs of a class. -/
def Logs (C : Out → Prop) (s s' : State) : Prop := ∃ l, s'.log = s.log ++ l ∧ ∀ o ∈ l, C o

theorem Logs.same {C : Out → Prop} {s s' : State} (h : s'.log = s.log) : Logs C s s' := ⟨[], by simp [h], by simp⟩
theorem Logs.one {C : Out → Prop} {s s' : State} {o : Out} (h : s'.log = s.log ++ [o]) (ho : C o) : Logs C s s' :=
  ⟨[o], h, by simpa using ho⟩
theorem Logs.trans {C : Out → Prop} {a b c : State} (h1 : Logs C a b) (h2 : Logs C b c) : Logs C a c := by
  obtain ⟨l, e, p⟩ := h1
  obtain ⟨m, f, q⟩ := h2
  refine ⟨l ++ m, by rw [f, e, List.append_assoc], ?_⟩
  intro o ho
  rcases List.mem_append.mp ho with ho | ho
  · exact p o ho
  · exact q o ho
theorem Logs.mono {C D : Out → Prop} {a b : State} (h : Logs C a b) (hc : ∀ o, C o → D o) : Logs D a b := by
  obtain ⟨l, e, p⟩ := h
  exact ⟨l, e, fun o ho => hc o (p o ho)⟩

/-- A message to `d` leaves or is dropped. -/
def Traffic (d : Nat) (o : Out) : Prop := (∃ m e r t b, o = .sent d m e r t b) ∨ ∃ m, o = .lost d m

theorem logs_give (s : State) (d : Nat) (m : Bytes) (r t : Nat) (o : Option Nat) (ok : Bool) : Logs (Traffic d) s (s.give d m r t o ok) := by
  unfold State.give
  split
  · exact .one rfl (.inl ⟨_, _, _, _, _, rfl⟩)
  · exact .one rfl (.inr ⟨_, rfl⟩)

theorem logs_deliver (chk : Bool) (s : State) (c : Ctx) (st : Style) (m : Bytes) (r : Nat) (ok : Bool) : Logs (Traffic st.dest) s (s.deliver chk c st m r ok) := by
  unfold State.deliver
  cases st with
  | via d i o =>
    dsimp only
    split
    · exact logs_give ..
    · exact .one rfl (.inr ⟨_, rfl⟩)
  | any d =>
    dsimp only
    split
    · exact logs_give ..
    · exact .same rfl

theorem logs_sendInner (chk : Bool) (s : State) (st : Style) (m : Bytes) (r : Nat) (ok : Bool) : Logs (Traffic st.dest) s (s.sendInner chk st m r ok).1 := by
  unfold State.sendInner
  split
  · exact .same rfl
  · split
    · exact .same (query_log _ _)
    · exact logs_deliver ..

theorem logs_flush (chk : Bool) (d : Nat) (l : List Bytes) : ∀ (s : State) (i : Nat) (rnd : Nat → Nat) (ok : Nat → Bool),
    Logs (Traffic d) s (State.flush chk d s i rnd ok l) := by
  induction l with
  | nil => intro s i rnd ok; exact .same rfl
  | cons m l ih => intro s i rnd ok; exact (logs_sendInner chk s (.any d) m (rnd i) (ok i)).trans (ih _ _ _ _)

theorem logs_found (chk : Bool) (s : State) (d : Nat) (l : LSet) (rnd : Nat → Nat) (ok : Nat → Bool) : Logs (Traffic d) s (s.found chk d l rnd ok) := by
  unfold State.found
  split
  · exact Logs.trans (b := { s with remotes := _ }) (.same rfl) (logs_flush ..)
  · exact .same rfl

theorem logs_step (chk : Bool) (s : State) (o : Op) : Logs (fun _ => True) s (s.step chk o) := by
  cases o with
  | tick t => exact .same rfl
  | query d => exact .one (o := .status d (s.status d)) (congrArg (· ++ _) (query_log s d)) trivial
  | send st enc r ok =>
    show Logs _ s (s.send chk st enc r ok)
    unfold State.send
    split
    · exact Logs.trans ((logs_sendInner chk s st _ r ok).mono fun _ _ => trivial) (.one rfl trivial)
    · exact .one rfl trivial
  | sessionSend d m r ok => exact (logs_sendInner chk s (.any d) m r ok).mono fun _ _ => trivial
  | sessionEnd d => exact .one rfl trivial
  | receive l =>
    show Logs _ s (s.receive chk l)
    have := (cloves_rest chk l s).2.2.2
    unfold State.receive
    dsimp only
    split
    · exact .same this
    · exact .one (o := .event (.messages (s.cloves chk l).2)) (congrArg (· ++ _) this) trivial
  | attempt d b => exact .same rfl
  | answer d r => exact .same rfl
  | settle d rnd ok =>
    show Logs _ s (s.settle chk d rnd ok)
    unfold State.settle
    split
    · exact .same rfl
    · exact .one rfl trivial
    · rename_i l _
      refine Logs.trans (b := (s.over d (.ok l)).out (.remote d l.key)) (.one rfl trivial) ?_
      exact Logs.trans ((logs_found chk _ d l rnd ok).mono fun _ _ => trivial) (.one rfl trivial)
  | serve =>
    show Logs _ s s.serve
    unfold State.serve
    dsimp only
    split
    · exact .same (query_log _ _)
    · exact .same rfl
  | path o => show Logs _ s (s.step chk (.path o)); unfold State.step; dsimp only; split <;> exact .same rfl
  | prune => exact .same rfl

theorem logs_run (chk : Bool) (ops : List Op) : ∀ s : State, Logs (fun _ => True) s (s.run chk ops) := by
  induction ops with
  | nil => intro s; exact .same rfl
  | cons o l ih => intro s; exact (logs_step chk s o).trans (ih _)

/-- A query that was started is running or its outcome has been told. -/
theorem pending_query (s : State) (d e : Nat) (h : d ∈ s.pending) : d ∈ (s.query e).pending := by
  rw [State.query_eq]
  split
  · exact List.mem_append_left _ h
  · exact h

theorem pending_sendInner {chk : Bool} {s : State} {d : Nat} (st : Style) (m : Bytes) (r : Nat) (ok : Bool) (h : d ∈ s.pending) :
    d ∈ (s.sendInner chk st m r ok).1.pending := by
  unfold State.sendInner
  split
  · exact h
  · split
    · unfold State.hold
      exact pending_query _ _ _ h
    · rename_i c _ _
      rw [(deliver_rest chk s c st m r ok).1]
      exact h

theorem pending_flush {chk : Bool} {d e : Nat} (l : List Bytes) : ∀ {s : State} (i : Nat) (rnd : Nat → Nat) (ok : Nat → Bool), d ∈ s.pending →
    d ∈ (State.flush chk e s i rnd ok l).pending := by
  induction l with
  | nil => intro s i rnd ok h; exact h
  | cons m l ih => intro s i rnd ok h; exact ih _ _ _ (pending_sendInner _ _ _ _ h)

theorem pending_found {chk : Bool} {s : State} {d : Nat} (e : Nat) (l : LSet) (rnd : Nat → Nat) (ok : Nat → Bool) (h : d ∈ s.pending) :
    d ∈ (s.found chk e l rnd ok).pending := by
  unfold State.found
  split
  · exact pending_flush _ _ _ _ (by exact h)
  · exact h

/-- A step keeps a query going unless it tells its outcome. -/
theorem pending_step {chk : Bool} {s : State} {d : Nat} (o : Op) (h : d ∈ s.pending) :
    d ∈ (s.step chk o).pending ∨ ∃ l x, (s.step chk o).log = s.log ++ l ++ [x] ∧ Outcome d x := by
  cases o with
  | tick t => exact .inl h
  | query e => exact .inl (pending_query s d e h)
  | send st enc r ok =>
    left
    show d ∈ (s.send chk st enc r ok).pending
    unfold State.send
    split
    · exact pending_sendInner (chk := chk) st _ r ok h
    · exact h
  | sessionSend e m r ok => exact .inl (pending_sendInner _ _ _ _ h)
  | sessionEnd e => exact .inl h
  | receive l => left; show d ∈ (s.receive chk l).pending; rw [(receive_rest chk s l).1]; exact h
  | attempt e b => exact .inl h
  | answer e r => exact .inl h
  | settle e rnd ok =>
    show d ∈ (s.settle chk e rnd ok).pending ∨ ∃ l x, (s.settle chk e rnd ok).log = _ ∧ _
    by_cases hde : d = e
    · subst hde
      unfold State.settle
      split
      · exact .inl h
      · rename_i e _
        right
        refine ⟨[], .event (.notFound d e), ?_, .inr ⟨_, rfl⟩⟩
        show s.log ++ [_] = s.log ++ [] ++ [_]
        rw [List.append_nil]
      · rename_i l _
        right
        obtain ⟨k, hk, _⟩ := logs_found chk ((s.over d (.ok l)).out (.remote d l.key)) d l rnd ok
        refine ⟨[.remote d l.key] ++ k, .event (.found d), ?_, .inl rfl⟩
        show (State.found ..).log ++ _ = _
        rw [hk]
        show s.log ++ [_] ++ k ++ _ = _
        simp
    · left
      have hk : d ∈ s.pending.filter fun x => decide (x ≠ e) := List.mem_filter.mpr ⟨h, by simpa using hde⟩
      unfold State.settle
      split
      · exact h
      · exact hk
      · exact pending_found e _ rnd ok (by exact hk)
  | serve =>
    left
    show d ∈ s.serve.pending
    unfold State.serve
    dsimp only
    split
    · exact pending_query _ _ _ h
    · exact h
  | path o => left; show d ∈ (s.step chk (.path o)).pending; unfold State.step; dsimp only; split <;> exact h
  | prune => exact .inl h

/-! ## C149 -/

/-- A destination never runs two queries for the same remote, and a remote is reported as pending exactly while a query for it is running. -/
theorem C149_one (chk : Bool) (t : Duration) (out : List Nat) (ops : List Op) (d : Nat) :
    (running (after chk t out ops) d).length = if (after chk t out ops).status d = .pending then 1 else 0 := by
  obtain ⟨h1, h2⟩ := tied_run (chk := chk) (tied_init t out) ops
  have hp : ((after chk t out ops).status d = .pending) ↔ d ∈ (after chk t out ops).pending := by
    unfold State.status
    split
    · simpa
    · split <;> simpa
  simp only [hp]
  unfold running after
  generalize State.run chk (State.init t out) ops = s at *
  have hc : (s.futures.filter fun f => decide (f.dest = d)).length = s.pending.count d := by
    rw [h1, List.count_eq_countP, List.countP_map, List.countP_eq_length_filter]
    congr 1
  rw [hc]
  split
  · rename_i h; exact List.Nodup.count h2 |>.trans (if_pos h)
  · rename_i h; exact List.count_eq_zero.mpr h

/-- What `query_lease_set` returns: a query is running, or the lease set that is known can be used, or a query is started. -/
theorem C149_status (chk : Bool) (s : State) (d : Nat) :
    (s.step chk (.query d)).log = s.log ++ [.status d (if d ∈ s.pending then .pending else if ∃ l, s.leaseSet d = some l ∧ Valid l s.now then .found else .notFound)]
      ∧ ((¬ ∃ l, s.leaseSet d = some l ∧ Valid l s.now) → d ∈ (s.step chk (.query d)).pending) := by
  have hr := reachable_iff s d
  refine ⟨?_, ?_⟩
  · show (s.query d).log ++ [_] = _
    rw [query_log]
    unfold State.status
    by_cases e : s.reachable d = true
    · rw [if_pos e, if_pos (hr.mp e)]
    · rw [if_neg e, if_neg (fun x => e (hr.mpr x))]
  · intro hn
    show d ∈ (s.query d).pending
    rw [State.query_eq]
    have e : ¬ s.reachable d = true := fun x => hn (hr.mp x)
    split
    · exact List.mem_append_right _ (List.mem_singleton.mpr rfl)
    · rename_i hs
      unfold State.status at hs
      rw [if_neg e] at hs
      split at hs
      · assumption
      · exact absurd rfl hs

/-- Whoever is told that a lease set is not available is told the outcome later: until an outcome for that remote is reported, its query is running. -/
theorem C149_answered (chk : Bool) (s : State) (d : Nat) (h : s.status d ≠ .found) (ops : List Op) :
    let s0 := s.step chk (.query d)
    (s0.run chk ops).status d = .pending ∨ ∃ a x b, (s0.run chk ops).log = s0.log ++ a ++ [x] ++ b ∧ Outcome d x := by
  intro s0
  have h0 : d ∈ s0.pending := by
    show d ∈ (s.query d).pending
    rw [State.query_eq]
    split
    · exact List.mem_append_right _ (List.mem_singleton.mpr rfl)
    · rename_i hs
      cases e : s.status d with
      | found => exact absurd e h
      | notFound => exact absurd e hs
      | pending =>
        unfold State.status at e
        split at e
        · assumption
        · split at e <;> cases e
  have key : ∀ (ops : List Op) (s1 : State), d ∈ s1.pending → d ∈ (s1.run chk ops).pending ∨ ∃ a x b, (s1.run chk ops).log = s1.log ++ a ++ [x] ++ b ∧ Outcome d x := by
    intro ops
    induction ops with
    | nil => intro s1 h1; exact .inl h1
    | cons o l ih =>
      intro s1 h1
      rcases pending_step (chk := chk) o h1 with h2 | ⟨a, x, e, hx⟩
      · rcases ih _ h2 with h3 | ⟨a, x, b, e, hx⟩
        · exact .inl h3
        · right
          obtain ⟨k, hk, _⟩ := logs_step chk s1 o
          refine ⟨k ++ a, x, b, ?_, hx⟩
          show (State.run chk (s1.step chk o) l).log = _
          rw [e, hk]; simp
      · right
        obtain ⟨k, hk, _⟩ := logs_run chk l (s1.step chk o)
        refine ⟨a, x, k, ?_, hx⟩
        show (State.run chk (s1.step chk o) l).log = _
        rw [hk, e]
  rcases key ops s0 h0 with h1 | h1
  · left
    unfold State.status
    rw [if_pos h1]
  · exact .inr h1

/-- Lemma for `C149_tries`: the query for `d` is the last future. -/
theorem onQuery_last {s : State} {d : Nat} {fs : List Fut} {f : Fut} (hs : s.futures = fs ++ [f]) (hd : f.dest = d) (hn : d ∉ fs.map (·.dest)) (g : Fut → Fut) :
    (s.onQuery d g).futures = fs ++ [g f] := by
  show s.futures.map _ = _
  rw [hs, List.map_append]
  congr 1
  · conv => rhs; rw [← List.map_id fs]
    refine List.map_congr_left fun x hx => ?_
    show (if x.dest = d then g x else x) = x
    rw [if_neg]
    intro e
    exact hn (List.mem_map.mpr ⟨x, hx, e⟩)
  · show [if f.dest = d then g f else f] = _
    rw [if_pos hd]

theorem result_last {s : State} {d : Nat} {fs : List Fut} {p : Phase} (hs : s.futures = fs ++ [⟨d, p⟩]) (hn : d ∉ fs.map (·.dest)) :
    s.result d = p.result := by
  unfold State.result
  rw [hs, List.findSome?_append]
  have : fs.findSome? (fun f => if f.dest = d then f.phase.result else none) = none := by
    rw [List.findSome?_eq_none_iff]
    intro x hx
    rw [if_neg]
    intro e
    exact hn (List.mem_map.mpr ⟨x, hx, e⟩)
  rw [this]
  simp only [List.findSome?_cons, Option.none_or, List.findSome?_nil, if_true]
  cases p.result <;> rfl

/-- A query reaches the database with one of three attempts, and its result is the database's answer. If the database drops the query the result is a
timeout. After three refused attempts the query fails. -/
theorem C149_tries (chk : Bool) (t : Duration) (out : List Nat) (pre : List Op) (d : Nat) (h : (after chk t out pre).status d = .notFound) :
    let s := (after chk t out pre).step chk (.query d)
    (∀ k r, k < 3 → (s.run chk (List.replicate k (.attempt d false) ++ [.attempt d true, .answer d r])).result d = some (r.getD (.error .timeout)))
      ∧ (s.run chk (List.replicate 3 (.attempt d false))).result d = some (.error .retryFailure)
      ∧ ∀ k, k < 3 → (s.run chk (List.replicate k (.attempt d false))).result d = none := by
  intro s
  have ht := tied_run (chk := chk) (tied_init t out) pre
  have hn : d ∉ (after chk t out pre).futures.map (·.dest) := by
    have := status_mem h
    rw [show (after chk t out pre).pending = _ from ht.1] at this
    exact this
  have hs : s.futures = (after chk t out pre).futures ++ [⟨d, .trying 3⟩] := by
    show ((after chk t out pre).query d).futures = _
    rw [State.query_eq, if_pos h]; rfl
  have att : ∀ (s : State) n, s.futures = (after chk t out pre).futures ++ [⟨d, .trying (n + 2)⟩] →
      (s.step chk (.attempt d false)).futures = (after chk t out pre).futures ++ [⟨d, .trying (n + 1)⟩] := by
    intro s n e
    show (s.onQuery d _).futures = _
    rw [onQuery_last e rfl hn]
    rfl
  have fin : ∀ (s : State) n r, s.futures = (after chk t out pre).futures ++ [⟨d, .trying n⟩] →
      (s.run chk [.attempt d true, .answer d r]).result d = some (r.getD (.error .timeout)) := by
    intro s n r e
    have h1 : (s.onQuery d (·.attempt true)).futures = _ := onQuery_last e rfl hn _
    have h2 : ((s.onQuery d (·.attempt true)).onQuery d (·.answer r)).futures = _ := onQuery_last h1 rfl hn _
    exact result_last h2 hn
  have h3 := hs
  have h2 := att s 1 h3
  have h1 := att _ 0 h2
  refine ⟨?_, ?_, ?_⟩
  · intro k r hk
    rw [run_append]
    match k, hk with
    | 0, _ => exact fin s 3 r h3
    | 1, _ => exact fin _ 2 r h2
    | 2, _ => exact fin _ 1 r h1
  · have h0 : ((((s.step chk (.attempt d false)).step chk (.attempt d false))).onQuery d (·.attempt false)).futures = _ := onQuery_last h1 rfl hn _
    exact result_last h0 hn
  · intro k hk
    match k, hk with
    | 0, _ => exact result_last h3 hn
    | 1, _ => exact result_last h2 hn
    | 2, _ => exact result_last h1 hn

theorem leaseSet_query (s : State) (d e : Nat) : (s.query e).leaseSet d = s.leaseSet d := by unfold State.leaseSet; rw [query_remotes]

theorem leaseSet_sendInner (chk : Bool) (s : State) (st : Style) (m : Bytes) (r : Nat) (ok : Bool) (d : Nat) : (s.sendInner chk st m r ok).1.leaseSet d = s.leaseSet d := by
  unfold State.sendInner
  split
  · rfl
  · rename_i c hc
    split
    · unfold State.hold
      rw [leaseSet_query]
      show ((s.remotes.put st.dest _).get d).map (·.ls) = (s.remotes.get d).map (·.ls)
      rw [AMap.get_put]
      by_cases e : d = st.dest
      · rw [if_pos e, e, hc]; rfl
      · rw [if_neg e]
    · unfold State.leaseSet
      rw [(deliver_rest chk s c st m r ok).2.2.1]

theorem leaseSet_flush (chk : Bool) (e : Nat) (d : Nat) (l : List Bytes) : ∀ (s : State) (i : Nat) (rnd : Nat → Nat) (ok : Nat → Bool),
    (State.flush chk e s i rnd ok l).leaseSet d = s.leaseSet d := by
  induction l with
  | nil => intro s i rnd ok; rfl
  | cons m l ih => intro s i rnd ok; exact (ih _ _ _ _).trans (leaseSet_sendInner ..)

theorem leaseSet_found (chk : Bool) (s : State) (e : Nat) (l : LSet) (rnd : Nat → Nat) (ok : Nat → Bool) (d : Nat) :
    (s.found chk e l rnd ok).leaseSet d = if d = e then some l else s.leaseSet d := by
  unfold State.found
  split
  · rw [leaseSet_flush]
    show ((s.remotes.put e _).get d).map (·.ls) = _
    rw [AMap.get_put]
    split <;> rfl
  · show ((s.remotes.put e _).get d).map (·.ls) = _
    rw [AMap.get_put]
    split <;> rfl

/-- When `poll_next` takes the result of a query, it reports it: a failed query as not found with its error, a successful one as found, after which the
lease set that was found is the one that is known. It reports it once, last, and nothing else about any query. -/
theorem C149_outcome (chk : Bool) (s : State) (d : Nat) (rnd : Nat → Nat) (ok : Nat → Bool) :
    (∀ e, s.result d = some (.error e) → (s.step chk (.settle d rnd ok)).log = s.log ++ [.event (.notFound d e)] ∧ ∀ x, (s.step chk (.settle d rnd ok)).leaseSet x = s.leaseSet x)
      ∧ (∀ l, s.result d = some (.ok l) → (∃ k, (s.step chk (.settle d rnd ok)).log = s.log ++ k ++ [.event (.found d)] ∧ ∀ o ∈ k, ∀ e, o ≠ .event e)
          ∧ (s.step chk (.settle d rnd ok)).leaseSet d = some l)
      ∧ (s.result d = none → s.step chk (.settle d rnd ok) = s) := by
  refine ⟨?_, ?_, ?_⟩
  · intro e h
    show (s.settle chk d rnd ok).log = _ ∧ ∀ x, (s.settle chk d rnd ok).leaseSet x = _
    unfold State.settle
    rw [h]
    exact ⟨rfl, fun _ => rfl⟩
  · intro l h
    show (∃ k, (s.settle chk d rnd ok).log = _ ∧ _) ∧ (s.settle chk d rnd ok).leaseSet d = some l
    unfold State.settle
    rw [h]
    dsimp only
    refine ⟨?_, ?_⟩
    · obtain ⟨k, hk, hc⟩ := logs_found chk ((s.over d (.ok l)).out (.remote d l.key)) d l rnd ok
      refine ⟨.remote d l.key :: k, ?_, ?_⟩
      · show (State.found ..).log ++ _ = _
        rw [hk]
        show s.log ++ [_] ++ k ++ _ = _
        simp
      · intro o ho e
        rcases List.mem_cons.mp ho with rfl | ho
        · exact fun e => by cases e
        · rcases hc o ho with ⟨_, _, _, _, _, rfl⟩ | ⟨_, rfl⟩ <;> exact fun e => by cases e
    · show (State.found ..).leaseSet d = _
      rw [leaseSet_found, if_pos rfl]
  · intro h
    show s.settle chk d rnd ok = s
    unfold State.settle
    rw [h]

end Emissary.Dest
