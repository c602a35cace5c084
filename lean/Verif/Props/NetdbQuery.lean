import Verif.Props.NetdbTime
/-!
# C136, C137: what ends a query
-/
namespace Emissary.NetdbRun
open Emissary Emissary.Netdb

/-- How often a request was cancelled: its channel dropped without an answer. -/
def State.cancels (s : State) (tx : Nat) : Nat := s.log.count (.cancel tx)

/-- A payload answers a query of a kind. -/
def Payload.answers : Payload → Kind → Bool
  | .leaseSet _, .leaseSet _ => true
  | .routerInfo _, .routerInfo _ => true
  | .routerInfo _, .router => true
  | _, _ => false

/-! ## Violations -/

/-- C136 does not hold: whoever can send a store, with any record of the other kind in it (which may be anything that parses, of any router or
destination), ends any query with its key: everyone who waits is cancelled and the query is gone. -/
theorem C136_mismatch_violated (s : State) (env : Env) (sender : Option Bytes) (key : Bytes) (k : Kind) (p : Payload) (reply : StoreReply)
    (h : s.active.get key = some k) (hp : p.answers k = false) :
    let s' := s.step env (.store sender key p reply)
    s'.log = s.log ++ k.subs.map .cancel ∧ s'.active.get key = none := by
  have e : s.step env (.store sender key p reply) = (s.take key).drop k := by
    show (s.take key).storeAt env sender key p reply (s.active.get key) = _
    rw [h]
    cases p <;> cases k <;> first | rfl | cases hp
  intro s'
  show (s.step env _).log = _ ∧ (s.step env _).active.get key = none
  rw [e]
  refine ⟨rfl, ?_⟩
  show (s.active.del key).get key = none
  rw [AMap.get_del, if_pos rfl]

/-- C136 does not hold: a reply to one query that names a router `r` the task does not know ends a router info query for `r`. All
that is needed is that the task can send lookups and that the reply's query is active and has not asked `r`. -/
theorem C136_overwrite_violated (s : State) (env : Env) (sender : Option Bytes) (key r replier : Bytes) (q : Query) (k : Kind)
    (h : s.active.get key = some (.leaseSet q)) (hr : s.active.get r = some k) (hne : r ≠ key) (hq : r ∉ q.queried) (hu : env.known r = false)
    (ho : s.outTun.tunnels ≠ []) (hi : s.inTun.tunnels ≠ []) (hp : env.poolOk r = true) :
    let s' := s.step env (.search sender (some (key, [r], replier)))
    (∃ o, s'.log = s.log ++ [o] ++ k.subs.map .cancel) ∧ s'.active.get r = some .router := by
  have e1 : (q.searchReply env.known [r]).2 = [r] := by simp [Query.searchReply, hq, hu]
  have hd := quiet_discredit s sender
  have ho' : (s.discredit sender).outTun = s.outTun ∧ (s.discredit sender).inTun = s.inTun ∧ (s.discredit sender).log = s.log := by
    unfold State.discredit; split <;> exact ⟨rfl, rfl, rfl⟩
  intro s'
  have es : s' = (State.fetches ((s.discredit sender).take key) env replier [r]).activate key (.leaseSet (q.searchReply env.known [r]).1) := by
    show ((s.discredit sender).take key).searchAt env key [r] replier (s.active.get key) = _
    rw [h]
    show (((s.discredit sender).take key).fetches env replier (q.searchReply env.known [r]).2).activate key _ = _
    rw [e1]
  generalize hs1 : (s.discredit sender).take key = s1 at *
  have a1 : s1.active = s.active.del key := by rw [← hs1]; show (s.discredit sender).active.del key = _; rw [hd.active]
  have o1 : s1.outTun = s.outTun ∧ s1.inTun = s.inTun ∧ s1.log = s.log := by rw [← hs1]; exact ho'
  have l1 : ∃ s2 out inb, s1.lookup env replier r .router = (s2, .ok ()) ∧ s2.active = s1.active ∧
      s2.log = s1.log ++ [.lookup replier r .router out inb] := by
    unfold State.lookup State.tunnels
    have n1 : ∃ o out, s1.outTun.next = (o, some out) := by
      unfold Selector.next
      rw [o1.1, if_neg (by simpa using ho)]
      have : s.outTun.iter % s.outTun.tunnels.length < s.outTun.tunnels.length := Nat.mod_lt _ (List.length_pos_iff.mpr ho)
      exact ⟨_, _, by rw [List.getElem?_eq_getElem this]⟩
    have n2 : ∃ o out, s1.inTun.next = (o, some out) := by
      unfold Selector.next
      rw [o1.2.1, if_neg (by simpa using hi)]
      have : s.inTun.iter % s.inTun.tunnels.length < s.inTun.tunnels.length := Nat.mod_lt _ (List.length_pos_iff.mpr hi)
      exact ⟨_, _, by rw [List.getElem?_eq_getElem this]⟩
    obtain ⟨o, out, n1⟩ := n1
    obtain ⟨i, inb, n2⟩ := n2
    rw [n1, n2]
    dsimp only
    rw [if_pos hp]
    exact ⟨_, out, inb, rfl, rfl, rfl⟩
  obtain ⟨s2, out, inb, l1, a2, g2⟩ := l1
  have ef : State.fetches s1 env replier [r] = (s2.activate r .router).arm r := by
    show s1.fetch env replier r = _
    unfold State.fetch
    rw [l1]
  have hr2 : s2.active.get r = some k := by rw [a2, a1, AMap.get_del, if_neg hne]; exact hr
  have hk2 : s2.active.get key = none := by rw [a2, a1, AMap.get_del, if_pos rfl]
  have ea : s2.activate r .router = { s2.drop k with active := s2.active.put r .router } := by
    unfold State.activate; rw [hr2]; rfl
  rw [es, ef, ea]
  have hk3 : (s2.active.put r .router).get key = none := by rw [AMap.get_put, if_neg hne.symm]; exact hk2
  unfold State.activate
  rw [show (State.arm { s2.drop k with active := s2.active.put r .router } r).active = s2.active.put r .router from rfl, hk3]
  refine ⟨⟨.lookup replier r .router out inb, ?_⟩, ?_⟩
  · show s2.log ++ k.subs.map .cancel = _
    rw [g2, o1.2.2]
  · show ((s2.active.put r .router).put key _).get r = _
    rw [AMap.get_put, if_neg hne, AMap.get_put, if_pos rfl]

/-- C136 does not hold: who asks for a lease set or a router info while something else under its key is being looked up (as when the router info was
named by a search reply and is being fetched) is cancelled at once. -/
theorem C136_busy_violated (s : State) (env : Env) (key : Bytes) (k : Kind) (tx : Nat) (h : s.active.get key = some k) :
    ((∀ q, k ≠ .leaseSet q) → (s.step env (.queryLs key tx)).log = s.log ++ [.cancel tx]) ∧
    ((∀ q, k ≠ .routerInfo q) → (s.step env (.queryRi key tx)).log = s.log ++ [.cancel tx]) := by
  constructor
  · intro hk
    show (s.queryLs env key tx).log = _
    unfold State.queryLs
    rw [h]
    cases k with
    | leaseSet q => exact absurd rfl (hk q)
    | routerInfo q => rfl
    | exploration => rfl
    | router => rfl
  · intro hk
    show (s.queryRi env key tx).log = _
    unfold State.queryRi
    rw [h]
    cases k with
    | routerInfo q => exact absurd rfl (hk q)
    | leaseSet q => rfl
    | exploration => rfl
    | router => rfl

/-! ## What can cancel a request -/

theorem count_app (l l' : List Out) (tx : Nat) (h : Out.cancel tx ∉ l') : (l ++ l').count (.cancel tx) = l.count (.cancel tx) := by
  rw [List.count_append, List.count_eq_zero.mpr h, Nat.add_zero]

theorem Quiet.cancels {s s' : State} (g : Quiet s s') (tx : Nat) : s'.cancels tx = s.cancels tx := by
  obtain ⟨l, e, hl⟩ := g.log
  unfold State.cancels
  rw [e]
  refine count_app _ _ tx ?_
  · intro h; exact absurd (hl _ h).1 (by simp [Out.settles])

theorem cancels_drop (s : State) (k : Kind) (tx : Nat) (h : tx ∉ k.subs) : (s.drop k).cancels tx = s.cancels tx := by
  show (s.log ++ k.subs.map Out.cancel).count (.cancel tx) = _
  refine count_app _ _ tx ?_
  · intro hc
    obtain ⟨t, ht, e⟩ := List.mem_map.mp hc
    cases e
    exact h ht

theorem cancels_activate (s : State) (key : Bytes) (k : Kind) (tx : Nat) (h : ∀ k, s.active.get key = some k → tx ∉ k.subs) :
    (s.activate key k).cancels tx = s.cancels tx := by
  unfold State.activate
  dsimp only
  split
  · next old e => exact cancels_drop s old tx (h old e)
  · rfl

theorem cancels_completeLs (s : State) (q : Query) (r : Res LSet) (tx : Nat) : (s.completeLs q r).cancels tx = s.cancels tx := by
  show (s.log ++ q.subs.map fun tx => Out.leaseSet tx r).count (.cancel tx) = _
  refine count_app _ _ tx ?_
  · simp

theorem cancels_completeRi (s : State) (q : Query) (r : Res Unit) (tx : Nat) : (s.completeRi q r).cancels tx = s.cancels tx := by
  show (s.log ++ q.subs.map fun tx => Out.routerInfo tx r).count (.cancel tx) = _
  refine count_app _ _ tx ?_
  · simp

theorem cancels_out (s : State) (o : Out) (tx : Nat) (h : o ≠ .cancel tx) : (s.out o).cancels tx = s.cancels tx := by
  show (s.log ++ [o]).count (.cancel tx) = _
  refine count_app _ _ tx ?_
  · simp; exact fun e => h e.symm

theorem cancels_fetches (s : State) (env : Env) (replier : Bytes) (rs : List Bytes) (tx : Nat)
    (h : ∀ r ∈ rs, ∀ k, s.active.get r = some k → tx ∉ k.subs) :
    (s.fetches env replier rs).cancels tx = s.cancels tx ∧
    ∀ key k, (s.fetches env replier rs).active.get key = some k → s.active.get key = some k ∨ k = .router := by
  unfold State.fetches
  induction rs generalizing s with
  | nil => exact ⟨rfl, fun key k h => .inl h⟩
  | cons r rs ih =>
    have a : (s.fetch env replier r).cancels tx = s.cancels tx ∧
        ∀ key k, (s.fetch env replier r).active.get key = some k → s.active.get key = some k ∨ k = .router := by
      have g := quiet_lookup s env replier r .router
      unfold State.fetch
      split
      · next s1 _ e =>
        rw [e] at g
        refine ⟨(cancels_activate s1 r .router tx ?_).trans (g.cancels tx), ?_⟩
        · intro k hk; rw [g.active] at hk; exact h r (by simp) k hk
        · intro key k hk
          have hk : (s1.activate r .router).active.get key = some k := hk
          rw [(activate_frame s1 r .router).1, AMap.get_put] at hk
          split at hk
          · cases hk; exact .inr rfl
          · rw [g.active] at hk; exact .inl hk
      · next s1 _ e => rw [e] at g; exact ⟨g.cancels tx, fun key k hk => by rw [g.active] at hk; exact .inl hk⟩
    have b := ih (s.fetch env replier r) (by
      intro r' hr' k hk
      rcases a.2 r' k hk with h' | h'
      · exact h r' (by simp [hr']) k h'
      · rw [h']; simp [Kind.subs])
    refine ⟨b.1.trans a.1, ?_⟩
    intro key k hk
    rcases b.2 key k hk with h' | h'
    · exact a.2 key k h'
    · exact .inr h'

/-- The events that cancel a request. -/
def Cause (s : State) (env : Env) (tx : Nat) : Op → Prop
  | .store _ key p _ => ∃ k, s.active.get key = some k ∧ tx ∈ k.subs ∧ p.answers k = false
  | .search _ (some (key, routers, _)) => ∃ r ∈ routers, env.known r = false ∧ (∃ k, s.active.get r = some k ∧ tx ∈ k.subs) ∧ ∃ k, s.active.get key = some k
  | .queryLs key t => t = tx ∧ ∃ k, s.active.get key = some k ∧ ∀ q, k ≠ .leaseSet q
  | .queryRi key t => t = tx ∧ ∃ k, s.active.get key = some k ∧ ∀ q, k ≠ .routerInfo q
  | .closest key t => t = tx ∧ ∀ r ∈ s.ffDht.closest (env.rkey key) 10, env.known r = false
  | .tick key => ∃ k, (State.fireAll env s.timers.length s).active.get key = some k ∧ tx ∈ k.subs
  | _ => False

theorem cancels_handleTimeout (s : State) (env : Env) (key : Bytes) (k : Kind) (tx : Nat) (h : s.active.get key = none) :
    (s.handleTimeout env key k).cancels tx = s.cancels tx := by
  have act : ∀ {s1 : State} (k' : Kind), Quiet s s1 → ((s1.activate key k').arm key).cancels tx = s.cancels tx := by
    intro s1 k' g
    refine (cancels_activate s1 key k' tx ?_).trans (g.cancels tx)
    intro k hk; rw [g.active, h] at hk; cases hk
  unfold State.handleTimeout
  cases k with
  | exploration => rfl
  | router => rfl
  | leaseSet q =>
    dsimp only
    have hc := quiet_charge s q
    generalize s.charge q = s1 at *
    split
    · exact (cancels_completeLs s1 _ _ tx).trans (hc.cancels tx)
    · next q' f _ =>
      have g := quiet_lookup s1 env f key .leaseSet
      split
      · next s2 _ e => rw [e] at g; exact act _ (hc.trans g)
      · next s2 _ e => rw [e] at g; exact (cancels_completeLs s2 _ _ tx).trans ((hc.trans g).cancels tx)
  | routerInfo q =>
    dsimp only
    have hc := quiet_charge s q
    generalize s.charge q = s1 at *
    split
    · exact (cancels_completeRi s1 _ _ tx).trans (hc.cancels tx)
    · next q' f _ =>
      have g := quiet_lookup s1 env f key .router
      split
      · next s2 _ e => rw [e] at g; exact act _ (hc.trans g)
      · next s2 _ e => rw [e] at g; exact act _ (hc.trans g)

theorem cancels_fire (s : State) (env : Env) (i : Nat) (tx : Nat) : (s.fire env i).cancels tx = s.cancels tx := by
  unfold State.fire
  split
  · rfl
  split
  · rfl
  split
  · rfl
  · next key _ _ _ _ k _ =>
    refine (cancels_handleTimeout (State.take { s with timers := s.timers.eraseIdx i } key) env key k tx ?_).trans rfl
    show (s.active.del key).get key = none
    rw [AMap.get_del, if_pos rfl]

theorem cancels_fireAll (env : Env) (fuel : Nat) (s : State) (tx : Nat) : (State.fireAll env fuel s).cancels tx = s.cancels tx := by
  induction fuel generalizing s with
  | zero => rfl
  | succ fuel ih =>
    unfold State.fireAll
    split
    · rfl
    · exact (ih _).trans (cancels_fire s env _ tx)

/-- C136, what holds: a request is cancelled only by the events `Cause` lists: a store under its key with a record of the other kind, a reply that
names its key as an unknown router while the reply's own query is active, a request under a busy key, a question for floodfills when none is known,
and an exploration for its very key (which is drawn at random). Time, connections, tunnels, lookups of others and timeouts never cancel. Missing:
the events listed should not cancel either. -/
theorem C136_cause_partial (s : State) (env : Env) (op : Op) (tx : Nat) (h : ¬ Cause s env tx op) : (s.step env op).cancels tx = s.cancels tx := by
  cases op with
  | advance d => rfl
  | connected r => exact (quiet_established s env r).cancels tx
  | closed r => rfl
  | failed r => rfl
  | outBuilt t =>
    unfold State.step State.wake; dsimp only
    split
    · show (s.log ++ s.ready.map Out.ready).count (.cancel tx) = _
      refine count_app _ _ tx ?_
      · simp
    · rfl
  | inBuilt t =>
    unfold State.step State.wake; dsimp only
    split
    · show (s.log ++ s.ready.map Out.ready).count (.cancel tx) = _
      refine count_app _ _ tx ?_
      · simp
    · rfl
  | outExpired t => rfl
  | inExpired t => rfl
  | lookup key kind reply ignore => exact (quiet_lookupMsg s env key kind reply ignore).cancels tx
  | publish r raw => exact (quiet_send _ _ _ _ _).cancels tx
  | waitReady t =>
    unfold State.step
    dsimp only
    split
    · exact cancels_out s _ tx (by simp)
    · rfl
  | fire i => exact cancels_fire s env i tx
  | closest key t =>
    show (s.closestFloodfills env key t).cancels tx = _
    unfold State.closestFloodfills
    dsimp only
    split
    · next he =>
      refine cancels_out s _ tx ?_
      intro e
      cases e
      refine h ⟨rfl, ?_⟩
      intro r hr
      cases hk : env.known r with
      | false => rfl
      | true =>
        have : r ∈ (s.ffDht.closest (env.rkey key) 10).filter env.known := List.mem_filter.mpr ⟨hr, hk⟩
        rw [List.isEmpty_iff.mp he] at this
        cases this
    · exact cancels_out s _ tx (by simp)
  | queryLs key t =>
    show (s.queryLs env key t).cancels tx = _
    unfold State.queryLs
    cases hk : s.active.get key with
    | some k =>
      cases k with
      | leaseSet q => rfl
      | routerInfo q => exact cancels_out s _ tx (fun e => by cases e; exact h ⟨rfl, _, hk, fun _ => by simp⟩)
      | exploration => exact cancels_out s _ tx (fun e => by cases e; exact h ⟨rfl, _, hk, fun _ => by simp⟩)
      | router => exact cancels_out s _ tx (fun e => by cases e; exact h ⟨rfl, _, hk, fun _ => by simp⟩)
    | none =>
      dsimp only
      split
      · exact cancels_out s _ tx (by simp)
      · next f _ =>
        have g := quiet_lookup s env f key .leaseSet
        split
        · next s1 _ e =>
          rw [e] at g
          refine (cancels_activate s1 key (.leaseSet (.new t f s1.now)) tx ?_).trans (g.cancels tx)
          intro k hk'; rw [g.active, hk] at hk'; cases hk'
        · next s1 _ e => rw [e] at g; exact (cancels_out s1 _ tx (by simp)).trans (g.cancels tx)
  | queryRi key t =>
    show (s.queryRi env key t).cancels tx = _
    unfold State.queryRi
    cases hk : s.active.get key with
    | some k =>
      cases k with
      | routerInfo q => rfl
      | leaseSet q => exact cancels_out s _ tx (fun e => by cases e; exact h ⟨rfl, _, hk, fun _ => by simp⟩)
      | exploration => exact cancels_out s _ tx (fun e => by cases e; exact h ⟨rfl, _, hk, fun _ => by simp⟩)
      | router => exact cancels_out s _ tx (fun e => by cases e; exact h ⟨rfl, _, hk, fun _ => by simp⟩)
    | none =>
      dsimp only
      split
      · exact cancels_out s _ tx (by simp)
      · next f _ =>
        have g := quiet_lookup s env f key .router
        split
        · next s1 _ e =>
          rw [e] at g
          refine (cancels_activate s1 key (.routerInfo (.new t f s1.now)) tx ?_).trans (g.cancels tx)
          intro k hk'; rw [g.active, hk] at hk'; cases hk'
        · next s1 _ e => rw [e] at g; exact (cancels_out s1 _ tx (by simp)).trans (g.cancels tx)
  | store sender key p reply =>
    have ht : (s.take key).cancels tx = s.cancels tx := rfl
    show ((s.take key).storeAt env sender key p reply (s.active.get key)).cancels tx = _
    rw [← ht]
    cases hk : s.active.get key with
    | none =>
      unfold State.storeAt
      cases p with
      | routerInfo r => exact (quiet_routerInfoStore _ _ _ _ _).cancels tx
      | leaseSet l =>
        dsimp only
        split
        · exact (quiet_leaseSetStore _ _ _ _ _).cancels tx
        · rfl
    | some k =>
      have dr : p.answers k = false → ((s.take key).drop k).cancels tx = (s.take key).cancels tx := fun hp =>
        cancels_drop _ k tx fun hm => h ⟨k, hk, hm, hp⟩
      unfold State.storeAt
      cases p with
      | leaseSet l =>
        cases k with
        | leaseSet q => exact cancels_completeLs _ _ _ tx
        | routerInfo q => exact dr rfl
        | exploration => exact dr rfl
        | router => exact dr rfl
      | routerInfo r =>
        cases k with
        | leaseSet q => exact dr rfl
        | exploration => exact dr rfl
        | router => exact (quiet_fetched _ _ _).cancels tx
        | routerInfo q =>
          dsimp only
          rw [cancels_completeRi, cancels_out _ _ tx (by simp)]
          exact (quiet_credit _ sender).cancels tx
  | search sender m =>
    show (s.searchMsg env sender m).cancels tx = _
    have c := quiet_discredit s sender
    unfold State.searchMsg
    cases m with
    | none => exact c.cancels tx
    | some m =>
      obtain ⟨key, routers, replier⟩ := m
      dsimp only
      have ht : ((s.discredit sender).take key).cancels tx = s.cancels tx := c.cancels tx
      have ha : ((s.discredit sender).take key).active = s.active.del key := by show (s.discredit sender).active.del key = _; rw [c.active]
      generalize (s.discredit sender).take key = s1 at *
      unfold State.searchAt
      cases hk : s.active.get key with
      | none => exact ht
      | some k =>
        have side : ∀ (rs : List Bytes), (∀ r ∈ rs, r ∈ routers ∧ env.known r = false) → ∀ r ∈ rs, ∀ k, s1.active.get r = some k → tx ∉ k.subs := by
          intro rs hrs r hr k' hk' hm
          rw [ha, AMap.get_del] at hk'
          split at hk'
          · cases hk'
          · exact h ⟨r, (hrs r hr).1, (hrs r hr).2, ⟨k', hk', hm⟩, _, hk⟩
        have again : ∀ (rs : List Bytes) (k' : Kind), (∀ r ∈ rs, r ∈ routers ∧ env.known r = false) →
            ((s1.fetches env replier rs).activate key k').cancels tx = s.cancels tx := by
          intro rs k' hrs
          have f := cancels_fetches s1 env replier rs tx (side rs hrs)
          refine (cancels_activate _ key k' tx ?_).trans (f.1.trans ht)
          intro k'' hk''
          rcases f.2 key k'' hk'' with h' | h'
          · rw [ha, AMap.get_del, if_pos rfl] at h'; cases h'
          · rw [h']; simp [Kind.subs]
        have fr : ∀ (q : Query), ∀ r ∈ (q.searchReply env.known routers).2, r ∈ routers ∧ env.known r = false := by
          intro q r hr
          have := List.mem_filter.mp hr
          exact ⟨(List.mem_filter.mp this.1).1, by simpa using this.2⟩
        cases k with
        | router => exact ht
        | exploration =>
          refine (cancels_fetches s1 env replier _ tx (side _ ?_)).1.trans ht
          intro r hr
          have := List.mem_filter.mp hr
          simp at this
          exact ⟨this.1, this.2.2⟩
        | leaseSet q => exact again _ _ (fr q)
        | routerInfo q => exact again _ _ (fr q)
  | tick key =>
    show (s.tick env key).cancels tx = _
    unfold State.tick
    have h0 := cancels_fireAll env s.timers.length s tx
    have h : ¬ ∃ k, (State.fireAll env s.timers.length s).active.get key = some k ∧ tx ∈ k.subs := h
    generalize State.fireAll env s.timers.length s = s1 at *
    have f := upkeep_frame s1
    have hu : s1.upkeep.cancels tx = s1.cancels tx := by unfold State.upkeep; split <;> rfl
    rw [← h0, ← hu]
    rw [← f.1] at h
    generalize s1.upkeep = s2 at *
    unfold State.exploration
    split
    · rfl
    split
    · show (s2.explore env key).cancels tx = _
      unfold State.explore
      split
      · rfl
      · next f _ =>
        have g := quiet_lookup s2 env f key .exploration
        split
        · next s3 _ e =>
          rw [e] at g
          refine (cancels_activate s3 key .exploration tx ?_).trans (g.cancels tx)
          intro k hk hm; rw [g.active] at hk; exact h ⟨k, hk, hm⟩
        · next s3 _ e => rw [e] at g; exact g.cancels tx
    · rfl

end Emissary.NetdbRun
