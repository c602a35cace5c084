import Verif.Props.NetdbAsk
/-!
# C139: connections and the messages that wait for them
-/
namespace Emissary.NetdbRun
open Emissary Emissary.Netdb

/-- How often a dial to a router was requested. -/
def State.connects (s : State) (r : Bytes) : Nat := s.log.count (.connect r)

/-- What was handed to the transport for a router, in order. -/
def Out.sentTo (r : Bytes) : Out → Option Msg
  | .send r' m => if r' = r then some m else none
  | _ => none

def State.sentTo (s : State) (r : Bytes) : List Msg := s.log.filterMap (Out.sentTo r)

/-- Neither connections nor messages are touched. -/
structure Idle (s s' : State) : Prop where
  routers : s'.routers = s.routers
  log : ∃ l, s'.log = s.log ++ l ∧ ∀ o ∈ l, ∀ r, o ≠ .connect r ∧ o.sentTo r = none

theorem Idle.same {s s' : State} (e : s'.routers = s.routers) (h : s'.log = s.log) : Idle s s' := ⟨e, [], by rw [h, List.append_nil], by simp⟩

theorem Idle.trans {a b c : State} (h : Idle a b) (g : Idle b c) : Idle a c := by
  obtain ⟨l, e, hl⟩ := h.log
  obtain ⟨l', e', hl'⟩ := g.log
  refine ⟨g.routers.trans h.routers, l ++ l', by rw [e', e, List.append_assoc], ?_⟩
  intro o ho
  rcases List.mem_append.mp ho with h | h
  · exact hl o h
  · exact hl' o h

theorem Idle.app {s s' : State} (l : List Out) (e : s'.routers = s.routers) (h : s'.log = s.log ++ l) (hl : ∀ o ∈ l, ∀ r, o ≠ .connect r ∧ o.sentTo r = none) :
    Idle s s' := ⟨e, l, h, hl⟩

theorem idle_addFloodfill (s : State) (r : RInfo) : Idle s (s.addFloodfill r) := by
  unfold State.addFloodfill; split <;> exact Idle.same rfl rfl
theorem idle_credit (s : State) (x : Option Bytes) : Idle s (s.credit x) := by
  unfold State.credit; split <;> exact Idle.same rfl rfl
theorem idle_discredit (s : State) (x : Option Bytes) : Idle s (s.discredit x) := by
  unfold State.discredit; split <;> exact Idle.same rfl rfl

theorem idle_fetched (s : State) (x : Option Bytes) (r : RInfo) : Idle s (s.fetched x r) := by
  unfold State.fetched
  split
  · exact Idle.same rfl rfl
  split
  · exact Idle.same rfl rfl
  dsimp only
  have a := idle_addFloodfill s r
  generalize s.addFloodfill r = s1 at *
  have b : Idle s { s1 with rtDht := s1.rtDht.map (fun t => Table.addRouter t r.id) } := a.trans (Idle.same rfl rfl)
  generalize { s1 with rtDht := s1.rtDht.map (fun t => Table.addRouter t r.id) } = s2 at *
  exact (b.trans (idle_credit _ x)).trans (Idle.app [.discover r] rfl rfl (by simp [Out.sentTo]))

theorem idle_lookup (s : State) (env : Env) (f k : Bytes) (kind : LookupKind) : Idle s (s.lookup env f k kind).1 := by
  have ht : Idle s s.tunnels.1 := by
    unfold State.tunnels
    split
    · exact Idle.same rfl rfl
    · split <;> exact Idle.same rfl rfl
  unfold State.lookup
  split
  · next e => rw [e] at ht; exact ht
  · next e =>
    rw [e] at ht
    split
    · exact ht.trans (Idle.app [_] rfl rfl (by simp [Out.sentTo]))
    · exact ht

theorem idle_charge (s : State) (q : Query) : Idle s (s.charge q) := by
  unfold State.charge
  split
  · exact Idle.app [_] rfl rfl (by simp [Out.sentTo])
  · exact Idle.same rfl rfl

theorem idle_drop (s : State) (k : Kind) : Idle s (s.drop k) := Idle.app (k.subs.map .cancel) rfl rfl (by simp [Out.sentTo])
theorem idle_completeLs (s : State) (q : Query) (r : Res LSet) : Idle s (s.completeLs q r) :=
  Idle.app (q.subs.map fun tx => .leaseSet tx r) rfl rfl (by simp [Out.sentTo])
theorem idle_completeRi (s : State) (q : Query) (r : Res Unit) : Idle s (s.completeRi q r) :=
  Idle.app (q.subs.map fun tx => .routerInfo tx r) rfl rfl (by simp [Out.sentTo])

theorem idle_activate (s : State) (k : Bytes) (x : Kind) : Idle s (s.activate k x) := by
  unfold State.activate
  dsimp only
  split
  · exact (idle_drop s _).trans (Idle.same rfl rfl)
  · exact Idle.same rfl rfl

theorem idle_begin (s : State) (k : Bytes) (x : Kind) : Idle s ((s.activate k x).arm k) := (idle_activate s k x).trans (Idle.same rfl rfl)

theorem idle_fetches (s : State) (env : Env) (replier : Bytes) (rs : List Bytes) : Idle s (s.fetches env replier rs) := by
  unfold State.fetches
  induction rs generalizing s with
  | nil => exact Idle.same rfl rfl
  | cons r rs ih =>
    refine Idle.trans ?_ (ih _)
    show Idle s (s.fetch env replier r)
    have g := idle_lookup s env replier r .router
    unfold State.fetch
    split
    · next s1 _ e => rw [e] at g; exact g.trans (idle_begin s1 r _)
    · next s1 _ e => rw [e] at g; exact g

theorem idle_timeout (s : State) (env : Env) (key : Bytes) (k : Kind) : Idle s (s.handleTimeout env key k) := by
  unfold State.handleTimeout
  cases k with
  | exploration => exact Idle.same rfl rfl
  | router => exact Idle.same rfl rfl
  | leaseSet q =>
    dsimp only
    have hc := idle_charge s q
    generalize s.charge q = s1 at *
    split
    · exact hc.trans (idle_completeLs _ _ _)
    · next q' f _ =>
      have g := idle_lookup s1 env f key .leaseSet
      split
      · next s2 _ e => rw [e] at g; exact hc.trans (g.trans (idle_begin s2 key _))
      · next s2 _ e => rw [e] at g; exact hc.trans (g.trans (idle_completeLs _ _ _))
  | routerInfo q =>
    dsimp only
    have hc := idle_charge s q
    generalize s.charge q = s1 at *
    split
    · exact hc.trans (idle_completeRi _ _ _)
    · next q' f _ =>
      have g := idle_lookup s1 env f key .router
      split
      · next s2 _ e => rw [e] at g; exact hc.trans (g.trans (idle_begin s2 key _))
      · next s2 _ e => rw [e] at g; exact hc.trans (g.trans (idle_begin s2 key _))

theorem idle_fire (s : State) (env : Env) (i : Nat) : Idle s (s.fire env i) := by
  unfold State.fire
  split
  · exact Idle.same rfl rfl
  split
  · exact Idle.same rfl rfl
  split
  · exact Idle.same rfl rfl
  · next key _ _ _ _ k _ => exact Idle.trans (b := State.take { s with timers := s.timers.eraseIdx i } key) (Idle.same rfl rfl) (idle_timeout _ env key k)

theorem idle_fireAll (env : Env) (fuel : Nat) (s : State) : Idle s (State.fireAll env fuel s) := by
  induction fuel generalizing s with
  | zero => exact Idle.same rfl rfl
  | succ fuel ih =>
    unfold State.fireAll
    split
    · exact Idle.same rfl rfl
    · exact (idle_fire s env _).trans (ih _)

theorem idle_tick (s : State) (env : Env) (key : Bytes) : Idle s (s.tick env key) := by
  unfold State.tick
  refine (idle_fireAll env s.timers.length s).trans ?_
  generalize State.fireAll env s.timers.length s = s1
  have hu : Idle s1 s1.upkeep := by unfold State.upkeep; split <;> exact Idle.same rfl rfl
  refine hu.trans ?_
  generalize s1.upkeep = s2
  unfold State.exploration
  split
  · exact Idle.same rfl rfl
  split
  · refine Idle.trans (b := s2.explore env key) ?_ (Idle.same rfl rfl)
    unfold State.explore
    split
    · exact Idle.same rfl rfl
    · next f _ =>
      have g := idle_lookup s2 env f key .exploration
      split
      · next s3 _ e => rw [e] at g; exact g.trans (idle_begin s3 key _)
      · next s3 _ e => rw [e] at g; exact g
  · exact Idle.same rfl rfl

/-! ## Messages to one router -/

/-- 1 if nothing is known of a connection to the router. -/
def State.absent (s : State) (r : Bytes) : Nat := if (s.routers.get r).isNone then 1 else 0

/-- What messages do to the connection of one router: at most one dial, and only if there is none; messages that wait stay in order; a
connection is neither made nor lost; only over a connection is anything sent. -/
structure Flow (r : Bytes) (s s' : State) : Prop where
  dial : s'.connects r + s'.absent r ≤ s.connects r + s.absent r
  keep : ∀ p, s.routers.get r = some (.dialing p) → ∃ p', s'.routers.get r = some (.dialing (p ++ p'))
  conn : s'.routers.get r = some .connected ↔ s.routers.get r = some .connected
  sends : s.routers.get r ≠ some .connected → s'.sentTo r = s.sentTo r

theorem Flow.refl (r : Bytes) (s : State) : Flow r s s := ⟨Nat.le_refl _, fun p h => ⟨[], by rw [h, List.append_nil]⟩, Iff.rfl, fun _ => rfl⟩

theorem Flow.trans {r : Bytes} {a b c : State} (h : Flow r a b) (g : Flow r b c) : Flow r a c := by
  refine ⟨Nat.le_trans g.dial h.dial, ?_, g.conn.trans h.conn, ?_⟩
  · intro p hp
    obtain ⟨p1, h1⟩ := h.keep p hp
    obtain ⟨p2, h2⟩ := g.keep _ h1
    exact ⟨p1 ++ p2, by rw [h2, List.append_assoc]⟩
  · intro hn
    exact (g.sends (fun hc => hn (h.conn.mp hc))).trans (h.sends hn)

theorem Idle.flow {s s' : State} (h : Idle s s') (r : Bytes) : Flow r s s' := by
  obtain ⟨l, e, hl⟩ := h.log
  refine ⟨?_, ?_, by rw [h.routers], ?_⟩
  · unfold State.connects State.absent
    rw [h.routers, e, List.count_append, List.count_eq_zero.mpr (fun hm => (hl _ hm r).1 rfl)]
    exact Nat.le_refl _
  · intro p hp; exact ⟨[], by rw [h.routers, hp, List.append_nil]⟩
  · intro _
    unfold State.sentTo
    rw [e, List.filterMap_append, List.filterMap_eq_nil_iff.mpr (fun o ho => (hl o ho r).2), List.append_nil]

theorem flow_sendOne (r : Bytes) (s : State) (env : Env) (m : Msg) (e : Option Nat) (x : Bytes) : Flow r s (s.sendOne env m e x) := by
  unfold State.sendOne
  cases hx : s.routers.get x with
  | none =>
    dsimp only
    split
    · by_cases hr : x = r
      · subst hr
        refine ⟨?_, ?_, ?_, ?_⟩
        · unfold State.connects State.absent
          simp only [AMap.get_put, hx, if_true, List.count_append]
          simp
        · intro p hp; rw [hx] at hp; cases hp
        · simp only [AMap.get_put, hx, if_true]; simp
        · intro _
          show (s.log ++ [Out.connect x]).filterMap _ = _
          rw [List.filterMap_append]; simp [Out.sentTo, State.sentTo]
      · have hr' : r ≠ x := fun h => hr h.symm
        refine ⟨?_, ?_, ?_, ?_⟩
        · unfold State.connects State.absent
          simp only [AMap.get_put, hr', if_false, List.count_append]
          have : [Out.connect x].count (.connect r) = 0 := by simp [hr]
          omega
        · intro p hp; exact ⟨[], by simp only [AMap.get_put, hr', if_false, List.append_nil]; exact hp⟩
        · simp only [AMap.get_put, hr', if_false]
        · intro _
          show (s.log ++ [Out.connect x]).filterMap _ = _
          rw [List.filterMap_append]; simp [Out.sentTo, State.sentTo]
    · exact Flow.refl r s
  | some st =>
    cases st with
    | dialing p =>
      by_cases hr : x = r
      · subst hr
        refine ⟨?_, ?_, ?_, fun _ => rfl⟩
        · unfold State.connects State.absent
          simp [AMap.get_put, hx]
        · intro p' hp; rw [hx] at hp; cases hp; exact ⟨[(m, e)], by simp only [AMap.get_put, if_true]⟩
        · simp only [AMap.get_put, hx, if_true]; simp
      · have hr' : r ≠ x := fun h => hr h.symm
        refine ⟨?_, ?_, ?_, fun _ => rfl⟩
        · unfold State.connects State.absent
          simp [AMap.get_put, hr']
        · intro p' hp; exact ⟨[], by simp only [AMap.get_put, hr', if_false, List.append_nil]; exact hp⟩
        · simp only [AMap.get_put, hr', if_false]
    | connected =>
      refine ⟨?_, fun p hp => ⟨[], by rw [List.append_nil]; exact hp⟩, Iff.rfl, ?_⟩
      · unfold State.connects State.absent State.out
        rw [List.count_append, show [Out.send x m].count (.connect r) = 0 by simp]
        exact Nat.le_refl _
      · intro hn
        have hr : x ≠ r := by rintro rfl; exact hn hx
        show (s.log ++ [Out.send x m]).filterMap _ = _
        rw [List.filterMap_append]; simp [Out.sentTo, State.sentTo, hr]

theorem flow_send (r : Bytes) (s : State) (env : Env) (rs : List Bytes) (m : Msg) (e : Option Nat) : Flow r s (s.send env rs m e) := by
  unfold State.send
  induction rs generalizing s with
  | nil => exact Flow.refl r s
  | cons x rs ih => exact (flow_sendOne r s env m e x).trans (ih _)

theorem flow_flood (r : Bytes) (s : State) (env : Env) (key : Bytes) (reply : StoreReply) (m : Msg) (e : Nat) : Flow r s (s.flood env key reply m e) := by
  unfold State.flood
  split
  · exact Flow.refl r s
  · exact (flow_send _ _ _ _ _ _).trans (flow_send _ _ _ _ _ _)

theorem flow_store (r : Bytes) (s : State) (env : Env) (sender : Option Bytes) (key : Bytes) (p : Payload) (reply : StoreReply) :
    Flow r s (s.storeMsg env sender key p reply) := by
  unfold State.storeMsg
  refine Flow.trans (b := s.take key) ((Idle.same rfl rfl : Idle s (s.take key)).flow r) ?_
  generalize s.take key = s1
  unfold State.storeAt
  cases s.active.get key with
  | none =>
    cases p with
    | routerInfo x =>
      dsimp only
      unfold State.routerInfoStore
      split
      · exact Flow.refl r s1
      split
      · exact Flow.refl r s1
      split
      · exact Flow.refl r s1
      have b : Idle s1 ((s1.addFloodfill x).out (.discover x)) := (idle_addFloodfill s1 x).trans (Idle.app [.discover x] rfl rfl (by simp [Out.sentTo]))
      dsimp only
      generalize (s1.addFloodfill x).out (.discover x) = s2 at *
      split
      · exact b.flow r
      · have c : Idle s1 { s2 with routerInfos := s2.routerInfos.put key (x.raw, x.published), rtDht := s2.rtDht.map (fun t => Table.addRouter t x.id) } :=
          b.trans (Idle.same rfl rfl)
        exact (c.flow r).trans (flow_flood r _ _ _ _ _ _)
    | leaseSet l =>
      dsimp only
      split
      · unfold State.leaseSetStore
        split
        · exact Flow.refl r s1
        · exact ((Idle.same rfl rfl : Idle s1 { s1 with leaseSets := s1.leaseSets.put key (l.raw, l.expires) }).flow r).trans (flow_flood r _ _ _ _ _ _)
      · exact Flow.refl r s1
  | some k =>
    cases p with
    | leaseSet l => cases k <;> first | exact (idle_completeLs _ _ _).flow r | exact (idle_drop _ _).flow r
    | routerInfo x =>
      cases k with
      | leaseSet q => exact (idle_drop _ _).flow r
      | exploration => exact (idle_drop _ _).flow r
      | router => exact (idle_fetched _ _ _).flow r
      | routerInfo q =>
        have c : Idle s1 ((s1.credit sender).out (.discover x)) := (idle_credit s1 sender).trans (Idle.app [.discover x] rfl rfl (by simp [Out.sentTo]))
        exact (c.trans (idle_completeRi _ _ _)).flow r

theorem idle_search (s : State) (env : Env) (sender : Option Bytes) (m : Option (Bytes × List Bytes × Bytes)) : Idle s (s.searchMsg env sender m) := by
  have c := idle_discredit s sender
  unfold State.searchMsg
  cases m with
  | none => exact c
  | some m =>
    obtain ⟨key, routers, replier⟩ := m
    dsimp only
    refine Idle.trans (b := (s.discredit sender).take key) (c.trans (Idle.same rfl rfl)) ?_
    generalize (s.discredit sender).take key = s1
    unfold State.searchAt
    cases s.active.get key with
    | none => exact Idle.same rfl rfl
    | some k =>
      cases k with
      | router => exact Idle.same rfl rfl
      | exploration => exact idle_fetches _ _ _ _
      | leaseSet q => exact (idle_fetches _ _ _ _).trans (idle_activate _ _ _)
      | routerInfo q => exact (idle_fetches _ _ _ _).trans (idle_activate _ _ _)

theorem idle_queryLs (s : State) (env : Env) (key : Bytes) (t : Nat) : Idle s (s.queryLs env key t) := by
  unfold State.queryLs
  split
  · exact Idle.same rfl rfl
  · exact Idle.app [.cancel t] rfl rfl (by simp [Out.sentTo])
  · split
    · exact Idle.app [_] rfl rfl (by simp [Out.sentTo])
    · next f _ =>
      have g := idle_lookup s env f key .leaseSet
      split
      · next s1 _ e => rw [e] at g; exact g.trans (idle_begin s1 key _)
      · next s1 _ e => rw [e] at g; exact g.trans (Idle.app [_] rfl rfl (by simp [Out.sentTo]))

theorem idle_queryRi (s : State) (env : Env) (key : Bytes) (t : Nat) : Idle s (s.queryRi env key t) := by
  unfold State.queryRi
  split
  · exact Idle.same rfl rfl
  · exact Idle.app [.cancel t] rfl rfl (by simp [Out.sentTo])
  · split
    · exact Idle.app [_] rfl rfl (by simp [Out.sentTo])
    · next f _ =>
      have g := idle_lookup s env f key .router
      split
      · next s1 _ e => rw [e] at g; exact g.trans (idle_begin s1 key _)
      · next s1 _ e => rw [e] at g; exact g.trans (Idle.app [_] rfl rfl (by simp [Out.sentTo]))

/-- The event is about the connection to a router. -/
def Op.about (r : Bytes) : Op → Bool
  | .connected x => decide (x = r)
  | .closed x => decide (x = r)
  | .failed x => decide (x = r)
  | _ => false

/-- The event is a lookup that asks for a direct answer to a router. -/
def Op.direct (r : Bytes) : Op → Bool
  | .lookup _ _ (.router x) _ => decide (x = r)
  | _ => false

/-- The connection of a router through an event that is neither about it nor a lookup answered to it directly. -/
theorem flow_step (r : Bytes) (s : State) (env : Env) (op : Op) (h : op.about r = false) (h' : op.direct r = false) : Flow r s (s.step env op) := by
  have gone : ∀ x : Bytes, x ≠ r → Flow r s (s.lost x) := by
    intro x hx
    have e : (s.lost x).routers.get r = s.routers.get r := by
      show (s.routers.del x).get r = _
      rw [AMap.get_del, if_neg (fun h => hx h.symm)]
    refine ⟨?_, fun p hp => ⟨[], by rw [e, hp, List.append_nil]⟩, by rw [e], fun _ => rfl⟩
    unfold State.connects State.absent
    rw [e]
    exact Nat.le_refl _
  cases op with
  | advance d => exact (Idle.same rfl rfl : Idle s { s with now := s.now + d }).flow r
  | connected x =>
    have hx : x ≠ r := by simpa [Op.about] using h
    show Flow r s (s.established env x)
    have key : ∀ p : List (Msg × Option Nat), ∀ o ∈ (p.filterMap fun m => match m.2 with
        | none => some (Out.send x m.1)
        | some e => if e > s.now then some (Out.send x m.1) else none), o ≠ .connect r ∧ o.sentTo r = none := by
      intro p o ho
      obtain ⟨m, _, hm⟩ := List.mem_filterMap.mp ho
      split at hm
      · cases hm; exact ⟨by simp, by simp [Out.sentTo, hx]⟩
      · split at hm
        · cases hm; exact ⟨by simp, by simp [Out.sentTo, hx]⟩
        · cases hm
    have gen : ∀ (l : List Out), (∀ o ∈ l, o ≠ .connect r ∧ o.sentTo r = none) →
        ∀ y : State, y.routers = s.routers.put x .connected → y.log = s.log ++ l → Flow r s y := by
      intro l hl y e1 e2
      have e : y.routers.get r = s.routers.get r := by rw [e1, AMap.get_put, if_neg (fun h => hx h.symm)]
      refine ⟨?_, fun p hp => ⟨[], by rw [e, hp, List.append_nil]⟩, by rw [e], fun _ => ?_⟩
      · unfold State.connects State.absent
        rw [e, e2, List.count_append, List.count_eq_zero.mpr (fun hm => (hl _ hm).1 rfl)]
        exact Nat.le_refl _
      · unfold State.sentTo
        rw [e2, List.filterMap_append, List.filterMap_eq_nil_iff.mpr (fun o ho => (hl o ho).2), List.append_nil]
    unfold State.established
    dsimp only
    split
    · split
      · exact gen _ (key _) _ rfl rfl
      · exact gen [] (by simp) _ rfl rfl
    · split
      · exact gen _ (key _) _ rfl rfl
      · exact gen [] (by simp) _ rfl rfl
  | closed x => exact gone x (by simpa [Op.about] using h)
  | failed x => exact gone x (by simpa [Op.about] using h)
  | outBuilt t =>
    refine Idle.flow ?_ r
    unfold State.step State.wake; dsimp only
    split
    · exact Idle.app (s.ready.map .ready) rfl rfl (by simp [Out.sentTo])
    · exact Idle.same rfl rfl
  | inBuilt t =>
    refine Idle.flow ?_ r
    unfold State.step State.wake; dsimp only
    split
    · exact Idle.app (s.ready.map .ready) rfl rfl (by simp [Out.sentTo])
    · exact Idle.same rfl rfl
  | outExpired t => exact Idle.flow (Idle.same rfl rfl : Idle s (s.step env (.outExpired t))) r
  | inExpired t => exact Idle.flow (Idle.same rfl rfl : Idle s (s.step env (.inExpired t))) r
  | lookup key kind reply ignore =>
    have an : ∀ m, Flow r s (s.answer reply m) := by
      intro m
      unfold State.answer
      cases reply with
      | tunnel t x => exact Idle.flow (Idle.app [.viaTunnel x t m] rfl rfl (by simp [Out.sentTo]) : Idle s (s.out (.viaTunnel x t m))) r
      | router x =>
        have hx : x ≠ r := by simpa [Op.direct] using h'
        refine ⟨?_, fun p hp => ⟨[], by rw [List.append_nil]; exact hp⟩, Iff.rfl, fun _ => ?_⟩
        · unfold State.connects State.absent State.out
          rw [List.count_append, show [Out.send x m].count (.connect r) = 0 by simp]
          exact Nat.le_refl _
        · show (s.log ++ [Out.send x m]).filterMap _ = _
          rw [List.filterMap_append]; simp [Out.sentTo, State.sentTo, hx]
    show Flow r s (s.lookupMsg env key kind reply ignore)
    unfold State.lookupMsg
    split
    · exact Flow.refl r s
    cases kind <;> dsimp only
    · exact Flow.refl r s
    · unfold State.leaseSetLookup; split <;> exact an _
    · unfold State.routerInfoLookup; split <;> exact an _
    · unfold State.explorationLookup
      split
      · exact Flow.refl r s
      · dsimp only; split <;> exact flow_send _ _ _ _ _ _
  | publish x raw => exact flow_send _ _ _ _ _ _
  | waitReady t =>
    refine Idle.flow ?_ r
    unfold State.step
    dsimp only
    split
    · exact Idle.app [.ready t] rfl rfl (by simp [Out.sentTo])
    · exact Idle.same rfl rfl
  | fire i => exact (idle_fire s env i).flow r
  | closest key t =>
    refine Idle.flow ?_ r
    show Idle s (s.closestFloodfills env key t)
    unfold State.closestFloodfills
    dsimp only
    split <;> exact Idle.app [_] rfl rfl (by simp [Out.sentTo])
  | queryLs key t => exact (idle_queryLs s env key t).flow r
  | queryRi key t => exact (idle_queryRi s env key t).flow r
  | store sender key p reply => exact flow_store r s env sender key p reply
  | search sender m => exact (idle_search s env sender m).flow r
  | tick key => exact (idle_tick s env key).flow r

/-- C139, dialing: from any state of the task, as long as the connection to a router is not reported lost and its dial not reported failed, at most one dial to the
router is requested, and none if it is being dialed or connected. -/
theorem C139_dial_once (s : State) (r : Bytes) (evs : List (Env × Op)) (h : ∀ e ∈ evs, e.2 ≠ .closed r ∧ e.2 ≠ .failed r) :
    (s.run evs).connects r ≤ s.connects r + (if s.routers.get r = none then 1 else 0) := by
  have gen : (s.run evs).connects r + (s.run evs).absent r ≤ s.connects r + s.absent r := by
    induction evs generalizing s with
    | nil => exact Nat.le_refl _
    | cons e evs ih =>
      refine Nat.le_trans (ih (s.step e.1 e.2) (fun x hx => h x (by simp [hx]))) ?_
      have he := h e (by simp)
      obtain ⟨env, op⟩ := e
      dsimp only at he ⊢
      by_cases ha : op.about r = false
      · by_cases hd : op.direct r = false
        · exact (flow_step r s env op ha hd).dial
        · -- a lookup with a direct answer
          cases op with
          | lookup key kind reply ignore =>
            cases reply with
            | tunnel t x => exact absurd rfl hd
            | router x =>
              have an : ∀ m, (s.answer (.router x) m).connects r + (s.answer (.router x) m).absent r ≤ s.connects r + s.absent r := by
                intro m
                show (s.log ++ [Out.send x m]).count (.connect r) + s.absent r ≤ _
                rw [List.count_append, show [Out.send x m].count (.connect r) = 0 by simp]
                exact Nat.le_refl _
              show (s.lookupMsg env key kind (.router x) ignore).connects r + (s.lookupMsg env key kind (.router x) ignore).absent r ≤ _
              unfold State.lookupMsg
              split
              · exact Nat.le_refl _
              cases kind <;> dsimp only
              · exact Nat.le_refl _
              · unfold State.leaseSetLookup; split <;> exact an _
              · unfold State.routerInfoLookup; split <;> exact an _
              · unfold State.explorationLookup
                split
                · exact Nat.le_refl _
                · exact (flow_send r _ _ _ _ _).dial
          | _ => exact absurd rfl hd
      · cases op with
        | connected x =>
          have hx : x = r := by simpa [Op.about] using ha
          subst hx
          have e1 : (s.established env x).absent x = 0 := by
            unfold State.absent State.established
            dsimp only
            split <;> simp [AMap.get_put]
          have e2 : (s.established env x).connects x = s.connects x := by
            have key : ∀ p : List (Msg × Option Nat), Out.connect x ∉ (p.filterMap fun m => match m.2 with
                | none => some (Out.send x m.1)
                | some e => if e > s.now then some (Out.send x m.1) else none) := by
              intro p ho
              obtain ⟨m, _, hm⟩ := List.mem_filterMap.mp ho
              split at hm
              · cases hm
              · split at hm <;> cases hm
            have app : ∀ l : List Out, Out.connect x ∉ l → (s.log ++ l).count (.connect x) = s.log.count (.connect x) := by
              intro l hl; rw [List.count_append, List.count_eq_zero.mpr hl, Nat.add_zero]
            unfold State.established State.connects
            dsimp only
            split
            · split
              · exact app _ (key _)
              · exact app [] (by simp)
            · split
              · exact app _ (key _)
              · exact app [] (by simp)
          show (s.established env x).connects x + (s.established env x).absent x ≤ _
          omega
        | closed x => exact absurd (by rw [show x = r by simpa [Op.about] using ha]) he.1
        | failed x => exact absurd (by rw [show x = r by simpa [Op.about] using ha]) he.2
        | _ => exact absurd rfl ha
  have e : s.absent r = if s.routers.get r = none then 1 else 0 := by
    unfold State.absent; cases s.routers.get r <;> simp
  omega

/-- C139, waiting: as long as nothing is reported about the connection to a router that is being dialed, the messages that wait for it keep waiting, in order,
later ones behind them. -/
theorem C139_kept (s : State) (r : Bytes) (p : List (Msg × Option Nat)) (evs : List (Env × Op)) (hp : s.routers.get r = some (.dialing p))
    (h : ∀ e ∈ evs, e.2 ≠ .connected r ∧ e.2 ≠ .closed r ∧ e.2 ≠ .failed r) :
    ∃ p', (s.run evs).routers.get r = some (.dialing (p ++ p')) := by
  induction evs generalizing s p with
  | nil => exact ⟨[], by rw [List.append_nil]; exact hp⟩
  | cons e evs ih =>
    have he := h e (by simp)
    obtain ⟨env, op⟩ := e
    dsimp only at he
    have one : ∃ p', (s.step env op).routers.get r = some (.dialing (p ++ p')) := by
      have ha : op.about r = false := by
        cases op with
        | connected x => exact decide_eq_false (fun hx => he.1 (by rw [hx]))
        | closed x => exact decide_eq_false (fun hx => he.2.1 (by rw [hx]))
        | failed x => exact decide_eq_false (fun hx => he.2.2 (by rw [hx]))
        | _ => rfl
      by_cases hd : op.direct r = false
      · exact (flow_step r s env op ha hd).keep p hp
      · cases op with
        | lookup key kind reply ignore =>
          cases reply with
          | tunnel t x => exact absurd rfl hd
          | router x =>
            show ∃ p', (s.lookupMsg env key kind (.router x) ignore).routers.get r = _
            unfold State.lookupMsg
            split
            · exact ⟨[], by rw [List.append_nil]; exact hp⟩
            cases kind <;> dsimp only
            · exact ⟨[], by rw [List.append_nil]; exact hp⟩
            · unfold State.leaseSetLookup; split <;> exact ⟨[], by rw [List.append_nil]; exact hp⟩
            · unfold State.routerInfoLookup; split <;> exact ⟨[], by rw [List.append_nil]; exact hp⟩
            · unfold State.explorationLookup
              split
              · exact ⟨[], by rw [List.append_nil]; exact hp⟩
              · exact (flow_send r _ _ _ _ _).keep p hp
        | _ => exact absurd rfl hd
    obtain ⟨p1, h1⟩ := one
    obtain ⟨p2, h2⟩ := ih (s.step env op) (p ++ p1) h1 (fun x hx => h x (by simp [hx]))
    exact ⟨p1 ++ p2, by rw [← List.append_assoc]; exact h2⟩

/-- The messages among those waiting that may still be sent at a time: those without an expiration and those whose expiration lies in the future. -/
def live (now : Nat) (p : List (Msg × Option Nat)) : List Msg :=
  (p.filter fun m => match m.2 with | none => true | some e => decide (now < e)).map (·.1)

/-- C139, delivery: when the connection comes up, exactly the messages that wait and have not expired are handed over for the router, each once and in order, and
nothing else is; from then on the router counts as connected and nothing waits for it. -/
theorem C139_flush (s : State) (env : Env) (r : Bytes) (p : List (Msg × Option Nat)) (hp : s.routers.get r = some (.dialing p)) :
    (s.step env (.connected r)).log = s.log ++ (live s.now p).map (.send r) ∧
    (s.step env (.connected r)).routers.get r = some .connected := by
  have e : (p.filterMap fun m => match m.2 with
      | none => some (Out.send r m.1)
      | some e => if e > s.now then some (Out.send r m.1) else none) = (live s.now p).map (.send r) := by
    unfold live
    clear hp
    induction p with
    | nil => rfl
    | cons m p ih =>
      obtain ⟨m, x⟩ := m
      cases x with
      | none => simp only [List.filterMap_cons, List.filter_cons, if_true, List.map_cons]; rw [ih]
      | some x =>
        by_cases hx : x > s.now
        · have hx' : s.now < x := hx
          simp only [List.filterMap_cons, List.filter_cons, hx, hx', decide_true, if_true, List.map_cons]; rw [ih]
        · have hx' : ¬ s.now < x := hx
          simp only [List.filterMap_cons, List.filter_cons, hx, hx', decide_false, if_false, Bool.false_eq_true]; rw [ih]
  show (s.established env r).log = _ ∧ (s.established env r).routers.get r = _
  unfold State.established
  rw [hp]
  dsimp only
  split
  · exact ⟨congrArg (s.log ++ ·) e, by simp [AMap.get_put]⟩
  · exact ⟨congrArg (s.log ++ ·) e, by simp [AMap.get_put]⟩

/-- C139, what holds of sending: unless an event answers a lookup directly to the router or is about its connection, nothing is handed to the transport for a router
without a connection. Missing: the answers, see `C139_answer_violated`. -/
theorem C139_connected_partial (s : State) (env : Env) (op : Op) (r : Bytes) (h : s.routers.get r ≠ some .connected)
    (ha : op.about r = false) (hd : op.direct r = false) : (s.step env op).sentTo r = s.sentTo r :=
  (flow_step r s env op ha hd).sends h

/-- C139 does not hold for answers: a floodfill answers a lookup that asks for a direct answer by handing it to the transport whether or not there is a
connection. Without one nothing is dialed and the answer does not wait: it is lost. -/
theorem C139_answer_violated (s : State) (env : Env) (key r : Bytes) (kind : LookupKind) (ignore : List Bytes) (hf : s.floodfill = true)
    (hk : kind = .leaseSet ∨ kind = .router) (h : s.routers.get r = none) :
    ∃ m, (s.step env (.lookup key kind (.router r) ignore)).log = s.log ++ [.send r m] ∧
      (s.step env (.lookup key kind (.router r) ignore)).routers.get r = none := by
  show ∃ m, (s.lookupMsg env key kind (.router r) ignore).log = _ ∧ (s.lookupMsg env key kind (.router r) ignore).routers.get r = _
  unfold State.lookupMsg
  rw [hf]
  rcases hk with rfl | rfl
  · show ∃ m, (s.leaseSetLookup env key (.router r) ignore).log = _ ∧ (s.leaseSetLookup env key (.router r) ignore).routers.get r = _
    unfold State.leaseSetLookup
    split <;> exact ⟨_, rfl, h⟩
  · show ∃ m, (s.routerInfoLookup env key (.router r) ignore).log = _ ∧ (s.routerInfoLookup env key (.router r) ignore).routers.get r = _
    unfold State.routerInfoLookup
    split <;> exact ⟨_, rfl, h⟩

/-- A floodfill with three others in its table. -/
def toyFf : State :=
  State.init (tid 0) 2 true (((Table.new (tid 0)).addRouter (tid 1)).addRouter (tid 2) |>.addRouter (tid 3)) (Table.new (tid 0)) 0 (toyEnv [])

/-- A lease set of destination 5 with a lease until 600 s. -/
def toyGood : LSet := { dest := tid 5, headerExpires := 600, leases := [600], raw := [9] }

/-- A store that asks router 4 to be told. -/
def toyStored : State := toyFf.run [(toyEnv [], .store none (tid 5) (.leaseSet toyGood) (.router 77 (tid 4)))]

/-- The status and the flooded lease set wait for their connections (floodfill 1 comes twice from the table, see C40). -/
example : toyStored.log = [.connect (tid 4), .connect (tid 1), .connect (tid 3)] ∧
    toyStored.routers.get (tid 4) = some (.dialing [(.status 77 none, some 8000)]) := by decide +kernel

example := C139_dial_once toyFf (tid 4) [(toyEnv [], .store none (tid 5) (.leaseSet toyGood) (.router 77 (tid 4))),
  (toyEnv [], .store none (tid 5) (.leaseSet toyGood) (.router 78 (tid 4)))] (by simp)
example := C139_kept toyStored (tid 4) [(.status 77 none, some 8000)] [(toyEnv [], .store none (tid 5) (.leaseSet toyGood) (.router 78 (tid 4))),
  (toyEnv [], .tick (tid 77))] (by decide +kernel) (by simp)
example := C139_flush toyStored (toyEnv []) (tid 4) [(.status 77 none, some 8000)] (by decide +kernel)
example := C139_connected_partial toyStored (toyEnv []) (.publish (tid 0) [1]) (tid 1) (by decide +kernel) rfl rfl
example := C139_answer_violated toyStored (toyEnv []) (tid 5) (tid 8) .leaseSet [] rfl (.inl rfl) (by decide +kernel)

end Emissary.NetdbRun
