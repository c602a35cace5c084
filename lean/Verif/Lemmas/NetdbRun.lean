import Verif.Model.NetdbRun
/-! Frames of the netdb task: what each piece leaves alone. -/
namespace Emissary.NetdbRun
open Emissary Emissary.Netdb

/-- The request an output settles, if any. -/
def Out.settles : Out → Option Nat
  | .leaseSet tx _ => some tx
  | .routerInfo tx _ => some tx
  | .cancel tx => some tx
  | .floodfills tx _ => some tx
  | _ => none

/-- The request of a caller an event brings, if any. -/
def Op.asks : Op → Option Nat
  | .queryLs _ tx => some tx
  | .queryRi _ tx => some tx
  | .closest _ tx => some tx
  | _ => none

/-- Queries, timers, clock and those who wait for readiness are left alone, and nothing is settled. -/
structure Quiet (s s' : State) : Prop where
  active : s'.active = s.active
  timers : s'.timers = s.timers
  now : s'.now = s.now
  ready : s'.ready = s.ready
  localId : s'.localId = s.localId
  netId : s'.netId = s.netId
  floodfill : s'.floodfill = s.floodfill
  log : ∃ l, s'.log = s.log ++ l ∧ ∀ o ∈ l, o.settles = none ∧ ∀ tx, o ≠ .ready tx

theorem Quiet.refl (s : State) : Quiet s s := ⟨rfl, rfl, rfl, rfl, rfl, rfl, rfl, [], by simp⟩

theorem Quiet.trans {a b c : State} (h : Quiet a b) (g : Quiet b c) : Quiet a c := by
  obtain ⟨l, e, hl⟩ := h.log
  obtain ⟨l', e', hl'⟩ := g.log
  refine ⟨g.active.trans h.active, g.timers.trans h.timers, g.now.trans h.now, g.ready.trans h.ready, g.localId.trans h.localId,
    g.netId.trans h.netId, g.floodfill.trans h.floodfill, l ++ l', by rw [e', e, List.append_assoc], ?_⟩
  intro o ho
  rcases List.mem_append.mp ho with h | h
  · exact hl o h
  · exact hl' o h

theorem Quiet.out (s : State) (o : Out) (h : o.settles = none) (h' : ∀ tx, o ≠ .ready tx) : Quiet s (s.out o) :=
  ⟨rfl, rfl, rfl, rfl, rfl, rfl, rfl, [o], rfl, by simp [h]; exact h'⟩

theorem quiet_sendOne (s : State) (env : Env) (m : Msg) (e : Option Nat) (r : Bytes) : Quiet s (s.sendOne env m e r) := by
  unfold State.sendOne
  split
  · split
    · exact ⟨rfl, rfl, rfl, rfl, rfl, rfl, rfl, [.connect r], rfl, by simp [Out.settles]⟩
    · exact Quiet.refl s
  · exact ⟨rfl, rfl, rfl, rfl, rfl, rfl, rfl, [], by simp, by simp⟩
  · exact Quiet.out s _ rfl (by simp)

theorem quiet_send (s : State) (env : Env) (rs : List Bytes) (m : Msg) (e : Option Nat) : Quiet s (s.send env rs m e) := by
  unfold State.send
  induction rs generalizing s with
  | nil => exact Quiet.refl s
  | cons r rs ih => exact (quiet_sendOne s env m e r).trans (ih _)

theorem quiet_established (s : State) (env : Env) (r : Bytes) : Quiet s (s.established env r) := by
  have key : ∀ p : List (Msg × Option Nat), ∀ o ∈ (p.filterMap fun m => match m.2 with
      | none => some (Out.send r m.1)
      | some e => if e > s.now then some (Out.send r m.1) else none), o.settles = none ∧ ∀ tx, o ≠ Out.ready tx := by
    intro p o ho
    obtain ⟨m, _, hm⟩ := List.mem_filterMap.mp ho
    split at hm
    · cases hm; exact ⟨rfl, by simp⟩
    · split at hm
      · cases hm; exact ⟨rfl, by simp⟩
      · cases hm
  unfold State.established
  dsimp only
  have : ∀ (l : List Out), (∀ o ∈ l, o.settles = none ∧ ∀ tx, o ≠ Out.ready tx) →
      ∀ x : State, x = { s with log := s.log ++ l, routers := s.routers.put r .connected } →
      Quiet s (if env.isFloodfill r then { x with ffDht := x.ffDht.addRouter r } else { x with rtDht := x.rtDht.map (fun t => Table.addRouter t r) }) := by
    intro l hl x hx
    subst hx
    split
    · exact ⟨rfl, rfl, rfl, rfl, rfl, rfl, rfl, l, rfl, hl⟩
    · exact ⟨rfl, rfl, rfl, rfl, rfl, rfl, rfl, l, rfl, hl⟩
  refine this _ ?_ _ rfl
  split
  · exact key _
  · intro o ho; cases ho

theorem quiet_flood (s : State) (env : Env) (key : Bytes) (reply : StoreReply) (m : Msg) (e : Nat) : Quiet s (s.flood env key reply m e) := by
  unfold State.flood
  split
  · exact Quiet.refl s
  · exact (quiet_send _ _ _ _ _).trans (quiet_send _ _ _ _ _)

theorem quiet_step_dht (s : State) (f : Table → Table) : Quiet s { s with ffDht := f s.ffDht } :=
  ⟨rfl, rfl, rfl, rfl, rfl, rfl, rfl, [], by simp, by simp⟩

theorem quiet_addFloodfill (s : State) (r : RInfo) : Quiet s (s.addFloodfill r) := by
  unfold State.addFloodfill
  split
  · exact quiet_step_dht s (fun t => t.addRouter r.id)
  · exact Quiet.refl s

theorem quiet_credit (s : State) (x : Option Bytes) : Quiet s (s.credit x) := by
  unfold State.credit
  cases x with
  | none => exact Quiet.refl s
  | some x => exact quiet_step_dht s (fun t => t.step (.success x))

theorem quiet_discredit (s : State) (x : Option Bytes) : Quiet s (s.discredit x) := by
  unfold State.discredit
  cases x with
  | none => exact Quiet.refl s
  | some x => exact quiet_step_dht s (fun t => t.step (.failure x))

theorem quiet_fetched (s : State) (x : Option Bytes) (r : RInfo) : Quiet s (s.fetched x r) := by
  unfold State.fetched
  split
  · exact Quiet.refl s
  split
  · exact Quiet.refl s
  dsimp only
  have a := quiet_addFloodfill s r
  generalize s.addFloodfill r = s1 at *
  have b : Quiet s { s1 with rtDht := s1.rtDht.map (fun t => Table.addRouter t r.id) } := a.trans ⟨rfl, rfl, rfl, rfl, rfl, rfl, rfl, [], by simp, by simp⟩
  exact (b.trans (quiet_credit _ x)).trans (Quiet.out _ _ rfl (by simp))

theorem quiet_routerInfoStore (s : State) (env : Env) (key : Bytes) (reply : StoreReply) (r : RInfo) :
    Quiet s (s.routerInfoStore env key reply r) := by
  unfold State.routerInfoStore
  split
  · exact Quiet.refl s
  split
  · exact Quiet.refl s
  split
  · exact Quiet.refl s
  dsimp only
  have b : Quiet s ((s.addFloodfill r).out (.discover r)) := (quiet_addFloodfill s r).trans (Quiet.out _ _ rfl (by simp))
  generalize (s.addFloodfill r).out (.discover r) = s2 at *
  split
  · exact b
  · refine b.trans (Quiet.trans ?_ (quiet_flood _ _ _ _ _ _))
    exact ⟨rfl, rfl, rfl, rfl, rfl, rfl, rfl, [], by simp, by simp⟩

theorem quiet_leaseSetStore (s : State) (env : Env) (key : Bytes) (reply : StoreReply) (l : LSet) :
    Quiet s (s.leaseSetStore env key reply l) := by
  unfold State.leaseSetStore
  split
  · exact Quiet.refl s
  · refine Quiet.trans ?_ (quiet_flood _ _ _ _ _ _)
    exact ⟨rfl, rfl, rfl, rfl, rfl, rfl, rfl, [], by simp, by simp⟩

theorem quiet_answer (s : State) (reply : LookupReply) (m : Msg) : Quiet s (s.answer reply m) := by
  unfold State.answer
  split
  · exact Quiet.out _ _ rfl (by simp)
  · exact Quiet.out _ _ rfl (by simp)

theorem quiet_lookupMsg (s : State) (env : Env) (key : Bytes) (kind : LookupKind) (reply : LookupReply) (ignore : List Bytes) :
    Quiet s (s.lookupMsg env key kind reply ignore) := by
  unfold State.lookupMsg
  split
  · exact Quiet.refl s
  cases kind <;> dsimp only
  · exact Quiet.refl s
  · unfold State.leaseSetLookup; split <;> exact quiet_answer _ _ _
  · unfold State.routerInfoLookup; split <;> exact quiet_answer _ _ _
  · unfold State.explorationLookup
    split
    · exact Quiet.refl s
    · dsimp only; split <;> exact quiet_send _ _ _ _ _

theorem quiet_tunnels (s : State) : Quiet s s.tunnels.1 := by
  unfold State.tunnels
  split
  · exact Quiet.refl s
  · split <;> exact ⟨rfl, rfl, rfl, rfl, rfl, rfl, rfl, [], by simp, by simp⟩

theorem quiet_lookup (s : State) (env : Env) (ff key : Bytes) (kind : LookupKind) : Quiet s (s.lookup env ff key kind).1 := by
  have h := quiet_tunnels s
  unfold State.lookup
  split
  · next e => rw [e] at h; exact h
  · next e =>
    rw [e] at h
    split
    · exact h.trans (Quiet.out _ _ rfl (by simp))
    · exact h

theorem quiet_maintain (s : State) : Quiet s s.maintain := ⟨rfl, rfl, rfl, rfl, rfl, rfl, rfl, [], by simp [State.maintain], by simp⟩

theorem quiet_charge (s : State) (q : Query) : Quiet s (s.charge q) := by
  unfold State.charge
  split
  · exact ⟨rfl, rfl, rfl, rfl, rfl, rfl, rfl, [_], rfl, by simp [Out.settles]⟩
  · exact Quiet.refl s

/-! ## Queries -/

/-- What `Query::handle_timeout` keeps. -/
theorem next_keeps (q : Query) (env : Env) (dht : Table) (key : Bytes) (now : Nat) :
    (q.next env dht key now).1.subs = q.subs ∧ (q.next env dht key now).1.started = q.started ∧ (q.next env dht key now).1.selected = q.selected ∧
    (q.next env dht key now).1.queried = q.queried ∧
    (∀ f, (q.next env dht key now).2 = .ok f → now - q.started < totalTimeout) := by
  unfold Query.next
  split
  · exact ⟨rfl, rfl, rfl, rfl, fun f h => by cases h⟩
  · next h =>
    have h : now - q.started < totalTimeout := by omega
    dsimp only
    split
    · exact ⟨rfl, rfl, rfl, rfl, fun _ _ => h⟩
    · split
      · exact ⟨rfl, rfl, rfl, rfl, fun _ _ => h⟩
      · exact ⟨rfl, rfl, rfl, rfl, fun _ _ => h⟩

theorem pickNext_keeps (env : Env) (dht : Table) (key : Bytes) (now : Nat) (fuel : Nat) (q : Query) :
    (pickNext env dht key now fuel q).1.subs = q.subs ∧ (pickNext env dht key now fuel q).1.started = q.started ∧
    (∀ f, (pickNext env dht key now fuel q).2 = .ok f → now - q.started < totalTimeout ∧ env.known f = true) := by
  induction fuel generalizing q with
  | zero => exact ⟨rfl, rfl, fun f h => by cases h⟩
  | succ fuel ih =>
    unfold pickNext
    have k := next_keeps q env dht key now
    split
    · next e => rw [e] at k; exact ⟨k.1, k.2.1, fun f h => by cases h⟩
    · next q' f e =>
      rw [e] at k
      split
      · next hk => exact ⟨k.1, k.2.1, fun g h => by cases h; exact ⟨k.2.2.2.2 _ rfl, hk⟩⟩
      · have i := ih { q' with queried := ins q'.queried f }
        refine ⟨i.1.trans k.1, i.2.1.trans k.2.1, fun g hg => ?_⟩
        have := i.2.2 g hg
        rw [show ({ q' with queried := ins q'.queried f } : Query).started = q'.started from rfl, k.2.1] at this
        exact this

theorem searchReply_keeps (q : Query) (known : Bytes → Bool) (rs : List Bytes) :
    (q.searchReply known rs).1.subs = q.subs ∧ (q.searchReply known rs).1.started = q.started ∧
    (q.searchReply known rs).1.queried = q.queried := ⟨rfl, rfl, rfl⟩

end Emissary.NetdbRun
