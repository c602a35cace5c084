import Verif.Props.NetdbSettle
/-!
# C135: time
-/
namespace Emissary.NetdbRun
open Emissary Emissary.Netdb

/-- The entry is a lease set query. -/
def Kind.isLs : Kind → Bool
  | .leaseSet _ => true
  | _ => false

/-- The request of a caller that begins or joins a query: key, whether it is for a lease set, and the caller's channel. -/
def Op.wants : Op → Option (Bytes × Bool × Nat)
  | .queryLs key tx => some (key, true, tx)
  | .queryRi key tx => some (key, false, tx)
  | _ => none

/-- The query of an entry, if callers can wait for it. -/
def Kind.query : Kind → Option Query
  | .leaseSet q => some q
  | .routerInfo q => some q
  | .exploration => none
  | .router => none

/-- A query began in the past and a timer fires within 21.6 s of its beginning. -/
def Armed (now : Nat) (timers : List (Bytes × Nat)) (key : Bytes) (started : Nat) : Prop :=
  started ≤ now ∧ ∃ due, (key, due) ∈ timers ∧ due ≤ started + 21600

/-- Every active query is armed, and a condition on its beginning and on those who wait for it holds. -/
def Timed (P : Bytes → Bool → Nat → List Nat → Prop) (s : State) : Prop :=
  ∀ key k q, s.active.get key = some k → k.query = some q → P key k.isLs q.started q.subs ∧ Armed s.now s.timers key q.started

variable {P : Bytes → Bool → Nat → List Nat → Prop}

theorem Timed.quiet {s s' : State} (h : Timed P s) (g : Quiet s s') : Timed P s' := by
  intro key k q hk hq
  rw [g.active] at hk
  rw [g.now, g.timers]
  exact h key k q hk hq

theorem Timed.take {s : State} (h : Timed P s) (key : Bytes) : Timed P (s.take key) := by
  intro key' k q hk hq
  have hk : (s.active.del key).get key' = some k := hk
  rw [AMap.get_del] at hk
  split at hk
  · cases hk
  · exact h key' k q hk hq

theorem activate_frame (s : State) (key : Bytes) (k : Kind) :
    (s.activate key k).active = s.active.put key k ∧ (s.activate key k).timers = s.timers ∧ (s.activate key k).now = s.now := by
  unfold State.activate
  dsimp only
  split <;> exact ⟨rfl, rfl, rfl⟩

theorem Timed.activate {s : State} (h : Timed P s) (key : Bytes) (k : Kind)
    (hk : ∀ q, k.query = some q → P key k.isLs q.started q.subs ∧ Armed s.now s.timers key q.started) : Timed P (s.activate key k) := by
  have f := activate_frame s key k
  intro key' k' q hk' hq
  rw [f.1, AMap.get_put] at hk'
  rw [f.2.1, f.2.2]
  split at hk'
  · next e => cases hk'; subst e; exact hk q hq
  · exact h key' k' q hk' hq

theorem Armed.mono {now : Nat} {t t' : List (Bytes × Nat)} {key : Bytes} {st : Nat} (h : Armed now t key st) (g : ∀ x ∈ t, x ∈ t') : Armed now t' key st := by
  obtain ⟨a, due, hd, hl⟩ := h
  exact ⟨a, due, g _ hd, hl⟩

theorem Timed.arm {s : State} (h : Timed P s) (key : Bytes) : Timed P (s.arm key) := by
  intro key' k q hk hq
  obtain ⟨a, b⟩ := h key' k q hk hq
  exact ⟨a, b.mono fun x hx => List.mem_append_left _ hx⟩

/-- Entry of a query whose timer is armed at once. -/
theorem Timed.activateArm {s : State} (h : Timed P s) (key : Bytes) (k : Kind)
    (hk : ∀ q, k.query = some q → P key k.isLs q.started q.subs ∧ q.started ≤ s.now ∧ s.now < q.started + 20000) : Timed P ((s.activate key k).arm key) := by
  have f := activate_frame s key k
  intro key' k' q hk' hq
  have hk' : (s.activate key k).active.get key' = some k' := hk'
  rw [f.1, AMap.get_put] at hk'
  show P _ _ _ _ ∧ Armed (s.activate key k).now ((s.activate key k).timers ++ [(key, (s.activate key k).now + queryTimeout)]) key' _
  rw [f.2.1, f.2.2]
  split at hk'
  · next e =>
    cases hk'; subst e
    obtain ⟨a, b, c⟩ := hk q hq
    exact ⟨a, b, s.now + queryTimeout, by simp, by unfold queryTimeout; omega⟩
  · obtain ⟨a, b⟩ := h key' k' q hk' hq
    exact ⟨a, b.mono fun x hx => List.mem_append_left _ hx⟩

theorem Timed.log {s : State} (h : Timed P s) (l : List Out) : Timed P { s with log := l } := h

theorem Timed.fetch {s : State} (h : Timed P s) (env : Env) (replier r : Bytes) :
    Timed P (s.fetch env replier r) ∧ (s.fetch env replier r).now = s.now ∧ ∀ x ∈ s.timers, x ∈ (s.fetch env replier r).timers := by
  have g := quiet_lookup s env replier r .router
  unfold State.fetch
  split
  · next s1 _ e =>
    rw [e] at g
    have f := activate_frame s1 r .router
    refine ⟨((h.quiet g).activate r .router (by intro q hq; cases hq)).arm r, ?_, ?_⟩
    · show (s1.activate r .router).now = _; rw [f.2.2, g.now]
    · intro x hx
      show x ∈ (s1.activate r .router).timers ++ _
      rw [f.2.1, g.timers]
      exact List.mem_append_left _ hx
  · next s1 _ e =>
    rw [e] at g
    exact ⟨h.quiet g, g.now, fun x hx => by rw [g.timers]; exact hx⟩

theorem Timed.fetches {s : State} (h : Timed P s) (env : Env) (replier : Bytes) (rs : List Bytes) :
    Timed P (s.fetches env replier rs) ∧ (s.fetches env replier rs).now = s.now ∧ ∀ x ∈ s.timers, x ∈ (s.fetches env replier rs).timers := by
  unfold State.fetches
  induction rs generalizing s with
  | nil => exact ⟨h, rfl, fun x hx => hx⟩
  | cons r rs ih =>
    have a := h.fetch env replier r
    have b := ih a.1
    exact ⟨b.1, b.2.1.trans a.2.1, fun x hx => b.2.2 x (a.2.2 x hx)⟩

theorem Timed.storeMsg {s : State} (h : Timed P s) (env : Env) (sender : Option Bytes) (key : Bytes) (p : Payload) (reply : StoreReply) :
    Timed P (s.storeMsg env sender key p reply) := by
  have h1 := h.take key
  unfold State.storeMsg
  generalize s.take key = s1 at *
  generalize s.active.get key = k
  unfold State.storeAt
  cases k with
  | none =>
    cases p with
    | routerInfo r => exact h1.quiet (quiet_routerInfoStore _ _ _ _ _)
    | leaseSet l =>
      dsimp only
      split
      · exact h1.quiet (quiet_leaseSetStore _ _ _ _ _)
      · exact h1
  | some k =>
    cases p with
    | leaseSet l => cases k <;> exact h1.log _
    | routerInfo r =>
      cases k with
      | leaseSet q => exact h1.log _
      | exploration => exact h1.log _
      | router => exact h1.quiet (quiet_fetched _ _ _)
      | routerInfo q =>
        have d := (quiet_credit s1 sender).trans (Quiet.out _ (.discover r) rfl (by simp))
        exact (h1.quiet d).log _

theorem Timed.searchMsg {s : State} (h : Timed P s) (env : Env) (sender : Option Bytes) (m : Option (Bytes × List Bytes × Bytes)) :
    Timed P (s.searchMsg env sender m) := by
  have c := quiet_discredit s sender
  have h0 := h.quiet c
  unfold State.searchMsg
  cases m with
  | none => exact h0
  | some m =>
    obtain ⟨key, routers, replier⟩ := m
    dsimp only
    have h1 := h0.take key
    have e1 : ((s.discredit sender).take key).now = s.now := c.now
    have e2 : ((s.discredit sender).take key).timers = s.timers := c.timers
    generalize (s.discredit sender).take key = s1 at *
    unfold State.searchAt
    cases hk : s.active.get key with
    | none => exact h1
    | some k =>
      cases k with
      | exploration => exact (h1.fetches _ _ _).1
      | router => exact h1
      | leaseSet q =>
        have a := h1.fetches env replier (q.searchReply env.known routers).2
        refine a.1.activate _ _ ?_
        intro q' hq'
        cases hq'
        have b := h key _ q hk rfl
        rw [a.2.1, e1]
        exact ⟨b.1, b.2.mono fun x hx => a.2.2 x (by rw [e2]; exact hx)⟩
      | routerInfo q =>
        have a := h1.fetches env replier (q.searchReply env.known routers).2
        refine a.1.activate _ _ ?_
        intro q' hq'
        cases hq'
        have b := h key _ q hk rfl
        rw [a.2.1, e1]
        exact ⟨b.1, b.2.mono fun x hx => a.2.2 x (by rw [e2]; exact hx)⟩

theorem Timed.queryLs {s : State} (h : Timed P s) (env : Env) (key : Bytes) (tx : Nat) (hn : P key true s.now [tx])
    (ha : ∀ st l, st ≤ s.now → P key true st l → P key true st (l ++ [tx])) :
    Timed P (s.queryLs env key tx) := by
  unfold State.queryLs
  cases hk : s.active.get key with
  | some k =>
    cases k with
    | leaseSet q =>
      intro key' k' q' hk' hq'
      have hk' : (s.active.put key (.leaseSet { q with subs := q.subs ++ [tx] })).get key' = some k' := hk'
      rw [AMap.get_put] at hk'
      split at hk'
      · next e =>
        cases hk'; cases hq'; subst e
        have b := h key' _ q hk rfl
        exact ⟨ha _ _ b.2.1 b.1, b.2⟩
      · exact h key' k' q' hk' hq'
    | routerInfo q => exact h.log _
    | exploration => exact h.log _
    | router => exact h.log _
  | none =>
    dsimp only
    split
    · exact h.log _
    · next f _ =>
      have g := quiet_lookup s env f key .leaseSet
      split
      · next s1 _ e =>
        rw [e] at g
        refine (h.quiet g).activateArm _ _ ?_
        intro q hq
        cases hq
        refine ⟨by show P key true s1.now [tx]; rw [g.now]; exact hn, Nat.le_refl _, ?_⟩
        show s1.now < s1.now + 20000
        omega
      · next s1 _ e =>
        rw [e] at g
        exact (h.quiet g).log _

theorem Timed.queryRi {s : State} (h : Timed P s) (env : Env) (key : Bytes) (tx : Nat) (hn : P key false s.now [tx])
    (ha : ∀ st l, st ≤ s.now → P key false st l → P key false st (l ++ [tx])) :
    Timed P (s.queryRi env key tx) := by
  unfold State.queryRi
  cases hk : s.active.get key with
  | some k =>
    cases k with
    | routerInfo q =>
      intro key' k' q' hk' hq'
      have hk' : (s.active.put key (.routerInfo { q with subs := q.subs ++ [tx] })).get key' = some k' := hk'
      rw [AMap.get_put] at hk'
      split at hk'
      · next e =>
        cases hk'; cases hq'; subst e
        have b := h key' _ q hk rfl
        exact ⟨ha _ _ b.2.1 b.1, b.2⟩
      · exact h key' k' q' hk' hq'
    | leaseSet q => exact h.log _
    | exploration => exact h.log _
    | router => exact h.log _
  | none =>
    dsimp only
    split
    · exact h.log _
    · next f _ =>
      have g := quiet_lookup s env f key .router
      split
      · next s1 _ e =>
        rw [e] at g
        refine (h.quiet g).activateArm _ _ ?_
        intro q hq
        cases hq
        refine ⟨by show P key false s1.now [tx]; rw [g.now]; exact hn, Nat.le_refl _, ?_⟩
        show s1.now < s1.now + 20000
        omega
      · next s1 _ e =>
        rw [e] at g
        exact (h.quiet g).log _

theorem Timed.handleTimeout {s : State} (h : Timed P s) (env : Env) (key : Bytes) (k : Kind)
    (hk : ∀ q, k.query = some q → P key k.isLs q.started q.subs ∧ q.started ≤ s.now) : Timed P (s.handleTimeout env key k) := by
  unfold State.handleTimeout
  cases k with
  | exploration => exact h
  | router => exact h
  | leaseSet q =>
    dsimp only
    have hc := quiet_charge s q
    have h1 := h.quiet hc
    have hn := hc.now
    generalize s.charge q = s1 at *
    generalize hq : ({ q with selected := none } : Query) = q0
    have hs0 : q0.subs = q.subs ∧ q0.started = q.started := by rw [← hq]; exact ⟨rfl, rfl⟩
    have hp := pickNext_keeps env s1.ffDht key s1.now (pickFuel env s1.ffDht key q0) q0
    generalize pickNext env s1.ffDht key s1.now (pickFuel env s1.ffDht key q0) q0 = r at *
    obtain ⟨q1, r⟩ := r
    dsimp only at hp
    rw [hs0.1, hs0.2] at hp
    cases r with
    | err e => exact h1.log _
    | ok f =>
      dsimp only
      have g := quiet_lookup s1 env f key .leaseSet
      split
      · next s2 _ e =>
        rw [e] at g
        refine (h1.quiet g).activateArm _ _ ?_
        intro q' hq'
        cases hq'
        have a := hk q rfl
        have b := (hp.2.2 f rfl).1
        unfold totalTimeout at b
        show P key true q1.started q1.subs ∧ q1.started ≤ s2.now ∧ s2.now < q1.started + 20000
        rw [hp.1, hp.2.1, g.now]
        refine ⟨a.1, ?_, ?_⟩ <;> omega
      · next s2 e e' =>
        rw [e'] at g
        exact (h1.quiet g).log _
  | routerInfo q =>
    dsimp only
    have hc := quiet_charge s q
    have h1 := h.quiet hc
    have hn := hc.now
    generalize s.charge q = s1 at *
    generalize hq : ({ q with selected := none } : Query) = q0
    have hs0 : q0.subs = q.subs ∧ q0.started = q.started := by rw [← hq]; exact ⟨rfl, rfl⟩
    have hp := next_keeps q0 env s1.ffDht key s1.now
    generalize q0.next env s1.ffDht key s1.now = r at *
    obtain ⟨q1, r⟩ := r
    dsimp only at hp
    rw [hs0.1, hs0.2] at hp
    cases r with
    | err e => exact h1.log _
    | ok f =>
      dsimp only
      have g := quiet_lookup s1 env f key .router
      have a := hk q rfl
      have b := hp.2.2.2.2 f rfl
      unfold totalTimeout at b
      split
      · next s2 _ e =>
        rw [e] at g
        refine (h1.quiet g).activateArm _ _ ?_
        intro q' hq'
        cases hq'
        show P key false q1.started q1.subs ∧ q1.started ≤ s2.now ∧ s2.now < q1.started + 20000
        rw [hp.1, hp.2.1, g.now]
        refine ⟨a.1, ?_, ?_⟩ <;> omega
      · next s2 _ e =>
        rw [e] at g
        refine (h1.quiet g).activateArm _ _ ?_
        intro q' hq'
        cases hq'
        rw [hp.1, hp.2.1, g.now]
        refine ⟨a.1, ?_, ?_⟩ <;> omega

theorem Timed.fire {s : State} (h : Timed P s) (env : Env) (i : Nat) : Timed P (s.fire env i) := by
  unfold State.fire
  split
  · exact h
  · next key due hi =>
    split
    · exact h
    have other : ∀ key' st, key' ≠ key → Armed s.now s.timers key' st → Armed s.now (s.timers.eraseIdx i) key' st := by
      intro key' st hne ⟨a, d, hd, hl⟩
      refine ⟨a, d, ?_, hl⟩
      rw [List.mem_eraseIdx_iff_getElem?]
      obtain ⟨j, hj⟩ := List.mem_iff_getElem?.mp hd
      refine ⟨j, ?_, hj⟩
      rintro rfl
      rw [hi] at hj
      cases hj
      exact hne rfl
    split
    · next hk =>
      intro key' k q hk' hq
      have b := h key' k q hk' hq
      refine ⟨b.1, other key' _ ?_ b.2⟩
      rintro rfl
      rw [hk] at hk'; cases hk'
    · next k hk =>
      have h1 : Timed P (State.take { s with timers := s.timers.eraseIdx i } key) := by
        intro key' k' q hk' hq
        have hk' : (s.active.del key).get key' = some k' := hk'
        rw [AMap.get_del] at hk'
        split at hk'
        · cases hk'
        · next hne =>
          have b := h key' k' q hk' hq
          exact ⟨b.1, other key' _ hne b.2⟩
      refine h1.handleTimeout env key k ?_
      intro q hq
      have b := h key k q hk hq
      exact ⟨b.1, b.2.1⟩

theorem handleTimeout_timers (s : State) (env : Env) (key : Bytes) (k : Kind) :
    (s.handleTimeout env key k).now = s.now ∧
    ((s.handleTimeout env key k).timers = s.timers ∨ (s.handleTimeout env key k).timers = s.timers ++ [(key, s.now + queryTimeout)]) := by
  unfold State.handleTimeout
  cases k with
  | exploration => exact ⟨rfl, .inl rfl⟩
  | router => exact ⟨rfl, .inl rfl⟩
  | leaseSet q =>
    dsimp only
    have hc := quiet_charge s q
    rw [← hc.now, ← hc.timers]
    generalize s.charge q = s1 at *
    generalize pickNext _ _ _ _ _ _ = r
    obtain ⟨q1, r⟩ := r
    cases r with
    | err e => exact ⟨rfl, .inl rfl⟩
    | ok f =>
      dsimp only
      have g := quiet_lookup s1 env f key .leaseSet
      split
      · next s2 _ e =>
        rw [e] at g
        have f' := activate_frame s2 key (.leaseSet { q1 with queried := ins q1.queried f, selected := some f })
        refine ⟨?_, .inr ?_⟩
        · exact f'.2.2.trans g.now
        · refine Eq.trans (congrArg₂ (fun (a : List (Bytes × Nat)) (b : Nat) => a ++ [(key, b + queryTimeout)]) f'.2.1 f'.2.2) ?_
          rw [g.now, g.timers]
      · next s2 e e' =>
        rw [e'] at g
        exact ⟨g.now, .inl g.timers⟩
  | routerInfo q =>
    dsimp only
    have hc := quiet_charge s q
    rw [← hc.now, ← hc.timers]
    generalize s.charge q = s1 at *
    generalize Query.next _ _ _ _ _ = r
    obtain ⟨q1, r⟩ := r
    cases r with
    | err e => exact ⟨rfl, .inl rfl⟩
    | ok f =>
      dsimp only
      have g := quiet_lookup s1 env f key .router
      split
      · next s2 _ e =>
        rw [e] at g
        have f' := activate_frame s2 key (.routerInfo { q1 with queried := ins q1.queried f, selected := some f })
        refine ⟨?_, .inr ?_⟩
        · exact f'.2.2.trans g.now
        · refine Eq.trans (congrArg₂ (fun (a : List (Bytes × Nat)) (b : Nat) => a ++ [(key, b + queryTimeout)]) f'.2.1 f'.2.2) ?_
          rw [g.now, g.timers]
      · next s2 e e' =>
        rw [e'] at g
        have f' := activate_frame s2 key (.routerInfo q1)
        refine ⟨?_, .inr ?_⟩
        · exact f'.2.2.trans g.now
        · refine Eq.trans (congrArg₂ (fun (a : List (Bytes × Nat)) (b : Nat) => a ++ [(key, b + queryTimeout)]) f'.2.1 f'.2.2) ?_
          rw [g.now, g.timers]

/-- How many timers are due. -/
def State.dueCount (s : State) : Nat := s.timers.countP fun t => decide (t.2 ≤ s.now)

theorem countP_eraseIdx {α : Type} (p : α → Bool) (l : List α) (i : Nat) (x : α) (h : l[i]? = some x) (hp : p x = true) :
    (l.eraseIdx i).countP p + 1 = l.countP p := by
  induction l generalizing i with
  | nil => simp at h
  | cons a l ih =>
    cases i with
    | zero =>
      simp only [List.getElem?_cons_zero, Option.some.injEq] at h
      subst h
      simp [hp]
    | succ i =>
      simp only [List.getElem?_cons_succ] at h
      have := ih i h
      rw [List.eraseIdx_cons_succ, List.countP_cons, List.countP_cons]
      omega

theorem fire_now (s : State) (env : Env) (i : Nat) : (s.fire env i).now = s.now := by
  unfold State.fire
  split
  · rfl
  split
  · rfl
  split
  · rfl
  · next key _ _ _ _ k _ => exact (handleTimeout_timers (State.take { s with timers := s.timers.eraseIdx i } key) env key k).1

theorem fire_due (s : State) (env : Env) (i : Nat) (t : Bytes × Nat) (hi : s.timers[i]? = some t) (ht : t.2 ≤ s.now) :
    (s.fire env i).dueCount + 1 = s.dueCount := by
  have hc := countP_eraseIdx (fun t => decide (t.2 ≤ s.now)) s.timers i t hi (by simpa using ht)
  unfold State.fire
  rw [hi]
  dsimp only
  rw [if_neg (by omega)]
  split
  · exact hc
  · next k _ =>
    have f := handleTimeout_timers (State.take { s with timers := s.timers.eraseIdx i } t.1) env t.1 k
    generalize (State.take { s with timers := s.timers.eraseIdx i } t.1).handleTimeout env t.1 k = s2 at *
    have en : s2.now = s.now := f.1
    unfold State.dueCount
    rw [en]
    rcases f.2 with e | e
    · rw [e]; exact hc
    · rw [e]
      show (s.timers.eraseIdx i ++ [(t.1, s.now + queryTimeout)]).countP _ + 1 = _
      rw [List.countP_append, List.countP_cons_of_neg (by unfold queryTimeout; simp)]
      exact hc

theorem fireAll_due (env : Env) (fuel : Nat) (s : State) (h : s.dueCount ≤ fuel) :
    (State.fireAll env fuel s).dueCount = 0 ∧ (State.fireAll env fuel s).now = s.now := by
  induction fuel generalizing s with
  | zero => exact ⟨Nat.le_zero.mp h, rfl⟩
  | succ fuel ih =>
    unfold State.fireAll
    cases hf : s.timers.findIdx? fun t => decide (t.2 ≤ s.now) with
    | none =>
      refine ⟨?_, rfl⟩
      rw [List.findIdx?_eq_none_iff] at hf
      unfold State.dueCount
      rw [List.countP_eq_zero]
      intro t ht
      simpa using hf t ht
    | some i =>
      dsimp only
      rw [List.findIdx?_eq_some_iff_getElem] at hf
      obtain ⟨hlt, hp, _⟩ := hf
      have d := fire_due s env i s.timers[i] (List.getElem?_eq_getElem hlt) (by simpa using hp)
      have := ih (s.fire env i) (by omega)
      exact ⟨this.1, this.2.trans (fire_now s env i)⟩

theorem Timed.fireAll (env : Env) (fuel : Nat) {s : State} (h : Timed P s) : Timed P (State.fireAll env fuel s) := by
  induction fuel generalizing s with
  | zero => exact h
  | succ fuel ih =>
    unfold State.fireAll
    split
    · exact h
    · exact ih (h.fire env _)

theorem Timed.explore {s : State} (h : Timed P s) (env : Env) (key : Bytes) : Timed P (s.explore env key) := by
  unfold State.explore
  split
  · exact h
  · next f _ =>
    have g := quiet_lookup s env f key .exploration
    split
    · next s1 _ e =>
      rw [e] at g
      exact ((h.quiet g).activate key .exploration (by intro q hq; cases hq)).arm key
    · next s1 _ e =>
      rw [e] at g
      exact h.quiet g

theorem explore_now (s : State) (env : Env) (key : Bytes) : (s.explore env key).now = s.now := by
  unfold State.explore
  split
  · rfl
  · next f _ =>
    have g := quiet_lookup s env f key .exploration
    split
    · next s1 _ e => rw [e] at g; exact (activate_frame s1 key .exploration).2.2.trans g.now
    · next s1 _ e => rw [e] at g; exact g.now

theorem explore_queries (s : State) (env : Env) (key : Bytes) (k : Bytes) (q : Query) (x : Kind) (h : (s.explore env key).active.get k = some x)
    (hq : x.query = some q) : s.active.get k = some x := by
  unfold State.explore at h
  split at h
  · exact h
  · next f _ =>
    have g := quiet_lookup s env f key .exploration
    split at h
    · next s1 _ e =>
      rw [e] at g
      have h : (s1.activate key .exploration).active.get k = some x := h
      rw [(activate_frame s1 key .exploration).1, AMap.get_put] at h
      split at h
      · cases h; cases hq
      · rw [g.active] at h; exact h
    · next s1 _ e => rw [e] at g; rw [g.active] at h; exact h

theorem upkeep_frame (s : State) : s.upkeep.active = s.active ∧ s.upkeep.timers = s.timers ∧ s.upkeep.now = s.now := by
  unfold State.upkeep
  split <;> exact ⟨rfl, rfl, rfl⟩

theorem Timed.upkeep {s : State} (h : Timed P s) : Timed P s.upkeep := by
  have f := upkeep_frame s
  intro key k q hk hq
  rw [f.1] at hk
  rw [f.2.1, f.2.2]
  exact h key k q hk hq

theorem Timed.exploration {s : State} (h : Timed P s) (env : Env) (key : Bytes) : Timed P (s.exploration env key) := by
  unfold State.exploration
  split
  · exact h
  · split
    · exact h.explore env key
    · exact h

theorem Timed.step {s : State} (h : Timed P s) (env : Env) (op : Op) (hn : ∀ key b tx, op.wants = some (key, b, tx) → P key b s.now [tx])
    (ha : ∀ key b tx, op.wants = some (key, b, tx) → ∀ st l, st ≤ s.now → P key b st l → P key b st (l ++ [tx])) : Timed P (s.step env op) := by
  cases op with
  | advance d =>
    intro key k q hk hq
    obtain ⟨a, b, c⟩ := h key k q hk hq
    exact ⟨a, Nat.le_trans b (Nat.le_add_right _ _), c⟩
  | connected r => exact h.quiet (quiet_established s env r)
  | closed r => exact h
  | failed r => exact h
  | store sender key p reply => exact h.storeMsg env sender key p reply
  | search sender m => exact h.searchMsg env sender m
  | lookup key kind reply ignore => exact h.quiet (quiet_lookupMsg s env key kind reply ignore)
  | outBuilt t => unfold State.step; dsimp only; split <;> exact h
  | outExpired t => exact h
  | inBuilt l => unfold State.step; dsimp only; split <;> exact h
  | inExpired t => exact h
  | queryLs key t => exact h.queryLs env key t (hn key _ t rfl) (ha key _ t rfl)
  | queryRi key t => exact h.queryRi env key t (hn key _ t rfl) (ha key _ t rfl)
  | closest key t => unfold State.step State.closestFloodfills; dsimp only; split <;> exact h
  | publish r raw => exact h.quiet (quiet_send _ _ _ _ _)
  | waitReady t => unfold State.step; dsimp only; split <;> exact h
  | fire i => exact h.fire env i
  | tick key => exact ((Timed.fireAll env _ h).upkeep).exploration env key

/-- After the timers were looked at, no query is 21.6 s old. -/
theorem Timed.tick_young {s : State} (h : Timed P s) (env : Env) (key : Bytes) (k : Bytes) (x : Kind) (q : Query)
    (hx : (s.tick env key).active.get k = some x) (hq : x.query = some q) :
    P k x.isLs q.started q.subs ∧ (s.tick env key).now < q.started + 21600 := by
  unfold State.tick at *
  have d := fireAll_due env s.timers.length s List.countP_le_length
  have h1 := Timed.fireAll env s.timers.length h
  generalize State.fireAll env s.timers.length s = s1 at *
  have f := upkeep_frame s1
  have h2 := h1.upkeep
  have d2 : s1.upkeep.dueCount = 0 := by
    unfold State.dueCount at *
    rw [f.2.1, f.2.2]; exact d.1
  generalize s1.upkeep = s2 at *
  have e : (s2.exploration env key).now = s2.now ∧ s2.active.get k = some x := by
    unfold State.exploration at hx ⊢
    split
    · next ht => rw [ht] at hx; exact ⟨rfl, hx⟩
    · next t ht =>
      rw [ht] at hx
      dsimp only at hx
      split
      · next hle => rw [if_pos hle] at hx; exact ⟨explore_now s2 env key, explore_queries s2 env key k q x hx hq⟩
      · next hle => rw [if_neg hle] at hx; exact ⟨rfl, hx⟩
  obtain ⟨a, b, due, hd, hl⟩ := h2 k x q e.2 hq
  refine ⟨a, ?_⟩
  rw [e.1]
  unfold State.dueCount at d2
  rw [List.countP_eq_zero] at d2
  have := d2 _ hd
  simp only [decide_eq_true_eq] at this
  omega

theorem Timed.init (localId : Bytes) (netId : Nat) (ff : Bool) (fd rd : Table) (now : Nat) (env : Env) :
    Timed P (State.init localId netId ff fd rd now env) := by
  intro key k q hk; cases hk

theorem Timed.run {s : State} (h : Timed P s) (evs : List (Env × Op)) (hn : ∀ e ∈ evs, ∀ key b tx, e.2.wants = some (key, b, tx) → ∀ st, P key b st [tx])
    (ha : ∀ e ∈ evs, ∀ key b tx, e.2.wants = some (key, b, tx) → ∀ st l, P key b st l → P key b st (l ++ [tx])) : Timed P (s.run evs) := by
  induction evs generalizing s with
  | nil => exact h
  | cons e evs ih =>
    refine ih (h.step e.1 e.2 (fun key b tx he => hn e (by simp) key b tx he _) (fun key b tx he st l _ => ha e (by simp) key b tx he st l)) ?_ ?_
    · exact fun e' he' => hn e' (by simp [he'])
    · exact fun e' he' => ha e' (by simp [he'])

theorem run_append (s : State) (a b : List (Env × Op)) : s.run (a ++ b) = (s.run a).run b := List.foldl_append

theorem asked_append (a b : List (Env × Op)) (tx : Nat) : asked (a ++ b) tx = asked a tx + asked b tx := by
  unfold asked; rw [List.filterMap_append, List.count_append]

theorem asked_zero {evs : List (Env × Op)} {tx : Nat} (h : asked evs tx = 0) : ∀ e ∈ evs, e.2.asks ≠ some tx := by
  intro e he hc
  have : tx ∈ evs.filterMap fun e => e.2.asks := List.mem_filterMap.mpr ⟨e, he, hc⟩
  exact absurd this (List.count_eq_zero.mp h)

theorem wants_asks {op : Op} {key : Bytes} {b : Bool} {tx : Nat} (h : op.wants = some (key, b, tx)) : op.asks = some tx := by
  cases op <;> cases h <;> rfl

theorem waits_pos {m : AMap Bytes Kind} (hm : AMap.Ok m) {tx : Nat} (h : 0 < waits m tx) :
    ∃ key k q, m.get key = some k ∧ k.query = some q ∧ tx ∈ q.subs := by
  have := List.count_pos_iff.mp h
  obtain ⟨x, hx, hs⟩ := List.mem_flatMap.mp this
  have hg := AMap.mem_get hm (k := x.1) (v := x.2) hx
  cases hk : x.2 with
  | leaseSet q => exact ⟨x.1, _, q, hg, by rw [hk]; rfl, by rw [hk] at hs; exact hs⟩
  | routerInfo q => exact ⟨x.1, _, q, hg, by rw [hk]; rfl, by rw [hk] at hs; exact hs⟩
  | exploration => rw [hk] at hs; cases hs
  | router => rw [hk] at hs; cases hs

/-- C135, time: once a poll ends 21.6 s or more after a request was made, the request has been settled, exactly once. The request may be of any kind, for any
key, made at any point of any history, and anything may happen before and after it. -/
theorem C135_in_time (localId : Bytes) (netId : Nat) (ff : Bool) (fd rd : Table) (now : Nat) (env : Env)
    (before after : List (Env × Op)) (e e' : Env) (op : Op) (tx : Nat) (rand : Bytes)
    (hask : op.asks = some tx) (hb : asked before tx = 0) (ha : asked after tx = 0) :
    let s := (State.init localId netId ff fd rd now env).run before
    let s' := s.run ((e, op) :: after ++ [(e', .tick rand)])
    s.now + 21600 ≤ s'.now → s'.settled tx = 1 ∧ waits s'.active tx = 0 := by
  intro s s' ht
  let P : Bytes → Bool → Nat → List Nat → Prop := fun _ _ st l => tx ∈ l → st ≤ s.now
  have h0 : Timed P s := by
    refine (Timed.init localId netId ff fd rd now env).run before ?_ ?_
    · intro x hx key b t ht' st hm
      simp only [List.mem_singleton] at hm
      subst hm
      exact absurd (wants_asks ht') (asked_zero hb x hx)
    · intro x hx key b t ht' st l hp hm
      rcases List.mem_append.mp hm with h | h
      · exact hp h
      · simp only [List.mem_singleton] at h
        subst h
        exact absurd (wants_asks ht') (asked_zero hb x hx)
  have h1 : Timed P (s.step e op) := by
    refine h0.step e op ?_ ?_
    · intro _ _ t _ _; exact Nat.le_refl _
    · intro _ _ t _ st l hle _ _; exact hle
  have h2 : Timed P ((s.step e op).run after) := by
    refine h1.run after ?_ ?_
    · intro x hx key b t ht' st hm
      simp only [List.mem_singleton] at hm
      subst hm
      exact absurd (wants_asks ht') (asked_zero ha x hx)
    · intro x hx key b t ht' st l hp hm
      rcases List.mem_append.mp hm with h | h
      · exact hp h
      · simp only [List.mem_singleton] at h
        subst h
        exact absurd (wants_asks ht') (asked_zero ha x hx)
  have es : s' = ((s.step e op).run after).tick e' rand := by
    show s.run ((e, op) :: after ++ [(e', .tick rand)]) = _
    rw [run_append]; rfl
  have hw : waits s'.active tx = 0 := by
    cases Nat.eq_zero_or_pos (waits s'.active tx) with
    | inl h => exact h
    | inr h =>
      exfalso
      have hok : AMap.Ok s'.active := by
        show AMap.Ok (s.run ((e, op) :: after ++ [(e', .tick rand)])).active
        rw [← run_append]
        exact (bal_run (s := State.init localId netId ff fd rd now env) AMap.ok_nil _ tx).2
      obtain ⟨key, k, q, hk, hq, hm⟩ := waits_pos hok h
      rw [es] at hk
      have y := h2.tick_young e' rand key k q hk hq
      rw [← es] at y
      have := y.1 hm
      have := y.2
      omega
  refine ⟨?_, hw⟩
  have o := C135_once localId netId ff fd rd now env (before ++ ((e, op) :: after ++ [(e', .tick rand)])) tx
  have h1 : asked ((e, op) :: after ++ [(e', .tick rand)]) tx = 1 := by
    show asked ([(e, op)] ++ (after ++ [(e', .tick rand)])) tx = 1
    rw [asked_append, asked_append, ha]
    have e1 : asked [(e, op)] tx = 1 := by
      have : List.filterMap (fun e : Env × Op => e.2.asks) [(e, op)] = [tx] := by
        rw [List.filterMap_cons_some (f := fun e : Env × Op => e.2.asks) (a := (e, op)) (b := tx) hask]; rfl
      show List.count tx (List.filterMap (fun e : Env × Op => e.2.asks) [(e, op)]) = 1
      rw [this]; simp
    rw [e1]
    rfl
  rw [asked_append, hb, h1, run_append] at o
  show s'.settled tx = 1
  have o : s'.settled tx + waits s'.active tx = 0 + 1 := o
  omega

/-! ## A concrete history -/

/-- Router ids and keys of 32 bytes for examples. -/
def tid (n : UInt8) : Bytes := List.replicate 31 0 ++ [n]

/-- Everything outside works; all but the routers named are known. -/
def toyEnv (unknown : List Bytes) : Env :=
  { known := fun r => decide (r ∉ unknown), isFloodfill := fun _ => true, discover := true, rkey := fun k => k, poolOk := fun _ => true,
    connectOk := fun _ => true, numRouters := 10, random := 7 }

/-- A task that knows floodfills 1, 2 and 3 and has a tunnel each way. -/
def toyInit : State :=
  (State.init (tid 0) 2 false (((Table.new (tid 0)).addRouter (tid 1)).addRouter (tid 2) |>.addRouter (tid 3)) (Table.new (tid 0)) 0 (toyEnv [])).run
    [(toyEnv [], .outBuilt 7), (toyEnv [], .inBuilt ⟨tid 9, 8⟩)]

/-- A lease set query nobody answers. -/
def toyUnanswered : List (Env × Op) :=
  [(toyEnv [], .queryLs (tid 5) 1), (toyEnv [], .advance 1600), (toyEnv [], .tick (tid 77)), (toyEnv [], .advance 1600), (toyEnv [], .tick (tid 77)),
   (toyEnv [], .advance 1600), (toyEnv [], .tick (tid 77))]

/-- Three floodfills are asked one after the other, then the caller is told. -/
example : (toyInit.run toyUnanswered).log.filter (fun o => match o with | .charge _ => false | _ => true) =
    [.lookup (tid 1) (tid 5) .leaseSet 7 ⟨tid 9, 8⟩, .lookup (tid 3) (tid 5) .leaseSet 7 ⟨tid 9, 8⟩, .lookup (tid 2) (tid 5) .leaseSet 7 ⟨tid 9, 8⟩,
     .leaseSet 1 (.err .noFloodfills)] := by decide +kernel

/-- The hypotheses of `C135_in_time` are met: a query that waits 21.6 s before the task is polled again. -/
example := C135_in_time (tid 0) 2 false (((Table.new (tid 0)).addRouter (tid 1)).addRouter (tid 2) |>.addRouter (tid 3)) (Table.new (tid 0)) 0 (toyEnv [])
  [(toyEnv [], .outBuilt 7), (toyEnv [], .inBuilt ⟨tid 9, 8⟩)] [(toyEnv [], .advance 21600)] (toyEnv []) (toyEnv []) (.queryLs (tid 5) 1) 1 (tid 77)
  rfl rfl rfl (by decide +kernel)

end Emissary.NetdbRun
