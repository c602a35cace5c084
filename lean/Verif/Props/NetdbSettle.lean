import Verif.Lemmas.NetdbRun
import Verif.Props.Pool
/-!
# C135: every question put to the network database is settled exactly once, within 21.6 seconds
-/
namespace Emissary.NetdbRun
open Emissary Emissary.Netdb

/-- How often a request has been settled. -/
def State.settled (s : State) (tx : Nat) : Nat := (s.log.filterMap Out.settles).count tx

/-- How often a request waits for an active query. -/
def waits (m : AMap Bytes Kind) (tx : Nat) : Nat := (m.flatMap fun x => x.2.subs).count tx

/-- How often a history brings a request. -/
def asked (evs : List (Env × Op)) (tx : Nat) : Nat := (evs.filterMap fun e => e.2.asks).count tx

theorem waits_nil (tx : Nat) : waits [] tx = 0 := rfl

theorem waits_cons (x : Bytes × Kind) (m : AMap Bytes Kind) (tx : Nat) : waits (x :: m) tx = x.2.subs.count tx + waits m tx := by
  unfold waits; rw [List.flatMap_cons, List.count_append]

theorem del_absent {m : AMap Bytes Kind} {key : Bytes} (h : m.get key = none) : m.del key = m := by
  induction m with
  | nil => rfl
  | cons x m ih =>
    rw [AMap.get_cons] at h
    by_cases e : x.1 = key
    · rw [if_pos e] at h; cases h
    · rw [if_neg e] at h
      unfold AMap.del at *
      rw [List.filter_cons, if_pos (by simp [e]), ih h]

theorem waits_del {m : AMap Bytes Kind} (hm : AMap.Ok m) (key : Bytes) (tx : Nat) :
    waits m tx = waits (m.del key) tx + (match m.get key with | some k => k.subs.count tx | none => 0) := by
  induction m with
  | nil => rfl
  | cons x m ih =>
    have hm' := List.nodup_cons.mp hm
    by_cases e : x.1 = key
    · have habs : AMap.get m key = none := by
        cases h : AMap.get m key with
        | none => rfl
        | some v => exact absurd (List.mem_map_of_mem (f := (·.1)) (AMap.get_mem h)) (e ▸ hm'.1)
      have hd : AMap.del (x :: m) key = m := by
        have := del_absent habs
        unfold AMap.del at *
        rw [List.filter_cons, if_neg (by simp [e]), this]
      rw [hd, AMap.get_cons, if_pos e, waits_cons]
      exact Nat.add_comm _ _
    · have hd : AMap.del (x :: m) key = x :: AMap.del m key := by
        unfold AMap.del
        rw [List.filter_cons, if_pos (by simp [e])]
      rw [hd, AMap.get_cons, if_neg e, waits_cons, waits_cons, ih hm'.2]
      omega

theorem waits_put {m : AMap Bytes Kind} (key : Bytes) (k : Kind) (tx : Nat) :
    waits (m.put key k) tx = waits (m.del key) tx + k.subs.count tx := by
  rw [AMap.put, waits_cons]; exact Nat.add_comm _ _

/-- Settled and waiting requests together. -/
def State.bal (s : State) (tx : Nat) : Nat := s.settled tx + waits s.active tx

theorem settled_append (s : State) (l : List Out) (tx : Nat) (log : List Out) (h : log = s.log ++ l) :
    (log.filterMap Out.settles).count tx = s.settled tx + (l.filterMap Out.settles).count tx := by
  rw [h, List.filterMap_append, List.count_append]; rfl

theorem quiet_settled {s s' : State} (h : Quiet s s') (tx : Nat) : s'.settled tx = s.settled tx := by
  obtain ⟨l, e, hl⟩ := h.log
  have : l.filterMap Out.settles = [] := by
    rw [List.filterMap_eq_nil_iff]; exact fun o ho => (hl o ho).1
  rw [State.settled, settled_append s l tx _ e, this]; rfl

theorem quiet_bal {s s' : State} (h : Quiet s s') (tx : Nat) : s'.bal tx = s.bal tx := by
  rw [State.bal, State.bal, quiet_settled h, h.active]

theorem filterMap_settles {l : List Nat} {f : Nat → Out} (h : ∀ tx, (f tx).settles = some tx) : (l.map f).filterMap Out.settles = l := by
  rw [List.filterMap_map]
  have : Out.settles ∘ f = some := funext h
  rw [this, List.filterMap_some]

theorem settled_subs (s : State) (l : List Nat) (f : Nat → Out) (h : ∀ tx, (f tx).settles = some tx) (tx : Nat) :
    State.settled { s with log := s.log ++ l.map f } tx = s.settled tx + l.count tx := by
  rw [State.settled, settled_append s _ tx _ rfl, filterMap_settles h]

theorem settled_completeLs (s : State) (q : Query) (r : Res LSet) (tx : Nat) : (s.completeLs q r).settled tx = s.settled tx + q.subs.count tx :=
  settled_subs s _ _ (fun _ => rfl) tx
theorem settled_completeRi (s : State) (q : Query) (r : Res Unit) (tx : Nat) : (s.completeRi q r).settled tx = s.settled tx + q.subs.count tx :=
  settled_subs s _ _ (fun _ => rfl) tx
theorem settled_drop (s : State) (k : Kind) (tx : Nat) : (s.drop k).settled tx = s.settled tx + k.subs.count tx :=
  settled_subs s _ _ (fun _ => rfl) tx

theorem settled_out {s : State} {o : Out} {tx : Nat} (h : o.settles = some tx) (x : Nat) : (s.out o).settled x = s.settled x + [tx].count x := by
  show (List.filterMap Out.settles (s.log ++ [o])).count x = _
  rw [settled_append s [o] x _ rfl, List.filterMap_cons, h]; rfl

theorem bal_activate {s : State} (hm : AMap.Ok s.active) (key : Bytes) (k : Kind) (tx : Nat) :
    (s.activate key k).bal tx = s.bal tx + k.subs.count tx := by
  have hw := waits_del hm key tx
  unfold State.activate State.bal
  dsimp only
  cases h : s.active.get key with
  | none =>
    rw [h] at hw
    show s.settled tx + waits (s.active.put key k) tx = _
    rw [waits_put]
    dsimp only at hw
    omega
  | some old =>
    rw [h] at hw
    show (s.drop old).settled tx + waits (s.active.put key k) tx = _
    rw [waits_put, settled_drop]
    dsimp only at hw
    omega

theorem activate_ok {s : State} (hm : AMap.Ok s.active) (key : Bytes) (k : Kind) : AMap.Ok (s.activate key k).active := by
  unfold State.activate
  dsimp only
  split <;> exact AMap.ok_put hm key k

theorem bal_fetch {s : State} (hm : AMap.Ok s.active) (env : Env) (replier r : Bytes) (tx : Nat) :
    (s.fetch env replier r).bal tx = s.bal tx ∧ AMap.Ok (s.fetch env replier r).active := by
  have h := quiet_lookup s env replier r .router
  unfold State.fetch
  split
  · next s1 _ e =>
    rw [e] at h
    have hm1 : AMap.Ok s1.active := by rw [h.active]; exact hm
    refine ⟨?_, activate_ok hm1 r .router⟩
    show ((s1.activate r .router).arm r).bal tx = _
    have := bal_activate hm1 r .router tx
    rw [quiet_bal h] at this
    exact this
  · next s1 _ e =>
    rw [e] at h
    exact ⟨quiet_bal h tx, by rw [h.active]; exact hm⟩

theorem bal_fetches {s : State} (hm : AMap.Ok s.active) (env : Env) (replier : Bytes) (rs : List Bytes) (tx : Nat) :
    (rs.foldl (fun s r => s.fetch env replier r) s).bal tx = s.bal tx ∧ AMap.Ok (rs.foldl (fun s r => s.fetch env replier r) s).active := by
  induction rs generalizing s with
  | nil => exact ⟨rfl, hm⟩
  | cons r rs ih =>
    have h := bal_fetch hm env replier r tx
    have := ih h.2
    exact ⟨this.1.trans h.1, this.2⟩

theorem bal_take {s : State} (hm : AMap.Ok s.active) (key : Bytes) (tx : Nat) :
    s.bal tx = (s.take key).bal tx + (match s.active.get key with | some k => k.subs.count tx | none => 0) := by
  have := waits_del hm key tx
  show s.settled tx + waits s.active tx = s.settled tx + waits (s.active.del key) tx + _
  omega

theorem take_ok {s : State} (hm : AMap.Ok s.active) (key : Bytes) : AMap.Ok (s.take key).active := AMap.ok_del hm key

theorem bal_storeAt {s : State} (hm : AMap.Ok s.active) (env : Env) (sender : Option Bytes) (key : Bytes) (p : Payload) (reply : StoreReply)
    (k : Option Kind) (tx : Nat) :
    (s.storeAt env sender key p reply k).bal tx = s.bal tx + (match k with | some k => k.subs.count tx | none => 0) ∧
    AMap.Ok (s.storeAt env sender key p reply k).active := by
  have fin : ∀ {b : State}, Quiet s b → b.bal tx = s.bal tx ∧ AMap.Ok b.active := fun h =>
    ⟨quiet_bal h tx, by rw [h.active]; exact hm⟩
  have drop : ∀ k : Kind, (s.drop k).bal tx = s.bal tx + k.subs.count tx := by
    intro k
    show (s.drop _).settled tx + waits s.active tx = _
    rw [settled_drop, State.bal]; omega
  unfold State.storeAt
  cases k with
  | none =>
    cases p with
    | routerInfo r => exact fin (quiet_routerInfoStore s env key reply r)
    | leaseSet l =>
      dsimp only
      split
      · exact fin (quiet_leaseSetStore s env key reply l)
      · exact ⟨rfl, hm⟩
  | some k =>
    cases p with
    | leaseSet l =>
      cases k with
      | leaseSet q =>
        refine ⟨?_, hm⟩
        show (s.completeLs q (.ok l)).settled tx + waits s.active tx = s.settled tx + waits s.active tx + q.subs.count tx
        rw [settled_completeLs]; omega
      | routerInfo q => exact ⟨drop _, hm⟩
      | exploration => exact ⟨drop _, hm⟩
      | router => exact ⟨drop _, hm⟩
    | routerInfo r =>
      cases k with
      | leaseSet q => exact ⟨drop _, hm⟩
      | exploration => exact ⟨drop _, hm⟩
      | router => exact fin (quiet_fetched s sender r)
      | routerInfo q =>
        dsimp only
        have d := (quiet_credit s sender).trans (Quiet.out _ (.discover r) rfl (by simp))
        generalize (s.credit sender).out (.discover r) = s2 at *
        refine ⟨?_, by show AMap.Ok s2.active; rw [d.active]; exact hm⟩
        rw [State.bal, settled_completeRi]
        show s2.settled tx + _ + waits s2.active tx = s.settled tx + waits s.active tx + q.subs.count tx
        rw [quiet_settled d, d.active]
        omega

theorem bal_storeMsg {s : State} (hm : AMap.Ok s.active) (env : Env) (sender : Option Bytes) (key : Bytes) (p : Payload) (reply : StoreReply) (tx : Nat) :
    (s.storeMsg env sender key p reply).bal tx = s.bal tx ∧ AMap.Ok (s.storeMsg env sender key p reply).active := by
  have h := bal_storeAt (take_ok hm key) env sender key p reply (s.active.get key) tx
  exact ⟨h.1.trans (bal_take hm key tx).symm, h.2⟩

theorem bal_searchAt {s : State} (hm : AMap.Ok s.active) (env : Env) (key : Bytes) (routers : List Bytes) (replier : Bytes) (k : Option Kind) (tx : Nat) :
    (s.searchAt env key routers replier k).bal tx = s.bal tx + (match k with | some k => k.subs.count tx | none => 0) ∧
    AMap.Ok (s.searchAt env key routers replier k).active := by
  unfold State.searchAt State.fetches
  cases k with
  | none => exact ⟨rfl, hm⟩
  | some k =>
    cases k with
    | exploration => exact bal_fetches hm env replier _ tx
    | router => exact ⟨rfl, hm⟩
    | leaseSet q =>
      have := bal_fetches hm env replier (q.searchReply env.known routers).2 tx
      refine ⟨?_, activate_ok this.2 _ _⟩
      dsimp only
      rw [bal_activate this.2, this.1]
      rfl
    | routerInfo q =>
      have := bal_fetches hm env replier (q.searchReply env.known routers).2 tx
      refine ⟨?_, activate_ok this.2 _ _⟩
      dsimp only
      rw [bal_activate this.2, this.1]
      rfl

theorem bal_searchMsg {s : State} (hm : AMap.Ok s.active) (env : Env) (sender : Option Bytes) (m : Option (Bytes × List Bytes × Bytes)) (tx : Nat) :
    (s.searchMsg env sender m).bal tx = s.bal tx ∧ AMap.Ok (s.searchMsg env sender m).active := by
  have c := quiet_discredit s sender
  have hm0 : AMap.Ok (s.discredit sender).active := by rw [c.active]; exact hm
  unfold State.searchMsg
  rw [← quiet_bal c]
  cases m with
  | none => exact ⟨rfl, hm0⟩
  | some m =>
    obtain ⟨key, routers, replier⟩ := m
    have h := bal_searchAt (take_ok hm0 key) env key routers replier (s.active.get key) tx
    have b := bal_take hm0 key tx
    rw [c.active] at b
    exact ⟨h.1.trans b.symm, h.2⟩

theorem count_snoc (l : List Nat) (a x : Nat) : (l ++ [a]).count x = l.count x + [a].count x := List.count_append ..

theorem bal_queryLs {s : State} (hm : AMap.Ok s.active) (env : Env) (key : Bytes) (tx x : Nat) :
    (s.queryLs env key tx).bal x = s.bal x + [tx].count x ∧ AMap.Ok (s.queryLs env key tx).active := by
  unfold State.queryLs
  have hw := waits_del hm key x
  have cancel : ∀ o : Out, o.settles = some tx → (s.out o).bal x = s.bal x + [tx].count x := by
    intro o ho
    rw [State.bal, settled_out ho]
    show s.settled x + _ + waits s.active x = s.settled x + waits s.active x + _
    omega
  cases hk : s.active.get key with
  | some k =>
    rw [hk] at hw
    dsimp only at hw
    cases k with
    | leaseSet q =>
      refine ⟨?_, AMap.ok_put hm _ _⟩
      show s.settled x + waits (s.active.put key (.leaseSet { q with subs := q.subs ++ [tx] })) x = s.settled x + waits s.active x + _
      rw [waits_put]
      simp only [Kind.subs] at hw ⊢
      rw [count_snoc]; omega
    | routerInfo q => exact ⟨cancel _ rfl, hm⟩
    | exploration => exact ⟨cancel _ rfl, hm⟩
    | router => exact ⟨cancel _ rfl, hm⟩
  | none =>
    dsimp only
    split
    · exact ⟨cancel _ rfl, hm⟩
    · next f _ =>
      have h := quiet_lookup s env f key .leaseSet
      split
      · next s1 _ e =>
        rw [e] at h
        have hm1 : AMap.Ok s1.active := by rw [h.active]; exact hm
        refine ⟨?_, activate_ok hm1 _ _⟩
        have := bal_activate hm1 key (.leaseSet (.new tx f s1.now)) x
        rw [quiet_bal h] at this
        exact this
      · next s1 er e =>
        rw [e] at h
        refine ⟨?_, by show AMap.Ok s1.active; rw [h.active]; exact hm⟩
        rw [State.bal, settled_out (tx := tx) rfl, quiet_settled h]
        show s.settled x + _ + waits s1.active x = s.settled x + waits s.active x + _
        rw [h.active]; omega

theorem bal_queryRi {s : State} (hm : AMap.Ok s.active) (env : Env) (key : Bytes) (tx x : Nat) :
    (s.queryRi env key tx).bal x = s.bal x + [tx].count x ∧ AMap.Ok (s.queryRi env key tx).active := by
  unfold State.queryRi
  have hw := waits_del hm key x
  have cancel : ∀ o : Out, o.settles = some tx → (s.out o).bal x = s.bal x + [tx].count x := by
    intro o ho
    rw [State.bal, settled_out ho]
    show s.settled x + _ + waits s.active x = s.settled x + waits s.active x + _
    omega
  cases hk : s.active.get key with
  | some k =>
    rw [hk] at hw
    dsimp only at hw
    cases k with
    | routerInfo q =>
      refine ⟨?_, AMap.ok_put hm _ _⟩
      show s.settled x + waits (s.active.put key (.routerInfo { q with subs := q.subs ++ [tx] })) x = s.settled x + waits s.active x + _
      rw [waits_put]
      simp only [Kind.subs] at hw ⊢
      rw [count_snoc]; omega
    | leaseSet q => exact ⟨cancel _ rfl, hm⟩
    | exploration => exact ⟨cancel _ rfl, hm⟩
    | router => exact ⟨cancel _ rfl, hm⟩
  | none =>
    dsimp only
    split
    · exact ⟨cancel _ rfl, hm⟩
    · next f _ =>
      have h := quiet_lookup s env f key .router
      split
      · next s1 _ e =>
        rw [e] at h
        have hm1 : AMap.Ok s1.active := by rw [h.active]; exact hm
        refine ⟨?_, activate_ok hm1 _ _⟩
        have := bal_activate hm1 key (.routerInfo (.new tx f s1.now)) x
        rw [quiet_bal h] at this
        exact this
      · next s1 er e =>
        rw [e] at h
        refine ⟨?_, by show AMap.Ok s1.active; rw [h.active]; exact hm⟩
        rw [State.bal, settled_out (tx := tx) rfl, quiet_settled h]
        show s.settled x + _ + waits s1.active x = s.settled x + waits s.active x + _
        rw [h.active]; omega

theorem bal_handleTimeout {s : State} (hm : AMap.Ok s.active) (env : Env) (key : Bytes) (k : Kind) (tx : Nat) :
    (s.handleTimeout env key k).bal tx = s.bal tx + k.subs.count tx ∧ AMap.Ok (s.handleTimeout env key k).active := by
  unfold State.handleTimeout
  cases k with
  | exploration => exact ⟨rfl, hm⟩
  | router => exact ⟨rfl, hm⟩
  | leaseSet q =>
    dsimp only
    have hc := quiet_charge s q
    generalize s.charge q = s1 at *
    have hm1 : AMap.Ok s1.active := by rw [hc.active]; exact hm
    rw [← quiet_bal hc]
    generalize hq : ({ q with selected := none } : Query) = q0
    have hs0 : q0.subs = q.subs := by rw [← hq]
    have hp := pickNext_keeps env s1.ffDht key s1.now (pickFuel env s1.ffDht key q0) q0
    generalize pickNext env s1.ffDht key s1.now (pickFuel env s1.ffDht key q0) q0 = r at *
    obtain ⟨q1, r⟩ := r
    dsimp only at hp
    have hsub : q1.subs = q.subs := hp.1.trans hs0
    have complete : ∀ (s2 : State) (e : QErr), Quiet s1 s2 → (s2.completeLs q1 (.err e)).bal tx = s1.bal tx + (Kind.leaseSet q).subs.count tx ∧
        AMap.Ok (s2.completeLs q1 (.err e)).active := by
      intro s2 e h2
      refine ⟨?_, by show AMap.Ok s2.active; rw [h2.active]; exact hm1⟩
      rw [State.bal, settled_completeLs, quiet_settled h2, hsub]
      show s1.settled tx + _ + waits s2.active tx = s1.settled tx + waits s1.active tx + q.subs.count tx
      rw [h2.active]; omega
    cases r with
    | err e => exact complete s1 e (Quiet.refl s1)
    | ok f =>
      dsimp only
      have h := quiet_lookup s1 env f key .leaseSet
      split
      · next s2 _ e =>
        rw [e] at h
        have hm2 : AMap.Ok s2.active := by rw [h.active]; exact hm1
        refine ⟨?_, activate_ok hm2 _ _⟩
        have := bal_activate hm2 key (.leaseSet { q1 with queried := ins q1.queried f, selected := some f }) tx
        rw [quiet_bal h] at this
        refine this.trans ?_
        show s1.bal tx + q1.subs.count tx = s1.bal tx + q.subs.count tx
        rw [hsub]
      · next s2 e e' =>
        rw [e'] at h
        exact complete s2 e h
  | routerInfo q =>
    dsimp only
    have hc := quiet_charge s q
    generalize s.charge q = s1 at *
    have hm1 : AMap.Ok s1.active := by rw [hc.active]; exact hm
    rw [← quiet_bal hc]
    generalize hq : ({ q with selected := none } : Query) = q0
    have hs0 : q0.subs = q.subs := by rw [← hq]
    have hp := next_keeps q0 env s1.ffDht key s1.now
    generalize q0.next env s1.ffDht key s1.now = r at *
    obtain ⟨q1, r⟩ := r
    dsimp only at hp
    have hsub : q1.subs = q.subs := hp.1.trans hs0
    cases r with
    | err e =>
      refine ⟨?_, hm1⟩
      dsimp only
      rw [State.bal, settled_completeRi, hsub]
      show s1.settled tx + _ + waits s1.active tx = s1.settled tx + waits s1.active tx + q.subs.count tx
      omega
    | ok f =>
      dsimp only
      have h := quiet_lookup s1 env f key .router
      split
      · next s2 _ e =>
        rw [e] at h
        have hm2 : AMap.Ok s2.active := by rw [h.active]; exact hm1
        refine ⟨?_, activate_ok hm2 _ _⟩
        have := bal_activate hm2 key (.routerInfo { q1 with queried := ins q1.queried f, selected := some f }) tx
        rw [quiet_bal h] at this
        refine this.trans ?_
        show s1.bal tx + q1.subs.count tx = s1.bal tx + q.subs.count tx
        rw [hsub]
      · next s2 _ e =>
        rw [e] at h
        have hm2 : AMap.Ok s2.active := by rw [h.active]; exact hm1
        refine ⟨?_, activate_ok hm2 _ _⟩
        have := bal_activate hm2 key (.routerInfo q1) tx
        rw [quiet_bal h] at this
        refine this.trans ?_
        show s1.bal tx + q1.subs.count tx = s1.bal tx + q.subs.count tx
        rw [hsub]

theorem bal_fire {s : State} (hm : AMap.Ok s.active) (env : Env) (i : Nat) (tx : Nat) :
    (s.fire env i).bal tx = s.bal tx ∧ AMap.Ok (s.fire env i).active := by
  unfold State.fire
  split
  · exact ⟨rfl, hm⟩
  · next key due _ =>
    split
    · exact ⟨rfl, hm⟩
    split
    · exact ⟨rfl, hm⟩
    · next k hk =>
      have hb := bal_take hm key tx
      rw [hk] at hb
      have := bal_handleTimeout (s := State.take { s with timers := s.timers.eraseIdx i } key) (AMap.ok_del hm key) env key k tx
      exact ⟨this.1.trans hb.symm, this.2⟩

theorem bal_fireAll (env : Env) (fuel : Nat) {s : State} (hm : AMap.Ok s.active) (tx : Nat) :
    (State.fireAll env fuel s).bal tx = s.bal tx ∧ AMap.Ok (State.fireAll env fuel s).active := by
  induction fuel generalizing s with
  | zero => exact ⟨rfl, hm⟩
  | succ fuel ih =>
    unfold State.fireAll
    split
    · exact ⟨rfl, hm⟩
    · next i _ =>
      have h := bal_fire hm env i tx
      have := ih h.2
      exact ⟨this.1.trans h.1, this.2⟩

theorem bal_explore {s : State} (hm : AMap.Ok s.active) (env : Env) (key : Bytes) (tx : Nat) :
    (s.explore env key).bal tx = s.bal tx ∧ AMap.Ok (s.explore env key).active := by
  unfold State.explore
  split
  · exact ⟨rfl, hm⟩
  · next f _ =>
    have h := quiet_lookup s env f key .exploration
    split
    · next s1 _ e =>
      rw [e] at h
      have hm1 : AMap.Ok s1.active := by rw [h.active]; exact hm
      refine ⟨?_, activate_ok hm1 _ _⟩
      have := bal_activate hm1 key .exploration tx
      rw [quiet_bal h] at this
      exact this
    · next s1 _ e =>
      rw [e] at h
      exact ⟨quiet_bal h tx, by rw [h.active]; exact hm⟩

theorem bal_tick {s : State} (hm : AMap.Ok s.active) (env : Env) (key : Bytes) (tx : Nat) :
    (s.tick env key).bal tx = s.bal tx ∧ AMap.Ok (s.tick env key).active := by
  unfold State.tick
  have h1 := bal_fireAll env s.timers.length hm tx
  generalize State.fireAll env s.timers.length s = s1 at *
  have h2 : s1.upkeep.bal tx = s1.bal tx ∧ s1.upkeep.active = s1.active := by
    unfold State.upkeep
    split <;> exact ⟨rfl, rfl⟩
  generalize s1.upkeep = s2 at *
  have hm2 : AMap.Ok s2.active := by rw [h2.2]; exact h1.2
  unfold State.exploration
  split
  · exact ⟨h2.1.trans h1.1, hm2⟩
  · split
    · have h3 := bal_explore hm2 env key tx
      exact ⟨(show _ = (s2.explore env key).bal tx from rfl).trans (h3.1.trans (h2.1.trans h1.1)), h3.2⟩
    · exact ⟨h2.1.trans h1.1, hm2⟩

theorem wake_bal (s : State) (tx : Nat) : s.wake.bal tx = s.bal tx := by
  have : (s.ready.map Out.ready).filterMap Out.settles = [] := by
    rw [List.filterMap_eq_nil_iff]
    intro o ho
    obtain ⟨x, _, rfl⟩ := List.mem_map.mp ho
    rfl
  show (List.filterMap Out.settles (s.log ++ s.ready.map .ready)).count tx + waits s.active tx = _
  rw [List.filterMap_append, this, List.append_nil]; rfl

theorem bal_step {s : State} (hm : AMap.Ok s.active) (env : Env) (op : Op) (tx : Nat) :
    (s.step env op).bal tx = s.bal tx + op.asks.toList.count tx ∧ AMap.Ok (s.step env op).active := by
  have fin : ∀ {b : State}, Quiet s b → b.bal tx = s.bal tx + 0 ∧ AMap.Ok b.active := fun h =>
    ⟨quiet_bal h tx, by rw [h.active]; exact hm⟩
  cases op with
  | advance d => exact ⟨rfl, hm⟩
  | connected r => exact fin (quiet_established s env r)
  | closed r => exact ⟨rfl, hm⟩
  | failed r => exact ⟨rfl, hm⟩
  | store sender key p reply => exact bal_storeMsg hm env sender key p reply tx
  | search sender m => exact bal_searchMsg hm env sender m tx
  | lookup key kind reply ignore => exact fin (quiet_lookupMsg s env key kind reply ignore)
  | outBuilt t =>
    unfold State.step
    dsimp only
    split
    · exact ⟨wake_bal { s with outTun := s.outTun.add t } tx, hm⟩
    · exact ⟨rfl, hm⟩
  | outExpired t => exact ⟨rfl, hm⟩
  | inBuilt l =>
    unfold State.step
    dsimp only
    split
    · exact ⟨wake_bal { s with inTun := s.inTun.add l } tx, hm⟩
    · exact ⟨rfl, hm⟩
  | inExpired t => exact ⟨rfl, hm⟩
  | queryLs key t => exact bal_queryLs hm env key t tx
  | queryRi key t => exact bal_queryRi hm env key t tx
  | closest key t =>
    have cancel : ∀ o : Out, o.settles = some t → (s.out o).bal tx = s.bal tx + [t].count tx := by
      intro o ho
      rw [State.bal, settled_out ho]
      show s.settled tx + _ + waits s.active tx = s.settled tx + waits s.active tx + _
      omega
    unfold State.step State.closestFloodfills
    dsimp only
    split
    · exact ⟨cancel _ rfl, hm⟩
    · exact ⟨cancel _ rfl, hm⟩
  | publish r raw => exact fin (quiet_send _ _ _ _ _)
  | waitReady t =>
    unfold State.step
    dsimp only
    split
    · refine ⟨?_, hm⟩
      show (List.filterMap Out.settles (s.log ++ [.ready t])).count tx + waits s.active tx = _
      rw [List.filterMap_append]
      show (s.log.filterMap Out.settles ++ []).count tx + _ = _
      rw [List.append_nil]; rfl
    · exact ⟨rfl, hm⟩
  | fire i => exact bal_fire hm env i tx
  | tick key => exact bal_tick hm env key tx

theorem bal_run {s : State} (hm : AMap.Ok s.active) (evs : List (Env × Op)) (tx : Nat) :
    (s.run evs).bal tx = s.bal tx + asked evs tx ∧ AMap.Ok (s.run evs).active := by
  induction evs generalizing s with
  | nil => exact ⟨rfl, hm⟩
  | cons e evs ih =>
    have h := bal_step hm e.1 e.2 tx
    have := ih h.2
    refine ⟨this.1.trans ?_, this.2⟩
    rw [h.1]
    have : asked (e :: evs) tx = e.2.asks.toList.count tx + asked evs tx := by
      unfold asked
      rw [List.filterMap_cons]
      cases e.2.asks with
      | none => exact (Nat.zero_add _).symm
      | some t =>
        show List.count tx (t :: _) = List.count tx [t] + _
        rw [List.count_cons, List.count_cons, List.count_nil]
        omega
    omega

/-- C135, once: whatever happens, a request (a lease set query, a router info query or a question for the closest floodfills) that a caller
makes once is at any later time either settled exactly once (with a result, an error, or a dropped channel) or waiting at exactly one active
query; and nothing is settled that nobody asked for. (That a dropped channel can take the place of an answer is the subject of C136.) -/
theorem C135_once (localId : Bytes) (netId : Nat) (ff : Bool) (fd rd : Table) (now : Nat) (env : Env) (evs : List (Env × Op)) (tx : Nat) :
    let s := (State.init localId netId ff fd rd now env).run evs
    s.settled tx + waits s.active tx = asked evs tx := by
  intro s
  have h := (bal_run (s := State.init localId netId ff fd rd now env) AMap.ok_nil evs tx).1
  have z : (State.init localId netId ff fd rd now env).bal tx = 0 := rfl
  rw [z, Nat.zero_add] at h
  exact h

end Emissary.NetdbRun
