import Verif.Props.NetdbSource
/-!
# C138: whom a query asks
-/
namespace Emissary.NetdbRun
open Emissary Emissary.Netdb

/-- The floodfill asked by a lookup of the lease set of a key. -/
def Out.askLs (key : Bytes) : Out → Option Bytes
  | .lookup f k .leaseSet _ _ => if k = key then some f else none
  | _ => none

/-- The floodfills that were asked for the lease set of a key, in order. -/
def State.asksLs (s : State) (key : Bytes) : List Bytes := s.log.filterMap (Out.askLs key)

theorem asks_app {s s' : State} {key : Bytes} (l : List Out) (e : s'.log = s.log ++ l) (h : ∀ o ∈ l, o.askLs key = none) :
    s'.asksLs key = s.asksLs key := by
  unfold State.asksLs
  rw [e, List.filterMap_append, List.filterMap_eq_nil_iff.mpr h, List.append_nil]

theorem asks_same {s s' : State} {key : Bytes} (e : s'.log = s.log) : s'.asksLs key = s.asksLs key := by
  unfold State.asksLs; rw [e]

theorem asks_out (s : State) (o : Out) (key : Bytes) (h : o.askLs key = none) : (s.out o).asksLs key = s.asksLs key :=
  asks_app [o] rfl (by simpa using h)

theorem asks_sendOne (s : State) (env : Env) (m : Msg) (e : Option Nat) (r key : Bytes) : (s.sendOne env m e r).asksLs key = s.asksLs key := by
  unfold State.sendOne
  split
  · split
    · exact asks_app [.connect r] rfl (by simp [Out.askLs])
    · rfl
  · exact asks_same rfl
  · exact asks_out s _ key rfl

theorem asks_send (s : State) (env : Env) (rs : List Bytes) (m : Msg) (e : Option Nat) (key : Bytes) : (s.send env rs m e).asksLs key = s.asksLs key := by
  unfold State.send
  induction rs generalizing s with
  | nil => rfl
  | cons r rs ih => exact (ih _).trans (asks_sendOne s env m e r key)

theorem asks_established (s : State) (env : Env) (r key : Bytes) : (s.established env r).asksLs key = s.asksLs key := by
  have h : ∀ p : List (Msg × Option Nat), ∀ o ∈ (p.filterMap fun m => match m.2 with
      | none => some (Out.send r m.1)
      | some e => if e > s.now then some (Out.send r m.1) else none), o.askLs key = none := by
    intro p o ho
    obtain ⟨m, _, hm⟩ := List.mem_filterMap.mp ho
    split at hm
    · cases hm; rfl
    · split at hm
      · cases hm; rfl
      · cases hm
  unfold State.established
  dsimp only
  split
  · split
    · exact asks_app _ rfl (h _)
    · exact asks_app [] rfl (by simp)
  · split
    · exact asks_app _ rfl (h _)
    · exact asks_app [] rfl (by simp)

theorem asks_flood (s : State) (env : Env) (k : Bytes) (reply : StoreReply) (m : Msg) (e : Nat) (key : Bytes) :
    (s.flood env k reply m e).asksLs key = s.asksLs key := by
  unfold State.flood
  split
  · rfl
  · exact (asks_send _ _ _ _ _ _).trans (asks_send _ _ _ _ _ _)

theorem asks_addFloodfill (s : State) (r : RInfo) (key : Bytes) : (s.addFloodfill r).asksLs key = s.asksLs key := by
  unfold State.addFloodfill; split <;> exact asks_same rfl

theorem asks_credit (s : State) (x : Option Bytes) (key : Bytes) : (s.credit x).asksLs key = s.asksLs key := by
  unfold State.credit; split <;> exact asks_same rfl

theorem asks_discredit (s : State) (x : Option Bytes) (key : Bytes) : (s.discredit x).asksLs key = s.asksLs key := by
  unfold State.discredit; split <;> exact asks_same rfl

theorem asks_fetched (s : State) (x : Option Bytes) (r : RInfo) (key : Bytes) : (s.fetched x r).asksLs key = s.asksLs key := by
  unfold State.fetched
  split
  · rfl
  split
  · rfl
  exact (asks_out _ _ key rfl).trans ((asks_credit _ x key).trans ((asks_same rfl).trans (asks_addFloodfill s r key)))

theorem asks_routerInfoStore (s : State) (env : Env) (k : Bytes) (reply : StoreReply) (r : RInfo) (key : Bytes) :
    (s.routerInfoStore env k reply r).asksLs key = s.asksLs key := by
  unfold State.routerInfoStore
  split
  · rfl
  split
  · rfl
  split
  · rfl
  have b : ((s.addFloodfill r).out (.discover r)).asksLs key = s.asksLs key := (asks_out _ _ key rfl).trans (asks_addFloodfill s r key)
  dsimp only
  split
  · exact b
  · exact (asks_flood _ _ _ _ _ _ key).trans ((asks_same rfl).trans b)

theorem asks_leaseSetStore (s : State) (env : Env) (k : Bytes) (reply : StoreReply) (l : LSet) (key : Bytes) :
    (s.leaseSetStore env k reply l).asksLs key = s.asksLs key := by
  unfold State.leaseSetStore
  split
  · rfl
  · exact (asks_flood _ _ _ _ _ _ key).trans (asks_same rfl)

theorem asks_lookupMsg (s : State) (env : Env) (k : Bytes) (kind : LookupKind) (reply : LookupReply) (ignore : List Bytes) (key : Bytes) :
    (s.lookupMsg env k kind reply ignore).asksLs key = s.asksLs key := by
  have an : ∀ (s : State) m, (s.answer reply m).asksLs key = s.asksLs key := by
    intro s m; unfold State.answer; split <;> exact asks_out _ _ key rfl
  unfold State.lookupMsg
  split
  · rfl
  cases kind <;> dsimp only
  · unfold State.leaseSetLookup; split <;> exact an _ _
  · unfold State.routerInfoLookup; split <;> exact an _ _
  · unfold State.explorationLookup
    split
    · rfl
    · dsimp only; split <;> exact asks_send _ _ _ _ _ _

/-- A lookup asks one floodfill, or none if it fails. -/
theorem asks_lookup (s : State) (env : Env) (f k : Bytes) (kind : LookupKind) (key : Bytes) :
    (s.lookup env f k kind).1.asksLs key = s.asksLs key ++
      (match (s.lookup env f k kind).2 with | .ok _ => if kind = .leaseSet ∧ k = key then [f] else [] | .err _ => []) := by
  have ht : ∀ (r : State × Option (Nat × Lease)), r = s.tunnels → r.1.asksLs key = s.asksLs key := by
    intro r hr
    subst hr
    unfold State.tunnels
    split
    · rfl
    · split <;> exact asks_same rfl
  unfold State.lookup
  split
  · next e => rw [List.append_nil]; exact ht _ e.symm
  · next s1 out inb e =>
    have := ht _ e.symm
    dsimp only at this
    split
    · rw [← this]
      show (s1.log ++ [Out.lookup f k kind out inb]).filterMap _ = s1.log.filterMap _ ++ _
      rw [List.filterMap_append]
      congr 1
      cases kind with
      | leaseSet => by_cases h : k = key <;> simp [Out.askLs, h]
      | normal => simp [Out.askLs]
      | router => simp [Out.askLs]
      | exploration => simp [Out.askLs]
    · rw [List.append_nil]; exact this

theorem asks_charge (s : State) (q : Query) (key : Bytes) : (s.charge q).asksLs key = s.asksLs key := by
  unfold State.charge
  split
  · exact asks_app [_] rfl (by simp [Out.askLs])
  · rfl

theorem asks_activate (s : State) (k : Bytes) (x : Kind) (key : Bytes) : (s.activate k x).asksLs key = s.asksLs key := by
  unfold State.activate
  dsimp only
  split
  · exact asks_app (Kind.subs _ |>.map .cancel) rfl (by simp [Out.askLs])
  · exact asks_same rfl

theorem asks_begin (s : State) (k : Bytes) (x : Kind) (key : Bytes) : ((s.activate k x).arm k).asksLs key = s.asksLs key :=
  (asks_same rfl).trans (asks_activate s k x key)

theorem asks_fetches (s : State) (env : Env) (replier : Bytes) (rs : List Bytes) (key : Bytes) :
    (s.fetches env replier rs).asksLs key = s.asksLs key := by
  unfold State.fetches
  induction rs generalizing s with
  | nil => rfl
  | cons r rs ih =>
    refine (ih _).trans ?_
    show (s.fetch env replier r).asksLs key = _
    have g := asks_lookup s env replier r .router key
    unfold State.fetch
    split
    · next s1 _ e => rw [e] at g; exact (asks_begin s1 r _ key).trans (by simpa using g)
    · next s1 _ e => rw [e] at g; simpa using g

/-! ## One round of a query -/

theorem omap_mem_ins {m : OMap Bytes} {k : Nat} {v : Bytes} {e : Nat × Bytes} (h : e ∈ OMap.ins k v m) : e = (k, v) ∨ e ∈ m := by
  induction m with
  | nil => simpa [OMap.ins] using h
  | cons x m ih =>
    unfold OMap.ins at h
    split at h
    · rcases List.mem_cons.mp h with h | h
      · exact .inl h
      · exact .inr h
    · split at h
      · rcases List.mem_cons.mp h with h | h
        · exact .inl h
        · exact .inr (by simp [h])
      · rcases List.mem_cons.mp h with h | h
        · exact .inr (by simp [h])
        · rcases ih h with h | h
          · exact .inl h
          · exact .inr (by simp [h])

theorem omap_ins_ne {m : OMap Bytes} {k : Nat} {v : Bytes} : OMap.ins k v m ≠ [] := by
  cases m with
  | nil => simp [OMap.ins]
  | cons x m => unfold OMap.ins; split <;> (try split) <;> simp

theorem byDistance_mem (target : Bytes) (rs : List Bytes) (m : OMap Bytes) (e : Nat × Bytes)
    (h : e ∈ rs.foldl (fun m r => OMap.ins (distance target r) r m) m) : e ∈ m ∨ e.2 ∈ rs := by
  induction rs generalizing m with
  | nil => exact .inl h
  | cons r rs ih =>
    rcases ih _ h with h | h
    · rcases omap_mem_ins h with h | h
      · exact .inr (by simp [h])
      · exact .inl h
    · exact .inr (by simp [h])

theorem foldl_ins_ne (target : Bytes) (rs : List Bytes) (m : OMap Bytes) (h : m ≠ []) : rs.foldl (fun m r => OMap.ins (distance target r) r m) m ≠ [] := by
  induction rs generalizing m with
  | nil => exact h
  | cons r rs ih => exact ih _ omap_ins_ne

theorem getClosest_mem {target : Bytes} {l : List Bytes} {f : Bytes} (h : getClosest target l = some f) : f ∈ l := by
  unfold getClosest at h
  split at h
  · cases h
  · obtain ⟨e, he, hf⟩ := Option.map_eq_some_iff.mp h
    have : e ∈ byDistance target l := List.mem_of_head? he
    rcases byDistance_mem target l [] e this with h' | h'
    · cases h'
    · rw [← hf]; exact h'

theorem getClosest_none {target : Bytes} {l : List Bytes} (h : getClosest target l = none) : l = [] := by
  unfold getClosest at h
  split at h
  · next he => exact List.isEmpty_iff.mp he
  · next he =>
    exfalso
    cases l with
    | nil => exact he rfl
    | cons r rs =>
      have : byDistance target (r :: rs) ≠ [] := foldl_ins_ne target rs _ omap_ins_ne
      cases hb : byDistance target (r :: rs) with
      | nil => exact this hb
      | cons x m => rw [hb] at h; cases h

theorem mem_ins {l : List Bytes} {x y : Bytes} : y ∈ ins l x ↔ y = x ∨ y ∈ l := by
  unfold ins
  split
  · constructor
    · exact .inr
    · rintro (rfl | h) <;> assumption
  · simp [or_comm]

theorem mem_foldl_ins {l r : List Bytes} {y : Bytes} : y ∈ r.foldl ins l ↔ y ∈ l ∨ y ∈ r := by
  induction r generalizing l with
  | nil => simp
  | cons x r ih => rw [List.foldl_cons, ih, mem_ins, List.mem_cons]; grind

/-- The routers already asked are among the queried ones and will not be asked again. -/
def Fresh (asked : List Bytes) (q : Query) : Prop := ∀ f ∈ asked, f ∈ q.queried ∧ f ∉ q.pending ∧ f ∉ q.queryable

theorem Fresh.next {asked : List Bytes} {q : Query} (h : Fresh asked q) (env : Env) (dht : Table) (key : Bytes) (now : Nat) :
    Fresh asked (q.next env dht key now).1 ∧
    ∀ f, (q.next env dht key now).2 = .ok f → f ∉ asked ∧ f ∉ (q.next env dht key now).1.queryable ∧
      (env.known f = true → f ∉ (q.next env dht key now).1.pending) := by
  unfold Query.next
  split
  · exact ⟨h, fun f h => by cases h⟩
  · dsimp only
    have h1 : Fresh asked { q with pending := q.pending.filter fun r => !env.known r, queryable := (q.pending.filter env.known).foldl ins q.queryable } := by
      intro f hf
      obtain ⟨a, b, c⟩ := h f hf
      refine ⟨a, fun hm => b (List.mem_filter.mp hm).1, fun hm => ?_⟩
      rcases mem_foldl_ins.mp hm with hm | hm
      · exact c hm
      · exact b (List.mem_filter.mp hm).1
    have h2 : ∀ f ∈ ({ q with pending := q.pending.filter fun r => !env.known r, queryable := (q.pending.filter env.known).foldl ins q.queryable } : Query).pending, env.known f = false := by
      intro f hf
      simpa using (List.mem_filter.mp hf).2
    split
    · next f hf =>
      have hm := getClosest_mem hf
      refine ⟨?_, ?_⟩
      · intro g hg
        obtain ⟨a, b, c⟩ := h1 g hg
        exact ⟨a, b, fun hm => c (List.mem_filter.mp hm).1⟩
      · intro g hg
        cases hg
        refine ⟨fun ha => (h1 f ha).2.2 hm, ?_, fun hk hp => by rw [h2 f hp] at hk; cases hk⟩
        intro hm'
        simpa using (List.mem_filter.mp hm').2
    · next hn =>
      have hn := getClosest_none hn
      split
      · next f hf =>
        refine ⟨h1, ?_⟩
        intro g hg
        cases hg
        have hf := List.mem_of_head? hf
        unfold Table.closestWithIgnore at hf
        have hf := List.mem_of_mem_take hf
        have hf := (List.mem_filter.mp hf).2
        refine ⟨fun ha => ?_, by show f ∉ (q.pending.filter env.known).foldl ins q.queryable; rw [hn]; simp, fun hk hp => by rw [h2 f hp] at hk; cases hk⟩
        have := (h1 f ha).1
        rw [show (!(q.queried.contains f)) = false by simpa using this] at hf
        cases hf
      · exact ⟨h1, fun g hg => by cases hg⟩

theorem Fresh.pick {asked : List Bytes} (env : Env) (dht : Table) (key : Bytes) (now fuel : Nat) {q : Query} (h : Fresh asked q) :
    Fresh asked (pickNext env dht key now fuel q).1 ∧
    ∀ f, (pickNext env dht key now fuel q).2 = .ok f → f ∉ asked ∧ f ∉ (pickNext env dht key now fuel q).1.queryable ∧
      f ∉ (pickNext env dht key now fuel q).1.pending := by
  induction fuel generalizing q with
  | zero => exact ⟨h, fun f h => by cases h⟩
  | succ fuel ih =>
    have n := h.next env dht key now
    unfold pickNext
    generalize q.next env dht key now = r at *
    obtain ⟨q1, r⟩ := r
    cases r with
    | err e => exact ⟨n.1, fun f h => by cases h⟩
    | ok f =>
      dsimp only
      split
      · next hk =>
        refine ⟨n.1, fun g hg => ?_⟩
        cases hg
        have := n.2 f rfl
        exact ⟨this.1, this.2.1, this.2.2 hk⟩
      · refine ih ?_
        intro g hg
        obtain ⟨a, b, c⟩ := n.1 g hg
        exact ⟨mem_ins.mpr (.inr a), b, c⟩

theorem Fresh.reply {asked : List Bytes} {q : Query} (h : Fresh asked q) (known : Bytes → Bool) (rs : List Bytes) :
    Fresh asked (q.searchReply known rs).1 := by
  intro f hf
  obtain ⟨a, b, c⟩ := h f hf
  have nf : f ∉ rs.filter fun r => decide (r ∉ q.queried) := fun hm => by simpa [a] using (List.mem_filter.mp hm).2
  refine ⟨a, ?_, ?_⟩
  · intro hm
    rcases mem_foldl_ins.mp hm with hm | hm
    · exact b hm
    · exact nf (List.mem_filter.mp hm).1
  · intro hm
    rcases mem_foldl_ins.mp hm with hm | hm
    · exact c hm
    · exact nf (List.mem_filter.mp hm).1

/-! ## Any number of rounds -/

/-- While `tx` waits for the lease set of `key`: the floodfills asked since (after those in `old`) are distinct and will not be asked again. -/
def Asking (old : List Bytes) (key : Bytes) (tx : Nat) (s : State) : Prop :=
  ∃ new q, s.asksLs key = old ++ new ∧ new.Nodup ∧ s.active.get key = some (.leaseSet q) ∧ tx ∈ q.subs ∧ Fresh new q

theorem Asking.keep {old : List Bytes} {key : Bytes} {tx : Nat} {s s' : State} (h : Asking old key tx s) (ha : s'.asksLs key = s.asksLs key)
    (hk : s'.active.get key = s.active.get key) : Asking old key tx s' := by
  obtain ⟨new, q, a, b, c, d, e⟩ := h
  exact ⟨new, q, ha.trans a, b, hk.trans c, d, e⟩

theorem settled_of_mem {s : State} {tx : Nat} (o : Out) (h : o ∈ s.log) (ho : o.settles = some tx) : 0 < s.settled tx :=
  List.count_pos_iff.mpr (List.mem_filterMap.mpr ⟨o, h, ho⟩)

/-- Whatever entry is made: the query under another key stays, the query under the key is cancelled. -/
theorem Asking.activate {old : List Bytes} {key : Bytes} {tx : Nat} {s : State} (h : Asking old key tx s) (k : Bytes) (x : Kind) :
    Asking old key tx (s.activate k x) ∨ (k = key ∧ 0 < (s.activate k x).settled tx) := by
  by_cases e : k = key
  · right
    refine ⟨e, ?_⟩
    obtain ⟨new, q, _, _, c, d, _⟩ := h
    subst e
    refine settled_of_mem (.cancel tx) ?_ rfl
    unfold State.activate
    rw [c]
    exact List.mem_append_right _ (List.mem_map.mpr ⟨tx, d, rfl⟩)
  · left
    refine h.keep (asks_activate s k x key) ?_
    rw [(activate_frame s k x).1, AMap.get_put, if_neg (fun h => e h.symm)]

theorem settled_activate (s : State) (k : Bytes) (x : Kind) (tx : Nat) : s.settled tx ≤ (s.activate k x).settled tx := by
  unfold State.activate State.settled
  dsimp only
  split
  · show _ ≤ ((s.log ++ _).filterMap _).count tx
    rw [List.filterMap_append, List.count_append]
    exact Nat.le_add_right _ _
  · exact Nat.le_refl _

theorem Quiet.settled {s s' : State} (g : Quiet s s') (tx : Nat) : s.settled tx ≤ s'.settled tx := by
  obtain ⟨l, e, _⟩ := g.log
  unfold State.settled
  rw [e, List.filterMap_append, List.count_append]
  exact Nat.le_add_right _ _

theorem Asking.fetches {old : List Bytes} {key : Bytes} {tx : Nat} (env : Env) (replier : Bytes) (rs : List Bytes) {s : State}
    (h : Asking old key tx s ∨ 0 < s.settled tx) : Asking old key tx (s.fetches env replier rs) ∨ 0 < (s.fetches env replier rs).settled tx := by
  unfold State.fetches
  induction rs generalizing s with
  | nil => exact h
  | cons r rs ih =>
    refine ih ?_
    show Asking old key tx (s.fetch env replier r) ∨ 0 < (s.fetch env replier r).settled tx
    have g := quiet_lookup s env replier r .router
    have a := asks_lookup s env replier r .router key
    unfold State.fetch
    split
    · next s1 _ e =>
      rw [e] at g a
      simp only [reduceCtorEq, false_and, if_false, List.append_nil] at a
      rcases h with h | h
      · rcases (h.keep a (by rw [g.active])).activate r .router with h' | h'
        · exact .inl (h'.keep (asks_same rfl) rfl)
        · exact .inr h'.2
      · exact .inr (Nat.lt_of_lt_of_le h (Nat.le_trans (g.settled tx) (settled_activate s1 r .router tx)))
    · next s1 _ e =>
      rw [e] at g a
      simp only [List.append_nil] at a
      rcases h with h | h
      · exact .inl (h.keep a (by rw [g.active]))
      · exact .inr (Nat.lt_of_lt_of_le h (g.settled tx))

/-! ## The log only grows -/

def Grow (s s' : State) : Prop := ∃ l, s'.log = s.log ++ l

theorem Grow.trans {a b c : State} (h : Grow a b) (g : Grow b c) : Grow a c := by
  obtain ⟨l, e⟩ := h
  obtain ⟨l', e'⟩ := g
  exact ⟨l ++ l', by rw [e', e, List.append_assoc]⟩

theorem Grow.same {s s' : State} (e : s'.log = s.log) : Grow s s' := ⟨[], by rw [e, List.append_nil]⟩

theorem Quiet.grow {s s' : State} (g : Quiet s s') : Grow s s' := by obtain ⟨l, e, _⟩ := g.log; exact ⟨l, e⟩

theorem Grow.settled {s s' : State} (g : Grow s s') {tx : Nat} (h : 0 < s.settled tx) : 0 < s'.settled tx := by
  obtain ⟨l, e⟩ := g
  unfold State.settled at *
  rw [e, List.filterMap_append, List.count_append]
  omega

theorem grow_activate (s : State) (k : Bytes) (x : Kind) : Grow s (s.activate k x) := by
  unfold State.activate
  dsimp only
  split
  · exact ⟨_, rfl⟩
  · exact Grow.same rfl

theorem grow_begin (s : State) (k : Bytes) (x : Kind) : Grow s ((s.activate k x).arm k) := (grow_activate s k x).trans (Grow.same rfl)

theorem grow_timeout (s : State) (env : Env) (key : Bytes) (k : Kind) : Grow s (s.handleTimeout env key k) := by
  unfold State.handleTimeout
  cases k with
  | exploration => exact Grow.same rfl
  | router => exact Grow.same rfl
  | leaseSet q =>
    dsimp only
    have hc := (quiet_charge s q).grow
    generalize s.charge q = s1 at *
    split
    · exact hc.trans ⟨_, rfl⟩
    · next q' f _ =>
      have g := quiet_lookup s1 env f key .leaseSet
      split
      · next s2 _ e => rw [e] at g; exact hc.trans (g.grow.trans (grow_begin s2 key _))
      · next s2 _ e => rw [e] at g; exact hc.trans (g.grow.trans ⟨_, rfl⟩)
  | routerInfo q =>
    dsimp only
    have hc := (quiet_charge s q).grow
    generalize s.charge q = s1 at *
    split
    · exact hc.trans ⟨_, rfl⟩
    · next q' f _ =>
      have g := quiet_lookup s1 env f key .router
      split
      · next s2 _ e => rw [e] at g; exact hc.trans (g.grow.trans (grow_begin s2 key _))
      · next s2 _ e => rw [e] at g; exact hc.trans (g.grow.trans (grow_begin s2 key _))

theorem grow_fire (s : State) (env : Env) (i : Nat) : Grow s (s.fire env i) := by
  unfold State.fire
  split
  · exact Grow.same rfl
  split
  · exact Grow.same rfl
  split
  · exact Grow.same rfl
  · next key _ _ _ _ k _ => exact (Grow.same rfl).trans (grow_timeout (State.take { s with timers := s.timers.eraseIdx i } key) env key k)

/-! ## Every event -/

theorem Asking.begin {old : List Bytes} {key : Bytes} {tx : Nat} {s : State} (h : Asking old key tx s) (k : Bytes) (x : Kind) :
    Asking old key tx ((s.activate k x).arm k) ∨ 0 < ((s.activate k x).arm k).settled tx := by
  rcases h.activate k x with h | h
  · exact .inl (h.keep (asks_same rfl) rfl)
  · exact .inr h.2

/-- The timeout of a query under another key. -/
theorem Asking.timeoutOther {old : List Bytes} {key : Bytes} {tx : Nat} {s : State} (h : Asking old key tx s) (env : Env) (k : Bytes) (x : Kind) (hne : k ≠ key) :
    Asking old key tx (s.handleTimeout env k x) ∨ 0 < (s.handleTimeout env k x).settled tx := by
  unfold State.handleTimeout
  cases x with
  | exploration => exact .inl h
  | router => exact .inl h
  | leaseSet q =>
    dsimp only
    have hc := h.keep (asks_charge s q key) (by rw [(quiet_charge s q).active])
    generalize s.charge q = s1 at *
    split
    · exact .inl (hc.keep (asks_app (List.map _ _) rfl (by simp [Out.askLs])) rfl)
    · next q' f _ =>
      have g := quiet_lookup s1 env f k .leaseSet
      have a := asks_lookup s1 env f k .leaseSet key
      split
      · next s2 _ e =>
        rw [e] at g a
        simp only [hne, and_false, if_false, List.append_nil] at a
        exact (hc.keep a (by rw [g.active])).begin k _
      · next s2 _ e =>
        rw [e] at g a
        simp only [List.append_nil] at a
        refine .inl (Asking.keep (hc.keep a (by rw [g.active])) (asks_app (List.map _ _) rfl (by simp [Out.askLs])) rfl)
  | routerInfo q =>
    dsimp only
    have hc := h.keep (asks_charge s q key) (by rw [(quiet_charge s q).active])
    generalize s.charge q = s1 at *
    split
    · exact .inl (hc.keep (asks_app (List.map _ _) rfl (by simp [Out.askLs])) rfl)
    · next q' f _ =>
      have g := quiet_lookup s1 env f k .router
      have a := asks_lookup s1 env f k .router key
      split
      · next s2 _ e =>
        rw [e] at g a
        simp only [hne, and_false, if_false, List.append_nil] at a
        exact (hc.keep a (by rw [g.active])).begin k _
      · next s2 _ e =>
        rw [e] at g a
        simp only [List.append_nil] at a
        exact (hc.keep a (by rw [g.active])).begin k _

/-- The timeout of the query itself. -/
theorem Asking.timeoutSelf {old new : List Bytes} {key : Bytes} {tx : Nat} {s : State} {q : Query} (env : Env)
    (ha : s.asksLs key = old ++ new) (hn : new.Nodup) (ht : tx ∈ q.subs) (hf : Fresh new q) :
    Asking old key tx (s.handleTimeout env key (.leaseSet q)) ∨ 0 < (s.handleTimeout env key (.leaseSet q)).settled tx := by
  unfold State.handleTimeout
  dsimp only
  have hc := (asks_charge s q key).trans ha
  generalize s.charge q = s1 at *
  have p := Fresh.pick env s1.ffDht key s1.now (pickFuel env s1.ffDht key { q with selected := none }) (q := { q with selected := none }) (asked := new) hf
  have ks := (pickNext_keeps env s1.ffDht key s1.now (pickFuel env s1.ffDht key { q with selected := none }) { q with selected := none }).1
  generalize pickNext env s1.ffDht key s1.now (pickFuel env s1.ffDht key { q with selected := none }) { q with selected := none } = r at *
  obtain ⟨q1, r⟩ := r
  dsimp only at p ks
  have ht1 : tx ∈ q1.subs := by rw [ks]; exact ht
  have fin : ∀ (s : State) (r : Res LSet), 0 < (s.completeLs q1 r).settled tx := fun s r =>
    settled_of_mem (.leaseSet tx r) (List.mem_append_right _ (List.mem_map.mpr ⟨tx, ht1, rfl⟩)) rfl
  cases r with
  | err e => exact .inr (fin _ _)
  | ok f =>
    dsimp only
    have a := asks_lookup s1 env f key .leaseSet key
    split
    · next s2 _ e =>
      rw [e] at a
      simp only [and_self, if_true] at a
      left
      have pf := p.2 f rfl
      refine ⟨new ++ [f], { q1 with queried := ins q1.queried f, selected := some f }, ?_, ?_, ?_, ht1, ?_⟩
      · rw [asks_begin, a, hc, List.append_assoc]
      · rw [List.nodup_append]
        refine ⟨hn, by simp, ?_⟩
        intro x hx y hy he
        simp only [List.mem_singleton] at hy
        exact pf.1 (by rw [← hy, ← he]; exact hx)
      · show (s2.activate key _).active.get key = _
        rw [(activate_frame s2 key _).1, AMap.get_put, if_pos rfl]
      · intro x hx
        rcases List.mem_append.mp hx with hx | hx
        · obtain ⟨a, b, c⟩ := p.1 x hx
          exact ⟨mem_ins.mpr (.inr a), b, c⟩
        · simp only [List.mem_singleton] at hx
          subst hx
          exact ⟨mem_ins.mpr (.inl rfl), pf.2.2, pf.2.1⟩
    · next s2 _ e => exact .inr (fin _ _)

theorem Asking.fire {old : List Bytes} {key : Bytes} {tx : Nat} {s : State} (h : Asking old key tx s) (env : Env) (i : Nat) :
    Asking old key tx (s.fire env i) ∨ 0 < (s.fire env i).settled tx := by
  unfold State.fire
  split
  · exact .inl h
  · next k due _ =>
    split
    · exact .inl h
    split
    · exact .inl (h.keep (asks_same rfl) rfl)
    · next x hx =>
      by_cases e : k = key
      · subst e
        obtain ⟨new, q, a, b, c, d, f⟩ := h
        rw [c] at hx
        cases hx
        exact Asking.timeoutSelf env (s := State.take { s with timers := s.timers.eraseIdx i } k) ((asks_same rfl).trans a) b d f
      · refine Asking.timeoutOther ?_ env k x e
        refine h.keep (asks_same rfl) ?_
        show (s.active.del k).get key = _
        rw [AMap.get_del, if_neg (fun h => e h.symm)]

theorem Asking.fireAll {old : List Bytes} {key : Bytes} {tx : Nat} (env : Env) (fuel : Nat) {s : State} (h : Asking old key tx s ∨ 0 < s.settled tx) :
    Asking old key tx (State.fireAll env fuel s) ∨ 0 < (State.fireAll env fuel s).settled tx := by
  induction fuel generalizing s with
  | zero => exact h
  | succ fuel ih =>
    unfold State.fireAll
    split
    · exact h
    · next i _ =>
      refine ih ?_
      rcases h with h | h
      · exact h.fire env i
      · exact .inr ((grow_fire s env i).settled h)

theorem Asking.step {old : List Bytes} {key : Bytes} {tx : Nat} {s : State} (h : Asking old key tx s) (env : Env) (op : Op) :
    Asking old key tx (s.step env op) ∨ 0 < (s.step env op).settled tx := by
  cases op with
  | advance d => exact .inl (h.keep (asks_same rfl) rfl)
  | connected r => exact .inl (h.keep (asks_established s env r key) (by show (s.established env r).active.get key = _; rw [(quiet_established s env r).active]))
  | closed r => exact .inl (h.keep (asks_same rfl) rfl)
  | failed r => exact .inl (h.keep (asks_same rfl) rfl)
  | outBuilt t =>
    left
    unfold State.step State.wake; dsimp only
    split
    · exact h.keep (asks_app (s.ready.map Out.ready) rfl (by simp [Out.askLs])) rfl
    · exact h.keep (asks_same rfl) rfl
  | inBuilt t =>
    left
    unfold State.step State.wake; dsimp only
    split
    · exact h.keep (asks_app (s.ready.map Out.ready) rfl (by simp [Out.askLs])) rfl
    · exact h.keep (asks_same rfl) rfl
  | outExpired t => exact .inl (h.keep (asks_same rfl) rfl)
  | inExpired t => exact .inl (h.keep (asks_same rfl) rfl)
  | lookup k kind reply ignore =>
    exact .inl (h.keep (asks_lookupMsg s env k kind reply ignore key) (by
      show (s.lookupMsg env k kind reply ignore).active.get key = _; rw [(quiet_lookupMsg s env k kind reply ignore).active]))
  | publish r raw =>
    exact .inl (h.keep (asks_send _ _ _ _ _ key) (by show (s.send _ _ _ _).active.get key = _; rw [(quiet_send s _ _ _ _).active]))
  | waitReady t =>
    left
    unfold State.step
    dsimp only
    split
    · exact h.keep (asks_out s _ key rfl) rfl
    · exact h.keep (asks_same rfl) rfl
  | fire i => exact h.fire env i
  | closest k t =>
    left
    show Asking old key tx (s.closestFloodfills env k t)
    unfold State.closestFloodfills
    dsimp only
    split <;> exact h.keep (asks_out s _ key rfl) rfl
  | queryLs k t =>
    show Asking old key tx (s.queryLs env k t) ∨ 0 < (s.queryLs env k t).settled tx
    unfold State.queryLs
    cases hk : s.active.get k with
    | some x =>
      left
      cases x with
      | leaseSet q' =>
        by_cases e : k = key
        · subst e
          obtain ⟨new, q, a, b, c, d, f⟩ := h
          rw [hk] at c
          cases c
          refine ⟨new, { q' with subs := q'.subs ++ [t] }, (asks_same rfl).trans a, b, ?_, List.mem_append_left _ d, f⟩
          show (s.active.put k _).get k = _
          rw [AMap.get_put, if_pos rfl]
        · refine h.keep (asks_same rfl) ?_
          show (s.active.put k _).get key = _
          rw [AMap.get_put, if_neg (fun h => e h.symm)]
      | routerInfo q => exact h.keep (asks_out s _ key rfl) rfl
      | exploration => exact h.keep (asks_out s _ key rfl) rfl
      | router => exact h.keep (asks_out s _ key rfl) rfl
    | none =>
      have hne : k ≠ key := by
        rintro rfl
        obtain ⟨new, q, a, b, c, d, f⟩ := h
        rw [hk] at c; cases c
      dsimp only
      split
      · exact .inl (h.keep (asks_out s _ key rfl) rfl)
      · next f _ =>
        have g := quiet_lookup s env f k .leaseSet
        have a := asks_lookup s env f k .leaseSet key
        split
        · next s1 _ e =>
          rw [e] at g a
          simp only [hne, and_false, if_false, List.append_nil] at a
          exact (h.keep a (by rw [g.active])).begin k _
        · next s1 _ e =>
          rw [e] at g a
          simp only [List.append_nil] at a
          exact .inl ((h.keep a (by rw [g.active])).keep (asks_out s1 _ key rfl) rfl)
  | queryRi k t =>
    show Asking old key tx (s.queryRi env k t) ∨ 0 < (s.queryRi env k t).settled tx
    unfold State.queryRi
    cases hk : s.active.get k with
    | some x =>
      left
      cases x with
      | routerInfo q' =>
        refine h.keep (asks_same rfl) ?_
        show (s.active.put k _).get key = _
        rw [AMap.get_put, if_neg]
        rintro rfl
        obtain ⟨new, q, a, b, c, d, f⟩ := h
        rw [hk] at c; cases c
      | leaseSet q => exact h.keep (asks_out s _ key rfl) rfl
      | exploration => exact h.keep (asks_out s _ key rfl) rfl
      | router => exact h.keep (asks_out s _ key rfl) rfl
    | none =>
      dsimp only
      split
      · exact .inl (h.keep (asks_out s _ key rfl) rfl)
      · next f _ =>
        have g := quiet_lookup s env f k .router
        have a := asks_lookup s env f k .router key
        split
        · next s1 _ e =>
          rw [e] at g a
          simp only [reduceCtorEq, false_and, if_false, List.append_nil] at a
          exact (h.keep a (by rw [g.active])).begin k _
        · next s1 _ e =>
          rw [e] at g a
          simp only [List.append_nil] at a
          exact .inl ((h.keep a (by rw [g.active])).keep (asks_out s1 _ key rfl) rfl)
  | store sender k p reply =>
    show Asking old key tx ((s.take k).storeAt env sender k p reply (s.active.get k)) ∨ 0 < ((s.take k).storeAt env sender k p reply (s.active.get k)).settled tx
    by_cases e : k = key
    · right
      subst e
      obtain ⟨new, q, a, b, c, d, f⟩ := h
      rw [c]
      cases p with
      | leaseSet l => exact settled_of_mem (.leaseSet tx (.ok l)) (List.mem_append_right _ (List.mem_map.mpr ⟨tx, d, rfl⟩)) rfl
      | routerInfo r => exact settled_of_mem (.cancel tx) (List.mem_append_right _ (List.mem_map.mpr ⟨tx, d, rfl⟩)) rfl
    · left
      have ht : Asking old key tx (s.take k) := by
        refine h.keep (asks_same rfl) ?_
        show (s.active.del k).get key = _
        rw [AMap.get_del, if_neg (fun h => e h.symm)]
      generalize s.take k = s1 at *
      have dr : ∀ x : Kind, Asking old key tx (s1.drop x) := fun x => ht.keep (asks_app (x.subs.map .cancel) rfl (by simp [Out.askLs])) rfl
      unfold State.storeAt
      cases s.active.get k with
      | none =>
        cases p with
        | routerInfo r => exact ht.keep (asks_routerInfoStore _ _ _ _ _ key) (by rw [(quiet_routerInfoStore _ _ _ _ _).active])
        | leaseSet l =>
          dsimp only
          split
          · exact ht.keep (asks_leaseSetStore _ _ _ _ _ key) (by rw [(quiet_leaseSetStore _ _ _ _ _).active])
          · exact ht
      | some x =>
        cases p with
        | leaseSet l =>
          cases x with
          | leaseSet q => exact ht.keep (asks_app (q.subs.map _) rfl (by simp [Out.askLs])) rfl
          | routerInfo q => exact dr _
          | exploration => exact dr _
          | router => exact dr _
        | routerInfo r =>
          cases x with
          | leaseSet q => exact dr _
          | exploration => exact dr _
          | router => exact ht.keep (asks_fetched _ _ _ key) (by rw [(quiet_fetched _ _ _).active])
          | routerInfo q =>
            have h2 := ht.keep (asks_credit s1 sender key) (by rw [(quiet_credit s1 sender).active])
            have h3 := h2.keep (asks_out _ (.discover r) key rfl) rfl
            exact h3.keep (asks_app (q.subs.map _) rfl (by simp [Out.askLs])) rfl
  | search sender m =>
    show Asking old key tx (s.searchMsg env sender m) ∨ 0 < (s.searchMsg env sender m).settled tx
    have hd := h.keep (asks_discredit s sender key) (by rw [(quiet_discredit s sender).active])
    unfold State.searchMsg
    cases m with
    | none => exact .inl hd
    | some m =>
      obtain ⟨k, routers, replier⟩ := m
      dsimp only
      have ea : (s.discredit sender).active = s.active := (quiet_discredit s sender).active
      generalize s.discredit sender = s0 at *
      by_cases e : k = key
      · subst e
        left
        obtain ⟨new, q, a, b, c, d, f⟩ := hd
        rw [ea] at c
        unfold State.searchAt
        rw [c]
        dsimp only
        refine ⟨new, (q.searchReply env.known routers).1, ?_, b, ?_, d, f.reply _ _⟩
        · rw [asks_activate, asks_fetches]; exact (asks_same rfl).trans a
        · rw [(activate_frame _ k _).1, AMap.get_put, if_pos rfl]
      · have ht : Asking old key tx (s0.take k) := by
          refine hd.keep (asks_same rfl) ?_
          show (s0.active.del k).get key = _
          rw [AMap.get_del, if_neg (fun h => e h.symm)]
        generalize s0.take k = s1 at *
        have fa : ∀ rs x, Asking old key tx ((s1.fetches env replier rs).activate k x) ∨ 0 < ((s1.fetches env replier rs).activate k x).settled tx := by
          intro rs x
          rcases Asking.fetches env replier rs (.inl ht) with h' | h'
          · rcases h'.activate k x with h'' | h''
            · exact .inl h''
            · exact .inr h''.2
          · exact .inr ((grow_activate _ k x).settled h')
        unfold State.searchAt
        cases s.active.get k with
        | none => exact .inl ht
        | some x =>
          cases x with
          | router => exact .inl ht
          | exploration => exact Asking.fetches env replier _ (.inl ht)
          | leaseSet q => exact fa _ _
          | routerInfo q => exact fa _ _
  | tick k =>
    show Asking old key tx (s.tick env k) ∨ 0 < (s.tick env k).settled tx
    unfold State.tick
    have h0 := Asking.fireAll env s.timers.length (.inl h)
    generalize State.fireAll env s.timers.length s = s1 at *
    have h1 : Asking old key tx s1.upkeep ∨ 0 < s1.upkeep.settled tx := by
      unfold State.upkeep
      split
      · rcases h0 with h | h
        · exact .inl (h.keep (asks_same rfl) rfl)
        · exact .inr h
      · exact h0
    generalize s1.upkeep = s2 at *
    unfold State.exploration
    split
    · exact h1
    split
    · have : Asking old key tx (s2.explore env k) ∨ 0 < (s2.explore env k).settled tx := by
        unfold State.explore
        split
        · exact h1
        · next f _ =>
          have g := quiet_lookup s2 env f k .exploration
          have a := asks_lookup s2 env f k .exploration key
          split
          · next s3 _ e =>
            rw [e] at g a
            simp only [reduceCtorEq, false_and, if_false, List.append_nil] at a
            rcases h1 with h | h
            · exact (h.keep a (by rw [g.active])).begin k _
            · exact .inr ((g.grow.trans (grow_begin s3 k _)).settled h)
          · next s3 _ e =>
            rw [e] at g a
            simp only [List.append_nil] at a
            rcases h1 with h | h
            · exact .inl (h.keep a (by rw [g.active]))
            · exact .inr (g.grow.settled h)
      rcases this with h | h
      · exact .inl (h.keep (asks_same rfl) rfl)
      · exact .inr h
    · exact h1

theorem grow_fireAll (env : Env) (fuel : Nat) (s : State) : Grow s (State.fireAll env fuel s) := by
  induction fuel generalizing s with
  | zero => exact Grow.same rfl
  | succ fuel ih =>
    unfold State.fireAll
    split
    · exact Grow.same rfl
    · exact (grow_fire s env _).trans (ih _)

theorem grow_fetches (s : State) (env : Env) (replier : Bytes) (rs : List Bytes) : Grow s (s.fetches env replier rs) := by
  unfold State.fetches
  induction rs generalizing s with
  | nil => exact Grow.same rfl
  | cons r rs ih =>
    refine Grow.trans ?_ (ih _)
    show Grow s (s.fetch env replier r)
    have g := quiet_lookup s env replier r .router
    unfold State.fetch
    split
    · next s1 _ e => rw [e] at g; exact g.grow.trans (grow_begin s1 r _)
    · next s1 _ e => rw [e] at g; exact g.grow

theorem grow_step (s : State) (env : Env) (op : Op) : Grow s (s.step env op) := by
  cases op with
  | advance d => exact Grow.same rfl
  | connected r => exact (quiet_established s env r).grow
  | closed r => exact Grow.same rfl
  | failed r => exact Grow.same rfl
  | outBuilt t => unfold State.step State.wake; dsimp only; split <;> first | exact Grow.same rfl | exact ⟨_, rfl⟩
  | inBuilt t => unfold State.step State.wake; dsimp only; split <;> first | exact Grow.same rfl | exact ⟨_, rfl⟩
  | outExpired t => exact Grow.same rfl
  | inExpired t => exact Grow.same rfl
  | lookup key kind reply ignore => exact (quiet_lookupMsg s env key kind reply ignore).grow
  | publish r raw => exact (quiet_send _ _ _ _ _).grow
  | waitReady t => unfold State.step; dsimp only; split <;> first | exact Grow.same rfl | exact ⟨_, rfl⟩
  | fire i => exact grow_fire s env i
  | closest key t =>
    show Grow s (s.closestFloodfills env key t)
    unfold State.closestFloodfills; dsimp only; split <;> exact ⟨_, rfl⟩
  | queryLs key t =>
    show Grow s (s.queryLs env key t)
    unfold State.queryLs
    split
    · exact Grow.same rfl
    · exact ⟨_, rfl⟩
    · split
      · exact ⟨_, rfl⟩
      · next f _ =>
        have g := quiet_lookup s env f key .leaseSet
        split
        · next s1 _ e => rw [e] at g; exact g.grow.trans (grow_begin s1 key _)
        · next s1 _ e => rw [e] at g; exact g.grow.trans ⟨_, rfl⟩
  | queryRi key t =>
    show Grow s (s.queryRi env key t)
    unfold State.queryRi
    split
    · exact Grow.same rfl
    · exact ⟨_, rfl⟩
    · split
      · exact ⟨_, rfl⟩
      · next f _ =>
        have g := quiet_lookup s env f key .router
        split
        · next s1 _ e => rw [e] at g; exact g.grow.trans (grow_begin s1 key _)
        · next s1 _ e => rw [e] at g; exact g.grow.trans ⟨_, rfl⟩
  | store sender key p reply =>
    refine Grow.trans (b := s.take key) (Grow.same rfl) ?_
    show Grow _ ((s.take key).storeAt env sender key p reply (s.active.get key))
    generalize s.take key = s1
    unfold State.storeAt
    cases s.active.get key with
    | none =>
      cases p with
      | routerInfo r => exact (quiet_routerInfoStore _ _ _ _ _).grow
      | leaseSet l =>
        dsimp only
        split
        · exact (quiet_leaseSetStore _ _ _ _ _).grow
        · exact Grow.same rfl
    | some k =>
      cases p with
      | leaseSet l => cases k <;> exact ⟨_, rfl⟩
      | routerInfo r =>
        cases k with
        | leaseSet q => exact ⟨_, rfl⟩
        | exploration => exact ⟨_, rfl⟩
        | router => exact (quiet_fetched _ _ _).grow
        | routerInfo q => exact ((quiet_credit s1 sender).grow.trans ⟨[.discover r], rfl⟩).trans ⟨_, rfl⟩
  | search sender m =>
    show Grow s (s.searchMsg env sender m)
    have c := (quiet_discredit s sender).grow
    unfold State.searchMsg
    cases m with
    | none => exact c
    | some m =>
      obtain ⟨key, routers, replier⟩ := m
      dsimp only
      refine Grow.trans (b := (s.discredit sender).take key) (c.trans (Grow.same rfl)) ?_
      generalize (s.discredit sender).take key = s1
      unfold State.searchAt
      cases s.active.get key with
      | none => exact Grow.same rfl
      | some k =>
        cases k with
        | router => exact Grow.same rfl
        | exploration => exact grow_fetches _ _ _ _
        | leaseSet q => exact (grow_fetches _ _ _ _).trans (grow_activate _ _ _)
        | routerInfo q => exact (grow_fetches _ _ _ _).trans (grow_activate _ _ _)
  | tick key =>
    show Grow s (s.tick env key)
    unfold State.tick
    refine (grow_fireAll env s.timers.length s).trans ?_
    generalize State.fireAll env s.timers.length s = s1
    have hu : Grow s1 s1.upkeep := by unfold State.upkeep; split <;> exact Grow.same rfl
    refine hu.trans ?_
    generalize s1.upkeep = s2
    unfold State.exploration
    split
    · exact Grow.same rfl
    split
    · refine Grow.trans (b := s2.explore env key) ?_ (Grow.same rfl)
      unfold State.explore
      split
      · exact Grow.same rfl
      · next f _ =>
        have g := quiet_lookup s2 env f key .exploration
        split
        · next s3 _ e => rw [e] at g; exact g.grow.trans (grow_begin s3 key _)
        · next s3 _ e => rw [e] at g; exact g.grow
    · exact Grow.same rfl

/-- The request itself. -/
theorem asking_query (s : State) (env : Env) (key : Bytes) (tx : Nat) :
    Asking (s.asksLs key) key tx (s.step env (.queryLs key tx)) ∨ 0 < (s.step env (.queryLs key tx)).settled tx := by
  show Asking _ key tx (s.queryLs env key tx) ∨ 0 < (s.queryLs env key tx).settled tx
  have cn : ∀ s : State, 0 < (s.out (.cancel tx)).settled tx := fun s => settled_of_mem (.cancel tx) (by show _ ∈ s.log ++ _; simp) rfl
  unfold State.queryLs
  cases hk : s.active.get key with
  | some x =>
    cases x with
    | leaseSet q =>
      refine .inl ⟨[], { q with subs := q.subs ++ [tx] }, (asks_same rfl).trans (List.append_nil _).symm, by simp, ?_, by simp, by intro f hf; cases hf⟩
      show (s.active.put key _).get key = _
      rw [AMap.get_put, if_pos rfl]
    | routerInfo q => exact .inr (cn s)
    | exploration => exact .inr (cn s)
    | router => exact .inr (cn s)
  | none =>
    dsimp only
    split
    · exact .inr (settled_of_mem (.leaseSet tx (.err .noFloodfills)) (by show _ ∈ s.log ++ _; simp) rfl)
    · next f _ =>
      have a := asks_lookup s env f key .leaseSet key
      split
      · next s1 _ e =>
        rw [e] at a
        simp only [and_self, if_true] at a
        refine .inl ⟨[f], .new tx f s1.now, (asks_begin s1 key _ key).trans a, by simp, ?_, by simp [Query.new], ?_⟩
        · show (s1.activate key _).active.get key = _
          rw [(activate_frame s1 key _).1, AMap.get_put, if_pos rfl]
        · intro x hx
          simp only [List.mem_singleton] at hx
          subst hx
          simp [Query.new]
      · next s1 er e => exact .inr (settled_of_mem (.leaseSet tx (.err er)) (by show _ ∈ s1.log ++ _; simp) rfl)

/-- C138, lease sets: as long as a caller waits for a lease set, no floodfill is asked twice for it, from the moment of the request on (or, if the
query was already running, from the moment the caller joined it), whatever floodfills answer, time out, or are named in replies. -/
theorem C138_lease_set (localId : Bytes) (netId : Nat) (ff : Bool) (fd rd : Table) (now : Nat) (env : Env)
    (before after : List (Env × Op)) (e : Env) (key : Bytes) (tx : Nat) (hb : asked before tx = 0) (ha : asked after tx = 0) :
    let s := (State.init localId netId ff fd rd now env).run before
    let s' := s.run ((e, .queryLs key tx) :: after)
    0 < waits s'.active tx → ∃ new, s'.asksLs key = s.asksLs key ++ new ∧ new.Nodup := by
  intro s s' hw
  have gen : ∀ (evs : List (Env × Op)) (x : State), Asking (s.asksLs key) key tx x ∨ 0 < x.settled tx →
      Asking (s.asksLs key) key tx (x.run evs) ∨ 0 < (x.run evs).settled tx := by
    intro evs
    induction evs with
    | nil => intro x h; exact h
    | cons ev evs ih =>
      intro x h
      refine ih (x.step ev.1 ev.2) ?_
      rcases h with h | h
      · exact h.step ev.1 ev.2
      · exact .inr ((grow_step x ev.1 ev.2).settled h)
  rcases gen after _ (asking_query s e key tx) with h | h
  · obtain ⟨new, q, a, b, _⟩ := h
    exact ⟨new, a, b⟩
  · exfalso
    have h : 0 < s'.settled tx := h
    have o := C135_once localId netId ff fd rd now env (before ++ ((e, .queryLs key tx) :: after)) tx
    have e1 : asked ([(e, Op.queryLs key tx)] ++ after) tx = 1 := by
      rw [asked_append, ha]; simp [asked, Op.asks]
    rw [asked_append, hb, show (e, Op.queryLs key tx) :: after = [(e, .queryLs key tx)] ++ after from rfl, e1, run_append] at o
    have o : s'.settled tx + waits s'.active tx = 0 + 1 := o
    omega

/-- Three floodfills are asked in turn while the caller waits. -/
example := C138_lease_set (tid 0) 2 false (((Table.new (tid 0)).addRouter (tid 1)).addRouter (tid 2) |>.addRouter (tid 3)) (Table.new (tid 0)) 0 (toyEnv [])
  [(toyEnv [], .outBuilt 7), (toyEnv [], .inBuilt ⟨tid 9, 8⟩)] (toyUnanswered.tail.take 4) (toyEnv []) (tid 5) 1 rfl rfl (by decide +kernel)

/-- The floodfills that were asked for the router info of a key, in order. -/
def State.asksRi (s : State) (key : Bytes) : List Bytes :=
  s.log.filterMap fun o => match o with
    | .lookup f k .router _ _ => if k = key then some f else none
    | _ => none

/-- C138 does not hold for router infos: a floodfill named in a reply whose router info is not known is chosen from the table of floodfills all the same,
and is asked again once its router info is known. -/
theorem C138_router_info_violated :
    ∃ evs : List (Env × Op), asked evs 1 = 1 ∧ 0 < waits (toyInit.run evs).active 1 ∧ (toyInit.run evs).asksRi (tid 5) = [tid 1, tid 3, tid 3] := by
  refine ⟨[(toyEnv [], .queryRi (tid 5) 1), (toyEnv [tid 3], .search none (some (tid 5, [tid 3], tid 1))), (toyEnv [tid 3], .advance 1600),
    (toyEnv [tid 3], .tick (tid 77)), (toyEnv [], .advance 1600), (toyEnv [], .tick (tid 77))], ?_, ?_, ?_⟩ <;> decide +kernel

theorem pickFirst_known (env : Env) (dht : Table) (key : Bytes) (n : Nat) : ∀ (ig : List Bytes) (f : Bytes), pickFirst env dht key n ig = some f → env.known f = true := by
  induction n with
  | zero => intro ig f h; cases h
  | succ n ih =>
    intro ig f h
    unfold pickFirst at h
    split at h
    · cases h
    · split at h
      · rename_i hk; injection h with h; exact h ▸ hk
      · exact ih _ f h

/-- C138: the first floodfill that is asked for a lease set is one whose router info is known, so that the query can be encrypted for it. -/
theorem C138_first (s : State) (env : Env) (key : Bytes) (tx : Nat) (f : Bytes) (out : Nat) (inb : Lease) (hn : s.active.get key = none)
    (h : (s.step env (.queryLs key tx)).log = s.log ++ [.lookup f key .leaseSet out inb]) : env.known f = true := by
  have h : (s.queryLs env key tx).log = _ := h
  unfold State.queryLs at h
  rw [hn] at h
  dsimp only at h
  split at h
  · have := List.append_cancel_left (show s.log ++ [_] = s.log ++ [_] from h)
    cases this
  · rename_i g hg
    have hk := pickFirst_known env _ key _ _ g hg
    unfold State.lookup at h
    have ht : s.tunnels.1.log = s.log ∧ s.tunnels.1.active = s.active := by
      unfold State.tunnels
      split
      · exact ⟨rfl, rfl⟩
      · split <;> exact ⟨rfl, rfl⟩
    revert h
    generalize s.tunnels = x at *
    obtain ⟨s1, o⟩ := x
    obtain ⟨ht, hact⟩ := ht
    dsimp only at ht hact
    intro h
    cases o with
    | none =>
      have h : s1.log ++ [_] = s.log ++ [_] := h
      rw [ht] at h
      have := List.append_cancel_left h
      cases this
    | some p =>
      dsimp only at h
      by_cases hp : env.poolOk key = true
      · rw [if_pos hp] at h
        dsimp only at h
        unfold State.activate at h
        rw [show (s1.out (Out.lookup g key .leaseSet p.1 p.2)).active.get key = none from hact ▸ hn] at h
        have h : s1.log ++ [Out.lookup g key .leaseSet p.1 p.2] = s.log ++ [_] := h
        rw [ht] at h
        have := List.append_cancel_left h
        injection this with this
        injection this with e
        exact e ▸ hk
      · rw [if_neg hp] at h
        have h : s1.log ++ [_] = s.log ++ [_] := h
        rw [ht] at h
        have := List.append_cancel_left h
        cases this

example := C138_first toyInit (toyEnv []) (tid 5) 1 (tid 1) 7 ⟨tid 9, 8⟩ (by decide +kernel) (by decide +kernel)

end Emissary.NetdbRun
