import Verif.Props.NetdbQuery
/-!
# C137: what a lease set query is answered with
-/
namespace Emissary.NetdbRun
open Emissary Emissary.Netdb

/-! ## Examples for C136 -/

/-- A router info and a lease set that have nothing to do with the key asked for. -/
def toyRi : RInfo := { id := tid 40, netId := 2, published := 0, floodfill := false, raw := [1] }
def toyLs : LSet := { dest := tid 41, headerExpires := 0, leases := [], raw := [2] }

/-- A lease set query is active under key 5. -/
def toyAsked : State := toyInit.run [(toyEnv [], .queryLs (tid 5) 1), (toyEnv [], .queryLs (tid 5) 2)]

/-- Its query. -/
def toyQuery : Query := { queried := [tid 1], selected := some (tid 1), started := 0, subs := [1, 2] }

example := C136_mismatch_violated toyAsked (toyEnv []) none (tid 5) (.leaseSet toyQuery) (.routerInfo toyRi) .none (by decide +kernel) rfl

/-- A router info query for router 6 is active as well. -/
def toyBoth : State := toyAsked.run [(toyEnv [], .queryRi (tid 6) 3)]

example := C136_overwrite_violated toyBoth (toyEnv [tid 6]) none (tid 5) (tid 6) (tid 1) toyQuery
  (.routerInfo { queried := [tid 2], selected := some (tid 2), started := 0, subs := [3] })
  (by decide +kernel) (by decide +kernel) (by decide +kernel) (by decide +kernel) (by decide +kernel) (by decide +kernel) (by decide +kernel) rfl

example := (C136_busy_violated toyAsked (toyEnv []) (tid 5) (.leaseSet toyQuery) 9 (by decide +kernel)).2 (fun q => by simp)

/-! ## C137 -/

/-- C137 does not hold: whatever lease set comes first in a store with the key, of any destination, expired or without leases, is given to everyone
who waits as the lease set asked for. -/
theorem C137_violated (s : State) (env : Env) (sender : Option Bytes) (key : Bytes) (q : Query) (l : LSet) (reply : StoreReply)
    (h : s.active.get key = some (.leaseSet q)) :
    (s.step env (.store sender key (.leaseSet l) reply)).log = s.log ++ q.subs.map fun tx => .leaseSet tx (.ok l) := by
  show ((s.take key).storeAt env sender key (.leaseSet l) reply (s.active.get key)).log = _
  rw [h]
  rfl

/-- The answer is the lease set of another destination, which expired long ago. -/
example := C137_violated toyAsked (toyEnv []) none (tid 5) toyQuery toyLs .none (by decide +kernel)
example : toyLs.dest ≠ tid 5 ∧ toyLs.expired 1000 = true := by decide

/-- Every answer with a lease set in the log was there before. -/
def NoAnswer (s s' : State) : Prop := ∀ tx l, Out.leaseSet tx (.ok l) ∈ s'.log → Out.leaseSet tx (.ok l) ∈ s.log

theorem NoAnswer.trans {a b c : State} (h : NoAnswer a b) (g : NoAnswer b c) : NoAnswer a c := fun tx l x => h tx l (g tx l x)

theorem NoAnswer.app {s s' : State} (l' : List Out) (e : s'.log = s.log ++ l') (h : ∀ o ∈ l', ∀ tx l, o ≠ .leaseSet tx (.ok l)) : NoAnswer s s' := by
  intro tx l hm
  rw [e] at hm
  rcases List.mem_append.mp hm with h' | h'
  · exact h'
  · exact absurd rfl (h _ h' tx l)

theorem NoAnswer.same {s s' : State} (e : s'.log = s.log) : NoAnswer s s' := NoAnswer.app [] (by rw [e, List.append_nil]) (by simp)

theorem Quiet.noAnswer {s s' : State} (g : Quiet s s') : NoAnswer s s' := by
  obtain ⟨l, e, hl⟩ := g.log
  refine NoAnswer.app l e fun o ho tx l' he => ?_
  have := (hl o ho).1
  rw [he] at this
  cases this

theorem noAnswer_drop (s : State) (k : Kind) : NoAnswer s (s.drop k) := NoAnswer.app _ rfl (by simp)

theorem noAnswer_activate (s : State) (key : Bytes) (k : Kind) : NoAnswer s (s.activate key k) := by
  unfold State.activate
  dsimp only
  split
  · exact noAnswer_drop s _
  · exact NoAnswer.same rfl

theorem noAnswer_begin (s : State) (key : Bytes) (k : Kind) : NoAnswer s ((s.activate key k).arm key) :=
  (noAnswer_activate s key k).trans (NoAnswer.same rfl)

theorem noAnswer_err (s : State) (q : Query) (e : QErr) : NoAnswer s (s.completeLs q (.err e)) := NoAnswer.app _ rfl (by simp)
theorem noAnswer_ri (s : State) (q : Query) (r : Res Unit) : NoAnswer s (s.completeRi q r) := NoAnswer.app _ rfl (by simp)

theorem noAnswer_fetches (s : State) (env : Env) (replier : Bytes) (rs : List Bytes) : NoAnswer s (s.fetches env replier rs) := by
  unfold State.fetches
  induction rs generalizing s with
  | nil => exact NoAnswer.same rfl
  | cons r rs ih =>
    refine NoAnswer.trans ?_ (ih _)
    have g := quiet_lookup s env replier r .router
    show NoAnswer s (s.fetch env replier r)
    unfold State.fetch
    split
    · next s1 _ e => rw [e] at g; exact g.noAnswer.trans (noAnswer_begin s1 r _)
    · next s1 _ e => rw [e] at g; exact g.noAnswer

theorem noAnswer_timeout (s : State) (env : Env) (key : Bytes) (k : Kind) : NoAnswer s (s.handleTimeout env key k) := by
  unfold State.handleTimeout
  cases k with
  | exploration => exact NoAnswer.same rfl
  | router => exact NoAnswer.same rfl
  | leaseSet q =>
    dsimp only
    have hc := (quiet_charge s q).noAnswer
    generalize s.charge q = s1 at *
    split
    · exact hc.trans (noAnswer_err _ _ _)
    · next q' f _ =>
      have g := quiet_lookup s1 env f key .leaseSet
      split
      · next s2 _ e => rw [e] at g; exact hc.trans (g.noAnswer.trans (noAnswer_begin s2 key _))
      · next s2 _ e => rw [e] at g; exact hc.trans (g.noAnswer.trans (noAnswer_err _ _ _))
  | routerInfo q =>
    dsimp only
    have hc := (quiet_charge s q).noAnswer
    generalize s.charge q = s1 at *
    split
    · exact hc.trans (noAnswer_ri _ _ _)
    · next q' f _ =>
      have g := quiet_lookup s1 env f key .router
      split
      · next s2 _ e => rw [e] at g; exact hc.trans (g.noAnswer.trans (noAnswer_begin s2 key _))
      · next s2 _ e => rw [e] at g; exact hc.trans (g.noAnswer.trans (noAnswer_begin s2 key _))

theorem noAnswer_fire (s : State) (env : Env) (i : Nat) : NoAnswer s (s.fire env i) := by
  unfold State.fire
  split
  · exact NoAnswer.same rfl
  split
  · exact NoAnswer.same rfl
  split
  · exact NoAnswer.same rfl
  · next key _ _ _ _ k _ => exact NoAnswer.trans (NoAnswer.same rfl) (noAnswer_timeout (State.take { s with timers := s.timers.eraseIdx i } key) env key k)

theorem noAnswer_fireAll (env : Env) (fuel : Nat) (s : State) : NoAnswer s (State.fireAll env fuel s) := by
  induction fuel generalizing s with
  | zero => exact NoAnswer.same rfl
  | succ fuel ih =>
    unfold State.fireAll
    split
    · exact NoAnswer.same rfl
    · exact (noAnswer_fire s env _).trans (ih _)

/-- Only a store with a lease set answers with a lease set, and only the query of its key. -/
theorem answer_step (s : State) (env : Env) (op : Op) (tx : Nat) (l : LSet) (h : .leaseSet tx (.ok l) ∈ (s.step env op).log) :
    .leaseSet tx (.ok l) ∈ s.log ∨
    ∃ sender key reply q, op = .store sender key (.leaseSet l) reply ∧ s.active.get key = some (.leaseSet q) ∧ tx ∈ q.subs := by
  have left : NoAnswer s (s.step env op) → (.leaseSet tx (.ok l) ∈ s.log ∨
    ∃ sender key reply q, op = .store sender key (.leaseSet l) reply ∧ s.active.get key = some (.leaseSet q) ∧ tx ∈ q.subs) := fun n => Or.inl (n tx l h)
  cases op with
  | advance d => exact left (NoAnswer.same rfl)
  | connected r => exact left (quiet_established s env r).noAnswer
  | closed r => exact left (NoAnswer.same rfl)
  | failed r => exact left (NoAnswer.same rfl)
  | outBuilt t =>
    refine left ?_
    unfold State.step State.wake; dsimp only
    split
    · exact NoAnswer.app (s.ready.map Out.ready) rfl (by simp)
    · exact NoAnswer.same rfl
  | inBuilt t =>
    refine left ?_
    unfold State.step State.wake; dsimp only
    split
    · exact NoAnswer.app (s.ready.map Out.ready) rfl (by simp)
    · exact NoAnswer.same rfl
  | outExpired t => exact left (NoAnswer.same rfl)
  | inExpired t => exact left (NoAnswer.same rfl)
  | lookup key kind reply ignore => exact left (quiet_lookupMsg s env key kind reply ignore).noAnswer
  | publish r raw => exact left (quiet_send _ _ _ _ _).noAnswer
  | waitReady t =>
    refine left ?_
    unfold State.step
    dsimp only
    split
    · exact NoAnswer.app [.ready t] rfl (by simp)
    · exact NoAnswer.same rfl
  | fire i => exact left (noAnswer_fire s env i)
  | closest key t =>
    refine left ?_
    show NoAnswer s (s.closestFloodfills env key t)
    unfold State.closestFloodfills
    dsimp only
    split
    · exact NoAnswer.app [.cancel t] rfl (by simp)
    · exact NoAnswer.app [_] rfl (by simp)
  | queryLs key t =>
    refine left ?_
    show NoAnswer s (s.queryLs env key t)
    unfold State.queryLs
    cases hk : s.active.get key with
    | some k => cases k <;> first | exact NoAnswer.same rfl | exact NoAnswer.app [.cancel t] rfl (by simp)
    | none =>
      dsimp only
      split
      · exact NoAnswer.app [_] rfl (by simp)
      · next f _ =>
        have g := quiet_lookup s env f key .leaseSet
        split
        · next s1 _ e => rw [e] at g; exact g.noAnswer.trans (noAnswer_begin s1 key _)
        · next s1 _ e => rw [e] at g; exact g.noAnswer.trans (NoAnswer.app [_] rfl (by simp))
  | queryRi key t =>
    refine left ?_
    show NoAnswer s (s.queryRi env key t)
    unfold State.queryRi
    cases hk : s.active.get key with
    | some k => cases k <;> first | exact NoAnswer.same rfl | exact NoAnswer.app [.cancel t] rfl (by simp)
    | none =>
      dsimp only
      split
      · exact NoAnswer.app [_] rfl (by simp)
      · next f _ =>
        have g := quiet_lookup s env f key .router
        split
        · next s1 _ e => rw [e] at g; exact g.noAnswer.trans (noAnswer_begin s1 key _)
        · next s1 _ e => rw [e] at g; exact g.noAnswer.trans (NoAnswer.app [_] rfl (by simp))
  | search sender m =>
    refine left ?_
    show NoAnswer s (s.searchMsg env sender m)
    have c := (quiet_discredit s sender).noAnswer
    unfold State.searchMsg
    cases m with
    | none => exact c
    | some m =>
      obtain ⟨key, routers, replier⟩ := m
      dsimp only
      have ct : NoAnswer s ((s.discredit sender).take key) := c.trans (NoAnswer.same rfl)
      refine ct.trans ?_
      generalize (s.discredit sender).take key = s1
      unfold State.searchAt
      cases s.active.get key with
      | none => exact NoAnswer.same rfl
      | some k =>
        cases k with
        | router => exact NoAnswer.same rfl
        | exploration => exact noAnswer_fetches _ _ _ _
        | leaseSet q => exact (noAnswer_fetches _ _ _ _).trans (noAnswer_activate _ _ _)
        | routerInfo q => exact (noAnswer_fetches _ _ _ _).trans (noAnswer_activate _ _ _)
  | tick key =>
    refine left ?_
    show NoAnswer s (s.tick env key)
    unfold State.tick
    refine (noAnswer_fireAll env s.timers.length s).trans ?_
    generalize State.fireAll env s.timers.length s = s1
    have hu : NoAnswer s1 s1.upkeep := by unfold State.upkeep; split <;> exact NoAnswer.same rfl
    refine hu.trans ?_
    generalize s1.upkeep = s2
    unfold State.exploration
    split
    · exact NoAnswer.same rfl
    split
    · refine NoAnswer.trans (b := s2.explore env key) ?_ (NoAnswer.same rfl)
      unfold State.explore
      split
      · exact NoAnswer.same rfl
      · next f _ =>
        have g := quiet_lookup s2 env f key .exploration
        split
        · next s3 _ e => rw [e] at g; exact g.noAnswer.trans (noAnswer_begin s3 key _)
        · next s3 _ e => rw [e] at g; exact g.noAnswer
    · exact NoAnswer.same rfl
  | store sender key p reply =>
    have h : .leaseSet tx (.ok l) ∈ ((s.take key).storeAt env sender key p reply (s.active.get key)).log := h
    have left : NoAnswer (s.take key) ((s.take key).storeAt env sender key p reply (s.active.get key)) →
      (.leaseSet tx (.ok l) ∈ s.log ∨
      ∃ sender' key' reply' q, Op.store sender key p reply = .store sender' key' (.leaseSet l) reply' ∧ s.active.get key' = some (.leaseSet q) ∧ tx ∈ q.subs) := fun n => Or.inl (n tx l h)
    cases hk : s.active.get key with
    | none =>
      rw [hk] at left
      refine left ?_
      unfold State.storeAt
      cases p with
      | routerInfo r => exact (quiet_routerInfoStore _ _ _ _ _).noAnswer
      | leaseSet l =>
        dsimp only
        split
        · exact (quiet_leaseSetStore _ _ _ _ _).noAnswer
        · exact NoAnswer.same rfl
    | some k =>
      cases p with
      | leaseSet l' =>
        cases k with
        | leaseSet q =>
          rw [hk] at h
          have h : .leaseSet tx (.ok l) ∈ s.log ++ q.subs.map fun tx => Out.leaseSet tx (.ok l') := h
          rcases List.mem_append.mp h with h | h
          · exact .inl h
          · obtain ⟨t, ht, e⟩ := List.mem_map.mp h
            cases e
            exact .inr ⟨sender, key, reply, q, rfl, hk, ht⟩
        | routerInfo q => rw [hk] at left; exact left (noAnswer_drop _ _)
        | exploration => rw [hk] at left; exact left (noAnswer_drop _ _)
        | router => rw [hk] at left; exact left (noAnswer_drop _ _)
      | routerInfo r =>
        cases k with
        | leaseSet q => rw [hk] at left; exact left (noAnswer_drop _ _)
        | exploration => rw [hk] at left; exact left (noAnswer_drop _ _)
        | router => rw [hk] at left; exact left (quiet_fetched _ _ _).noAnswer
        | routerInfo q =>
          rw [hk] at left
          refine left ((quiet_credit _ sender).noAnswer.trans (NoAnswer.trans (NoAnswer.app [.discover r] rfl (by simp)) (noAnswer_ri _ _ _)))

theorem List.snoc_cases {α : Type} (l : List α) : l = [] ∨ ∃ a x, l = a ++ [x] := by
  rcases List.eq_nil_or_concat l with h | ⟨a, x, h⟩
  · exact .inl h
  · exact .inr ⟨a, x, by rw [h, List.concat_eq_append]⟩

/-- C137, what holds: who is given a lease set had asked for the key, and the lease set came, after that, in a store message with that key. Missing:
that it is the lease set of the destination asked for and has not expired. -/
theorem C137_source_partial (localId : Bytes) (netId : Nat) (ff : Bool) (fd rd : Table) (now : Nat) (env : Env) (evs : List (Env × Op)) (tx : Nat) (l : LSet)
    (h : .leaseSet tx (.ok l) ∈ ((State.init localId netId ff fd rd now env).run evs).log) :
    ∃ before after e sender key reply, evs = before ++ (e, .store sender key (.leaseSet l) reply) :: after ∧ ∃ x ∈ before, x.2 = .queryLs key tx := by
  induction hn : evs.length generalizing evs with
  | zero =>
    rw [List.length_eq_zero_iff.mp hn] at h
    cases h
  | succ n ih =>
    rcases List.snoc_cases evs with e | ⟨pre, ev, e⟩
    · rw [e] at hn; cases hn
    subst e
    rw [run_append] at h
    rcases answer_step _ ev.1 ev.2 tx l h with h' | ⟨sender, key, reply, q, ho, hk, hm⟩
    · obtain ⟨b, a, e, sender, key, reply, hb, hx⟩ := ih pre h' (by simp at hn; exact hn)
      exact ⟨b, a ++ [ev], e, sender, key, reply, by rw [hb, List.append_assoc]; rfl, hx⟩
    · refine ⟨pre, [], ev.1, sender, key, reply, by rw [← ho], ?_⟩
      let P : Bytes → Bool → Nat → List Nat → Prop := fun key b _ subs => b = true → ∀ t ∈ subs, ∃ x ∈ pre, x.2 = .queryLs key t
      have ht : Timed P ((State.init localId netId ff fd rd now env).run pre) := by
        refine (Timed.init localId netId ff fd rd now env).run pre ?_ ?_
        · intro x hx key b t hw st hb t' ht'
          simp only [List.mem_singleton] at ht'
          subst ht' hb
          refine ⟨x, hx, ?_⟩
          obtain ⟨_, op⟩ := x
          cases op <;> cases hw
          rfl
        · intro x hx key b t hw st l hp hb t' ht'
          rcases List.mem_append.mp ht' with h' | h'
          · exact hp hb t' h'
          · simp only [List.mem_singleton] at h'
            subst h' hb
            refine ⟨x, hx, ?_⟩
            obtain ⟨_, op⟩ := x
            cases op <;> cases hw
            rfl
      exact (ht key _ q hk rfl).1 rfl tx hm

example := C137_source_partial (tid 0) 2 false (((Table.new (tid 0)).addRouter (tid 1)).addRouter (tid 2) |>.addRouter (tid 3)) (Table.new (tid 0)) 0 (toyEnv [])
  [(toyEnv [], .outBuilt 7), (toyEnv [], .inBuilt ⟨tid 9, 8⟩), (toyEnv [], .queryLs (tid 5) 1), (toyEnv [], .store none (tid 5) (.leaseSet toyLs) .none)] 1 toyLs
  (by decide +kernel)

end Emissary.NetdbRun
