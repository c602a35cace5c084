import Verif.Model.NetdbRun
/-! The parts of the netdb task that queries and messages leave alone. -/
namespace Emissary.NetdbRun
open Emissary Emissary.Netdb

/-- Stored records, tunnels, those who wait for readiness, clocks and identity. -/
structure Core where
  leaseSets : AMap Bytes (Bytes × Nat)
  routerInfos : AMap Bytes (Bytes × Nat)
  outT : List Nat
  inT : List Lease
  ready : List Nat
  maintAt : Nat
  exploreAt : Option Nat
  floodfill : Bool
  netId : Nat
  localId : Bytes
  now : Nat

def State.core (s : State) : Core :=
  ⟨s.leaseSets, s.routerInfos, s.outTun.tunnels, s.inTun.tunnels, s.ready, s.maintAt, s.exploreAt, s.floodfill, s.netId, s.localId, s.now⟩

theorem core_sendOne (s : State) (env : Env) (m : Msg) (e : Option Nat) (r : Bytes) : (s.sendOne env m e r).core = s.core := by
  unfold State.sendOne
  split
  · split <;> rfl
  · rfl
  · rfl

theorem core_send (s : State) (env : Env) (rs : List Bytes) (m : Msg) (e : Option Nat) : (s.send env rs m e).core = s.core := by
  unfold State.send
  induction rs generalizing s with
  | nil => rfl
  | cons r rs ih => exact (ih _).trans (core_sendOne s env m e r)

theorem core_established (s : State) (env : Env) (r : Bytes) : (s.established env r).core = s.core := by
  unfold State.established
  dsimp only
  split <;> rfl

theorem core_flood (s : State) (env : Env) (key : Bytes) (reply : StoreReply) (m : Msg) (e : Nat) : (s.flood env key reply m e).core = s.core := by
  unfold State.flood
  split
  · rfl
  · exact (core_send _ _ _ _ _).trans (core_send _ _ _ _ _)

theorem core_addFloodfill (s : State) (r : RInfo) : (s.addFloodfill r).core = s.core := by
  unfold State.addFloodfill; split <;> rfl
theorem core_credit (s : State) (x : Option Bytes) : (s.credit x).core = s.core := by
  unfold State.credit; split <;> rfl
theorem core_discredit (s : State) (x : Option Bytes) : (s.discredit x).core = s.core := by
  unfold State.discredit; split <;> rfl

theorem core_fetched (s : State) (x : Option Bytes) (r : RInfo) : (s.fetched x r).core = s.core := by
  unfold State.fetched
  split
  · rfl
  split
  · rfl
  dsimp only
  have a := core_addFloodfill s r
  generalize s.addFloodfill r = s1 at *
  have b := core_credit { s1 with rtDht := s1.rtDht.map (fun t => Table.addRouter t r.id) } x
  exact b.trans a

theorem core_answer (s : State) (reply : LookupReply) (m : Msg) : (s.answer reply m).core = s.core := by
  unfold State.answer; split <;> rfl

theorem core_lookupMsg (s : State) (env : Env) (key : Bytes) (kind : LookupKind) (reply : LookupReply) (ignore : List Bytes) :
    (s.lookupMsg env key kind reply ignore).core = s.core := by
  unfold State.lookupMsg
  split
  · rfl
  cases kind <;> dsimp only
  · unfold State.leaseSetLookup; split <;> exact core_answer _ _ _
  · unfold State.routerInfoLookup; split <;> exact core_answer _ _ _
  · unfold State.explorationLookup
    split
    · rfl
    · dsimp only; split <;> exact core_send _ _ _ _ _

theorem next_tunnels {α : Type} (x : Selector α) : x.next.1.tunnels = x.tunnels := by
  unfold Selector.next; split <;> rfl

theorem core_lookup (s : State) (env : Env) (f k : Bytes) (kind : LookupKind) : (s.lookup env f k kind).1.core = s.core := by
  have ht : s.tunnels.1.core = s.core := by
    have ho := next_tunnels s.outTun
    have hi := next_tunnels s.inTun
    unfold State.tunnels
    split
    · rfl
    · next e =>
      rw [e] at ho
      split <;> (next e' => rw [e'] at hi; unfold State.core; dsimp only at ho hi ⊢; rw [ho, hi])
  unfold State.lookup
  split
  · next e => rw [e] at ht; exact ht
  · next e =>
    rw [e] at ht
    split
    · exact ht
    · exact ht

theorem core_charge (s : State) (q : Query) : (s.charge q).core = s.core := by
  unfold State.charge; split <;> rfl

theorem core_activate (s : State) (k : Bytes) (x : Kind) : (s.activate k x).core = s.core := by
  unfold State.activate; dsimp only; split <;> rfl

theorem core_begin (s : State) (k : Bytes) (x : Kind) : ((s.activate k x).arm k).core = s.core := core_activate s k x

theorem core_fetches (s : State) (env : Env) (replier : Bytes) (rs : List Bytes) : (s.fetches env replier rs).core = s.core := by
  unfold State.fetches
  induction rs generalizing s with
  | nil => rfl
  | cons r rs ih =>
    refine (ih _).trans ?_
    show (s.fetch env replier r).core = s.core
    have g := core_lookup s env replier r .router
    unfold State.fetch
    split
    · next s1 _ e => rw [e] at g; exact (core_begin s1 r _).trans g
    · next s1 _ e => rw [e] at g; exact g

theorem core_timeout (s : State) (env : Env) (key : Bytes) (k : Kind) : (s.handleTimeout env key k).core = s.core := by
  unfold State.handleTimeout
  cases k with
  | exploration => rfl
  | router => rfl
  | leaseSet q =>
    dsimp only
    have hc := core_charge s q
    generalize s.charge q = s1 at *
    split
    · exact hc
    · next q' f _ =>
      have g := core_lookup s1 env f key .leaseSet
      split
      · next s2 _ e => rw [e] at g; exact (core_begin s2 key _).trans (g.trans hc)
      · next s2 _ e => rw [e] at g; exact g.trans hc
  | routerInfo q =>
    dsimp only
    have hc := core_charge s q
    generalize s.charge q = s1 at *
    split
    · exact hc
    · next q' f _ =>
      have g := core_lookup s1 env f key .router
      split
      · next s2 _ e => rw [e] at g; exact (core_begin s2 key _).trans (g.trans hc)
      · next s2 _ e => rw [e] at g; exact (core_begin s2 key _).trans (g.trans hc)

theorem core_fire (s : State) (env : Env) (i : Nat) : (s.fire env i).core = s.core := by
  unfold State.fire
  split
  · rfl
  split
  · rfl
  split
  · rfl
  · next key _ _ _ _ k _ => exact (core_timeout (State.take { s with timers := s.timers.eraseIdx i } key) env key k).trans rfl

theorem core_fireAll (env : Env) (fuel : Nat) (s : State) : (State.fireAll env fuel s).core = s.core := by
  induction fuel generalizing s with
  | zero => rfl
  | succ fuel ih =>
    unfold State.fireAll
    split
    · rfl
    · exact (ih _).trans (core_fire s env _)

theorem core_explore (s : State) (env : Env) (key : Bytes) : (s.explore env key).core = s.core := by
  unfold State.explore
  split
  · rfl
  · next f _ =>
    have g := core_lookup s env f key .exploration
    split
    · next s3 _ e => rw [e] at g; exact (core_begin s3 key _).trans g
    · next s3 _ e => rw [e] at g; exact g

theorem core_queryLs (s : State) (env : Env) (key : Bytes) (t : Nat) : (s.queryLs env key t).core = s.core := by
  unfold State.queryLs
  split
  · rfl
  · rfl
  · split
    · rfl
    · next f _ =>
      have g := core_lookup s env f key .leaseSet
      split
      · next s1 _ e => rw [e] at g; exact (core_begin s1 key _).trans g
      · next s1 _ e => rw [e] at g; exact g

theorem core_queryRi (s : State) (env : Env) (key : Bytes) (t : Nat) : (s.queryRi env key t).core = s.core := by
  unfold State.queryRi
  split
  · rfl
  · rfl
  · split
    · rfl
    · next f _ =>
      have g := core_lookup s env f key .router
      split
      · next s1 _ e => rw [e] at g; exact (core_begin s1 key _).trans g
      · next s1 _ e => rw [e] at g; exact g

theorem core_search (s : State) (env : Env) (sender : Option Bytes) (m : Option (Bytes × List Bytes × Bytes)) : (s.searchMsg env sender m).core = s.core := by
  have c := core_discredit s sender
  unfold State.searchMsg
  cases m with
  | none => exact c
  | some m =>
    obtain ⟨key, routers, replier⟩ := m
    dsimp only
    have c1 : ((s.discredit sender).take key).core = s.core := c
    generalize (s.discredit sender).take key = s1 at *
    unfold State.searchAt
    cases s.active.get key with
    | none => exact c1
    | some k =>
      cases k with
      | router => exact c1
      | exploration => exact (core_fetches _ _ _ _).trans c1
      | leaseSet q => exact (core_activate _ _ _).trans ((core_fetches _ _ _ _).trans c1)
      | routerInfo q => exact (core_activate _ _ _).trans ((core_fetches _ _ _ _).trans c1)

/-- What a store does to the stored records. -/
theorem core_store (s : State) (env : Env) (sender : Option Bytes) (key : Bytes) (p : Payload) (reply : StoreReply) :
    (s.storeMsg env sender key p reply).core =
      match s.active.get key, p with
      | none, .routerInfo r =>
        if r.netId = s.netId ∧ r.id ≠ s.localId ∧ s.now ≤ r.published + 3600000 ∧ s.floodfill = true then
          { s.core with routerInfos := s.routerInfos.put key (r.raw, r.published) } else s.core
      | none, .leaseSet l =>
        if s.floodfill = true ∧ l.expired s.now = false then { s.core with leaseSets := s.leaseSets.put key (l.raw, l.expires) } else s.core
      | some _, _ => s.core := by
  unfold State.storeMsg State.storeAt
  cases hk : s.active.get key with
  | none =>
    cases p with
    | routerInfo r =>
      dsimp only
      unfold State.routerInfoStore
      have a := core_addFloodfill (s.take key) r
      have e1 : (s.take key).netId = s.netId := rfl
      have e2 : (s.take key).localId = s.localId := rfl
      have e3 : (s.take key).now = s.now := rfl
      rw [e1, e2, e3]
      by_cases h1 : r.netId = s.netId
      · rw [if_neg (by simpa using h1)]
        by_cases h2 : r.id = s.localId
        · rw [if_pos h2, if_neg (by simp [h2])]; rfl
        · rw [if_neg h2]
          by_cases h3 : r.published + 3600000 < s.now
          · rw [if_pos h3, if_neg (by omega)]; rfl
          · rw [if_neg h3]
            dsimp only
            have a : ((State.addFloodfill (s.take key) r).out (.discover r)).core = s.core := a
            generalize (State.addFloodfill (s.take key) r).out (.discover r) = s2 at *
            have hf : s2.floodfill = s.floodfill := congrArg Core.floodfill a
            cases h4 : s.floodfill with
            | false => rw [if_pos (by rw [hf, h4]; rfl), if_neg (by simp)]; exact a
            | true =>
              rw [if_neg (by rw [hf, h4]; simp), if_pos ⟨h1, h2, by omega, rfl⟩]
              refine (core_flood _ _ _ _ _ _).trans ?_
              show ({ s2.core with routerInfos := s2.core.routerInfos.put key (r.raw, r.published) } : Core) = _
              rw [a]
              rfl
      · rw [if_pos h1, if_neg (by simp [h1])]; rfl
    | leaseSet l =>
      dsimp only
      have e1 : (s.take key).floodfill = s.floodfill := rfl
      rw [e1]
      cases h4 : s.floodfill with
      | false => rw [if_neg (by simp), if_neg (by simp)]; rfl
      | true =>
        rw [if_pos rfl]
        unfold State.leaseSetStore
        have e3 : (s.take key).now = s.now := rfl
        rw [e3]
        cases h5 : l.expired s.now with
        | true => rw [if_pos rfl, if_neg (by simp)]; rfl
        | false =>
          rw [if_neg (by simp), if_pos ⟨rfl, rfl⟩]
          refine (core_flood _ _ _ _ _ _).trans ?_
          rfl
  | some k =>
    dsimp only
    cases p with
    | leaseSet l => cases k <;> rfl
    | routerInfo r =>
      cases k with
      | leaseSet q => rfl
      | exploration => rfl
      | router => exact (core_fetched _ _ _).trans rfl
      | routerInfo q => exact (core_credit (s.take key) sender).trans rfl

/-- What the end of a poll does to the core. -/
theorem core_tick (s : State) (env : Env) (key : Bytes) :
    (s.tick env key).core =
      { s.core with
        leaseSets := if s.maintAt ≤ s.now then s.leaseSets.keep fun _ l => !decide (l.2 < s.now) else s.leaseSets
        maintAt := if s.maintAt ≤ s.now then s.now + 30000 else s.maintAt
        exploreAt := match s.exploreAt with | none => none | some t => if t ≤ s.now then some (s.now + exploreDelay env) else some t } := by
  unfold State.tick
  have a := core_fireAll env s.timers.length s
  generalize State.fireAll env s.timers.length s = s1 at *
  have u : s1.upkeep.core = { s1.core with
        leaseSets := if s1.maintAt ≤ s1.now then s1.leaseSets.keep fun _ l => !decide (l.2 < s1.now) else s1.leaseSets
        maintAt := if s1.maintAt ≤ s1.now then s1.now + 30000 else s1.maintAt } := by
    unfold State.upkeep
    by_cases h : s1.maintAt ≤ s1.now
    · rw [if_pos h, if_pos h, if_pos h]; rfl
    · rw [if_neg h, if_neg h, if_neg h]; rfl
  have e1 : s1.maintAt = s.maintAt := congrArg Core.maintAt a
  have e2 : s1.now = s.now := congrArg Core.now a
  have e3 : s1.leaseSets = s.leaseSets := congrArg Core.leaseSets a
  have e4 : s1.exploreAt = s.exploreAt := congrArg Core.exploreAt a
  rw [a, e1, e2, e3] at u
  have x1 : s1.upkeep.exploreAt = s.exploreAt := congrArg Core.exploreAt u
  have x2 : s1.upkeep.now = s.now := congrArg Core.now u
  generalize s1.upkeep = s2 at *
  unfold State.exploration
  rw [x1]
  cases hx : s.exploreAt with
  | none => dsimp only; rw [u]; unfold State.core; rw [hx]
  | some t =>
    dsimp only
    rw [x2]
    by_cases h : t ≤ s.now
    · rw [if_pos h, if_pos h]
      have g := core_explore s2 env key
      have : ({ s2.explore env key with exploreAt := some (s.now + exploreDelay env) } : State).core = { (s2.explore env key).core with exploreAt := some (s.now + exploreDelay env) } := rfl
      rw [this, g, u]
    · rw [if_neg h, if_neg h, u]; unfold State.core; rw [hx]

end Emissary.NetdbRun
