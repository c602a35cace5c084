import Verif.Lemmas.NetdbOut
import Verif.Props.NetdbServe
import Mathlib.Data.List.Rotate
/-!
# What the netdb task lets out: C143, C144, C145, C146, C147, C148
-/
namespace Emissary.NetdbRun
open Emissary Emissary.Netdb

/-! ## C143 -/

/-- What a store adds to the log. -/
theorem adds_store (s : State) (env : Env) (sender : Option Bytes) (key : Bytes) (p : Payload) (reply : StoreReply) :
    Adds (fun o => match s.active.get key, p with
      | none, .routerInfo r => r.netId = s.netId ∧ r.id ≠ s.localId ∧ s.now ≤ r.published + 3600000 ∧
          (o = .discover r ∨ (s.floodfill = true ∧ reply ≠ .none ∧ o.isSend))
      | none, .leaseSet l => s.floodfill = true ∧ l.expired s.now = false ∧ reply ≠ .none ∧ o.isSend
      | some (.leaseSet q), .leaseSet l => ∃ tx ∈ q.subs, o = .leaseSet tx (.ok l)
      | some .router, .routerInfo r => r.netId = s.netId ∧ r.id ≠ s.localId ∧ o = .discover r
      | some (.routerInfo q), .routerInfo r => o = .discover r ∨ ∃ tx ∈ q.subs, ∃ x, o = .routerInfo tx x
      | some k, _ => ∃ tx ∈ k.subs, o = .cancel tx) s (s.storeMsg env sender key p reply) := by
  unfold State.storeMsg State.storeAt
  have flooded : ∀ (x : State) (k : Bytes) (m : Msg) (e : Nat), Adds (fun o => reply ≠ .none ∧ o.isSend) x (x.flood env k reply m e) := by
    intro x k m e
    cases reply with
    | none => exact .same rfl
    | tunnel a b c => exact (adds_flood x env k _ m e).mono (fun o h => ⟨by simp, h⟩)
    | router a b => exact (adds_flood x env k _ m e).mono (fun o h => ⟨by simp, h⟩)
  cases hk : s.active.get key with
  | none =>
    cases p with
    | routerInfo r =>
      dsimp only
      unfold State.routerInfoStore
      have e1 : (s.take key).netId = s.netId := rfl
      have e2 : (s.take key).localId = s.localId := rfl
      have e3 : (s.take key).now = s.now := rfl
      rw [e1, e2, e3]
      by_cases h1 : r.netId = s.netId
      · rw [if_neg (by simpa using h1)]
        by_cases h2 : r.id = s.localId
        · rw [if_pos h2]; exact .same rfl
        · rw [if_neg h2]
          by_cases h3 : r.published + 3600000 < s.now
          · rw [if_pos h3]; exact .same rfl
          · rw [if_neg h3]
            dsimp only
            have a := log_addFloodfill (s.take key) r
            have a' := core_addFloodfill (s.take key) r
            have b : Adds (fun o => o = .discover r) s ((State.addFloodfill (s.take key) r).out (.discover r)) :=
              .one (congrArg (· ++ [Out.discover r]) (a.trans rfl)) rfl
            have hf : ((State.addFloodfill (s.take key) r).out (.discover r)).floodfill = s.floodfill := congrArg Core.floodfill a'
            generalize (State.addFloodfill (s.take key) r).out (.discover r) = s2 at *
            have b1 := b.mono (D := fun o => r.netId = s.netId ∧ r.id ≠ s.localId ∧ s.now ≤ r.published + 3600000 ∧
              (o = .discover r ∨ (s.floodfill = true ∧ reply ≠ .none ∧ o.isSend))) (fun o h => ⟨h1, h2, by omega, .inl h⟩)
            cases h4 : s.floodfill with
            | false =>
              rw [if_pos (by rw [hf, h4]; rfl)]
              rw [h4] at b1
              exact b1
            | true =>
              rw [if_neg (by rw [hf, h4]; simp)]
              rw [h4] at b1
              refine b1.trans (Adds.trans (b := { s2 with routerInfos := s2.routerInfos.put key (r.raw, r.published), rtDht := s2.rtDht.map (fun t => Table.addRouter t r.id) }) (.same rfl) ?_)
              exact (flooded _ _ _ _).mono (fun o h => ⟨h1, h2, by omega, .inr ⟨rfl, h⟩⟩)
      · rw [if_pos h1]; exact .same rfl
    | leaseSet l =>
      dsimp only
      have e1 : (s.take key).floodfill = s.floodfill := rfl
      rw [e1]
      cases h4 : s.floodfill with
      | false => rw [if_neg (by simp)]; exact .same rfl
      | true =>
        rw [if_pos rfl]
        unfold State.leaseSetStore
        have e3 : (s.take key).now = s.now := rfl
        rw [e3]
        cases h5 : l.expired s.now with
        | true => rw [if_pos rfl]; exact .same rfl
        | false =>
          rw [if_neg (by simp)]
          refine Adds.trans (b := { s.take key with leaseSets := (s.take key).leaseSets.put key (l.raw, l.expires) }) (.same rfl) ?_
          exact (flooded _ _ _ _).mono (fun o h => ⟨rfl, rfl, h⟩)
  | some k =>
    have dropped : Adds (fun o => ∃ tx ∈ k.subs, o = .cancel tx) s ((s.take key).drop k) := by
      refine .many rfl ?_
      intro o ho
      obtain ⟨tx, h, e⟩ := List.mem_map.mp ho
      exact ⟨tx, h, e.symm⟩
    dsimp only
    cases p with
    | leaseSet l =>
      cases k with
      | leaseSet q =>
        refine .many rfl ?_
        intro o ho
        obtain ⟨tx, h, e⟩ := List.mem_map.mp ho
        exact ⟨tx, h, e.symm⟩
      | routerInfo q => exact dropped
      | exploration => exact dropped
      | router => exact dropped
    | routerInfo r =>
      cases k with
      | leaseSet q => exact dropped
      | exploration => exact dropped
      | router =>
        have h : ((s.take key).fetched sender r).log = if r.netId = s.netId ∧ r.id ≠ s.localId then s.log ++ [.discover r] else s.log :=
          log_fetched (s.take key) sender r
        by_cases hc : r.netId = s.netId ∧ r.id ≠ s.localId
        · rw [if_pos hc] at h
          exact .one h ⟨hc.1, hc.2, rfl⟩
        · rw [if_neg hc] at h
          exact .same h
      | routerInfo q =>
        have h1 : (State.out ((s.take key).credit sender) (.discover r)).log = s.log ++ [.discover r] :=
          congrArg (· ++ [Out.discover r]) ((log_credit (s.take key) sender).trans rfl)
        refine Adds.trans (b := State.out ((s.take key).credit sender) (.discover r)) (.one h1 (.inl rfl)) ?_
        refine .many rfl ?_
        intro o ho
        obtain ⟨tx, h, e⟩ := List.mem_map.mp ho
        exact .inr ⟨tx, h, _, e.symm⟩

/-- Nothing but a store gives a router info to the profile storage. -/
theorem discover_source (s : State) (env : Env) (op : Op) (r : RInfo) (h : .discover r ∈ (s.step env op).log) (hn : .discover r ∉ s.log) :
    ∃ sender key p reply, op = .store sender key p reply := by
  have work : ∀ (s' : State) (a : List Nat) (b : List Lease), Adds (Out.isWork a b) s s' → .discover r ∈ s'.log → False := by
    intro s' a b ha hm
    rcases ha.mem hm with g | g
    · exact hn g
    · exact g
  have sends : ∀ (s' : State), Adds Out.isSend s s' → .discover r ∈ s'.log → False := by
    intro s' ha hm
    rcases ha.mem hm with g | g
    · exact hn g
    · exact g
  have one : ∀ (o : Out), .discover r ∈ s.log ++ [o] → o ≠ .discover r → False := by
    intro o hm ho
    rcases List.mem_append.mp hm with g | g
    · exact hn g
    · exact ho (List.mem_singleton.mp g).symm
  have woken : .discover r ∈ s.log ++ s.ready.map .ready → False := by
    intro hm
    rcases List.mem_append.mp hm with g | g
    · exact hn g
    · obtain ⟨tx, _, e⟩ := List.mem_map.mp g; cases e
  cases op with
  | advance d => exact absurd h hn
  | connected x => exact (sends _ (adds_established s env x) h).elim
  | closed x => exact absurd h hn
  | failed x => exact absurd h hn
  | outBuilt t =>
    unfold State.step at h; dsimp only at h
    split at h
    · exact (woken h).elim
    · exact absurd h hn
  | outExpired t => exact absurd h hn
  | inBuilt t =>
    unfold State.step at h; dsimp only at h
    split at h
    · exact (woken h).elim
    · exact absurd h hn
  | inExpired t => exact absurd h hn
  | queryLs k t => exact (work _ _ _ (works_queryLs s env k t).2 h).elim
  | queryRi k t => exact (work _ _ _ (works_queryRi s env k t).2 h).elim
  | closest k t =>
    unfold State.step State.closestFloodfills at h; dsimp only at h
    split at h
    · exact (one _ h (by simp)).elim
    · exact (one _ h (by simp)).elim
  | publish k x => exact (sends _ (adds_send s env _ _ _) h).elim
  | waitReady t =>
    unfold State.step at h; dsimp only at h
    split at h
    · exact (one _ h (by simp)).elim
    · exact absurd h hn
  | fire i => exact (work _ _ _ (works_fire s env i).2 h).elim
  | tick k => exact (work _ _ _ (adds_tick s env k) h).elim
  | lookup k kd x ig =>
    exfalso
    have h : Out.discover r ∈ (s.lookupMsg env k kd x ig).log := h
    unfold State.lookupMsg at h
    split at h
    · exact hn h
    cases kd with
    | normal => exact hn h
    | leaseSet =>
      dsimp only at h
      unfold State.leaseSetLookup at h
      split at h <;> (rw [answer_eq] at h; exact one _ h (by cases x <;> simp [answerTo]))
    | router =>
      dsimp only at h
      unfold State.routerInfoLookup at h
      split at h <;> (rw [answer_eq] at h; exact one _ h (by cases x <;> simp [answerTo]))
    | exploration =>
      dsimp only at h
      unfold State.explorationLookup at h
      split at h
      · exact hn h
      · dsimp only at h
        split at h
        · exact sends _ (adds_send s env _ _ _) h
        · exact sends _ (adds_send s env _ _ _) h
  | search sd m => exact (work _ _ _ (works_search s env sd m).2 h).elim
  | store sd k p x => exact ⟨sd, k, p, x, rfl⟩

/-- C143: a router info the task gives to the profile storage came in a store. If nobody asked for it, it is of this network, not this router's own, and
not older than an hour; if it was fetched after a search reply, it is of this network and not this router's own. Partial: nothing is checked in
answers to router info queries, and the age of fetched router infos is not. -/
theorem C143_checked_partial (s : State) (env : Env) (op : Op) (r : RInfo) (h : .discover r ∈ (s.step env op).log) (hn : .discover r ∉ s.log) :
    ∃ sender key reply, op = .store sender key (.routerInfo r) reply ∧
      ((s.active.get key = none ∧ r.netId = s.netId ∧ r.id ≠ s.localId ∧ s.now ≤ r.published + 3600000) ∨
       (s.active.get key = some .router ∧ r.netId = s.netId ∧ r.id ≠ s.localId) ∨
       ∃ q, s.active.get key = some (.routerInfo q)) := by
  obtain ⟨sender, key, p, reply, rfl⟩ := discover_source s env op r h hn
  have a := adds_store s env sender key p reply
  rcases a.mem (show Out.discover r ∈ (s.storeMsg env sender key p reply).log from h) with g | g
  · exact absurd g hn
  cases hk : s.active.get key with
  | none =>
    rw [hk] at g
    cases p with
    | routerInfo r' =>
      obtain ⟨h1, h2, h3, h4 | ⟨_, _, h4⟩⟩ := g
      · injection h4 with h4; subst h4
        exact ⟨sender, key, reply, rfl, .inl ⟨hk, h1, h2, h3⟩⟩
      · exact h4.elim
    | leaseSet l => exact g.2.2.2.elim
  | some k =>
    rw [hk] at g
    cases p with
    | leaseSet l => cases k <;> (obtain ⟨tx, _, e⟩ := g; cases e)
    | routerInfo r' =>
      cases k with
      | leaseSet q => obtain ⟨tx, _, e⟩ := g; cases e
      | exploration => obtain ⟨tx, _, e⟩ := g; cases e
      | router =>
        obtain ⟨h1, h2, h3⟩ := g
        injection h3 with h3; subst h3
        exact ⟨sender, key, reply, rfl, .inr (.inl ⟨hk, h1, h2⟩)⟩
      | routerInfo q =>
        rcases g with g | ⟨tx, _, x, e⟩
        · injection g with g; subst g
          exact ⟨sender, key, reply, rfl, .inr (.inr ⟨q, hk⟩)⟩
        · cases e

/-- C143 does not hold for answers to router info queries: whatever router info arrives under the key is given to the profile storage, be it of another
network, of another router, or made up about this very router. -/
theorem C143_query_violated (s : State) (env : Env) (sender : Option Bytes) (key : Bytes) (q : Query) (r : RInfo) (reply : StoreReply)
    (h : s.active.get key = some (.routerInfo q)) : .discover r ∈ (s.step env (.store sender key (.routerInfo r) reply)).log := by
  show Out.discover r ∈ ((s.take key).storeAt env sender key (.routerInfo r) reply (s.active.get key)).log
  rw [h]
  exact List.mem_append.mpr (.inl (List.mem_append.mpr (.inr (List.mem_singleton.mpr rfl))))

/-- C143 does not hold for the age of fetched router infos. -/
theorem C143_age_violated (s : State) (env : Env) (sender : Option Bytes) (key : Bytes) (r : RInfo) (reply : StoreReply)
    (h : s.active.get key = some .router) (h1 : r.netId = s.netId) (h2 : r.id ≠ s.localId) :
    (s.step env (.store sender key (.routerInfo r) reply)).log = s.log ++ [.discover r] := by
  show ((s.take key).storeAt env sender key (.routerInfo r) reply (s.active.get key)).log = _
  rw [h]
  exact (log_fetched (s.take key) sender r).trans (if_pos ⟨h1, h2⟩)

/-- A router info of network 99 that claims to be of this router. -/
def toyFake : RInfo := { id := tid 0, netId := 99, published := 0, floodfill := true, raw := [] }
example := C143_query_violated toyBoth (toyEnv []) none (tid 6) { queried := [tid 2], selected := some (tid 2), started := 0, subs := [3] } toyFake .none (by decide +kernel)
/-- Router 40 is fetched and found, a year after it published. -/
def toyFetch : State := toyAsked.run [(toyEnv [tid 40], .search none (some (tid 5, [tid 40], tid 1))), (toyEnv [], .advance 31536000000)]
example := C143_age_violated toyFetch (toyEnv []) none (tid 40) toyRi .none (by decide +kernel) (by decide +kernel) (by decide +kernel)
example := C143_checked_partial toyFf (toyEnv []) (.store none (tid 6) (.routerInfo toyRi) .none) toyRi (by decide +kernel) (by decide +kernel)

/-! ## C144 -/

/-- How often somebody was told that the task is ready, waits to be told, and asked. -/
def State.told (s : State) (tx : Nat) : Nat := s.log.count (.ready tx)
def waited (evs : List (Env × Op)) (tx : Nat) : Nat := evs.countP fun e => decide (e.2 = .waitReady tx)

/-- Whoever waits does so because a kind of tunnel is missing. -/
def Waiting (s : State) : Prop := s.ready = [] ∨ s.outTun.tunnels = [] ∨ s.inTun.tunnels = []

theorem told_adds {C : Out → Prop} {s s' : State} (h : Adds C s s') (tx : Nat) (hc : ¬ C (.ready tx)) : s'.told tx = s.told tx := by
  obtain ⟨l, e, hl⟩ := h
  unfold State.told
  rw [e, List.count_append, List.count_eq_zero.mpr (fun hm => hc (hl _ hm)), Nat.add_zero]

theorem count_ready (l : List Nat) (tx : Nat) : (l.map Out.ready).count (.ready tx) = l.count tx := by
  induction l with
  | nil => rfl
  | cons x l ih =>
    rw [List.map_cons, List.count_cons, List.count_cons, ih]
    by_cases h : x = tx
    · subst h; simp
    · simp [h]

theorem ready_step (s : State) (env : Env) (op : Op) (tx : Nat) :
    (s.step env op).told tx + (s.step env op).ready.count tx = s.told tx + s.ready.count tx + (if op = .waitReady tx then 1 else 0) ∧
    (Waiting s → Waiting (s.step env op)) := by
  have quiet : ∀ (s' : State) {C : Out → Prop}, s'.core = s.core → Adds C s s' → ¬ C (.ready tx) → op ≠ .waitReady tx →
      (s'.told tx + s'.ready.count tx = s.told tx + s.ready.count tx + (if op = .waitReady tx then 1 else 0)) ∧ (Waiting s → Waiting s') := by
    intro s' C hc ha hC hne
    have e1 : s'.ready = s.ready := congrArg Core.ready hc
    have e2 : s'.outTun.tunnels = s.outTun.tunnels := congrArg Core.outT hc
    have e3 : s'.inTun.tunnels = s.inTun.tunnels := congrArg Core.inT hc
    rw [told_adds ha tx hC, e1, if_neg hne]
    exact ⟨rfl, by unfold Waiting; rw [e1, e2, e3]; exact id⟩
  have nw : ∀ (a : List Nat) (b : List Lease), ¬ Out.isWork a b (.ready tx) := fun a b h => h
  have ns : ¬ Out.isSend (.ready tx) := fun h => h
  have nf : ¬ (fun _ : Out => False) (.ready tx) := fun h => h
  cases op with
  | advance d => exact quiet _ (C := fun _ => False) rfl (.same rfl) nf (by simp) |>.imp id id
  | connected r => exact quiet _ (core_established s env r) (adds_established s env r) ns (by simp)
  | closed r => exact quiet _ (C := fun _ => False) rfl (.same rfl) nf (by simp)
  | failed r => exact quiet _ (C := fun _ => False) rfl (.same rfl) nf (by simp)
  | outBuilt t =>
    unfold State.step; dsimp only
    rw [if_neg (c := Op.outBuilt t = Op.waitReady tx) (by simp)]
    split
    · refine ⟨?_, fun _ => .inl rfl⟩
      show (s.log ++ s.ready.map Out.ready).count (Out.ready tx) + 0 = _
      rw [List.count_append, count_ready]; rfl
    · next h => exact ⟨rfl, fun _ => .inr (.inr (by
        show s.inTun.tunnels = []
        exact List.length_eq_zero_iff.mp (by have : ¬ s.inTun.tunnels.length > 0 := h; omega)))⟩
  | outExpired t =>
    rw [if_neg (by simp)]
    refine ⟨rfl, fun h => ?_⟩
    rcases h with h | h | h
    · exact .inl h
    · refine .inr (.inl ?_)
      show s.outTun.tunnels.filter _ = []
      rw [h]; rfl
    · exact .inr (.inr h)
  | inBuilt t =>
    unfold State.step; dsimp only
    rw [if_neg (c := Op.inBuilt t = Op.waitReady tx) (by simp)]
    split
    · refine ⟨?_, fun _ => .inl rfl⟩
      show (s.log ++ s.ready.map Out.ready).count (Out.ready tx) + 0 = _
      rw [List.count_append, count_ready]; rfl
    · next h => exact ⟨rfl, fun _ => .inr (.inl (by
        show s.outTun.tunnels = []
        exact List.length_eq_zero_iff.mp (by have : ¬ s.outTun.tunnels.length > 0 := h; omega)))⟩
  | inExpired t =>
    rw [if_neg (by simp)]
    refine ⟨rfl, fun h => ?_⟩
    rcases h with h | h | h
    · exact .inl h
    · exact .inr (.inl h)
    · refine .inr (.inr ?_)
      show s.inTun.tunnels.filter _ = []
      rw [h]; rfl
  | queryLs k t => exact quiet _ (works_queryLs s env k t).1 (works_queryLs s env k t).2 (nw _ _) (by simp)
  | queryRi k t => exact quiet _ (works_queryRi s env k t).1 (works_queryRi s env k t).2 (nw _ _) (by simp)
  | closest k t =>
    unfold State.step State.closestFloodfills; dsimp only
    split
    · exact quiet _ (C := fun o => o = .cancel t) rfl (.one rfl rfl) (by simp) (by simp)
    · exact quiet _ (C := fun o => o ≠ .ready tx) rfl (.one rfl (by simp)) (by simp) (by simp)
  | publish k r => exact quiet _ (core_send s env _ _ _) (adds_send s env _ _ _) ns (by simp)
  | waitReady t =>
    unfold State.step; dsimp only
    split
    · next h =>
      constructor
      · show (s.log ++ [Out.ready t]).count (Out.ready tx) + s.ready.count tx = _
        rw [List.count_append]
        by_cases e : t = tx
        · subst e; simp [State.told]; omega
        · simp [State.told, e]
      · intro hw; exact hw
    · next h =>
      constructor
      · show s.log.count (Out.ready tx) + (s.ready ++ [t]).count tx = _
        rw [List.count_append]
        by_cases e : t = tx
        · subst e; simp [State.told]; omega
        · simp [State.told, e]
      · intro _
        by_cases h1 : s.inTun.tunnels.length > 0
        · refine .inr (.inl ?_)
          show s.outTun.tunnels = []
          exact List.length_eq_zero_iff.mp (by
            have : ¬ (s.outTun.tunnels.length > 0) := fun h2 => h ⟨h1, h2⟩
            omega)
        · refine .inr (.inr ?_)
          show s.inTun.tunnels = []
          exact List.length_eq_zero_iff.mp (by omega)
  | fire i => exact quiet _ (works_fire s env i).1 (works_fire s env i).2 (nw _ _) (by simp)
  | tick k =>
    have hc := core_tick s env k
    have e1 : (s.tick env k).ready = s.ready := congrArg Core.ready hc
    have e2 : (s.tick env k).outTun.tunnels = s.outTun.tunnels := congrArg Core.outT hc
    have e3 : (s.tick env k).inTun.tunnels = s.inTun.tunnels := congrArg Core.inT hc
    rw [if_neg (by simp)]
    show (s.tick env k).told tx + (s.tick env k).ready.count tx = _ ∧ (Waiting s → Waiting (s.tick env k))
    rw [told_adds (adds_tick s env k) tx (nw _ _), e1]
    exact ⟨rfl, by unfold Waiting; rw [e1, e2, e3]; exact id⟩
  | lookup k kd r ig =>
    refine quiet _ (C := fun o => o ≠ .ready tx) (core_lookupMsg s env k kd r ig) ?_ (by simp) (by simp)
    show Adds _ s (s.lookupMsg env k kd r ig)
    unfold State.lookupMsg
    have hans : ∀ m, Adds (fun o => o ≠ .ready tx) s (s.answer r m) := by
      intro m; rw [answer_eq]; exact .one rfl (by cases r <;> simp [answerTo])
    have hsend : ∀ rs m e, Adds (fun o => o ≠ .ready tx) s (s.send env rs m e) := by
      intro rs m e
      exact (adds_send s env rs m e).mono (fun o h e => by subst e; exact h)
    split
    · exact .same rfl
    cases kd with
    | normal => exact .same rfl
    | leaseSet => dsimp only; unfold State.leaseSetLookup; split <;> exact hans _
    | router => dsimp only; unfold State.routerInfoLookup; split <;> exact hans _
    | exploration =>
      dsimp only
      unfold State.explorationLookup
      split
      · exact .same rfl
      · dsimp only; split <;> exact hsend _ _ _
  | search sd m => exact quiet _ (works_search s env sd m).1 (works_search s env sd m).2 (nw _ _) (by simp)
  | store sd k p r =>
    have hc := core_store s env sd k p r
    have hq : (s.storeMsg env sd k p r).core.ready = s.ready ∧ (s.storeMsg env sd k p r).core.outT = s.outTun.tunnels ∧
        (s.storeMsg env sd k p r).core.inT = s.inTun.tunnels := by
      rw [hc]
      split
      · split <;> exact ⟨rfl, rfl, rfl⟩
      · split <;> exact ⟨rfl, rfl, rfl⟩
      · exact ⟨rfl, rfl, rfl⟩
    have ht : (s.storeMsg env sd k p r).told tx = s.told tx := by
      refine told_adds (adds_store s env sd k p r) tx ?_
      intro h
      split at h
      · obtain ⟨_, _, _, h | ⟨_, _, h⟩⟩ := h
        · cases h
        · exact h
      · exact h.2.2.2
      · obtain ⟨_, _, h⟩ := h; cases h
      · cases h.2.2
      · rcases h with h | ⟨_, _, _, h⟩ <;> cases h
      · obtain ⟨_, _, h⟩ := h; cases h
    rw [if_neg (by simp)]
    have e1 : (s.step env (.store sd k p r)).ready = s.ready := hq.1
    have e2 : (s.step env (.store sd k p r)).outTun.tunnels = s.outTun.tunnels := hq.2.1
    have e3 : (s.step env (.store sd k p r)).inTun.tunnels = s.inTun.tunnels := hq.2.2
    have e4 : (s.step env (.store sd k p r)).told tx = s.told tx := ht
    rw [e4, e1]
    exact ⟨rfl, by unfold Waiting; rw [e1, e2, e3]; exact id⟩

/-- C144: whoever waits for the network database to be ready is told exactly once per request, and at the latest when the task has both an outbound and
an inbound tunnel. -/
theorem C144_ready (localId : Bytes) (netId : Nat) (ff : Bool) (fd rd : Table) (now : Nat) (env : Env) (evs : List (Env × Op)) (tx : Nat) :
    let s := (State.init localId netId ff fd rd now env).run evs
    s.told tx ≤ waited evs tx ∧ (s.outTun.tunnels ≠ [] → s.inTun.tunnels ≠ [] → s.told tx = waited evs tx) := by
  have gen : ∀ (evs : List (Env × Op)) (s : State), Waiting s →
      (s.run evs).told tx + (s.run evs).ready.count tx = s.told tx + s.ready.count tx + waited evs tx ∧ Waiting (s.run evs) := by
    intro evs
    induction evs with
    | nil => intro s h; exact ⟨by simp [State.run, waited], h⟩
    | cons e evs ih =>
      intro s h
      have g := ready_step s e.1 e.2 tx
      have i := ih (s.step e.1 e.2) (g.2 h)
      refine ⟨?_, i.2⟩
      have i1 : (s.run (e :: evs)).told tx + (s.run (e :: evs)).ready.count tx = _ := i.1
      rw [i1, g.1]
      unfold waited
      rw [List.countP_cons]
      by_cases hw : e.2 = .waitReady tx <;> simp [hw] <;> omega
  intro s
  obtain ⟨h1, h2⟩ := gen evs (State.init localId netId ff fd rd now env) (.inl rfl)
  have h1 : s.told tx + s.ready.count tx = 0 + 0 + waited evs tx := h1
  refine ⟨by omega, fun ho hi => ?_⟩
  rcases h2 with h2 | h2 | h2
  · have h2 : s.ready = [] := h2
    rw [h2] at h1
    simp at h1
    omega
  · exact absurd h2 ho
  · exact absurd h2 hi

/-- Two wait, one with tunnels there, and both are told. -/
example : (toyFf.run [(toyEnv [], .waitReady 1), (toyEnv [], .outBuilt 7), (toyEnv [], .inBuilt ⟨tid 9, 8⟩), (toyEnv [], .waitReady 2)]).log = [.ready 1, .ready 2] := by
  decide +kernel

/-! ## C145 -/

/-- The tunnels drawn one after the other. -/
def Selector.draws {α : Type} : Nat → Selector α → List (Option α)
  | 0, _ => []
  | n + 1, x => x.next.2 :: Selector.draws n x.next.1

theorem draws_eq {α : Type} (n : Nat) (x : Selector α) (hne : x.tunnels ≠ []) (hw : x.iter + n ≤ 2 ^ 64) :
    Selector.draws n x = (List.range' x.iter n).map fun j => x.tunnels[j % x.tunnels.length]? := by
  induction n generalizing x with
  | zero => rfl
  | succ n ih =>
    have he : x.tunnels.isEmpty = false := by
      cases h : x.tunnels with
      | nil => exact absurd h hne
      | cons a l => rfl
    unfold Selector.draws
    unfold Selector.next
    rw [he]
    simp only [Bool.false_eq_true, if_false]
    by_cases h : n = 0
    · subst h; rfl
    have hm : (x.iter + 1) % 2 ^ 64 = x.iter + 1 := Nat.mod_eq_of_lt (by omega)
    rw [ih { x with iter := (x.iter + 1) % 2 ^ 64 } hne (by show (x.iter + 1) % 2 ^ 64 + n ≤ _; rw [hm]; omega)]
    dsimp only
    rw [hm, List.range'_succ, List.map_cons]

/-- C145: of as many lookups in a row as there are tunnels, each tunnel carries exactly one, as long as the 64-bit counter does not wrap. -/
theorem C145_fair {α : Type} (x : Selector α) (hne : x.tunnels ≠ []) (hw : x.iter + x.tunnels.length ≤ 2 ^ 64) :
    (Selector.draws x.tunnels.length x).Perm (x.tunnels.map some) := by
  have e : Selector.draws x.tunnels.length x = (x.tunnels.rotate x.iter).map some := by
    rw [draws_eq _ x hne hw]
    refine List.ext_getElem? fun i => ?_
    rw [List.getElem?_map, List.getElem?_map]
    by_cases hi : i < x.tunnels.length
    · rw [List.getElem?_range' hi, List.getElem?_rotate hi]
      simp only [Option.map_some]
      have hlt : (i + x.iter) % x.tunnels.length < x.tunnels.length := Nat.mod_lt _ (by omega)
      rw [Nat.one_mul, Nat.add_comm, List.getElem?_eq_getElem hlt]
      rfl
    · rw [List.getElem?_eq_none (by simp; omega), List.getElem?_eq_none (by simp; omega)]
      rfl
  rw [e]
  exact (List.rotate_perm _ _).map _

/-- The tunnels drawn change nothing but the counter. -/
example : Selector.draws 4 ({ iter := 5, tunnels := [10, 11, 12] } : Selector Nat) = [some 12, some 10, some 11, some 12] := by decide +kernel
example := C145_fair ({ iter := 5, tunnels := [10, 11, 12] } : Selector Nat) (by simp) (by decide)

theorem outT_step (s : State) (env : Env) (op : Op) :
    (s.step env op).outTun.tunnels = match op with
      | .outBuilt t => s.outTun.tunnels ++ [t]
      | .outExpired t => s.outTun.tunnels.filter fun x => decide (x ≠ t)
      | _ => s.outTun.tunnels := by
  cases op with
  | advance d => rfl
  | connected r => exact congrArg Core.outT (core_established s env r)
  | closed r => rfl
  | failed r => rfl
  | outBuilt t => unfold State.step; dsimp only; split <;> rfl
  | outExpired t => rfl
  | inBuilt t => unfold State.step; dsimp only; split <;> rfl
  | inExpired t => rfl
  | queryLs k t => exact congrArg Core.outT (core_queryLs s env k t)
  | queryRi k t => exact congrArg Core.outT (core_queryRi s env k t)
  | closest k t => unfold State.step State.closestFloodfills; dsimp only; split <;> rfl
  | publish k r => exact congrArg Core.outT (core_send s env _ _ _)
  | waitReady t => unfold State.step; dsimp only; split <;> rfl
  | fire i => exact congrArg Core.outT (core_fire s env i)
  | tick k => exact congrArg Core.outT (core_tick s env k)
  | lookup k kd r ig => exact congrArg Core.outT (core_lookupMsg s env k kd r ig)
  | search sd m => exact congrArg Core.outT (core_search s env sd m)
  | store sd k p r =>
    refine (congrArg Core.outT (core_store s env sd k p r)).trans ?_
    split
    · split <;> rfl
    · split <;> rfl
    · rfl

theorem inT_step (s : State) (env : Env) (op : Op) :
    (s.step env op).inTun.tunnels = match op with
      | .inBuilt t => s.inTun.tunnels ++ [t]
      | .inExpired t => s.inTun.tunnels.filter fun x => decide (x.tunnel ≠ t)
      | _ => s.inTun.tunnels := by
  cases op with
  | advance d => rfl
  | connected r => exact congrArg Core.inT (core_established s env r)
  | closed r => rfl
  | failed r => rfl
  | outBuilt t => unfold State.step; dsimp only; split <;> rfl
  | outExpired t => rfl
  | inBuilt t => unfold State.step; dsimp only; split <;> rfl
  | inExpired t => rfl
  | queryLs k t => exact congrArg Core.inT (core_queryLs s env k t)
  | queryRi k t => exact congrArg Core.inT (core_queryRi s env k t)
  | closest k t => unfold State.step State.closestFloodfills; dsimp only; split <;> rfl
  | publish k r => exact congrArg Core.inT (core_send s env _ _ _)
  | waitReady t => unfold State.step; dsimp only; split <;> rfl
  | fire i => exact congrArg Core.inT (core_fire s env i)
  | tick k => exact congrArg Core.inT (core_tick s env k)
  | lookup k kd r ig => exact congrArg Core.inT (core_lookupMsg s env k kd r ig)
  | search sd m => exact congrArg Core.inT (core_search s env sd m)
  | store sd k p r =>
    refine (congrArg Core.inT (core_store s env sd k p r)).trans ?_
    split
    · split <;> rfl
    · split <;> rfl
    · rfl

/-- The history says that the tunnel was built and has not expired since. -/
def Alive (built expired : Op) (evs : List (Env × Op)) : Prop :=
  ∃ before e after, evs = before ++ (e, built) :: after ∧ ∀ x ∈ after, x.2 ≠ expired

theorem Alive.snoc {b x : Op} {evs : List (Env × Op)} (h : Alive b x evs) (ev : Env × Op) (hne : ev.2 ≠ x) : Alive b x (evs ++ [ev]) := by
  obtain ⟨before, e, after, h1, h2⟩ := h
  refine ⟨before, e, after ++ [ev], by rw [h1]; simp, ?_⟩
  intro y hy
  rcases List.mem_append.mp hy with hy | hy
  · exact h2 y hy
  · rw [List.mem_singleton.mp hy]; exact hne

theorem run_snoc (s : State) (evs : List (Env × Op)) (e : Env × Op) : s.run (evs ++ [e]) = (s.run evs).step e.1 e.2 := by
  unfold State.run
  rw [List.foldl_append]
  rfl

theorem alive_out (s : State) (h0 : s.outTun.tunnels = []) (evs : List (Env × Op)) (t : Nat) (h : t ∈ (s.run evs).outTun.tunnels) :
    Alive (.outBuilt t) (.outExpired t) evs := by
  induction hn : evs.length generalizing evs with
  | zero =>
    rw [List.length_eq_zero_iff.mp hn] at h
    rw [show (s.run []) = s from rfl, h0] at h
    cases h
  | succ n ih =>
    rcases List.snoc_cases evs with e | ⟨pre, ev, e⟩
    · rw [e] at hn; cases hn
    subst e
    have hl : pre.length = n := by simp at hn; exact hn
    rw [run_snoc, outT_step] at h
    obtain ⟨env, op⟩ := ev
    cases op with
    | outBuilt x =>
      rcases List.mem_append.mp h with h | h
      · exact (ih pre h hl).snoc _ (by simp)
      · rw [List.mem_singleton.mp h]
        exact ⟨pre, env, [], rfl, by simp⟩
    | outExpired x =>
      have h := List.mem_filter.mp h
      refine (ih pre h.1 hl).snoc _ ?_
      have : t ≠ x := by simpa using h.2
      intro e
      injection e with e
      exact this e.symm
    | _ => exact (ih pre h hl).snoc _ (by simp)

theorem alive_in (s : State) (h0 : s.inTun.tunnels = []) (evs : List (Env × Op)) (t : Lease) (h : t ∈ (s.run evs).inTun.tunnels) :
    Alive (.inBuilt t) (.inExpired t.tunnel) evs := by
  induction hn : evs.length generalizing evs with
  | zero =>
    rw [List.length_eq_zero_iff.mp hn] at h
    rw [show (s.run []) = s from rfl, h0] at h
    cases h
  | succ n ih =>
    rcases List.snoc_cases evs with e | ⟨pre, ev, e⟩
    · rw [e] at hn; cases hn
    subst e
    have hl : pre.length = n := by simp at hn; exact hn
    rw [run_snoc, inT_step] at h
    obtain ⟨env, op⟩ := ev
    cases op with
    | inBuilt x =>
      rcases List.mem_append.mp h with h | h
      · exact (ih pre h hl).snoc _ (by simp)
      · rw [List.mem_singleton.mp h]
        exact ⟨pre, env, [], rfl, by simp⟩
    | inExpired x =>
      have h := List.mem_filter.mp h
      refine (ih pre h.1 hl).snoc _ ?_
      have : t.tunnel ≠ x := by simpa using h.2
      intro e
      injection e with e
      exact this e.symm
    | _ => exact (ih pre h hl).snoc _ (by simp)

/-- What an event adds to the log, as far as lookups go. -/
theorem lookups_step (s : State) (env : Env) (op : Op) :
    Adds (fun o => ∀ f k kd out inb, o = .lookup f k kd out inb → out ∈ s.outTun.tunnels ∧ inb ∈ s.inTun.tunnels) s (s.step env op) := by
  have work : ∀ s', Adds (Out.isWork s.outTun.tunnels s.inTun.tunnels) s s' →
      Adds (fun o => ∀ f k kd out inb, o = .lookup f k kd out inb → out ∈ s.outTun.tunnels ∧ inb ∈ s.inTun.tunnels) s s' :=
    fun s' h => h.mono (by intro o ho f k kd out inb e; subst e; exact ho)
  have sends : ∀ s', Adds Out.isSend s s' →
      Adds (fun o => ∀ f k kd out inb, o = .lookup f k kd out inb → out ∈ s.outTun.tunnels ∧ inb ∈ s.inTun.tunnels) s s' :=
    fun s' h => h.mono (by intro o ho f k kd out inb e; subst e; exact ho.elim)
  cases op with
  | advance d => exact .same rfl
  | connected r => exact sends _ (adds_established s env r)
  | closed r => exact .same rfl
  | failed r => exact .same rfl
  | outBuilt t =>
    unfold State.step; dsimp only
    split
    · refine .many (l := s.ready.map Out.ready) rfl ?_
      intro o ho
      obtain ⟨tx, _, e⟩ := List.mem_map.mp ho
      subst e
      intro f k kd out inb e; cases e
    · exact .same rfl
  | outExpired t => exact .same rfl
  | inBuilt t =>
    unfold State.step; dsimp only
    split
    · refine .many (l := s.ready.map Out.ready) rfl ?_
      intro o ho
      obtain ⟨tx, _, e⟩ := List.mem_map.mp ho
      subst e
      intro f k kd out inb e; cases e
    · exact .same rfl
  | inExpired t => exact .same rfl
  | queryLs k t => exact work _ (works_queryLs s env k t).2
  | queryRi k t => exact work _ (works_queryRi s env k t).2
  | closest k t =>
    unfold State.step State.closestFloodfills; dsimp only
    split
    · exact .one rfl (by intro f k kd out inb e; cases e)
    · exact .one rfl (by intro f k kd out inb e; cases e)
  | publish k r => exact sends _ (adds_send s env _ _ _)
  | waitReady t =>
    unfold State.step; dsimp only
    split
    · exact .one rfl (by intro f k kd out inb e; cases e)
    · exact .same rfl
  | fire i => exact work _ (works_fire s env i).2
  | tick k => exact work _ (adds_tick s env k)
  | lookup k kd r ig =>
    show Adds _ s (s.lookupMsg env k kd r ig)
    unfold State.lookupMsg
    have hans : ∀ m, Adds (fun o => ∀ f k kd out inb, o = .lookup f k kd out inb → out ∈ s.outTun.tunnels ∧ inb ∈ s.inTun.tunnels) s (s.answer r m) := by
      intro m; rw [answer_eq]; exact .one rfl (by intro f k kd out inb e; cases r <;> cases e)
    split
    · exact .same rfl
    cases kd with
    | normal => exact .same rfl
    | leaseSet => dsimp only; unfold State.leaseSetLookup; split <;> exact hans _
    | router => dsimp only; unfold State.routerInfoLookup; split <;> exact hans _
    | exploration =>
      dsimp only
      unfold State.explorationLookup
      split
      · exact .same rfl
      · dsimp only; split <;> exact sends _ (adds_send s env _ _ _)
  | search sd m => exact work _ (works_search s env sd m).2
  | store sd k p r =>
    refine (adds_store s env sd k p r).mono ?_
    intro o h f k kd out inb e
    subst e
    exfalso
    split at h
    · obtain ⟨_, _, _, h | ⟨_, _, h⟩⟩ := h
      · cases h
      · exact h
    · exact h.2.2.2
    · obtain ⟨_, _, h⟩ := h; cases h
    · cases h.2.2
    · rcases h with h | ⟨_, _, _, h⟩ <;> cases h
    · obtain ⟨_, _, h⟩ := h; cases h

/-- C145: every lookup goes out through an outbound tunnel, and asks for the answer through an inbound tunnel, that was built before and has not been
reported expired since. -/
theorem C145_live (localId : Bytes) (netId : Nat) (ff : Bool) (fd rd : Table) (now : Nat) (env e : Env) (evs : List (Env × Op)) (op : Op)
    (f k : Bytes) (kd : LookupKind) (out : Nat) (inb : Lease) :
    let s := (State.init localId netId ff fd rd now env).run evs
    ∀ new, (s.step e op).log = s.log ++ new → .lookup f k kd out inb ∈ new →
      Alive (.outBuilt out) (.outExpired out) evs ∧ Alive (.inBuilt inb) (.inExpired inb.tunnel) evs := by
  intro s new hnew hm
  obtain ⟨l, hl, hc⟩ := lookups_step s e op
  have : new = l := List.append_cancel_left (hnew.symm.trans hl)
  subst this
  have h := hc _ hm f k kd out inb rfl
  exact ⟨alive_out _ rfl evs out h.1, alive_in _ rfl evs inb h.2⟩

example := C145_live (tid 0) 2 false (((Table.new (tid 0)).addRouter (tid 1)).addRouter (tid 2) |>.addRouter (tid 3)) (Table.new (tid 0)) 0 (toyEnv []) (toyEnv [])
  [(toyEnv [], .outBuilt 7), (toyEnv [], .inBuilt ⟨tid 9, 8⟩)] (.queryLs (tid 5) 1) (tid 1) (tid 5) .leaseSet 7 ⟨tid 9, 8⟩
  [.lookup (tid 1) (tid 5) .leaseSet 7 ⟨tid 9, 8⟩] (by decide +kernel) (by decide +kernel)

/-! ## C146 -/

/-- C146: between two explorations there are 27 seconds to 339 seconds. -/
theorem C146_interval (env : Env) : 27000 ≤ exploreDelay env ∧ exploreDelay env ≤ 339000 := by
  unfold exploreDelay
  have h1 := Nat.mod_lt env.random (show 55 > 0 by decide)
  have h2 := Nat.mod_lt env.random (show 170 > 0 by decide)
  unfold explorationLow explorationHigh
  split <;> omega

/-- C146 does not hold for how often a router explores: one that knows few routers explores less often than any that knows many, against what the names and
the documentation of the two intervals say. -/
theorem C146_interval_violated (few many : Env) (hf : few.numRouters < 2500) (hm : 2500 ≤ many.numRouters) :
    3 * exploreDelay many < exploreDelay few := by
  have e1 : exploreDelay few = 1000 * (170 + few.random % 170) := if_neg (by unfold highRouterCount; omega)
  have e2 : exploreDelay many = 1000 * ((55 + many.random % 55) / 2) := if_pos hm
  have h1 := Nat.mod_lt many.random (show 55 > 0 by decide)
  omega

/-- C146: a router that is not a floodfill explores at the first poll when the time has come, if it knows a floodfill, has tunnels and its pool takes
messages: a lookup of a random key goes to the closest floodfill; and the next exploration is planned. -/
theorem C146_explores (s : State) (env : Env) (rand : Bytes) (t : Nat) (hx : s.exploreAt = some t) (ht : t ≤ s.now) (hq : s.timers = [])
    (f : Bytes) (hf : (s.ffDht.closest (env.rkey rand) 1).head? = some f) (ho : s.outTun.tunnels ≠ []) (hi : s.inTun.tunnels ≠ [])
    (hp : env.poolOk rand = true) :
    (∃ out inb, .lookup f rand .exploration out inb ∈ (s.step env (.tick rand)).log) ∧
    (s.step env (.tick rand)).active.get rand = some .exploration ∧
    (s.step env (.tick rand)).exploreAt = some (s.now + exploreDelay env) := by
  have he : (s.tick env rand).core.exploreAt = some (s.now + exploreDelay env) := by
    rw [core_tick, hx]
    dsimp only
    rw [if_pos ht]
  refine ⟨?_, ?_, he⟩
  all_goals
    show _
    have e0 : s.tick env rand = (s.upkeep).exploration env rand := by
      unfold State.tick; rw [hq]; rfl
    have u : s.upkeep.exploreAt = s.exploreAt ∧ s.upkeep.now = s.now ∧ s.upkeep.ffDht = s.ffDht ∧ s.upkeep.outTun = s.outTun ∧ s.upkeep.inTun = s.inTun := by
      unfold State.upkeep; split <;> exact ⟨rfl, rfl, rfl, rfl, rfl⟩
    have e1 : (s.upkeep).exploration env rand = { s.upkeep.explore env rand with exploreAt := some (s.now + exploreDelay env) } := by
      unfold State.exploration
      rw [u.1, hx]
      dsimp only
      rw [u.2.1, if_pos ht]
    have hnext : ∀ {α : Type} (x : Selector α), x.tunnels ≠ [] → ∃ y v, x.next = (y, some v) := by
      intro α x hne
      have hl : 0 < x.tunnels.length := List.length_pos_iff.mpr hne
      unfold Selector.next
      have : x.tunnels.isEmpty = false := by cases h : x.tunnels with | nil => exact absurd h hne | cons a l => rfl
      rw [this]
      refine ⟨{ x with iter := (x.iter + 1) % 2 ^ 64 }, x.tunnels[x.iter % x.tunnels.length]'(Nat.mod_lt _ hl), ?_⟩
      simp only [Bool.false_eq_true, if_false]
      rw [List.getElem?_eq_getElem (Nat.mod_lt _ hl)]
    obtain ⟨y1, v1, h1⟩ := hnext s.outTun ho
    obtain ⟨y2, v2, h2⟩ := hnext s.inTun hi
    have e2 : s.upkeep.lookup env f rand .exploration =
        (State.out { s.upkeep with outTun := y1, inTun := y2 } (.lookup f rand .exploration v1 v2), .ok ()) := by
      unfold State.lookup State.tunnels
      rw [u.2.2.2.1, u.2.2.2.2, h1, h2]
      dsimp only
      rw [if_pos hp]
    have e3 : s.upkeep.explore env rand =
        ((State.out { s.upkeep with outTun := y1, inTun := y2 } (.lookup f rand .exploration v1 v2)).activate rand .exploration).arm rand := by
      unfold State.explore
      rw [u.2.2.1, hf]
      dsimp only
      rw [e2]
  · refine ⟨v1, v2, ?_⟩
    show Out.lookup f rand .exploration v1 v2 ∈ (s.tick env rand).log
    rw [e0, e1]
    show Out.lookup f rand .exploration v1 v2 ∈ (s.upkeep.explore env rand).log
    rw [e3]
    obtain ⟨l, hl, _⟩ := adds_activate (State.out { s.upkeep with outTun := y1, inTun := y2 } (.lookup f rand .exploration v1 v2)) rand .exploration
    show Out.lookup f rand .exploration v1 v2 ∈ (State.activate _ rand .exploration).log
    rw [hl]
    exact List.mem_append.mpr (.inl (List.mem_append.mpr (.inr (List.mem_singleton.mpr rfl))))
  · show (s.tick env rand).active.get rand = _
    rw [e0, e1]
    show (s.upkeep.explore env rand).active.get rand = _
    rw [e3]
    show (State.activate _ rand .exploration).active.get rand = _
    unfold State.activate
    dsimp only
    split <;> (show (AMap.put _ _ _).get rand = _; rw [AMap.get_put, if_pos rfl])

theorem exploreAt_step (s : State) (env : Env) (op : Op) (h : s.exploreAt = none) : (s.step env op).exploreAt = none := by
  cases op with
  | advance d => exact h
  | connected r => exact (congrArg Core.exploreAt (core_established s env r)).trans h
  | closed r => exact h
  | failed r => exact h
  | outBuilt t => unfold State.step; dsimp only; split <;> exact h
  | outExpired t => exact h
  | inBuilt t => unfold State.step; dsimp only; split <;> exact h
  | inExpired t => exact h
  | queryLs k t => exact (congrArg Core.exploreAt (core_queryLs s env k t)).trans h
  | queryRi k t => exact (congrArg Core.exploreAt (core_queryRi s env k t)).trans h
  | closest k t => unfold State.step State.closestFloodfills; dsimp only; split <;> exact h
  | publish k r => exact (congrArg Core.exploreAt (core_send s env _ _ _)).trans h
  | waitReady t => unfold State.step; dsimp only; split <;> exact h
  | fire i => exact (congrArg Core.exploreAt (core_fire s env i)).trans h
  | tick k =>
    refine (congrArg Core.exploreAt (core_tick s env k)).trans ?_
    rw [h]
  | lookup k kd r ig => exact (congrArg Core.exploreAt (core_lookupMsg s env k kd r ig)).trans h
  | search sd m => exact (congrArg Core.exploreAt (core_search s env sd m)).trans h
  | store sd k p r =>
    refine (congrArg Core.exploreAt (core_store s env sd k p r)).trans ?_
    split
    · split <;> exact h
    · split <;> exact h
    · exact h

/-- C146: a floodfill never explores on its own: its exploration timer is never set. -/
theorem C146_floodfill (localId : Bytes) (netId : Nat) (fd rd : Table) (now : Nat) (env : Env) (evs : List (Env × Op)) :
    ((State.init localId netId true fd rd now env).run evs).exploreAt = none := by
  have gen : ∀ (evs : List (Env × Op)) (s : State), s.exploreAt = none → (s.run evs).exploreAt = none := by
    intro evs
    induction evs with
    | nil => intro s h; exact h
    | cons e evs ih => intro s h; exact ih _ (exploreAt_step s e.1 e.2 h)
  exact gen evs _ rfl

theorem fetch_lookups (s : State) (env : Env) (replier : Bytes) (rs : List Bytes) :
    Adds (fun o => (∃ k ∈ rs, ∃ out inb, o = .lookup replier k .router out inb) ∨ ∃ tx, o = .cancel tx) s (s.fetches env replier rs) := by
  unfold State.fetches
  induction rs generalizing s with
  | nil => exact .same rfl
  | cons r rs ih =>
    refine Adds.trans (b := s.fetch env replier r) ?_ ((ih _).mono ?_)
    · have g := (adds_lookup s env replier r .router).mono (D := fun o => (∃ k ∈ r :: rs, ∃ out inb, o = .lookup replier k .router out inb) ∨ ∃ tx, o = .cancel tx)
        (by rintro o ⟨out, _, inb, _, e⟩; exact .inl ⟨r, by simp, out, inb, e⟩)
      unfold State.fetch
      split
      · next s1 _ e =>
        rw [e] at g
        exact g.trans (((adds_activate s1 r .router).mono (fun o h => .inr h)).trans (.same rfl))
      · next s1 _ e => rw [e] at g; exact g
    · rintro o (⟨k, hk, h⟩ | h)
      · exact .inl ⟨k, by simp [hk], h⟩
      · exact .inr h

/-- C146: after a reply to an exploration only routers that the reply names, that are not known yet and are not this router are looked up, at the router
that replied. -/
theorem C146_fetches (s : State) (env : Env) (sender : Option Bytes) (key : Bytes) (routers : List Bytes) (replier : Bytes)
    (h : s.active.get key = some .exploration) :
    Adds (fun o => (∃ k ∈ routers, k ≠ s.localId ∧ env.known k = false ∧ ∃ out inb, o = .lookup replier k .router out inb) ∨ ∃ tx, o = .cancel tx)
      s (s.step env (.search sender (some (key, routers, replier)))) := by
  have hl : ((s.discredit sender).take key).localId = s.localId := congrArg Core.localId (core_discredit s sender)
  have e : s.step env (.search sender (some (key, routers, replier))) =
      ((s.discredit sender).take key).fetches env replier (routers.filter fun r => decide (r ≠ s.localId) && !env.known r) := by
    show ((s.discredit sender).take key).searchAt env key routers replier (s.active.get key) = _
    rw [h]
    unfold State.searchAt
    rw [hl]
  rw [e]
  refine Adds.trans (b := (s.discredit sender).take key) (.same (log_discredit s sender)) ((fetch_lookups _ env replier _).mono ?_)
  rintro o (⟨k, hk, h⟩ | h)
  · have hk := List.mem_filter.mp hk
    have h2 : k ≠ s.localId ∧ env.known k = false := by simpa using hk.2
    exact .inl ⟨k, hk.1, h2.1, h2.2, h⟩
  · exact .inr h

/-- An exploration, and a reply that names this router, a known router and an unknown one. -/
def toyExplored : State := toyInit.run [(toyEnv [], .advance 177000), (toyEnv [], .tick (tid 77))]
example : toyExplored.log = [.lookup (tid 1) (tid 77) .exploration 7 ⟨tid 9, 8⟩] ∧ toyExplored.exploreAt = some 354000 := by decide +kernel
example := C146_explores (toyInit.run [(toyEnv [], .advance 177000)]) (toyEnv []) (tid 77) 177000 (by decide +kernel) (by decide +kernel) (by decide +kernel) (tid 1)
  (by decide +kernel) (by decide +kernel) (by decide +kernel) rfl
example : (toyExplored.step (toyEnv [tid 40]) (.search none (some (tid 77, [tid 0, tid 2, tid 40], tid 1)))).log = toyExplored.log ++
    [.lookup (tid 1) (tid 40) .router 7 ⟨tid 9, 8⟩] := by decide +kernel
example := C146_fetches toyExplored (toyEnv [tid 40]) none (tid 77) [tid 0, tid 2, tid 40] (tid 1) (by decide +kernel)
example := C146_interval_violated (toyEnv []) { toyEnv [] with numRouters := 3000 } (by decide) (by decide)

/-! ## C148 -/

/-- C148: a store that asks for no delivery status makes the task send nothing and dial nobody; nor does any store to a router that is not a floodfill. -/
theorem C148_silent (s : State) (env : Env) (sender : Option Bytes) (key : Bytes) (p : Payload) (reply : StoreReply)
    (h : reply = .none ∨ s.floodfill = false) :
    Adds (fun o => ¬ o.isSend) s (s.step env (.store sender key p reply)) := by
  refine (adds_store s env sender key p reply).mono ?_
  intro o ho hs
  split at ho
  · obtain ⟨_, _, _, h1 | ⟨h1, h2, _⟩⟩ := ho
    · subst h1; exact hs
    · rcases h with h | h
      · exact h2 h
      · rw [h] at h1; cases h1
  · rcases h with h | h
    · exact ho.2.2.1 h
    · rw [h] at ho; cases ho.1
  · obtain ⟨_, _, e⟩ := ho; subst e; exact hs
  · obtain ⟨_, _, e⟩ := ho; subst e; exact hs
  · rcases ho with e | ⟨_, _, _, e⟩ <;> (subst e; exact hs)
  · obtain ⟨_, _, e⟩ := ho; subst e; exact hs

/-- C148: a lease set or router info that a floodfill does not accept is not flooded and not acknowledged. -/
theorem C148_refused (s : State) (env : Env) (sender : Option Bytes) (key : Bytes) (reply : StoreReply) (ha : s.active.get key = none) :
    (∀ l : LSet, ¬ Current l s.now → (s.step env (.store sender key (.leaseSet l) reply)).log = s.log) ∧
    (∀ r : RInfo, r.netId ≠ s.netId ∨ r.id = s.localId ∨ r.published + 3600000 < s.now → (s.step env (.store sender key (.routerInfo r) reply)).log = s.log) := by
  constructor
  · intro l hl
    obtain ⟨new, e, hn⟩ := adds_store s env sender key (.leaseSet l) reply
    rw [ha] at hn
    have : new = [] := by
      cases new with
      | nil => rfl
      | cons o new =>
        exact absurd ((current_iff _ _).mp (hn o (by simp)).2.1) hl
    rw [this, List.append_nil] at e
    exact e
  · intro r hr
    obtain ⟨new, e, hn⟩ := adds_store s env sender key (.routerInfo r) reply
    rw [ha] at hn
    have : new = [] := by
      cases new with
      | nil => rfl
      | cons o new =>
        have := hn o (by simp)
        obtain ⟨h1, h2, h3, _⟩ := this
        rcases hr with h | h | h
        · exact absurd h1 h
        · exact absurd h h2
        · omega
    rw [this, List.append_nil] at e
    exact e

/-- Who is to be told of a store, and how. -/
def StoreReply.notice : StoreReply → Option (Bytes × Msg)
  | .none => Option.none
  | .tunnel token t r => some (r, .status token (some t))
  | .router token r => some (r, .status token Option.none)

/-- C148: a floodfill that accepts a lease set, and was asked for a delivery status, tells the router named and sends the lease set on to the three
floodfills that are closest to its key (`C42_lookup_returns_nearest_in_order`), all of which it knows. -/
theorem C148_flooded (s : State) (env : Env) (sender : Option Bytes) (key : Bytes) (l : LSet) (reply : StoreReply) (r : Bytes) (m : Msg)
    (hf : s.floodfill = true) (ha : s.active.get key = none) (hl : Current l s.now) (hr : reply.notice = some (r, m)) :
    ∃ targets, targets = s.ffDht.closest (env.rkey key) 3 ∧ (∀ x ∈ targets, s.ffDht.knows x) ∧
      s.step env (.store sender key (.leaseSet l) reply) =
        (State.send { s with active := s.active.del key, leaseSets := s.leaseSets.put key (l.raw, l.expires) } env [r] m (some (s.now + 8000))).send env targets
          (.storeLeaseSet key l.raw) (some l.expires) := by
  have e1 : reply.status s.now = some (r, m, s.now + 8000) := by
    cases reply with
    | none => cases hr
    | tunnel a b c => injection hr with hr; injection hr with h1 h2; subst h1; subst h2; rfl
    | router a b => injection hr with hr; injection hr with h1 h2; subst h1; subst h2; rfl
  have hd : ∀ (rs : List Bytes) (x : State) (m : Msg) (e : Option Nat), (x.send env rs m e).ffDht = x.ffDht := by
    intro rs
    induction rs with
    | nil => intro x m e; rfl
    | cons r rs ih =>
      intro x m e
      refine (ih (x.sendOne env m e r) m e).trans ?_
      unfold State.sendOne
      split
      · split <;> rfl
      · rfl
      · rfl
  refine ⟨s.ffDht.closest (env.rkey key) 3, rfl, fun x hx => closest_knows hx, ?_⟩
  show (s.take key).storeAt env sender key (.leaseSet l) reply (s.active.get key) = _
  rw [ha]
  show (if s.floodfill then (s.take key).leaseSetStore env key reply l else s.take key) = _
  rw [if_pos hf]
  unfold State.leaseSetStore
  rw [if_neg (by show ¬ l.expired s.now = true; rw [(current_iff _ _).mpr hl]; simp)]
  unfold State.flood
  rw [show StoreReply.status (State.now { s.take key with leaseSets := (s.take key).leaseSets.put key (l.raw, l.expires) }) reply = some (r, m, s.now + 8000) from e1]
  dsimp only
  rw [hd]
  rfl

/-- A message for a router was handed to the transport, or waits for the connection that is being made. -/
def OnItsWay (s : State) (r : Bytes) (m : Msg) (e : Option Nat) : Prop := Out.send r m ∈ s.log ∨ ∃ p, s.routers.get r = some (.dialing p) ∧ (m, e) ∈ p

theorem onItsWay_sendOne {s : State} {r : Bytes} {m : Msg} {e : Option Nat} (h : OnItsWay s r m e) (env : Env) (m' : Msg) (e' : Option Nat) (x : Bytes) : OnItsWay (s.sendOne env m' e' x) r m e := by
  unfold State.sendOne
  split
  · rename_i hx
    split
    · rcases h with h | ⟨p, hp, hm⟩
      · exact .inl (List.mem_append_left _ h)
      · refine .inr ⟨p, ?_, hm⟩
        show (s.routers.put x _).get r = _
        rw [AMap.get_put, if_neg]
        · exact hp
        · intro he; rw [he, hx] at hp; cases hp
    · exact h
  · rename_i q hx
    rcases h with h | ⟨p, hp, hm⟩
    · exact .inl h
    · right
      by_cases he : r = x
      · subst he
        rw [hx] at hp
        injection hp with hp
        injection hp with hp
        subst hp
        exact ⟨q ++ [(m', e')], by show (s.routers.put r _).get r = _; rw [AMap.get_put, if_pos rfl], List.mem_append_left _ hm⟩
      · exact ⟨p, by show (s.routers.put x _).get r = _; rw [AMap.get_put, if_neg he]; exact hp, hm⟩
  · rcases h with h | h
    · exact .inl (List.mem_append_left _ h)
    · exact .inr h

theorem send_reaches (env : Env) (m : Msg) (e : Option Nat) (r : Bytes) (hc : env.connectOk r = true) : ∀ (rs : List Bytes) (s : State), (r ∈ rs ∨ OnItsWay s r m e) → OnItsWay (s.send env rs m e) r m e := by
  intro rs
  induction rs with
  | nil => intro s h; exact h.resolve_left (by simp)
  | cons x rs ih =>
    intro s h
    refine ih (s.sendOne env m e x) ?_
    rcases h with h | h
    · rcases List.mem_cons.mp h with rfl | h
      · right
        unfold State.sendOne
        split
        · rw [if_pos hc]
          exact .inr ⟨[(m, e)], by show (s.routers.put r _).get r = _; rw [AMap.get_put, if_pos rfl], List.mem_singleton.mpr rfl⟩
        · exact .inr ⟨_, by show (s.routers.put r _).get r = _; rw [AMap.get_put, if_pos rfl], List.mem_append_right _ (List.mem_singleton.mpr rfl)⟩
        · exact .inl (List.mem_append_right _ (List.mem_singleton.mpr rfl))
      · exact .inl h
    · exact .inr (onItsWay_sendOne h env m e x)

/-- C148: a router publishes its router info to each of the three floodfills that are closest to its key (`C42_lookup_returns_nearest_in_order`), at once or as soon as it is connected, and to nobody else. -/
theorem C148_published (s : State) (env : Env) (key raw : Bytes) :
    (∀ r ∈ s.ffDht.closest (env.rkey key) 3, env.connectOk r = true → OnItsWay (s.step env (.publish key raw)) r (.publish key raw) none)
      ∧ Adds (fun o => ∃ r ∈ s.ffDht.closest (env.rkey key) 3, o = .send r (.publish key raw) ∨ o = .connect r) s (s.step env (.publish key raw)) := by
  refine ⟨fun r hr hc => send_reaches env _ _ r hc _ s (.inl hr), ?_⟩
  have key' : ∀ (rs : List Bytes) (s : State) (m : Msg) (e : Option Nat), Adds (fun o => ∃ r ∈ rs, o = .send r m ∨ o = .connect r) s (s.send env rs m e) := by
    intro rs
    induction rs with
    | nil => intro s m e; exact .same rfl
    | cons x rs ih =>
      intro s m e
      refine Adds.trans (b := s.sendOne env m e x) ?_ ((ih _ m e).mono fun o ⟨r, hr, h⟩ => ⟨r, List.mem_cons_of_mem _ hr, h⟩)
      unfold State.sendOne
      split
      · split
        · exact .one rfl ⟨x, List.mem_cons_self, .inr rfl⟩
        · exact .same rfl
      · exact .same rfl
      · exact .one rfl ⟨x, List.mem_cons_self, .inl rfl⟩
  exact key' _ s _ _

/-- C148 does not hold for how often: the same floodfill may be sent the record twice (it is returned twice by the table, see C42). -/
theorem C148_twice_violated :
    ∃ m e, toyStored.routers.get (tid 1) = some (.dialing [(m, e), (m, e)]) := ⟨.storeLeaseSet (tid 5) [9], some 600000, by decide +kernel⟩

example := C148_flooded toyFf (toyEnv []) none (tid 5) toyGood (.router 77 (tid 4)) (tid 4) (.status 77 none) rfl rfl (by decide) rfl
example := (C148_published toyFf (toyEnv []) (tid 5) [1, 2]).1
example : toyFf.ffDht.closest ((toyEnv []).rkey (tid 5)) 3 ≠ [] := by decide +kernel
example := C148_silent toyFf (toyEnv []) none (tid 5) (.leaseSet toyGood) .none (.inl rfl)
example := (C148_refused toyFf (toyEnv []) none (tid 5) (.router 77 (tid 4)) rfl).2 toyFake (.inl (by decide))

end Emissary.NetdbRun
