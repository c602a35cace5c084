import Verif.Lemmas.NetdbCore
import Verif.Props.Netdb
import Verif.Props.NetdbSend
/-!
# What a floodfill stores, serves and floods: C140, C141, C142, C143, C148
-/
namespace Emissary.NetdbRun
open Emissary Emissary.Netdb

/-! ## C140 -/

/-- The route of an answer, as asked for in the lookup. -/
def answerTo : LookupReply → Msg → Out
  | .tunnel t r, m => .viaTunnel r t m
  | .router r, m => .send r m

/-- Routers a search reply may name: at most five, known to the table, none of those the asker excludes. -/
def Suggested (t : Table) (ignore rs : List Bytes) : Prop := rs.length ≤ 5 ∧ ∀ x ∈ rs, x ∉ ignore ∧ t.knows x

theorem closest_knows {t : Table} {target : Bytes} {n : Nat} {x : Bytes} (h : x ∈ t.closest target n) : t.knows x := by
  have := List.mem_of_mem_take h
  obtain ⟨i, _, hx⟩ := List.mem_flatMap.mp this
  exact ⟨i, mem_closestIter.mp hx⟩

theorem suggested (t : Table) (target : Bytes) (ignore : List Bytes) : Suggested t ignore (t.closestWithIgnore target 5 ignore) := by
  refine ⟨List.length_take_le _ _, fun x hx => ?_⟩
  have := List.mem_of_mem_take hx
  obtain ⟨h1, h2⟩ := List.mem_filter.mp this
  obtain ⟨i, _, hx⟩ := List.mem_flatMap.mp h1
  exact ⟨by simpa using h2, i, mem_closestIter.mp hx⟩

theorem answer_eq (s : State) (reply : LookupReply) (m : Msg) : s.answer reply m = s.out (answerTo reply m) := by
  cases reply <;> rfl

/-- C140: a floodfill answers a lookup of a lease set once, by the route asked for: with the lease set it has, else with floodfills it knows. Nothing
else happens. -/
theorem C140_lease_set (s : State) (env : Env) (key : Bytes) (reply : LookupReply) (ignore : List Bytes) (hf : s.floodfill = true) :
    ∃ m, s.step env (.lookup key .leaseSet reply ignore) = s.out (answerTo reply m) ∧
      (∀ l, s.leaseSets.get key = some l → m = .storeLeaseSet key l.1) ∧
      (s.leaseSets.get key = none → ∃ rs, m = .searchReply key rs none ∧ Suggested s.ffDht ignore rs) := by
  have e : s.step env (.lookup key .leaseSet reply ignore) = s.leaseSetLookup env key reply ignore := by
    show s.lookupMsg env key .leaseSet reply ignore = _
    unfold State.lookupMsg
    rw [hf]; rfl
  rw [e]
  unfold State.leaseSetLookup
  cases h : s.leaseSets.get key with
  | none => exact ⟨_, answer_eq _ _ _, fun l hl => (nomatch hl), fun _ => ⟨_, rfl, suggested _ _ _⟩⟩
  | some l => exact ⟨_, answer_eq _ _ _, fun l' hl => by injection hl with hl; rw [hl], fun hn => (nomatch hn)⟩

/-- C140, router infos. -/
theorem C140_router_info (s : State) (env : Env) (key : Bytes) (reply : LookupReply) (ignore : List Bytes) (hf : s.floodfill = true) :
    ∃ m, s.step env (.lookup key .router reply ignore) = s.out (answerTo reply m) ∧
      (∀ r, s.routerInfos.get key = some r → m = .storeRouterInfo key r.1) ∧
      (s.routerInfos.get key = none → ∃ rs, m = .searchReply key rs none ∧ Suggested s.ffDht ignore rs) := by
  have e : s.step env (.lookup key .router reply ignore) = s.routerInfoLookup env key reply ignore := by
    show s.lookupMsg env key .router reply ignore = _
    unfold State.lookupMsg
    rw [hf]; rfl
  rw [e]
  unfold State.routerInfoLookup
  cases h : s.routerInfos.get key with
  | none => exact ⟨_, answer_eq _ _ _, fun l hl => (nomatch hl), fun _ => ⟨_, rfl, suggested _ _ _⟩⟩
  | some l => exact ⟨_, answer_eq _ _ _, fun l' hl => by injection hl with hl; rw [hl], fun hn => (nomatch hn)⟩

/-- The router an answer goes to, and the tunnel it goes to there. -/
def LookupReply.router' : LookupReply → Bytes
  | .tunnel _ r => r
  | .router r => r
def LookupReply.tunnel' : LookupReply → Option Nat
  | .tunnel t _ => some t
  | .router _ => Option.none

/-- C140, exploration: the answer names routers known, and goes to the router of the route, over its connection or, if there is none, over one that is
dialed. -/
theorem C140_exploration (s : State) (env : Env) (key : Bytes) (reply : LookupReply) (ignore : List Bytes) (hf : s.floodfill = true) (dht : Table)
    (hd : s.rtDht = some dht) :
    ∃ rs, Suggested dht ignore rs ∧
      (s.routers.get reply.router' = some .connected →
        (s.step env (.lookup key .exploration reply ignore)).log = s.log ++ [.send reply.router' (.searchReply key rs reply.tunnel')]) ∧
      (s.routers.get reply.router' = none → env.connectOk reply.router' = true →
        (s.step env (.lookup key .exploration reply ignore)).log = s.log ++ [.connect reply.router'] ∧
        (s.step env (.lookup key .exploration reply ignore)).routers.get reply.router' = some (.dialing [(.searchReply key rs reply.tunnel', none)])) := by
  have e : s.step env (.lookup key .exploration reply ignore) =
      s.sendOne env (.searchReply key (dht.closestWithIgnore (env.rkey key) searchReplyRouters ignore) reply.tunnel') none reply.router' := by
    show s.lookupMsg env key .exploration reply ignore = _
    unfold State.lookupMsg State.explorationLookup
    rw [hf, hd]
    cases reply <;> rfl
  refine ⟨_, suggested dht (env.rkey key) ignore, fun h => ?_, fun h hc => ?_⟩
  · rw [e]; unfold State.sendOne; rw [h]; rfl
  · rw [e]; unfold State.sendOne; rw [h, hc]
    exact ⟨rfl, by show (s.routers.put _ _).get _ = _; rw [AMap.get_put, if_pos rfl]; rfl⟩

/-- C140: who is not a floodfill answers no lookup. -/
theorem C140_not_floodfill (s : State) (env : Env) (key : Bytes) (kind : LookupKind) (reply : LookupReply) (ignore : List Bytes) (hf : s.floodfill = false) :
    s.step env (.lookup key kind reply ignore) = s := by
  show s.lookupMsg env key kind reply ignore = s
  unfold State.lookupMsg
  rw [hf]; rfl

/-- C140 does not hold for lookups that do not say what they look for, which older routers send: they are left without an answer. -/
theorem C140_any_violated (s : State) (env : Env) (key : Bytes) (reply : LookupReply) (ignore : List Bytes) :
    s.step env (.lookup key .normal reply ignore) = s := by
  show s.lookupMsg env key .normal reply ignore = s
  unfold State.lookupMsg
  split <;> rfl

/-- Lookups of destination 5 before and after its lease set is stored. -/
example : (toyFf.step (toyEnv []) (.lookup (tid 5) .leaseSet (.router (tid 6)) [tid 1])).log = [.send (tid 6) (.searchReply (tid 5) [tid 3, tid 2] none)] ∧
    (toyStored.step (toyEnv []) (.lookup (tid 5) .leaseSet (.tunnel 3 (tid 6)) [])).log = toyStored.log ++ [.viaTunnel (tid 6) 3 (.storeLeaseSet (tid 5) [9])] := by
  decide +kernel
example := C140_lease_set toyFf (toyEnv []) (tid 5) (.router (tid 6)) [tid 1] rfl
example := C140_exploration toyFf (toyEnv []) (tid 5) (.router (tid 6)) [] rfl (Table.new (tid 0)) rfl

/-! ## C141 -/

/-- A lease set has not expired: the time in its header is not past, nor are those of all its leases. -/
def Current (l : LSet) (now : Nat) : Prop := now / 1000 ≤ l.headerExpires ∧ ∃ e ∈ l.leases, now ≤ e * 1000

instance (l : LSet) (now : Nat) : Decidable (Current l now) := by unfold Current; infer_instance

theorem current_iff (l : LSet) (now : Nat) : l.expired now = false ↔ Current l now := by
  unfold LSet.expired Current
  rw [Bool.or_eq_false_iff, decide_eq_false_iff_not, List.all_eq_false]
  simp only [decide_eq_true_eq, Nat.not_lt]

theorem stored_of (s : State) (env : Env) (sender : Option Bytes) (key : Bytes) (l : LSet) (reply : StoreReply) (hf : s.floodfill = true)
    (ha : s.active.get key = none) (hl : l.expired s.now = false) :
    (s.step env (.store sender key (.leaseSet l) reply)).leaseSets.get key = some (l.raw, l.expires) := by
  have h := congrArg Core.leaseSets (core_store s env sender key (.leaseSet l) reply)
  rw [ha] at h
  dsimp only at h
  rw [if_pos ⟨hf, hl⟩] at h
  show (s.storeMsg env sender key (.leaseSet l) reply).core.leaseSets.get key = _
  rw [h]
  show (s.leaseSets.put key _).get key = _
  rw [AMap.get_put, if_pos rfl]

/-- C141: a floodfill that has no query for the key keeps a lease set that has not expired, under the key it was stored with. -/
theorem C141_stored (s : State) (env : Env) (sender : Option Bytes) (key : Bytes) (l : LSet) (reply : StoreReply) (hf : s.floodfill = true)
    (ha : s.active.get key = none) (hl : Current l s.now) :
    (s.step env (.store sender key (.leaseSet l) reply)).leaseSets.get key = some (l.raw, l.expires) :=
  stored_of s env sender key l reply hf ha ((current_iff _ _).mpr hl)

/-- C141: a lease set that has expired is not kept. -/
theorem C141_expired (s : State) (env : Env) (sender : Option Bytes) (key : Bytes) (l : LSet) (reply : StoreReply) (ha : s.active.get key = none) (hl : ¬ Current l s.now) :
    (s.step env (.store sender key (.leaseSet l) reply)).leaseSets = s.leaseSets := by
  have h := congrArg Core.leaseSets (core_store s env sender key (.leaseSet l) reply)
  rw [ha] at h
  dsimp only at h
  rw [if_neg (fun x => hl ((current_iff _ _).mp x.2))] at h
  exact h

/-- A message that stores a lease set under the key. -/
def Op.storesLs (key : Bytes) : Op → Bool
  | .store _ k (.leaseSet _) _ => decide (k = key)
  | _ => false

/-- A message that stores a router info under the key. -/
def Op.storesRi (key : Bytes) : Op → Bool
  | .store _ k (.routerInfo _) _ => decide (k = key)
  | _ => false

/-- The clock does not run backwards. -/
theorem now_step (s : State) (env : Env) (op : Op) : s.now ≤ (s.step env op).now := by
  cases op with
  | advance d => exact Nat.le_add_right _ _
  | connected r => exact Nat.le_of_eq (congrArg Core.now (core_established s env r)).symm
  | closed r => exact Nat.le_refl _
  | failed r => exact Nat.le_refl _
  | outBuilt t => unfold State.step; dsimp only; split <;> exact Nat.le_refl _
  | outExpired t => exact Nat.le_refl _
  | inBuilt t => unfold State.step; dsimp only; split <;> exact Nat.le_refl _
  | inExpired t => exact Nat.le_refl _
  | queryLs k t => exact Nat.le_of_eq (congrArg Core.now (core_queryLs s env k t)).symm
  | queryRi k t => exact Nat.le_of_eq (congrArg Core.now (core_queryRi s env k t)).symm
  | closest k t => unfold State.step State.closestFloodfills; dsimp only; split <;> exact Nat.le_refl _
  | publish k r => exact Nat.le_of_eq (congrArg Core.now (core_send s env _ _ _)).symm
  | waitReady t => unfold State.step; dsimp only; split <;> exact Nat.le_refl _
  | fire i => exact Nat.le_of_eq (congrArg Core.now (core_fire s env i)).symm
  | tick k => exact Nat.le_of_eq (congrArg Core.now (core_tick s env k)).symm
  | lookup k kd r ig => exact Nat.le_of_eq (congrArg Core.now (core_lookupMsg s env k kd r ig)).symm
  | search sd m => exact Nat.le_of_eq (congrArg Core.now (core_search s env sd m)).symm
  | store sd k p r =>
    have h := congrArg Core.now (core_store s env sd k p r)
    refine Nat.le_of_eq (Eq.trans ?_ h.symm)
    split
    · split <;> rfl
    · split <;> rfl
    · rfl

theorem now_run (s : State) (evs : List (Env × Op)) : s.now ≤ (s.run evs).now := by
  induction evs generalizing s with
  | nil => exact Nat.le_refl _
  | cons e evs ih => exact Nat.le_trans (now_step s e.1 e.2) (ih _)

/-- What an event does to the stored records. -/
theorem records_step (s : State) (env : Env) (op : Op) :
    ((s.step env op).leaseSets = s.leaseSets ∧ (s.step env op).routerInfos = s.routerInfos) ∨
    (∃ sd key l r, op = .store sd key (.leaseSet l) r ∧ s.floodfill = true ∧ s.active.get key = none ∧ l.expired s.now = false ∧
      (s.step env op).leaseSets = s.leaseSets.put key (l.raw, l.expires) ∧ (s.step env op).routerInfos = s.routerInfos) ∨
    (∃ k, op = .tick k ∧ s.maintAt ≤ s.now ∧ (s.step env op).leaseSets = s.leaseSets.keep (fun _ l => !decide (l.2 < s.now)) ∧
      (s.step env op).routerInfos = s.routerInfos) ∨
    (∃ sd key i r, op = .store sd key (.routerInfo i) r ∧ s.floodfill = true ∧ s.active.get key = none ∧ i.netId = s.netId ∧ i.id ≠ s.localId ∧
      s.now ≤ i.published + 3600000 ∧ (s.step env op).leaseSets = s.leaseSets ∧ (s.step env op).routerInfos = s.routerInfos.put key (i.raw, i.published)) := by
  have same : ∀ s' : State, s'.core = s.core → s'.leaseSets = s.leaseSets ∧ s'.routerInfos = s.routerInfos :=
    fun s' e => ⟨congrArg Core.leaseSets e, congrArg Core.routerInfos e⟩
  cases op with
  | advance d => exact .inl ⟨rfl, rfl⟩
  | connected r => exact .inl (same _ (core_established s env r))
  | closed r => exact .inl ⟨rfl, rfl⟩
  | failed r => exact .inl ⟨rfl, rfl⟩
  | outBuilt t => left; unfold State.step; dsimp only; split <;> exact ⟨rfl, rfl⟩
  | outExpired t => exact .inl ⟨rfl, rfl⟩
  | inBuilt t => left; unfold State.step; dsimp only; split <;> exact ⟨rfl, rfl⟩
  | inExpired t => exact .inl ⟨rfl, rfl⟩
  | queryLs k t => exact .inl (same _ (core_queryLs s env k t))
  | queryRi k t => exact .inl (same _ (core_queryRi s env k t))
  | closest k t => left; unfold State.step State.closestFloodfills; dsimp only; split <;> exact ⟨rfl, rfl⟩
  | publish k r => exact .inl (same _ (core_send s env _ _ _))
  | waitReady t => left; unfold State.step; dsimp only; split <;> exact ⟨rfl, rfl⟩
  | fire i => exact .inl (same _ (core_fire s env i))
  | tick k =>
    have hc := congrArg Core.leaseSets (core_tick s env k)
    have hr := congrArg Core.routerInfos (core_tick s env k)
    dsimp only at hc hr
    by_cases hm : s.maintAt ≤ s.now
    · rw [if_pos hm] at hc
      exact .inr (.inr (.inl ⟨k, rfl, hm, hc, hr⟩))
    · rw [if_neg hm] at hc
      exact .inl ⟨hc, hr⟩
  | lookup k kd r ig => exact .inl (same _ (core_lookupMsg s env k kd r ig))
  | search sd m => exact .inl (same _ (core_search s env sd m))
  | store sd k p r =>
    have hc := core_store s env sd k p r
    cases ha : s.active.get k with
    | some x => rw [ha] at hc; exact .inl (same _ hc)
    | none =>
      rw [ha] at hc
      cases p with
      | leaseSet l =>
        dsimp only at hc
        by_cases hl : s.floodfill = true ∧ l.expired s.now = false
        · rw [if_pos hl] at hc
          exact .inr (.inl ⟨sd, k, l, r, rfl, hl.1, ha, hl.2, congrArg Core.leaseSets hc, congrArg Core.routerInfos hc⟩)
        · rw [if_neg hl] at hc
          exact .inl (same _ hc)
      | routerInfo i =>
        dsimp only at hc
        by_cases hl : i.netId = s.netId ∧ i.id ≠ s.localId ∧ s.now ≤ i.published + 3600000 ∧ s.floodfill = true
        · rw [if_pos hl] at hc
          exact .inr (.inr (.inr ⟨sd, k, i, r, rfl, hl.2.2.2, ha, hl.1, hl.2.1, hl.2.2.1, congrArg Core.leaseSets hc, congrArg Core.routerInfos hc⟩))
        · rw [if_neg hl] at hc
          exact .inl (same _ hc)

theorem ok_step (s : State) (env : Env) (op : Op) (h : s.leaseSets.Ok) : (s.step env op).leaseSets.Ok := by
  rcases records_step s env op with g | ⟨_, _, _, _, _, _, _, _, g, _⟩ | ⟨_, _, _, g, _⟩ | ⟨_, _, _, _, _, _, _, _, _, _, g, _⟩
  · rw [g.1]; exact h
  · rw [g]; exact AMap.ok_put h _ _
  · rw [g]; exact AMap.ok_keep h _
  · rw [g]; exact h

theorem ok_run (s : State) (evs : List (Env × Op)) (h : s.leaseSets.Ok) : (s.run evs).leaseSets.Ok := by
  induction evs generalizing s with
  | nil => exact h
  | cons e evs ih => exact ih _ (ok_step s e.1 e.2 h)

theorem kept_run (s : State) (key raw : Bytes) (exp : Nat) (hok : s.leaseSets.Ok) (evs : List (Env × Op)) (h : ∀ e ∈ evs, e.2.storesLs key = false)
    (h0 : s.leaseSets.get key = some (raw, exp)) (ht : (s.run evs).now ≤ exp) : (s.run evs).leaseSets.get key = some (raw, exp) := by
  induction evs generalizing s with
  | nil => exact h0
  | cons e evs ih =>
    refine ih (s.step e.1 e.2) (ok_step s e.1 e.2 hok) (fun x hx => h x (by simp [hx])) ?_ ht
    have he := h e (by simp)
    rcases records_step s e.1 e.2 with g | ⟨sd, k, l, r, g0, _, _, _, g, _⟩ | ⟨_, _, _, g, _⟩ | ⟨_, _, _, _, _, _, _, _, _, _, g, _⟩
    · rw [g.1]; exact h0
    · rw [g0] at he
      have hk : ¬ k = key := by simpa [Op.storesLs] using he
      rw [g, AMap.get_put, if_neg (fun e => hk e.symm)]; exact h0
    · rw [g, AMap.get_keep hok, h0]
      have : s.now ≤ exp := Nat.le_trans (Nat.le_trans (now_step s e.1 e.2) (now_run _ evs)) ht
      simp only [Option.filter]
      rw [if_pos (by simpa using this)]
    · rw [g]; exact h0

/-- C141: a lease set accepted by a floodfill is what it answers lookups with, until the first of its expirations, unless another one is stored for the
same key. Partial: the promise should last until the lease set has expired, which is when all its leases have, see `C141_early_violated`. -/
theorem C141_served_partial (localId : Bytes) (netId : Nat) (fd rd : Table) (now : Nat) (env : Env) (before evs : List (Env × Op))
    (e e' : Env) (sender : Option Bytes) (key : Bytes) (l : LSet) (reply : StoreReply) (back : LookupReply) (ignore : List Bytes) :
    let s := (State.init localId netId true fd rd now env).run before
    let s' := (s.step e (.store sender key (.leaseSet l) reply)).run evs
    s.active.get key = none → Current l s.now → (∀ e ∈ evs, e.2.storesLs key = false) → s'.now ≤ l.expires →
    (s'.step e' (.lookup key .leaseSet back ignore)).log = s'.log ++ [answerTo back (.storeLeaseSet key l.raw)] := by
  intro s s' ha hl h ht
  have ff : ∀ (evs : List (Env × Op)) (s : State), (s.run evs).floodfill = s.floodfill := by
    intro evs
    induction evs with
    | nil => intro s; rfl
    | cons x evs ih =>
      intro s
      refine (ih (s.step x.1 x.2)).trans ?_
      obtain ⟨env, op⟩ := x
      cases op with
      | advance d => rfl
      | connected r => exact congrArg Core.floodfill (core_established s env r)
      | closed r => rfl
      | failed r => rfl
      | outBuilt t => unfold State.step; dsimp only; split <;> rfl
      | outExpired t => rfl
      | inBuilt t => unfold State.step; dsimp only; split <;> rfl
      | inExpired t => rfl
      | queryLs k t => exact congrArg Core.floodfill (core_queryLs s env k t)
      | queryRi k t => exact congrArg Core.floodfill (core_queryRi s env k t)
      | closest k t => unfold State.step State.closestFloodfills; dsimp only; split <;> rfl
      | publish k r => exact congrArg Core.floodfill (core_send s env _ _ _)
      | waitReady t => unfold State.step; dsimp only; split <;> rfl
      | fire i => exact congrArg Core.floodfill (core_fire s env i)
      | tick k => exact congrArg Core.floodfill (core_tick s env k)
      | lookup k kd r ig => exact congrArg Core.floodfill (core_lookupMsg s env k kd r ig)
      | search sd m => exact congrArg Core.floodfill (core_search s env sd m)
      | store sd k p r =>
        refine (congrArg Core.floodfill (core_store s env sd k p r)).trans ?_
        split
        · split <;> rfl
        · split <;> rfl
        · rfl
  have f0 : s.floodfill = true := ff before _
  have f1 : s'.floodfill = true := (ff ((e, .store sender key (.leaseSet l) reply) :: evs) s).trans f0
  have ok0 : s.leaseSets.Ok := ok_run _ before AMap.ok_nil
  have h0 := C141_stored s e sender key l reply f0 ha hl
  have hk := kept_run _ key l.raw l.expires (ok_step s e (.store sender key (.leaseSet l) reply) ok0) evs h h0 ht
  obtain ⟨m, e1, e2, _⟩ := C140_lease_set s' e' key back ignore f1
  rw [e1, e2 _ hk]
  rfl

/-- C141: right after maintenance a floodfill has no lease set one of whose expirations has passed; maintenance takes place at the first poll at
least thirty seconds after the one before. -/
theorem C141_pruned (localId : Bytes) (netId : Nat) (ff : Bool) (fd rd : Table) (now : Nat) (env : Env) (before : List (Env × Op)) (e : Env) (rand : Bytes) :
    let s := (State.init localId netId ff fd rd now env).run before
    let s' := s.step e (.tick rand)
    s.maintAt ≤ s.now → (∀ key raw exp, s'.leaseSets.get key = some (raw, exp) → s'.now ≤ exp) ∧ s'.maintAt = s'.now + 30000 := by
  intro s s' hm
  have ok0 : s.leaseSets.Ok := ok_run _ before AMap.ok_nil
  have hc := core_tick s e rand
  have hl := congrArg Core.leaseSets hc
  have hn : s'.now = s.now := congrArg Core.now hc
  have ha := congrArg Core.maintAt hc
  dsimp only at hl ha
  rw [if_pos hm] at hl ha
  constructor
  · intro key raw exp h
    have h : (s.tick e rand).core.leaseSets.get key = some (raw, exp) := h
    rw [hl, AMap.get_keep ok0] at h
    cases hg : s.leaseSets.get key with
    | none => rw [hg] at h; cases h
    | some v =>
      rw [hg] at h
      simp only [Option.filter] at h
      split at h
      · next hv =>
        injection h with h
        subst h
        rw [hn]
        simpa using hv
      · cases h
  · rw [hn]; exact ha

/-- C141 does not hold for lease sets with leases of different age: one that is still valid, with leases to come, is dropped by maintenance once its
first lease has expired, and lookups for it are no longer answered with it. -/
theorem C141_early_violated (s : State) (env : Env) (rand key : Bytes) (l : LSet) (hok : s.leaseSets.Ok)
    (h : s.leaseSets.get key = some (l.raw, l.expires)) (hm : s.maintAt ≤ s.now) (first : ∃ x ∈ l.leases, x * 1000 < s.now) :
    (s.step env (.tick rand)).leaseSets.get key = none := by
  have hl := congrArg Core.leaseSets (core_tick s env rand)
  dsimp only at hl
  rw [if_pos hm] at hl
  show (s.tick env rand).core.leaseSets.get key = none
  rw [hl, AMap.get_keep hok, h]
  have hmin : ∀ (ls : List Nat) (a x : Nat), x ∈ ls ∨ x = a → ls.foldl min a ≤ x := by
    intro ls
    induction ls with
    | nil => intro a x h; rcases h with h | h; cases h; exact Nat.le_of_eq h.symm
    | cons y ls ih =>
      intro a x h
      show ls.foldl min (min a y) ≤ x
      rcases h with h | h
      · rcases List.mem_cons.mp h with h | h
        · exact Nat.le_trans (ih (min a y) (min a y) (.inr rfl)) (by subst h; exact Nat.min_le_right _ _)
        · exact ih _ _ (.inl h)
      · exact Nat.le_trans (ih (min a y) (min a y) (.inr rfl)) (by subst h; exact Nat.min_le_left _ _)
  obtain ⟨x, hx, hlt⟩ := first
  have : l.expires < s.now := by
    have := hmin l.leases l.headerExpires x (.inl hx)
    unfold LSet.expires
    omega
  simp only [Option.filter]
  rw [if_neg (by simpa using this)]

/-- C141 does not hold for what a floodfill accepts: the lease set need not be of the destination whose key it is stored under, so anybody can replace
the lease set of a destination, and it need not be newer than the one it replaces. -/
theorem C141_replaced_violated (s : State) (env : Env) (sender : Option Bytes) (key : Bytes) (old : Bytes × Nat) (l : LSet) (reply : StoreReply)
    (hf : s.floodfill = true) (_ : s.leaseSets.get key = some old) (ha : s.active.get key = none) (hl : Current l s.now)
    (_ : l.dest ≠ key ∨ l.expires < old.2) :
    (s.step env (.store sender key (.leaseSet l) reply)).leaseSets.get key = some (l.raw, l.expires) :=
  C141_stored s env sender key l reply hf ha hl

/-- A lease set with a lease until 600 s and one until 900 s. -/
def toyTwo : LSet := { dest := tid 5, headerExpires := 900, leases := [600, 900], raw := [9] }
def toyLate : State := toyFf.run [(toyEnv [], .store none (tid 5) (.leaseSet toyTwo) .none), (toyEnv [], .advance 700000)]

example : Current toyTwo toyLate.now ∧ toyLate.leaseSets.get (tid 5) = some ([9], toyTwo.expires) ∧
    (toyLate.step (toyEnv []) (.tick (tid 7))).leaseSets.get (tid 5) = none := by decide +kernel
example := C141_early_violated toyLate (toyEnv []) (tid 7) (tid 5) toyTwo (by unfold AMap.Ok; decide +kernel) (by decide +kernel) (by decide +kernel) ⟨600, by decide, by decide +kernel⟩
/-- The lease set of destination 41 is stored, and served, under the key of destination 5. -/
def toyForged : LSet := { dest := tid 41, headerExpires := 300, leases := [300], raw := [3] }
example := C141_replaced_violated toyStored (toyEnv []) none (tid 5) ([9], 600000) toyForged .none (by decide +kernel) (by decide +kernel) (by decide +kernel)
  (by decide +kernel) (.inl (by decide))
example := C141_served_partial (tid 0) 2 (Table.new (tid 0)) (Table.new (tid 0)) 0 (toyEnv []) [] [(toyEnv [], .advance 500000), (toyEnv [], .tick (tid 1))] (toyEnv []) (toyEnv [])
  none (tid 5) toyTwo .none (.router (tid 6)) [] (by decide +kernel) (by decide +kernel) (by decide) (by decide +kernel)

/-! ## C142 -/

/-- C142: a floodfill keeps only router infos of this network, not its own, and not older than an hour when they arrive. -/
theorem C142_accepted_partial (s : State) (env : Env) (op : Op) (key : Bytes) (h : (s.step env op).routerInfos.get key ≠ s.routerInfos.get key) :
    ∃ sd i r, op = .store sd key (.routerInfo i) r ∧ i.netId = s.netId ∧ i.id ≠ s.localId ∧ s.now ≤ i.published + 3600000 ∧
      (s.step env op).routerInfos.get key = some (i.raw, i.published) := by
  rcases records_step s env op with g | ⟨_, _, _, _, _, _, _, _, _, g⟩ | ⟨_, _, _, _, g⟩ | ⟨sd, k, i, r, g0, _, _, g3, g4, g5, _, g⟩
  · rw [g.2] at h; exact absurd rfl h
  · rw [g] at h; exact absurd rfl h
  · rw [g] at h; exact absurd rfl h
  · by_cases hk : key = k
    · subst hk
      exact ⟨sd, i, r, g0, g3, g4, g5, by rw [g, AMap.get_put, if_pos rfl]⟩
    · rw [g, AMap.get_put, if_neg hk] at h
      exact absurd rfl h

/-- C142 does not hold for how long they are kept: a router info is never removed, so a floodfill answers with it, no matter how old it has become. -/
theorem C142_forever_violated (s : State) (key raw : Bytes) (published : Nat) (h : s.routerInfos.get key = some (raw, published))
    (evs : List (Env × Op)) (hs : ∀ e ∈ evs, e.2.storesRi key = false) (env : Env) (back : LookupReply) (ignore : List Bytes) (hf : (s.run evs).floodfill = true) :
    ((s.run evs).step env (.lookup key .router back ignore)).log = (s.run evs).log ++ [answerTo back (.storeRouterInfo key raw)] := by
  have hg : (s.run evs).routerInfos.get key = some (raw, published) := by
    clear hf
    induction evs generalizing s with
    | nil => exact h
    | cons e evs ih =>
      refine ih (s.step e.1 e.2) ?_ (fun x hx => hs x (by simp [hx]))
      have he := hs e (by simp)
      rcases records_step s e.1 e.2 with g | ⟨_, _, _, _, _, _, _, _, _, g⟩ | ⟨_, _, _, _, g⟩ | ⟨sd, k, i, r, g0, _, _, g3, g4, g5, _, g⟩
      · rw [g.2]; exact h
      · rw [g]; exact h
      · rw [g]; exact h
      · rw [g0] at he
        have hk : ¬ k = key := by simpa [Op.storesRi] using he
        rw [g, AMap.get_put, if_neg (fun e => hk e.symm)]
        exact h
  obtain ⟨m, e1, e2, _⟩ := C140_router_info (s.run evs) env key back ignore hf
  rw [e1, e2 _ hg]
  rfl

/-- C142 does not hold for the key: a router info is kept, and served, under whatever key it was sent with. -/
theorem C142_foreign_violated (s : State) (env : Env) (sender : Option Bytes) (key : Bytes) (i : RInfo) (reply : StoreReply) (hf : s.floodfill = true)
    (ha : s.active.get key = none) (h1 : i.netId = s.netId) (h2 : i.id ≠ s.localId) (h3 : s.now ≤ i.published + 3600000) (_ : i.id ≠ key) :
    (s.step env (.store sender key (.routerInfo i) reply)).routerInfos.get key = some (i.raw, i.published) := by
  have h := core_store s env sender key (.routerInfo i) reply
  rw [ha] at h
  dsimp only at h
  rw [if_pos ⟨h1, h2, h3, hf⟩] at h
  show (s.storeMsg env sender key (.routerInfo i) reply).core.routerInfos.get key = _
  rw [h]
  show (s.routerInfos.put key _).get key = _
  rw [AMap.get_put, if_pos rfl]

/-- A floodfill that has the router info of router 40 under the key of router 6. -/
def toyOdd : State := toyFf.run [(toyEnv [], .store none (tid 6) (.routerInfo toyRi) .none)]
example := C142_foreign_violated toyFf (toyEnv []) none (tid 6) toyRi .none rfl rfl rfl (by decide) (by decide) (by decide)
/-- Three years later. -/
example := C142_forever_violated toyOdd (tid 6) [1] 0 (by decide +kernel) [(toyEnv [], .advance 94608000000), (toyEnv [], .tick (tid 9))]
  (by decide) (toyEnv []) (.router (tid 8)) [] (by decide +kernel)
example := C142_accepted_partial toyFf (toyEnv []) (.store none (tid 6) (.routerInfo toyRi) .none) (tid 6) (by decide +kernel)

end Emissary.NetdbRun
