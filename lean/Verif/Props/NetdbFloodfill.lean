import Verif.Lemmas.NetdbOut
import Verif.Props.Netdb
import Verif.Props.NetdbSend
/-!
# Who is taken for a floodfill (C264)
-/
namespace Emissary.NetdbRun
open Emissary Emissary.Netdb

/-! ## Specification -/

/-- The event says that `r` is a floodfill: a connection to a router that the profile storage takes for one, or a router info of `r` that says so. -/
def Says (e : Env × Op) (r : Bytes) : Prop :=
  (e.2 = .connected r ∧ e.1.isFloodfill r = true) ∨
  ∃ sender key i reply, e.2 = .store sender key (.routerInfo i) reply ∧ i.id = r ∧ i.floodfill = true

/-- The routers that an output is for or is about: those that are asked, told, dialled or named. -/
def Out.targets : Out → List Bytes
  | .lookup f _ _ _ _ => [f]
  | .connect r => [r]
  | .send r _ => [r]
  | .floodfills _ l => l
  | _ => []

/-! ## The table -/

/-- The table of floodfills gains at most routers with a property. -/
def Ext (V : Bytes → Prop) (s s' : State) : Prop := ∀ r, s'.ffDht.knows r → s.ffDht.knows r ∨ V r

theorem Ext.same {V : Bytes → Prop} {s s' : State} (h : s'.ffDht = s.ffDht) : Ext V s s' := fun _ hr => .inl (h ▸ hr)
theorem Ext.trans {V : Bytes → Prop} {a b c : State} (h : Ext V a b) (g : Ext V b c) : Ext V a c := fun r hr =>
  (g r hr).elim (h r) .inr

theorem tryInsert_mem {b : KBucket} {k : Bytes} {f : FloodFill} (h : f ∈ (b.tryInsert k).1) : f ∈ b ∨ f.key = k := by
  rcases tryInsert_cases b k with ⟨_, e⟩ | ⟨_, _, e⟩ | ⟨_, _, u, g, v, e1, _, _, e⟩ | ⟨_, _, _, e⟩
  · rw [e] at h; exact .inl h
  · rw [e] at h; simp only [List.mem_append, List.mem_singleton] at h; rcases h with h | h
    · exact .inl h
    · exact .inr (by rw [h])
  · rw [e] at h
    simp only [List.mem_append, List.mem_cons] at h
    rw [e1]
    rcases h with h | h | h
    · exact .inl (by simp [h])
    · exact .inr (by rw [h])
    · exact .inl (by simp [h])
  · rw [e] at h; exact .inl h

theorem knows_addRouter {t : Table} {id r : Bytes} (hr : (t.addRouter id).knows r) : t.knows r ∨ r = id := by
  obtain ⟨i, f, hf, e⟩ := hr
  unfold Table.addRouter at hf
  split at hf
  · next j hj =>
    simp only [Table.set] at hf
    split at hf
    · rcases tryInsert_mem hf with hf | h
      · exact .inl ⟨j, f, hf, e⟩
      · exact .inr (e.symm.trans h)
    · exact .inl ⟨i, f, hf, e⟩
  · exact .inl ⟨i, f, hf, e⟩

theorem knows_closest {t : Table} {k r : Bytes} {n : Nat} (h : r ∈ t.closest k n) : t.knows r := by
  have h := List.mem_of_mem_take h
  simp only [List.mem_flatMap, mem_closestIter] at h
  obtain ⟨i, _, f, hf, e⟩ := h
  exact ⟨i, f, hf, e⟩

theorem knows_closestWithIgnore {t : Table} {k r : Bytes} {n : Nat} {l : List Bytes} (h : r ∈ t.closestWithIgnore k n l) : t.knows r := by
  have h := (List.mem_filter.1 (List.mem_of_mem_take h)).1
  simp only [List.mem_flatMap, mem_closestIter] at h
  obtain ⟨i, _, f, hf, e⟩ := h
  exact ⟨i, f, hf, e⟩

theorem ext_addFloodfill (s : State) (i : RInfo) : Ext (fun r => i.id = r ∧ i.floodfill = true) s (s.addFloodfill i) := by
  unfold State.addFloodfill
  split
  · next h => exact fun r hr => (knows_addRouter hr).imp_right fun e => ⟨e.symm, h⟩
  · exact Ext.same rfl

theorem ext_credit {V : Bytes → Prop} (s : State) (x : Option Bytes) : Ext V s (s.credit x) := by
  unfold State.credit
  split
  · exact fun r hr => .inl (mem_adjustScore.1 hr)
  · exact Ext.same rfl
theorem ext_discredit {V : Bytes → Prop} (s : State) (x : Option Bytes) : Ext V s (s.discredit x) := by
  unfold State.discredit
  split
  · exact fun r hr => .inl (mem_adjustScore.1 hr)
  · exact Ext.same rfl
theorem ext_charge {V : Bytes → Prop} (s : State) (q : Query) : Ext V s (s.charge q) := by
  unfold State.charge
  split
  · exact fun r hr => .inl (mem_adjustScore.1 hr)
  · exact Ext.same rfl

theorem ff_sendOne (s : State) (env : Env) (m : Msg) (e : Option Nat) (r : Bytes) : (s.sendOne env m e r).ffDht = s.ffDht := by
  unfold State.sendOne
  split
  · split <;> rfl
  · rfl
  · rfl
theorem ff_send (env : Env) (rs : List Bytes) (m : Msg) (e : Option Nat) (s : State) : (s.send env rs m e).ffDht = s.ffDht := by
  unfold State.send
  induction rs generalizing s with
  | nil => rfl
  | cons r rs ih => rw [List.foldl_cons, ih, ff_sendOne]
theorem ff_flood (s : State) (env : Env) (key : Bytes) (reply : StoreReply) (m : Msg) (e : Nat) : (s.flood env key reply m e).ffDht = s.ffDht := by
  unfold State.flood
  split
  · rfl
  · dsimp only; rw [ff_send, ff_send]
theorem ff_activate (s : State) (k : Bytes) (q : Kind) : (s.activate k q).ffDht = s.ffDht := by
  unfold State.activate
  dsimp only
  split <;> rfl
theorem ff_arm (s : State) (k k' : Bytes) (q : Kind) : ((s.activate k q).arm k').ffDht = s.ffDht := ff_activate s k q
theorem ff_lookup (s : State) (env : Env) (f k : Bytes) (kind : LookupKind) : (s.lookup env f k kind).1.ffDht = s.ffDht := by
  have ht : s.tunnels.1.ffDht = s.ffDht := by
    unfold State.tunnels
    split
    · rfl
    · split <;> rfl
  unfold State.lookup
  split
  · next e => rw [e] at ht; exact ht
  · next e =>
    rw [e] at ht
    split
    · exact ht
    · exact ht
theorem ff_fetch (s : State) (env : Env) (a r : Bytes) : (s.fetch env a r).ffDht = s.ffDht := by
  have h := ff_lookup s env a r .router
  unfold State.fetch
  split
  · next e => rw [e] at h; rw [ff_arm]; exact h
  · next e => rw [e] at h; exact h
theorem ff_fetches (env : Env) (a : Bytes) (rs : List Bytes) (s : State) : (s.fetches env a rs).ffDht = s.ffDht := by
  unfold State.fetches
  induction rs generalizing s with
  | nil => rfl
  | cons r rs ih => rw [List.foldl_cons, ih, ff_fetch]

theorem ext_store (s : State) (env : Env) (sender : Option Bytes) (key : Bytes) (p : Payload) (reply : StoreReply) :
    Ext (Says (env, .store sender key p reply)) s (s.storeMsg env sender key p reply) := by
  unfold State.storeMsg
  refine Ext.trans (b := s.take key) (Ext.same rfl) ?_
  generalize s.take key = s1
  have tells : ∀ i : RInfo, p = .routerInfo i → ∀ s : State, Ext (Says (env, .store sender key p reply)) s (s.addFloodfill i) := fun i hp s r hr =>
    (ext_addFloodfill s i r hr).imp_right fun h => .inr ⟨sender, key, i, reply, by rw [hp], h.1, h.2⟩
  unfold State.storeAt
  cases s.active.get key with
  | none =>
    cases p with
    | routerInfo x =>
      dsimp only
      unfold State.routerInfoStore
      split
      · exact Ext.same rfl
      split
      · exact Ext.same rfl
      split
      · exact Ext.same rfl
      dsimp only
      split
      · exact (tells x rfl s1).trans (Ext.same rfl)
      · exact (tells x rfl s1).trans (Ext.same (by rw [ff_flood]; rfl))
    | leaseSet l =>
      dsimp only
      split
      · unfold State.leaseSetStore
        split
        · exact Ext.same rfl
        · exact Ext.same (by rw [ff_flood])
      · exact Ext.same rfl
  | some k =>
    cases p with
    | leaseSet l => cases k <;> exact Ext.same rfl
    | routerInfo x =>
      cases k with
      | leaseSet q => exact Ext.same rfl
      | exploration => exact Ext.same rfl
      | routerInfo q => exact (ext_credit s1 sender).trans (Ext.same rfl)
      | router =>
        show Ext _ s1 (s1.fetched sender x)
        unfold State.fetched
        split
        · exact Ext.same rfl
        split
        · exact Ext.same rfl
        refine (tells x rfl s1).trans ?_
        generalize s1.addFloodfill x = s2
        exact (Ext.same rfl : Ext _ s2 { s2 with rtDht := s2.rtDht.map (fun t => Table.addRouter t x.id) }).trans ((ext_credit _ sender).trans (Ext.same rfl))

theorem ff_searchAt (s : State) (env : Env) (key : Bytes) (l : List Bytes) (a : Bytes) (k : Option Kind) : (s.searchAt env key l a k).ffDht = s.ffDht := by
  unfold State.searchAt
  split
  · rfl
  · rw [ff_fetches]
  · rw [ff_activate, ff_fetches]
  · rw [ff_activate, ff_fetches]
  · rfl

theorem ext_timeout {V : Bytes → Prop} (s : State) (env : Env) (key : Bytes) (k : Kind) : Ext V s (s.handleTimeout env key k) := by
  unfold State.handleTimeout
  split
  · next q =>
    refine (ext_charge s q).trans ?_
    dsimp only
    generalize s.charge q = s1
    split
    · exact Ext.same rfl
    · next f _ =>
      have h := ff_lookup s1 env f key .leaseSet
      split
      · next e => rw [e] at h; exact Ext.same (by rw [ff_arm]; exact h)
      · next e => rw [e] at h; exact Ext.same h
  · next q =>
    refine (ext_charge s q).trans ?_
    dsimp only
    generalize s.charge q = s1
    split
    · exact Ext.same rfl
    · next f _ =>
      have h := ff_lookup s1 env f key .router
      split
      · next e => rw [e] at h; exact Ext.same (by rw [ff_arm]; exact h)
      · next e => rw [e] at h; exact Ext.same (by rw [ff_arm]; exact h)
  · exact Ext.same rfl
  · exact Ext.same rfl

theorem ext_fire {V : Bytes → Prop} (s : State) (env : Env) (i : Nat) : Ext V s (s.fire env i) := by
  unfold State.fire
  split
  · exact Ext.same rfl
  · split
    · exact Ext.same rfl
    · split
      · exact Ext.same rfl
      · refine Ext.trans ?_ (ext_timeout _ _ _ _)
        exact Ext.same rfl

theorem ext_fireAll {V : Bytes → Prop} (env : Env) (n : Nat) (s : State) : Ext V s (State.fireAll env n s) := by
  induction n generalizing s with
  | zero => exact Ext.same rfl
  | succ n ih =>
    unfold State.fireAll
    split
    · exact Ext.same rfl
    · exact (ext_fire s env _).trans (ih _)

theorem ff_explore (s : State) (env : Env) (key : Bytes) : (s.explore env key).ffDht = s.ffDht := by
  unfold State.explore
  split
  · rfl
  · next f _ =>
    have h := ff_lookup s env f key .exploration
    split
    · next e => rw [e] at h; rw [ff_arm]; exact h
    · next e => rw [e] at h; exact h

theorem ff_lookupMsg (s : State) (env : Env) (key : Bytes) (kind : LookupKind) (reply : LookupReply) (ignore : List Bytes) :
    (s.lookupMsg env key kind reply ignore).ffDht = s.ffDht := by
  have ans : ∀ m, (s.answer reply m).ffDht = s.ffDht := by intro m; unfold State.answer; split <;> rfl
  unfold State.lookupMsg
  split
  · rfl
  · split
    · unfold State.leaseSetLookup; split <;> exact ans _
    · unfold State.routerInfoLookup; split <;> exact ans _
    · unfold State.explorationLookup
      split
      · rfl
      · dsimp only; split <;> rw [ff_send]
    · rfl

theorem ff_queryLs (s : State) (env : Env) (key : Bytes) (tx : Nat) : (s.queryLs env key tx).ffDht = s.ffDht := by
  unfold State.queryLs
  split
  · rfl
  · rfl
  · split
    · rfl
    · next f _ =>
      have h := ff_lookup s env f key .leaseSet
      split
      · next e => rw [e] at h; rw [ff_arm]; exact h
      · next e => rw [e] at h; exact h

theorem ff_queryRi (s : State) (env : Env) (key : Bytes) (tx : Nat) : (s.queryRi env key tx).ffDht = s.ffDht := by
  unfold State.queryRi
  split
  · rfl
  · rfl
  · split
    · rfl
    · next f _ =>
      have h := ff_lookup s env f key .router
      split
      · next e => rw [e] at h; rw [ff_arm]; exact h
      · next e => rw [e] at h; exact h

theorem ext_step (s : State) (env : Env) (o : Op) : Ext (Says (env, o)) s (s.step env o) := by
  cases o with
  | advance d => exact Ext.same rfl
  | connected r =>
    show Ext _ s (s.established env r)
    unfold State.established
    dsimp only
    split
    · next h => exact fun x hx => (knows_addRouter hx).imp_right fun e => .inl ⟨by rw [e], by rw [e]; exact h⟩
    · exact Ext.same rfl
  | closed r => exact Ext.same rfl
  | failed r => exact Ext.same rfl
  | store sender key p reply => exact ext_store s env sender key p reply
  | search sender m =>
    show Ext _ s (s.searchMsg env sender m)
    unfold State.searchMsg
    split
    · exact ext_discredit s sender
    · exact (ext_discredit s sender).trans (Ext.same (by rw [ff_searchAt]; rfl))
  | lookup key kind reply ignore => exact Ext.same (ff_lookupMsg ..)
  | outBuilt t => refine Ext.same ?_; simp only [State.step]; split <;> rfl
  | outExpired t => exact Ext.same rfl
  | inBuilt l => refine Ext.same ?_; simp only [State.step]; split <;> rfl
  | inExpired t => exact Ext.same rfl
  | queryLs key tx => exact Ext.same (ff_queryLs ..)
  | queryRi r tx => exact Ext.same (ff_queryRi ..)
  | closest key tx =>
    refine Ext.same ?_
    show (s.closestFloodfills env key tx).ffDht = _
    unfold State.closestFloodfills; dsimp only; split <;> rfl
  | publish r raw => exact Ext.same (ff_send ..)
  | waitReady tx => refine Ext.same ?_; simp only [State.step]; split <;> rfl
  | fire i => exact ext_fire s env i
  | tick key =>
    show Ext _ s (s.tick env key)
    unfold State.tick
    refine (ext_fireAll env s.timers.length s).trans ?_
    generalize State.fireAll env s.timers.length s = s1
    have hu : s1.upkeep.ffDht = s1.ffDht := by unfold State.upkeep; split <;> rfl
    refine (Ext.same hu).trans (Ext.same ?_)
    unfold State.exploration
    split
    · rfl
    · split
      · exact ff_explore ..
      · rfl

/-- **C264**, in part: the routers in the table of floodfills are those it began with and routers that were said to be floodfills. Missing: see
the violation. -/
theorem C264_table_partial (s : State) (evs : List (Env × Op)) (r : Bytes) (h : (s.run evs).ffDht.knows r) :
    s.ffDht.knows r ∨ ∃ e ∈ evs, Says e r := by
  induction evs generalizing s with
  | nil => exact .inl h
  | cons e evs ih =>
    rcases ih (s.step e.1 e.2) h with h | ⟨e', he, h⟩
    · rcases ext_step s e.1 e.2 r h with h | h
      · exact .inl h
      · exact .inr ⟨e, by simp, h⟩
    · exact .inr ⟨e', by simp [he], h⟩

/-! ## Who is asked -/

theorem adds_one_targets (T : Bytes → Prop) (s : State) (env : Env) (m : Msg) (e : Option Nat) (r : Bytes) (hr : T r) :
    Adds (fun o => ∀ x ∈ o.targets, T x) s (s.sendOne env m e r) := by
  unfold State.sendOne
  split
  · split
    · exact Adds.one rfl (by simpa [Out.targets] using hr)
    · exact Adds.same rfl
  · exact Adds.same rfl
  · exact Adds.one rfl (by simpa [Out.targets] using hr)

theorem adds_send_targets (T : Bytes → Prop) (env : Env) (m : Msg) (e : Option Nat) (rs : List Bytes) (hr : ∀ r ∈ rs, T r) (s : State) :
    Adds (fun o => ∀ x ∈ o.targets, T x) s (s.send env rs m e) := by
  unfold State.send
  induction rs generalizing s with
  | nil => exact Adds.same rfl
  | cons r rs ih =>
    rw [List.foldl_cons]
    exact (adds_one_targets T s env m e r (hr r (by simp))).trans (ih (fun r h => hr r (by simp [h])) _)

theorem adds_lookup_targets (T : Bytes → Prop) (s : State) (env : Env) (f k : Bytes) (kind : LookupKind) (hf : T f) :
    Adds (fun o => ∀ x ∈ o.targets, T x) s (s.lookup env f k kind).1 := by
  have ht : s.tunnels.1.log = s.log := by
    unfold State.tunnels
    split
    · rfl
    · split <;> rfl
  unfold State.lookup
  split
  · next e => rw [e] at ht; exact Adds.same ht
  · next e =>
    rw [e] at ht
    split
    · exact (Adds.same ht).trans (Adds.one rfl (by simpa [Out.targets] using hf))
    · exact Adds.same ht

theorem adds_activate_targets (T : Bytes → Prop) (s : State) (k k' : Bytes) (q : Kind) : Adds (fun o => ∀ x ∈ o.targets, T x) s ((s.activate k q).arm k') := by
  unfold State.activate
  dsimp only
  split
  · next old _ => exact Adds.many (l := old.subs.map .cancel) rfl (by simp [Out.targets])
  · exact Adds.same rfl

theorem pickFirst_knows (env : Env) (t : Table) (key f : Bytes) (n : Nat) (ig : List Bytes) (h : pickFirst env t key n ig = some f) : t.knows f := by
  induction n generalizing ig with
  | zero => simp [pickFirst] at h
  | succ n ih =>
    unfold pickFirst at h
    split at h
    · simp at h
    · next g hg =>
      split at h
      · obtain rfl := Option.some.inj h
        exact knows_closestWithIgnore (List.mem_of_mem_head? hg)
      · exact ih _ h

/-- The requests of others, and the router's own. -/
def Request : Op → Prop
  | .queryLs .. => True
  | .queryRi .. => True
  | .closest .. => True
  | .publish .. => True
  | _ => False

theorem step_targets (s : State) (env : Env) (o : Op) (ho : Request o) :
    Adds (fun x => ∀ r ∈ x.targets, s.ffDht.knows r) s (s.step env o) := by
  cases o <;> try exact ho.elim
  · next key tx =>
    show Adds _ s (s.queryLs env key tx)
    unfold State.queryLs
    split
    · exact Adds.same rfl
    · exact Adds.one rfl (by simp [Out.targets])
    · split
      · exact Adds.one rfl (by simp [Out.targets])
      · next f hf =>
        have h := adds_lookup_targets s.ffDht.knows s env f key .leaseSet (pickFirst_knows _ _ _ _ _ _ hf)
        split
        · next e => rw [e] at h; exact h.trans (adds_activate_targets _ _ _ _ _)
        · next e => rw [e] at h; exact h.trans (Adds.one rfl (by simp [Out.targets]))
  · next key tx =>
    show Adds _ s (s.queryRi env key tx)
    unfold State.queryRi
    split
    · exact Adds.same rfl
    · exact Adds.one rfl (by simp [Out.targets])
    · split
      · exact Adds.one rfl (by simp [Out.targets])
      · next f hf =>
        have h := adds_lookup_targets s.ffDht.knows s env f key .router (knows_closest (List.mem_of_mem_head? hf))
        split
        · next e => rw [e] at h; exact h.trans (adds_activate_targets _ _ _ _ _)
        · next e => rw [e] at h; exact h.trans (Adds.one rfl (by simp [Out.targets]))
  · next key tx =>
    show Adds _ s (s.closestFloodfills env key tx)
    unfold State.closestFloodfills
    dsimp only
    split
    · exact Adds.one rfl (by simp [Out.targets])
    · exact Adds.one rfl fun r hr => knows_closest (List.mem_filter.1 hr).1
  · next r raw => exact adds_send_targets _ _ _ _ _ (fun _ h => knows_closest h) s

/-- **C264**, in part: whoever is asked, dialled, sent to or named because of a request (a search for a lease set or a router info, a
publication, a request for the closest floodfills) was in the table at the beginning or was said to be a floodfill before. Missing: the routers
that are asked later in a search, see the violation. -/
theorem C264_asked_partial (s : State) (evs : List (Env × Op)) (env : Env) (o : Op) (ho : Request o) :
    ∃ new, ((s.run evs).step env o).log = (s.run evs).log ++ new ∧
      ∀ x ∈ new, ∀ r ∈ x.targets, s.ffDht.knows r ∨ ∃ e ∈ evs, Says e r := by
  obtain ⟨l, h1, h2⟩ := step_targets (s.run evs) env o ho
  exact ⟨l, h1, fun x hx r hr => C264_table_partial s evs r (h2 x hx r hr)⟩

/-- **C264**, in part: a router info that says that its router is a floodfill, from another router of the same network and not older than an hour, puts the router
into the table, if its bucket has room. -/
theorem C264_used_partial (s : State) (env : Env) (sender : Option Bytes) (key : Bytes) (i : RInfo) (reply : StoreReply) (j : Nat)
    (ha : s.active.get key = none) (hn : i.netId = s.netId) (hl : i.id ≠ s.localId) (hp : s.now ≤ i.published + 3600000)
    (hf : i.floodfill = true) (hj : ilog2 (distance s.ffDht.localKey i.id) = some j) (hr : (s.ffDht.buckets j).length < 20) :
    (s.step env (.store sender key (.routerInfo i) reply)).ffDht.knows i.id := by
  have hk : (s.ffDht.addRouter i.id).knows i.id := by
    unfold Table.addRouter
    rw [hj]
    refine ⟨j, ?_⟩
    simp only [Table.set, if_true]
    rcases tryInsert_cases (s.ffDht.buckets j) i.id with ⟨⟨f, a, b⟩, e⟩ | ⟨_, _, e⟩ | ⟨_, h, _⟩ | ⟨_, h, _⟩
    · rw [e]; exact ⟨f, a, b⟩
    · rw [e]; exact ⟨{ key := i.id }, by simp, rfl⟩
    · omega
    · omega
  show (s.storeMsg env sender key (.routerInfo i) reply).ffDht.knows i.id
  unfold State.storeMsg State.storeAt
  rw [ha]
  show ((s.take key).routerInfoStore env key reply i).ffDht.knows i.id
  unfold State.routerInfoStore
  have h1 : ¬ (i.netId ≠ (s.take key).netId) := by simpa [State.take] using hn
  have h2 : ¬ (i.id = (s.take key).localId) := by simpa [State.take] using hl
  have h3 : ¬ (i.published + 3600000 < (s.take key).now) := by simp only [State.take]; omega
  rw [if_neg h1, if_neg h2, if_neg h3]
  have h4 : ((s.take key).addFloodfill i).ffDht = s.ffDht.addRouter i.id := by unfold State.addFloodfill; rw [if_pos hf]; rfl
  dsimp only
  split
  · show ((s.take key).addFloodfill i).ffDht.knows i.id
    rw [h4]; exact hk
  · rw [ff_flood]
    show ((s.take key).addFloodfill i).ffDht.knows i.id
    rw [h4]; exact hk

theorem fire_asks (s : State) (env : Env) (key x : Bytes) (q : Query) (due : Nat) (ts : List (Bytes × Nat))
    (out : Nat) (inb : Lease)
    (ha : s.active.get key = some (.leaseSet q)) (hq : q.queryable = [x]) (hqp : q.pending = []) (hsel : q.selected = none) (hk : env.known x = true)
    (ht : s.timers = (key, due) :: ts) (hd : due ≤ s.now) (hs : s.now - q.started < 20000)
    (ho : s.outTun.next.2 = some out) (hi : s.inTun.next.2 = some inb) (hp : env.poolOk key = true) :
    (s.fire env 0).log = s.log ++ [Out.lookup x key .leaseSet out inb] := by
  unfold State.fire
  simp only [ht, List.getElem?_cons_zero]
  rw [if_neg (by omega), ha]
  dsimp only [State.handleTimeout]
  have hc : ∀ s : State, s.charge q = s := by intro s; unfold State.charge; rw [hsel]
  rw [hc]
  have hg : ∀ t, getClosest t [x] = some x := fun t => rfl
  have hn : ∀ (t : Table), ({ q with selected := none } : Query).next env t key s.now =
      ({ q with selected := none, pending := [], queryable := [] }, .ok x) := by
    intro t
    unfold Query.next
    rw [if_neg (by simpa [totalTimeout] using hs)]
    simp [hq, hqp, hg]
  have hpk : ∀ (t : Table), pickNext env t key s.now (pickFuel env t key { q with selected := none }) { q with selected := none } =
      ({ q with selected := none, pending := [], queryable := [] }, .ok x) := by
    intro t
    unfold pickFuel pickNext
    rw [hn]
    simp [hk]
  have hl : ∀ a, (State.lookup (State.take { s with timers := a } key) env x key .leaseSet) =
      (State.out { (State.take { s with timers := a } key) with outTun := s.outTun.next.1, inTun := s.inTun.next.1 }
        (.lookup x key .leaseSet out inb), .ok ()) := by
    intro a
    have e1 : s.outTun.next = (s.outTun.next.1, some out) := by rw [← ho]
    have e2 : s.inTun.next = (s.inTun.next.1, some inb) := by rw [← hi]
    unfold State.lookup State.tunnels
    simp only [State.take]
    rw [e1]
    dsimp only
    rw [e2]
    simp [hp]
  simp only [State.take] at hpk hl ⊢
  rw [hpk]
  dsimp only
  rw [hl]
  dsimp only
  simp only [State.arm, State.activate, State.out, AMap.get_del, if_true]

/-- **C264**, violated: any router of which the router info is known is asked, floodfill or not, if it is named in an answer to a search. Anybody may give
the answer. -/
theorem C264_named_violated (s : State) (env : Env) (key x replier : Bytes) (q : Query) (sender : Option Bytes) (d due : Nat) (ts : List (Bytes × Nat))
    (out : Nat) (inb : Lease)
    (ha : s.active.get key = some (.leaseSet q)) (hq : q.queryable = [] ∧ q.pending = []) (hx : x ∉ q.queried) (hk : env.known x = true)
    (ht : s.timers = (key, due) :: ts) (hd : due ≤ s.now + d) (hs : s.now + d - q.started < 20000)
    (ho : s.outTun.next.2 = some out) (hi : s.inTun.next.2 = some inb) (hp : env.poolOk key = true) :
    Out.lookup x key .leaseSet out inb ∈
      (s.run [(env, .search sender (some (key, [x], replier))), (env, .advance d), (env, .fire 0)]).log := by
  rw [State.run, List.foldl_cons, List.foldl_cons, List.foldl_cons, List.foldl_nil]
  have h1 : ∃ t, s.step env (.search sender (some (key, [x], replier))) =
      { s with ffDht := t, active := (s.active.del key).put key (.leaseSet { q with selected := none, queryable := [x], pending := [] }) } := by
    have hr : q.searchReply env.known [x] = ({ q with selected := none, queryable := [x], pending := [] }, []) := by
      simp [Query.searchReply, hx, hk, hq, ins]
    unfold State.step State.searchMsg State.searchAt
    dsimp only
    rw [ha]
    dsimp only
    rw [hr]
    unfold State.discredit
    cases sender with
    | none => exact ⟨s.ffDht, by simp [State.fetches, State.activate, State.take, AMap.get_del]⟩
    | some y => exact ⟨s.ffDht.step (.failure y), by simp [State.fetches, State.activate, State.take, AMap.get_del]⟩
  obtain ⟨t, h1⟩ := h1
  dsimp only
  rw [h1]
  have := fire_asks { s with ffDht := t, active := (s.active.del key).put key (.leaseSet { q with selected := none, queryable := [x], pending := [] }), now := s.now + d }
    env key x { q with selected := none, queryable := [x], pending := [] } due ts out inb (by simp) rfl rfl rfl hk ht hd hs ho hi hp
  show _ ∈ (State.fire _ env 0).log
  rw [show (State.step { s with ffDht := t, active := (s.active.del key).put key (.leaseSet { q with selected := none, queryable := [x], pending := [] }) } env (.advance d)) =
    { s with ffDht := t, active := (s.active.del key).put key (.leaseSet { q with selected := none, queryable := [x], pending := [] }), now := s.now + d } from rfl, this]
  simp

/-- Router 4 tells that it is a floodfill. -/
def toyTold : Env × Op := (toyEnv [], .store none (tid 4) (.routerInfo { id := tid 4, netId := 2, published := 0, floodfill := true, raw := [1] }) .none)

theorem toyUsed : (toyInit.run [toyTold]).ffDht.knows (tid 4) :=
  C264_used_partial toyInit (toyEnv []) none (tid 4) { id := tid 4, netId := 2, published := 0, floodfill := true, raw := [1] } .none 2
    (by decide +kernel) (by decide +kernel) (by decide +kernel) (by decide +kernel) rfl (by decide +kernel) (by decide +kernel)

example := C264_table_partial toyInit [toyTold] (tid 4) toyUsed
example := C264_asked_partial toyInit [toyTold] (toyEnv []) (.queryLs (tid 9) 1) trivial

/-- A search for whose target three floodfills have been asked; then router 6 is named, which is known. -/
def toyAll3 : State := toyInit.run (toyUnanswered.take 5)

example := C264_named_violated toyAll3 (toyEnv []) (tid 5) (tid 6) (tid 1)
  { pending := [], queried := [tid 1, tid 3, tid 2], queryable := [], selected := some (tid 2), started := 0, subs := [1] } none 1600 4800 [] 7 ⟨tid 9, 8⟩
  (by decide +kernel) ⟨rfl, rfl⟩ (by decide +kernel) (by decide +kernel) (by decide +kernel) (by decide +kernel) (by decide +kernel) (by decide +kernel)
  (by decide +kernel) rfl

end Emissary.NetdbRun
