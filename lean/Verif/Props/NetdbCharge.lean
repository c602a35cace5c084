import Verif.Props.NetdbOut
/-!
# Floodfills charged with timeouts: C147
-/
namespace Emissary.NetdbRun
open Emissary Emissary.Netdb

/-- The floodfill an active query waits for. -/
def Kind.selected : Kind → Option Bytes
  | .leaseSet q => q.selected
  | .routerInfo q => q.selected
  | _ => none

/-- A lookup of the key went to the floodfill. -/
def AskedAt (log : List Out) (f key : Bytes) : Prop := ∃ kd out inb, .lookup f key kd out inb ∈ log

/-- Whoever is waited for was asked; whoever was charged was asked. -/
structure Fairly (s : State) : Prop where
  waits : ∀ key k f, s.active.get key = some k → k.selected = some f → AskedAt s.log f key
  charged : ∀ f, .charge f ∈ s.log → ∃ key, AskedAt s.log f key

theorem AskedAt.mono {l m : List Out} {f key : Bytes} (h : AskedAt l f key) (hm : ∀ o ∈ l, o ∈ m) : AskedAt m f key :=
  let ⟨kd, out, inb, h⟩ := h
  ⟨kd, out, inb, hm _ h⟩

/-- A change that charges nobody, and adds no query that waits for somebody. -/
theorem Fairly.quiet {s s' : State} (h : Fairly s) (ha : ∀ key k, s'.active.get key = some k → s.active.get key = some k ∨ k.selected = none)
    (hl : Adds (fun o => ∀ f, o ≠ .charge f) s s') : Fairly s' := by
  obtain ⟨l, e, hc⟩ := hl
  have hm : ∀ o ∈ s.log, o ∈ s'.log := by intro o ho; rw [e]; exact List.mem_append.mpr (.inl ho)
  refine ⟨fun key k f hk hs => ?_, fun f hf => ?_⟩
  · rcases ha key k hk with hk | hk
    · exact (h.waits key k f hk hs).mono hm
    · rw [hk] at hs; cases hs
  · rw [e] at hf
    rcases List.mem_append.mp hf with hf | hf
    · obtain ⟨key, hk⟩ := h.charged f hf
      exact ⟨key, hk.mono hm⟩
    · exact absurd rfl (hc _ hf f)

theorem Fairly.take {s : State} (h : Fairly s) (key : Bytes) : Fairly (s.take key) := by
  refine h.quiet ?_ (.same rfl)
  intro k x hk
  have hk : (s.active.del key).get k = some x := hk
  rw [AMap.get_del] at hk
  split at hk
  · cases hk
  · exact .inl hk

theorem Fairly.activate {s : State} (h : Fairly s) (key : Bytes) (k : Kind) (hk : ∀ f, k.selected = some f → AskedAt s.log f key) : Fairly (s.activate key k) := by
  obtain ⟨l, e, hc⟩ := adds_activate s key k
  have hm : ∀ o ∈ s.log, o ∈ (s.activate key k).log := by intro o ho; rw [e]; exact List.mem_append.mpr (.inl ho)
  have ea : ∀ key', (s.activate key k).active.get key' = if key' = key then some k else s.active.get key' := by
    intro key'
    unfold State.activate
    dsimp only
    split <;> exact AMap.get_put _ _ _ _
  refine ⟨fun key' k' f hk' hs => ?_, fun f hf => ?_⟩
  · rw [ea] at hk'
    split at hk'
    · next e' => injection hk' with hk'; subst hk'; rw [e']; exact (hk f hs).mono hm
    · exact (h.waits key' k' f hk' hs).mono hm
  · rw [e] at hf
    rcases List.mem_append.mp hf with hf | hf
    · obtain ⟨key, hk⟩ := h.charged f hf
      exact ⟨key, hk.mono hm⟩
    · obtain ⟨tx, e⟩ := hc _ hf
      cases e

theorem Fairly.begin {s : State} (h : Fairly s) (key : Bytes) (k : Kind) (hk : ∀ f, k.selected = some f → AskedAt s.log f key) :
    Fairly ((s.activate key k).arm key) := (h.activate key k hk).quiet (fun _ _ h => .inl h) (.same rfl)

theorem tunnels_active (s : State) : s.tunnels.1.active = s.active := by
  unfold State.tunnels
  split
  · rfl
  · split <;> rfl

theorem lookup_active (s : State) (env : Env) (f key : Bytes) (kd : LookupKind) : (s.lookup env f key kd).1.active = s.active := by
  have h := tunnels_active s
  unfold State.lookup
  split
  · next e => rw [e] at h; exact h
  · next e => rw [e] at h; split <;> exact h

theorem Fairly.lookup {s : State} (h : Fairly s) (env : Env) (f key : Bytes) (kd : LookupKind) : Fairly (s.lookup env f key kd).1 := by
  refine h.quiet (fun k x hx => .inl ?_) ((adds_lookup s env f key kd).mono ?_)
  · rw [lookup_active] at hx; exact hx
  · rintro o ⟨out, _, inb, _, rfl⟩ f e; cases e

theorem lookup_asked {s s1 : State} {env : Env} {f key : Bytes} {kd : LookupKind} {x : Unit} (h : s.lookup env f key kd = (s1, .ok x)) : AskedAt s1.log f key := by
  unfold State.lookup at h
  split at h
  · injection h with _ h; cases h
  · split at h
    · injection h with h _
      subst h
      exact ⟨_, _, _, List.mem_append.mpr (.inr (List.mem_singleton.mpr rfl))⟩
    · injection h with _ h; cases h

theorem Fairly.fetches {s : State} (h : Fairly s) (env : Env) (replier : Bytes) (rs : List Bytes) : Fairly (s.fetches env replier rs) := by
  unfold State.fetches
  induction rs generalizing s with
  | nil => exact h
  | cons r rs ih =>
    refine ih (s := s.fetch env replier r) ?_
    have g := h.lookup env replier r .router
    unfold State.fetch
    split
    · next s1 _ e => rw [e] at g; exact g.begin r .router (fun f hf => (nomatch hf))
    · next s1 _ e => rw [e] at g; exact g

theorem pickNext_selected (env : Env) (dht : Table) (key : Bytes) (now : Nat) (fuel : Nat) (q : Query) : (pickNext env dht key now fuel q).1.selected = q.selected := by
  have hn : ∀ q : Query, (q.next env dht key now).1.selected = q.selected := by
    intro q
    unfold Query.next
    split
    · rfl
    · dsimp only
      split
      · rfl
      · split <;> rfl
  induction fuel generalizing q with
  | zero => rfl
  | succ fuel ih =>
    unfold pickNext
    have h1 := hn q
    split
    · next e => rw [e] at h1; exact h1
    · next q' f e =>
      rw [e] at h1
      split
      · exact h1
      · exact (ih _).trans h1

theorem next_selected (q : Query) (env : Env) (dht : Table) (key : Bytes) (now : Nat) : (q.next env dht key now).1.selected = q.selected := by
  unfold Query.next
  split
  · rfl
  · dsimp only
    split
    · rfl
    · split <;> rfl

theorem Fairly.charge {s : State} (h : Fairly s) (q : Query) (key : Bytes) (hq : ∀ f, q.selected = some f → AskedAt s.log f key) : Fairly (s.charge q) := by
  unfold State.charge
  split
  · next f hf =>
    have hm : ∀ o ∈ s.log, o ∈ s.log ++ [Out.charge f] := fun o ho => List.mem_append.mpr (.inl ho)
    refine ⟨fun key k f' hk hs => (h.waits key k f' hk hs).mono hm, fun f' hf' => ?_⟩
    rcases List.mem_append.mp hf' with g | g
    · obtain ⟨key, hk⟩ := h.charged f' g
      exact ⟨key, hk.mono hm⟩
    · have g := List.mem_singleton.mp g
      injection g with g
      subst g
      exact ⟨key, (hq f' hf).mono hm⟩
  · exact h

theorem Fairly.completeLs {s : State} (h : Fairly s) (q : Query) (r : Res LSet) : Fairly (s.completeLs q r) := by
  refine h.quiet (fun _ _ h => .inl h) (.many rfl ?_)
  intro o ho f e
  obtain ⟨tx, _, g⟩ := List.mem_map.mp ho
  subst e; cases g

theorem Fairly.completeRi {s : State} (h : Fairly s) (q : Query) (r : Res Unit) : Fairly (s.completeRi q r) := by
  refine h.quiet (fun _ _ h => .inl h) (.many rfl ?_)
  intro o ho f e
  obtain ⟨tx, _, g⟩ := List.mem_map.mp ho
  subst e; cases g

theorem Fairly.timeout {s : State} (h : Fairly s) (env : Env) (key : Bytes) (k : Kind) (hk : ∀ f, k.selected = some f → AskedAt s.log f key) :
    Fairly (s.handleTimeout env key k) := by
  unfold State.handleTimeout
  cases k with
  | exploration => exact h
  | router => exact h
  | leaseSet q =>
    dsimp only
    have hc := h.charge q key hk
    generalize s.charge q = s1 at *
    split
    · exact hc.completeLs _ _
    · next q' f _ =>
      have g := hc.lookup env f key .leaseSet
      split
      · next s2 _ e =>
        rw [e] at g
        refine g.begin key _ (fun f' hf' => ?_)
        injection hf' with hf'
        subst hf'
        exact lookup_asked e
      · next s2 _ e => rw [e] at g; exact g.completeLs _ _
  | routerInfo q =>
    dsimp only
    have hc := h.charge q key hk
    generalize s.charge q = s1 at *
    split
    · exact hc.completeRi _ _
    · next q' f eq =>
      have g := hc.lookup env f key .router
      split
      · next s2 _ e =>
        rw [e] at g
        refine g.begin key _ (fun f' hf' => ?_)
        injection hf' with hf'
        subst hf'
        exact lookup_asked e
      · next s2 _ e =>
        rw [e] at g
        refine g.begin key _ (fun f' hf' => ?_)
        have := next_selected { q with selected := none } env s1.ffDht key s1.now
        rw [eq] at this
        have hf' : q'.selected = some f' := hf'
        have this : q'.selected = none := this
        rw [this] at hf'
        cases hf'

theorem Fairly.fire {s : State} (h : Fairly s) (env : Env) (i : Nat) : Fairly (s.fire env i) := by
  unfold State.fire
  split
  · exact h
  split
  · exact h
  split
  · exact h.quiet (fun _ _ h => .inl h) (.same rfl)
  · next key _ _ _ _ k hk =>
    have h1 : Fairly { s with timers := s.timers.eraseIdx i } := h.quiet (fun _ _ h => .inl h) (.same rfl)
    exact (h1.take key).timeout env key k (fun f hf => h.waits key k f hk hf)

theorem Fairly.fireAll {s : State} (h : Fairly s) (env : Env) (fuel : Nat) : Fairly (State.fireAll env fuel s) := by
  induction fuel generalizing s with
  | zero => exact h
  | succ fuel ih =>
    unfold State.fireAll
    split
    · exact h
    · exact ih (h.fire env _)

theorem Fairly.explore {s : State} (h : Fairly s) (env : Env) (key : Bytes) : Fairly (s.explore env key) := by
  unfold State.explore
  split
  · exact h
  · next f _ =>
    have g := h.lookup env f key .exploration
    split
    · next s3 _ e => rw [e] at g; exact g.begin key _ (fun f hf => (nomatch hf))
    · next s3 _ e => rw [e] at g; exact g

theorem Fairly.sends {s s' : State} (h : Fairly s) (hl : Adds Out.isSend s s') (ha : s'.active = s.active) : Fairly s' :=
  h.quiet (fun _ _ g => .inl (by rw [ha] at g; exact g)) (hl.mono (by intro o ho f e; subst e; exact ho))

theorem send_active (s : State) (env : Env) (rs : List Bytes) (m : Msg) (e : Option Nat) : (s.send env rs m e).active = s.active := by
  unfold State.send
  induction rs generalizing s with
  | nil => rfl
  | cons r rs ih =>
    refine (ih (s.sendOne env m e r)).trans ?_
    unfold State.sendOne
    split
    · split <;> rfl
    · rfl
    · rfl

theorem store_active (s : State) (env : Env) (sd : Option Bytes) (k : Bytes) (p : Payload) (r : StoreReply) : (s.storeMsg env sd k p r).active = s.active.del k := by
  have hadd : ∀ (x : State) (i : RInfo), (x.addFloodfill i).active = x.active := by intro x i; unfold State.addFloodfill; split <;> rfl
  have hcr : ∀ (x : State) (y : Option Bytes), (x.credit y).active = x.active := by intro x y; unfold State.credit; split <;> rfl
  have hfl : ∀ (x : State) (m : Msg) (e : Nat), (x.flood env k r m e).active = x.active := by
    intro x m e
    unfold State.flood
    split
    · rfl
    · dsimp only; rw [send_active, send_active]
  unfold State.storeMsg State.storeAt
  split
  · split
    · unfold State.routerInfoStore
      split
      · rfl
      split
      · rfl
      split
      · rfl
      dsimp only
      split
      · exact hadd _ _
      · rw [hfl]; exact hadd _ _
    · split
      · unfold State.leaseSetStore
        split
        · rfl
        · rw [hfl]; rfl
      · rfl
  · split
    · rfl
    · unfold State.fetched
      split
      · rfl
      split
      · rfl
      dsimp only
      show (State.credit _ sd).active = _
      rw [hcr]
      exact hadd _ _
    · show (State.credit _ sd).active = _
      rw [hcr]; rfl
    · rfl

theorem Fairly.step {s : State} (h : Fairly s) (env : Env) (op : Op) : Fairly (s.step env op) := by
  have wake : Adds (fun o => ∀ f, o ≠ .charge f) s s.wake := by
    refine .many (l := s.ready.map Out.ready) rfl ?_
    intro o ho f e
    obtain ⟨tx, _, g⟩ := List.mem_map.mp ho
    subst e; cases g
  cases op with
  | advance d => exact h.quiet (fun _ _ h => .inl h) (.same rfl)
  | connected r =>
    refine h.sends (adds_established s env r) ?_
    show (s.established env r).active = _
    unfold State.established; dsimp only; split <;> rfl
  | closed r => exact h.quiet (fun _ _ h => .inl h) (.same rfl)
  | failed r => exact h.quiet (fun _ _ h => .inl h) (.same rfl)
  | outBuilt t =>
    unfold State.step; dsimp only
    split
    · exact h.quiet (fun _ _ h => .inl h) (wake.trans (.same rfl))
    · exact h.quiet (fun _ _ h => .inl h) (.same rfl)
  | outExpired t => exact h.quiet (fun _ _ h => .inl h) (.same rfl)
  | inBuilt t =>
    unfold State.step; dsimp only
    split
    · exact h.quiet (fun _ _ h => .inl h) (wake.trans (.same rfl))
    · exact h.quiet (fun _ _ h => .inl h) (.same rfl)
  | inExpired t => exact h.quiet (fun _ _ h => .inl h) (.same rfl)
  | queryLs k t =>
    show Fairly (s.queryLs env k t)
    unfold State.queryLs
    split
    · next q hq =>
      refine ⟨fun key x f hx hs => ?_, h.charged⟩
      have hx : (s.active.put k _).get key = some x := hx
      rw [AMap.get_put] at hx
      split at hx
      · next e => injection hx with hx; subst hx; rw [e]; exact h.waits k (.leaseSet q) f hq hs
      · exact h.waits key x f hx hs
    · exact h.quiet (fun _ _ h => .inl h) (.one rfl (by simp))
    · split
      · exact h.quiet (fun _ _ h => .inl h) (.one rfl (by simp))
      · next f _ =>
        have g := h.lookup env f k .leaseSet
        split
        · next s1 _ e =>
          rw [e] at g
          refine g.begin k _ (fun f' hf' => ?_)
          injection hf' with hf'
          subst hf'
          exact lookup_asked e
        · next s1 x e => rw [e] at g; exact g.quiet (fun _ _ h => .inl h) (.one rfl (by simp))
  | queryRi k t =>
    show Fairly (s.queryRi env k t)
    unfold State.queryRi
    split
    · next q hq =>
      refine ⟨fun key x f hx hs => ?_, h.charged⟩
      have hx : (s.active.put k _).get key = some x := hx
      rw [AMap.get_put] at hx
      split at hx
      · next e => injection hx with hx; subst hx; rw [e]; exact h.waits k (.routerInfo q) f hq hs
      · exact h.waits key x f hx hs
    · exact h.quiet (fun _ _ h => .inl h) (.one rfl (by simp))
    · split
      · exact h.quiet (fun _ _ h => .inl h) (.one rfl (by simp))
      · next f _ =>
        have g := h.lookup env f k .router
        split
        · next s1 _ e =>
          rw [e] at g
          refine g.begin k _ (fun f' hf' => ?_)
          injection hf' with hf'
          subst hf'
          exact lookup_asked e
        · next s1 x e => rw [e] at g; exact g.quiet (fun _ _ h => .inl h) (.one rfl (by simp))
  | closest k t =>
    unfold State.step State.closestFloodfills; dsimp only
    split
    · exact h.quiet (fun _ _ h => .inl h) (.one rfl (by simp))
    · exact h.quiet (fun _ _ h => .inl h) (.one rfl (by simp))
  | publish k r => exact h.sends (adds_send s env _ _ _) (send_active s env _ _ _)
  | waitReady t =>
    unfold State.step; dsimp only
    split
    · exact h.quiet (fun _ _ h => .inl h) (.one rfl (by simp))
    · exact h.quiet (fun _ _ h => .inl h) (.same rfl)
  | fire i => exact h.fire env i
  | tick k =>
    show Fairly (s.tick env k)
    unfold State.tick
    have a := h.fireAll env s.timers.length
    generalize State.fireAll env s.timers.length s = s1 at *
    have b : Fairly s1.upkeep := by
      unfold State.upkeep
      split
      · exact a.quiet (fun _ _ h => .inl h) (.same rfl)
      · exact a
    unfold State.exploration
    split
    · exact b
    · split
      · exact (b.explore env k).quiet (fun _ _ h => .inl h) (.same rfl)
      · exact b
  | lookup k kd r ig =>
    show Fairly (s.lookupMsg env k kd r ig)
    unfold State.lookupMsg
    have hans : ∀ m, Fairly (s.answer r m) := by
      intro m; rw [answer_eq]; exact h.quiet (fun _ _ h => .inl h) (.one rfl (by cases r <;> simp [answerTo]))
    split
    · exact h
    cases kd with
    | normal => exact h
    | leaseSet => dsimp only; unfold State.leaseSetLookup; split <;> exact hans _
    | router => dsimp only; unfold State.routerInfoLookup; split <;> exact hans _
    | exploration =>
      dsimp only
      unfold State.explorationLookup
      split
      · exact h
      · dsimp only; split <;> exact h.sends (adds_send s env _ _ _) (send_active s env _ _ _)
  | search sd m =>
    show Fairly (s.searchMsg env sd m)
    have c : Fairly (s.discredit sd) := by
      refine h.quiet (fun _ _ g => .inl ?_) (.same (log_discredit s sd))
      have : (s.discredit sd).active = s.active := by unfold State.discredit; split <;> rfl
      rw [this] at g; exact g
    unfold State.searchMsg
    cases m with
    | none => exact c
    | some m =>
      obtain ⟨key, routers, replier⟩ := m
      dsimp only
      have c1 := c.take key
      generalize (s.discredit sd).take key = s1 at *
      unfold State.searchAt
      cases s.active.get key with
      | none => exact c1
      | some k =>
        cases k with
        | router => exact c1
        | exploration => exact c1.fetches _ _ _
        | leaseSet q => exact (c1.fetches _ _ _).activate key _ (fun f hf => (nomatch hf))
        | routerInfo q => exact (c1.fetches _ _ _).activate key _ (fun f hf => (nomatch hf))
  | store sd k p r =>
    refine h.quiet (s' := s.storeMsg env sd k p r) ?_ ((adds_store s env sd k p r).mono ?_)
    · intro key x hx
      rw [store_active, AMap.get_del] at hx
      split at hx
      · cases hx
      · exact .inl hx
    · intro o ho f e
      subst e
      split at ho
      · obtain ⟨_, _, _, g | ⟨_, _, g⟩⟩ := ho
        · cases g
        · exact g
      · exact ho.2.2.2
      · obtain ⟨_, _, g⟩ := ho; cases g
      · cases ho.2.2
      · rcases ho with g | ⟨_, _, _, g⟩ <;> cases g
      · obtain ⟨_, _, g⟩ := ho; cases g

/-- C147: only a floodfill that was sent a lookup is ever charged with a timeout. Partial: it should also have had 1.6 seconds to answer, see
`C147_early_violated`. -/
theorem C147_asked_partial (localId : Bytes) (netId : Nat) (ff : Bool) (fd rd : Table) (now : Nat) (env : Env) (evs : List (Env × Op)) (f : Bytes) :
    let s := (State.init localId netId ff fd rd now env).run evs
    .charge f ∈ s.log → ∃ key kd out inb, .lookup f key kd out inb ∈ s.log := by
  intro s h
  have gen : ∀ (evs : List (Env × Op)) (s : State), Fairly s → Fairly (s.run evs) := by
    intro evs
    induction evs with
    | nil => intro s h; exact h
    | cons e evs ih => intro s h; exact ih _ (h.step e.1 e.2)
  have h0 : Fairly (State.init localId netId ff fd rd now env) := ⟨fun _ _ _ h => (nomatch h), fun _ h => (nomatch h)⟩
  exact (gen evs _ h0).charged f h

/-- C147 does not hold for when: the timer of a lookup outlives it. If a query is answered and the same key is asked for again within 1.6 seconds, the
timer of the first lookup ends the second one early: the floodfill is charged although it had, here, a tenth of a second to answer, and the next
floodfill is asked. In general, any timer of the key that is due ends a query that began less than 1.6 seconds ago. -/
theorem C147_early_violated (s : State) (env : Env) (key f : Bytes) (q : Query) (i due : Nat) (ht : s.timers[i]? = some (key, due)) (hd : due ≤ s.now)
    (ha : s.active.get key = some (.leaseSet q)) (hs : q.selected = some f) (_ : s.now < q.started + 1600) :
    .charge f ∈ (s.step env (.fire i)).log := by
  show Out.charge f ∈ (s.fire env i).log
  unfold State.fire
  rw [ht]
  dsimp only
  rw [if_neg (by omega), ha]
  dsimp only
  unfold State.handleTimeout
  dsimp only
  have hc : Out.charge f ∈ (State.charge (State.take { s with timers := s.timers.eraseIdx i } key) q).log := by
    unfold State.charge
    rw [hs]
    exact List.mem_append.mpr (.inr (List.mem_singleton.mpr rfl))
  generalize State.charge (State.take { s with timers := s.timers.eraseIdx i } key) q = s1 at *
  split
  · exact List.mem_append.mpr (.inl hc)
  · next q' f' _ =>
    obtain ⟨l, e', _⟩ := (works_lookup s1 env f' key .leaseSet).2
    split
    · next s2 _ e =>
      rw [e] at e'
      obtain ⟨l2, e2, _⟩ := (works_begin s2 key (.leaseSet { q' with queried := ins q'.queried f', selected := some f' })).2
      rw [e2]
      refine List.mem_append.mpr (.inl ?_)
      rw [show s2.log = s1.log ++ l from e']
      exact List.mem_append.mpr (.inl hc)
    · next s2 _ e =>
      rw [e] at e'
      refine List.mem_append.mpr (.inl ?_)
      rw [show s2.log = s1.log ++ l from e']
      exact List.mem_append.mpr (.inl hc)

/-- A query answered after 0.1 s, another one at 1.5 s, and a poll at 1.6 s. -/
def toyTwice : State := toyInit.run [(toyEnv [], .queryLs (tid 5) 1), (toyEnv [], .advance 100), (toyEnv [], .store none (tid 5) (.leaseSet toyGood) .none),
  (toyEnv [], .advance 1400), (toyEnv [], .queryLs (tid 5) 2), (toyEnv [], .advance 100)]
example : (toyTwice.step (toyEnv []) (.tick (tid 77))).log =
    [.lookup (tid 1) (tid 5) .leaseSet 7 ⟨tid 9, 8⟩, .leaseSet 1 (.ok toyGood), .lookup (tid 1) (tid 5) .leaseSet 7 ⟨tid 9, 8⟩, .charge (tid 1),
     .lookup (tid 3) (tid 5) .leaseSet 7 ⟨tid 9, 8⟩] := by decide +kernel
example := C147_early_violated toyTwice (toyEnv []) (tid 5) (tid 1) { queried := [tid 1], selected := some (tid 1), started := 1500, subs := [2] } 0 1600
  (by decide +kernel) (by decide +kernel) (by decide +kernel) rfl (by decide +kernel)

end Emissary.NetdbRun
