import Verif.Props.PoolTests
import Mathlib.Data.List.Perm.Subperm
/-!
# C129, C131, C134: what goes wrong with tunnel pools
-/
namespace Emissary.Pool
open Emissary Emissary.Routing

/-! ## Specification -/

/-- No inbound tunnel with this gateway id is built. -/
def Unused (gw : Nat) (i : Input) : Prop := ∀ r ∈ i.ins.filterMap (·.2), r.1 ≠ gw

/-- What a pool believes to be about to expire, though it is gone. -/
def Ghost (gw : Nat) (s : State) : Prop := gw ∈ s.expiringIn ∧ ∀ t ∈ s.inbound, t.gateway ≠ gw

/-! ## Lemmas -/

theorem Ghost.outResult {gw : Nat} {s : State} (h : Ghost gw s) (now : Nat) (r : Nat × Bool) : Ghost gw (s.outResult now r) := by
  unfold State.outResult; split
  · exact h
  · dsimp only; split <;> exact h

theorem Ghost.inResult {gw : Nat} {s : State} (h : Ghost gw s) (now : Nat) (r : Nat × Option (Nat × Nat)) (hr : ∀ g b, r.2 = some (g, b) → g ≠ gw) : Ghost gw (s.inResult now r) := by
  refine ⟨?_, fun t ht => ?_⟩
  · unfold State.inResult; split
    · exact h.1
    · dsimp only; split <;> exact h.1
  · rcases inResult_inbound now s r t ht with ht | ⟨g, b, e, rfl⟩
    · exact h.2 t ht
    · exact hr _ b e

theorem Ghost.expire {gw : Nat} {s : State} (h : Ghost gw s) (now : Nat) (t : Inbound) : Ghost gw (s.expire now t) := by
  unfold State.expire; split
  · exact h
  · rename_i hp
    have hp1 : t ∈ s.inbound := Decidable.not_not.1 fun hx => hp (.inl hx)
    exact ⟨(mem_del ..).2 ⟨h.1, fun e => h.2 t hp1 e.symm⟩, fun u hu => h.2 u (List.mem_of_mem_erase hu)⟩

theorem Ghost.fire {gw : Nat} {s : State} (h : Ghost gw s) (now : Nat) (x : Nat × Timer) : Ghost gw (s.fire now x) := by
  unfold State.fire; split
  · exact h
  · dsimp only; split
    · exact h
    · exact h
    · exact ⟨(mem_ins ..).2 (.inr h.1), h.2⟩

theorem Ghost.results {gw : Nat} {s : State} (h : Ghost gw s) (i : Input) (hu : Unused gw i) : Ghost gw (s.results i) := by
  unfold State.results
  refine foldl_inv (fun b a hb => hb.expire _ a) _ _ ?_
  have h1 : Ghost gw (i.outs.foldl (State.outResult i.now) { s with clock := i.now, failed := 0 }) := foldl_inv (fun b a hb => hb.outResult _ a) _ _ h
  have key : ∀ (l : List (Nat × Option (Nat × Nat))) (s : State), Ghost gw s → (∀ r ∈ l.filterMap (·.2), r.1 ≠ gw) → Ghost gw (l.foldl (State.inResult i.now) s) := by
    intro l
    induction l with
    | nil => intro s h _; exact h
    | cons r l ih =>
      intro s h hu
      refine ih _ (h.inResult _ r fun g b e => hu (g, b) (List.mem_filterMap.2 ⟨r, List.mem_cons_self .., e⟩)) fun x hx => hu x ?_
      obtain ⟨y, hy, e⟩ := List.mem_filterMap.1 hx
      exact List.mem_filterMap.2 ⟨y, List.mem_cons_of_mem _ hy, e⟩
  exact key _ _ h1 hu

theorem Ghost.maintain {gw : Nat} {s : State} (h : Ghost gw s) (i : Input) : Ghost gw (s.maintain i) := by
  obtain ⟨_, _, e3, _, e5⟩ := maintain_timers s i
  unfold Ghost
  rw [e3, e5]
  exact h

theorem Ghost.poll {gw : Nat} {s : State} (h : Ghost gw s) (chk : Bool) (i : Input) (hu : Unused gw i) : Ghost gw (s.poll chk i).1 := by
  have k := h.results i hu
  rcases poll_cases chk s i with ⟨hr, e⟩ | ⟨hr, ⟨_, e⟩ | ⟨_, ts, e, _⟩ | ⟨hc, e⟩⟩
  · rw [e]; exact h
  · rw [e]; exact k
  · rw [e]; exact k
  · rw [e]
    have m : Ghost gw (s.middle i) := foldl_inv (fun b a hb => hb.fire _ a) _ _ k
    unfold State.finish
    split
    · exact m
    · split
      · exact Ghost.maintain (s := { s.middle i with maintenance := i.now + maintenanceInterval }) m i
      · split
        · exact m.maintain i
        · exact m

theorem Ghost.run {gw : Nat} (chk : Bool) (ops : List Op) : ∀ {s : State}, Ghost gw s → (∀ i, .poll i ∈ ops → Unused gw i) → Ghost gw (s.run chk ops) := by
  induction ops with
  | nil => intro s h _; exact h
  | cons o ops ih =>
    intro s h hu
    refine ih (s := s.step chk o) ?_ fun i hi => hu i (List.mem_cons_of_mem _ hi)
    cases o with
    | read => exact h
    | poll i => exact h.poll chk i (hu i (List.mem_cons_self ..))

/-- With a ghost, too many tunnels count as usable. -/
theorem ghost_usable {gw : Nat} {s : State} (h : Ghost gw s) (nd : (s.inbound.map (·.gateway)).Nodup) : s.inbound.length + s.pendingIn.length + 1 ≤ usableIn s + s.expiringIn.length := by
  have e : ((s.inbound.map (·.gateway)).filter fun g => g ∈ s.expiringIn.erase gw).length ≤ (s.expiringIn.erase gw).length := by
    refine List.Subperm.length_le (List.subperm_of_subset (nd.filter _) ?_)
    intro x hx
    simpa using (List.mem_filter.1 hx).2
  have e2 : (s.inbound.map (·.gateway)).filter (fun g => decide (g ∈ s.expiringIn.erase gw)) = (s.inbound.map (·.gateway)).filter fun g => decide (g ∈ s.expiringIn) := by
    refine List.filter_congr fun x hx => ?_
    obtain ⟨t, ht, rfl⟩ := List.mem_map.1 hx
    simp [List.mem_erase_of_ne (h.2 t ht)]
  rw [e2] at e
  have e3 := List.length_erase_of_mem h.1
  have e4 := List.length_pos_of_mem h.1
  have q := List.length_eq_length_filter_add (l := s.inbound.map (·.gateway)) (fun g => decide (g ∈ s.expiringIn))
  have c : (s.inbound.map (·.gateway)).filter (fun x => !decide (x ∈ s.expiringIn)) = (s.inbound.filter fun t => decide (t.gateway ∉ s.expiringIn)).map (·.gateway) := by
    rw [List.filter_map]; congr 1; simp [Function.comp_def]
  rw [c, List.length_map, List.length_map] at q
  unfold usableIn
  omega

theorem freshRun_append {chk : Bool} (a b : List Op) : ∀ {s : State}, FreshRun chk s (a ++ b) ↔ FreshRun chk s a ∧ FreshRun chk (s.run chk a) b := by
  induction a with
  | nil => intro s; exact ⟨fun h => ⟨trivial, h⟩, fun h => h.2⟩
  | cons o a ih =>
    intro s
    cases o with
    | read => exact ih (s := s.step chk .read)
    | poll i =>
      refine ⟨fun h => ?_, fun h => ⟨h.1.1, ih.2 ⟨h.1.2, h.2⟩⟩⟩
      obtain ⟨x, y⟩ := ih.1 h.2
      exact ⟨⟨h.1, x⟩, y⟩

/-! ## C129 -/

/-- C129, against the bound of `C129_bound_partial` without promptness: when a pool is polled late, so that an inbound tunnel has ended before its rebuild timer is seen, every
later refilling of the pool builds at least one tunnel more than configured, for as long as the pool runs. -/
theorem C129_late_violated (chk : Bool) (numIn numOut now : Nat) (ops : List Op) (s : State) (hs : s = (State.init numIn numOut now).run chk ops) (hr : s.running = true)
    (t : Inbound) (ht : t ∈ s.inbound) (d : Nat) (hd : (d, Timer.rebuildIn t.gateway) ∈ s.timers)
    (late : Nat) (h1 : t.ends ≤ late) (h2 : d ≤ late) (later : List Op) (i : Input)
    (hf : FreshRun chk (State.init numIn numOut now) (ops ++ .poll { now := late, ended := [t], fired := [(d, .rebuildIn t.gateway)] } :: later ++ [.poll i]))
    (hu : ∀ j, .poll j ∈ later ++ [.poll i] → Unused t.gateway j)
    (s' : State) (hs' : s' = (s.step chk (.poll { now := late, ended := [t], fired := [(d, .rebuildIn t.gateway)] })).run chk later)
    (hrun : (s'.poll chk i).1.running = true) (hm : s'.maintenance ≤ i.now ∨ Failure s' i) (hsu : Supplied chk s' i) : numIn + 1 ≤ usableIn (s'.poll chk i).1 := by
  subst hs hs'
  generalize hj : ({ now := late, ended := [t], fired := [(d, .rebuildIn t.gateway)] } : Input) = j at *
  obtain ⟨fa, _⟩ := (freshRun_append (ops ++ .poll j :: later) [.poll i]).1 (by simpa using hf)
  have fr := fRun_run chk (ops ++ .poll j :: later ++ [.poll i]) (fRun_init numIn numOut now) hf
  have f0 := fRun_run chk ops (fRun_init numIn numOut now) ((freshRun_append ops (.poll j :: later)).1 fa).1 hr
  have e0 : (State.init numIn numOut now).run chk (ops ++ .poll j :: later ++ [.poll i]) =
      ((((State.init numIn numOut now).run chk ops).step chk (.poll j)).run chk later).step chk (.poll i) := by
    unfold State.run; simp [List.foldl_append]
  rw [e0] at fr
  have n0 := num_run chk ops (State.init numIn numOut now)
  generalize (State.init numIn numOut now).run chk ops = s at *
  have g1 : Ghost t.gateway (s.step chk (.poll j)) := by
    show Ghost t.gateway (s.poll chk j).1
    have er : s.results j = ({ s with clock := late, failed := 0 } : State).expire late t := by subst hj; rfl
    have ei : (s.results j).inbound = s.inbound.erase t ∧ (s.results j).timers = s.timers := by
      rw [er]; unfold State.expire
      rw [if_neg (by intro hx; rcases hx with hx | hx; exact hx ht; omega)]
      exact ⟨rfl, rfl⟩
    have em : s.middle j = (s.results j |>.fire late (d, .rebuildIn t.gateway)) := by
      unfold State.middle
      have e1 : j.fired = [(d, Timer.rebuildIn t.gateway)] := by subst hj; rfl
      have e2 : j.tested = [] := by subst hj; rfl
      have e3 : j.now = late := by subst hj; rfl
      rw [e1, e2, e3]
      have : (s.results j).tests.filter (· ∉ ([] : List Test).filter (· ∈ (s.results j).tests)) = (s.results j).tests := by
        rw [List.filter_eq_self]; simp
      rw [this]
      rfl
    have gm : Ghost t.gateway (s.middle j) := by
      rw [em]
      unfold State.fire
      rw [if_neg (by rw [ei.2]; intro hx; rcases hx with hx | hx; exact hx hd; simp only at hx; omega)]
      refine ⟨(mem_ins ..).2 (.inl rfl), fun u hu => ?_⟩
      have hu : u ∈ s.inbound.erase t := by rw [← ei.1]; exact hu
      rw [(List.Nodup.of_map _ f0.ndg).mem_erase_iff] at hu
      intro e
      exact hu.1 (List.inj_on_of_nodup_map f0.ndg hu.2 ht e)
    rcases poll_cases chk s j with ⟨hr', e⟩ | ⟨_, ⟨hc, e⟩ | ⟨_, ts, e, _, x, hx, _⟩ | ⟨hc, e⟩⟩
    · rw [hr] at hr'; cases hr'
    · subst hj; cases hc
    · subst hj; cases hx
    · rw [e]
      unfold State.finish
      split
      · exact gm
      · split
        · exact Ghost.maintain (s := { s.middle j with maintenance := j.now + maintenanceInterval }) gm j
        · split
          · exact gm.maintain j
          · exact gm
  have g2 := g1.run chk later fun j hj => hu j (List.mem_append_left _ hj)
  have n1 := num_run chk later (s.step chk (.poll j))
  have n2 := num_run chk [.poll j] s
  generalize (s.step chk (.poll j)).run chk later = s' at *
  have g3 := g2.poll chk i (hu i (by simp))
  have c := (C130_total chk s' i hrun hm hsu).2
  have k := ghost_usable g3 (fr hrun).ndg
  have : s'.numIn = numIn := n1.1.trans (n2.1.trans n0.1)
  omega

/-! ## C131 -/

/-- This outbound tunnel is not announced, and cannot be announced any more. -/
def Silent (id : Nat) (s : State) : Prop := id ∉ s.pendingOut ∧ (Event.outboundBuilt id, true) ∉ s.log

theorem silent_emit {id : Nat} {s : State} (h : Silent id s) (e : Event) (he : e ≠ .outboundBuilt id) : Silent id (s.emit e) := by
  refine ⟨h.1, fun hx => ?_⟩
  rcases List.mem_append.1 hx with hx | hx
  · exact h.2 hx
  · rw [List.mem_singleton] at hx
    exact he (congrArg Prod.fst hx).symm

theorem Silent.outResult {id : Nat} {s : State} (h : Silent id s) (now : Nat) (r : Nat × Bool) : Silent id (s.outResult now r) := by
  unfold State.outResult; split
  · exact h
  · rename_i hp
    have hp : r.1 ∈ s.pendingOut := Decidable.not_not.1 hp
    have hne : r.1 ≠ id := fun e => h.1 (e ▸ hp)
    have k : id ∉ s.pendingOut.erase r.1 := fun hx => h.1 (List.mem_of_mem_erase hx)
    dsimp only; split
    · exact silent_emit (s := { s with pendingOut := s.pendingOut.erase r.1, selOut := _, outbound := _, timers := _ }) ⟨k, h.2⟩ _ (by simpa using hne)
    · exact ⟨k, h.2⟩

theorem Silent.inResult {id : Nat} {s : State} (h : Silent id s) (now : Nat) (r : Nat × Option (Nat × Nat)) : Silent id (s.inResult now r) := by
  unfold State.inResult; split
  · exact h
  · dsimp only; split
    · exact h
    · rename_i gw b _
      have := silent_emit (s := { s with pendingIn := s.pendingIn.erase r.1, selIn := ins gw s.selIn, gateways := s.gateways.put gw r.1, timers := s.timers ++ [(now + rebuildTimeout, Timer.rebuildIn gw)] })
        ⟨h.1, h.2⟩ (.inboundBuilt gw (now + tunnelExpiration)) (by simp)
      exact ⟨this.1, this.2⟩

theorem Silent.expire {id : Nat} {s : State} (h : Silent id s) (now : Nat) (t : Inbound) : Silent id (s.expire now t) := by
  unfold State.expire; split
  · exact h
  · exact silent_emit (s := { s with inbound := _, expiringIn := _, table := _, selIn := _, gateways := _ }) ⟨h.1, h.2⟩ _ (by simp)

theorem Silent.fire {id : Nat} {s : State} (h : Silent id s) (now : Nat) (x : Nat × Timer) : Silent id (s.fire now x) := by
  unfold State.fire; split
  · exact h
  · dsimp only; split
    · exact silent_emit (s := { s with timers := _, outbound := _, expiringOut := _, selOut := _ }) ⟨h.1, h.2⟩ _ (by simp)
    · exact silent_emit (s := { s with timers := _, expiringOut := _ }) ⟨h.1, h.2⟩ _ (by simp)
    · exact silent_emit (s := { s with timers := _, expiringIn := _ }) ⟨h.1, h.2⟩ _ (by simp)

theorem Silent.maintain {id : Nat} {s : State} (h : Silent id s) (i : Input) (hi : some id ∉ i.outDraws) : Silent id (s.maintain i) := by
  have k : id ∉ s.pendingOut ++ drawn s.outCount i.outDraws := by
    rw [List.mem_append]
    rintro (hx | hx)
    · exact h.1 hx
    · exact hi (mem_drawn hx)
  unfold State.maintain
  dsimp only
  split <;> exact ⟨k, h.2⟩

theorem Silent.finish {id : Nat} {s : State} (h : Silent id s) (i : Input) (hi : some id ∉ i.outDraws) : Silent id (s.finish i).1 := by
  unfold State.finish
  split
  · have := silent_emit (s := { s with table := s.table.filter fun id => decide (id ∉ List.map Prod.snd s.gateways) }) ⟨h.1, h.2⟩ .shutDown (by simp)
    exact ⟨this.1, this.2⟩
  · split
    · exact Silent.maintain (s := { s with maintenance := i.now + maintenanceInterval }) ⟨h.1, h.2⟩ i hi
    · split
      · exact h.maintain i hi
      · exact h

theorem Silent.poll' {id : Nat} {s : State} (chk : Bool) (i : Input) (hi : some id ∉ i.outDraws) (h : s.running = true → Silent id (s.results i)) (h0 : s.running = false → Silent id s) :
    Silent id (s.poll chk i).1 := by
  rcases poll_cases chk s i with ⟨hr, e⟩ | ⟨hr, ⟨_, e⟩ | ⟨_, ts, e, _⟩ | ⟨hc, e⟩⟩
  · rw [e]; exact h0 hr
  · rw [e]; exact h hr
  · rw [e]; exact h hr
  · rw [e]
    have m : Silent id (s.middle i) := by
      unfold State.middle
      exact foldl_inv (fun b a hb => hb.fire _ a) _ _ (h hr)
    exact m.finish i hi

theorem Silent.run {id : Nat} (chk : Bool) (ops : List Op) : ∀ {s : State}, Silent id s → (∀ i, .poll i ∈ ops → some id ∉ i.outDraws) → Silent id (s.run chk ops) := by
  induction ops with
  | nil => intro s h _; exact h
  | cons o ops ih =>
    intro s h hu
    refine ih (s := s.step chk o) ?_ fun i hi => hu i (List.mem_cons_of_mem _ hi)
    cases o with
    | read => exact h
    | poll i =>
      refine Silent.poll' chk i (hu i (List.mem_cons_self ..)) (fun _ => ?_) fun _ => h
      unfold State.results
      refine foldl_inv (fun b a hb => hb.expire _ a) _ _ ?_
      refine foldl_inv (fun b a hb => hb.inResult _ a) _ _ ?_
      exact foldl_inv (P := Silent id) (fun b a hb => hb.outResult _ a) _ _ h

/-- C131, against "the owner knows which tunnels the pool has": if the owner's queue is full when an outbound tunnel is ready, the pool has the tunnel and
the owner never hears of it, however many events it reads later. -/
theorem C131_lost_violated (chk : Bool) (numIn numOut now : Nat) (ops : List Op) (hg : Good chk (State.init numIn numOut now) ops)
    (s : State) (hs : s = (State.init numIn numOut now).run chk ops) (hr : s.running = true) (id : Nat) (hp : id ∈ s.pendingOut)
    (hq : s.queue.cap ≤ s.queue.queue.length) (hn : (Event.outboundBuilt id, true) ∉ s.log)
    (i : Input) (hi : i.outs = [(id, true)] ∧ i.ins = [] ∧ i.ended = [] ∧ i.fired = []) (hd : some id ∉ i.outDraws)
    (later : List Op) (hl : ∀ j, .poll j ∈ later → some id ∉ j.outDraws) :
    id ∈ (s.step chk (.poll i)).outbound ∧ .outboundBuilt id ∉ ((s.step chk (.poll i)).run chk later).got := by
  have inv := logInv_run chk numIn numOut now (ops ++ .poll i :: later)
  have er : (State.init numIn numOut now).run chk (ops ++ .poll i :: later) = ((((State.init numIn numOut now).run chk ops)).step chk (.poll i)).run chk later := by
    unfold State.run; simp [List.foldl_append]
  rw [er] at inv
  have pi := pInv_run chk ops (pInv_init numIn numOut now) hg
  rw [← hs] at inv pi
  clear hs er
  have n2 := (List.nodup_append.1 pi.size.nd).2.1
  have eres : s.results i = ({ s with clock := i.now, failed := 0 } : State).outResult i.now (id, true) := by
    unfold State.results; rw [hi.1, hi.2.1, hi.2.2.1]; rfl
  have res : Silent id (s.results i) ∧ id ∈ (s.results i).outbound := by
    rw [eres]
    unfold State.outResult
    rw [if_neg (by simpa using hp)]
    simp only [if_true]
    refine ⟨⟨fun hx => (n2.mem_erase_iff.1 hx).1 rfl, ?_⟩, (mem_ins ..).2 (.inl rfl)⟩
    have ns : ∀ e : Event, (s.queue.trySend e).2 ≠ .ok := by
      intro e
      unfold Chan.trySend
      split
      · simp
      · rw [if_neg (by omega)]; simp
    intro hx
    rcases List.mem_append.1 hx with hx | hx
    · exact hn hx
    · rw [List.mem_singleton] at hx
      have := congrArg Prod.snd hx
      simp only at this
      exact ns _ (of_decide_eq_true this.symm)
  constructor
  · show id ∈ (s.poll chk i).1.outbound
    have hm : id ∈ (s.middle i).outbound := by unfold State.middle; rw [hi.2.2.2]; exact res.2
    rcases poll_cases chk s i with ⟨hr', e⟩ | ⟨_, ⟨_, e⟩ | ⟨_, ts, e, _⟩ | ⟨hc, e⟩⟩
    · rw [hr] at hr'; cases hr'
    · rw [e]; exact res.2
    · rw [e]; exact res.2
    · rw [e]
      unfold State.finish
      split
      · exact hm
      · split
        · rw [(maintain_timers _ i).2.1]; exact hm
        · split
          · rw [(maintain_timers _ i).2.1]; exact hm
          · exact hm
  · have k : Silent id (s.step chk (.poll i)) := Silent.poll' chk i hd (fun _ => res.1) fun h => by rw [hr] at h; cases h
    have k2 := k.run chk later hl
    intro hx
    have ha : Event.outboundBuilt id ∈ accepted ((s.step chk (.poll i)).run chk later) := by
      rw [inv.acc]; exact List.mem_append_left _ hx
    obtain ⟨⟨e, b⟩, hm, rfl⟩ := List.mem_map.1 ha
    obtain ⟨hm, hb⟩ := List.mem_filter.1 hm
    simp only at hb
    subst hb
    exact k2.2 hm

/-! ## C134 -/

/-- C134, against "a pool runs until its owner shuts it down": when the task of an inbound tunnel panics, the pool ends at its next poll, without telling its owner, and leaves the ids
of all its inbound tunnels in the routing table for good. (`C128_short_garlic_violated` gives a message that makes such a task panic.) -/
theorem C134_crash_violated (chk : Bool) (s : State) (hr : s.running = true) (at_ : Nat) (later : List Op) (s' : State)
    (hs : s' = (s.step chk (.poll { now := at_, crashed := true })).run chk later) :
    s'.running = false ∧ s'.table = s.table ∧ s'.log = s.log := by
  subst hs
  have e : (s.step chk (.poll { now := at_, crashed := true })).running = false ∧ (s.step chk (.poll { now := at_, crashed := true })).table = s.table ∧
      (s.step chk (.poll { now := at_, crashed := true })).log = s.log := by
    show (s.poll chk { now := at_, crashed := true }).1.running = false ∧ _
    have : (s.step chk (.poll { now := at_, crashed := true })) = { s with clock := at_, failed := 0, running := false } := by
      show (s.poll chk { now := at_, crashed := true }).1 = _
      unfold State.poll
      rw [hr]
      rfl
    refine ⟨congrArg State.running this, ?_, ?_⟩
    · rw [this]
    · rw [this]
  generalize s.step chk (.poll { now := at_, crashed := true }) = x at e
  refine foldl_inv (P := fun y : State => y.running = false ∧ y.table = s.table ∧ y.log = s.log) ?_ later x e
  intro y o hy
  cases o with
  | read => exact hy
  | poll i =>
    have e : (y.poll chk i).1 = y := by unfold State.poll; rw [hy.1]; rfl
    show (y.poll chk i).1.running = false ∧ _
    simp only [State.step, e]
    exact hy

end Emissary.Pool
