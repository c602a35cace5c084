import Verif.Props.PoolUpkeep
/-!
# C133, C134: a tunnel pool does not fall over its own tests, and runs until it is shut down
-/
namespace Emissary.Pool
open Emissary Emissary.Routing

/-! ## Lemmas -/

structure TInv (now : Nat) (s : State) : Prop where
  rebOut : ∀ id ∈ s.outbound, id ∉ s.expiringOut → ∃ d, (d, Timer.rebuildOut id) ∈ s.timers ∧ (d + 60000, Timer.destroy id) ∈ s.timers
  rebIn : ∀ t ∈ s.inbound, t.gateway ∉ s.expiringIn → ∃ d, (d, Timer.rebuildIn t.gateway) ∈ s.timers
  age : ∀ t ∈ s.tests, now < t.started + 30000
  out : ∀ t ∈ s.tests, t.out ∈ s.outbound ∧ ∀ d, (d, Timer.destroy t.out) ∈ s.timers → t.started + 45000 < d
  inn : ∀ t ∈ s.tests, ∃ u ∈ s.inbound, u.gateway = t.inn ∧ t.started + 30000 < u.ends

theorem TInv.outResult {now : Nat} {U V : List Nat} {s : State} (z : SizeInv now U V s) (h : TInv now s) (r : Nat × Bool) : TInv now (s.outResult now r) := by
  unfold State.outResult
  split
  · exact h
  · rename_i hp
    have hp : r.1 ∈ s.pendingOut := Decidable.not_not.1 hp
    obtain ⟨n1, n2, n3⟩ := List.nodup_append.1 z.nd
    have hno : r.1 ∉ s.outbound := fun hx => n3 _ hx _ hp rfl
    dsimp only
    split
    · refine ⟨?_, ?_, h.age, ?_, h.inn⟩
      · intro id hid hne
        rcases (mem_ins ..).1 hid with rfl | hid
        · refine ⟨now + rebuildTimeout, List.mem_append_right _ ?_, List.mem_append_right _ ?_⟩
          · exact List.mem_cons_self ..
          · have e : now + rebuildTimeout + 60000 = now + tunnelExpiration := by unfold rebuildTimeout tunnelExpiration; omega
            rw [e]
            exact List.mem_cons_of_mem _ (List.mem_cons_self ..)
        · obtain ⟨d, a, b⟩ := h.rebOut id hid hne
          exact ⟨d, List.mem_append_left _ a, List.mem_append_left _ b⟩
      · intro t ht hne
        obtain ⟨d, a⟩ := h.rebIn t ht hne
        exact ⟨d, List.mem_append_left _ a⟩
      · intro t ht
        obtain ⟨a, b⟩ := h.out t ht
        refine ⟨(mem_ins ..).2 (.inr a), fun d hd => ?_⟩
        rcases List.mem_append.1 hd with hd | hd
        · exact b d hd
        · simp only [List.mem_cons, Prod.mk.injEq, reduceCtorEq, and_false, List.not_mem_nil, or_false, false_or] at hd
          obtain ⟨_, e⟩ := hd
          injection e with e
          exact absurd (e ▸ a) hno
    · exact ⟨h.rebOut, h.rebIn, h.age, h.out, h.inn⟩

theorem TInv.inResult {now : Nat} {s : State} (h : TInv now s) (r : Nat × Option (Nat × Nat)) : TInv now (s.inResult now r) := by
  unfold State.inResult
  split
  · exact h
  · dsimp only
    split
    · exact ⟨h.rebOut, h.rebIn, h.age, h.out, h.inn⟩
    · rename_i gw b _
      refine ⟨?_, ?_, h.age, ?_, ?_⟩
      · intro id hid hne
        obtain ⟨d, a, b⟩ := h.rebOut id hid hne
        exact ⟨d, List.mem_append_left _ a, List.mem_append_left _ b⟩
      · intro t ht hne
        rcases List.mem_append.1 ht with ht | ht
        · obtain ⟨d, a⟩ := h.rebIn t ht hne
          exact ⟨d, List.mem_append_left _ a⟩
        · rw [List.mem_singleton.1 ht]
          exact ⟨_, List.mem_append_right _ (List.mem_singleton.2 rfl)⟩
      · intro t ht
        obtain ⟨a, b⟩ := h.out t ht
        refine ⟨a, fun d hd => ?_⟩
        rcases List.mem_append.1 hd with hd | hd
        · exact b d hd
        · simp at hd
      · intro t ht
        obtain ⟨u, hu, e⟩ := h.inn t ht
        exact ⟨u, List.mem_append_left _ hu, e⟩

theorem TInv.expire {now : Nat} {U V : List Nat} {s : State} (z : SizeInv now U V s) (h : TInv now s) (t : Inbound) : TInv now (s.expire now t) := by
  unfold State.expire
  split
  · exact h
  · rename_i hp
    have hp1 : t ∈ s.inbound := Decidable.not_not.1 fun hx => hp (.inl hx)
    have hp2 : t.ends ≤ now := Nat.not_lt.1 fun hx => hp (.inr hx)
    have hn : s.inbound.Nodup := List.Nodup.of_map _ z.ndg
    have hsub : ∀ x, x ∈ s.inbound.erase t ↔ x ≠ t ∧ x ∈ s.inbound := fun x => hn.mem_erase_iff
    refine ⟨h.rebOut, ?_, h.age, h.out, ?_⟩
    · intro u hu hne
      obtain ⟨hu1, hu2⟩ := (hsub u).1 hu
      refine h.rebIn u hu2 fun hx => hne ((mem_del ..).2 ⟨hx, fun e => hu1 ?_⟩)
      exact List.inj_on_of_nodup_map z.ndg hu2 hp1 e
    · intro x hx
      obtain ⟨u, hu, e1, e2⟩ := h.inn x hx
      have := h.age x hx
      refine ⟨u, (hsub u).2 ⟨?_, hu⟩, e1, e2⟩
      rintro rfl
      omega

theorem mem_erase_timer {l : List (Nat × Timer)} {x y : Nat × Timer} (h : y ∈ l) (hne : y.2 ≠ x.2) : y ∈ l.erase x :=
  (List.mem_erase_of_ne fun e => hne (congrArg Prod.snd e)).2 h

theorem TInv.fire {now : Nat} {s : State} (h : TInv now s) (x : Nat × Timer) : TInv now (s.fire now x) := by
  unfold State.fire
  split
  · exact h
  · rename_i hp
    have hp1 : x ∈ s.timers := Decidable.not_not.1 fun hx => hp (.inl hx)
    have hp2 : x.1 ≤ now := Nat.not_lt.1 fun hx => hp (.inr hx)
    dsimp only
    split
    · rename_i id hid
      refine ⟨?_, ?_, h.age, ?_, h.inn⟩
      · intro i hi hne
        obtain ⟨hi, hid'⟩ := (mem_del ..).1 hi
        obtain ⟨d, a, b⟩ := h.rebOut i hi fun hx => hne ((mem_del ..).2 ⟨hx, hid'⟩)
        refine ⟨d, mem_erase_timer a (by rw [hid]; simp), mem_erase_timer b ?_⟩
        rw [hid]
        intro e
        injection e with e
        exact hid' e
      · intro t ht hne
        obtain ⟨d, a⟩ := h.rebIn t ht hne
        exact ⟨d, mem_erase_timer a (by rw [hid]; simp)⟩
      · intro t ht
        obtain ⟨a, b⟩ := h.out t ht
        have := h.age t ht
        refine ⟨(mem_del ..).2 ⟨a, ?_⟩, fun d hd => b d (List.mem_of_mem_erase hd)⟩
        intro e
        have := b x.1 (by rw [e, ← hid]; exact hp1)
        omega
    · rename_i id hid
      refine ⟨?_, ?_, h.age, ?_, h.inn⟩
      · intro i hi hne
        have h1 : i ≠ id := fun e => hne ((mem_ins ..).2 (.inl e))
        obtain ⟨d, a, b⟩ := h.rebOut i hi fun hx => hne ((mem_ins ..).2 (.inr hx))
        refine ⟨d, mem_erase_timer a ?_, mem_erase_timer b (by rw [hid]; simp)⟩
        rw [hid]
        intro e
        injection e with e
        exact h1 e
      · intro t ht hne
        obtain ⟨d, a⟩ := h.rebIn t ht hne
        exact ⟨d, mem_erase_timer a (by rw [hid]; simp)⟩
      · intro t ht
        obtain ⟨a, b⟩ := h.out t ht
        exact ⟨a, fun d hd => b d (List.mem_of_mem_erase hd)⟩
    · rename_i gw hid
      refine ⟨?_, ?_, h.age, ?_, h.inn⟩
      · intro i hi hne
        obtain ⟨d, a, b⟩ := h.rebOut i hi hne
        exact ⟨d, mem_erase_timer a (by rw [hid]; simp), mem_erase_timer b (by rw [hid]; simp)⟩
      · intro t ht hne
        have h1 : t.gateway ≠ gw := fun e => hne ((mem_ins ..).2 (.inl e))
        obtain ⟨d, a⟩ := h.rebIn t ht fun hx => hne ((mem_ins ..).2 (.inr hx))
        refine ⟨d, mem_erase_timer a ?_⟩
        rw [hid]
        intro e
        injection e with e
        exact h1 e
      · intro t ht
        obtain ⟨a, b⟩ := h.out t ht
        exact ⟨a, fun d hd => b d (List.mem_of_mem_erase hd)⟩

theorem maintain_timers (s : State) (i : Input) : (s.maintain i).timers = s.timers ∧ (s.maintain i).outbound = s.outbound ∧ (s.maintain i).inbound = s.inbound ∧
    (s.maintain i).expiringOut = s.expiringOut ∧ (s.maintain i).expiringIn = s.expiringIn := by
  unfold State.maintain
  dsimp only
  split <;> exact ⟨rfl, rfl, rfl, rfl, rfl⟩

theorem mem_pairs {s : State} {i : Input} {t : Test} (h : t ∈ s.pairs i) : t.started = i.now ∧ (t.out ∈ s.outbound ∧ t.out ∉ s.expiringOut) ∧
    ((s.gateways.get t.inn).isSome ∧ t.inn ∉ s.expiringIn) := by
  unfold State.pairs at h
  dsimp only at h
  obtain ⟨⟨⟨a, b⟩, c⟩, hm, e⟩ := List.mem_filterMap.1 h
  have hz := List.of_mem_zip hm
  have hz' := List.of_mem_zip hz.1
  simp only at e
  split at e
  · injection e with e
    subst e
    have h1 := (List.mem_filter.1 hz'.1).2
    have h2 := (List.mem_filter.1 hz'.2).2
    simp only [Bool.and_eq_true, decide_eq_true_eq] at h1 h2
    exact ⟨rfl, h1, h2⟩
  · cases e

theorem TInv.maintain {W U V : List Nat} {s : State} (i : Input) (z : SizeInv i.now U V s) (f : FInv W s) (h : TInv i.now s) (hl : ∀ x ∈ s.timers, i.now < x.1 + 15000) :
    TInv i.now (s.maintain i) := by
  have ht : ∀ t ∈ (s.maintain i).tests, t ∈ s.tests ∨ (t.started = i.now ∧ (t.out ∈ s.outbound ∧ t.out ∉ s.expiringOut) ∧ ((s.gateways.get t.inn).isSome ∧ t.inn ∉ s.expiringIn)) := by
    intro t ht
    unfold State.maintain at ht
    dsimp only at ht
    split at ht
    · exact .inl ht
    · rcases List.mem_append.1 ht with ht | ht
      · exact .inl ht
      · exact .inr (mem_pairs ht)
  obtain ⟨e1, e2, e3, e4, e5⟩ := maintain_timers s i
  constructor
  · rw [e1, e2, e4]; exact h.rebOut
  · rw [e1, e3, e5]; exact h.rebIn
  · intro t hm
    rcases ht t hm with hm | ⟨e, _⟩
    · exact h.age t hm
    · omega
  · intro t hm
    rw [e1, e2]
    rcases ht t hm with hm | ⟨e, ⟨a, b⟩, _⟩
    · exact h.out t hm
    · refine ⟨a, fun d hd => ?_⟩
      obtain ⟨d', p, q⟩ := h.rebOut _ a b
      have g := z.gap _ _ _ p hd
      have := hl _ p
      simp only at this
      omega
  · intro t hm
    rw [e3]
    rcases ht t hm with hm | ⟨e, _, a, b⟩
    · exact h.inn t hm
    · obtain ⟨id, hid⟩ := Option.isSome_iff_exists.1 a
      obtain ⟨u, hu, eu, _⟩ := (f.gws _ _).1 hid
      obtain ⟨d, p⟩ := h.rebIn u hu (by rw [eu]; exact b)
      obtain ⟨_, _, v, hv, ev, g⟩ := z.ri _ _ p
      have := hl _ p
      simp only at this
      have e' : v = u := List.inj_on_of_nodup_map z.ndg hv hu ev
      subst e'
      exact ⟨v, hu, eu, by omega⟩

/-- Between polls. -/
structure AInv (s : State) : Prop where
  p : PInv s
  f : FInv (s.inbound.map (·.id) ++ s.pendingIn) s
  t : TInv s.clock s
  fast : ∀ t ∈ s.tests, s.clock < t.started + 15000

theorem SizeInv.results {s : State} (h : PInv s) (chk : Bool) (i : Input) (hf : Fresh s i) (hp : Prompt chk s i) :
    SizeInv i.now (s.outbound ++ s.pendingOut) (s.inbound.map (·.id) ++ s.pendingIn) (s.results i) := by
  have h0 : SizeInv i.now (s.outbound ++ s.pendingOut) (s.inbound.map (·.id) ++ s.pendingIn) s := by
    refine h.size.later fun x hx => ?_
    have := h.late x hx
    have := hp.poll
    omega
  unfold State.results
  refine foldl_inv (fun b a hb => hb.expire a) _ _ ?_
  refine SizeInv.inResults _ ?_ hp.built hf.gw.1 ?_
  · refine foldl_inv (fun b a hb => hb.outResult a) _ _ ?_
    exact ⟨h0.tn, h0.nd, h0.uo, h0.en, h0.es, h0.count, h0.ro, h0.ds, h0.gap, h0.ndi, h0.ui, h0.ndg, h0.eni, h0.esi, h0.counti, h0.ri⟩
  · rw [outResults_inbound]
    exact hf.gw.2

theorem TInv.later {n n' : Nat} {s : State} (h : TInv n s) (hl : ∀ t ∈ s.tests, n' < t.started + 30000) : TInv n' s := ⟨h.rebOut, h.rebIn, hl, h.out, h.inn⟩

theorem TInv.results {s : State} (a : AInv s) (chk : Bool) (i : Input) (hf : Fresh s i) (hp : Prompt chk s i) : TInv i.now (s.results i) := by
  have t0 : TInv i.now s := a.t.later fun t ht => by
    have := a.fast t ht
    have := hp.poll
    omega
  have z0 : SizeInv i.now (s.outbound ++ s.pendingOut) (s.inbound.map (·.id) ++ s.pendingIn) s := by
    refine a.p.size.later fun x hx => ?_
    have := a.p.late x hx
    have := hp.poll
    omega
  unfold State.results
  have s1 : SizeInv i.now (s.outbound ++ s.pendingOut) (s.inbound.map (·.id) ++ s.pendingIn) (i.outs.foldl (State.outResult i.now) { s with clock := i.now, failed := 0 }) ∧
      TInv i.now (i.outs.foldl (State.outResult i.now) { s with clock := i.now, failed := 0 }) := by
    refine foldl_inv (P := fun s' => SizeInv i.now (s.outbound ++ s.pendingOut) (s.inbound.map (·.id) ++ s.pendingIn) s' ∧ TInv i.now s')
      (fun b r hb => ⟨hb.1.outResult r, TInv.outResult hb.1 hb.2 r⟩) _ _ ⟨?_, ?_⟩
    · exact ⟨z0.tn, z0.nd, z0.uo, z0.en, z0.es, z0.count, z0.ro, z0.ds, z0.gap, z0.ndi, z0.ui, z0.ndg, z0.eni, z0.esi, z0.counti, z0.ri⟩
    · exact ⟨t0.rebOut, t0.rebIn, t0.age, t0.out, t0.inn⟩
  have s2 : SizeInv i.now (s.outbound ++ s.pendingOut) (s.inbound.map (·.id) ++ s.pendingIn)
      (i.ins.foldl (State.inResult i.now) (i.outs.foldl (State.outResult i.now) { s with clock := i.now, failed := 0 })) := by
    refine SizeInv.inResults _ s1.1 hp.built hf.gw.1 ?_
    rw [outResults_inbound]
    exact hf.gw.2
  have t2 := foldl_inv (P := TInv i.now) (fun b r hb => hb.inResult r) i.ins _ s1.2
  exact (foldl_inv (P := fun s' => SizeInv i.now (s.outbound ++ s.pendingOut) (s.inbound.map (·.id) ++ s.pendingIn) s' ∧ TInv i.now s')
    (fun b r hb => ⟨hb.1.expire r, TInv.expire hb.1 hb.2 r⟩) i.ended _ ⟨s2, t2⟩).2

theorem results_tests (s : State) (i : Input) : (s.results i).tests = s.tests := by
  unfold State.results
  refine foldl_inv (P := fun s' : State => s'.tests = s.tests) (fun b a hb => ?_) _ _ ?_
  · unfold State.expire; split <;> exact hb
  refine foldl_inv (P := fun s' : State => s'.tests = s.tests) (fun b a hb => ?_) _ _ ?_
  · unfold State.inResult; split
    · exact hb
    · dsimp only; split <;> exact hb
  refine foldl_inv (P := fun s' : State => s'.tests = s.tests) (fun b a hb => ?_) _ _ rfl
  unfold State.outResult; split
  · exact hb
  · dsimp only; split <;> exact hb

/-- Tests only end for tunnels that the selector knows. -/
theorem AInv.asserts {s : State} (a : AInv s) (chk : Bool) (i : Input) (hf : Fresh s i) (hp : Prompt chk s i) (t : Test) (ht : t ∈ (s.results i).tests) :
    (s.results i).testAsserts t = false := by
  have f := a.f.results i hf
  have h := TInv.results a chk i hf hp
  have h1 : t.out ∈ (s.results i).selOut := (f.so _).2 (h.out t ht).1
  obtain ⟨u, hu, e, _⟩ := h.inn t ht
  have h2 : t.inn ∈ (s.results i).selIn := (f.si _).2 (List.mem_map.2 ⟨u, hu, e⟩)
  simp [State.testAsserts, h1, h2]

theorem AInv.poll (chk : Bool) {s : State} (a : AInv s) (i : Input) (hf : Fresh s i) (hp : Prompt chk s i) (hr : (s.poll chk i).1.running = true) : AInv (s.poll chk i).1 := by
  obtain ⟨r, hs, _, e⟩ := poll_runs hr
  have ck := clock_poll chk s i r
  have f := FRun.poll chk (fun _ => a.f) i hf hr
  refine ⟨a.p.poll chk i hf hp, f, ?_, by rw [ck]; exact hp.test⟩
  rw [ck]
  have z := SizeInv.results a.p chk i hf hp
  have t := TInv.results a chk i hf hp
  have hm : SizeInv i.now (s.outbound ++ s.pendingOut) (s.inbound.map (·.id) ++ s.pendingIn) (s.middle i) ∧ TInv i.now (s.middle i) := by
    unfold State.middle
    refine foldl_inv (P := fun s' => SizeInv i.now (s.outbound ++ s.pendingOut) (s.inbound.map (·.id) ++ s.pendingIn) s' ∧ TInv i.now s') (fun b x hb => ⟨hb.1.fire x, hb.2.fire x⟩) _ _ ⟨?_, ?_⟩
    · exact ⟨z.tn, z.nd, z.uo, z.en, z.es, z.count, z.ro, z.ds, z.gap, z.ndi, z.ui, z.ndg, z.eni, z.esi, z.counti, z.ri⟩
    · have sub : ∀ x, x ∈ (s.results i).tests.filter (· ∉ i.tested.filter (· ∈ (s.results i).tests)) → x ∈ (s.results i).tests := fun x hx => (List.mem_filter.1 hx).1
      exact ⟨t.rebOut, t.rebIn, fun x hx => t.age x (sub x hx), fun x hx => t.out x (sub x hx), fun x hx => t.inn x (sub x hx)⟩
  have fm := a.f.middle i hf
  have hl := hp.timer
  rw [e] at hl ⊢
  unfold State.finish at hl ⊢
  rw [hs] at hl ⊢
  simp only [Bool.false_eq_true, if_false] at hl ⊢
  obtain ⟨z', t'⟩ := hm
  split
  · rename_i hc
    rw [if_pos hc] at hl
    simp only [maintain_timers] at hl
    refine TInv.maintain (W := s.inbound.map (·.id) ++ s.pendingIn) i (s := { s.middle i with maintenance := i.now + maintenanceInterval }) (U := s.outbound ++ s.pendingOut)
      (V := s.inbound.map (·.id) ++ s.pendingIn) ?_ ?_ ?_ hl
    · exact ⟨z'.tn, z'.nd, z'.uo, z'.en, z'.es, z'.count, z'.ro, z'.ds, z'.gap, z'.ndi, z'.ui, z'.ndg, z'.eni, z'.esi, z'.counti, z'.ri⟩
    · exact ⟨fm.no, fm.so, fm.ndi, fm.ui, fm.ndg, fm.si, fm.gws, fm.gok, fm.tab, fm.eno, fm.eni⟩
    · exact ⟨t'.rebOut, t'.rebIn, t'.age, t'.out, t'.inn⟩
  · rename_i hc
    rw [if_neg hc] at hl
    split
    · rename_i hc'
      rw [if_pos hc'] at hl
      simp only [maintain_timers] at hl
      exact TInv.maintain i z' fm t' hl
    · exact t'

theorem aInv_init (numIn numOut now : Nat) : AInv (State.init numIn numOut now) := by
  refine ⟨pInv_init .., fRun_init numIn numOut now rfl, ⟨?_, ?_, ?_, ?_, ?_⟩, ?_⟩ <;> simp [State.init]

theorem aInv_run (chk : Bool) (ops : List Op) : ∀ {s : State}, AInv s → Good chk s ops → (s.run chk ops).running = true → AInv (s.run chk ops) := by
  induction ops with
  | nil => intro s h _ _; exact h
  | cons o ops ih =>
    intro s h hg hr
    cases o with
    | read =>
      refine ih (s := s.step chk .read) ?_ hg hr
      have p := h.p.size
      have f := h.f
      have t := h.t
      exact ⟨⟨⟨p.tn, p.nd, p.uo, p.en, p.es, p.count, p.ro, p.ds, p.gap, p.ndi, p.ui, p.ndg, p.eni, p.esi, p.counti, p.ri⟩, h.p.late⟩,
        ⟨f.no, f.so, f.ndi, f.ui, f.ndg, f.si, f.gws, f.gok, f.tab, f.eno, f.eni⟩, ⟨t.rebOut, t.rebIn, t.age, t.out, t.inn⟩, h.fast⟩
    | poll i =>
      exact ih (s := s.step chk (.poll i)) (h.poll chk i hg.1 hg.2.1 (run_ran ops hr)) hg.2.2 hr

/-! ## C133 -/

/-- C133: when nothing is late by more than fifteen seconds, the debug assertions on the results of tunnel tests never fail. -/
theorem C133_no_panic (chk : Bool) (numIn numOut now : Nat) (ops : List Op) (hg : Good chk (State.init numIn numOut now) ops) (s : State) (hs : s = (State.init numIn numOut now).run chk ops)
    (i : Input) (hf : Fresh s i) (hp : Prompt chk s i) : (s.poll chk i).2 ≠ .panic := by
  subst hs
  intro hx
  rcases poll_cases chk ((State.init numIn numOut now).run chk ops) i with ⟨hr, e⟩ | ⟨hr, ⟨_, e⟩ | ⟨_, ts, e, _, t, _, ht, ha⟩ | ⟨hc, e⟩⟩
  · rw [e] at hx; cases hx
  · rw [e] at hx; cases hx
  · have k := aInv_run chk ops (aInv_init numIn numOut now) hg hr
    rw [k.asserts chk i hf hp t ht] at ha
    cases ha
  · rw [e] at hx
    unfold State.finish at hx
    split at hx
    · cases hx
    · split at hx
      · cases hx
      · split at hx <;> cases hx

/-! ## C134 -/

/-- C134: when nothing is late by more than fifteen seconds, a pool whose inbound tunnels do not panic runs until it is told to shut down. What is missing: inbound tunnels
can panic, see `C128_short_garlic_violated` and `C134_crash_violated`. -/
theorem C134_runs_partial (chk : Bool) (numIn numOut now : Nat) (ops : List Op) (hg : Good chk (State.init numIn numOut now) ops)
    (hq : ∀ i, .poll i ∈ ops → i.crashed = false ∧ i.shutdown = false) : ((State.init numIn numOut now).run chk ops).running = true := by
  induction ops using List.reverseRecOn with
  | nil => rfl
  | append_singleton ops o ih =>
    obtain ⟨g1, g2⟩ := (good_append ops [o]).1 hg
    have hr := ih g1 fun i hi => hq i (List.mem_append_left _ hi)
    have e : (State.init numIn numOut now).run chk (ops ++ [o]) = ((State.init numIn numOut now).run chk ops).step chk o := by
      unfold State.run; rw [List.foldl_append]; rfl
    rw [e]
    cases o with
    | read => exact hr
    | poll i =>
      show (((State.init numIn numOut now).run chk ops).poll chk i).1.running = true
      obtain ⟨q1, q2⟩ := hq i (by simp)
      have np := C133_no_panic chk numIn numOut now ops g1 _ rfl i g2.1 g2.2.1
      generalize (State.init numIn numOut now).run chk ops = s at *
      rcases poll_cases chk s i with ⟨hr', e⟩ | ⟨_, ⟨hc, e⟩ | ⟨_, ts, e, _⟩ | ⟨hc, e⟩⟩
      · rw [hr] at hr'; cases hr'
      · rw [q1] at hc; cases hc
      · rw [e] at np; exact absurd rfl np
      · rw [e]
        have kr : (s.middle i).running = true := (congrArg Prod.snd (keeps_middle s i)).trans hr
        unfold State.finish
        rw [q2]
        simp only [Bool.false_eq_true, if_false]
        split
        · exact (maintain_rest _ i).2.2.2.2.trans kr
        · split
          · exact (maintain_rest _ i).2.2.2.2.trans kr
          · exact kr

end Emissary.Pool
