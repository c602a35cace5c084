import Verif.Props.PoolSize
/-!
# C132: what a tunnel pool leaves in the routing table and in its selector
-/
namespace Emissary.Pool
open Emissary Emissary.Routing

/-! ## Specification -/

/-- All polls get ids that are not in use; nothing is said about time. -/
def FreshRun (chk : Bool) : State → List Op → Prop
  | _, [] => True
  | s, .poll i :: ops => Fresh s i ∧ FreshRun chk (s.step chk (.poll i)) ops
  | s, .read :: ops => FreshRun chk (s.step chk .read) ops

theorem Good.fresh {chk : Bool} (ops : List Op) : ∀ {s : State}, Good chk s ops → FreshRun chk s ops := by
  induction ops with
  | nil => intro s _; trivial
  | cons o ops ih =>
    intro s h
    cases o with
    | read => exact ih (s := s.step chk .read) h
    | poll i => exact ⟨h.1, ih h.2.2⟩

/-! ## Lemmas -/

structure FInv (V : List Nat) (s : State) : Prop where
  no : s.outbound.Nodup
  so : ∀ x, x ∈ s.selOut ↔ x ∈ s.outbound
  ndi : (s.inbound.map (·.id) ++ s.pendingIn).Nodup
  ui : ∀ x ∈ s.inbound.map (·.id) ++ s.pendingIn, x ∈ V
  ndg : (s.inbound.map (·.gateway)).Nodup
  si : ∀ x, x ∈ s.selIn ↔ x ∈ s.inbound.map (·.gateway)
  gws : ∀ gw id, s.gateways.get gw = some id ↔ ∃ t ∈ s.inbound, t.gateway = gw ∧ t.id = id
  gok : s.gateways.Ok
  tab : ∀ x, x ∈ s.table ↔ x ∈ s.inbound.map (·.id) ++ s.pendingIn
  eno : s.expiringOut.Nodup
  eni : s.expiringIn.Nodup

theorem FInv.outResult {V : List Nat} {s : State} (h : FInv V s) (now : Nat) (r : Nat × Bool) : FInv V (s.outResult now r) := by
  unfold State.outResult
  split
  · exact h
  · dsimp only
    split
    · refine ⟨nodup_ins _ h.no, ?_, h.ndi, h.ui, h.ndg, h.si, h.gws, h.gok, h.tab, h.eno, h.eni⟩
      intro x
      exact (mem_ins ..).trans (Iff.trans (by rw [h.so]) (mem_ins ..).symm)
    · exact ⟨h.no, h.so, h.ndi, h.ui, h.ndg, h.si, h.gws, h.gok, h.tab, h.eno, h.eni⟩

theorem FInv.inResult {V : List Nat} {s : State} (h : FInv V s) (now : Nat) (r : Nat × Option (Nat × Nat)) (hg : ∀ gw b, r.2 = some (gw, b) → ∀ t ∈ s.inbound, t.gateway ≠ gw) :
    FInv V (s.inResult now r) := by
  unfold State.inResult
  split
  · exact h
  · rename_i hp
    have hp : r.1 ∈ s.pendingIn := Decidable.not_not.1 hp
    obtain ⟨n1, n2, n3⟩ := List.nodup_append.1 h.ndi
    have hno : r.1 ∉ s.inbound.map (·.id) := fun hx => n3 _ hx _ hp rfl
    have hsub : ∀ x, x ∈ s.pendingIn.erase r.1 ↔ x ≠ r.1 ∧ x ∈ s.pendingIn := fun x => n2.mem_erase_iff
    dsimp only
    split
    · refine ⟨h.no, h.so, ?_, ?_, h.ndg, h.si, h.gws, h.gok, ?_, h.eno, h.eni⟩
      · exact List.nodup_append.2 ⟨n1, n2.erase _, fun a ha b hb => n3 a ha b ((hsub b).1 hb).2⟩
      · intro x hx
        apply h.ui
        rcases List.mem_append.1 hx with hx | hx
        · exact List.mem_append_left _ hx
        · exact List.mem_append_right _ ((hsub x).1 hx).2
      · intro x
        show x ∈ del r.1 s.table ↔ _ ∈ _ ++ s.pendingIn.erase r.1
        rw [mem_del, h.tab, List.mem_append, List.mem_append, hsub]
        constructor
        · rintro ⟨hx | hx, hne⟩
          · exact .inl hx
          · exact .inr ⟨hne, hx⟩
        · rintro (hx | ⟨hne, hx⟩)
          · exact ⟨.inl hx, fun e => hno (e ▸ hx)⟩
          · exact ⟨.inr hx, hne⟩
    · rename_i gw built hr
      have hg := hg gw built hr
      have hgw : gw ∉ s.inbound.map (·.gateway) := by
        intro hx
        obtain ⟨t, ht, e⟩ := List.mem_map.1 hx
        exact hg t ht e
      refine ⟨h.no, h.so, ?_, ?_, ?_, ?_, ?_, AMap.ok_put h.gok _ _, ?_, h.eno, h.eni⟩
      · show (List.map _ (s.inbound ++ _) ++ s.pendingIn.erase r.1).Nodup
        rw [List.map_append, List.append_assoc, List.nodup_append]
        refine ⟨n1, ?_, ?_⟩
        · simp only [List.map_cons, List.map_nil, List.singleton_append, List.nodup_cons]
          exact ⟨fun hx => ((hsub _).1 hx).1 rfl, n2.erase _⟩
        · intro a ha b hb
          simp only [List.map_cons, List.map_nil, List.singleton_append, List.mem_cons] at hb
          rcases hb with rfl | hb
          · rintro rfl; exact hno ha
          · exact n3 a ha b ((hsub b).1 hb).2
      · show ∀ x ∈ List.map _ (s.inbound ++ _) ++ s.pendingIn.erase r.1, x ∈ V
        intro x hx
        apply h.ui
        rw [List.map_append, List.append_assoc] at hx
        rcases List.mem_append.1 hx with hx | hx
        · exact List.mem_append_left _ hx
        · simp only [List.map_cons, List.map_nil, List.singleton_append, List.mem_cons] at hx
          rcases hx with rfl | hx
          · exact List.mem_append_right _ hp
          · exact List.mem_append_right _ ((hsub x).1 hx).2
      · show (List.map _ (s.inbound ++ _)).Nodup
        rw [List.map_append, List.nodup_append]
        refine ⟨h.ndg, by simp, ?_⟩
        intro a ha b hb
        simp only [List.map_cons, List.map_nil, List.mem_singleton] at hb
        subst hb
        rintro rfl
        exact hgw ha
      · intro x
        show x ∈ ins gw s.selIn ↔ x ∈ List.map _ (s.inbound ++ _)
        rw [mem_ins, h.si, List.map_append, List.mem_append]
        simp [or_comm]
      · intro g id
        show (s.gateways.put gw r.1).get g = some id ↔ ∃ t ∈ s.inbound ++ _, _
        rw [AMap.get_put]
        split
        · rename_i e
          subst e
          constructor
          · intro e
            injection e with e
            exact ⟨_, List.mem_append_right _ (List.mem_singleton.2 rfl), rfl, e⟩
          · rintro ⟨t, ht, e1, e2⟩
            rcases List.mem_append.1 ht with ht | ht
            · exact absurd e1 (hg t ht)
            · rw [List.mem_singleton.1 ht] at e2
              exact congrArg some e2
        · rename_i hne
          rw [h.gws]
          constructor
          · rintro ⟨t, ht, e⟩
            exact ⟨t, List.mem_append_left _ ht, e⟩
          · rintro ⟨t, ht, e1, e2⟩
            rcases List.mem_append.1 ht with ht | ht
            · exact ⟨t, ht, e1, e2⟩
            · rw [List.mem_singleton.1 ht] at e1
              exact absurd e1.symm hne
      · intro x
        show x ∈ s.table ↔ x ∈ List.map _ (s.inbound ++ _) ++ s.pendingIn.erase r.1
        rw [h.tab, List.map_append]
        simp only [List.mem_append, List.map_cons, List.map_nil, List.mem_singleton, hsub]
        constructor
        · rintro (hx | hx)
          · exact .inl (.inl hx)
          · by_cases e : x = r.1
            · exact .inl (.inr e)
            · exact .inr ⟨e, hx⟩
        · rintro ((hx | hx) | hx)
          · exact .inl hx
          · exact .inr (hx ▸ hp)
          · exact .inr hx.2

theorem FInv.expire {V : List Nat} {s : State} (h : FInv V s) (now : Nat) (t : Inbound) : FInv V (s.expire now t) := by
  unfold State.expire
  split
  · exact h
  · rename_i hp
    have hp1 : t ∈ s.inbound := Decidable.not_not.1 fun hx => hp (.inl hx)
    have hn : s.inbound.Nodup := List.Nodup.of_map _ h.ndg
    have hsub : ∀ x, x ∈ s.inbound.erase t ↔ x ≠ t ∧ x ∈ s.inbound := fun x => hn.mem_erase_iff
    have sl : (s.inbound.erase t).Sublist s.inbound := List.erase_sublist
    obtain ⟨n1, n2, n3⟩ := List.nodup_append.1 h.ndi
    have gwne : ∀ x ∈ s.inbound, x ≠ t → x.gateway ≠ t.gateway := fun x hx hne e => hne (List.inj_on_of_nodup_map h.ndg hx hp1 e)
    have idne : ∀ x ∈ s.inbound, x ≠ t → x.id ≠ t.id := fun x hx hne e => hne (List.inj_on_of_nodup_map n1 hx hp1 e)
    refine ⟨h.no, h.so, ?_, ?_, ?_, ?_, ?_, AMap.ok_del h.gok _, ?_, h.eno, nodup_del _ h.eni⟩
    · exact (List.Sublist.append (sl.map _) (List.Sublist.refl _)).nodup h.ndi
    · exact fun x hx => h.ui x ((List.Sublist.append (sl.map _) (List.Sublist.refl _)).subset hx)
    · exact (sl.map _).nodup h.ndg
    · intro x
      show x ∈ del t.gateway s.selIn ↔ x ∈ List.map _ (s.inbound.erase t)
      rw [mem_del, h.si]
      simp only [List.mem_map, hsub]
      constructor
      · rintro ⟨⟨y, hy, rfl⟩, hne⟩
        exact ⟨y, ⟨fun e => hne (e ▸ rfl), hy⟩, rfl⟩
      · rintro ⟨y, ⟨hne, hy⟩, rfl⟩
        exact ⟨⟨y, hy, rfl⟩, gwne y hy hne⟩
    · intro gw id
      show (s.gateways.del t.gateway).get gw = some id ↔ ∃ t' ∈ s.inbound.erase t, _
      rw [AMap.get_del]
      simp only [hsub]
      split
      · rename_i e
        subst e
        constructor
        · intro e; cases e
        · rintro ⟨y, ⟨hne, hy⟩, e, _⟩
          exact absurd e (gwne y hy hne)
      · rename_i hne
        rw [h.gws]
        constructor
        · rintro ⟨y, hy, e, e'⟩
          exact ⟨y, ⟨fun e' => hne (e' ▸ e.symm), hy⟩, e, e'⟩
        · rintro ⟨y, ⟨_, hy⟩, e⟩
          exact ⟨y, hy, e⟩
    · intro x
      show x ∈ del t.id s.table ↔ x ∈ List.map _ (s.inbound.erase t) ++ s.pendingIn
      rw [mem_del, h.tab]
      simp only [List.mem_append, List.mem_map, hsub]
      constructor
      · rintro ⟨⟨y, hy, rfl⟩ | hx, hne⟩
        · exact .inl ⟨y, ⟨fun e => hne (e ▸ rfl), hy⟩, rfl⟩
        · exact .inr hx
      · rintro (⟨y, ⟨hne, hy⟩, rfl⟩ | hx)
        · exact ⟨.inl ⟨y, hy, rfl⟩, idne y hy hne⟩
        · exact ⟨.inr hx, fun e => n3 _ (List.mem_map.2 ⟨t, hp1, rfl⟩) _ hx e.symm⟩

theorem FInv.fire {V : List Nat} {s : State} (h : FInv V s) (now : Nat) (x : Nat × Timer) : FInv V (s.fire now x) := by
  unfold State.fire
  split
  · exact h
  · dsimp only
    split
    · refine ⟨nodup_del _ h.no, ?_, h.ndi, h.ui, h.ndg, h.si, h.gws, h.gok, h.tab, nodup_del _ h.eno, h.eni⟩
      intro y
      exact (mem_del ..).trans (Iff.trans (by rw [h.so]) (mem_del ..).symm)
    · exact ⟨h.no, h.so, h.ndi, h.ui, h.ndg, h.si, h.gws, h.gok, h.tab, nodup_ins _ h.eno, h.eni⟩
    · exact ⟨h.no, h.so, h.ndi, h.ui, h.ndg, h.si, h.gws, h.gok, h.tab, h.eno, nodup_ins _ h.eni⟩

theorem FInv.maintain {V : List Nat} {s : State} (h : FInv V s) (i : Input) (hi : (i.inDraws.filterMap id).Nodup ∧ ∀ x, some x ∈ i.inDraws → x ∉ V) :
    FInv (V ++ i.inDraws.filterMap id) (s.maintain i) := by
  have key : FInv (V ++ i.inDraws.filterMap id)
      { s with pendingOut := s.pendingOut ++ drawn s.outCount i.outDraws, pendingIn := s.pendingIn ++ drawn s.inCount i.inDraws, table := s.table ++ drawn s.inCount i.inDraws } := by
    refine ⟨h.no, h.so, ?_, ?_, h.ndg, h.si, h.gws, h.gok, ?_, h.eno, h.eni⟩
    · rw [← List.append_assoc, List.nodup_append]
      refine ⟨h.ndi, drawn_nodup hi.1, fun a ha b hb => ?_⟩
      rintro rfl
      exact hi.2 _ (mem_drawn hb) (h.ui _ ha)
    · intro x hx
      rw [← List.append_assoc] at hx
      rcases List.mem_append.1 hx with hx | hx
      · exact List.mem_append_left _ (h.ui x hx)
      · exact List.mem_append_right _ (List.mem_filterMap.2 ⟨_, mem_drawn hx, rfl⟩)
    · intro x
      rw [← List.append_assoc, List.mem_append, List.mem_append, h.tab]
  unfold State.maintain
  dsimp only
  split
  · exact key
  · exact ⟨key.no, key.so, key.ndi, key.ui, key.ndg, key.si, key.gws, key.gok, key.tab, key.eno, key.eni⟩

theorem FInv.inResults {now : Nat} {V : List Nat} (l : List (Nat × Option (Nat × Nat))) : ∀ {s : State}, FInv V s →
    ((l.filterMap (·.2)).map (·.1)).Nodup → (∀ r ∈ l.filterMap (·.2), ∀ t ∈ s.inbound, t.gateway ≠ r.1) →
    FInv V (l.foldl (State.inResult now) s) := by
  induction l with
  | nil => intro s h _ _; exact h
  | cons r l ih =>
    intro s h hn hg
    rw [List.foldl_cons]
    have m : ∀ gw b, r.2 = some (gw, b) → (gw, b) ∈ (r :: l).filterMap (·.2) := fun gw b e => List.mem_filterMap.2 ⟨r, List.mem_cons_self .., e⟩
    have sub : ∀ x, x ∈ l.filterMap (·.2) → x ∈ (r :: l).filterMap (·.2) := by
      intro x hx
      obtain ⟨y, hy, e⟩ := List.mem_filterMap.1 hx
      exact List.mem_filterMap.2 ⟨y, List.mem_cons_of_mem _ hy, e⟩
    refine ih (h.inResult _ r fun gw b e => hg _ (m gw b e)) ?_ ?_
    · rw [List.filterMap_cons] at hn
      split at hn
      · exact hn
      · exact (List.nodup_cons.1 hn).2
    · intro x hx t ht
      rcases inResult_inbound _ _ _ _ ht with ht | ⟨gw, b, e, rfl⟩
      · exact hg x (sub x hx) t ht
      · rw [List.filterMap_cons, e] at hn
        intro e'
        exact (List.nodup_cons.1 hn).1 (List.mem_map.2 ⟨x, hx, e'.symm⟩)

theorem outResults_inbound (now : Nat) (l : List (Nat × Bool)) : ∀ s : State, (l.foldl (State.outResult now) s).inbound = s.inbound := by
  induction l with
  | nil => intro s; rfl
  | cons a l ih =>
    intro s
    rw [List.foldl_cons, ih]
    unfold State.outResult
    split
    · rfl
    · dsimp only; split <;> rfl

/-- The state of a poll before its last part. -/
def State.middle (s : State) (i : Input) : State :=
  i.fired.foldl (State.fire i.now) { s.results i with tests := (s.results i).tests.filter (· ∉ i.tested.filter (· ∈ (s.results i).tests)) }

/-- The ways a poll can go. -/
theorem poll_cases (chk : Bool) (s : State) (i : Input) :
    (s.running = false ∧ s.poll chk i = (s, .ready)) ∨
    (s.running = true ∧ ((i.crashed = true ∧ s.poll chk i = ({ s.results i with running := false }, .ready)) ∨
      (i.crashed = false ∧ ∃ ts, s.poll chk i = ({ s.results i with tests := ts, running := false }, .panic) ∧ chk = true ∧
        ∃ t ∈ i.tested, t ∈ (s.results i).tests ∧ (s.results i).testAsserts t = true) ∨
      (i.crashed = false ∧ s.poll chk i = (s.middle i).finish i))) := by
  unfold State.poll State.middle
  cases s.running with
  | false => exact .inl ⟨rfl, rfl⟩
  | true =>
    right
    refine ⟨rfl, ?_⟩
    simp only [Bool.not_true, Bool.false_eq_true, if_false]
    cases i.crashed with
    | true => exact .inl ⟨rfl, rfl⟩
    | false =>
      right
      simp only [Bool.false_eq_true, if_false]
      split
      · rename_i hc
        rw [Bool.and_eq_true] at hc
        obtain ⟨t, ht, ha⟩ := List.any_eq_true.1 hc.2
        rw [List.mem_filter, decide_eq_true_eq] at ht
        exact .inl ⟨trivial, _, rfl, hc.1, t, ht.1, ht.2, ha⟩
      · exact .inr ⟨trivial, rfl⟩

theorem FInv.results {s : State} {V : List Nat} (h : FInv V s) (i : Input) (hf : Fresh s i) : FInv V (s.results i) := by
  unfold State.results
  refine foldl_inv (fun b a hb => hb.expire _ a) _ _ ?_
  refine FInv.inResults _ ?_ hf.gw.1 ?_
  · refine foldl_inv (fun b a hb => hb.outResult _ a) _ _ ?_
    exact ⟨h.no, h.so, h.ndi, h.ui, h.ndg, h.si, h.gws, h.gok, h.tab, h.eno, h.eni⟩
  · rw [outResults_inbound]
    exact hf.gw.2

theorem FInv.middle {s : State} {V : List Nat} (h : FInv V s) (i : Input) (hf : Fresh s i) : FInv V (s.middle i) := by
  have k := h.results i hf
  unfold State.middle
  exact foldl_inv (fun b a hb => hb.fire _ a) _ _ ⟨k.no, k.so, k.ndi, k.ui, k.ndg, k.si, k.gws, k.gok, k.tab, k.eno, k.eni⟩

/-- While the pool runs. -/
def FRun (s : State) : Prop := s.running = true → FInv (s.inbound.map (·.id) ++ s.pendingIn) s

theorem FInv.again {V : List Nat} {s : State} (h : FInv V s) : FInv (s.inbound.map (·.id) ++ s.pendingIn) s :=
  ⟨h.no, h.so, h.ndi, fun _ h => h, h.ndg, h.si, h.gws, h.gok, h.tab, h.eno, h.eni⟩

theorem fresh_in {s : State} {i : Input} (hf : Fresh s i) : ∀ x, some x ∈ i.inDraws → x ∉ s.inbound.map (·.id) ++ s.pendingIn := by
  intro x hx hm
  rcases List.mem_append.1 hm with hm | hm
  · obtain ⟨t, ht, e⟩ := List.mem_map.1 hm
    exact (hf.inn.2 x hx).2 t ht e
  · exact (hf.inn.2 x hx).1 hm

theorem FRun.poll (chk : Bool) {s : State} (h : FRun s) (i : Input) (hf : Fresh s i) : FRun (s.poll chk i).1 := by
  rcases poll_cases chk s i with ⟨hr, e⟩ | ⟨hr, ⟨_, e⟩ | ⟨_, ts, e, _⟩ | ⟨_, e⟩⟩
  · rw [e]; exact h
  · rw [e]; intro hx; cases hx
  · rw [e]; intro hx; cases hx
  · rw [e]
    have k := (h hr).middle i hf
    unfold State.finish
    split
    · intro hx; cases hx
    · have g : FInv (s.inbound.map (·.id) ++ s.pendingIn) { s.middle i with maintenance := i.now + maintenanceInterval } :=
        ⟨k.no, k.so, k.ndi, k.ui, k.ndg, k.si, k.gws, k.gok, k.tab, k.eno, k.eni⟩
      split
      · exact fun _ => (g.maintain i ⟨hf.inn.1, fresh_in hf⟩).again
      · split
        · exact fun _ => (k.maintain i ⟨hf.inn.1, fresh_in hf⟩).again
        · exact fun _ => k.again

theorem fRun_run (chk : Bool) (ops : List Op) : ∀ {s : State}, FRun s → FreshRun chk s ops → FRun (s.run chk ops) := by
  induction ops with
  | nil => intro s h _; exact h
  | cons o ops ih =>
    intro s h hg
    cases o with
    | read =>
      have k : FRun (s.step chk .read) := fun hr => by
        have k := h hr
        exact ⟨k.no, k.so, k.ndi, k.ui, k.ndg, k.si, k.gws, k.gok, k.tab, k.eno, k.eni⟩
      exact ih k hg
    | poll i =>
      obtain ⟨f, g⟩ := hg
      exact ih (h.poll chk i f) g

theorem fRun_init (numIn numOut now : Nat) : FRun (State.init numIn numOut now) := fun _ =>
  ⟨by simp [State.init], by simp [State.init], by simp [State.init], fun _ h => h, by simp [State.init], by simp [State.init], by simp [State.init], AMap.ok_nil, by simp [State.init],
    by simp [State.init], by simp [State.init]⟩

/-! ## C132 -/

/-- C132: while a pool runs, the ids it holds in the routing table are those of its inbound tunnels, built or being built, and its selector knows exactly its tunnels. -/
theorem C132_table (chk : Bool) (numIn numOut now : Nat) (ops : List Op) (hf : FreshRun chk (State.init numIn numOut now) ops)
    (s : State) (hs : s = (State.init numIn numOut now).run chk ops) (hr : s.running = true) :
    (∀ id, id ∈ s.table ↔ (∃ t ∈ s.inbound, t.id = id) ∨ id ∈ s.pendingIn) ∧
    (∀ id, id ∈ s.selOut ↔ id ∈ s.outbound) ∧ (∀ gw, gw ∈ s.selIn ↔ ∃ t ∈ s.inbound, t.gateway = gw) := by
  subst hs
  have h := fRun_run chk ops (fRun_init numIn numOut now) hf hr
  refine ⟨fun id => ?_, h.so, fun gw => ?_⟩
  · rw [h.tab, List.mem_append, List.mem_map]
  · rw [h.si, List.mem_map]

/-- C132, against "a pool that is shut down leaves nothing behind": it leaves the ids of all inbound tunnels that were being built in the routing table, and all its tunnels
in the selector, for good. -/
theorem C132_shutdown_violated (chk : Bool) (numIn numOut now : Nat) (ops : List Op) (hf : FreshRun chk (State.init numIn numOut now) ops)
    (s : State) (hs : s = (State.init numIn numOut now).run chk ops) (hr : s.running = true) (at_ : Nat) (later : List Op) :
    (∀ id, id ∈ ((s.step chk (.poll { now := at_, shutdown := true })).run chk later).table ↔ id ∈ s.pendingIn) ∧
    ((s.step chk (.poll { now := at_, shutdown := true })).run chk later).selOut = s.selOut ∧
    ((s.step chk (.poll { now := at_, shutdown := true })).run chk later).selIn = s.selIn := by
  subst hs
  have h := fRun_run chk ops (fRun_init numIn numOut now) hf hr
  generalize (State.init numIn numOut now).run chk ops = s at h hr
  have stop : ∀ (x : State), x.running = false → ∀ later, (x.run chk later).table = x.table ∧ (x.run chk later).selOut = x.selOut ∧ (x.run chk later).selIn = x.selIn := by
    intro x hx later
    refine (foldl_inv (P := fun y : State => y.running = false ∧ y.table = x.table ∧ y.selOut = x.selOut ∧ y.selIn = x.selIn) ?_ later x ⟨hx, rfl, rfl, rfl⟩).2
    intro y o hy
    cases o with
    | read => exact hy
    | poll i =>
      have e : (y.poll chk i).1 = y := by unfold State.poll; rw [hy.1]; rfl
      show (y.poll chk i).1.running = false ∧ _
      simp only [State.step, e]
      exact hy
  have e : (s.poll chk { now := at_, shutdown := true }).1.running = false ∧
      (s.poll chk { now := at_, shutdown := true }).1.table = s.table.filter (fun id => decide (id ∉ List.map Prod.snd s.gateways)) ∧
      (s.poll chk { now := at_, shutdown := true }).1.selOut = s.selOut ∧ (s.poll chk { now := at_, shutdown := true }).1.selIn = s.selIn := by
    unfold State.poll
    rw [hr]
    simp only [Bool.not_true, Bool.false_eq_true, if_false, List.filter_nil, List.any_nil, Bool.and_false, State.finish, if_true]
    refine ⟨?_, ?_, ?_, ?_⟩ <;> first | trivial | rfl
  obtain ⟨e1, e2, e3, e4⟩ := e
  obtain ⟨f1, f2, f3⟩ := stop _ e1 later
  refine ⟨fun id => ?_, f2.trans e3, f3.trans e4⟩
  show id ∈ (State.run chk (s.poll chk { now := at_, shutdown := true }).1 later).table ↔ _
  rw [f1, e2, List.mem_filter, h.tab, decide_eq_true_eq, List.mem_append]
  have gm : ∀ x, x ∈ List.map Prod.snd s.gateways ↔ x ∈ s.inbound.map (·.id) := by
    intro x
    rw [List.mem_map, List.mem_map]
    constructor
    · rintro ⟨y, hy, rfl⟩
      obtain ⟨t, ht, _, e⟩ := (h.gws y.1 y.2).1 (AMap.mem_get h.gok hy)
      exact ⟨t, ht, e⟩
    · rintro ⟨t, ht, rfl⟩
      have := (h.gws t.gateway t.id).2 ⟨t, ht, rfl, rfl⟩
      exact ⟨_, AMap.get_mem this, rfl⟩
  rw [gm]
  obtain ⟨_, _, n3⟩ := List.nodup_append.1 h.ndi
  constructor
  · rintro ⟨hx | hx, hn⟩
    · exact absurd hx hn
    · exact hx
  · exact fun hx => ⟨.inr hx, fun hy => n3 _ hy _ hx rfl⟩

end Emissary.Pool
