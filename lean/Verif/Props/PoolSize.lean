import Verif.Props.Pool
import Mathlib.Data.List.Nodup
/-!
# C129, C130: how many tunnels a pool has
-/
namespace Emissary.Pool
open Emissary Emissary.Routing

/-! ## Specification -/

/-- Outbound tunnels that are not about to expire, or are being built. -/
def usableOut (s : State) : Nat := (s.outbound.filter fun id => id ∉ s.expiringOut).length + s.pendingOut.length
/-- Inbound tunnels that are not about to expire, or are being built. -/
def usableIn (s : State) : Nat := (s.inbound.filter fun t => t.gateway ∉ s.expiringIn).length + s.pendingIn.length

/-- The ids of new tunnels are not in use. -/
structure Fresh (s : State) (i : Input) : Prop where
  out : (i.outDraws.filterMap id).Nodup ∧ ∀ x, some x ∈ i.outDraws → x ∉ s.outbound ∧ x ∉ s.pendingOut
  inn : (i.inDraws.filterMap id).Nodup ∧ ∀ x, some x ∈ i.inDraws → x ∉ s.pendingIn ∧ ∀ t ∈ s.inbound, t.id ≠ x
  gw : ((i.ins.filterMap (·.2)).map (·.1)).Nodup ∧ ∀ r ∈ i.ins.filterMap (·.2), ∀ t ∈ s.inbound, t.gateway ≠ r.1

/-- Nothing is late by more than fifteen seconds: polls, build results, timers and tests. -/
structure Prompt (chk : Bool) (s : State) (i : Input) : Prop where
  poll : i.now < s.clock + 15000
  built : ∀ r ∈ i.ins.filterMap (·.2), i.now ≤ r.2 + 15000
  timer : ∀ x ∈ (s.poll chk i).1.timers, i.now < x.1 + 15000
  test : ∀ t ∈ (s.poll chk i).1.tests, i.now < t.started + 15000

/-- All polls are so. -/
def Good (chk : Bool) : State → List Op → Prop
  | _, [] => True
  | s, .poll i :: ops => Fresh s i ∧ Prompt chk s i ∧ Good chk (s.step chk (.poll i)) ops
  | s, .read :: ops => Good chk (s.step chk .read) ops

/-! ## Lemmas -/

theorem length_del (x : Nat) {l : List Nat} (h : l.Nodup) : (del x l).length = if x ∈ l then l.length - 1 else l.length := by
  have e : del x l = l.erase x := by
    rw [h.erase_eq_filter]
    unfold del
    congr 1
    funext y
    by_cases e : y = x <;> simp [e]
  rw [e, List.length_erase]

theorem length_ins (x : Nat) (l : List Nat) (h : x ∉ l) : (ins x l).length = l.length + 1 := by simp [ins, h]

theorem nodup_del (x : Nat) {l : List Nat} (h : l.Nodup) : (del x l).Nodup := h.filter _

theorem nodup_ins (x : Nat) {l : List Nat} (h : l.Nodup) : (ins x l).Nodup := by
  unfold ins
  split
  · exact h
  · rename_i hn; exact List.nodup_cons.2 ⟨hn, h⟩

theorem erase_other {l : List (Nat × Timer)} (h : (l.map (·.2)).Nodup) {x y : Nat × Timer} (hx : x ∈ l) (hy : y ∈ l.erase x) : y.2 ≠ x.2 := by
  intro e
  have hn : l.Nodup := List.Nodup.of_map _ h
  rw [hn.mem_erase_iff] at hy
  exact hy.1 (List.inj_on_of_nodup_map h hy.2 hx e)

structure SizeInv (now : Nat) (U V : List Nat) (s : State) : Prop where
  tn : (s.timers.map (·.2)).Nodup
  nd : (s.outbound ++ s.pendingOut).Nodup
  uo : ∀ x ∈ s.outbound ++ s.pendingOut, x ∈ U
  en : s.expiringOut.Nodup
  es : ∀ x ∈ s.expiringOut, x ∈ s.outbound
  count : s.outbound.length + s.pendingOut.length ≤ s.numOut + s.expiringOut.length
  ro : ∀ d id, (d, Timer.rebuildOut id) ∈ s.timers → id ∈ s.outbound ∧ id ∉ s.expiringOut ∧ now < d + 30000
  ds : ∀ d id, (d, Timer.destroy id) ∈ s.timers → id ∈ s.outbound
  gap : ∀ d d' id, (d, Timer.rebuildOut id) ∈ s.timers → (d', Timer.destroy id) ∈ s.timers → d' = d + 60000
  ndi : (s.inbound.map (·.id) ++ s.pendingIn).Nodup
  ui : ∀ x ∈ s.inbound.map (·.id) ++ s.pendingIn, x ∈ V
  ndg : (s.inbound.map (·.gateway)).Nodup
  eni : s.expiringIn.Nodup
  esi : ∀ x ∈ s.expiringIn, x ∈ s.inbound.map (·.gateway)
  counti : s.inbound.length + s.pendingIn.length ≤ s.numIn + s.expiringIn.length
  ri : ∀ d gw, (d, Timer.rebuildIn gw) ∈ s.timers → gw ∉ s.expiringIn ∧ now < d + 30000 ∧ ∃ t ∈ s.inbound, t.gateway = gw ∧ d + 45000 ≤ t.ends

theorem SizeInv.outResult {now : Nat} {U V : List Nat} {s : State} (h : SizeInv now U V s) (r : Nat × Bool) : SizeInv now U V (s.outResult now r) := by
  unfold State.outResult
  split
  · exact h
  · rename_i hp
    have hp : r.1 ∈ s.pendingOut := Decidable.not_not.1 hp
    obtain ⟨n1, n2, n3⟩ := List.nodup_append.1 h.nd
    have hno : r.1 ∉ s.outbound := fun hx => n3 _ hx _ hp rfl
    have hlen : (s.pendingOut.erase r.1).length + 1 = s.pendingOut.length := by
      rw [List.length_erase_of_mem hp]
      have := List.length_pos_of_mem hp
      omega
    have hsub : ∀ x ∈ s.pendingOut.erase r.1, x ∈ s.pendingOut ∧ x ≠ r.1 := fun x hx => ⟨(n2.mem_erase_iff.1 hx).2, (n2.mem_erase_iff.1 hx).1⟩
    have c := h.count
    dsimp only
    split
    · have ei : ins r.1 s.outbound = r.1 :: s.outbound := by simp [ins, hno]
      have fr : ∀ d, (d, Timer.rebuildOut r.1) ∉ s.timers := fun d hx => hno (h.ro d _ hx).1
      have fd : ∀ d, (d, Timer.destroy r.1) ∉ s.timers := fun d hx => hno (h.ds d _ hx)
      refine ⟨?_, ?_, ?_, h.en, ?_, ?_, ?_, ?_, ?_, h.ndi, h.ui, h.ndg, h.eni, h.esi, h.counti, ?_⟩
      · show (List.map _ (s.timers ++ _)).Nodup
        rw [List.map_append, List.nodup_append]
        refine ⟨h.tn, by simp, ?_⟩
        intro a ha b hb
        obtain ⟨⟨d, t⟩, ht, rfl⟩ := List.mem_map.1 ha
        simp only [List.map_cons, List.map_nil, List.mem_cons, List.not_mem_nil, or_false] at hb
        rintro e
        simp only at e
        subst e
        rcases hb with rfl | rfl
        · exact fr d ht
        · exact fd d ht
      · show (ins r.1 s.outbound ++ s.pendingOut.erase r.1).Nodup
        rw [ei, List.cons_append, List.nodup_cons]
        refine ⟨?_, List.nodup_append.2 ⟨n1, n2.erase _, fun a ha b hb => n3 a ha b (hsub b hb).1⟩⟩
        intro hx
        rcases List.mem_append.1 hx with hx | hx
        · exact hno hx
        · exact (hsub _ hx).2 rfl
      · show ∀ x ∈ ins r.1 s.outbound ++ s.pendingOut.erase r.1, x ∈ U
        rw [ei]
        intro x hx
        apply h.uo
        rcases List.mem_append.1 hx with hx | hx
        · rcases List.mem_cons.1 hx with rfl | hx
          · exact List.mem_append_right _ hp
          · exact List.mem_append_left _ hx
        · exact List.mem_append_right _ (hsub x hx).1
      · exact fun x hx => (mem_ins ..).2 (.inr (h.es x hx))
      · show (ins r.1 s.outbound).length + (s.pendingOut.erase r.1).length ≤ s.numOut + s.expiringOut.length
        rw [length_ins _ _ hno]; omega
      · intro d id hx
        rcases List.mem_append.1 hx with hx | hx
        · obtain ⟨a, b, c⟩ := h.ro d id hx
          exact ⟨(mem_ins ..).2 (.inr a), b, c⟩
        · simp only [List.mem_cons, Prod.mk.injEq, reduceCtorEq, and_false, List.not_mem_nil, or_false] at hx
          obtain ⟨rfl, hid⟩ := hx
          injection hid with hid
          subst hid
          exact ⟨(mem_ins ..).2 (.inl rfl), fun hx => hno (h.es _ hx), by simp only [rebuildTimeout]; omega⟩
      · intro d id hx
        rcases List.mem_append.1 hx with hx | hx
        · exact (mem_ins ..).2 (.inr (h.ds d id hx))
        · simp only [List.mem_cons, Prod.mk.injEq, reduceCtorEq, and_false, List.not_mem_nil, or_false, false_or] at hx
          obtain ⟨rfl, hid⟩ := hx
          injection hid with hid
          exact (mem_ins ..).2 (.inl hid)
      · intro d d' id hx hy
        rcases List.mem_append.1 hx with hx | hx <;> rcases List.mem_append.1 hy with hy | hy
        · exact h.gap d d' id hx hy
        · simp only [List.mem_cons, Prod.mk.injEq, reduceCtorEq, and_false, List.not_mem_nil, or_false, false_or] at hy
          obtain ⟨_, hid⟩ := hy
          injection hid with hid
          exact absurd (hid ▸ hx) (fr d)
        · simp only [List.mem_cons, Prod.mk.injEq, reduceCtorEq, and_false, List.not_mem_nil, or_false] at hx
          obtain ⟨_, hid⟩ := hx
          injection hid with hid
          exact absurd (hid ▸ hy) (fd d')
        · simp only [List.mem_cons, Prod.mk.injEq, reduceCtorEq, and_false, List.not_mem_nil, or_false, false_or] at hx hy
          have hx := hx.1
          have hy := hy.1
          simp only [rebuildTimeout, tunnelExpiration] at hx hy
          omega
      · intro d gw hx
        rcases List.mem_append.1 hx with hx | hx
        · exact h.ri d gw hx
        · simp at hx
    · refine ⟨h.tn, ?_, ?_, h.en, h.es, ?_, h.ro, h.ds, h.gap, h.ndi, h.ui, h.ndg, h.eni, h.esi, h.counti, h.ri⟩
      · exact List.nodup_append.2 ⟨n1, n2.erase _, fun a ha b hb => n3 a ha b (hsub b hb).1⟩
      · intro x hx
        apply h.uo
        rcases List.mem_append.1 hx with hx | hx
        · exact List.mem_append_left _ hx
        · exact List.mem_append_right _ (hsub x hx).1
      · show s.outbound.length + (s.pendingOut.erase r.1).length ≤ s.numOut + s.expiringOut.length
        omega

theorem SizeInv.inResult {now : Nat} {U V : List Nat} {s : State} (h : SizeInv now U V s) (r : Nat × Option (Nat × Nat))
    (hb : ∀ gw b, r.2 = some (gw, b) → now ≤ b + 15000) (hg : ∀ gw b, r.2 = some (gw, b) → ∀ t ∈ s.inbound, t.gateway ≠ gw) :
    SizeInv now U V (s.inResult now r) := by
  unfold State.inResult
  split
  · exact h
  · rename_i hp
    have hp : r.1 ∈ s.pendingIn := Decidable.not_not.1 hp
    obtain ⟨n1, n2, n3⟩ := List.nodup_append.1 h.ndi
    have hno : r.1 ∉ s.inbound.map (·.id) := fun hx => n3 _ hx _ hp rfl
    have hlen : (s.pendingIn.erase r.1).length + 1 = s.pendingIn.length := by
      rw [List.length_erase_of_mem hp]
      have := List.length_pos_of_mem hp
      omega
    have hsub : ∀ x ∈ s.pendingIn.erase r.1, x ∈ s.pendingIn ∧ x ≠ r.1 := fun x hx => ⟨(n2.mem_erase_iff.1 hx).2, (n2.mem_erase_iff.1 hx).1⟩
    have c := h.counti
    dsimp only
    split
    · refine ⟨h.tn, h.nd, h.uo, h.en, h.es, h.count, h.ro, h.ds, h.gap, ?_, ?_, h.ndg, h.eni, h.esi, ?_, h.ri⟩
      · exact List.nodup_append.2 ⟨n1, n2.erase _, fun a ha b hb => n3 a ha b (hsub b hb).1⟩
      · intro x hx
        apply h.ui
        rcases List.mem_append.1 hx with hx | hx
        · exact List.mem_append_left _ hx
        · exact List.mem_append_right _ (hsub x hx).1
      · show s.inbound.length + (s.pendingIn.erase r.1).length ≤ s.numIn + s.expiringIn.length
        omega
    · rename_i gw built hr
      have hb := hb gw built hr
      have hg := hg gw built hr
      have hgw : gw ∉ s.inbound.map (·.gateway) := by
        intro hx
        obtain ⟨t, ht, e⟩ := List.mem_map.1 hx
        exact hg t ht e
      have fr : ∀ d, (d, Timer.rebuildIn gw) ∉ s.timers := by
        intro d hx
        obtain ⟨_, _, t, ht, e, _⟩ := h.ri d gw hx
        exact hg t ht e
      refine ⟨?_, h.nd, h.uo, h.en, h.es, h.count, ?_, ?_, ?_, ?_, ?_, ?_, h.eni, ?_, ?_, ?_⟩
      · show (List.map _ (s.timers ++ _)).Nodup
        rw [List.map_append, List.nodup_append]
        refine ⟨h.tn, by simp, ?_⟩
        intro a ha b hb
        obtain ⟨⟨d, t⟩, ht, rfl⟩ := List.mem_map.1 ha
        simp only [List.map_cons, List.map_nil, List.mem_cons, List.not_mem_nil, or_false] at hb
        rintro e
        simp only at e
        subst e
        subst hb
        exact fr d ht
      · intro d id hx
        rcases List.mem_append.1 hx with hx | hx
        · exact h.ro d id hx
        · simp at hx
      · intro d id hx
        rcases List.mem_append.1 hx with hx | hx
        · exact h.ds d id hx
        · simp at hx
      · intro d d' id hx hy
        rcases List.mem_append.1 hx with hx | hx <;> rcases List.mem_append.1 hy with hy | hy
        · exact h.gap d d' id hx hy
        · simp at hy
        · simp at hx
        · simp at hx
      · show (List.map _ (s.inbound ++ _) ++ s.pendingIn.erase r.1).Nodup
        rw [List.map_append, List.append_assoc, List.nodup_append]
        refine ⟨n1, ?_, ?_⟩
        · simp only [List.map_cons, List.map_nil, List.singleton_append, List.nodup_cons]
          exact ⟨fun hx => (hsub _ hx).2 rfl, n2.erase _⟩
        · intro a ha b hb
          simp only [List.map_cons, List.map_nil, List.singleton_append, List.mem_cons] at hb
          rcases hb with rfl | hb
          · rintro rfl; exact hno ha
          · exact n3 a ha b (hsub b hb).1
      · show ∀ x ∈ List.map _ (s.inbound ++ _) ++ s.pendingIn.erase r.1, x ∈ V
        intro x hx
        apply h.ui
        rw [List.map_append, List.append_assoc] at hx
        rcases List.mem_append.1 hx with hx | hx
        · exact List.mem_append_left _ hx
        · simp only [List.map_cons, List.map_nil, List.singleton_append, List.mem_cons] at hx
          rcases hx with rfl | hx
          · exact List.mem_append_right _ hp
          · exact List.mem_append_right _ (hsub x hx).1
      · show (List.map _ (s.inbound ++ _)).Nodup
        rw [List.map_append, List.nodup_append]
        refine ⟨h.ndg, by simp, ?_⟩
        intro a ha b hb
        simp only [List.map_cons, List.map_nil, List.mem_singleton] at hb
        subst hb
        rintro rfl
        exact hgw ha
      · intro x hx
        show x ∈ List.map _ (s.inbound ++ _)
        rw [List.map_append]
        exact List.mem_append_left _ (h.esi x hx)
      · show (s.inbound ++ [_]).length + (s.pendingIn.erase r.1).length ≤ s.numIn + s.expiringIn.length
        rw [List.length_append, List.length_singleton]; omega
      · intro d gw' hx
        rcases List.mem_append.1 hx with hx | hx
        · obtain ⟨a, b, t, ht, c⟩ := h.ri d gw' hx
          exact ⟨a, b, t, List.mem_append_left _ ht, c⟩
        · simp only [List.mem_singleton, Prod.mk.injEq] at hx
          obtain ⟨rfl, e⟩ := hx
          injection e with e
          subst e
          refine ⟨fun hx => hgw (h.esi _ hx), by simp only [rebuildTimeout]; omega, _, List.mem_append_right _ (List.mem_singleton.2 rfl), rfl, ?_⟩
          simp only [rebuildTimeout, tunnelExpiration]; omega

theorem SizeInv.expire {now : Nat} {U V : List Nat} {s : State} (h : SizeInv now U V s) (t : Inbound) : SizeInv now U V (s.expire now t) := by
  unfold State.expire
  split
  · exact h
  · rename_i hp
    have hp1 : t ∈ s.inbound := Decidable.not_not.1 fun hx => hp (.inl hx)
    have hp2 : t.ends ≤ now := Nat.not_lt.1 fun hx => hp (.inr hx)
    have hn : s.inbound.Nodup := List.Nodup.of_map _ h.ndg
    have hsub : ∀ x, x ∈ s.inbound.erase t ↔ x ≠ t ∧ x ∈ s.inbound := fun x => hn.mem_erase_iff
    have hlen : (s.inbound.erase t).length + 1 = s.inbound.length := by
      rw [List.length_erase_of_mem hp1]
      have := List.length_pos_of_mem hp1
      omega
    have sl : (s.inbound.erase t).Sublist s.inbound := List.erase_sublist
    have c := h.counti
    refine ⟨h.tn, h.nd, h.uo, h.en, h.es, h.count, h.ro, h.ds, h.gap, ?_, ?_, ?_, nodup_del _ h.eni, ?_, ?_, ?_⟩
    · exact (List.Sublist.append (sl.map _) (List.Sublist.refl _)).nodup h.ndi
    · exact fun x hx => h.ui x ((List.Sublist.append (sl.map _) (List.Sublist.refl _)).subset hx)
    · exact (sl.map _).nodup h.ndg
    · intro x hx
      obtain ⟨hx, hne⟩ := (mem_del ..).1 hx
      obtain ⟨t', ht', rfl⟩ := List.mem_map.1 (h.esi x hx)
      exact List.mem_map.2 ⟨t', (hsub t').2 ⟨fun e => hne (e ▸ rfl), ht'⟩, rfl⟩
    · show (s.inbound.erase t).length + s.pendingIn.length ≤ s.numIn + (del t.gateway s.expiringIn).length
      rw [length_del _ h.eni]
      split
      · rename_i hm; have := List.length_pos_of_mem hm; omega
      · omega
    · intro d gw hx
      obtain ⟨a, b, t', ht', e, g⟩ := h.ri d gw hx
      refine ⟨fun hx => a ((mem_del ..).1 hx).1, b, t', (hsub t').2 ⟨?_, ht'⟩, e, g⟩
      rintro rfl
      omega

theorem SizeInv.fire {now : Nat} {U V : List Nat} {s : State} (h : SizeInv now U V s) (x : Nat × Timer) : SizeInv now U V (s.fire now x) := by
  unfold State.fire
  split
  · exact h
  · rename_i hp
    have hp1 : x ∈ s.timers := Decidable.not_not.1 fun hx => hp (.inl hx)
    have hp2 : x.1 ≤ now := Nat.not_lt.1 fun hx => hp (.inr hx)
    have hm : ∀ y, y ∈ s.timers.erase x → y ∈ s.timers := fun y hy => List.mem_of_mem_erase hy
    have ho : ∀ y, y ∈ s.timers.erase x → y.2 ≠ x.2 := fun y hy => erase_other h.tn hp1 hy
    have tn : ((s.timers.erase x).map (·.2)).Nodup := (List.erase_sublist.map _).nodup h.tn
    obtain ⟨n1, n2, n3⟩ := List.nodup_append.1 h.nd
    have c := h.count
    have ci := h.counti
    dsimp only
    split
    · rename_i id hid
      have hx : (x.1, Timer.destroy id) ∈ s.timers := by rw [← hid]; exact hp1
      have hin := h.ds _ _ hx
      refine ⟨tn, ?_, ?_, nodup_del _ h.en, ?_, ?_, ?_, ?_, ?_, h.ndi, h.ui, h.ndg, h.eni, h.esi, h.counti, fun d gw hy => h.ri d gw (hm _ hy)⟩
      · exact (List.Sublist.append List.filter_sublist (List.Sublist.refl _)).nodup h.nd
      · exact fun y hy => h.uo y ((List.Sublist.append List.filter_sublist (List.Sublist.refl _)).subset hy)
      · intro y hy
        obtain ⟨hy, hne⟩ := (mem_del ..).1 hy
        exact (mem_del ..).2 ⟨h.es y hy, hne⟩
      · show (del id s.outbound).length + s.pendingOut.length ≤ s.numOut + (del id s.expiringOut).length
        rw [length_del _ h.en, length_del _ n1, if_pos hin]
        have := List.length_pos_of_mem hin
        split
        · rename_i hm; have := List.length_pos_of_mem hm; omega
        · omega
      · intro d i hy
        obtain ⟨a, b, e⟩ := h.ro d i (hm _ hy)
        refine ⟨(mem_del ..).2 ⟨a, ?_⟩, fun hx => b ((mem_del ..).1 hx).1, e⟩
        rintro rfl
        have := h.gap d x.1 i (hm _ hy) hx
        omega
      · intro d i hy
        refine (mem_del ..).2 ⟨h.ds d i (hm _ hy), ?_⟩
        rintro rfl
        exact ho _ hy hid.symm
      · exact fun d d' i hy hz => h.gap d d' i (hm _ hy) (hm _ hz)
    · rename_i id hid
      have hx : (x.1, Timer.rebuildOut id) ∈ s.timers := by rw [← hid]; exact hp1
      obtain ⟨hin, hne, _⟩ := h.ro _ _ hx
      refine ⟨tn, h.nd, h.uo, nodup_ins _ h.en, ?_, ?_, ?_, fun d i hy => h.ds d i (hm _ hy), fun d d' i hy hz => h.gap d d' i (hm _ hy) (hm _ hz), h.ndi, h.ui, h.ndg, h.eni, h.esi,
        h.counti, fun d gw hy => h.ri d gw (hm _ hy)⟩
      · intro y hy
        rcases (mem_ins ..).1 hy with rfl | hy
        · exact hin
        · exact h.es y hy
      · show s.outbound.length + s.pendingOut.length ≤ s.numOut + (ins id s.expiringOut).length
        rw [length_ins _ _ hne]; omega
      · intro d i hy
        obtain ⟨a, b, e⟩ := h.ro d i (hm _ hy)
        refine ⟨a, fun hx => ?_, e⟩
        rcases (mem_ins ..).1 hx with rfl | hx
        · exact ho _ hy hid.symm
        · exact b hx
    · rename_i gw hid
      have hx : (x.1, Timer.rebuildIn gw) ∈ s.timers := by rw [← hid]; exact hp1
      obtain ⟨hne, _, t, ht, e, _⟩ := h.ri _ _ hx
      refine ⟨tn, h.nd, h.uo, h.en, h.es, h.count, fun d i hy => h.ro d i (hm _ hy), fun d i hy => h.ds d i (hm _ hy), fun d d' i hy hz => h.gap d d' i (hm _ hy) (hm _ hz), h.ndi, h.ui,
        h.ndg, nodup_ins _ h.eni, ?_, ?_, ?_⟩
      · intro y hy
        rcases (mem_ins ..).1 hy with rfl | hy
        · exact List.mem_map.2 ⟨t, ht, e⟩
        · exact h.esi y hy
      · show s.inbound.length + s.pendingIn.length ≤ s.numIn + (ins gw s.expiringIn).length
        rw [length_ins _ _ hne]; omega
      · intro d i hy
        obtain ⟨a, b, e⟩ := h.ri d i (hm _ hy)
        refine ⟨fun hx => ?_, b, e⟩
        rcases (mem_ins ..).1 hx with rfl | hx
        · exact ho _ hy hid.symm
        · exact a hx

theorem SizeInv.later {n n' : Nat} {U V : List Nat} {s : State} (h : SizeInv n U V s) (hl : ∀ x ∈ s.timers, n' < x.1 + 30000) : SizeInv n' U V s :=
  ⟨h.tn, h.nd, h.uo, h.en, h.es, h.count, fun d id hx => ⟨(h.ro d id hx).1, (h.ro d id hx).2.1, hl _ hx⟩, h.ds, h.gap, h.ndi, h.ui, h.ndg, h.eni, h.esi, h.counti,
    fun d gw hx => ⟨(h.ri d gw hx).1, hl _ hx, (h.ri d gw hx).2.2⟩⟩

theorem SizeInv.again {n : Nat} {U V : List Nat} {s : State} (h : SizeInv n U V s) : SizeInv n (s.outbound ++ s.pendingOut) (s.inbound.map (·.id) ++ s.pendingIn) s :=
  ⟨h.tn, h.nd, fun _ h => h, h.en, h.es, h.count, h.ro, h.ds, h.gap, h.ndi, fun _ h => h, h.ndg, h.eni, h.esi, h.counti, h.ri⟩

theorem mem_drawn {n : Nat} {draws : List (Option Nat)} {x : Nat} (h : x ∈ drawn n draws) : some x ∈ draws := by
  unfold drawn at h
  obtain ⟨o, ho, e⟩ := List.mem_filterMap.1 h
  simp only [id_eq] at e
  exact List.mem_of_mem_take (e ▸ ho)

theorem drawn_nodup {n : Nat} {draws : List (Option Nat)} (h : (draws.filterMap id).Nodup) : (drawn n draws).Nodup :=
  ((List.take_sublist n draws).filterMap id).nodup h

theorem drawn_length (n : Nat) (draws : List (Option Nat)) : (drawn n draws).length ≤ n := by
  unfold drawn
  exact Nat.le_trans (List.length_filterMap_le ..) (by rw [List.length_take]; omega)

theorem outCount_le (s : State) : s.outCount = 0 ∨ s.outbound.length + s.pendingOut.length + s.outCount = s.numOut + s.expiringOut.length := by
  simp only [State.outCount]
  split <;> omega

theorem inCount_le (s : State) : s.inCount = 0 ∨ s.inbound.length + s.pendingIn.length + s.inCount = s.numIn + s.expiringIn.length := by
  simp only [State.inCount]
  split <;> omega

theorem SizeInv.maintain {n : Nat} {U V : List Nat} {s : State} (h : SizeInv n U V s) (i : Input)
    (ho : (i.outDraws.filterMap id).Nodup ∧ ∀ x, some x ∈ i.outDraws → x ∉ U) (hi : (i.inDraws.filterMap id).Nodup ∧ ∀ x, some x ∈ i.inDraws → x ∉ V) :
    SizeInv n (U ++ i.outDraws.filterMap id) (V ++ i.inDraws.filterMap id) (s.maintain i) := by
  have c := h.count
  have ci := h.counti
  have l1 := drawn_length s.outCount i.outDraws
  have l2 := drawn_length s.inCount i.inDraws
  have key : SizeInv n (U ++ i.outDraws.filterMap id) (V ++ i.inDraws.filterMap id)
      { s with pendingOut := s.pendingOut ++ drawn s.outCount i.outDraws, pendingIn := s.pendingIn ++ drawn s.inCount i.inDraws, table := s.table ++ drawn s.inCount i.inDraws } := by
    refine ⟨h.tn, ?_, ?_, h.en, h.es, ?_, h.ro, h.ds, h.gap, ?_, ?_, h.ndg, h.eni, h.esi, ?_, h.ri⟩
    · rw [← List.append_assoc, List.nodup_append]
      refine ⟨h.nd, drawn_nodup ho.1, fun a ha b hb => ?_⟩
      rintro rfl
      exact ho.2 _ (mem_drawn hb) (h.uo _ ha)
    · intro x hx
      rw [← List.append_assoc] at hx
      rcases List.mem_append.1 hx with hx | hx
      · exact List.mem_append_left _ (h.uo x hx)
      · exact List.mem_append_right _ (List.mem_filterMap.2 ⟨_, mem_drawn hx, rfl⟩)
    · show s.outbound.length + (s.pendingOut ++ _).length ≤ s.numOut + s.expiringOut.length
      rw [List.length_append]
      have := outCount_le s
      omega
    · rw [← List.append_assoc, List.nodup_append]
      refine ⟨h.ndi, drawn_nodup hi.1, fun a ha b hb => ?_⟩
      rintro rfl
      exact hi.2 _ (mem_drawn hb) (h.ui _ ha)
    · intro x hx
      rw [← List.append_assoc] at hx
      rcases List.mem_append.1 hx with hx | hx
      · exact List.mem_append_left _ (h.ui x hx)
      · exact List.mem_append_right _ (List.mem_filterMap.2 ⟨_, mem_drawn hx, rfl⟩)
    · show s.inbound.length + (s.pendingIn ++ _).length ≤ s.numIn + s.expiringIn.length
      rw [List.length_append]
      have := inCount_le s
      omega
  unfold State.maintain
  dsimp only
  split
  · exact key
  · exact ⟨key.tn, key.nd, key.uo, key.en, key.es, key.count, key.ro, key.ds, key.gap, key.ndi, key.ui, key.ndg, key.eni, key.esi, key.counti, key.ri⟩

theorem SizeInv.grow {n : Nat} {U V U' V' : List Nat} {s : State} (h : SizeInv n U V s) (hu : U ⊆ U') (hv : V ⊆ V') : SizeInv n U' V' s :=
  ⟨h.tn, h.nd, fun x hx => hu (h.uo x hx), h.en, h.es, h.count, h.ro, h.ds, h.gap, h.ndi, fun x hx => hv (h.ui x hx), h.ndg, h.eni, h.esi, h.counti, h.ri⟩

theorem SizeInv.finish {n : Nat} {U V : List Nat} {s : State} (h : SizeInv n U V s) (i : Input)
    (ho : (i.outDraws.filterMap id).Nodup ∧ ∀ x, some x ∈ i.outDraws → x ∉ U) (hi : (i.inDraws.filterMap id).Nodup ∧ ∀ x, some x ∈ i.inDraws → x ∉ V) :
    SizeInv n (U ++ i.outDraws.filterMap id) (V ++ i.inDraws.filterMap id) (s.finish i).1 := by
  have g := h.grow (U' := U ++ i.outDraws.filterMap id) (V' := V ++ i.inDraws.filterMap id) (List.subset_append_left ..) (List.subset_append_left ..)
  unfold State.finish
  split
  · exact ⟨g.tn, g.nd, g.uo, g.en, g.es, g.count, g.ro, g.ds, g.gap, g.ndi, g.ui, g.ndg, g.eni, g.esi, g.counti, g.ri⟩
  · split
    · refine SizeInv.maintain (s := { s with maintenance := i.now + maintenanceInterval }) ?_ i ho hi
      exact ⟨h.tn, h.nd, h.uo, h.en, h.es, h.count, h.ro, h.ds, h.gap, h.ndi, h.ui, h.ndg, h.eni, h.esi, h.counti, h.ri⟩
    · split
      · exact h.maintain i ho hi
      · exact g

theorem inResult_inbound (now : Nat) (s : State) (r : Nat × Option (Nat × Nat)) (t : Inbound) (h : t ∈ (s.inResult now r).inbound) :
    t ∈ s.inbound ∨ ∃ gw b, r.2 = some (gw, b) ∧ t.gateway = gw := by
  unfold State.inResult at h
  split at h
  · exact .inl h
  · dsimp only at h
    split at h
    · exact .inl h
    · rename_i gw b e
      rcases List.mem_append.1 h with h | h
      · exact .inl h
      · rw [List.mem_singleton.1 h]
        exact .inr ⟨gw, b, e, rfl⟩

theorem SizeInv.inResults {now : Nat} {U V : List Nat} (l : List (Nat × Option (Nat × Nat))) : ∀ {s : State}, SizeInv now U V s →
    (∀ r ∈ l.filterMap (·.2), now ≤ r.2 + 15000) → ((l.filterMap (·.2)).map (·.1)).Nodup → (∀ r ∈ l.filterMap (·.2), ∀ t ∈ s.inbound, t.gateway ≠ r.1) →
    SizeInv now U V (l.foldl (State.inResult now) s) := by
  induction l with
  | nil => intro s h _ _ _; exact h
  | cons r l ih =>
    intro s h hb hn hg
    rw [List.foldl_cons]
    have m : ∀ gw b, r.2 = some (gw, b) → (gw, b) ∈ (r :: l).filterMap (·.2) := fun gw b e => List.mem_filterMap.2 ⟨r, List.mem_cons_self .., e⟩
    have sub : ∀ x, x ∈ l.filterMap (·.2) → x ∈ (r :: l).filterMap (·.2) := by
      intro x hx
      obtain ⟨y, hy, e⟩ := List.mem_filterMap.1 hx
      exact List.mem_filterMap.2 ⟨y, List.mem_cons_of_mem _ hy, e⟩
    refine ih (h.inResult r (fun gw b e => hb _ (m gw b e)) fun gw b e => hg _ (m gw b e)) (fun x hx => hb x (sub x hx)) ?_ ?_
    · rw [List.filterMap_cons] at hn
      split at hn
      · exact hn
      · exact (List.nodup_cons.1 hn).2
    · intro x hx t ht
      rcases inResult_inbound _ _ _ _ ht with ht | ⟨gw, b, e, rfl⟩
      · exact hg x (sub x hx) t ht
      · rw [List.filterMap_cons, e] at hn
        intro e'
        exact (List.nodup_cons.1 hn).1 (List.mem_map.2 ⟨x, hx, e'.symm⟩)

theorem clock_outResult (now : Nat) (s : State) (r : Nat × Bool) : (s.outResult now r).clock = s.clock := by
  unfold State.outResult; split
  · rfl
  · dsimp only; split <;> rfl
theorem clock_inResult (now : Nat) (s : State) (r : Nat × Option (Nat × Nat)) : (s.inResult now r).clock = s.clock := by
  unfold State.inResult; split
  · rfl
  · dsimp only; split <;> rfl
theorem clock_expire (now : Nat) (s : State) (t : Inbound) : (s.expire now t).clock = s.clock := by
  unfold State.expire; split <;> rfl
theorem clock_fire (now : Nat) (s : State) (t : Nat × Timer) : (s.fire now t).clock = s.clock := by
  unfold State.fire; split
  · rfl
  · dsimp only; split <;> rfl
theorem clock_maintain (s : State) (i : Input) : (s.maintain i).clock = s.clock := by
  unfold State.maintain; dsimp only; split <;> rfl
theorem clock_finish (s : State) (i : Input) : (s.finish i).1.clock = s.clock := by
  unfold State.finish; split
  · rfl
  · split
    · exact clock_maintain ..
    · split
      · exact clock_maintain ..
      · rfl
theorem clock_results (s : State) (i : Input) : (s.results i).clock = i.now := by
  unfold State.results
  refine foldl_inv (P := fun s : State => s.clock = i.now) (fun b a hb => (clock_expire ..).trans hb) _ _ ?_
  refine foldl_inv (P := fun s : State => s.clock = i.now) (fun b a hb => (clock_inResult ..).trans hb) _ _ ?_
  exact foldl_inv (P := fun s : State => s.clock = i.now) (fun b a hb => (clock_outResult ..).trans hb) _ _ rfl

theorem clock_poll (chk : Bool) (s : State) (i : Input) (h : s.running = true) : (s.poll chk i).1.clock = i.now := by
  unfold State.poll
  rw [h]
  simp only [Bool.not_true, Bool.false_eq_true, if_false]
  split
  · exact clock_results s i
  · split
    · exact clock_results s i
    · rw [clock_finish]
      exact foldl_inv (P := fun s : State => s.clock = i.now) (fun b a hb => (clock_fire ..).trans hb) _ _ (clock_results s i)

/-- Between polls. -/
structure PInv (s : State) : Prop where
  size : SizeInv s.clock (s.outbound ++ s.pendingOut) (s.inbound.map (·.id) ++ s.pendingIn) s
  late : ∀ x ∈ s.timers, s.clock < x.1 + 15000

theorem PInv.poll (chk : Bool) {s : State} (h : PInv s) (i : Input) (hf : Fresh s i) (hp : Prompt chk s i) : PInv (s.poll chk i).1 := by
  by_cases hr : s.running = true
  · have ck := clock_poll chk s i hr
    suffices hs : ∃ U V, SizeInv i.now U V (s.poll chk i).1 by
      obtain ⟨U, V, hs⟩ := hs
      exact ⟨ck ▸ hs.again, ck ▸ hp.timer⟩
    have h0 : SizeInv i.now (s.outbound ++ s.pendingOut) (s.inbound.map (·.id) ++ s.pendingIn) s := by
      refine h.size.later fun x hx => ?_
      have := h.late x hx
      have := hp.poll
      omega
    have hb : ∀ l : List (Nat × Bool), ∀ s : State, (l.foldl (State.outResult i.now) s).inbound = s.inbound := by
      intro l
      induction l with
      | nil => intro s; rfl
      | cons a l ih =>
        intro s
        rw [List.foldl_cons, ih]
        unfold State.outResult
        split
        · rfl
        · dsimp only; split <;> rfl
    have hres : SizeInv i.now (s.outbound ++ s.pendingOut) (s.inbound.map (·.id) ++ s.pendingIn) (s.results i) := by
      unfold State.results
      refine foldl_inv (fun b a hb => hb.expire a) _ _ ?_
      refine SizeInv.inResults _ ?_ hp.built hf.gw.1 ?_
      · refine foldl_inv (fun b a hb => hb.outResult a) _ _ ?_
        exact ⟨h0.tn, h0.nd, h0.uo, h0.en, h0.es, h0.count, h0.ro, h0.ds, h0.gap, h0.ndi, h0.ui, h0.ndg, h0.eni, h0.esi, h0.counti, h0.ri⟩
      · rw [hb]
        exact hf.gw.2
    unfold State.poll
    rw [hr]
    simp only [Bool.not_true, Bool.false_eq_true, if_false]
    generalize s.results i = s1 at hres
    have drop : ∀ (b : Bool) (ts : List Test), SizeInv i.now (s.outbound ++ s.pendingOut) (s.inbound.map (·.id) ++ s.pendingIn) { s1 with running := b, tests := ts } :=
      fun _ _ => ⟨hres.tn, hres.nd, hres.uo, hres.en, hres.es, hres.count, hres.ro, hres.ds, hres.gap, hres.ndi, hres.ui, hres.ndg, hres.eni, hres.esi, hres.counti, hres.ri⟩
    split
    · exact ⟨_, _, drop false _⟩
    · split
      · exact ⟨_, _, drop false _⟩
      · refine ⟨_, _, SizeInv.finish (U := s.outbound ++ s.pendingOut) (V := s.inbound.map (·.id) ++ s.pendingIn) ?_ i ⟨hf.out.1, ?_⟩ ⟨hf.inn.1, ?_⟩⟩
        · exact foldl_inv (fun b a hb => hb.fire a) _ _ (drop _ _)
        · intro x hx hm
          rcases List.mem_append.1 hm with hm | hm
          · exact (hf.out.2 x hx).1 hm
          · exact (hf.out.2 x hx).2 hm
        · intro x hx hm
          rcases List.mem_append.1 hm with hm | hm
          · obtain ⟨t, ht, e⟩ := List.mem_map.1 hm
            exact (hf.inn.2 x hx).2 t ht e
          · exact (hf.inn.2 x hx).1 hm
  · have e : (s.poll chk i).1 = s := by
      unfold State.poll
      rw [if_pos (by simpa using hr)]
    rw [e]; exact h

theorem pInv_run (chk : Bool) (ops : List Op) : ∀ {s : State}, PInv s → Good chk s ops → PInv (s.run chk ops) := by
  induction ops with
  | nil => intro s h _; exact h
  | cons o ops ih =>
    intro s h hg
    cases o with
    | read =>
      have k : PInv (s.step chk .read) := by
        have h0 := h.size
        exact ⟨⟨h0.tn, h0.nd, h0.uo, h0.en, h0.es, h0.count, h0.ro, h0.ds, h0.gap, h0.ndi, h0.ui, h0.ndg, h0.eni, h0.esi, h0.counti, h0.ri⟩, h.late⟩
      exact ih k hg
    | poll i =>
      obtain ⟨f, p, g⟩ := hg
      exact ih (h.poll chk i f p) g

theorem pInv_init (numIn numOut now : Nat) : PInv (State.init numIn numOut now) := by
  refine ⟨⟨?_, ?_, ?_, ?_, ?_, ?_, ?_, ?_, ?_, ?_, ?_, ?_, ?_, ?_, ?_, ?_⟩, ?_⟩ <;> simp [State.init]

theorem filter_count {l e : List Nat} (hl : l.Nodup) (he : e.Nodup) (hs : ∀ x ∈ e, x ∈ l) : (l.filter fun x => x ∉ e).length + e.length = l.length := by
  have p : (l.filter fun x => x ∈ e).Perm e := by
    rw [List.perm_ext_iff_of_nodup (hl.filter _) he]
    intro x
    simp only [List.mem_filter, decide_eq_true_eq]
    exact ⟨fun h => h.2, fun h => ⟨hs x h, h⟩⟩
  have q := List.length_eq_length_filter_add (l := l) (fun x => decide (x ∈ e))
  rw [p.length_eq] at q
  have r : (l.filter fun x => decide (x ∉ e)) = l.filter fun x => !decide (x ∈ e) := by
    congr 1; funext x; simp
  rw [r]
  omega

theorem size_of_inv {n : Nat} {U V : List Nat} {s : State} (h : SizeInv n U V s) : usableOut s + s.expiringOut.length = s.outbound.length + s.pendingOut.length ∧
    usableIn s + s.expiringIn.length = s.inbound.length + s.pendingIn.length := by
  have a := filter_count (List.nodup_append.1 h.nd).1 h.en h.es
  have b := filter_count h.ndg h.eni h.esi
  have c : (s.inbound.map (·.gateway)).filter (fun x => decide (x ∉ s.expiringIn)) = (s.inbound.filter fun t => decide (t.gateway ∉ s.expiringIn)).map (·.gateway) := by
    rw [List.filter_map]; rfl
  rw [c, List.length_map, List.length_map] at b
  unfold usableOut usableIn
  omega

/-- How many tunnels are wanted. -/
def nums (s : State) : Nat × Nat := (s.numIn, s.numOut)

theorem nums_outResult (now : Nat) (s : State) (r : Nat × Bool) : nums (s.outResult now r) = nums s := by
  unfold State.outResult; split
  · rfl
  · dsimp only; split <;> rfl
theorem nums_inResult (now : Nat) (s : State) (r : Nat × Option (Nat × Nat)) : nums (s.inResult now r) = nums s := by
  unfold State.inResult; split
  · rfl
  · dsimp only; split <;> rfl
theorem nums_expire (now : Nat) (s : State) (t : Inbound) : nums (s.expire now t) = nums s := by
  unfold State.expire; split <;> rfl
theorem nums_fire (now : Nat) (s : State) (t : Nat × Timer) : nums (s.fire now t) = nums s := by
  unfold State.fire; split
  · rfl
  · dsimp only; split <;> rfl
theorem nums_maintain (s : State) (i : Input) : nums (s.maintain i) = nums s := by
  unfold State.maintain; dsimp only; split <;> rfl
theorem nums_finish (s : State) (i : Input) : nums (s.finish i).1 = nums s := by
  unfold State.finish; split
  · rfl
  · split
    · exact nums_maintain ..
    · split
      · exact nums_maintain ..
      · rfl
theorem nums_results (s : State) (i : Input) : nums (s.results i) = nums s := by
  unfold State.results
  refine foldl_inv (P := fun s' => nums s' = nums s) (fun b a hb => (nums_expire ..).trans hb) _ _ ?_
  refine foldl_inv (P := fun s' => nums s' = nums s) (fun b a hb => (nums_inResult ..).trans hb) _ _ ?_
  exact foldl_inv (P := fun s' => nums s' = nums s) (fun b a hb => (nums_outResult ..).trans hb) _ _ rfl
theorem nums_poll (chk : Bool) (s : State) (i : Input) : nums (s.poll chk i).1 = nums s := by
  unfold State.poll
  split
  · rfl
  · dsimp only
    split
    · exact nums_results s i
    · split
      · exact nums_results s i
      · rw [nums_finish]
        exact foldl_inv (P := fun s' => nums s' = nums s) (fun b a hb => (nums_fire ..).trans hb) _ _ (nums_results s i)

theorem num_run (chk : Bool) (ops : List Op) (s : State) : (s.run chk ops).numIn = s.numIn ∧ (s.run chk ops).numOut = s.numOut := by
  have h : nums (s.run chk ops) = nums s := by
    refine foldl_inv (P := fun s' => nums s' = nums s) (fun b o hb => ?_) _ _ rfl
    cases o with
    | read => exact hb
    | poll i => exact (nums_poll ..).trans hb
  exact ⟨congrArg Prod.fst h, congrArg Prod.snd h⟩

/-- C129: as long as nothing is late by fifteen seconds, a pool never has, nor builds, more tunnels than it was configured for, not counting those that are about to expire.
What is missing: this fails after a long pause, see `C129_late_violated`. -/
theorem C129_bound_partial (chk : Bool) (numIn numOut now : Nat) (ops : List Op) (h : Good chk (State.init numIn numOut now) ops) :
    usableOut ((State.init numIn numOut now).run chk ops) ≤ numOut ∧ usableIn ((State.init numIn numOut now).run chk ops) ≤ numIn := by
  have p := pInv_run chk ops (pInv_init numIn numOut now) h
  obtain ⟨a, b⟩ := size_of_inv p.size
  have c := p.size.count
  have d := p.size.counti
  obtain ⟨e, f⟩ := num_run chk ops (State.init numIn numOut now)
  rw [e] at d
  rw [f] at c
  simp only [State.init] at a b c d ⊢
  omega

end Emissary.Pool
