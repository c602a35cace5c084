import Verif.Model.Selector
import Verif.Props.Profile
/-!
# Lemmas about shuffling, grouping and counting
-/
namespace Emissary.Profile
open Emissary.I2np (Duration)

/-! ## Shuffling -/

theorem swap_map (f : α → β) (l : List α) (i j : Nat) : swap (l.map f) i j = (swap l i j).map f := by
  unfold swap
  rw [List.getElem?_map, List.getElem?_map]
  cases l[i]? <;> cases l[j]? <;> simp [List.map_set]

theorem swap_length (l : List α) (i j : Nat) : (swap l i j).length = l.length := by
  unfold swap
  split <;> simp

theorem swap_perm [DecidableEq α] (l : List α) (i j : Nat) : (swap l i j).Perm l := by
  unfold swap
  split
  · rename_i a b ha hb
    obtain ⟨hi, ha⟩ := List.getElem?_eq_some_iff.mp ha
    obtain ⟨hj, hb⟩ := List.getElem?_eq_some_iff.mp hb
    rw [List.perm_iff_count]
    intro x
    rw [List.count_set (by simpa using hj), List.count_set hi, List.getElem_set, ha, hb]
    have h1 : 0 < l.count a := List.count_pos_iff.mpr (by rw [← ha]; exact List.getElem_mem hi)
    have h2 : 0 < l.count b := List.count_pos_iff.mpr (by rw [← hb]; exact List.getElem_mem hj)
    by_cases hij : i = j
    · subst hij
      have hab : a = b := by rw [← ha, ← hb]
      subst hab
      rw [if_pos rfl]
      by_cases hx : a = x
      · subst hx; simp; omega
      · simp [hx]
    · rw [if_neg hij]
      by_cases hx : a = x <;> by_cases hy : b = x
      · subst hx; subst hy; simp; omega
      · subst hx; simp [hy]; omega
      · subst hy; simp [hx]
      · simp [hx, hy]
  · exact List.Perm.refl _

theorem foldl_swap_perm [DecidableEq α] (is : List Nat) (g : Nat → Nat) (l : List α) :
    (is.foldl (fun l i => swap l i (g i)) l).Perm l := by
  induction is generalizing l with
  | nil => exact List.Perm.refl _
  | cons i is ih => exact (ih _).trans (swap_perm l i _)

theorem shuffle_perm [DecidableEq α] (d : Nat → Nat) (l : List α) : (shuffle d l).Perm l :=
  foldl_swap_perm _ (fun i => d i % (i + 1)) l

theorem foldl_swap_map (f : α → β) (is : List Nat) (g : Nat → Nat) (l : List α) :
    is.foldl (fun l i => swap l i (g i)) (l.map f) = (is.foldl (fun l i => swap l i (g i)) l).map f := by
  induction is generalizing l with
  | nil => rfl
  | cons i is ih => rw [List.foldl_cons, List.foldl_cons, swap_map, ih]

theorem shuffle_map (f : α → β) (d : Nat → Nat) (l : List α) : shuffle d (l.map f) = (shuffle d l).map f := by
  unfold shuffle
  rw [List.length_map]
  exact foldl_swap_map f _ (fun i => d i % (i + 1)) l

/-! ## Grouping -/

/-- A router with this info has an IPv4 address in the subnet. -/
def InSubnet (i : Info) (k : Subnet) : Prop := ∃ rest, i.ntcp2 = some (.v4 k.1 k.2 rest) ∨ i.ssu2 = some (.v4 k.1 k.2 rest)

theorem mem_ips (i : Info) (a : UInt8 × UInt8 × Nat) :
    a ∈ ips i ↔ i.ntcp2 = some (.v4 a.1 a.2.1 a.2.2) ∨ i.ssu2 = some (.v4 a.1 a.2.1 a.2.2) := by
  obtain ⟨x, y, z⟩ := a
  unfold ips
  rcases h1 : i.ntcp2 with _ | (⟨a, b, c⟩ | v) <;> rcases h2 : i.ssu2 with _ | (⟨a', b', c'⟩ | v')
  all_goals simp only [List.filterMap_cons, List.filterMap_nil]
  all_goals try split
  all_goals (simp; try grind)

theorem inSubnet_iff (i : Info) (k : Subnet) : InSubnet i k ↔ ∃ a ∈ ips i, (a.1, a.2.1) = k := by
  obtain ⟨x, y⟩ := k
  constructor
  · rintro ⟨rest, h⟩
    exact ⟨(x, y, rest), (mem_ips _ _).mpr h, rfl⟩
  · rintro ⟨⟨a, b, c⟩, h, e⟩
    simp only [Prod.mk.injEq] at e
    obtain ⟨rfl, rfl⟩ := e
    exact ⟨c, (mem_ips _ _).mp h⟩

/-- What holds of the groups made of some (subnet, router) pairs. -/
structure Grouped (R : Subnet → Nat → Prop) (g : List (Subnet × List Nat)) : Prop where
  nodup : (g.map (·.1)).Nodup
  ne : ∀ x ∈ g, x.2 ≠ []
  sound : ∀ x ∈ g, ∀ r ∈ x.2, R x.1 r
  complete : ∀ k r, R k r → ∃ x ∈ g, x.1 = k

theorem mem_groupAdd_keys (g : List (Subnet × List Nat)) (k k' : Subnet) (r : Nat) :
    k' ∈ (groupAdd g k r).map (·.1) ↔ k' = k ∨ k' ∈ g.map (·.1) := by
  induction g with
  | nil => simp [groupAdd]
  | cons x g ih =>
    rw [groupAdd]
    split
    · rename_i h; subst h; simp
    · rw [List.map_cons, List.map_cons, List.mem_cons, ih, List.mem_cons]; grind

theorem nodup_groupAdd (g : List (Subnet × List Nat)) (k : Subnet) (r : Nat) (h : (g.map (·.1)).Nodup) :
    ((groupAdd g k r).map (·.1)).Nodup := by
  induction g with
  | nil => simp [groupAdd]
  | cons x g ih =>
    rw [List.map_cons, List.nodup_cons] at h
    rw [groupAdd]
    split
    · rename_i hk; subst hk; simpa using h
    · rename_i hk
      rw [List.map_cons, List.nodup_cons, mem_groupAdd_keys]
      exact ⟨by rintro (h' | h'); exact hk h'; exact h.1 h', ih h.2⟩

theorem mem_groupAdd (g : List (Subnet × List Nat)) (k : Subnet) (r : Nat) (x : Subnet × List Nat) (h : x ∈ groupAdd g k r) :
    x.2 ≠ [] ∨ x ∈ g := by
  induction g with
  | nil => simp only [groupAdd, List.mem_singleton] at h; subst h; simp
  | cons y g ih =>
    rw [groupAdd] at h
    split at h
    · rcases List.mem_cons.mp h with rfl | h
      · simp
      · exact Or.inr (List.mem_cons_of_mem _ h)
    · rcases List.mem_cons.mp h with rfl | h
      · exact Or.inr List.mem_cons_self
      · exact (ih h).imp id (List.mem_cons_of_mem _)

theorem mem_groupAdd_router (g : List (Subnet × List Nat)) (k : Subnet) (r : Nat) (x : Subnet × List Nat) (h : x ∈ groupAdd g k r)
    (r' : Nat) (hr : r' ∈ x.2) : (x.1 = k ∧ r' = r) ∨ ∃ y ∈ g, y.1 = x.1 ∧ r' ∈ y.2 := by
  induction g with
  | nil => simp only [groupAdd, List.mem_singleton] at h; subst h; simp at hr; exact Or.inl ⟨rfl, hr⟩
  | cons y g ih =>
    rw [groupAdd] at h
    split at h
    · rename_i hk
      rcases List.mem_cons.mp h with rfl | h
      · simp only [List.mem_append, List.mem_singleton] at hr
        rcases hr with hr | hr
        · exact Or.inr ⟨y, List.mem_cons_self, hk, hr⟩
        · exact Or.inl ⟨rfl, hr⟩
      · exact Or.inr ⟨x, List.mem_cons_of_mem _ h, rfl, hr⟩
    · rcases List.mem_cons.mp h with rfl | h
      · exact Or.inr ⟨x, List.mem_cons_self, rfl, hr⟩
      · rcases ih h with h' | ⟨z, hz, hz'⟩
        · exact Or.inl h'
        · exact Or.inr ⟨z, List.mem_cons_of_mem _ hz, hz'⟩

theorem grouped_add {R : Subnet → Nat → Prop} {g : List (Subnet × List Nat)} (h : Grouped R g) (k : Subnet) (r : Nat) :
    Grouped (fun k' r' => R k' r' ∨ (k' = k ∧ r' = r)) (groupAdd g k r) := by
  refine ⟨nodup_groupAdd g k r h.nodup, fun x hx => ?_, fun x hx r' hr' => ?_, fun k' r' hk => ?_⟩
  · exact (mem_groupAdd g k r x hx).elim id (h.ne x)
  · rcases mem_groupAdd_router g k r x hx r' hr' with h' | ⟨y, hy, e, hy'⟩
    · exact Or.inr h'
    · exact Or.inl (e ▸ h.sound y hy r' hy')
  · have : k' ∈ (groupAdd g k r).map (·.1) := by
      rw [mem_groupAdd_keys]
      rcases hk with hk | ⟨rfl, _⟩
      · obtain ⟨x, hx, rfl⟩ := h.complete k' r' hk
        exact Or.inr (List.mem_map_of_mem hx)
      · exact Or.inl rfl
    obtain ⟨x, hx, rfl⟩ := List.mem_map.mp this
    exact ⟨x, hx, rfl⟩

theorem grouped_congr {R R' : Subnet → Nat → Prop} {g : List (Subnet × List Nat)} (h : Grouped R g) (he : ∀ k r, R k r ↔ R' k r) :
    Grouped R' g := by
  have : R = R' := by funext k r; exact propext (he k r)
  exact this ▸ h

theorem grouped_ips {R : Subnet → Nat → Prop} {g : List (Subnet × List Nat)} (h : Grouped R g) (r : Nat) (l : List (UInt8 × UInt8 × Nat)) :
    Grouped (fun k' r' => R k' r' ∨ (r' = r ∧ ∃ a ∈ l, (a.1, a.2.1) = k')) (l.foldl (fun g a => groupAdd g (a.1, a.2.1) r) g) := by
  induction l generalizing R g with
  | nil => exact grouped_congr h fun k r => by simp
  | cons a l ih =>
    refine grouped_congr (ih (grouped_add h (a.1, a.2.1) r)) fun k' r' => ?_
    simp only [List.mem_cons, exists_eq_or_imp]
    grind

theorem groupBySubnet_spec (s : Store) (ids : List Nat) :
    Grouped (fun k r => r ∈ ids ∧ ∃ i, s.routers.get r = some i ∧ InSubnet i k) (groupBySubnet s ids) := by
  suffices H : ∀ (R : Subnet → Nat → Prop) (g : List (Subnet × List Nat)), Grouped R g →
      Grouped (fun k r => R k r ∨ (r ∈ ids ∧ ∃ i, s.routers.get r = some i ∧ InSubnet i k))
        (ids.foldl (fun g r => match s.routers.get r with
          | none => g
          | some i => (ips i).foldl (fun g a => groupAdd g (a.1, a.2.1) r) g) g) by
    refine grouped_congr (H (fun _ _ => False) [] ⟨by simp, by simp, by simp, fun _ _ h => h.elim⟩) fun k r => by simp
  induction ids with
  | nil => intro R g h; exact grouped_congr h fun k r => by simp
  | cons a ids ih =>
    intro R g h
    rw [List.foldl_cons]
    cases ha : s.routers.get a with
    | none =>
      refine grouped_congr (ih R g h) fun k r => ?_
      constructor
      · rintro (h | ⟨h, h'⟩)
        · exact Or.inl h
        · exact Or.inr ⟨List.mem_cons_of_mem _ h, h'⟩
      · rintro (h | ⟨h, i, h1, h2⟩)
        · exact Or.inl h
        · rcases List.mem_cons.mp h with rfl | h
          · rw [ha] at h1; cases h1
          · exact Or.inr ⟨h, i, h1, h2⟩
    | some i =>
      refine grouped_congr (ih _ _ (grouped_ips h a (ips i))) fun k r => ?_
      rw [← inSubnet_iff]
      constructor
      · rintro ((h | ⟨rfl, h⟩) | ⟨h, h'⟩)
        · exact Or.inl h
        · exact Or.inr ⟨List.mem_cons_self, i, ha, h⟩
        · exact Or.inr ⟨List.mem_cons_of_mem _ h, h'⟩
      · rintro (h | ⟨h, j, h1, h2⟩)
        · exact Or.inl (Or.inl h)
        · rcases List.mem_cons.mp h with rfl | h
          · rw [ha] at h1
            injection h1 with h1
            subst h1
            exact Or.inl (Or.inr ⟨rfl, h2⟩)
          · exact Or.inr ⟨h, j, h1, h2⟩

theorem hasSubnet_iff (l : List (Subnet × α)) (k : Subnet) : hasSubnet l k = true ↔ k ∈ l.map (·.1) := by
  simp [hasSubnet]

/-- Choosing one router from every group. -/
theorem mapM_choose {R : Subnet → Nat → Prop} (f : Subnet × List Nat → Option (Subnet × Nat))
    (hf : ∀ g : Subnet × List Nat, g.2 ≠ [] → ∃ r ∈ g.2, f g = some (g.1, r)) (g : List (Subnet × List Nat)) (hne : ∀ x ∈ g, x.2 ≠ [])
    (hs : ∀ x ∈ g, ∀ r ∈ x.2, R x.1 r) :
    ∃ out, g.mapM f = some out ∧ out.map (·.1) = g.map (·.1) ∧ ∀ x ∈ out, R x.1 x.2 := by
  induction g with
  | nil => exact ⟨[], rfl, rfl, by simp⟩
  | cons x g ih =>
    obtain ⟨out, h1, h2, h3⟩ := ih (fun y hy => hne y (List.mem_cons_of_mem _ hy)) fun y hy => hs y (List.mem_cons_of_mem _ hy)
    obtain ⟨r, hr, hx⟩ := hf x (hne x List.mem_cons_self)
    refine ⟨(x.1, r) :: out, by simp [List.mapM_cons, hx, h1], by simp [h2], ?_⟩
    intro y hy
    rcases List.mem_cons.mp hy with rfl | hy
    · exact hs x List.mem_cons_self r hr
    · exact h3 y hy

theorem pickOne_spec (d : Draws) (g : Subnet × List Nat) (h : g.2 ≠ []) : ∃ r ∈ g.2, pickOne d g = some (g.1, r) := by
  have hl : d.pick g.1 % g.2.length < g.2.length := Nat.mod_lt _ (List.length_pos_iff.mpr h)
  exact ⟨_, List.getElem_mem hl, by simp [pickOne, List.getElem?_eq_getElem hl]⟩

theorem popOne_spec (g : Subnet × List Nat) (h : g.2 ≠ []) : ∃ r ∈ g.2, popOne g = some (g.1, r) :=
  ⟨g.2.getLast h, List.getLast_mem h, by simp [popOne, List.getLast?_eq_some_getLast h]⟩

end Emissary.Profile
