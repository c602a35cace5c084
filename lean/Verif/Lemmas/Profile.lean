import Verif.Model.Profile
/-!
# Lemmas about the profile storage
-/
namespace Emissary.Profile
open Emissary.I2np (Duration)

/-! ## Maps -/

/-- The keys. -/
def Map.keys (m : Map α) : List Nat := m.map (·.1)

theorem Map.has_iff (m : Map α) (k : Nat) : m.has k = true ↔ k ∈ m.keys := by
  unfold Map.has Map.get Map.keys
  rw [Option.isSome_map, List.find?_isSome]
  simp

theorem Map.get_isSome (m : Map α) (k : Nat) : (m.get k).isSome = true ↔ k ∈ m.keys := m.has_iff k

theorem Map.get_none (m : Map α) (k : Nat) : m.get k = none ↔ k ∉ m.keys := by
  rw [← Map.get_isSome]
  cases m.get k <;> simp

theorem Map.get_cons (e : Nat × α) (m : Map α) (k : Nat) : Map.get (e :: m) k = if e.1 = k then some e.2 else Map.get m k := by
  unfold Map.get
  rw [List.find?_cons]
  by_cases h : e.1 = k
  · simp [h]
  · have : (e.1 == k) = false := by simpa using h
    rw [this, if_neg h]

theorem Map.get_append (m m' : Map α) (k : Nat) : Map.get (m ++ m') k = (Map.get m k).or (Map.get m' k) := by
  induction m with
  | nil => rfl
  | cons e m ih =>
    rw [List.cons_append, Map.get_cons, Map.get_cons, ih]
    split <;> simp

theorem Map.get_map (m : Map α) (f : Nat × α → Nat × β) (hf : ∀ e, (f e).1 = e.1) (k : Nat) :
    Map.get (m.map f) k = ((m.find? (·.1 == k)).map f).map (·.2) := by
  induction m with
  | nil => rfl
  | cons e m ih =>
    rw [List.map_cons, Map.get_cons, hf, List.find?_cons]
    by_cases h : e.1 = k
    · simp [h]
    · have : (e.1 == k) = false := by simpa using h
      rw [if_neg h, this, ih]

theorem Map.get_insert (m : Map α) (k : Nat) (v : α) (j : Nat) :
    (m.insert k v).get j = if k = j then some v else m.get j := by
  unfold Map.insert
  split
  · rename_i h
    rw [Map.get_map _ _ (fun e => by split <;> simp_all)]
    unfold Map.get
    by_cases hj : k = j
    · subst hj
      rw [if_pos rfl]
      unfold Map.has Map.get at h
      cases hf : m.find? (·.1 == k) with
      | none => rw [hf] at h; simp at h
      | some e =>
        have := List.find?_some hf
        simp only [beq_iff_eq] at this
        simp [this]
    · rw [if_neg hj]
      cases hf : m.find? (·.1 == j) with
      | none => rfl
      | some e =>
        have := List.find?_some hf
        simp only [beq_iff_eq] at this
        have hne : e.1 ≠ k := by omega
        simp [hne]
  · rename_i h
    rw [Map.get_append, Map.get_cons]
    have hk : m.get k = none := by
      unfold Map.has at h
      cases hm : m.get k with
      | none => rfl
      | some v => simp [hm] at h
    by_cases hj : k = j
    · subst hj
      simp [hk]
    · simp only [if_neg hj]
      cases m.get j <;> rfl

theorem Map.keys_insert_has (m : Map α) (k : Nat) (v : α) (h : m.has k = true) : (m.insert k v).keys = m.keys := by
  unfold Map.insert Map.keys
  rw [if_pos h, List.map_map]
  apply List.map_congr_left
  intro e _
  simp only [Function.comp]
  split <;> simp_all

theorem Map.keys_insert_new (m : Map α) (k : Nat) (v : α) (h : m.has k = false) : (m.insert k v).keys = m.keys ++ [k] := by
  unfold Map.insert Map.keys
  rw [if_neg (by simp [h])]
  simp

theorem Map.mem_keys_insert (m : Map α) (k : Nat) (v : α) (j : Nat) : j ∈ (m.insert k v).keys ↔ j = k ∨ j ∈ m.keys := by
  rw [← Map.get_isSome, Map.get_insert, ← Map.get_isSome]
  by_cases h : k = j
  · simp [h]
  · rw [if_neg h]
    constructor
    · exact Or.inr
    · rintro (h' | h')
      · exact absurd h'.symm h
      · exact h'

theorem Map.nodup_insert (m : Map α) (k : Nat) (v : α) (h : m.keys.Nodup) : (m.insert k v).keys.Nodup := by
  cases hk : m.has k with
  | true => rw [Map.keys_insert_has _ _ _ hk]; exact h
  | false =>
    rw [Map.keys_insert_new _ _ _ hk, List.nodup_append]
    refine ⟨h, List.nodup_cons.mpr ⟨by simp, List.nodup_nil⟩, ?_⟩
    intro a ha b hb
    rw [List.mem_singleton] at hb
    subst hb
    intro e
    subst e
    rw [← Map.has_iff, hk] at ha
    cases ha

theorem Map.keys_update (m : Map α) (k : Nat) (f : α → α) : (m.update k f).keys = m.keys := by
  unfold Map.update Map.keys
  rw [List.map_map]
  apply List.map_congr_left
  intro e _
  simp only [Function.comp]
  split <;> simp_all

theorem Map.get_update (m : Map α) (k : Nat) (f : α → α) (j : Nat) :
    (m.update k f).get j = if k = j then (m.get j).map f else m.get j := by
  unfold Map.update
  rw [Map.get_map _ _ (fun e => by split <;> simp_all)]
  unfold Map.get
  cases hf : m.find? (·.1 == j) with
  | none => simp
  | some e =>
    have := List.find?_some hf
    simp only [beq_iff_eq] at this
    subst this
    by_cases h : k = e.1
    · simp [h]
    · have h' : e.1 ≠ k := fun x => h x.symm
      simp [h, h']

theorem Map.get_of_mem (m : Map α) (hn : m.keys.Nodup) {e : Nat × α} (h : e ∈ m) : m.get e.1 = some e.2 := by
  induction m with
  | nil => cases h
  | cons a m ih =>
    rw [Map.get_cons]
    unfold Map.keys at hn ih
    rw [List.map_cons, List.nodup_cons] at hn
    rcases List.mem_cons.mp h with rfl | h
    · simp
    · have : a.1 ≠ e.1 := fun e' => hn.1 (e' ▸ List.mem_map_of_mem h)
      rw [if_neg this]
      exact ih hn.2 h

theorem Map.mem_of_get (m : Map α) {k : Nat} {v : α} (h : m.get k = some v) : (k, v) ∈ m := by
  unfold Map.get at h
  cases hf : m.find? (·.1 == k) with
  | none => rw [hf] at h; simp at h
  | some e =>
    rw [hf] at h
    have h1 := List.find?_some hf
    simp only [beq_iff_eq] at h1
    simp only [Option.map_some, Option.some.injEq] at h
    have := List.mem_of_find?_eq_some hf
    rw [← h1, ← h]
    exact this

theorem Map.mem_keys {m : Map α} {e : Nat × α} (h : e ∈ m) : e.1 ∈ m.keys := List.mem_map_of_mem h

/-! ## Sets -/

theorem mem_setInsert (s : List Nat) (k j : Nat) : j ∈ setInsert s k ↔ j = k ∨ j ∈ s := by
  unfold setInsert
  split
  · rename_i h
    constructor
    · exact Or.inr
    · rintro (rfl | h') <;> assumption
  · simp [or_comm]

theorem nodup_setInsert (s : List Nat) (k : Nat) (h : s.Nodup) : (setInsert s k).Nodup := by
  unfold setInsert
  split
  · exact h
  · rename_i hk
    rw [List.nodup_append]
    refine ⟨h, List.nodup_cons.mpr ⟨by simp, List.nodup_nil⟩, ?_⟩
    intro a ha b hb
    rw [List.mem_singleton] at hb
    subst hb
    intro e
    exact hk (e ▸ ha)

theorem mem_setRemove (s : List Nat) (k j : Nat) : j ∈ setRemove s k ↔ j ∈ s ∧ j ≠ k := by
  simp [setRemove]

theorem nodup_setRemove (s : List Nat) (k : Nat) (h : s.Nodup) : (setRemove s k).Nodup := h.filter _

theorem mem_foldl_setInsert (l s : List Nat) (j : Nat) : j ∈ l.foldl setInsert s ↔ j ∈ s ∨ j ∈ l := by
  induction l generalizing s with
  | nil => simp
  | cons a l ih =>
    rw [List.foldl_cons, ih, mem_setInsert, List.mem_cons]
    grind

theorem nodup_foldl_setInsert (l s : List Nat) (h : s.Nodup) : (l.foldl setInsert s).Nodup := by
  induction l generalizing s with
  | nil => exact h
  | cons a l ih => exact ih _ (nodup_setInsert s a h)

theorem setInsert_of_not_mem (s : List Nat) (k : Nat) (h : k ∉ s) : setInsert s k = s ++ [k] := by simp [setInsert, h]

/-! ## `split` -/

/-- A router has taken or refused tunnels before. -/
def hasStats (m : Map Profile) (r : Nat) : Bool := match m.get r with
  | some p => p.tracked
  | none => false

theorem mapM_tracked (m : Map Profile) (l : List Nat) (h : ∀ r ∈ l, r ∈ m.keys) :
    l.mapM (fun r => (m.get r).map fun p => (r, p.tracked)) = some (l.map fun r => (r, hasStats m r)) := by
  induction l with
  | nil => rfl
  | cons a l ih =>
    obtain ⟨p, hp⟩ := Option.isSome_iff_exists.mp ((m.get_isSome a).mpr (h a List.mem_cons_self))
    rw [List.mapM_cons, ih fun r hr => h r (List.mem_cons_of_mem _ hr)]
    simp [hasStats, hp]

theorem filter_marked (m : Map Profile) (l : List Nat) :
    (((l.map fun r => (r, hasStats m r)).filter (·.2)).map (·.1)) = l.filter (hasStats m) := by
  induction l with
  | nil => rfl
  | cons a l ih =>
    rw [List.map_cons, List.filter_cons, List.filter_cons]
    cases hasStats m a <;> simp [ih]

theorem filter_unmarked (m : Map Profile) (l : List Nat) :
    (((l.map fun r => (r, hasStats m r)).filter (! ·.2)).map (·.1)) = l.filter (fun r => !hasStats m r) := by
  induction l with
  | nil => rfl
  | cons a l ih =>
    rw [List.map_cons, List.filter_cons, List.filter_cons]
    cases hasStats m a <;> simp [ih]

theorem split_eq (sort : Map Profile → List Nat → List Nat) (m : Map Profile) (n : Nat) (l : List Nat) (h : ∀ r ∈ l, r ∈ m.keys) :
    split sort m n l = some (if l.filter (hasStats m) = [] then ([], l.filter fun r => !hasStats m r)
      else ((sort m (l.filter (hasStats m))).take n, (sort m (l.filter (hasStats m))).drop n)) := by
  unfold split
  rw [mapM_tracked m l h]
  simp only [Option.bind_eq_bind, Option.bind_some]
  rw [filter_marked, filter_unmarked]
  split <;> rfl

end Emissary.Profile
