/-!
# Maps as association lists

A hash map is a list of pairs with distinct keys. The order of the list stands for the unspecified order of iteration; nothing that is proved
depends on it.
-/
namespace Emissary

/-- A map from `α` to `β`. Standard or external library, not in /repo. -/
abbrev AMap (α β : Type) := List (α × β)

namespace AMap
variable {α β : Type} [DecidableEq α]

/-- The value of a key. Standard or external library, not in /repo. -/
def get (m : AMap α β) (k : α) : Option β := (m.find? (·.1 = k)).map (·.2)
/-- Removes a key. Standard or external library, not in /repo. -/
def del (m : AMap α β) (k : α) : AMap α β := m.filter (·.1 ≠ k)
/-- Sets the value of a key. Standard or external library, not in /repo. -/
def put (m : AMap α β) (k : α) (v : β) : AMap α β := (k, v) :: del m k
/-- Keeps the pairs that satisfy a test. Standard or external library, not in /repo. -/
def keep (m : AMap α β) (f : α → β → Bool) : AMap α β := m.filter fun x => f x.1 x.2
/-- The keys are distinct. Not in the code: a helper of the model. -/
def Ok (m : AMap α β) : Prop := (m.map (·.1)).Nodup

@[simp] theorem get_nil (k : α) : get ([] : AMap α β) k = none := rfl

theorem get_cons (x : α × β) (m : AMap α β) (k : α) : get (x :: m) k = if x.1 = k then some x.2 else get m k := by
  unfold get
  simp only [List.find?_cons, decide_eq_true_eq]
  by_cases h : x.1 = k <;> simp [h]

theorem get_del (m : AMap α β) (k k' : α) : get (del m k) k' = if k' = k then none else get m k' := by
  induction m with
  | nil => simp [del]
  | cons x m ih =>
    unfold del at *
    simp only [List.filter_cons]
    by_cases h : x.1 = k
    · simp only [h, ne_eq, not_true_eq_false, decide_false, Bool.false_eq_true, if_false, ih, get_cons]
      by_cases h' : k' = k
      · simp [h']
      · simp [h', Ne.symm h']
    · simp only [ne_eq, h, not_false_eq_true, decide_true, if_true, get_cons, ih]
      by_cases h' : x.1 = k'
      · have : k' ≠ k := fun e => h (h'.trans e)
        simp [h', this]
      · simp [h']

@[simp] theorem get_put (m : AMap α β) (k : α) (v : β) (k' : α) : get (put m k v) k' = if k' = k then some v else get m k' := by
  rw [put, get_cons, get_del]
  by_cases h : k' = k
  · simp [h]
  · simp [h, Ne.symm h]

theorem get_mem {m : AMap α β} {k : α} {v : β} (h : get m k = some v) : (k, v) ∈ m := by
  unfold get at h
  obtain ⟨x, hx, rfl⟩ := Option.map_eq_some_iff.mp h
  have := List.find?_some hx
  simp only [decide_eq_true_eq] at this
  subst this
  exact List.mem_of_find?_eq_some hx

theorem mem_get {m : AMap α β} (hm : Ok m) {k : α} {v : β} (h : (k, v) ∈ m) : get m k = some v := by
  induction m with
  | nil => cases h
  | cons x m ih =>
    rw [get_cons]
    simp only [Ok, List.map_cons, List.nodup_cons] at hm
    rcases List.mem_cons.mp h with rfl | h
    · simp
    · have : x.1 ≠ k := fun e => hm.1 (e ▸ List.mem_map_of_mem (f := (·.1)) h)
      rw [if_neg this]; exact ih hm.2 h

theorem mem_iff {m : AMap α β} (hm : Ok m) {k : α} {v : β} : (k, v) ∈ m ↔ get m k = some v := ⟨mem_get hm, get_mem⟩

theorem ok_nil : Ok ([] : AMap α β) := List.nodup_nil

theorem ok_filter {m : AMap α β} (hm : Ok m) (f : α × β → Bool) : Ok (m.filter f) := List.Nodup.sublist ((List.filter_sublist).map _) hm

theorem ok_del {m : AMap α β} (hm : Ok m) (k : α) : Ok (del m k) := ok_filter hm _

theorem ok_keep {m : AMap α β} (hm : Ok m) (f : α → β → Bool) : Ok (keep m f) := ok_filter hm _

theorem ok_put {m : AMap α β} (hm : Ok m) (k : α) (v : β) : Ok (put m k v) := by
  refine List.nodup_cons.mpr ⟨?_, ok_del hm k⟩
  intro h
  obtain ⟨x, hx, e⟩ := List.mem_map.mp h
  have := (List.mem_filter.mp hx).2
  simp only [ne_eq, decide_eq_true_eq] at this
  exact this e

theorem get_keep {m : AMap α β} (hm : Ok m) (f : α → β → Bool) (k : α) : get (keep m f) k = (get m k).filter (f k) := by
  cases h : get m k with
  | none =>
    cases h' : get (keep m f) k with
    | none => rfl
    | some v =>
      have := (List.mem_filter.mp (get_mem h')).1
      rw [mem_get hm this] at h; cases h
  | some v =>
    have hv := get_mem h
    simp only [Option.filter_some]
    by_cases e : f k v
    · rw [if_pos e]; exact mem_get (ok_keep hm f) (List.mem_filter.mpr ⟨hv, e⟩)
    · rw [if_neg e]
      cases h' : get (keep m f) k with
      | none => rfl
      | some w =>
        have := List.mem_filter.mp (get_mem h')
        have hw := mem_get hm this.1
        rw [h] at hw; cases hw
        exact absurd this.2 e

/-- Sets the values of several keys, one after the other. Standard or external library, not in /repo. -/
def puts (m : AMap α β) (l : List (α × β)) : AMap α β := l.foldl (fun m x => put m x.1 x.2) m

theorem ok_puts (l : List (α × β)) : ∀ {m : AMap α β}, Ok m → Ok (puts m l) := by
  induction l with
  | nil => intro m h; exact h
  | cons x l ih => intro m h; exact ih (ok_put h _ _)

/-- The value of a key is the last one that was set. -/
theorem get_puts (l : List (α × β)) (k : α) : ∀ m : AMap α β, get (puts m l) k = match get l.reverse k with | some v => some v | none => get m k := by
  induction l with
  | nil => intro m; rfl
  | cons x l ih =>
    intro m
    rw [show puts m (x :: l) = puts (put m x.1 x.2) l from rfl, ih]
    have key : ∀ a : List (α × β), get (a ++ [x]) k = match get a k with | some v => some v | none => if k = x.1 then some x.2 else none := by
      intro a
      induction a with
      | nil => simp [get_cons, eq_comm]
      | cons y a iha => rw [List.cons_append, get_cons, get_cons, iha]; by_cases h : y.1 = k <;> simp [h]
    rw [List.reverse_cons, key]
    cases get l.reverse k with
    | some v => rfl
    | none => simp only [get_put]; split <;> simp_all

end AMap
end Emissary
