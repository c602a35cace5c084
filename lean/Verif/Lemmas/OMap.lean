import Verif.Model.OMap
/-! Helper lemmas about ordered maps and sets. -/
namespace Emissary
namespace OMap
variable {β : Type}

/-- The representation invariant of a `BTreeMap`. -/
def Sorted (m : OMap β) : Prop := m.Pairwise (fun a b => a.1 < b.1)

@[simp] theorem get?_nil (k : Nat) : get? k ([] : OMap β) = none := rfl

theorem get?_ins (k k' : Nat) (v : β) (m : OMap β) :
    get? k' (ins k v m) = if k' = k then some v else get? k' m := by
  induction m with
  | nil => simp [ins, get?]
  | cons e t ih =>
    obtain ⟨a, b⟩ := e
    simp only [ins]
    split
    · simp only [get?]
    · split
      · subst_vars; simp only [get?]; split <;> simp_all
      · simp only [get?, ih]
        split
        · subst_vars; split
          · subst_vars; omega
          · rfl
        · rfl

theorem get?_del (k k' : Nat) (m : OMap β) :
    get? k' (del k m) = if k' = k then none else get? k' m := by
  induction m with
  | nil => simp [del, get?]
  | cons e t ih =>
    obtain ⟨a, b⟩ := e
    simp only [del] at ih
    simp only [del, List.filter_cons]
    by_cases h : a = k
    · subst h; simp only [bne_self_eq_false, Bool.false_eq_true, if_false, get?, ih]
      split
      · rfl
      · rfl
    · simp only [bne_iff_ne, ne_eq, h, not_false_eq_true, if_true, get?, ih]
      split
      · subst_vars; simp [h]
      · rfl

theorem has_ins (k k' : Nat) (v : β) (m : OMap β) :
    has k' (ins k v m) = (k' == k || has k' m) := by
  simp only [has, get?_ins]; by_cases h : k' = k <;> simp [h]

theorem has_del (k k' : Nat) (m : OMap β) :
    has k' (del k m) = (k' != k && has k' m) := by
  simp only [has, get?_del]; by_cases h : k' = k <;> simp [h]

theorem mem_keys {k : Nat} {m : OMap β} : k ∈ keys m ↔ has k m = true := by
  induction m with
  | nil => simp [keys, has]
  | cons e t ih =>
    obtain ⟨a, b⟩ := e
    simp only [keys, has] at ih
    simp only [keys, has, List.map_cons, List.mem_cons, get?, ih]
    by_cases h : k = a <;> simp [h]

theorem mem_of_get? {k : Nat} {v : β} {m : OMap β} (h : get? k m = some v) : (k, v) ∈ m := by
  induction m with
  | nil => simp at h
  | cons e t ih =>
    obtain ⟨a, b⟩ := e
    simp only [get?] at h
    split at h
    · subst_vars; cases h; exact List.mem_cons_self
    · exact List.mem_cons_of_mem _ (ih h)

theorem get?_of_mem {k : Nat} {v : β} {m : OMap β} (hs : Sorted m) (h : (k, v) ∈ m) :
    get? k m = some v := by
  induction m with
  | nil => cases h
  | cons e t ih =>
    obtain ⟨a, b⟩ := e
    simp only [Sorted, List.pairwise_cons] at hs
    simp only [get?]
    rcases List.mem_cons.mp h with h | h
    · cases h; simp
    · have := hs.1 _ h
      rw [if_neg (by simp at this; omega)]
      exact ih hs.2 h

theorem mem_ins {k : Nat} {v : β} {m : OMap β} {e : Nat × β} (h : e ∈ ins k v m) :
    e = (k, v) ∨ e ∈ m := by
  induction m with
  | nil => simpa [ins] using h
  | cons a t ih =>
    obtain ⟨a, b⟩ := a
    simp only [ins] at h
    split at h
    · rcases List.mem_cons.mp h with h | h
      · exact .inl h
      · exact .inr h
    · split at h
      · rcases List.mem_cons.mp h with h | h
        · exact .inl h
        · exact .inr (List.mem_cons_of_mem _ h)
      · rcases List.mem_cons.mp h with h | h
        · exact .inr (h ▸ List.mem_cons_self)
        · rcases ih h with h | h
          · exact .inl h
          · exact .inr (List.mem_cons_of_mem _ h)

theorem sorted_ins {k : Nat} {v : β} {m : OMap β} (hs : Sorted m) : Sorted (ins k v m) := by
  induction m with
  | nil => simp [ins, Sorted]
  | cons a t ih =>
    obtain ⟨a, b⟩ := a
    simp only [Sorted, List.pairwise_cons] at hs ih
    simp only [ins, Sorted]
    split
    · rename_i hlt
      refine List.pairwise_cons.mpr ⟨?_, List.pairwise_cons.mpr hs⟩
      intro e he
      rcases List.mem_cons.mp he with he | he
      · subst he; exact hlt
      · have := hs.1 e he; simp at this ⊢; omega
    · split
      · subst_vars; exact List.pairwise_cons.mpr hs
      · refine List.pairwise_cons.mpr ⟨?_, ih hs.2⟩
        intro e he
        rcases mem_ins he with he | he
        · subst he; simp; omega
        · exact hs.1 e he

theorem sorted_del {k : Nat} {m : OMap β} (hs : Sorted m) : Sorted (del k m) :=
  List.Pairwise.filter _ hs

theorem length_ins_le (k : Nat) (v : β) (m : OMap β) : (ins k v m).length ≤ m.length + 1 := by
  induction m with
  | nil => simp [ins]
  | cons a t ih => obtain ⟨a, b⟩ := a; simp only [ins]; split <;> (try split) <;> simp <;> omega

theorem keys_nodup {m : OMap β} (hs : Sorted m) : (keys m).Nodup := by
  unfold keys List.Nodup
  rw [List.pairwise_map]
  exact hs.imp (fun h => by omega)

theorem length_del_lt {k : Nat} {m : OMap β} (h : has k m = true) : (del k m).length < m.length := by
  have : k ∈ keys m := mem_keys.mpr h
  obtain ⟨e, he, rfl⟩ := List.mem_map.mp this
  unfold del
  exact List.length_filter_lt_length_iff_exists.mpr ⟨e, he, by simp⟩

end OMap

namespace OSet

def Sorted (s : OSet) : Prop := s.Pairwise (· < ·)

theorem mem_ins {k x : Nat} {s : OSet} : x ∈ ins k s ↔ x = k ∨ x ∈ s := by
  induction s with
  | nil => simp [ins]
  | cons a t ih =>
    simp only [ins]
    split
    · simp
    · split
      · subst_vars; simp
      · simp only [List.mem_cons, ih]; grind

theorem mem_del {k x : Nat} {s : OSet} : x ∈ del k s ↔ x ∈ s ∧ x ≠ k := by
  simp [del]

theorem sorted_ins {k : Nat} {s : OSet} (h : Sorted s) : Sorted (ins k s) := by
  induction s with
  | nil => simp [ins, Sorted]
  | cons a t ih =>
    simp only [Sorted, List.pairwise_cons] at h ih
    simp only [ins, Sorted]
    split
    · refine List.pairwise_cons.mpr ⟨?_, List.pairwise_cons.mpr h⟩
      intro e he
      rcases List.mem_cons.mp he with he | he
      · omega
      · have := h.1 e he; omega
    · split
      · subst_vars; exact List.pairwise_cons.mpr h
      · refine List.pairwise_cons.mpr ⟨?_, ih h.2⟩
        intro e he
        rcases mem_ins.mp he with he | he
        · omega
        · exact h.1 e he

theorem sorted_del {k : Nat} {s : OSet} (h : Sorted s) : Sorted (del k s) := List.Pairwise.filter _ h

theorem first_le {s : OSet} (h : Sorted s) {m x : Nat} (hf : first s = some m) (hx : x ∈ s) : m ≤ x := by
  cases s with
  | nil => cases hx
  | cons a t =>
    simp only [first, List.head?_cons, Option.some.injEq] at hf
    subst hf
    rcases List.mem_cons.mp hx with hx | hx
    · omega
    · have := (List.pairwise_cons.mp h).1 x hx; omega

theorem first_mem {s : OSet} {m : Nat} (hf : first s = some m) : m ∈ s := by
  cases s with
  | nil => cases hf
  | cons a t => simp only [first, List.head?_cons, Option.some.injEq] at hf; subst hf; simp

theorem first_none {s : OSet} : first s = none ↔ s = [] := by cases s <;> simp [first]

theorem nodup {s : OSet} (h : Sorted s) : s.Nodup := h.imp (fun h => by omega)

end OSet
end Emissary
