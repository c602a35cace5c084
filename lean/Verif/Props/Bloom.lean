import Verif.Model.Bloom
/-!
# C192: the filter for repeated tunnel messages
-/
namespace Emissary.Bloom

variable (bits : Bytes → List Nat)

/-- How often the filter was aged in a run. -/
def decays (os : List Op) : Nat := os.count .decay

theorem contains_iff (f : List Nat) (b : Bytes) :
    contains bits f b = true ↔ ∀ i ∈ bits b, i ∈ f := by simp [contains]

theorem contains_mono {f g : List Nat} (h : ∀ i ∈ f, i ∈ g) {b : Bytes}
    (hc : contains bits f b = true) : contains bits g b = true := by
  rw [contains_iff] at hc ⊢; exact fun i hi => h i (hc i hi)

theorem run_append (os ps : List Op) (f : Filter) :
    Filter.run bits (os ++ ps) f =
      ((Filter.run bits ps (Filter.run bits os f).1).1,
        (Filter.run bits os f).2 ++ (Filter.run bits ps (Filter.run bits os f).1).2) := by
  induction os generalizing f with
  | nil => rfl
  | cons o os ih => simp only [List.cons_append, Filter.run, ih, List.append_assoc]

/-- `b` is in the current half. -/
def Fresh (f : Filter) (b : Bytes) : Prop := contains bits f.current b = true

/-- `b` is in either half. -/
def Known (f : Filter) (b : Bytes) : Prop :=
  contains bits f.current b = true ∨ contains bits f.previous b = true

theorem insert_mono (f : Filter) (c : Bytes) :
    (∀ i ∈ f.current, i ∈ (f.insert bits c).2.current) ∧
      (f.insert bits c).2.previous = f.previous := by
  unfold Filter.insert; split
  · exact ⟨fun i hi => hi, rfl⟩
  · exact ⟨fun i hi => List.mem_append_right _ hi, rfl⟩

theorem fresh_run {b : Bytes} (os : List Op) (hd : decays os = 0) (f : Filter)
    (h : Fresh bits f b) : Fresh bits (Filter.run bits os f).1 b := by
  induction os generalizing f with
  | nil => exact h
  | cons o os ih =>
    cases o with
    | decay => simp [decays] at hd
    | insert c =>
      exact ih (by simpa [decays] using hd) _ (contains_mono bits (insert_mono bits f c).1 h)

theorem known_run {b : Bytes} (os : List Op) (hd : decays os = 0) (f : Filter)
    (h : Known bits f b) : Known bits (Filter.run bits os f).1 b := by
  induction os generalizing f with
  | nil => exact h
  | cons o os ih =>
    cases o with
    | decay => simp [decays] at hd
    | insert c =>
      refine ih (by simpa [decays] using hd) _ ?_
      rcases h with h | h
      · exact .inl (contains_mono bits (insert_mono bits f c).1 h)
      · right; show contains bits (f.insert bits c).2.previous b = true
        rw [(insert_mono bits f c).2]; exact h

theorem split_decay : (os : List Op) → decays os = 1 →
    ∃ a b, os = a ++ .decay :: b ∧ decays a = 0 ∧ decays b = 0
  | [], h => by simp [decays] at h
  | .decay :: os, h => ⟨[], os, rfl, rfl, by simpa [decays] using h⟩
  | .insert c :: os, h => by
    obtain ⟨a, b, e, ha, hb⟩ := split_decay os (by simpa [decays] using h)
    exact ⟨.insert c :: a, b, by rw [e]; rfl, by simpa [decays] using ha, hb⟩

theorem insert_refused (f : Filter) (b : Bytes) (h : Known bits f b) :
    (f.insert bits b).1 = false := by
  unfold Filter.insert Known at *; rw [if_pos (by simpa using h)]

theorem fresh_insert (f : Filter) (b : Bytes) (h : (f.insert bits b).1 = true) :
    Fresh bits (f.insert bits b).2 b := by
  unfold Filter.insert at h ⊢
  split at h
  · cases h
  · next hn => rw [if_neg hn]; exact (contains_iff bits _ _).2 (fun i hi => List.mem_append_left _ hi)

/-- **C192**: a message let through once is recognised whenever it comes back before the filter has
been aged twice, whatever came in between. -/
theorem C192_repeat (f : Filter) (b : Bytes) (h : (f.insert bits b).1 = true) (os : List Op)
    (hd : decays os ≤ 1) :
    ((Filter.run bits os (f.insert bits b).2).1.insert bits b).1 = false := by
  apply insert_refused
  have h0 := fresh_insert bits f b h
  rcases Nat.lt_or_ge (decays os) 1 with h1 | h1
  · exact .inl (fresh_run bits os (by omega) _ h0)
  · obtain ⟨p, q, e, hp, hq⟩ := split_decay os (by omega)
    rw [e, run_append]
    exact known_run bits q hq _ (.inr (fresh_run bits p hp _ h0))

theorem decay_twice (f : Filter) (os : List Op) (hos : os = [.decay, .decay]) :
    (Filter.run bits os f).1 = {} := by subst hos; rfl

/-- **C192**: aged twice with nothing in between it has forgotten everything: a message that comes
back then is let through again (if the hash names any bit at all). -/
theorem C192_forgets (f : Filter) (b : Bytes) (hb : bits b ≠ []) :
    ((Filter.run bits [.decay, .decay] f).1.insert bits b).1 = true := by
  rw [decay_twice bits f _ rfl]
  unfold Filter.insert
  rw [if_neg]
  match h : bits b, hb with
  | i :: l, _ => simp [contains, h]

/-- How many bits are set. -/
def load (f : List Nat) : Nat := (List.range width).countP fun i => decide (i ∈ f)

theorem load_le (f : List Nat) : load f ≤ width := by
  have := List.countP_le_length (p := fun i => decide (i ∈ f)) (l := List.range width)
  simpa [load] using this

theorem countP_lt {p q : Nat → Bool} (l : List Nat) (h : ∀ i ∈ l, p i = true → q i = true)
    (x : Nat) (hx : x ∈ l) (h1 : p x = false) (h2 : q x = true) : l.countP p < l.countP q := by
  induction l with
  | nil => cases hx
  | cons a l ih =>
    have hm := List.countP_mono_left (l := l) (p := p) (q := q)
      (fun i hi => h i (List.mem_cons_of_mem _ hi))
    rw [List.countP_cons, List.countP_cons]
    rcases List.mem_cons.1 hx with e | hx'
    · subst e; simp only [h1, h2, if_true]; simp; omega
    · have := ih (fun i hi => h i (List.mem_cons_of_mem _ hi)) hx'
      by_cases ha : p a = true
      · simp only [ha, h a List.mem_cons_self ha, if_true]; omega
      · simp only [ha]; simp; omega

theorem load_insert (hb : ∀ b, ∀ i ∈ bits b, i < width) (f : Filter) (b : Bytes)
    (h : (f.insert bits b).1 = true) : load f.current < load (f.insert bits b).2.current := by
  unfold Filter.insert at h ⊢
  split at h
  · cases h
  · next hn =>
    rw [if_neg hn]
    have hc : ¬ contains bits f.current b = true := by
      intro hc; apply hn; simp [hc]
    rw [contains_iff] at hc
    have ⟨i, hi, hf⟩ : ∃ i, i ∈ bits b ∧ i ∉ f.current := by
      apply Classical.byContradiction; intro hcon
      exact hc fun i hi => Classical.byContradiction fun hf => hcon ⟨i, hi, hf⟩
    refine countP_lt (List.range width) (fun j _ hj => ?_) i (List.mem_range.2 (hb b i hi)) ?_ ?_
    · simp only [decide_eq_true_eq] at hj ⊢; exact List.mem_append_right _ hj
    · simpa using hf
    · simpa using Or.inl hi

theorem load_run (hb : ∀ b, ∀ i ∈ bits b, i < width) (os : List Op) (hd : decays os = 0)
    (f : Filter) :
    load f.current + ((Filter.run bits os f).2.filter (·.2)).length ≤
      load (Filter.run bits os f).1.current := by
  induction os generalizing f with
  | nil => simp [Filter.run]
  | cons o os ih =>
    cases o with
    | decay => simp [decays] at hd
    | insert c =>
      have h1 := ih (by simpa [decays] using hd) (f.insert bits c).2
      have h2 : (Filter.run bits (.insert c :: os) f) =
          ((Filter.run bits os (f.insert bits c).2).1,
            (c, (f.insert bits c).1) :: (Filter.run bits os (f.insert bits c).2).2) := rfl
      rw [h2]
      simp only [List.filter_cons]
      cases hc : (f.insert bits c).1 with
      | true =>
        have := load_insert bits hb f c hc
        simp only [if_true, List.length_cons]; omega
      | false =>
        have : (f.insert bits c).2 = f := by
          unfold Filter.insert at hc ⊢; split
          · rfl
          · next hn => rw [if_neg hn] at hc; cases hc
        rw [this] at h1 ⊢
        simpa using h1

/-- **C192**, violated: new messages are not always let through. Between two agings the filter lets
through at most 2048, whatever they are and however many come; all others are dropped as repeats. -/
theorem C192_capacity_violated (hb : ∀ b, ∀ i ∈ bits b, i < width) (os : List Op)
    (hd : decays os = 0) (f : Filter) :
    ((Filter.run bits os f).2.filter (·.2)).length ≤ 2048 := by
  have h1 := load_run bits hb os hd f
  have h2 := load_le (Filter.run bits os f).1.current
  simp only [width] at h2; omega

/-- **C192**, partial: a new message is let through as long as one of its bits is set in neither
half. -/
theorem C192_new_partial (f : Filter) (b : Bytes) (i j : Nat) (hi : i ∈ bits b) (hj : j ∈ bits b)
    (h1 : i ∉ f.current) (h2 : j ∉ f.previous) : (f.insert bits b).1 = true := by
  unfold Filter.insert
  rw [if_neg]
  simp only [Bool.or_eq_true, contains_iff, not_or]
  exact ⟨fun h => h1 (h i hi), fun h => h2 (h j hj)⟩

/-- A hash for the examples: the first byte names the bit. -/
def sampleBits (b : Bytes) : List Nat := [(b.headD 0).toNat, 256]

example : (Filter.run sampleBits [.insert [1], .insert [2], .decay, .insert [1], .decay, .insert [3],
    .insert [1]] {}).2 = [([1], true), ([2], true), ([1], false), ([3], true), ([1], true)] := by
  decide +kernel
example := C192_repeat sampleBits {} [1] (by decide) [.insert [2], .decay, .insert [3]] (by decide)
example := C192_forgets sampleBits { current := [1, 256] } [1] (by decide)
example : ∀ b, ∀ i ∈ sampleBits b, i < width := by
  intro b i hi
  simp only [sampleBits, List.mem_cons, List.not_mem_nil, or_false] at hi
  have : (b.headD 0).toNat < 256 := UInt8.toNat_lt _
  simp only [width]; omega

end Emissary.Bloom
