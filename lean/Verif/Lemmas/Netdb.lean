import Verif.Model.Netdb
import Verif.Lemmas.Bytes
import Verif.Lemmas.OMap
import Mathlib.Data.Nat.Bitwise
/-! Helper lemmas for Props/Netdb. -/
namespace Emissary.Netdb
open Emissary

theorem xor_le_add (a b : Nat) : a ^^^ b ≤ a + b := by
  induction a using Nat.strongRecOn generalizing b with
  | ind a ih =>
    by_cases ha : a = 0
    · subst ha; simp
    · have h1 := ih (a / 2) (by omega) (b / 2)
      have h2 : (a ^^^ b) / 2 = a / 2 ^^^ b / 2 := Nat.xor_div_two
      have h3 := @Nat.xor_mod_two_eq_one a b
      have := Nat.mod_two_eq_zero_or_one (a ^^^ b)
      have := Nat.mod_two_eq_zero_or_one a
      have := Nat.mod_two_eq_zero_or_one b
      by_cases h : (a ^^^ b) % 2 = 1
      · rw [h3] at h
        omega
      · omega

theorem xor_cancel (a b : Nat) : a ^^^ (a ^^^ b) = b := by rw [← Nat.xor_assoc]; simp

theorem unbe_inj {a b : Bytes} (h : a.length = b.length) (e : unbe a = unbe b) : a = b := by
  rw [← be_unbe a, ← be_unbe b, h, e]

theorem unbe_lt32 {a : Bytes} (h : a.length = 32) : unbe a < 2 ^ 256 := by
  have := unbe_lt a
  rw [h] at this
  exact this

theorem distance_lt {a b : Bytes} (ha : a.length = 32) (hb : b.length = 32) : distance a b < 2 ^ 256 :=
  Nat.xor_lt_two_pow (unbe_lt32 ha) (unbe_lt32 hb)

theorem distance_comm (a b : Bytes) : distance a b = distance b a := Nat.xor_comm _ _

theorem distance_eq_zero {a b : Bytes} (h : a.length = b.length) : distance a b = 0 ↔ a = b := by
  constructor
  · intro e
    exact unbe_inj h (Nat.xor_eq_zero_iff.mp e)
  · rintro rfl
    exact Nat.xor_self _

theorem distance_inj {t a b : Bytes} (h : a.length = b.length) (e : distance t a = distance t b) : a = b := by
  apply unbe_inj h
  have : unbe t ^^^ (unbe t ^^^ unbe a) = unbe t ^^^ (unbe t ^^^ unbe b) := congrArg _ e
  rwa [xor_cancel, xor_cancel] at this

/-- Distance to the target in terms of distances to the local key. -/
theorem distance_via (l t r : Bytes) : distance t r = distance l t ^^^ distance l r := by
  unfold distance
  rw [Nat.xor_comm (unbe l) (unbe t), Nat.xor_assoc, xor_cancel]

theorem ilog2_some {d i : Nat} (h : ilog2 d = some i) : 2 ^ i ≤ d ∧ d < 2 ^ (i + 1) := by
  unfold ilog2 at h
  split at h
  · cases h
  · next hd =>
    cases h
    exact ⟨Nat.log2_self_le hd, Nat.lt_log2_self⟩

theorem ilog2_none {d : Nat} (h : ilog2 d = none) : d = 0 := by
  unfold ilog2 at h
  split at h
  · assumption
  · cases h

theorem testBit_log {d i : Nat} (h : 2 ^ i ≤ d ∧ d < 2 ^ (i + 1)) :
    d.testBit i = true ∧ ∀ j, i < j → d.testBit j = false := by
  have hne : d ≠ 0 := by have := Nat.two_pow_pos i; omega
  have hl : d.log2 = i := (Nat.log2_eq_iff hne).mpr h
  refine ⟨hl ▸ Nat.testBit_log2 hne, fun j hj => ?_⟩
  apply Nat.testBit_lt_two_pow
  exact Nat.lt_of_lt_of_le h.2 (Nat.pow_le_pow_right (by omega) hj)

/-- The buckets closer to the target come first: set bits of the distance downwards, then clear bits upwards. -/
def Before (d i j : Nat) : Prop :=
  (d.testBit i = true ∧ d.testBit j = true ∧ j < i) ∨ (d.testBit i = true ∧ d.testBit j = false) ∨
  (d.testBit i = false ∧ d.testBit j = false ∧ i < j)

theorem lt_of_before {d i j e f : Nat} (h : Before d i j) (he : 2 ^ i ≤ e ∧ e < 2 ^ (i + 1)) (hf : 2 ^ j ≤ f ∧ f < 2 ^ (j + 1)) :
    d ^^^ e < d ^^^ f := by
  have ⟨ei, eh⟩ := testBit_log he
  have ⟨fj, fh⟩ := testBit_log hf
  rcases h with ⟨a, b, c⟩ | ⟨a, b⟩ | ⟨a, b, c⟩
  · apply Nat.lt_of_testBit i
    · simp [a, ei]
    · simp [a, fh i c]
    · intro k hk
      simp [eh k hk, fh k (by omega)]
  · rcases Nat.lt_trichotomy i j with hij | hij | hij
    · apply Nat.lt_of_testBit j
      · simp [b, eh j hij]
      · simp [b, fj]
      · intro k hk
        simp [fh k hk, eh k (by omega)]
    · subst hij; simp [a] at b
    · apply Nat.lt_of_testBit i
      · simp [a, ei]
      · simp [a, fh i hij]
      · intro k hk
        simp [eh k hk, fh k (by omega)]
  · apply Nat.lt_of_testBit j
    · simp [b, eh j c]
    · simp [b, fj]
    · intro k hk
      simp [fh k hk, eh k (by omega)]

/-! ### The order of the buckets -/

/-- Set bits below `i`, downwards. -/
def downs (d i : Nat) : List Nat := (List.range i).reverse.filter fun j => d.testBit j
/-- Clear bits above `i`, upwards. -/
def ups (d i : Nat) : List Nat := (List.range' (i + 1) (256 - (i + 1))).filter fun j => !d.testBit j

theorem downs_succ (d i : Nat) : downs d (i + 1) = if d.testBit i then i :: downs d i else downs d i := by
  unfold downs
  rw [List.range_succ, List.reverse_append]
  simp [List.filter_cons]

theorem nextIn_succ (d i : Nat) : nextIn d (i + 1) = if d.testBit i then some i else nextIn d i := by
  unfold nextIn
  rw [List.range_succ, List.reverse_append]
  simp only [List.reverse_cons, List.reverse_nil, List.nil_append, List.singleton_append, List.find?_cons]
  cases d.testBit i <;> rfl

theorem downs_next (d i : Nat) : downs d i = match nextIn d i with | some j => j :: downs d j | none => [] := by
  induction i with
  | zero => rfl
  | succ i ih =>
    rw [downs_succ, nextIn_succ]
    by_cases h : d.testBit i
    · rw [if_pos h, if_pos h]
    · rw [if_neg h, if_neg h, ih]

theorem nextIn_lt {d i j : Nat} (h : nextIn d i = some j) : j < i ∧ d.testBit j = true := by
  unfold nextIn at h
  have h1 := List.mem_of_find?_eq_some h
  have h2 := List.find?_some h
  simp at h1
  exact ⟨h1, h2⟩

theorem nextOut_lt {d i j : Nat} (h : nextOut d i = some j) : i < j ∧ j < 256 ∧ d.testBit j = false := by
  unfold nextOut at h
  have h1 := List.mem_of_find?_eq_some h
  have h2 := List.find?_some h
  simp at h1 h2
  exact ⟨by omega, by omega, h2⟩

theorem ups_step {d i : Nat} (hi : i + 1 < 256) :
    ups d i = if d.testBit (i + 1) then ups d (i + 1) else (i + 1) :: ups d (i + 1) := by
  unfold ups
  rw [show 256 - (i + 1) = 256 - (i + 1 + 1) + 1 by omega, List.range'_succ, List.filter_cons]
  cases d.testBit (i + 1) <;> rfl

theorem nextOut_step {d i : Nat} (hi : i + 1 < 256) :
    nextOut d i = if d.testBit (i + 1) then nextOut d (i + 1) else some (i + 1) := by
  unfold nextOut
  rw [show 256 - (i + 1) = 256 - (i + 1 + 1) + 1 by omega, List.range'_succ, List.find?_cons]
  cases d.testBit (i + 1) <;> rfl

theorem ups_next (d : Nat) (n : Nat) : ∀ i, 256 - i = n →
    ups d i = match nextOut d i with | some j => j :: ups d j | none => [] := by
  induction n with
  | zero =>
    intro i hi
    have : 256 - (i + 1) = 0 := by omega
    simp [ups, nextOut, this]
  | succ n ih =>
    intro i hi
    by_cases h : i + 1 < 256
    · rw [ups_step h, nextOut_step h]
      by_cases hb : d.testBit (i + 1)
      · rw [if_pos hb, if_pos hb]
        exact ih (i + 1) (by omega)
      · rw [if_neg hb, if_neg hb]
    · have : 256 - (i + 1) = 0 := by omega
      simp [ups, nextOut, this]

theorem drain_out (d : Nat) : ∀ fuel i, 256 - i < fuel → IterState.drain d fuel (.zoomOut i) = ups d i := by
  intro fuel
  induction fuel with
  | zero => intro i h; omega
  | succ fuel ih =>
    intro i h
    rw [ups_next d _ i rfl, IterState.drain, IterState.next]
    cases hn : nextOut d i with
    | none => rfl
    | some j =>
      dsimp only
      have := nextOut_lt hn
      rw [ih j (by omega)]

theorem drain_in (d : Nat) : ∀ fuel i, i + 258 < fuel → IterState.drain d fuel (.zoomIn i) = downs d i ++ 0 :: ups d 0 := by
  intro fuel
  induction fuel with
  | zero => intro i h; omega
  | succ fuel ih =>
    intro i h
    rw [downs_next d i, IterState.drain, IterState.next]
    cases hn : nextIn d i with
    | none =>
      dsimp only
      rw [drain_out d fuel 0 (by omega)]
      rfl
    | some j =>
      dsimp only
      have := nextIn_lt hn
      rw [ih j (by omega)]
      rfl

/-- The whole order. -/
theorem visited_eq {d : Nat} (hd : d < 2 ^ 256) :
    visited d = (match ilog2 d with | some i => i | none => 0) ::
      (downs d (match ilog2 d with | some i => i | none => 0) ++ 0 :: ups d 0) := by
  unfold visited IterState.new
  cases h : ilog2 d with
  | none =>
    dsimp only
    rw [IterState.drain, IterState.next]
    dsimp only
    rw [drain_in d _ _ (by omega)]
  | some i =>
    dsimp only
    have hi := (ilog2_some h).1
    have : i < 256 := by
      apply Classical.byContradiction
      intro hc
      have := Nat.pow_le_pow_right (n := 2) (by omega) (Nat.le_of_not_lt hc)
      omega
    rw [IterState.drain, IterState.next]
    dsimp only
    rw [drain_in d _ _ (by omega)]

theorem mem_downs {d i j : Nat} : j ∈ downs d i ↔ j < i ∧ d.testBit j = true := by simp [downs]
theorem mem_ups {d i j : Nat} : j ∈ ups d i ↔ i < j ∧ j < 256 ∧ d.testBit j = false := by
  simp only [ups, List.mem_filter, List.mem_range'_1, Bool.not_eq_true']
  constructor
  · rintro ⟨⟨h1, h2⟩, h3⟩
    exact ⟨by omega, by omega, h3⟩
  · rintro ⟨h1, h2, h3⟩
    exact ⟨⟨by omega, by omega⟩, h3⟩

theorem downs_sorted (d i : Nat) : (downs d i).Pairwise (fun a b => b < a) := by
  unfold downs
  apply List.Pairwise.filter
  rw [List.pairwise_reverse]
  exact List.pairwise_lt_range

theorem ups_sorted (d i : Nat) : (ups d i).Pairwise (· < ·) := by
  unfold ups
  apply List.Pairwise.filter
  exact List.pairwise_lt_range'

/-- Every bucket is visited. -/
theorem mem_visited {d j : Nat} (hd : d < 2 ^ 256) (hj : j < 256) : j ∈ visited d := by
  rw [visited_eq hd]
  by_cases hb : d.testBit j = true
  · cases h : ilog2 d with
    | none => rw [ilog2_none h] at hb; simp at hb
    | some i =>
      dsimp only
      have ⟨_, h2⟩ := testBit_log (ilog2_some h)
      rcases Nat.lt_trichotomy i j with hij | hij | hij
      · rw [h2 j hij] at hb; cases hb
      · subst hij; simp
      · exact List.mem_cons_of_mem _ (List.mem_append_left _ (mem_downs.mpr ⟨hij, hb⟩))
  · by_cases h0 : j = 0
    · subst h0; simp
    · apply List.mem_cons_of_mem
      apply List.mem_append_right
      apply List.mem_cons_of_mem
      exact mem_ups.mpr ⟨by omega, hj, by simpa using hb⟩

/-- The visiting order never goes from a farther bucket to a closer one; only bucket 0 may come twice. -/
theorem visited_ordered {d : Nat} (hd : d < 2 ^ 256) :
    (visited d).Pairwise (fun i j => Before d i j ∨ (i = 0 ∧ j = 0)) := by
  rw [visited_eq hd]
  have h0u : ∀ j ∈ ups d 0, Before d 0 j := by
    intro j hj
    have ⟨a, b, c⟩ := mem_ups.mp hj
    by_cases h : d.testBit 0 = true
    · exact .inr (.inl ⟨h, c⟩)
    · exact .inr (.inr ⟨by simpa using h, c, a⟩)
  have hzu : (0 :: ups d 0).Pairwise (fun i j => Before d i j ∨ (i = 0 ∧ j = 0)) := by
    refine List.pairwise_cons.mpr ⟨fun j hj => .inl (h0u j hj), ?_⟩
    refine (ups_sorted d 0).imp_of_mem ?_
    intro a b ha hb hab
    exact .inl (.inr (.inr ⟨(mem_ups.mp ha).2.2, (mem_ups.mp hb).2.2, hab⟩))
  have hset : ∀ i, d.testBit i = true → ∀ j ∈ 0 :: ups d 0, Before d i j ∨ (i = 0 ∧ j = 0) := by
    intro i hi j hj
    rcases List.mem_cons.mp hj with rfl | hj
    · by_cases h : d.testBit 0 = true
      · by_cases hi0 : i = 0
        · exact .inr ⟨hi0, rfl⟩
        · exact .inl (.inl ⟨hi, h, by omega⟩)
      · exact .inl (.inr (.inl ⟨hi, by simpa using h⟩))
    · exact .inl (.inr (.inl ⟨hi, (mem_ups.mp hj).2.2⟩))
  have hd' : ∀ i, (downs d i).Pairwise (fun i j => Before d i j ∨ (i = 0 ∧ j = 0)) := by
    intro i
    refine (downs_sorted d i).imp_of_mem ?_
    intro a b ha hb hab
    exact .inl (.inl ⟨(mem_downs.mp ha).2, (mem_downs.mp hb).2, hab⟩)
  cases h : ilog2 d with
  | none =>
    have : downs d 0 = [] := rfl
    dsimp only
    rw [this, List.nil_append]
    refine List.pairwise_cons.mpr ⟨?_, hzu⟩
    intro j hj
    rcases List.mem_cons.mp hj with rfl | hj
    · exact .inr ⟨rfl, rfl⟩
    · exact .inl (h0u j hj)
  | some i =>
    dsimp only
    have ⟨hi, _⟩ := testBit_log (ilog2_some h)
    refine List.pairwise_cons.mpr ⟨?_, List.pairwise_append.mpr ⟨hd' i, hzu, fun a ha b hb => hset a (mem_downs.mp ha).2 b hb⟩⟩
    intro j hj
    rcases List.mem_append.mp hj with hj | hj
    · have ⟨a, b⟩ := mem_downs.mp hj
      exact .inl (.inl ⟨hi, b, a⟩)
    · exact hset i hi j hj

/-- Apart from bucket 0 no bucket is visited twice. -/
theorem visited_nodup {d : Nat} (hd : d < 2 ^ 256) (h0 : d ≠ 0) (hb : d.testBit 0 = false) : (visited d).Nodup := by
  have hc : (visited d).Pairwise (fun i j => ¬ (i = 0 ∧ j = 0)) := by
    rw [visited_eq hd]
    have hz : ∀ j ∈ ups d 0, j ≠ 0 := fun j hj => by have := (mem_ups.mp hj).1; omega
    cases h : ilog2 d with
    | none => exact absurd (ilog2_none h) h0
    | some i =>
      dsimp only
      have ⟨hi, _⟩ := testBit_log (ilog2_some h)
      have hi0 : i ≠ 0 := by rintro rfl; rw [hb] at hi; cases hi
      refine List.pairwise_cons.mpr ⟨fun j _ hj => hi0 hj.1, List.pairwise_append.mpr ⟨?_, ?_, ?_⟩⟩
      · refine (downs_sorted d i).imp ?_
        intro a b hab; omega
      · refine List.pairwise_cons.mpr ⟨fun j hj hc => hz j hj hc.2, ?_⟩
        refine (ups_sorted d 0).imp ?_
        intro a b hab; omega
      · intro a ha b _ hc
        have := (mem_downs.mp ha).2
        rw [hc.1, hb] at this
        cases this
  refine (List.Pairwise.and (visited_ordered hd) hc).imp ?_
  rintro a b ⟨h1 | h1, h2⟩ rfl
  · rcases h1 with ⟨_, _, h⟩ | ⟨h, h'⟩ | ⟨_, _, h⟩
    · omega
    · rw [h] at h'; cases h'
    · omega
  · exact h2 h1

/-! ### Sorting -/

theorem insertBy_perm {α : Type} (le : α → α → Bool) (a : α) (l : List α) : List.Perm (insertBy le a l) (a :: l) := by
  induction l with
  | nil => exact List.Perm.refl _
  | cons b t ih =>
    unfold insertBy
    split
    · exact List.Perm.refl _
    · exact (ih.cons b).trans (List.Perm.swap a b t)

theorem sortBy_perm {α : Type} (le : α → α → Bool) (l : List α) : List.Perm (sortBy le l) l := by
  induction l with
  | nil => exact List.Perm.refl _
  | cons a t ih => exact (insertBy_perm le a (sortBy le t)).trans (ih.cons a)

theorem sortBy_pairwise {α : Type} {le : α → α → Bool} (ht : ∀ a b c, le a b = true → le b c = true → le a c = true)
    (htot : ∀ a b, (le a b || le b a) = true) (l : List α) : (sortBy le l).Pairwise (fun a b => le a b = true) := by
  induction l with
  | nil => exact List.Pairwise.nil
  | cons a t ih =>
    show (insertBy le a (sortBy le t)).Pairwise _
    generalize sortBy le t = u at ih
    induction u with
    | nil => simp [insertBy]
    | cons b v ihv =>
      have ⟨h1, h2⟩ := List.pairwise_cons.mp ih
      unfold insertBy
      split
      · next hab =>
        refine List.pairwise_cons.mpr ⟨fun x hx => ?_, ih⟩
        rcases List.mem_cons.mp hx with rfl | hx
        · exact hab
        · exact ht _ _ _ hab (h1 x hx)
      · next hab =>
        refine List.pairwise_cons.mpr ⟨fun x hx => ?_, ihv h2⟩
        rcases List.mem_cons.mp ((insertBy_perm le a v).mem_iff.mp hx) with rfl | hx
        · have := htot x b
          simp only [Bool.or_eq_true] at this
          rcases this with h | h
          · exact absurd h hab
          · exact h
        · exact h1 x hx

/-! ### Buckets -/

theorem mem_closestIter {b : KBucket} {t r : Bytes} : r ∈ b.closestIter t ↔ ∃ f ∈ b, f.key = r := by
  simp [KBucket.closestIter, (sortBy_perm _ b).mem_iff]

theorem closestIter_sorted (b : KBucket) (t : Bytes) :
    (b.closestIter t).Pairwise (fun x y => distance t x ≤ distance t y) := by
  unfold KBucket.closestIter
  rw [List.pairwise_map]
  refine (sortBy_pairwise (le := fun x y : FloodFill => decide (distance t x.key ≤ distance t y.key)) ?_ ?_ b).imp ?_
  · intro x y z h1 h2
    simp only [decide_eq_true_eq] at *
    omega
  · intro x y
    simp only [Bool.or_eq_true, decide_eq_true_eq]
    omega
  · intro x y h
    simpa using h

theorem closestIter_perm (b : KBucket) (t : Bytes) : List.Perm (b.closestIter t) (b.map (·.key)) :=
  (sortBy_perm _ b).map _

theorem lowest_spec {b : KBucket} {m : Int} (h : lowest b = some m) : (∃ f ∈ b, f.score = m) ∧ ∀ f ∈ b, m ≤ f.score := by
  induction b generalizing m with
  | nil => cases h
  | cons f t ih =>
    unfold lowest at h
    cases ht : lowest t with
    | none =>
      rw [ht] at h
      cases h
      cases t with
      | nil => simp
      | cons g u => simp only [lowest] at ht; split at ht <;> cases ht
    | some n =>
      rw [ht] at h
      have ⟨⟨g, hg, e⟩, h2⟩ := ih ht
      simp only [Option.some.injEq] at h
      split at h
      · next hle =>
        subst h
        refine ⟨⟨f, by simp, rfl⟩, fun x hx => ?_⟩
        rcases List.mem_cons.mp hx with rfl | hx
        · exact Int.le_refl _
        · exact Int.le_trans hle (h2 x hx)
      · next hle =>
        subst h
        refine ⟨⟨g, by simp [hg], e⟩, fun x hx => ?_⟩
        rcases List.mem_cons.mp hx with rfl | hx
        · omega
        · exact h2 x hx

theorem replaceFirst_spec {b : KBucket} {m : Int} {k : Bytes} (h : ∃ f ∈ b, f.score = m) :
    ∃ u f v, b = u ++ f :: v ∧ f.score = m ∧ replaceFirst m k b = u ++ { key := k, score := 0 } :: v := by
  induction b with
  | nil => obtain ⟨f, hf, _⟩ := h; cases hf
  | cons g t ih =>
    by_cases hg : g.score = m
    · exact ⟨[], g, t, rfl, hg, by simp [replaceFirst, hg]⟩
    · obtain ⟨f, hf, e⟩ := h
      rcases List.mem_cons.mp hf with rfl | hf
      · exact absurd e hg
      · obtain ⟨u, f', v, h1, h2, h3⟩ := ih ⟨f, hf, e⟩
        exact ⟨g :: u, f', v, by rw [h1]; rfl, h2, by simp [replaceFirst, hg, h3]⟩

/-- What inserting a router does to a bucket. -/
theorem tryInsert_cases (b : KBucket) (k : Bytes) :
    ((∃ f ∈ b, f.key = k) ∧ b.tryInsert k = (b, true)) ∨
    ((∀ f ∈ b, f.key ≠ k) ∧ b.length < 20 ∧ b.tryInsert k = (b ++ [{ key := k }], true)) ∨
    ((∀ f ∈ b, f.key ≠ k) ∧ 20 ≤ b.length ∧ ∃ u f v, b = u ++ f :: v ∧ f.score < 0 ∧ (∀ g ∈ b, f.score ≤ g.score) ∧
      b.tryInsert k = (u ++ { key := k, score := 0 } :: v, true)) ∨
    ((∀ f ∈ b, f.key ≠ k) ∧ 20 ≤ b.length ∧ (∀ f ∈ b, 0 ≤ f.score) ∧ b.tryInsert k = (b, false)) := by
  unfold KBucket.tryInsert
  by_cases h1 : b.any (fun f => f.key == k) = true
  · left
    rw [if_pos h1]
    simp only [List.any_eq_true, beq_iff_eq] at h1
    exact ⟨h1, rfl⟩
  · rw [if_neg h1]
    have h1' : ∀ f ∈ b, f.key ≠ k := by
      intro f hf e
      exact h1 (List.any_eq_true.mpr ⟨f, hf, by simp [e]⟩)
    right
    by_cases h2 : b.length < 20
    · left
      rw [if_pos h2]
      exact ⟨h1', h2, rfl⟩
    · right
      rw [if_neg h2]
      cases hl : lowest b with
      | none =>
        cases b with
        | nil => simp at h2
        | cons g u => simp only [lowest] at hl; split at hl <;> cases hl
      | some m =>
        have ⟨hex, hmin⟩ := lowest_spec hl
        dsimp only
        by_cases h3 : m < 0
        · left
          rw [if_pos h3]
          obtain ⟨u, f, v, e1, e2, e3⟩ := replaceFirst_spec (k := k) hex
          exact ⟨h1', by omega, u, f, v, e1, by omega, fun g hg => by have := hmin g hg; omega, by rw [e3]⟩
        · right
          rw [if_neg h3]
          exact ⟨h1', by omega, fun f hf => by have := hmin f hf; omega, rfl⟩

theorem adjustScore_keys (k : Bytes) (a : Int) (b : KBucket) :
    (KBucket.adjustScore k a b).map (·.key) = b.map (·.key) := by
  induction b with
  | nil => rfl
  | cons f t ih =>
    unfold KBucket.adjustScore
    split <;> simp [ih]

theorem adjustScore_mem {k : Bytes} {a : Int} {b : KBucket} {f : FloodFill} (h : f ∈ KBucket.adjustScore k a b) :
    f ∈ b ∨ (f.key = k ∧ ∃ g ∈ b, g.key = k ∧ f.score = g.score + a) := by
  induction b with
  | nil => cases h
  | cons g t ih =>
    unfold KBucket.adjustScore at h
    split at h
    · next e =>
      rcases List.mem_cons.mp h with rfl | h
      · exact .inr ⟨e, g, by simp, e, rfl⟩
      · exact .inl (List.mem_cons_of_mem _ h)
    · rcases List.mem_cons.mp h with rfl | h
      · exact .inl (by simp)
      · rcases ih h with h | ⟨h1, x, h2, h3⟩
        · exact .inl (List.mem_cons_of_mem _ h)
        · exact .inr ⟨h1, x, List.mem_cons_of_mem _ h2, h3⟩

theorem adjustScore_of_mem {k : Bytes} {a : Int} {b : KBucket} {f : FloodFill} (h : f ∈ b) :
    f ∈ KBucket.adjustScore k a b ∨ (f.key = k ∧ { f with score := f.score + a } ∈ KBucket.adjustScore k a b) := by
  induction b with
  | nil => cases h
  | cons g t ih =>
    unfold KBucket.adjustScore
    split
    · next e =>
      rcases List.mem_cons.mp h with rfl | h
      · exact .inr ⟨e, by simp⟩
      · exact .inl (List.mem_cons_of_mem _ h)
    · rcases List.mem_cons.mp h with rfl | h
      · exact .inl (by simp)
      · rcases ih h with h | ⟨h1, h2⟩
        · exact .inl (List.mem_cons_of_mem _ h)
        · exact .inr ⟨h1, List.mem_cons_of_mem _ h2⟩

/-! ### Tables -/

/-- Every router is filed once, in the bucket its distance to the local router belongs to. -/
structure Table.Inv (t : Table) : Prop where
  len : ∀ i, (t.buckets i).length ≤ 20
  nodup : ∀ i, ((t.buckets i).map (·.key)).Nodup
  filed : ∀ i, ∀ f ∈ t.buckets i, f.key.length = 32 ∧ 2 ^ i ≤ distance t.localKey f.key ∧ distance t.localKey f.key < 2 ^ (i + 1)

theorem Table.inv_new (l : Bytes) : (Table.new l).Inv := by
  constructor <;> intro i <;> simp [Table.new]

theorem Table.inv_set {t : Table} (h : t.Inv) {i : Nat} {b : KBucket} (h1 : b.length ≤ 20) (h2 : (b.map (·.key)).Nodup)
    (h3 : ∀ f ∈ b, f.key.length = 32 ∧ 2 ^ i ≤ distance t.localKey f.key ∧ distance t.localKey f.key < 2 ^ (i + 1)) :
    (t.set i b).Inv := by
  constructor
  · intro j
    simp only [Table.set]
    split
    · exact h1
    · exact h.len j
  · intro j
    simp only [Table.set]
    split
    · exact h2
    · exact h.nodup j
  · intro j f hf
    simp only [Table.set] at hf ⊢
    split at hf
    · next e => subst e; exact h3 f hf
    · exact h.filed j f hf

theorem tryInsert_inv {b : KBucket} {k : Bytes} (h1 : b.length ≤ 20) (h2 : (b.map (·.key)).Nodup) :
    (b.tryInsert k).1.length ≤ 20 ∧ ((b.tryInsert k).1.map (·.key)).Nodup ∧
    ∀ f ∈ (b.tryInsert k).1, f ∈ b ∨ f = { key := k } := by
  rcases tryInsert_cases b k with ⟨_, e⟩ | ⟨a, l, e⟩ | ⟨a, l, u, f, v, e1, _, _, e⟩ | ⟨_, _, _, e⟩
  · rw [e]; exact ⟨h1, h2, fun f hf => .inl hf⟩
  · rw [e]
    refine ⟨by simp; omega, ?_, ?_⟩
    · rw [List.map_append, List.nodup_append]
      refine ⟨h2, by simp, ?_⟩
      intro x hx y hy
      simp at hx hy
      obtain ⟨f, hf, rfl⟩ := hx
      subst hy
      exact a f hf
    · intro f hf
      rcases List.mem_append.mp hf with hf | hf
      · exact .inl hf
      · exact .inr (by simpa using hf)
  · rw [e]
    subst e1
    dsimp only
    refine ⟨by simpa using h1, ?_, ?_⟩
    · rw [List.map_append, List.map_cons] at h2 ⊢
      rw [List.nodup_append] at h2 ⊢
      obtain ⟨n1, n2, n3⟩ := h2
      rw [List.nodup_cons] at n2 ⊢
      refine ⟨n1, ⟨?_, n2.2⟩, ?_⟩
      · intro hk
        obtain ⟨g, hg, e⟩ := List.mem_map.mp hk
        exact a g (by simp [hg]) e
      · intro x hx y hy
        rcases List.mem_cons.mp hy with rfl | hy
        · obtain ⟨g, hg, e'⟩ := List.mem_map.mp hx
          intro hx'
          exact a g (by simp [hg]) (e'.trans hx')
        · exact n3 x hx y (List.mem_cons_of_mem _ hy)
    · intro g hg
      simp only [List.mem_append, List.mem_cons] at hg ⊢
      rcases hg with h | h | h
      · exact .inl (.inl h)
      · exact .inr h
      · exact .inl (.inr (.inr h))
  · rw [e]; exact ⟨h1, h2, fun f hf => .inl hf⟩

theorem Table.inv_add {t : Table} (h : t.Inv) {id : Bytes} (hid : id.length = 32) : (t.addRouter id).Inv := by
  unfold Table.addRouter
  cases hi : ilog2 (distance t.localKey id) with
  | none => exact h
  | some i =>
    dsimp only
    have ⟨a, b, c⟩ := tryInsert_inv (k := id) (h.len i) (h.nodup i)
    refine Table.inv_set h a b fun f hf => ?_
    rcases c f hf with hf | rfl
    · exact h.filed i f hf
    · exact ⟨hid, ilog2_some hi⟩

theorem Table.inv_adjust {t : Table} (h : t.Inv) {id : Bytes} {a : Int} : (t.adjustScore id a).Inv := by
  unfold Table.adjustScore
  cases hi : ilog2 (distance t.localKey id) with
  | none => exact h
  | some i =>
    dsimp only
    refine Table.inv_set h ?_ ?_ fun f hf => ?_
    · have := congrArg List.length (adjustScore_keys id a (t.buckets i))
      simp only [List.length_map] at this
      rw [this]; exact h.len i
    · rw [adjustScore_keys]; exact h.nodup i
    · rcases adjustScore_mem hf with hf | ⟨e, g, hg, e2, _⟩
      · exact h.filed i f hf
      · have := h.filed i g hg
        rw [e2] at this
        rw [e]; exact this

def DhtOp.id : DhtOp → Bytes
  | .add r | .success r | .failure r | .timeout r => r

theorem Table.inv_step {t : Table} (h : t.Inv) {o : DhtOp} (ho : o.id.length = 32) : (t.step o).Inv := by
  cases o
  · exact Table.inv_add h ho
  all_goals exact Table.inv_adjust h

theorem Table.addRouter_local (t : Table) (id : Bytes) : (t.addRouter id).localKey = t.localKey := by
  unfold Table.addRouter
  split <;> rfl
theorem Table.adjustScore_local (t : Table) (id : Bytes) (a : Int) : (t.adjustScore id a).localKey = t.localKey := by
  unfold Table.adjustScore
  split <;> rfl
theorem Table.step_local (t : Table) (o : DhtOp) : (t.step o).localKey = t.localKey := by
  cases o
  · exact Table.addRouter_local _ _
  all_goals exact Table.adjustScore_local _ _ _

theorem Table.inv_run {t : Table} (h : t.Inv) {ops : List DhtOp} (ho : ∀ o ∈ ops, o.id.length = 32) : (t.run ops).Inv := by
  induction ops generalizing t with
  | nil => exact h
  | cons o ops ih => exact ih (Table.inv_step h (ho o (by simp))) (fun x hx => ho x (by simp [hx]))

theorem Table.run_local (t : Table) (ops : List DhtOp) : (t.run ops).localKey = t.localKey := by
  induction ops generalizing t with
  | nil => rfl
  | cons o ops ih => exact (ih (t.step o)).trans (Table.step_local t o)

end Emissary.Netdb
