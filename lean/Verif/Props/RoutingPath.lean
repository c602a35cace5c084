import Verif.Model.RoutingPath
import Mathlib.Data.List.Induction
/-!
# Routing paths
-/
namespace Emissary.RPath
open Emissary.I2np (Duration)

/-! ## Specification -/

/-- How good a tunnel is for sending: healthy, about to expire, or found faulty by the owner; 0: not to be used. -/
def Kind.outScore (now : Duration) : Kind → Nat
  | .outbound => 3
  | .expiringOut e => if now + 30 * 1000000000 < e then 2 else 0
  | .failingOut none => 1
  | .failingOut (some e) => if now + 30 * 1000000000 < e then 1 else 0
  | .inbound _ => 0
  | .failingIn _ => 0

/-- How good a lease is: at least 30 seconds must be left. -/
def Kind.inScore (now : Duration) : Kind → Nat
  | .inbound e => if now + 30 * 1000000000 < e then 2 else 0
  | .failingIn e => if now + 30 * 1000000000 < e then 1 else 0
  | _ => 0

/-- When a lease expires. -/
def Kind.leaseEnd : Kind → Option Duration
  | .inbound e => some e
  | .failingIn e => some e
  | _ => none

def Kind.isIn (k : Kind) : Bool := k.leaseEnd.isSome

/-! ## The choice -/

theorem pick_mem {α : Type} {l : List α} {r : Nat} {x : α} (h : pick l r = some x) : x ∈ l := List.mem_of_getElem? h

theorem pick_some {α : Type} {l : List α} (h : l ≠ []) (r : Nat) : ∃ x, pick l r = some x := by
  have hl : 0 < l.length := List.length_pos_iff.mpr h
  exact ⟨_, List.getElem?_eq_getElem (Nat.mod_lt r hl)⟩

theorem pick_any {α : Type} {l : List α} {x : α} (h : x ∈ l) : ∃ r, pick l r = some x := by
  obtain ⟨i, hi, rfl⟩ := List.mem_iff_getElem.mp h
  exact ⟨i, by rw [pick, Nat.mod_eq_of_lt hi, List.getElem?_eq_getElem hi]⟩

/-- The tunnels with a score. -/
theorem mem_level {t : AMap Nat Kind} (ht : t.Ok) {β : Type} (f : Nat × Kind → Option β) (y : β) : y ∈ t.filterMap f ↔ ∃ id k, t.get id = some k ∧ f (id, k) = some y := by
  simp only [List.mem_filterMap, Prod.exists]
  constructor
  · rintro ⟨id, k, h, e⟩; exact ⟨id, k, AMap.mem_get ht h, e⟩
  · rintro ⟨id, k, h, e⟩; exact ⟨id, k, AMap.get_mem h, e⟩

/-- C51: the outbound tunnel that is picked is usable, and none is better. -/
theorem C51_outbound_choice {t : AMap Nat Kind} (ht : t.Ok) (now : Duration) (r : Nat) :
    match selectOut t now r with
    | some o => ∃ k, t.get o = some k ∧ 0 < k.outScore now ∧ ∀ id k', t.get id = some k' → k'.outScore now ≤ k.outScore now
    | none => ∀ id k, t.get id = some k → k.outScore now = 0 := by
  unfold selectOut
  dsimp only
  have L := fun f y => mem_level ht (β := Nat) f y
  generalize h1 : t.filterMap _ = l1
  generalize h2 : t.filterMap _ = l2
  generalize h3 : t.filterMap _ = l3
  have m1 : ∀ y, y ∈ l1 ↔ t.get y = some .outbound := by
    intro y
    rw [← h1, L]
    constructor
    · rintro ⟨id, k, hk, e⟩; cases k <;> simp at e; subst e; exact hk
    · intro h; exact ⟨y, _, h, rfl⟩
  have m2 : ∀ y, y ∈ l2 ↔ ∃ e, t.get y = some (.expiringOut e) ∧ now + 30 * 1000000000 < e := by
    intro y
    rw [← h2, L]
    constructor
    · rintro ⟨id, k, hk, e⟩
      cases k <;> simp at e
      obtain ⟨e1, rfl⟩ := e
      exact ⟨_, hk, e1⟩
    · rintro ⟨e, h, he⟩; exact ⟨y, _, h, if_pos he⟩
  have m3 : ∀ y, y ∈ l3 ↔ ∃ k, t.get y = some k ∧ k.outScore now = 1 := by
    intro y
    rw [← h3, L]
    constructor
    · rintro ⟨id, k, hk, e⟩
      cases k with
      | failingOut x =>
        cases x with
        | none => simp at e; subst e; exact ⟨_, hk, rfl⟩
        | some x => simp at e; obtain ⟨e1, rfl⟩ := e; exact ⟨_, hk, if_pos e1⟩
      | _ => simp at e
    · rintro ⟨k, h, he⟩
      refine ⟨y, k, h, ?_⟩
      cases k with
      | failingOut x =>
        cases x with
        | none => rfl
        | some x =>
          simp only [Kind.outScore] at he
          split at he
          · rename_i hx; exact if_pos hx
          · cases he
      | expiringOut e => simp only [Kind.outScore] at he; split at he <;> omega
      | _ => simp [Kind.outScore] at he
  have le3 : ∀ k : Kind, k.outScore now ≤ 3 := by
    intro k; cases k with
    | failingOut x => cases x <;> simp only [Kind.outScore] <;> (try split) <;> omega
    | _ => simp only [Kind.outScore] <;> (try split) <;> omega
  have is3 : ∀ k : Kind, k.outScore now = 3 → k = .outbound := by
    intro k; cases k with
    | failingOut x => cases x <;> simp only [Kind.outScore] <;> (try split) <;> simp
    | _ => simp only [Kind.outScore] <;> (try split) <;> simp
  have is2 : ∀ k : Kind, k.outScore now = 2 → ∃ e, k = .expiringOut e ∧ now + 30 * 1000000000 < e := by
    intro k; cases k with
    | failingOut x => cases x <;> simp only [Kind.outScore] <;> (try split) <;> simp
    | expiringOut e =>
      simp only [Kind.outScore]; split
      · rename_i h; intro _; exact ⟨e, rfl, h⟩
      · simp
    | _ => simp only [Kind.outScore] <;> (try split) <;> simp
  have no3 : l1 = [] → ∀ id k, t.get id = some k → k.outScore now ≤ 2 := by
    intro hl id k hk
    have := le3 k
    by_cases h : k.outScore now = 3
    · have := (m1 id).mpr (is3 k h ▸ hk); rw [hl] at this; cases this
    · omega
  have no2 : l1 = [] → l2 = [] → ∀ id k, t.get id = some k → k.outScore now ≤ 1 := by
    intro hl hl2 id k hk
    have := no3 hl id k hk
    by_cases h : k.outScore now = 2
    · obtain ⟨e, rfl, he⟩ := is2 k h
      have := (m2 id).mpr ⟨e, hk, he⟩; rw [hl2] at this; cases this
    · omega
  split
  · rename_i o ho
    split at ho
    · have := (m1 o).mp (pick_mem ho)
      exact ⟨_, this, by simp [Kind.outScore], fun id k' _ => by simpa [Kind.outScore] using le3 k'⟩
    · rename_i hl1
      rw [Classical.not_not] at hl1
      split at ho
      · obtain ⟨e, h1, h2⟩ := (m2 o).mp (pick_mem ho)
        have hs : (Kind.expiringOut e).outScore now = 2 := if_pos h2
        exact ⟨_, h1, by rw [hs]; omega, fun id k' hk => by rw [hs]; exact no3 hl1 id k' hk⟩
      · rename_i hl2
        rw [Classical.not_not] at hl2
        obtain ⟨k, h1, h2⟩ := (m3 o).mp (pick_mem ho)
        exact ⟨k, h1, by omega, fun id k' hk => by rw [h2]; exact no2 hl1 hl2 id k' hk⟩
  · rename_i ho
    split at ho
    · rename_i h; obtain ⟨x, hx⟩ := pick_some h r; rw [hx] at ho; cases ho
    · rename_i hl1
      rw [Classical.not_not] at hl1
      split at ho
      · rename_i h; obtain ⟨x, hx⟩ := pick_some h r; rw [hx] at ho; cases ho
      · rename_i hl2
        rw [Classical.not_not] at hl2
        intro id k hk
        have := no2 hl1 hl2 id k hk
        by_cases h : k.outScore now = 1
        · have hm := (m3 id).mpr ⟨k, hk, h⟩
          obtain ⟨x, hx⟩ := pick_some (List.ne_nil_of_mem hm) r; rw [hx] at ho; cases ho
        · omega

/-- C51: the lease that is picked has at least 30 seconds left, and none is better. -/
theorem C51_lease_choice {t : AMap Nat Kind} (ht : t.Ok) (now : Duration) (r : Nat) :
    match selectIn t now r with
    | some (i, e) => ∃ k, t.get i = some k ∧ k.leaseEnd = some e ∧ now + 30 * 1000000000 < e ∧ ∀ id k', t.get id = some k' → k'.inScore now ≤ k.inScore now
    | none => ∀ id k, t.get id = some k → k.inScore now = 0 := by
  unfold selectIn
  dsimp only
  have L := fun f y => mem_level ht (β := Nat × Duration) f y
  generalize h1 : t.filterMap _ = l1
  generalize h2 : t.filterMap _ = l2
  have m1 : ∀ y, y ∈ l1 ↔ t.get y.1 = some (.inbound y.2) ∧ now + 30 * 1000000000 < y.2 := by
    intro y
    rw [← h1, L]
    constructor
    · rintro ⟨id, k, hk, e⟩
      cases k <;> simp at e
      obtain ⟨e1, rfl⟩ := e
      exact ⟨hk, e1⟩
    · rintro ⟨h, he⟩; exact ⟨y.1, _, h, if_pos he⟩
  have m2 : ∀ y, y ∈ l2 ↔ t.get y.1 = some (.failingIn y.2) ∧ now + 30 * 1000000000 < y.2 := by
    intro y
    rw [← h2, L]
    constructor
    · rintro ⟨id, k, hk, e⟩
      cases k <;> simp at e
      obtain ⟨e1, rfl⟩ := e
      exact ⟨hk, e1⟩
    · rintro ⟨h, he⟩; exact ⟨y.1, _, h, if_pos he⟩
  have le2 : ∀ k : Kind, k.inScore now ≤ 2 := by
    intro k; cases k <;> simp only [Kind.inScore] <;> (try split) <;> omega
  have no2 : l1 = [] → ∀ id k, t.get id = some k → k.inScore now ≤ 1 := by
    intro hl id k hk
    cases k with
    | inbound e =>
      simp only [Kind.inScore]
      split
      · rename_i h; have := (m1 (id, e)).mpr ⟨hk, h⟩; rw [hl] at this; cases this
      · omega
    | _ => simp only [Kind.inScore] <;> (try split) <;> omega
  split
  · rename_i i e ho
    split at ho
    · obtain ⟨h, h'⟩ := (m1 _).mp (pick_mem ho)
      have hs : (Kind.inbound e).inScore now = 2 := if_pos h'
      exact ⟨_, h, rfl, h', fun id k' _ => by rw [hs]; exact le2 k'⟩
    · rename_i hl1
      rw [Classical.not_not] at hl1
      obtain ⟨h, h'⟩ := (m2 _).mp (pick_mem ho)
      have hs : (Kind.failingIn e).inScore now = 1 := if_pos h'
      exact ⟨_, h, rfl, h', fun id k' hk => by rw [hs]; exact no2 hl1 id k' hk⟩
  · rename_i ho
    split at ho
    · rename_i h; obtain ⟨x, hx⟩ := pick_some h r; rw [hx] at ho; cases ho
    · rename_i hl1
      rw [Classical.not_not] at hl1
      intro id k hk
      cases k with
      | failingIn e =>
        simp only [Kind.inScore]
        split
        · rename_i h
          have hm := (m2 (id, e)).mpr ⟨hk, h⟩
          obtain ⟨x, hx⟩ := pick_some (List.ne_nil_of_mem hm) r; rw [hx] at ho; cases ho
        · rfl
      | inbound e => have := no2 hl1 id _ hk; simp only [Kind.inScore] at this ⊢; split <;> rename_i h <;> simp_all
      | _ => rfl

end Emissary.RPath
