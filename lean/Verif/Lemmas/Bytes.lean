import Verif.Model.Bytes
/-! Helper lemmas about byte buffers and parsers. -/
namespace Emissary

@[simp] theorem be_length (k n : Nat) : (be k n).length = k := by
  induction k with
  | zero => rfl
  | succ k ih => simp [be, ih]

theorem unbe_be (k n : Nat) : unbe (be k n) = n % 256 ^ k := by
  induction k with
  | zero => simp [be, unbe, Nat.mod_one]
  | succ k ih =>
    simp only [be, unbe, be_length, ih, UInt8.toNat_ofNat', Nat.reducePow]
    have h1 : n % 256 ^ (k+1) = 256 ^ k * ((n / 256 ^ k) % 256) + n % 256 ^ k := by
      rw [Nat.pow_succ, Nat.mod_mul]; omega
    rw [h1, Nat.mul_comm]

theorem unbe_lt (l : Bytes) : unbe l < 256 ^ l.length := by
  induction l with
  | nil => simp [unbe]
  | cons b bs ih =>
    simp only [unbe, List.length_cons, Nat.pow_succ]
    have hb : b.toNat < 256 := UInt8.toNat_lt b
    have : b.toNat * 256 ^ bs.length ≤ 255 * 256 ^ bs.length := Nat.mul_le_mul_right _ (by omega)
    omega

theorem be_unbe (l : Bytes) : be l.length (unbe l) = l := by
  induction l with
  | nil => rfl
  | cons b bs ih =>
    simp only [List.length_cons, be, unbe]
    have hlt := unbe_lt bs
    have hpos : 0 < 256 ^ bs.length := Nat.pow_pos (by decide)
    congr 1
    · have : (b.toNat * 256 ^ bs.length + unbe bs) / 256 ^ bs.length = b.toNat := by
        rw [Nat.add_comm, Nat.add_mul_div_right _ _ hpos, Nat.div_eq_of_lt hlt]; omega
      rw [this]; simp
    · suffices h : ∀ k m n, m % 256 ^ k = n % 256 ^ k → be k m = be k n by
        rw [h bs.length _ (unbe bs), ih]
        simp [Nat.add_mod]
      intro k
      induction k with
      | zero => intros; rfl
      | succ k ihk =>
        intro m n h
        simp only [be]
        have hk : m % 256 ^ k = n % 256 ^ k := by
          have := congrArg (· % 256 ^ k) h
          simpa [Nat.pow_succ, Nat.mod_mul_right_mod] using this
        congr 1
        · apply UInt8.toNat_inj.mp
          simp only [UInt8.toNat_ofNat', Nat.reducePow]
          have e1 : m % 256 ^ (k+1) = m % 256 ^ k + 256 ^ k * ((m / 256 ^ k) % 256) := by
            rw [Nat.pow_succ, Nat.mod_mul]
          have e2 : n % 256 ^ (k+1) = n % 256 ^ k + 256 ^ k * ((n / 256 ^ k) % 256) := by
            rw [Nat.pow_succ, Nat.mod_mul]
          have hp : 0 < 256 ^ k := Nat.pow_pos (by decide)
          have : 256 ^ k * ((m / 256 ^ k) % 256) = 256 ^ k * ((n / 256 ^ k) % 256) := by omega
          exact Nat.eq_of_mul_eq_mul_left hp this
        · exact ihk m n hk

@[simp] theorem beU_be (k n : Nat) (r : Bytes) : beU k (be k n ++ r) = some (n % 256 ^ k, r) := by
  simp [beU, unbe_be]

theorem beU_be_nil (k n : Nat) : beU k (be k n) = some (n % 256 ^ k, []) := by
  simpa using beU_be k n []

theorem beU_be_lt {k n : Nat} (h : n < 256 ^ k) (r : Bytes) : beU k (be k n ++ r) = some (n, r) := by
  simp [Nat.mod_eq_of_lt h]

theorem takeN_append {k : Nat} {l : Bytes} (h : l.length = k) (r : Bytes) :
    takeN k (l ++ r) = some (l, r) := by
  subst h; simp [takeN]

theorem takeN_all {k : Nat} {l : Bytes} (h : l.length = k) : takeN k l = some (l, []) := by
  simpa using takeN_append h []

/-- Whatever a fixed-width integer parser accepts is the prefix it consumed. -/
theorem beU_some {k : Nat} {i r : Bytes} {n : Nat} (h : beU k i = some (n, r)) :
    i = be k n ++ r ∧ n < 256 ^ k := by
  unfold beU at h
  split at h
  · rename_i hk
    simp only [Option.some.injEq, Prod.mk.injEq] at h
    obtain ⟨rfl, rfl⟩ := h
    have hl : (i.take k).length = k := by simp; omega
    constructor
    · conv => rhs; rw [← hl]
      rw [show (List.take (List.take k i).length i) = i.take k by rw [hl], be_unbe, hl,
        List.take_append_drop]
    · have := unbe_lt (i.take k); rwa [hl] at this
  · cases h

theorem takeN_some {k : Nat} {i l r : Bytes} (h : takeN k i = some (l, r)) :
    i = l ++ r ∧ l.length = k := by
  unfold takeN at h
  split at h
  · simp only [Option.some.injEq, Prod.mk.injEq] at h
    obtain ⟨rfl, rfl⟩ := h
    simp; omega
  · cases h

end Emissary
