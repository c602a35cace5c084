import Mathlib.NumberTheory.LucasPrimality
import Mathlib.Tactic.NormNum.Prime
import Mathlib.FieldTheory.Finite.Basic
import Verif.Model.Dsa
/-!
# The order of the DSA group is a prime

A Pratt certificate, checked by the kernel.
-/
namespace Emissary.Dsa

theorem modpowLoop_eq (n : Nat) : ∀ (fuel b e acc : Nat), e < 2 ^ fuel →
    modpowLoop n fuel b e acc % n = acc * b ^ e % n ∧ (acc < n → modpowLoop n fuel b e acc < n) := by
  intro fuel
  induction fuel with
  | zero => intro b e acc h; have : e = 0 := by omega
            subst this; simp [modpowLoop]
  | succ fuel ih =>
    intro b e acc h
    rw [modpowLoop]
    have he : e / 2 < 2 ^ fuel := by rw [Nat.pow_succ] at h; omega
    obtain ⟨h1, h2⟩ := ih (b * b % n) (e / 2) (if e % 2 = 1 then acc * b % n else acc) he
    refine ⟨?_, ?_⟩
    · rw [h1]
      have hsq : (b * b % n) ^ (e / 2) % n = b ^ (2 * (e / 2)) % n := by
        rw [← Nat.pow_mod, Nat.pow_mul, Nat.pow_two]
      split
      · rename_i ho
        have : e = 2 * (e / 2) + 1 := by omega
        rw [Nat.mul_mod, Nat.mod_mod, hsq, ← Nat.mul_mod]
        conv_rhs => rw [this, Nat.pow_succ]
        congr 1
        generalize b ^ (2 * (e / 2)) = x
        rw [Nat.mul_assoc, Nat.mul_comm b x]
      · rename_i ho
        have : e = 2 * (e / 2) := by omega
        rw [Nat.mul_mod, hsq, ← Nat.mul_mod]
        conv_rhs => rw [this]
    · intro ha
      refine h2 ?_
      split
      · exact Nat.mod_lt _ (by omega)
      · exact ha

/-- What `modpow` computes. -/
theorem modpow_eq (b e n : Nat) (hn : 1 < n) : modpow b e n = b ^ e % n := by
  have he : e < 2 ^ (e.log2 + 1) := Nat.lt_log2_self
  obtain ⟨h1, h2⟩ := modpowLoop_eq n (e.log2 + 1) (b % n) e (1 % n) he
  have h3 := h2 (Nat.mod_lt _ (by omega))
  unfold modpow
  rw [← Nat.mod_eq_of_lt h3, h1, Nat.mod_eq_of_lt hn, Nat.one_mul, ← Nat.pow_mod]

theorem pratt (n a : Nat) (fs : List Nat) (hn : 1 < n) (hf : ∀ f ∈ fs, f.Prime) (hprod : fs.prod = n - 1) (h1 : modpow a (n - 1) n = 1)
    (h2 : ∀ f ∈ fs, modpow a ((n - 1) / f) n ≠ 1) : n.Prime := by
  have cast : ∀ e, ((a : ZMod n)) ^ e = 1 ↔ modpow a e n = 1 := by
    intro e
    rw [modpow_eq a e n hn, ← Nat.cast_pow]
    have : ((1 : Nat) : ZMod n) = 1 := Nat.cast_one
    rw [← this, ZMod.natCast_eq_natCast_iff, Nat.ModEq, Nat.mod_eq_of_lt hn]
  refine lucas_primality n a ((cast _).2 h1) ?_
  intro p hp hd
  rw [Ne, cast]
  rw [← hprod] at hd
  obtain ⟨f, hf', hd'⟩ := (Prime.dvd_prod_iff hp.prime).1 hd
  have : p = f := (Nat.prime_dvd_prime_iff_eq hp (hf f hf')).1 hd'
  subst this
  rw [hprod.symm] at *
  exact h2 p hf'

theorem prime1 : (4551737).Prime := by
  refine pratt _ 3 [2, 2, 2, 7, 81281] (by decide) ?_ (by decide) (by decide +kernel) (by decide +kernel)
  intro f hf
  simp only [List.mem_cons, List.not_mem_nil, or_false] at hf
  rcases hf with rfl | rfl | rfl | rfl | rfl <;> norm_num

theorem prime2 : (3379121764000219).Prime := by
  refine pratt _ 3 [2, 3, 3, 3, 3, 173, 26489, 4551737] (by decide) ?_ (by decide) (by decide +kernel) (by decide +kernel)
  intro f hf
  simp only [List.mem_cons, List.not_mem_nil, or_false] at hf
  rcases hf with rfl | rfl | rfl | rfl | rfl | rfl | rfl | rfl <;> first | exact prime1 | norm_num

theorem prime3 : (39294487).Prime := by
  refine pratt _ 6 [2, 3, 3, 7, 11, 28351] (by decide) ?_ (by decide) (by decide +kernel) (by decide +kernel)
  intro f hf
  simp only [List.mem_cons, List.not_mem_nil, or_false] at hf
  rcases hf with rfl | rfl | rfl | rfl | rfl | rfl <;> norm_num

theorem prime4 : (16776624046703).Prime := by
  refine pratt _ 5 [2, 13, 16421, 39294487] (by decide) ?_ (by decide) (by decide +kernel) (by decide +kernel)
  intro f hf
  simp only [List.mem_cons, List.not_mem_nil, or_false] at hf
  rcases hf with rfl | rfl | rfl | rfl <;> first | exact prime3 | norm_num

theorem prime5 : (6173294350465302911).Prime := by
  refine pratt _ 13 [2, 5, 31, 1187, 16776624046703] (by decide) ?_ (by decide) (by decide +kernel) (by decide +kernel)
  intro f hf
  simp only [List.mem_cons, List.not_mem_nil, or_false] at hf
  rcases hf with rfl | rfl | rfl | rfl | rfl <;> first | exact prime4 | norm_num

theorem Q_prime : Q.Prime := by
  refine pratt _ 5 [2, 353, 787, 457, 178781, 3379121764000219, 6173294350465302911] (by decide +kernel) ?_ (by decide +kernel) (by decide +kernel) (by decide +kernel)
  intro f hf
  simp only [List.mem_cons, List.not_mem_nil, or_false] at hf
  rcases hf with rfl | rfl | rfl | rfl | rfl | rfl | rfl <;> first | exact prime2 | exact prime5 | norm_num

/-- The generator has order `Q`. -/
theorem G_order : G ^ Q % P = 1 := by
  rw [← modpow_eq G Q P (by decide +kernel)]
  decide +kernel

end Emissary.Dsa
