/-!
# Bit operations as arithmetic (shared lemmas)
-/

namespace Verif

theorem shl_or (x y k : Nat) (h : y < 2 ^ k) : (x <<< k ||| y) = x * 2 ^ k + y := by
  rw [Nat.shiftLeft_eq, Nat.mul_comm, Nat.two_pow_add_eq_or_of_lt h]

theorem mul_or (x y k : Nat) (h : y < 2 ^ k) : (x * 2 ^ k ||| y) = x * 2 ^ k + y := by
  rw [Nat.mul_comm, Nat.two_pow_add_eq_or_of_lt h]

theorem or_mul (x y k : Nat) (h : y < 2 ^ k) : (y ||| x * 2 ^ k) = x * 2 ^ k + y := by
  rw [Nat.or_comm, mul_or x y k h]

/-- Shifting left by `k` inside a word of `k + m` bits keeps the low `m` bits. -/
theorem shl_mod (x k m : Nat) : (x <<< k) % 2 ^ (k + m) = (x % 2 ^ m) * 2 ^ k := by
  rw [Nat.shiftLeft_eq, Nat.mul_comm, Nat.pow_add, Nat.mul_mod_mul_left, Nat.mul_comm]

theorem shl_mod_or (x y k m : Nat) (h : y < 2 ^ k) :
    ((x <<< k) % 2 ^ (k + m) ||| y) = (x % 2 ^ m) * 2 ^ k + y := by
  rw [shl_mod, mul_or _ _ _ h]

theorem and_mask (x k : Nat) : x &&& (2 ^ k - 1) = x % 2 ^ k := Nat.and_two_pow_sub_one_eq_mod x k

theorem log2_bounds {x : Nat} (h : x ≠ 0) : 2 ^ Nat.log2 x ≤ x ∧ x < 2 ^ (Nat.log2 x + 1) :=
  ⟨Nat.log2_self_le h, Nat.lt_log2_self⟩

theorem log2_lt {x k : Nat} (h : x ≠ 0) (hk : x < 2 ^ k) : Nat.log2 x < k := (Nat.log2_lt h).2 hk

theorem log2_unique {x k : Nat} (h1 : 2 ^ k ≤ x) (h2 : x < 2 ^ (k + 1)) : Nat.log2 x = k := by
  have hx : x ≠ 0 := by
    have := Nat.two_pow_pos k
    omega
  have a := log2_lt hx h2
  have b := (Nat.le_log2 hx).2 h1
  omega

theorem and_two_pow (n i : Nat) : n &&& 2 ^ i = if n / 2 ^ i % 2 = 1 then 2 ^ i else 0 := by
  apply Nat.eq_of_testBit_eq
  intro j
  rw [Nat.testBit_and, Nat.testBit_two_pow]
  by_cases h : i = j
  · subst h
    rw [Nat.testBit_eq_decide_div_mod_eq]
    split <;> rename_i h <;> simp [h]
  · simp only [h, decide_false, Bool.and_false]
    split
    · rw [Nat.testBit_two_pow]; simp [h]
    · simp

end Verif
