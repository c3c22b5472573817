import Verif.Quad.Misc

/-! # Division and square root of special values -/

namespace Verif.Quad
open Verif.Float Verif.Int128 Verif.Math Verif.Math.Spec Verif.Quad.Spec

theorem divtf3_of {x y m : Nat} (h : divMagnitude (b128.abs x) (b128.abs y) = some m) (hm : m < 2 ^ 127) :
    divtf3 x y = some (b128.pack (b128.neg x != b128.neg y) m) := by
  unfold divtf3
  rw [← abs128, ← abs128, h, Option.bind_some, or_sign_xor hm]

theorem divtf3_nan {x y : Nat} (h : NaN b128 x ∨ NaN b128 y ∨ (Infinite b128 x ∧ Infinite b128 y) ∨ (Zero b128 x ∧ Zero b128 y)) :
    ∃ r, divtf3 x y = some r ∧ NaN b128 r := by
  have h' : b128.inf < b128.abs x ∨ b128.inf < b128.abs y ∨ (b128.abs x = b128.inf ∧ b128.abs y = b128.inf) ∨ (b128.abs x = 0 ∧ b128.abs y = 0) := h
  have lx := abs_lt x
  have ly := abs_lt y
  have hp : 0 < b128.inf := by rw [inf128]; omega
  have : ∃ m, divMagnitude (b128.abs x) (b128.abs y) = some m ∧ b128.inf < m ∧ m < 2 ^ 127 := by
    unfold divMagnitude
    simp only
    rw [← inf128]
    by_cases c : b128.inf ≤ b128.abs x
    · rw [if_pos c]
      refine ⟨_, rfl, ?_⟩
      rw [or_bit_quiet]
      split
      · exact or_quiet c lx
      · exact ⟨by omega, lx⟩
    · rw [if_neg c]
      by_cases c1 : b128.abs y = 0
      · rw [if_pos c1]
        refine ⟨_, rfl, ?_⟩
        rw [or_bit_quiet, if_pos (by omega)]
        exact or_quiet (Nat.le_refl _) inf_lt_sign
      · rw [if_neg c1, if_pos (by omega)]
        exact ⟨_, rfl, or_quiet (by omega) ly⟩
  obtain ⟨m, h1, h2, h3⟩ := this
  exact ⟨_, divtf3_of h1 h3, nan_pack h2 h3⟩

/-- Infinite quotients. -/
theorem divtf3_inf {x y : Nat} (h : (Infinite b128 x ∧ Finite b128 y) ∨ (Finite b128 x ∧ ¬ Zero b128 x ∧ Zero b128 y)) :
    divtf3 x y = some (b128.pack (b128.neg x != b128.neg y) b128.inf) := by
  have h' : (b128.abs x = b128.inf ∧ b128.abs y < b128.inf) ∨ (b128.abs x < b128.inf ∧ ¬ b128.abs x = 0 ∧ b128.abs y = 0) := h
  refine divtf3_of ?_ inf_lt_sign
  unfold divMagnitude
  simp only
  rw [← inf128]
  by_cases c : b128.inf ≤ b128.abs x
  · rw [if_pos c, or_bit_quiet, if_neg (by omega)]
    exact congrArg some (by omega)
  · rw [if_neg c, if_pos (by omega), or_bit_quiet, if_neg (by omega)]

/-- Zero quotients. -/
theorem divtf3_zero {x y : Nat} (h : (Zero b128 x ∧ ¬ NaN b128 y ∧ ¬ Zero b128 y) ∨ (Finite b128 x ∧ Infinite b128 y)) :
    divtf3 x y = some (b128.pack (b128.neg x != b128.neg y) 0) := by
  have h' : (b128.abs x = 0 ∧ ¬ b128.inf < b128.abs y ∧ ¬ b128.abs y = 0) ∨ (b128.abs x < b128.inf ∧ b128.abs y = b128.inf) := h
  have hp : 0 < b128.inf := by rw [inf128]; omega
  refine divtf3_of ?_ (Nat.two_pow_pos _)
  unfold divMagnitude
  simp only
  rw [← inf128, if_neg (by omega), if_neg (by omega), if_neg (by omega), if_pos (by omega)]

theorem sqrtl_nan {x : Nat} (hx : Pat b128 x) (h : NaN b128 x ∨ (negative b128 x ∧ ¬ Zero b128 x)) : ∃ r, sqrtl x = some r ∧ NaN b128 r := by
  have hx' : x < 2 ^ 128 := hx
  rw [negative_iff hx, Fmt.neg_iff hx, sign128] at h
  have h' : b128.inf < b128.abs x ∨ (2 ^ 127 ≤ x ∧ ¬ b128.abs x = 0) := h
  rw [abs128, inf128] at h'
  unfold sqrtl
  simp only
  rw [if_neg (by omega), if_neg (by omega)]
  refine ⟨_, rfl, ?_⟩
  show b128.inf < b128.abs _
  rw [abs128, Nat.or_mod_two_pow, inf128]
  have h2 : (0x7FFF * 2 ^ 112 ||| 2 ^ 111) % 2 ^ 127 = 0x7FFF * 2 ^ 112 ||| 2 ^ 111 := by decide
  have h3 : (0x7FFF * 2 ^ 112 ||| 2 ^ 111) > 0x7FFF * 2 ^ 112 := by decide
  rw [h2]
  exact Nat.lt_of_lt_of_le h3 Nat.right_le_or

theorem sqrtl_same {x : Nat} (h : Zero b128 x ∨ x = b128.inf) : sqrtl x = some x := by
  have h' : b128.abs x = 0 ∨ x = b128.inf := h
  rw [abs128, inf128] at h'
  unfold sqrtl
  simp only
  rw [if_pos (by omega)]

end Verif.Quad
