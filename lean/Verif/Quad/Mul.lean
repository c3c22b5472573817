import Verif.Quad.Round
import Verif.Math.Step
import Verif.Int128.FloatConv

/-! # Multiplication of `long double` -/

namespace Verif.Quad
open Verif.Float Verif.Int128 Verif.Math

theorem good_ldbl : ldbl.Good := by constructor <;> first | exact ok128 | decide

theorem sign128 : b128.signBit = 2 ^ 127 := rfl
theorem inf128 : b128.inf = 0x7FFF * 2 ^ 112 := by decide

theorem neg_bit (x : Nat) : b128.neg x = x.testBit 127 := Fmt.neg_testBit x

/-- The sign of a product or quotient. -/
theorem or_sign_xor {x y m : Nat} (hm : m < 2 ^ 127) :
    m ||| ((x ^^^ y) &&& 2 ^ 127) = b128.pack (b128.neg x != b128.neg y) m := by
  have ht : ((x ^^^ y) &&& 2 ^ 127) = if (x.testBit 127 != y.testBit 127) then 2 ^ 127 else 0 := by
    rw [and_two_pow]
    have : (x ^^^ y).testBit 127 = (x.testBit 127 != y.testBit 127) := by
      rw [Nat.testBit_xor]
    rw [Nat.testBit_eq_decide_div_mod_eq] at this
    by_cases h : (x ^^^ y) / 2 ^ 127 % 2 = 1
    · rw [if_pos h, ← this]; simp [h]
    · rw [if_neg h, ← this]; simp [h]
  rw [ht, neg_bit, neg_bit]
  unfold Fmt.pack
  rw [sign128]
  split
  · exact or_sign m 127 hm
  · simp

theorem fraction_eq (E : Int) (m : Nat) (h1 : 2 ^ 112 ≤ m) (h2 : m < 2 ^ 113) :
    fraction (E * ((2 ^ 112 : Nat) : Int) + ((m - 2 ^ 112 : Nat) : Int)) = m * 2 ^ 15 := by
  unfold fraction toU
  obtain ⟨r, rfl⟩ : ∃ r, m = 2 ^ 112 + r := ⟨m - 2 ^ 112, by omega⟩
  rw [Nat.add_sub_cancel_left]
  have key : ((E * ((2 ^ 112 : Nat) : Int) + (r : Int)) % 2 ^ 128).toNat * 2 ^ 15 % 2 ^ 128 = (E % 2).toNat * 2 ^ 127 + r * 2 ^ 15 := by
    simp only [Nat.reducePow] at *
    omega
  rw [key]
  rcases (show E % 2 = 0 ∨ E % 2 = 1 by omega) with e | e
  · rw [e, Int.toNat_zero, Nat.zero_mul, Nat.zero_add, or_sign _ _ (by omega)]; omega
  · rw [e, show (1 : Int).toNat * 2 ^ 127 + r * 2 ^ 15 = 2 ^ 127 + r * 2 ^ 15 by simp, ← or_sign (r * 2 ^ 15) 127 (by omega), Nat.or_assoc, Nat.or_self,
      or_sign _ _ (by omega)]
    omega

theorem normalizel_eq {i : Nat} (h0 : 0 < i) (hi : i < b128.inf) :
    ∃ (E : Int) (m : Nat), normalizel i = some (E * ((2 ^ 112 : Nat) : Int) + ((m - 2 ^ 112 : Nat) : Int)) ∧ 2 ^ 112 ≤ m ∧ m < 2 ^ 113 ∧
      -111 ≤ E ∧ E ≤ 32766 ∧ b128.mag i * 2 ^ (1 - E).toNat = m * 2 ^ (E - 1).toNat := by
  obtain ⟨E, m, h1, h2, h3, h4, h5, h6⟩ := normalize_eq good_ldbl (i := i) h0 hi
  have hf : ldbl.fmt.f = 112 := rfl
  have hb : ldbl.fmt.bias = 16383 := rfl
  rw [hf] at h1 h2 h3 h4
  rw [hb] at h5
  exact ⟨E, m, h1, h2, h3, by omega, by omega, h6⟩

/-- multf3.c:6-17: one rounding of the exact product. -/
theorem mulKernel_eq {E E' : Int} {m m' num den : Nat} (h1 : 2 ^ 112 ≤ m) (h2 : m < 2 ^ 113) (h1' : 2 ^ 112 ≤ m') (h2' : m' < 2 ^ 113)
    (hd : 0 < den) (h : num * 2 ^ (16496 - E - E').toNat = den * (m * m') * 2 ^ (E + E' - 16496).toNat) :
    ∃ r, mulKernel (E * ((2 ^ 112 : Nat) : Int) + ((m - 2 ^ 112 : Nat) : Int)) (E' * ((2 ^ 112 : Nat) : Int) + ((m' - 2 ^ 112 : Nat) : Int)) = some r ∧
      Nearest b128 num den r := by
  unfold mulKernel
  rw [fraction_eq E m h1 h2, fraction_eq E' m' h1' h2', umulti4_eq _ _ (by omega) (by omega)]
  have k1 := (split_field E (show m - 2 ^ 112 < 2 ^ 112 by omega)).1
  have k1' := (split_field E' (show m' - 2 ^ 112 < 2 ^ 112 by omega)).1
  rw [show ((2 : Int) ^ 112) = ((2 ^ 112 : Nat) : Int) by rfl, k1, k1']
  simp only
  generalize hP : m * 2 ^ 15 * (m' * 2 ^ 15) = P
  have hP' : P = m * m' * 2 ^ 30 := by rw [← hP, show (2 : Nat) ^ 30 = 2 ^ 15 * 2 ^ 15 by rfl]; ac_rfl
  have l1 : 2 ^ 112 * 2 ^ 112 ≤ m * m' := Nat.mul_le_mul h1 h1'
  have l2 : m * m' < 2 ^ 113 * 2 ^ 113 := Nat.mul_lt_mul'' h2 h2'
  have hc : P / 2 ^ 128 / 2 ^ 127 = if 2 ^ 255 ≤ P then 1 else 0 := by split <;> omega
  rw [hc]
  by_cases c : 2 ^ 255 ≤ P
  · rw [if_pos c]
    have hS : (P / 2 ^ 128 ||| bit (P % 2 ^ 128 ≠ 0)) * 2 ^ (1 - 1) % 2 ^ 128 = P / 2 ^ 128 ||| bit (P % 2 ^ 128 ≠ 0) := by
      rw [Nat.sub_self, Nat.pow_zero, Nat.mul_one, or_bit]
      split <;> omega
    rw [hS]
    refine compose_nearest ?_ ?_ (Nat.two_pow_pos 128) (sticky_or P (2 ^ 128) (Nat.two_pow_pos _)) hd ?_
    · rw [or_bit]; split <;> omega
    · rw [or_bit]; split <;> omega
    · rw [hP', Nat.mul_comm (2 ^ 128), ← Nat.mul_assoc, ← Nat.mul_assoc, Nat.mul_assoc _ _ (2 ^ 128), Nat.mul_assoc _ (2 ^ 30), ← Nat.pow_add, ← Nat.pow_add]
      exact pow_shift h (by omega)
  · rw [if_neg c]
    have hD : (2 : Nat) ^ 128 = 2 * 2 ^ 127 := by decide
    have hS : (P / 2 ^ 128 ||| bit (P % 2 ^ 128 ≠ 0)) * 2 ^ (1 - 0) % 2 ^ 128 = 2 * (P / (2 * 2 ^ 127) ||| bit (P % (2 * 2 ^ 127) ≠ 0)) := by
      rw [← hD, Nat.sub_zero, Nat.pow_one, or_bit]
      split <;> omega
    rw [hS]
    refine compose_nearest ?_ ?_ (Nat.two_pow_pos 127) (sticky_or_two P (2 ^ 127) (Nat.two_pow_pos _)) hd ?_
    · rw [← hD, or_bit]; split <;> omega
    · rw [← hD, or_bit]; split <;> omega
    · rw [hP', Nat.mul_comm (2 ^ 127), ← Nat.mul_assoc, ← Nat.mul_assoc, Nat.mul_assoc _ _ (2 ^ 127), Nat.mul_assoc _ (2 ^ 30), ← Nat.pow_add, ← Nat.pow_add]
      exact pow_shift h (by omega)

/-- The product of finite numbers. -/
theorem multf3_fin {x y : Nat} (hx : b128.abs x < b128.inf) (hy : b128.abs y < b128.inf) :
    multf3 x y = some (b128.mul x y) := by
  rw [Fmt.mul_fin hx hy]
  unfold multf3 mulMagnitude
  simp only
  rw [← inf128, show x % 2 ^ 127 = b128.abs x from rfl, show y % 2 ^ 127 = b128.abs y from rfl, if_neg (by omega), if_neg (by omega)]
  have hU := Nat.two_pow_pos b128.unit
  by_cases h0 : b128.abs x ≠ 0 ∧ b128.abs y ≠ 0
  · rw [if_pos h0]
    obtain ⟨E, m, a1, a2, a3, a4, a5, a6⟩ := normalizel_eq (by omega) hx
    obtain ⟨E', m', b1, b2, b3, b4, b5, b6⟩ := normalizel_eq (by omega) hy
    rw [a1, b1, Option.bind_some, Option.bind_some]
    have hu : ∃ u, u = b128.unit ∧ u = 16494 := ⟨_, rfl, rfl⟩
    obtain ⟨u, hu, hu'⟩ := hu
    rw [← hu] at hU ⊢
    obtain ⟨r, hr, hn⟩ := mulKernel_eq (E := E) (E' := E') (num := b128.mag (b128.abs x) * b128.mag (b128.abs y)) (den := 2 ^ u) a2 a3 b2 b3 hU (by
      have e : b128.mag (b128.abs x) * b128.mag (b128.abs y) * 2 ^ ((1 - E).toNat + (1 - E').toNat) = m * m' * 2 ^ ((E - 1).toNat + (E' - 1).toNat) := by
        rw [Nat.pow_add, Nat.pow_add]
        calc _ = (b128.mag (b128.abs x) * 2 ^ (1 - E).toNat) * (b128.mag (b128.abs y) * 2 ^ (1 - E').toNat) := by ac_rfl
          _ = _ := by rw [a6, b6]; ac_rfl
      rw [Nat.mul_comm (2 ^ u), Nat.mul_assoc _ (2 ^ u), ← Nat.pow_add]
      exact pow_shift e (by omega))
    rw [hr, Option.bind_some, ← rnd_eq hU hn]
    refine congrArg some ?_
    exact or_sign_xor (Nat.lt_of_le_of_lt (rnd_le _ _ hU) (by decide))
  · rw [if_neg h0, Option.bind_some]
    have : b128.mag (b128.abs x) * b128.mag (b128.abs y) = 0 := by
      rcases (show b128.abs x = 0 ∨ b128.abs y = 0 by omega) with h | h <;> rw [h, b128.mag_zero] <;> simp
    rw [this, rnd_zero _ hU]
    exact congrArg some (or_sign_xor (by decide))

end Verif.Quad
