import Verif.Quad.Ext

/-! # Rounding depends only on comparisons with midpoints -/

namespace Verif.Quad
open Verif.Float Verif.Int128 Verif.Math

variable {F : Fmt}

theorem nearest_of_mid {num den r : Nat} (hd : 0 < den) (hr : r ≤ F.inf)
    (h1 : ∀ q, q + 1 = r → den * F.mag q + den * F.mag r < 2 * num ∨ (2 * num = den * F.mag q + den * F.mag r ∧ r % 2 = 0))
    (h2 : r < F.inf → 2 * num < den * F.mag r + den * F.mag (r + 1) ∨ (2 * num = den * F.mag r + den * F.mag (r + 1) ∧ r % 2 = 0)) :
    Nearest F num den r := by
  rcases Nat.lt_or_ge num (den * F.mag r) with h | h
  · cases r with
    | zero => rw [F.mag_zero] at h; omega
    | succ q => exact nearest_hi hd hr (Nat.le_of_lt h) (h1 q rfl)
  · rcases Nat.lt_or_eq_of_le hr with h' | h'
    · exact nearest_lo h' h (h2 h')
    · subst h'
      exact nearest_inf hd h

theorem mid_of_nearest {num den r : Nat} (hd : 0 < den) (h : Nearest F num den r) :
    (∀ q, q + 1 = r → den * F.mag q + den * F.mag r < 2 * num ∨ (2 * num = den * F.mag q + den * F.mag r ∧ r % 2 = 0)) ∧
    (r < F.inf → 2 * num < den * F.mag r + den * F.mag (r + 1) ∨ (2 * num = den * F.mag r + den * F.mag (r + 1) ∧ r % 2 = 0)) := by
  have hle := h.le
  constructor
  · intro q hq
    have hm := Nat.mul_lt_mul_of_pos_left (F.mag_strictMono (show q < r by omega)) hd
    have hb := h.best q (by omega)
    have he := h.even q (by omega) (by omega)
    unfold dist at hb he
    by_cases c : den * F.mag q + den * F.mag r < 2 * num
    · exact .inl c
    · exact .inr ⟨by omega, (he (by omega))⟩
  · intro hr
    have hm := Nat.mul_lt_mul_of_pos_left (F.mag_strictMono (show r < r + 1 by omega)) hd
    have hb := h.best (r + 1) (by omega)
    have he := h.even (r + 1) (by omega) (by omega)
    unfold dist at hb he
    by_cases c : 2 * num < den * F.mag r + den * F.mag (r + 1)
    · exact .inl c
    · exact .inr ⟨by omega, (he (by omega))⟩

/-- Two numbers on the same side of every midpoint round alike. -/
theorem nearest_transfer {num den num' den' r : Nat} (hd : 0 < den) (hd' : 0 < den')
    (h : ∀ n, n < F.inf → (2 * num < den * (F.mag n + F.mag (n + 1)) ↔ 2 * num' < den' * (F.mag n + F.mag (n + 1))) ∧
      (2 * num = den * (F.mag n + F.mag (n + 1)) ↔ 2 * num' = den' * (F.mag n + F.mag (n + 1))))
    (hn : Nearest F num' den' r) : Nearest F num den r := by
  obtain ⟨h1, h2⟩ := mid_of_nearest hd' hn
  refine nearest_of_mid hd hn.le ?_ ?_
  · intro q hq
    obtain ⟨i1, i2⟩ := h q (by have := hn.le; omega)
    have := h1 q hq
    rw [hq, Nat.mul_add, Nat.mul_add] at i1 i2
    by_cases c : r % 2 = 0
    · simp only [c, and_true] at this ⊢; omega
    · simp only [c, and_false, or_false] at this ⊢; omega
  · intro hr
    obtain ⟨i1, i2⟩ := h r hr
    have := h2 hr
    rw [Nat.mul_add, Nat.mul_add] at i1 i2
    by_cases c : r % 2 = 0
    · simp only [c, and_true] at this ⊢; omega
    · simp only [c, and_false, or_false] at this ⊢; omega

/-- Comparison of a significand and of its sticky upper part with a number that has enough zeros at its end
or is small. -/
theorem sticky_cmp {M k p q t : Nat} (h : p + k + 1 ≤ q ∨ t * 2 ^ q < M / 2 ^ k / 2 * 2 * 2 ^ k * 2 ^ p) :
    (M * 2 ^ p < t * 2 ^ q ↔ (M / 2 ^ k ||| bit (M % 2 ^ k ≠ 0)) * 2 ^ k * 2 ^ p < t * 2 ^ q) ∧
      (M * 2 ^ p = t * 2 ^ q ↔ (M / 2 ^ k ||| bit (M % 2 ^ k ≠ 0)) * 2 ^ k * 2 ^ p = t * 2 ^ q) := by
  have hp := Nat.two_pow_pos p
  have hk := Nat.two_pow_pos k
  rcases h with h | h
  · obtain ⟨d, rfl⟩ : ∃ d, q = d + 1 + k + p := ⟨q - (p + k + 1), by omega⟩
    have e : t * 2 ^ (d + 1 + k + p) = t * 2 ^ d * 2 * 2 ^ k * 2 ^ p := by
      rw [Nat.pow_add, Nat.pow_add, Nat.pow_succ]; ac_rfl
    rw [e, Nat.mul_lt_mul_right hp, Nat.mul_lt_mul_right hp, Nat.mul_lt_mul_right hk, Nat.mul_right_cancel_iff hp, Nat.mul_right_cancel_iff hp,
      Nat.mul_right_cancel_iff hk]
    obtain ⟨s1, s2⟩ := sticky_div M (2 ^ k) hk (n := t * 2 ^ d * 2) (by omega)
    generalize (M / 2 ^ k ||| bit (M % 2 ^ k ≠ 0)) = S at *
    generalize t * 2 ^ d * 2 = n at *
    generalize n * 2 ^ k = N at *
    omega
  · have h1 : M / 2 ^ k / 2 * 2 * 2 ^ k * 2 ^ p ≤ M * 2 ^ p := by
      apply Nat.mul_le_mul_right
      have := Nat.div_mul_le_self M (2 ^ k)
      exact Nat.le_trans (Nat.mul_le_mul_right _ (by omega)) this
    have h2 : M / 2 ^ k / 2 * 2 * 2 ^ k * 2 ^ p ≤ (M / 2 ^ k ||| bit (M % 2 ^ k ≠ 0)) * 2 ^ k * 2 ^ p := by
      apply Nat.mul_le_mul_right
      apply Nat.mul_le_mul_right
      rw [or_bit]; split <;> omega
    omega

/-- A midpoint is an odd multiple of half a unit in the last place. -/
theorem mid_form (n : Nat) : ∃ m, F.mag n + F.mag (n + 1) = (2 * m + 1) * F.ulp n ∧ m < 2 ^ (F.f + 1) := by
  obtain ⟨m, h1, h2⟩ := Fmt.mag_form (F := F) n
  refine ⟨m, ?_, h2⟩
  rw [F.mag_succ, h1, Nat.add_mul, Nat.mul_assoc]
  omega

end Verif.Quad
