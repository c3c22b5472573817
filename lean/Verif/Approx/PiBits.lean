import Verif.Approx.Poly
import Mathlib.Analysis.SpecialFunctions.Trigonometric.Arctan
import Mathlib.Analysis.SpecialFunctions.Trigonometric.ArctanDeriv

/-! # 300 bits of 2/π, by Machin's formula -/

namespace Verif.Approx

/-- The Taylor polynomial of the arc tangent with `n` terms. -/
noncomputable def atT : Nat → ℝ → ℝ
  | 0, _ => 0
  | n + 1, x => atT n x + (-1) ^ n * x ^ (2 * n + 1) / (2 * n + 1)

/-- Its derivative. -/
noncomputable def geoT : Nat → ℝ → ℝ
  | 0, _ => 0
  | n + 1, x => geoT n x + (-1) ^ n * x ^ (2 * n)

theorem atT_deriv (x : ℝ) : (n : Nat) → HasDerivAt (atT n) (geoT n x) x
  | 0 => hasDerivAt_const x 0
  | n + 1 => by
    have h := (atT_deriv x n).add ((((hasDerivAt_pow (2 * n + 1) x).const_mul ((-1) ^ n)).div_const ((2 * n + 1 : ℝ))))
    refine h.congr_deriv ?_
    simp only [geoT]
    have : (2 * n + 1 : ℝ) ≠ 0 := by positivity
    push_cast
    field_simp

theorem geoT_eq (x : ℝ) : (n : Nat) → (1 + x ^ 2) * geoT n x = 1 - (-1) ^ n * x ^ (2 * n)
  | 0 => by simp [geoT]
  | n + 1 => by
    have h := geoT_eq x n
    simp only [geoT, mul_add, h]
    ring

theorem atT_zero : (n : Nat) → atT n 0 = 0
  | 0 => rfl
  | n + 1 => by simp [atT, atT_zero n]

theorem arctan_taylor {x : ℝ} (hx : 0 ≤ x) (n : Nat) : |Real.arctan x - atT n x| ≤ x ^ (2 * n + 1) / (2 * n + 1) := by
  have key : ∀ s : ℝ, (s = 1 ∨ s = -1) → 0 ≤ x ^ (2 * n + 1) / (2 * n + 1) - s * (Real.arctan x - atT n x) := fun s hs => by
    refine grows (b := x) (f := fun x => x ^ (2 * n + 1) / (2 * n + 1) - s * (Real.arctan x - atT n x)) (f' := fun x => x ^ (2 * n) - s * (1 / (1 + x ^ 2) - geoT n x))
      (fun y _ _ => ?_) (by simp [atT_zero]) (fun y hy _ => ?_) hx le_rfl
    · have h := ((hasDerivAt_pow (2 * n + 1) y).div_const ((2 * n + 1 : ℝ))).sub (((Real.hasDerivAt_arctan y).sub (atT_deriv y n)).const_mul s)
      refine h.congr_deriv ?_
      have : (2 * n + 1 : ℝ) ≠ 0 := by positivity
      push_cast
      field_simp
    · have hp : 0 < 1 + y ^ 2 := by positivity
      have e : 1 / (1 + y ^ 2) - geoT n y = (-1) ^ n * y ^ (2 * n) / (1 + y ^ 2) := by
        have := geoT_eq y n
        field_simp
        linarith
      have hy2 : 0 ≤ y ^ (2 * n) := by positivity
      have h1 : y ^ (2 * n) / (1 + y ^ 2) ≤ y ^ (2 * n) := div_le_self hy2 (by nlinarith [sq_nonneg y])
      have h2 : |s * (1 / (1 + y ^ 2) - geoT n y)| ≤ y ^ (2 * n) := by
        rw [e, abs_mul, abs_div, abs_mul, abs_pow, abs_neg, abs_one, one_pow, one_mul, abs_of_nonneg hy2, abs_of_pos hp]
        rcases hs with rfl | rfl <;> simpa using h1
      linarith [(abs_le.1 h2).2]
  have a := key 1 (Or.inl rfl)
  have b := key (-1) (Or.inr rfl)
  rw [abs_le]
  constructor <;> linarith

/-- The terms at `1/k` in units of `2^-B`, cut off. -/
def atS (k B : Nat) : Nat → Int
  | 0 => 0
  | n + 1 => atS k B n + (-1) ^ n * ((2 ^ B / ((2 * n + 1) * k ^ (2 * n + 1)) : Nat) : Int)

theorem atS_err {k B : Nat} (hk : 0 < k) : (n : Nat) → |atT n (1 / k) * 2 ^ B - atS k B n| ≤ n
  | 0 => by simp [atT, atS]
  | n + 1 => by
    have ih := abs_le.1 (atS_err (B := B) hk n)
    have hd : 0 < (2 * n + 1) * k ^ (2 * n + 1) := by positivity
    have l := Nat.div_mul_le_self (2 ^ B) ((2 * n + 1) * k ^ (2 * n + 1))
    have u := Nat.lt_mul_div_succ (2 ^ B) hd
    generalize hq : 2 ^ B / ((2 * n + 1) * k ^ (2 * n + 1)) = q at *
    have l' : (q : ℝ) * ((2 * n + 1) * k ^ (2 * n + 1)) ≤ 2 ^ B := by exact_mod_cast l
    have u' : (2 : ℝ) ^ B < ((2 * n + 1) * k ^ (2 * n + 1)) * (q + 1) := by exact_mod_cast u
    have hk' : (0 : ℝ) < k := by exact_mod_cast hk
    have hd' : (0 : ℝ) < (2 * n + 1) * k ^ (2 * n + 1) := by positivity
    have t : (1 / (k : ℝ)) ^ (2 * n + 1) / (2 * n + 1) * 2 ^ B = 2 ^ B / ((2 * n + 1) * k ^ (2 * n + 1)) := by
      rw [one_div, inv_pow]; field_simp
    have t1 : (q : ℝ) ≤ 2 ^ B / ((2 * n + 1) * k ^ (2 * n + 1)) := by rw [le_div_iff₀ hd']; exact l'
    have t2 : (2 : ℝ) ^ B / ((2 * n + 1) * k ^ (2 * n + 1)) < q + 1 := by rw [div_lt_iff₀ hd']; linarith
    simp only [atT, atS, hq]
    push_cast
    rw [add_mul, mul_div_assoc, mul_assoc, t]
    generalize (2 : ℝ) ^ B / ((2 * n + 1) * k ^ (2 * n + 1)) = z at *
    generalize atT n (1 / k) * 2 ^ B = w at *
    rcases Nat.even_or_odd n with h | h
    · rw [h.neg_one_pow, abs_le]; constructor <;> linarith
    · rw [h.neg_one_pow, abs_le]; constructor <;> linarith

theorem arctan_inv {k B n : Nat} (hk : 0 < k) (hB : 2 ^ B ≤ k ^ (2 * n + 1)) : |Real.arctan (1 / k) * 2 ^ B - atS k B n| ≤ n + 1 := by
  have a := arctan_taylor (x := 1 / k) (by positivity) n
  have b := atS_err (B := B) hk n
  have hk' : (0 : ℝ) < k := by exact_mod_cast hk
  have hB' : (2 : ℝ) ^ B ≤ k ^ (2 * n + 1) := by exact_mod_cast hB
  have c : (1 / (k : ℝ)) ^ (2 * n + 1) / (2 * n + 1) * 2 ^ B ≤ 1 := by
    rw [one_div, inv_pow, div_mul_eq_mul_div, div_le_one (by positivity), ← div_eq_inv_mul, div_le_iff₀ (by positivity)]
    nlinarith [show (0 : ℝ) < (k : ℝ) ^ (2 * n + 1) by positivity, show (0 : ℝ) ≤ n by positivity]
  have d : |(Real.arctan (1 / k) - atT n (1 / k)) * 2 ^ B| ≤ 1 := by
    rw [abs_mul, abs_of_pos (show (0 : ℝ) < 2 ^ B by positivity)]
    exact (mul_le_mul_of_nonneg_right a (by positivity)).trans c
  have d' := abs_le.1 d
  have b' := abs_le.1 b
  rw [abs_le]
  constructor <;> linarith

/-- 300 bits of 2/π -/
def twoDivPi : Nat := 1296817379558634348051604459188527296799942262825034693585344044490576311278533503839609892

theorem machin_check : 2 ^ 330 ≤ 5 ^ (2 * 80 + 1) ∧ 2 ^ 330 ≤ 239 ^ (2 * 25 + 1) ∧
    (16 * atS 5 330 80 - 4 * atS 239 330 25 + 2000) * twoDivPi ≤ 2 * 2 ^ 300 * 2 ^ 330 ∧
    2 * 2 ^ 300 * 2 ^ 330 ≤ (16 * atS 5 330 80 - 4 * atS 239 330 25 - 2000) * (twoDivPi + 1) := by decide +kernel

/-- `a / c` as bounds of 2/π -/
theorem two_div_pi_of {S P : ℝ} {A E : Nat} (hP : 0 < P) (h : |Real.pi * P - S| ≤ 2000) (h1 : (S + 2000) * A ≤ 2 * 2 ^ E * P) (h2 : 2 * 2 ^ E * P ≤ (S - 2000) * (A + 1)) :
    (A : ℝ) ≤ 2 / Real.pi * 2 ^ E ∧ 2 / Real.pi * 2 ^ E ≤ A + 1 := by
  have hpi := Real.pi_pos
  have h' := abs_le.1 h
  have hA : (0 : ℝ) ≤ A := Nat.cast_nonneg A
  rw [div_mul_eq_mul_div]
  constructor
  · rw [le_div_iff₀ hpi]
    have : Real.pi * P * A ≤ (S + 2000) * A := mul_le_mul_of_nonneg_right (by linarith) hA
    have : A * Real.pi * P ≤ 2 * 2 ^ E * P := by linarith
    exact le_of_mul_le_mul_right this hP
  · rw [div_le_iff₀ hpi]
    have : (S - 2000) * (A + 1) ≤ Real.pi * P * (A + 1) := mul_le_mul_of_nonneg_right (by linarith) (by linarith)
    have : 2 * 2 ^ E * P ≤ (A + 1) * Real.pi * P := by linarith
    exact le_of_mul_le_mul_right this hP

theorem machin {B : Nat} {m n : Nat} (h1 : 2 ^ B ≤ 5 ^ (2 * m + 1)) (h2 : 2 ^ B ≤ 239 ^ (2 * n + 1)) (hm : m ≤ 100) (hn : n ≤ 50) :
    |Real.pi * 2 ^ B - ((16 * atS 5 B m - 4 * atS 239 B n : Int) : ℝ)| ≤ 2000 := by
  have a := abs_le.1 (arctan_inv (k := 5) (by norm_num) h1)
  have b := abs_le.1 (arctan_inv (k := 239) (by norm_num) h2)
  have e := Real.four_mul_arctan_inv_5_sub_arctan_inv_239
  rw [inv_eq_one_div, inv_eq_one_div] at e
  have hm' : (m : ℝ) ≤ 100 := by exact_mod_cast hm
  have hn' : (n : ℝ) ≤ 50 := by exact_mod_cast hn
  push_cast at a b ⊢
  rw [show Real.pi * 2 ^ B = 16 * (Real.arctan (1 / 5) * 2 ^ B) - 4 * (Real.arctan (1 / 239) * 2 ^ B) by linear_combination (-4) * (2 : ℝ) ^ B * e]
  generalize Real.arctan (1 / 5) * 2 ^ B = u at *
  generalize Real.arctan (1 / 239) * 2 ^ B = v at *
  rw [abs_le]
  constructor <;> linarith [a.1, a.2, b.1, b.2]

theorem two_div_pi : (twoDivPi : ℝ) ≤ 2 / Real.pi * 2 ^ 300 ∧ 2 / Real.pi * 2 ^ 300 ≤ twoDivPi + 1 := by
  obtain ⟨c1, c2, c3, c4⟩ := machin_check
  refine two_div_pi_of (P := 2 ^ 330) (E := 300) (by positivity) (machin c1 c2 (by norm_num) (by norm_num)) ?_ ?_
  · exact_mod_cast c3
  · exact_mod_cast c4

end Verif.Approx
