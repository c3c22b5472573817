import Verif.Approx.Exact

/-! # Bounds of accurate results -/

namespace Verif.Approx
open Verif.Float Verif.Approx.Spec
open Verif.Math.Spec (Pat absOf negative)

variable {F : Fmt}

theorem R_pat {p : Nat} (hp : p ≤ F.inf) : R F p = F.mag p / 2 ^ F.unit := by
  have := R_pack (F := F) (s := false) hp
  rw [show F.pack false p = p by simp [Fmt.pack]] at this
  rw [this]; simp

theorem scaled {v z ε : ℝ} (h : |z - v| ≤ ε * |v|) :
    |(|z| * 2 ^ F.unit) - |v| * 2 ^ F.unit| ≤ ε * (|v| * 2 ^ F.unit) := by
  have hu : (0 : ℝ) < 2 ^ F.unit := by positivity
  rw [← sub_mul, abs_mul, abs_of_pos hu, ← mul_assoc]
  exact mul_le_mul_of_nonneg_right ((abs_abs_sub_abs_le _ _).trans h) hu.le

theorem small_eps {ε : ℝ} (hε : ε ≤ 1 / 2 ^ (F.f + 3)) {m u : ℝ} (hm : 0 < m) (hu : m ≤ 2 ^ (F.f + 1) * u) : 4 * (ε * m) ≤ u := by
  have h1 : ε * m ≤ 1 / 2 ^ (F.f + 3) * m := mul_le_mul_of_nonneg_right hε hm.le
  have h2 : 1 / 2 ^ (F.f + 3) * m ≤ 1 / 2 ^ (F.f + 3) * (2 ^ (F.f + 1) * u) := mul_le_mul_of_nonneg_left hu (by positivity)
  have h3 : (1 : ℝ) / 2 ^ (F.f + 3) * (2 ^ (F.f + 1) * u) = u / 4 := by
    rw [show F.f + 3 = F.f + 1 + 2 by omega, pow_add _ (F.f + 1) 2]; field_simp; norm_num; ring
  linarith

/-- A value not above a floating-point number gives a result not above it. -/
theorem accurate_le {p r : Nat} {ε v : ℝ} (hp : p < F.inf) (h0 : 0 < p) (hε : ε ≤ 1 / 2 ^ (F.f + 3)) (hε0 : 0 ≤ ε) (hv : |v| ≤ R F p) (h : Accurate F ε v r) : absOf F r ≤ p := by
  obtain ⟨z, h1, h2⟩ := h
  have hu : (0 : ℝ) < 2 ^ F.unit := by positivity
  by_contra hc
  have hc' : p + 1 ≤ F.abs r := by change ¬ F.abs r ≤ p at hc; omega
  have hb := h2.near.best p hp.le
  change |_ - ((F.mag (F.abs r) : Nat) : ℝ)| ≤ _ at hb
  have hmo := F.mag_mono hc'
  have hs := F.mag_succ p
  obtain ⟨m, m1, m2⟩ := Fmt.mag_form (F := F) p
  have hub : F.mag p ≤ 2 ^ (F.f + 1) * F.ulp p := by rw [m1]; exact Nat.mul_le_mul_right _ m2.le
  have a1 : (F.mag p : ℝ) ≤ 2 ^ (F.f + 1) * F.ulp p := by exact_mod_cast hub
  have a2 : (F.mag p : ℝ) + F.ulp p ≤ F.mag (F.abs r) := by exact_mod_cast (by omega)
  have hm : (0 : ℝ) < F.mag p := by exact_mod_cast Fmt.mag_pos (F := F) h0
  have a3 := small_eps (F := F) hε hm a1
  have hvm : |v| * 2 ^ F.unit ≤ F.mag p := by
    rw [R_pat hp.le, le_div_iff₀ hu] at hv; exact hv
  have hsc := abs_le.1 (scaled (F := F) h1)
  have hz : |z| * 2 ^ F.unit ≤ (1 + ε) * F.mag p := by
    have := mul_le_mul_of_nonneg_left hvm (show 0 ≤ 1 + ε by linarith)
    linarith [hsc.2]
  have hun : (0 : ℝ) < F.ulp p := by
    have : (0 : ℝ) < 2 ^ (F.f + 1) := by positivity
    by_contra hn
    have := mul_nonpos_of_nonneg_of_nonpos this.le (not_lt.1 hn)
    linarith
  rcases abs_cases (|z| * 2 ^ F.unit - (F.mag p : ℝ)) with ⟨e1, e2⟩ | ⟨e1, e2⟩
  · rw [e1] at hb
    have := (abs_le.1 hb).1
    nlinarith
  · rw [e1] at hb
    have := (abs_le.1 hb).1
    nlinarith

/-- A value not below a floating-point number gives a result not below it. -/
theorem accurate_ge {p r : Nat} {ε v : ℝ} (hp : p < F.inf) (h0 : 0 < p) (hε : ε ≤ 1 / 2 ^ (F.f + 3)) (hv : R F p ≤ |v|) (h : Accurate F ε v r) : p ≤ absOf F r := by
  obtain ⟨z, h1, h2⟩ := h
  have hu : (0 : ℝ) < 2 ^ F.unit := by positivity
  by_contra hc
  have hc' : F.abs r ≤ p - 1 := by change ¬ p ≤ F.abs r at hc; omega
  have hb := h2.near.best p hp.le
  change |_ - ((F.mag (F.abs r) : Nat) : ℝ)| ≤ _ at hb
  have hmo := F.mag_mono hc'
  have hs := F.mag_succ (p - 1)
  rw [show p - 1 + 1 = p by omega] at hs
  obtain ⟨m, m1, m2⟩ := Fmt.mag_form (F := F) (p - 1)
  have hub : F.mag p ≤ 2 ^ (F.f + 1) * F.ulp (p - 1) := by
    rw [hs, m1, show m * F.ulp (p - 1) + F.ulp (p - 1) = (m + 1) * F.ulp (p - 1) by ring]
    exact Nat.mul_le_mul_right _ m2
  have a1 : (F.mag p : ℝ) ≤ 2 ^ (F.f + 1) * F.ulp (p - 1) := by exact_mod_cast hub
  have a2 : (F.mag (F.abs r) : ℝ) + F.ulp (p - 1) ≤ F.mag p := by exact_mod_cast (by omega)
  have hm : (0 : ℝ) < F.mag p := by exact_mod_cast Fmt.mag_pos (F := F) h0
  have a3 := small_eps (F := F) hε hm a1
  have hvm : (F.mag p : ℝ) ≤ |v| * 2 ^ F.unit := by
    rw [R_pat hp.le, div_le_iff₀ hu] at hv; exact hv
  have hsc := abs_le.1 (scaled (F := F) h1)
  have hε1 : ε ≤ 1 := hε.trans (by
    rw [div_le_one (by positivity)]; exact one_le_pow₀ (by norm_num))
  have hz : (1 - ε) * F.mag p ≤ |z| * 2 ^ F.unit := by
    have := mul_le_mul_of_nonneg_left hvm (show 0 ≤ 1 - ε by linarith)
    linarith [hsc.1]
  have hun : (0 : ℝ) < F.ulp (p - 1) := by
    have : (0 : ℝ) < 2 ^ (F.f + 1) := by positivity
    by_contra hn
    have := mul_nonpos_of_nonneg_of_nonpos this.le (not_lt.1 hn)
    linarith
  rcases abs_cases (|z| * 2 ^ F.unit - (F.mag p : ℝ)) with ⟨e1, e2⟩ | ⟨e1, e2⟩
  · rw [e1] at hb
    have := (abs_le.1 hb).2
    nlinarith
  · rw [e1] at hb
    have := (abs_le.1 hb).2
    nlinarith

/-- A positive value gives a result that is not negative. -/
theorem accurate_pos {r : Nat} {ε v : ℝ} (hε : ε < 1) (hv : 0 < v) (h : Accurate F ε v r) : ¬ negative F r := by
  obtain ⟨z, h1, h2⟩ := h
  rw [abs_of_pos hv] at h1
  refine h2.pos ?_
  have := (abs_le.1 h1).1
  nlinarith

theorem accurate_neg {r : Nat} {ε v : ℝ} (hε : ε < 1) (hv : v < 0) (h : Accurate F ε v r) : negative F r := by
  obtain ⟨z, h1, h2⟩ := h
  rw [abs_of_neg hv] at h1
  refine h2.neg ?_
  have := (abs_le.1 h1).2
  nlinarith

theorem real_pat {p : Nat} (hp : p < F.inf) : real F p = R F p := by
  refine (R_eq ?_).symm
  have := Nat.lt_trans hp Fmt.inf_lt
  unfold Pat; omega

/-- Accurate results are faithful. -/
theorem accurate_faithful {r : Nat} {ε v : ℝ} (hε : ε ≤ 1 / 2 ^ (F.f + 3)) (hε0 : 0 ≤ ε) (h : Accurate F ε v r) : Faithful F v r := by
  intro p hp
  rw [real_pat hp]
  refine ⟨fun hv => ?_, fun hv => ?_⟩
  · rcases Nat.eq_zero_or_pos p with h0 | h0
    · omega
    · exact accurate_ge hp h0 hε hv h
  · rcases Nat.eq_zero_or_pos p with h0 | h0
    · subst h0
      rw [R_pat (by omega), F.mag_zero] at hv
      simp at hv
      obtain ⟨z, h1, h2⟩ := h
      rw [hv] at h1
      simp at h1
      have hb := h2.near.best 0 (by omega)
      rw [h1, F.mag_zero] at hb
      simp at hb
      have : F.abs r = 0 := Fmt.mag_eq_zero.1 hb
      exact Nat.le_of_eq this
    · exact accurate_le hp h0 hε hε0 hv h

end Verif.Approx
