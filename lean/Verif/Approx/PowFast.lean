import Verif.Approx.Pow

/-! # The first attempt of `powf`, in `double` -/

namespace Verif.Approx
open Verif.Float Verif.Approx.Spec
open Verif.Math.Spec (Pat)

/-! ### The logarithm -/

theorem log2_poly_lip {s u : ℝ} (hs : |s| ≤ 1 / 2) (hu : |u| ≤ 1 / 2) :
    |poly s (log2FpC.map (R b64)) - poly u (log2FpC.map (R b64))| ≤ 4 * |s - u| := by
  have hl : ∀ c ∈ (log2FpC.tail.map (R b64)), |c| ≤ 1 := by
    intro c hc
    have e : log2FpC.tail.map (R b64) = (log2FpC.map (R b64)).tail := rfl
    rw [e, log2FpC_R] at hc
    simp only [List.tail_cons, List.mem_cons, List.not_mem_nil, or_false] at hc
    rcases hc with rfl | rfl | rfl | rfl | rfl | rfl | rfl | rfl | rfl | rfl <;> norm_num
  obtain ⟨k1, k2⟩ := poly_lip hs hu _ hl
  have e : ∀ t, poly t (log2FpC.map (R b64)) = poly t (log2FpC.tail.map (R b64)) * t + R b64 0x40071547652B82FE := fun t => rfl
  rw [e, e]
  generalize poly s (log2FpC.tail.map (R b64)) = a at *
  generalize poly u (log2FpC.tail.map (R b64)) = b at *
  rw [show a * s + R b64 0x40071547652B82FE - (b * u + R b64 0x40071547652B82FE) = (a - b) * s + b * (s - u) by ring]
  refine (abs_add_le _ _).trans ?_
  rw [abs_mul, abs_mul]
  have a1 := mul_le_mul k2 hs (abs_nonneg _) (by positivity)
  have a2 := mul_le_mul_of_nonneg_right k1 (abs_nonneg (s - u))
  linarith

/-- Doubles in [√½, √2) next to one. -/
theorem near_one {y : Nat} (h1 : 0x3FE0000000000000 ≤ y) (h2 : y < b64.inf) : R b64 y = 1 ∨ 1 / 2 ^ 53 ≤ |R b64 y - 1| := by
  obtain ⟨E, e1⟩ : ∃ E, y / 2 ^ 52 - 1 = 1021 + E := ⟨y / 2 ^ 52 - 1 - 1021, by omega⟩
  have d := Fmt.ulp_dvd_mag (F := b64) y
  have e2 : b64.ulp y = 2 ^ 1021 * 2 ^ E := by
    rw [← Nat.pow_add, ← e1]; rfl
  rw [e2] at d
  obtain ⟨c, hc⟩ := d
  have hR : R b64 y = ((2 ^ E * c : Nat) : ℝ) / 2 ^ 53 := by
    rw [(R_small h2).2, hc]
    have hu : (2 : ℝ) ^ b64.unit = 2 ^ 1021 * 2 ^ 53 := by rw [← pow_add]; rfl
    rw [hu]
    have h0 : (2 : ℝ) ^ 1021 ≠ 0 := by positivity
    have : ((2 ^ 1021 * 2 ^ E * c : Nat) : ℝ) = 2 ^ 1021 * ((2 ^ E * c : Nat) : ℝ) := by
      rw [Nat.mul_assoc, Nat.cast_mul, Nat.cast_pow, Nat.cast_ofNat]
    rw [this, mul_div_mul_left _ _ h0]
  generalize 2 ^ E * c = k at *
  by_cases hk : k = 2 ^ 53
  · left; rw [hR, hk]; norm_num
  · right
    have h3 : (1 : ℝ) ≤ |(((k : Int) - 2 ^ 53 : Int) : ℝ)| := by
      rw [← Int.cast_abs]
      have : (1 : Int) ≤ |(k : Int) - 2 ^ 53| := Int.one_le_abs (by omega)
      exact_mod_cast this
    rw [hR, show (k : ℝ) / 2 ^ 53 - 1 = (((k : Int) - 2 ^ 53 : Int) : ℝ) / 2 ^ 53 by push_cast; ring, abs_div, abs_of_pos (by norm_num : (0 : ℝ) < 2 ^ 53)]
    exact div_le_div_of_nonneg_right h3 (by norm_num)

theorem log2FpC_bound : fmaBound 0.0295 (log2FpC.map (R b64)) ≤ 2.93 := by
  rw [log2FpC_R]
  simp only [fmaBound]
  norm_num

theorem log2_sum {t T p P q l a A : ℝ} (hq : q = 0.693147180559945309417232121458) (hl : |l - q| ≤ 1 / 10 ^ 24) (h1 : |t - T| ≤ 4.01 / 2 ^ 53 * |T|)
    (h2 : |p - P| ≤ 23.8 / 2 ^ 53) (hp : |p| ≤ 2.93) (h3 : |t * P * (q / 2) - a| ≤ |t| * (1 / 2 ^ 53)) (h4 : |a - A| ≤ 1.21 * |t - T|) (h5 : |T| ≤ |A|) :
    |t * p * (l / 2) - A| ≤ 15 / 2 ^ 53 * |A| := by
  have ht : |t| ≤ 1.0001 * |T| := by
    have := abs_sub_abs_le_abs_sub t T
    norm_num at *
    linarith [abs_nonneg T]
  have e : t * p * (l / 2) - A = t * p * (l - q) / 2 + t * (p - P) * (q / 2) + (t * P * (q / 2) - a) + (a - A) := by ring
  have b1 : |t * p * (l - q) / 2| ≤ 1.0001 * |T| * 2.93 * (1 / 10 ^ 24) / 2 := by
    rw [abs_div, abs_mul, abs_mul, abs_of_pos (by norm_num : (0 : ℝ) < 2)]
    gcongr
  have b2 : |t * (p - P) * (q / 2)| ≤ 1.0001 * |T| * (23.8 / 2 ^ 53) * 0.3466 := by
    rw [abs_mul, abs_mul, abs_of_pos (by rw [hq]; norm_num : (0 : ℝ) < q / 2)]
    have : q / 2 ≤ 0.3466 := by rw [hq]; norm_num
    gcongr
  rw [e]
  refine (abs_add_le _ _).trans ?_
  have b3 := (abs_add_le (t * p * (l - q) / 2 + t * (p - P) * (q / 2)) (t * P * (q / 2) - a)).trans (add_le_add ((abs_add_le _ _).trans (add_le_add b1 b2)) h3)
  clear hl h2 hp b1 b2 e hq
  generalize |t * p * (l - q) / 2 + t * (p - P) * (q / 2) + (t * P * (q / 2) - a)| = w at *
  norm_num at *
  linarith [abs_nonneg T]

/-- The product of the reduced argument and its polynomial, before rounding; `m` the argument. -/
theorem log2_part {y : Nat} (hy : Fin b64 y) (h : 0.7071 ≤ R b64 y ∧ R b64 y ≤ 1.41422) (hg : R b64 y = 1 ∨ 1 / 2 ^ 53 ≤ |R b64 y - 1|) :
    ∃ p, polyFma (b64.mul (ratio y) (ratio y)) log2FpC = some p ∧ Fin b64 (ratio y) ∧ Fin b64 p ∧
      |R b64 (ratio y) * R b64 p - Real.log (R b64 y) / Real.log 2| ≤ 17 / 2 ^ 53 * |Real.log (R b64 y) / Real.log 2| ∧
      |R b64 (ratio y) * R b64 p| ≤ 0.501 ∧ |Real.log (R b64 y) / Real.log 2| ≤ 0.5005 ∧
      (R b64 y = 1 → R b64 (ratio y) = 0) ∧ (R b64 y ≠ 1 → 1 / 2 ^ 54 ≤ |Real.log (R b64 y) / Real.log 2|) := by
  obtain ⟨r1, r2⟩ := ratio_ap hy h
  have hb := ratio_bound h
  have hl := log_ath (Y := R b64 y) (by linarith [h.1])
  have hT0 := abs_le_ath (t := (R b64 y - 1) / (R b64 y + 1)) (lt_of_le_of_lt hb (by norm_num))
  obtain ⟨l1, l2⟩ := log_two_bounds
  have ls := abs_le.1 log_two_sharp
  have hgt : R b64 y ≠ 1 → 1 / 2 ^ 55 ≤ |(R b64 y - 1) / (R b64 y + 1)| := by
    intro h1
    have h2 := hg.resolve_left h1
    have h3 : 0 < R b64 y + 1 := by linarith [h.1]
    rw [abs_div, abs_of_pos h3, le_div_iff₀ h3]
    have := h.2
    norm_num at *
    linarith
  have hlr := log_reduced h
  have hlq : |Real.log (R b64 y) / Real.log 2| ≤ 0.5005 := by
    rw [abs_div, abs_of_pos (by linarith : 0 < Real.log 2), div_le_iff₀ (by linarith)]
    norm_num at *
    linarith
  generalize hT : (R b64 y - 1) / (R b64 y + 1) = T at *
  have ht : |R b64 (ratio y)| ≤ 0.1716 := (r1.abs_le le_rfl).trans (by norm_num at *; linarith)
  have hu0 : |R b64 (ratio y) * R b64 (ratio y)| ≤ 0.02945 := by
    rw [abs_mul]; exact (mul_le_mul ht ht (abs_nonneg _) (by norm_num)).trans (by norm_num)
  have hm := ((Ap.exact r1.fin).mul (Ap.exact r1.fin) ht ht (by norm_num)).mono (d := 0.0295 / 2 ^ 53) (by norm_num)
  have hu : |R b64 (b64.mul (ratio y) (ratio y))| ≤ 0.0295 := (hm.abs_le hu0).trans (by norm_num)
  obtain ⟨p, p1, -, p2, p3⟩ := polyFma_ap hm.fin hu log2FpC log2FpC_fin log2FpC_ok
  have lip := log2_poly_lip (hu.trans (by norm_num)) (hu0.trans (by norm_num : (0.02945 : ℝ) ≤ 1 / 2))
  have hp := (p2.mono log2FpC_err).shift (lip.trans (mul_le_mul_of_nonneg_left hm.err (by norm_num)))
  have hpb := p3.trans log2FpC_bound
  refine ⟨p, p1, r1.fin, p2.fin, ?_⟩
  have hP := log2FpC_poly ht
  rw [pow_two] at hP
  have key : R b64 y ≠ 1 → |R b64 (ratio y) * R b64 p - Real.log (R b64 y) / Real.log 2| ≤ 15 / 2 ^ 53 * |Real.log (R b64 y) / Real.log 2| := by
    intro h1
    have g := hgt h1
    have h2 : |R b64 (ratio y) - T| ≤ 4.01 / 2 ^ 53 * |T| := r1.err.trans (by norm_num at *; linarith)
    have k := log2_sum rfl log_two_sharp h2 (hp.err.trans (by norm_num)) hpb hP (ath_lip ht (hb.trans (by norm_num))) hT0
    have l0 : 0 < Real.log 2 := by linarith
    rw [hl, show R b64 (ratio y) * R b64 p - 2 * ath T / Real.log 2 = (R b64 (ratio y) * R b64 p * (Real.log 2 / 2) - ath T) * (2 / Real.log 2) by field_simp,
      show 2 * ath T / Real.log 2 = ath T * (2 / Real.log 2) by ring, abs_mul, abs_mul (ath T), ← mul_assoc]
    exact mul_le_mul_of_nonneg_right k (abs_nonneg _)
  have key2 : |R b64 (ratio y) * R b64 p - Real.log (R b64 y) / Real.log 2| ≤ 17 / 2 ^ 53 * |Real.log (R b64 y) / Real.log 2| := by
    by_cases h1 : R b64 y = 1
    · rw [r2 h1, h1]; simp
    · refine (key h1).trans (mul_le_mul_of_nonneg_right (by norm_num) (abs_nonneg _))
  refine ⟨key2, ?_, hlq, r2, fun h1 => ?_⟩
  · have := abs_sub_abs_le_abs_sub (R b64 (ratio y) * R b64 p) (Real.log (R b64 y) / Real.log 2)
    norm_num at *
    linarith
  · have g := hgt h1
    have l0 : 0 < Real.log 2 := by linarith
    rw [hl, abs_div, abs_of_pos l0, le_div_iff₀ l0, abs_mul, abs_of_pos (by norm_num : (0 : ℝ) < 2)]
    norm_num at *
    linarith

/-- `fma` without an addend. -/
theorem fma_zero_add {a b c : Nat} (ha : Fin b64 a) (hb : Fin b64 b) (hc : Fin b64 c) (h0 : R b64 c = 0) (h : |R b64 a * R b64 b| ≤ 2 ^ 64) :
    ∃ r, Math.fma a b c = some r ∧ Fin b64 r ∧ |R b64 r - R b64 a * R b64 b| ≤ 1 / 2 ^ 53 * |R b64 a * R b64 b| + 1 / 2 ^ 250 ∧
      (R b64 a = 0 → R b64 r = 0) := by
  obtain ⟨m1, m2⟩ := mul_err big64.top ha hb h
  rw [eps64] at m2
  have m3 : |R b64 (b64.mul a b) - R b64 a * R b64 b| ≤ 1 / 2 ^ 53 * |R b64 a * R b64 b| + 1 / 2 ^ 250 := m2.trans (add_le_add le_rfl eta64)
  have m4 : R b64 a = 0 → R b64 (b64.mul a b) = 0 := fun h => (mul_zeroR ha hb (Or.inl h)).2
  unfold Math.fma
  rw [Math.truth_self ha, Math.truth_self hb, Math.truth_self hc, if_neg (by simp), if_neg (by simp)]
  split
  · obtain ⟨k1, k2⟩ := add_hit m1 hc m1 (by rw [h0, _root_.add_zero])
    exact ⟨_, rfl, k1, by rw [k2]; exact m3, fun h => by rw [k2]; exact m4 h⟩
  · rw [if_pos (by rw [truth_R hc]; exact fun k => k h0)]
    exact ⟨_, rfl, m1, m3, m4⟩

theorem pat_ofInt (e : Int) : Pat b64 (b64.ofInt e) := by
  unfold Fmt.ofInt Fmt.rndInt
  split
  · exact Math.pat_pack (Nat.zero_le _)
  · exact Math.pat_pack (rnd_le _ _ Nat.one_pos)

/-- `log2_fast_` -/
theorem log2Fast_rel {x : Nat} (h1 : 2 ^ 52 ≤ x) (h2 : x < b64.inf) :
    ∃ l, log2Fast x = some l ∧ Rel l (Real.log (R b64 x) / Real.log 2) (40 / 2 ^ 53) ∧
      (R b64 x ≠ 1 → 1 / 2 ^ 54 ≤ |Real.log (R b64 x) / Real.log 2|) := by
  obtain ⟨s1, s2, s3, s4, s5⟩ := split64 h1 h2
  obtain ⟨l1, l2⟩ := log_two_bounds
  have l0 : 0 < Real.log 2 := by linarith
  have hlo : 0x3FE0000000000000 ≤ fraction64 x := by
    have hinf : b64.inf = 2047 * 2 ^ 52 := rfl
    unfold fraction64 exponent64 s64 u64
    omega
  have hg := near_one hlo (by
    have hinf : b64.inf = 2047 * 2 ^ 52 := rfl
    unfold fraction64 exponent64 s64 u64
    omega)
  obtain ⟨p, p1, p2, p3, p4, p5, p6, p7, p8⟩ := log2_part s1 s2 hg
  have hlog : Real.log (R b64 x) / Real.log 2 = Real.log (R b64 (fraction64 x)) / Real.log 2 + exponent64 x := by
    rw [s3, Real.log_mul (by linarith [s2.1]) (zpow_pos two_pos _).ne', Real.log_zpow]
    field_simp
  unfold log2Fast
  have em : powMantissa x = fraction64 x := rfl
  have ee : powExponent x = exponent64 x := rfl
  simp only
  rw [em, ee]
  change ∃ l, (polyFma (b64.mul (ratio (fraction64 x)) (ratio (fraction64 x))) log2FpC).bind (fun p => Math.fma (ratio (fraction64 x)) p (b64.ofInt (exponent64 x))) = some l ∧ _
  rw [p1, Option.bind_some]
  obtain ⟨i1, i2⟩ := ofInt_R (e := exponent64 x) (by omega)
  have i0 : Pat b64 (b64.ofInt (exponent64 x)) := pat_ofInt _
  by_cases he : exponent64 x = 0
  · have i3 : R b64 (b64.ofInt (exponent64 x)) = 0 := by rw [i2, he]; simp
    obtain ⟨r, r1, r2, r3, r4⟩ := fma_zero_add p2 p3 i1 i3 (p5.trans (by norm_num))
    have hx : fraction64 x = x := s5 he
    rw [hx] at r1 r3 r4 p4 p5 p6 p7 p8 hg ⊢
    refine ⟨r, r1, ⟨r2, ?_⟩, p8⟩
    by_cases h1 : R b64 x = 1
    · rw [r4 (p7 h1), h1]; simp
    · have q8 := p8 h1
      generalize Real.log (R b64 x) / Real.log 2 = L at *
      generalize R b64 (ratio x) * R b64 p = w at *
      have t := abs_sub_le (R b64 r) w L
      have u := abs_sub_abs_le_abs_sub w L
      clear r4 p7 p8
      norm_num at *
      linarith
  · have e1 : 1 ≤ |(exponent64 x : ℝ)| := by
      rw [← Int.cast_abs]; exact_mod_cast Int.one_le_abs he
    have e2 : |(exponent64 x : ℝ)| ≤ 1100 := abs_le.2 ⟨by exact_mod_cast s4.1, by exact_mod_cast s4.2⟩
    obtain ⟨r, r1, r2, -, r3⟩ := fma_near p2 p3 i1 i0 (by rw [i2]; norm_num at *; linarith) (by rw [i2]; norm_num at *; linarith) (by rw [i2]; norm_num at *; linarith)
    rw [i2] at r3
    have low : 0.499 * |(exponent64 x : ℝ)| ≤ |Real.log (R b64 (fraction64 x)) / Real.log 2 + exponent64 x| := by
      have := abs_sub_abs_le_abs_sub (exponent64 x : ℝ) (-(Real.log (R b64 (fraction64 x)) / Real.log 2))
      rw [abs_neg, sub_neg_eq_add, _root_.add_comm (exponent64 x : ℝ)] at this
      norm_num at *
      linarith
    refine ⟨r, r1, ⟨r2, ?_⟩, fun _ => ?_⟩ <;> rw [hlog]
    · generalize Real.log (R b64 (fraction64 x)) / Real.log 2 = L at *
      generalize R b64 (ratio (fraction64 x)) * R b64 p = w at *
      generalize (exponent64 x : ℝ) = e at *
      have t := abs_sub_le (R b64 r) (w + e) (L + e)
      rw [add_sub_add_right_eq_sub] at t
      norm_num at *
      linarith
    · norm_num at *
      linarith

end Verif.Approx
