import Verif.Approx.ModelLog
import Verif.Approx.Rel
import Verif.Approx.Hyper
import Mathlib.Analysis.SpecialFunctions.Log.Deriv

/-! # The inverse hyperbolic tangent near zero, and its polynomial -/

namespace Verif.Approx
open Verif.Float

theorem atanhC_0 : Fin b64 0x3FD55555555553B3 ∧ R b64 0x3FD55555555553B3 = 6004799503160243 / 2 ^ 54 := by
  exact_mod_cast lit_pos (x := 0x3FD55555555553B3) (E := 1021) (m := 6004799503160243) (k := 54) (by norm_num) (by norm_num) (by norm_num) (by norm_num)

theorem atanhC_1 : Fin b64 0x3FC9999999B8B079 ∧ R b64 0x3FC9999999B8B079 = 7205759405830265 / 2 ^ 55 := by
  exact_mod_cast lit_pos (x := 0x3FC9999999B8B079) (E := 1020) (m := 7205759405830265) (k := 55) (by norm_num) (by norm_num) (by norm_num) (by norm_num)

theorem atanhC_2 : Fin b64 0x3FC249246261F73E ∧ R b64 0x3FC249246261F73E = 5146970199029566 / 2 ^ 55 := by
  exact_mod_cast lit_pos (x := 0x3FC249246261F73E) (E := 1020) (m := 5146970199029566) (k := 55) (by norm_num) (by norm_num) (by norm_num) (by norm_num)

theorem atanhC_3 : Fin b64 0x3FBC71FD073EF892 ∧ R b64 0x3FBC71FD073EF892 = 8006630910130322 / 2 ^ 56 := by
  exact_mod_cast lit_pos (x := 0x3FBC71FD073EF892) (E := 1019) (m := 8006630910130322) (k := 56) (by norm_num) (by norm_num) (by norm_num) (by norm_num)

theorem atanhC_4 : Fin b64 0x3FB73824FFF997BB ∧ R b64 0x3FB73824FFF997BB = 6535656028870587 / 2 ^ 56 := by
  exact_mod_cast lit_pos (x := 0x3FB73824FFF997BB) (E := 1019) (m := 6535656028870587) (k := 56) (by norm_num) (by norm_num) (by norm_num) (by norm_num)

theorem atanhC_5 : Fin b64 0x3FB5471A00A27E2D ∧ R b64 0x3FB5471A00A27E2D = 5989151516294701 / 2 ^ 56 := by
  exact_mod_cast lit_pos (x := 0x3FB5471A00A27E2D) (E := 1019) (m := 5989151516294701) (k := 56) (by norm_num) (by norm_num) (by norm_num) (by norm_num)

/-- The coefficients as rational numbers. -/
theorem atanhC_R : atanhC.map (R b64) = [6004799503160243 / 2 ^ 54, 7205759405830265 / 2 ^ 55, 5146970199029566 / 2 ^ 55, 8006630910130322 / 2 ^ 56, 6535656028870587 / 2 ^ 56, 5989151516294701 / 2 ^ 56] := by
  simp only [atanhC, List.map, atanhC_0.2, atanhC_1.2, atanhC_2.2, atanhC_3.2, atanhC_4.2, atanhC_5.2]

theorem atanhC_fin : ∀ c ∈ atanhC, Fin b64 c := by
  unfold atanhC Fin; decide

theorem atanhC_le : ∀ c ∈ atanhC, |R b64 c| ≤ 1 := by
  intro c hc
  simp only [atanhC, List.mem_cons, List.not_mem_nil, or_false] at hc
  rcases hc with rfl | rfl | rfl | rfl | rfl | rfl <;> norm_num [atanhC_0.2, atanhC_1.2, atanhC_2.2, atanhC_3.2, atanhC_4.2, atanhC_5.2]

/-- The inverse hyperbolic tangent. -/
noncomputable def ath (t : ℝ) : ℝ := (Real.log (1 + t) - Real.log (1 - t)) / 2

theorem ath_series {t : ℝ} (h : |t| ≤ 0.1716) : |ath t - (t + t * t ^ 2 * poly (t ^ 2) [1 / 3, 1 / 5, 1 / 7, 1 / 9, 1 / 11, 1 / 13, 1 / 15, 1 / 17, 1 / 19, 1 / 21, 1 / 23, 1 / 25])| ≤ |t| * (2 / 10 ^ 20) := by
  have h1 : |t| < 1 := lt_of_le_of_lt h (by norm_num)
  have a := Real.abs_log_sub_add_sum_range_le h1 26
  have b := Real.abs_log_sub_add_sum_range_le (x := -t) (by rwa [abs_neg]) 26
  rw [abs_neg, sub_neg_eq_add] at b
  have e : (∑ i ∈ Finset.range 26, t ^ (i + 1) / ((i : ℝ) + 1)) - ∑ i ∈ Finset.range 26, (-t) ^ (i + 1) / ((i : ℝ) + 1) =
      2 * (t + t * t ^ 2 * poly (t ^ 2) [1 / 3, 1 / 5, 1 / 7, 1 / 9, 1 / 11, 1 / 13, 1 / 15, 1 / 17, 1 / 19, 1 / 21, 1 / 23, 1 / 25]) := by
    simp only [Finset.sum_range_succ, Finset.sum_range_zero, poly]
    norm_num
    ring
  have c : |t| ^ (26 + 1) / (1 - |t|) ≤ |t| * (2 / 10 ^ 20) := by
    have hd : 0 < 1 - |t| := by linarith
    rw [div_le_iff₀ hd, pow_succ', mul_assoc]
    refine mul_le_mul_of_nonneg_left ?_ (abs_nonneg _)
    have : |t| ^ 26 ≤ 0.1716 ^ 26 := pow_le_pow_left₀ (abs_nonneg _) h 26
    refine this.trans ?_
    have : (2 : ℝ) / 10 ^ 20 * (1 - 0.1716) ≤ 2 / 10 ^ 20 * (1 - |t|) := by gcongr
    refine le_trans ?_ this
    norm_num
  have a' := abs_le.1 (a.trans c)
  have b' := abs_le.1 (b.trans c)
  unfold ath
  generalize (∑ i ∈ Finset.range 26, t ^ (i + 1) / ((i : ℝ) + 1)) = A at *
  generalize (∑ i ∈ Finset.range 26, (-t) ^ (i + 1) / ((i : ℝ) + 1)) = B at *
  generalize t + t * t ^ 2 * poly (t ^ 2) [1 / 3, 1 / 5, 1 / 7, 1 / 9, 1 / 11, 1 / 13, 1 / 15, 1 / 17, 1 / 19, 1 / 21, 1 / 23, 1 / 25] = P at *
  exact abs_le.2 ⟨by linarith, by linarith⟩

theorem ath_neg (t : ℝ) : ath (-t) = -ath t := by
  unfold ath
  rw [sub_neg_eq_add, ← sub_eq_add_neg]; ring

theorem ath_zero : ath 0 = 0 := by simp [ath]

theorem le_ath {t : ℝ} (h0 : 0 ≤ t) (h1 : t < 1) : t ≤ ath t := by
  have h := Real.hasSum_log_sub_log_of_abs_lt_one (x := t) (by rwa [abs_of_nonneg h0])
  have := h.summable.sum_le_tsum {0} (fun i _ => by positivity)
  rw [h.tsum_eq, Finset.sum_singleton] at this
  unfold ath
  norm_num at this
  linarith

theorem abs_le_ath {t : ℝ} (h : |t| < 1) : |t| ≤ |ath t| := by
  rcases le_total 0 t with h0 | h0
  · rw [abs_of_nonneg h0] at *
    have := le_ath h0 h
    exact this.trans (le_abs_self _)
  · rw [abs_of_nonpos h0] at *
    have := le_ath (t := -t) (by linarith) h
    rw [ath_neg] at this
    exact this.trans (neg_le_abs _)

/-- The polynomial of the kernel, for reduced arguments. -/
theorem atanhC_poly {t : ℝ} (h : |t| ≤ 0.1716) :
    |t + t * t ^ 2 * poly (t ^ 2) (atanhC.map (R b64)) - ath t| ≤ |t| * (1.31 / 10 ^ 11) := by
  have h1 := ath_series h
  have hu : |t ^ 2| ≤ 0.02945 := by
    rw [abs_pow]; refine (pow_le_pow_left₀ (abs_nonneg _) h 2).trans (by norm_num)
  have h2 := poly_sub (t ^ 2) (atanhC.map (R b64) ++ [0, 0, 0, 0, 0, 0]) [1 / 3, 1 / 5, 1 / 7, 1 / 9, 1 / 11, 1 / 13, 1 / 15, 1 / 17, 1 / 19, 1 / 21, 1 / 23, 1 / 25] (by rfl)
  have h3 : poly (t ^ 2) (atanhC.map (R b64) ++ [0, 0, 0, 0, 0, 0]) = poly (t ^ 2) (atanhC.map (R b64)) := by
    rw [atanhC_R]; simp [poly]
  rw [h3] at h2
  have h4 := poly_abs hu (List.zipWith (· - ·) (atanhC.map (R b64) ++ [0, 0, 0, 0, 0, 0]) [1 / 3, 1 / 5, 1 / 7, 1 / 9, 1 / 11, 1 / 13, 1 / 15, 1 / 17, 1 / 19, 1 / 21, 1 / 23, 1 / 25])
  rw [← h2, atanhC_R] at h4
  rw [atanhC_R]
  have h5 : poly (0.02945 : ℝ) ((List.zipWith (· - ·) ([6004799503160243 / 2 ^ 54, 7205759405830265 / 2 ^ 55, 5146970199029566 / 2 ^ 55, 8006630910130322 / 2 ^ 56, 6535656028870587 / 2 ^ 56, 5989151516294701 / 2 ^ 56] ++ [0, 0, 0, 0, 0, 0]) [1 / 3, 1 / 5, 1 / 7, 1 / 9, 1 / 11, 1 / 13, 1 / 15, 1 / 17, 1 / 19, 1 / 21, 1 / 23, 1 / 25]).map abs) ≤ 4.42 / 10 ^ 10 := by
    simp only [List.cons_append, List.nil_append, List.zipWith_cons_cons, List.zipWith_nil_left, List.map, poly]
    norm_num [abs_of_pos, abs_of_neg]
  have h6 := h4.trans h5
  generalize poly (t ^ 2) [6004799503160243 / 2 ^ 54, 7205759405830265 / 2 ^ 55, 5146970199029566 / 2 ^ 55, 8006630910130322 / 2 ^ 56, 6535656028870587 / 2 ^ 56, 5989151516294701 / 2 ^ 56] = P at *
  generalize poly (t ^ 2) [1 / 3, 1 / 5, 1 / 7, 1 / 9, 1 / 11, 1 / 13, 1 / 15, 1 / 17, 1 / 19, 1 / 21, 1 / 23, 1 / 25] = Q at *
  have h8 : |t * t ^ 2 * (P - Q)| ≤ |t| * (0.02945 * (4.42 / 10 ^ 10)) := by
    rw [abs_mul, abs_mul, mul_assoc]
    exact mul_le_mul_of_nonneg_left (mul_le_mul hu h6 (abs_nonneg _) (by norm_num)) (abs_nonneg _)
  have a := abs_le.1 h8
  have b := abs_le.1 h1
  have : 0 ≤ |t| := abs_nonneg t
  exact abs_le.2 ⟨by linarith, by linarith⟩

/-- A polynomial with small coefficients varies little. -/
theorem poly_lip {s u : ℝ} (hs : |s| ≤ 1 / 2) (hu : |u| ≤ 1 / 2) : (cs : List ℝ) → (∀ c ∈ cs, |c| ≤ 1) →
    |poly u cs| ≤ 2 ∧ |poly s cs - poly u cs| ≤ 4 * |s - u|
  | [], _ => by simp [poly]
  | c :: cs, h => by
    obtain ⟨k1, k2⟩ := poly_lip hs hu cs (fun c hc => h c (by simp [hc]))
    have hc := h c (by simp)
    simp only [poly]
    generalize poly u cs = pu at *
    generalize poly s cs = ps at *
    refine ⟨?_, ?_⟩
    · refine (abs_add_le _ _).trans ?_
      rw [abs_mul]
      have := mul_le_mul k1 hu (abs_nonneg _) (by norm_num)
      linarith
    · rw [show ps * s + c - (pu * u + c) = (ps - pu) * s + pu * (s - u) by ring]
      refine (abs_add_le _ _).trans ?_
      rw [abs_mul, abs_mul]
      have a1 := mul_le_mul k2 hs (abs_nonneg _) (by positivity)
      have a2 := mul_le_mul_of_nonneg_right k1 (abs_nonneg (s - u))
      linarith

/-- The kernel, up to an absolute error. -/
theorem kernelAtanh_ap {x : Nat} (hx : Fin b64 x) (h : |R b64 x| ≤ 0.1716) :
    Ap (kernelAtanh x) (ath (R b64 x)) (|R b64 x| * (1.32 / 10 ^ 11) + 1 / 2 ^ 245) := by
  have hX := Ap.exact hx
  have h0 := abs_nonneg (R b64 x)
  have hu : |R b64 x * R b64 x| ≤ 0.02945 := by
    rw [abs_mul]; exact (mul_le_mul h h (abs_nonneg _) (by norm_num)).trans (by norm_num)
  have hm := (hX.mul hX h h (by norm_num)).mono (d := 0.0295 / 2 ^ 53) (by norm_num)
  unfold kernelAtanh
  simp only
  generalize b64.mul x x = xx at *
  have hs : |R b64 xx| ≤ 1 / 2 := (hm.abs_le hu).trans (by norm_num)
  obtain ⟨p1, -⟩ := horner_ap hm.fin hs atanhC atanhC_fin atanhC_le (by simp [atanhC])
  obtain ⟨p3, p4⟩ := poly_lip hs (hu.trans (by norm_num)) (atanhC.map (R b64)) (by
    intro c hc
    obtain ⟨d, hd, rfl⟩ := List.mem_map.1 hc
    exact atanhC_le d hd)
  have p5 := (p1.shift (p4.trans (mul_le_mul_of_nonneg_left hm.err (by norm_num)))).mono (d := 9 / 2 ^ 53) (by norm_num)
  generalize horner xx atanhC = P at *
  have m1 := (hX.mul hm le_rfl hu (by linarith)).mono (d := |R b64 x| * (0.06 / 2 ^ 53) + 1 / 2 ^ 250) (by linarith)
  have v1 : |R b64 x * (R b64 x * R b64 x)| ≤ |R b64 x| * 0.02945 := by rw [abs_mul]; exact mul_le_mul_of_nonneg_left hu h0
  have m2 := (m1.mul p5 v1 p3 (by linarith)).mono (d := |R b64 x| * (0.5 / 2 ^ 53) + 1 / 2 ^ 248) (by linarith)
  have v2 : |R b64 x + R b64 x * (R b64 x * R b64 x) * poly (R b64 x * R b64 x) (atanhC.map (R b64))| ≤ |R b64 x| * 1.06 := by
    refine (abs_add_le _ _).trans ?_
    rw [abs_mul]
    have := mul_le_mul v1 p3 (abs_nonneg _) (by positivity)
    linarith
  have m3 := hX.add m2 v2 (by linarith)
  have e := atanhC_poly h
  rw [pow_two] at e
  exact (m3.shift e).mono (by linarith)

/-- A product with zero is zero. -/
theorem mul_zeroR {F : Fmt} {x y : Nat} (hx : Fin F x) (hy : Fin F y) (h : R F x = 0 ∨ R F y = 0) : Fin F (F.mul x y) ∧ R F (F.mul x y) = 0 := by
  have e : F.mag (F.abs x) * F.mag (F.abs y) = 0 := by
    rcases h with h | h <;> rw [R_zero h, F.mag_zero] <;> simp
  rw [Fmt.mul_fin hx hy, e]
  have r : F.rnd 0 (2 ^ F.unit) = 0 := rnd_zero _ (Nat.two_pow_pos _)
  rw [r]
  have hi : 0 < F.inf := Nat.lt_of_le_of_lt (Nat.zero_le _) hx
  refine ⟨fin_pack hi, ?_⟩
  rw [R_pack hi.le, F.mag_zero]; simp

/-- The kernel, up to a relative error. -/
theorem kernelAtanh_rel {x : Nat} (hx : Fin b64 x) (h : |R b64 x| ≤ 0.1716) (hz : R b64 x = 0 ∨ 1 / 2 ^ 160 ≤ |R b64 x|) :
    Rel (kernelAtanh x) (ath (R b64 x)) (1 / 2 ^ 36) := by
  have k := kernelAtanh_ap hx h
  refine ⟨k.fin, ?_⟩
  rcases hz with hz | hz
  · rw [hz, ath_zero]
    unfold kernelAtanh
    simp only
    have a1 := mul_zeroR hx hx (Or.inl hz)
    have a2 := mul_zeroR hx a1.1 (Or.inl hz)
    have a3 := horner_ap a1.1 (by rw [a1.2]; norm_num) atanhC atanhC_fin atanhC_le (by simp [atanhC])
    have a4 := mul_zeroR a2.1 a3.1.fin (Or.inl a2.2)
    have a5 := (add_err ok64 big64.top hx a4.1 (by rw [hz, a4.2]; norm_num)).2
    rw [hz, a4.2] at a5
    simpa using a5
  · have a := abs_le_ath (t := R b64 x) (lt_of_le_of_lt h (by norm_num))
    refine k.err.trans ?_
    have b := mul_le_mul_of_nonneg_left a (show (0 : ℝ) ≤ 1 / 2 ^ 36 by norm_num)
    refine le_trans ?_ b
    linarith

theorem log_lip {a b : ℝ} {m : ℝ} (hm : 0 < m) (ha : m ≤ a) (hb : m ≤ b) : |Real.log a - Real.log b| ≤ |a - b| / m := by
  have key : ∀ {a b : ℝ}, m ≤ a → m ≤ b → Real.log a - Real.log b ≤ |a - b| / m := by
    intro a b ha hb
    have a0 : 0 < a := lt_of_lt_of_le hm ha
    have b0 : 0 < b := lt_of_lt_of_le hm hb
    rw [← Real.log_div a0.ne' b0.ne']
    refine (Real.log_le_sub_one_of_pos (by positivity)).trans ?_
    rw [show a / b - 1 = (a - b) / b by field_simp]
    refine (div_le_div_of_nonneg_right (le_abs_self _) b0.le).trans ?_
    exact div_le_div_of_nonneg_left (abs_nonneg _) hm hb
  refine abs_le.2 ⟨?_, key ha hb⟩
  have := key hb ha
  rw [abs_sub_comm] at this
  linarith

theorem ath_lip {a b : ℝ} (ha : |a| ≤ 0.1716) (hb : |b| ≤ 0.1716) : |ath a - ath b| ≤ 1.21 * |a - b| := by
  have a1 := abs_le.1 ha
  have b1 := abs_le.1 hb
  have p := log_lip (a := 1 + a) (b := 1 + b) (m := 0.8284) (by norm_num) (by linarith) (by linarith)
  have q := log_lip (a := 1 - a) (b := 1 - b) (m := 0.8284) (by norm_num) (by linarith) (by linarith)
  rw [show 1 + a - (1 + b) = a - b by ring] at p
  rw [show 1 - a - (1 - b) = -(a - b) by ring, abs_neg] at q
  unfold ath
  have h0 := abs_nonneg (a - b)
  have c : |a - b| / 0.8284 ≤ 1.21 * |a - b| := by
    rw [div_le_iff₀ (by norm_num)]; linarith
  have p1 := abs_le.1 (p.trans c)
  have q1 := abs_le.1 (q.trans c)
  refine abs_le.2 ⟨by linarith, by linarith⟩

end Verif.Approx
