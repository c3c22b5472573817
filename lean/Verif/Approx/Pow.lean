import Verif.Approx.Fma
import Verif.Approx.Logs
import Verif.Approx.Exp2f
import Verif.Approx.ModelPow

/-! # The polynomials of `powf`, evaluated by `fma` -/

namespace Verif.Approx
open Verif.Float Verif.Approx.Spec
open Verif.Math.Spec (Pat)

theorem log2FpC_0 : Fin b64 0x40071547652B82FE ∧ R b64 0x40071547652B82FE = 6497320848556798 / 2 ^ 51 := by
  exact_mod_cast lit_pos (x := 0x40071547652B82FE) (E := 1024) (m := 6497320848556798) (k := 51) (by norm_num) (by norm_num) (by norm_num) (by norm_num)

theorem log2FpC_1 : Fin b64 0x3FEEC709DC3A03FD ∧ R b64 0x3FEEC709DC3A03FD = 8663094464742397 / 2 ^ 53 := by
  exact_mod_cast lit_pos (x := 0x3FEEC709DC3A03FD) (E := 1022) (m := 8663094464742397) (k := 53) (by norm_num) (by norm_num) (by norm_num) (by norm_num)

theorem log2FpC_2 : Fin b64 0x3FE2776C50EF9BFF ∧ R b64 0x3FE2776C50EF9BFF = 5197856678845439 / 2 ^ 53 := by
  exact_mod_cast lit_pos (x := 0x3FE2776C50EF9BFF) (E := 1022) (m := 5197856678845439) (k := 53) (by norm_num) (by norm_num) (by norm_num) (by norm_num)

theorem log2FpC_3 : Fin b64 0x3FDA61762A7ADE6F ∧ R b64 0x3FDA61762A7ADE6F = 7425509541207663 / 2 ^ 54 := by
  exact_mod_cast lit_pos (x := 0x3FDA61762A7ADE6F) (E := 1021) (m := 7425509541207663) (k := 54) (by norm_num) (by norm_num) (by norm_num) (by norm_num)

theorem log2FpC_4 : Fin b64 0x3FD484B13D7C7384 ∧ R b64 0x3FD484B13D7C7384 = 5775396309857156 / 2 ^ 54 := by
  exact_mod_cast lit_pos (x := 0x3FD484B13D7C7384) (E := 1021) (m := 5775396309857156) (k := 54) (by norm_num) (by norm_num) (by norm_num) (by norm_num)

theorem log2FpC_5 : Fin b64 0x3FD0C9A8494E4AA6 ∧ R b64 0x3FD0C9A8494E4AA6 = 4725324248926886 / 2 ^ 54 := by
  exact_mod_cast lit_pos (x := 0x3FD0C9A8494E4AA6) (E := 1021) (m := 4725324248926886) (k := 54) (by norm_num) (by norm_num) (by norm_num) (by norm_num)

theorem log2FpC_6 : Fin b64 0x3FCC68F59E7642A3 ∧ R b64 0x3FCC68F59E7642A3 = 7996703482725027 / 2 ^ 55 := by
  exact_mod_cast lit_pos (x := 0x3FCC68F59E7642A3) (E := 1020) (m := 7996703482725027) (k := 55) (by norm_num) (by norm_num) (by norm_num) (by norm_num)

theorem log2FpC_7 : Fin b64 0x3FC89F2DDC3C2853 ∧ R b64 0x3FC89F2DDC3C2853 = 6930418758330451 / 2 ^ 55 := by
  exact_mod_cast lit_pos (x := 0x3FC89F2DDC3C2853) (E := 1020) (m := 6930418758330451) (k := 55) (by norm_num) (by norm_num) (by norm_num) (by norm_num)

theorem log2FpC_8 : Fin b64 0x3FC5BBC386027885 ∧ R b64 0x3FC5BBC386027885 = 6117422952249477 / 2 ^ 55 := by
  exact_mod_cast lit_pos (x := 0x3FC5BBC386027885) (E := 1020) (m := 6117422952249477) (k := 55) (by norm_num) (by norm_num) (by norm_num) (by norm_num)

theorem log2FpC_9 : Fin b64 0x3FC33C10DF1FDFB3 ∧ R b64 0x3FC33C10DF1FDFB3 = 5414067718053811 / 2 ^ 55 := by
  exact_mod_cast lit_pos (x := 0x3FC33C10DF1FDFB3) (E := 1020) (m := 5414067718053811) (k := 55) (by norm_num) (by norm_num) (by norm_num) (by norm_num)

theorem log2FpC_10 : Fin b64 0x3FC46BFD1EDD26A7 ∧ R b64 0x3FC46BFD1EDD26A7 = 5748234422920871 / 2 ^ 55 := by
  exact_mod_cast lit_pos (x := 0x3FC46BFD1EDD26A7) (E := 1020) (m := 5748234422920871) (k := 55) (by norm_num) (by norm_num) (by norm_num) (by norm_num)

theorem log2FpC_R : log2FpC.map (R b64) = [6497320848556798 / 2 ^ 51, 8663094464742397 / 2 ^ 53, 5197856678845439 / 2 ^ 53, 7425509541207663 / 2 ^ 54, 5775396309857156 / 2 ^ 54, 4725324248926886 / 2 ^ 54, 7996703482725027 / 2 ^ 55, 6930418758330451 / 2 ^ 55, 6117422952249477 / 2 ^ 55, 5414067718053811 / 2 ^ 55, 5748234422920871 / 2 ^ 55] := by
  simp only [log2FpC, List.map, log2FpC_0.2, log2FpC_1.2, log2FpC_2.2, log2FpC_3.2, log2FpC_4.2, log2FpC_5.2, log2FpC_6.2, log2FpC_7.2, log2FpC_8.2, log2FpC_9.2, log2FpC_10.2]

theorem log2FpC_fin : ∀ c ∈ log2FpC, Fin b64 c ∧ Pat b64 c := by
  unfold log2FpC Fin Pat; decide

theorem exp2FpC_0 : Fin b64 0x3FF0000000000000 ∧ R b64 0x3FF0000000000000 = 4503599627370496 / 2 ^ 52 := by
  exact_mod_cast lit_pos (x := 0x3FF0000000000000) (E := 1023) (m := 4503599627370496) (k := 52) (by norm_num) (by norm_num) (by norm_num) (by norm_num)

theorem exp2FpC_1 : Fin b64 0x3FE62E42FEFA3A19 ∧ R b64 0x3FE62E42FEFA3A19 = 6243314768165401 / 2 ^ 53 := by
  exact_mod_cast lit_pos (x := 0x3FE62E42FEFA3A19) (E := 1022) (m := 6243314768165401) (k := 53) (by norm_num) (by norm_num) (by norm_num) (by norm_num)

theorem exp2FpC_2 : Fin b64 0x3FCEBFBDFF82C598 ∧ R b64 0x3FCEBFBDFF82C598 = 8655072057804184 / 2 ^ 55 := by
  exact_mod_cast lit_pos (x := 0x3FCEBFBDFF82C598) (E := 1020) (m := 8655072057804184) (k := 55) (by norm_num) (by norm_num) (by norm_num) (by norm_num)

theorem exp2FpC_3 : Fin b64 0x3FAC6B08D703CE49 ∧ R b64 0x3FAC6B08D703CE49 = 7998985059159625 / 2 ^ 57 := by
  exact_mod_cast lit_pos (x := 0x3FAC6B08D703CE49) (E := 1018) (m := 7998985059159625) (k := 57) (by norm_num) (by norm_num) (by norm_num) (by norm_num)

theorem exp2FpC_4 : Fin b64 0x3F83B2AB6FBA1DDA ∧ R b64 0x3F83B2AB6FBA1DDA = 5544473941122522 / 2 ^ 59 := by
  exact_mod_cast lit_pos (x := 0x3F83B2AB6FBA1DDA) (E := 1016) (m := 5544473941122522) (k := 59) (by norm_num) (by norm_num) (by norm_num) (by norm_num)

theorem exp2FpC_5 : Fin b64 0x3F55D87FE9D7A584 ∧ R b64 0x3F55D87FE9D7A584 = 6149018406593924 / 2 ^ 62 := by
  exact_mod_cast lit_pos (x := 0x3F55D87FE9D7A584) (E := 1013) (m := 6149018406593924) (k := 62) (by norm_num) (by norm_num) (by norm_num) (by norm_num)

theorem exp2FpC_6 : Fin b64 0x3F2430913096FD9F ∧ R b64 0x3F2430913096FD9F = 5682899677805983 / 2 ^ 65 := by
  exact_mod_cast lit_pos (x := 0x3F2430913096FD9F) (E := 1010) (m := 5682899677805983) (k := 65) (by norm_num) (by norm_num) (by norm_num) (by norm_num)

theorem exp2FpC_7 : Fin b64 0x3EEFFCB54062E698 ∧ R b64 0x3EEFFCB54062E698 = 9003579677533848 / 2 ^ 69 := by
  exact_mod_cast lit_pos (x := 0x3EEFFCB54062E698) (E := 1006) (m := 9003579677533848) (k := 69) (by norm_num) (by norm_num) (by norm_num) (by norm_num)

theorem exp2FpC_8 : Fin b64 0x3EB62BFD47773353 ∧ R b64 0x3EB62BFD47773353 = 6240816313348947 / 2 ^ 72 := by
  exact_mod_cast lit_pos (x := 0x3EB62BFD47773353) (E := 1003) (m := 6240816313348947) (k := 72) (by norm_num) (by norm_num) (by norm_num) (by norm_num)

theorem exp2FpC_9 : Fin b64 0x3E7B675BCA4EEEBB ∧ R b64 0x3E7B675BCA4EEEBB = 7713468305043131 / 2 ^ 76 := by
  exact_mod_cast lit_pos (x := 0x3E7B675BCA4EEEBB) (E := 999) (m := 7713468305043131) (k := 76) (by norm_num) (by norm_num) (by norm_num) (by norm_num)

theorem exp2FpC_10 : Fin b64 0x3E3E6063F7217BC6 ∧ R b64 0x3E3E6063F7217BC6 = 8550231765515206 / 2 ^ 80 := by
  exact_mod_cast lit_pos (x := 0x3E3E6063F7217BC6) (E := 995) (m := 8550231765515206) (k := 80) (by norm_num) (by norm_num) (by norm_num) (by norm_num)

theorem exp2FpC_R : exp2FpC.map (R b64) = [4503599627370496 / 2 ^ 52, 6243314768165401 / 2 ^ 53, 8655072057804184 / 2 ^ 55, 7998985059159625 / 2 ^ 57, 5544473941122522 / 2 ^ 59, 6149018406593924 / 2 ^ 62, 5682899677805983 / 2 ^ 65, 9003579677533848 / 2 ^ 69, 6240816313348947 / 2 ^ 72, 7713468305043131 / 2 ^ 76, 8550231765515206 / 2 ^ 80] := by
  simp only [exp2FpC, List.map, exp2FpC_0.2, exp2FpC_1.2, exp2FpC_2.2, exp2FpC_3.2, exp2FpC_4.2, exp2FpC_5.2, exp2FpC_6.2, exp2FpC_7.2, exp2FpC_8.2, exp2FpC_9.2, exp2FpC_10.2]

theorem exp2FpC_fin : ∀ c ∈ exp2FpC, Fin b64 c ∧ Pat b64 c := by
  unfold exp2FpC Fin Pat; decide

/-! ### Evaluation -/

/-- A bound of the value. -/
noncomputable def fmaBound (X : ℝ) : List ℝ → ℝ
  | [] => 0
  | [c] => c
  | c :: d :: cs => fmaBound X (d :: cs) * X + 1.001 * c

/-- A bound of the error. -/
noncomputable def fmaErr (X : ℝ) : List ℝ → ℝ
  | [] => 0
  | [_] => 0
  | c :: d :: cs => fmaErr X (d :: cs) * X + 8 / 2 ^ 53 * c

/-- Every sum is far from cancelling. -/
def FmaOk (X : ℝ) : List ℝ → Prop
  | [] => False
  | [c] => 0 ≤ c
  | c :: d :: cs => FmaOk X (d :: cs) ∧ fmaBound X (d :: cs) * X ≤ 3 / 4 * c ∧ 1 / 2 ^ 190 ≤ c ∧ c ≤ 10

theorem fma_step {acc x c : Nat} {V T E X C : ℝ} (h : Ap acc V E) (hT : |R b64 acc| ≤ T) (hx : Fin b64 x) (hX : |R b64 x| ≤ X) (hc : Fin b64 c) (hp : Pat b64 c) (hC : R b64 c = C)
    (c1 : T * X ≤ 3 / 4 * C) (c2 : 1 / 2 ^ 190 ≤ C) (c3 : C ≤ 10) :
    ∃ r, Math.fma acc x c = some r ∧ Pat b64 r ∧ Ap r (V * R b64 x + C) (E * X + 8 / 2 ^ 53 * C) ∧ |R b64 r| ≤ T * X + 1.001 * C := by
  have C0 : 0 < C := lt_of_lt_of_le (by norm_num) c2
  have hm : |R b64 acc * R b64 x| ≤ T * X := by
    rw [abs_mul]; exact mul_le_mul hT hX (abs_nonneg _) ((abs_nonneg _).trans hT)
  obtain ⟨r, r1, r2, r0, r3⟩ := fma_near h.fin hx hc hp (by rw [hC, abs_of_pos C0]; exact hm.trans c1) (by rw [hC, abs_of_pos C0]; exact c2)
    (by rw [hC, abs_of_pos C0]; exact c3.trans (by norm_num))
  rw [hC, abs_of_pos C0] at r3
  refine ⟨r, r1, r0, ⟨r2, ?_⟩, ?_⟩
  · have e : R b64 r - (V * R b64 x + C) = (R b64 acc - V) * R b64 x + (R b64 r - (R b64 acc * R b64 x + C)) := by ring
    rw [e]
    refine (abs_add_le _ _).trans (add_le_add ?_ r3)
    rw [abs_mul]
    exact mul_le_mul h.err hX (abs_nonneg _) h.nonneg
  · have e : R b64 r = R b64 acc * R b64 x + (C + (R b64 r - (R b64 acc * R b64 x + C))) := by ring
    rw [e]
    refine (abs_add_le _ _).trans (add_le_add hm ((abs_add_le _ _).trans ?_))
    rw [abs_of_pos C0]
    norm_num at r3 ⊢
    linarith

theorem polyFma_ap {x : Nat} {X : ℝ} (hx : Fin b64 x) (hX : |R b64 x| ≤ X) : (cs : List Nat) → (∀ c ∈ cs, Fin b64 c ∧ Pat b64 c) → FmaOk X (cs.map (R b64)) →
    ∃ r, polyFma x cs = some r ∧ Pat b64 r ∧ Ap r (poly (R b64 x) (cs.map (R b64))) (fmaErr X (cs.map (R b64))) ∧ |R b64 r| ≤ fmaBound X (cs.map (R b64))
  | [], _, h => h.elim
  | [c], hf, h => by
    refine ⟨c, rfl, (hf c (by simp)).2, ⟨(hf c (by simp)).1, ?_⟩, ?_⟩
    · simp [poly, fmaErr]
    · simp only [List.map, fmaBound]
      rw [abs_of_nonneg h]
  | c :: d :: cs, hf, h => by
    obtain ⟨h1, h2, h3, h4⟩ := h
    obtain ⟨acc, a1, -, a2, a3⟩ := polyFma_ap hx hX (d :: cs) (fun e he => hf e (by simp at he ⊢; tauto)) h1
    obtain ⟨r, r1, r0, r2, r3⟩ := fma_step a2 a3 hx hX (hf c (by simp)).1 (hf c (by simp)).2 rfl h2 h3 h4
    refine ⟨r, ?_, r0, r2, r3⟩
    unfold polyFma
    rw [a1, Option.bind_some, r1]

theorem log2FpC_ok : FmaOk 0.0295 (log2FpC.map (R b64)) := by
  rw [log2FpC_R]
  simp only [FmaOk, fmaBound]
  norm_num

theorem log2FpC_err : fmaErr 0.0295 (log2FpC.map (R b64)) ≤ 23.6 / 2 ^ 53 := by
  rw [log2FpC_R]
  simp only [fmaErr]
  norm_num

theorem exp2FpC_ok : FmaOk (1 / 2) (exp2FpC.map (R b64)) := by
  rw [exp2FpC_R]
  simp only [FmaOk, fmaBound]
  norm_num

theorem exp2FpC_err : fmaErr (1 / 2) (exp2FpC.map (R b64)) ≤ 12 / 2 ^ 53 := by
  rw [exp2FpC_R]
  simp only [fmaErr]
  norm_num

/-! ### Approximation -/

theorem poly_scale (t k : ℝ) : (cs : List ℝ) → k * poly t cs = poly t (cs.map (k * ·))
  | [] => by simp [poly]
  | c :: cs => by simp only [poly, List.map_cons]; rw [← poly_scale t k cs]; ring

/-- The polynomial of the logarithm. -/
theorem log2FpC_poly {t : ℝ} (h : |t| ≤ 0.1716) : |t * poly (t ^ 2) (log2FpC.map (R b64)) * (0.693147180559945309417232121458 / 2) - ath t| ≤ |t| * (1 / 2 ^ 53) := by
  have h1 := ath_series h
  have hs : t + t * t ^ 2 * poly (t ^ 2) [1 / 3, 1 / 5, 1 / 7, 1 / 9, 1 / 11, 1 / 13, 1 / 15, 1 / 17, 1 / 19, 1 / 21, 1 / 23, 1 / 25] = t * poly (t ^ 2) [1 / 1, 1 / 3, 1 / 5, 1 / 7, 1 / 9, 1 / 11, 1 / 13, 1 / 15, 1 / 17, 1 / 19, 1 / 21, 1 / 23, 1 / 25] := by
    simp only [poly]; ring
  rw [hs] at h1
  have hu : |t ^ 2| ≤ 0.02945 := by
    rw [abs_pow]; refine (pow_le_pow_left₀ (abs_nonneg _) h 2).trans (by norm_num)
  have e0 := poly_scale (t ^ 2) (0.693147180559945309417232121458 / 2) (log2FpC.map (R b64))
  have h2 := poly_sub (t ^ 2) ((log2FpC.map (R b64)).map (0.693147180559945309417232121458 / 2 * ·) ++ [0, 0]) [1 / 1, 1 / 3, 1 / 5, 1 / 7, 1 / 9, 1 / 11, 1 / 13, 1 / 15, 1 / 17, 1 / 19, 1 / 21, 1 / 23, 1 / 25] (by rfl)
  have h3 : poly (t ^ 2) ((log2FpC.map (R b64)).map (0.693147180559945309417232121458 / 2 * ·) ++ [0, 0]) = poly (t ^ 2) ((log2FpC.map (R b64)).map (0.693147180559945309417232121458 / 2 * ·)) := by
    rw [log2FpC_R]; simp [poly]
  rw [h3, ← e0] at h2
  have h4 := poly_abs hu (List.zipWith (· - ·) ((log2FpC.map (R b64)).map (0.693147180559945309417232121458 / 2 * ·) ++ [0, 0]) [1 / 1, 1 / 3, 1 / 5, 1 / 7, 1 / 9, 1 / 11, 1 / 13, 1 / 15, 1 / 17, 1 / 19, 1 / 21, 1 / 23, 1 / 25])
  rw [← h2] at h4
  have h5 : poly (0.02945 : ℝ) ((List.zipWith (· - ·) ((log2FpC.map (R b64)).map (0.693147180559945309417232121458 / 2 * ·) ++ [0, 0]) [1 / 1, 1 / 3, 1 / 5, 1 / 7, 1 / 9, 1 / 11, 1 / 13, 1 / 15, 1 / 17, 1 / 19, 1 / 21, 1 / 23, 1 / 25]).map abs) ≤ 0.99 / 2 ^ 53 := by
    rw [log2FpC_R]
    simp only [List.cons_append, List.nil_append, List.zipWith_cons_cons, List.zipWith_nil_left, List.map, poly]
    norm_num [abs_of_pos, abs_of_neg]
  have h6 := h4.trans h5
  generalize poly (t ^ 2) (log2FpC.map (R b64)) = P at *
  generalize poly (t ^ 2) [1 / 1, 1 / 3, 1 / 5, 1 / 7, 1 / 9, 1 / 11, 1 / 13, 1 / 15, 1 / 17, 1 / 19, 1 / 21, 1 / 23, 1 / 25] = Q at *
  have h7 : |t * P * (0.693147180559945309417232121458 / 2) - t * Q| ≤ |t| * (0.99 / 2 ^ 53) := by
    rw [show t * P * (0.693147180559945309417232121458 / 2) - t * Q = t * (0.693147180559945309417232121458 / 2 * P - Q) by ring, abs_mul]
    exact mul_le_mul_of_nonneg_left h6 (abs_nonneg _)
  have a := abs_le.1 h7
  have b := abs_le.1 h1
  have : 0 ≤ |t| := abs_nonneg t
  exact abs_le.2 ⟨by linarith, by linarith⟩

/-- Chebyshev's polynomials. -/
noncomputable def ch : Nat → ℝ → ℝ
  | 0, _ => 1
  | 1, x => x
  | n + 2, x => 2 * x * ch (n + 1) x - ch n x

theorem ch_cos (θ : ℝ) : (n : Nat) → ch n (Real.cos θ) = Real.cos (n * θ)
  | 0 => by simp [ch]
  | 1 => by simp [ch]
  | n + 2 => by
    simp only [ch]
    rw [ch_cos θ (n + 1), ch_cos θ n]
    push_cast
    rw [show ((n : ℝ) + 2) * θ = (n + 1) * θ + θ by ring, show (n : ℝ) * θ = (n + 1) * θ - θ by ring, Real.cos_add, Real.cos_sub]
    ring

theorem ch_le {x : ℝ} (h : |x| ≤ 1) (n : Nat) : |ch n x| ≤ 1 := by
  have := abs_le.1 h
  rw [← Real.cos_arccos this.1 this.2, ch_cos]
  exact Real.abs_cos_le_one _

theorem ch_term {x a : ℝ} (h : |x| ≤ 1) (n : Nat) : |a * ch n x| ≤ |a| := by
  rw [abs_mul]
  exact mul_le_of_le_one_right (abs_nonneg _) (ch_le h n)

/-- Taylor's coefficients in decimal digits. -/
theorem exp2_digits {t : ℝ} (h : |t| ≤ 1 / 2) : |poly t (1 :: [(0.693147180559945309417232121458 : ℝ), 0.693147180559945309417232121458 ^ 2 / 2, 0.693147180559945309417232121458 ^ 3 / 6, 0.693147180559945309417232121458 ^ 4 / 24, 0.693147180559945309417232121458 ^ 5 / 120, 0.693147180559945309417232121458 ^ 6 / 720, 0.693147180559945309417232121458 ^ 7 / 5040, 0.693147180559945309417232121458 ^ 8 / 40320, 0.693147180559945309417232121458 ^ 9 / 362880, 0.693147180559945309417232121458 ^ 10 / 3628800, 0.693147180559945309417232121458 ^ 11 / 39916800, 0.693147180559945309417232121458 ^ 12 / 479001600, 0.693147180559945309417232121458 ^ 13 / 6227020800]) - poly t [(1 / 1), (17328679513998632735430803 / 25000000000000000000000000), (12011325347955035616677563 / 50000000000000000000000000), (2775205433241078997657113 / 50000000000000000000000000), (961812910762847716197907 / 100000000000000000000000000), (66667790732142217117061 / 50000000000000000000000000), (15403530393381609954437 / 100000000000000000000000000), (1525273380405984028003 / 100000000000000000000000000), (33038716975360773721 / 25000000000000000000000000), (10178086009239699727 / 100000000000000000000000000), (705491162080112333 / 100000000000000000000000000), (8891076543741623 / 20000000000000000000000000), (2567843599348821 / 100000000000000000000000000), (136914888539041 / 100000000000000000000000000)]| ≤ 1 / 10 ^ 25 := by
  rw [poly_sub t _ _ (by rfl)]
  refine (poly_abs h _).trans ?_
  simp only [List.zipWith_cons_cons, List.zipWith_nil_left, List.map, poly]
  norm_num [abs_of_pos, abs_of_neg]

theorem exp2_cheb (t : ℝ) : poly t (exp2FpC.map (R b64)) - poly t [(1 / 1), (17328679513998632735430803 / 25000000000000000000000000), (12011325347955035616677563 / 50000000000000000000000000), (2775205433241078997657113 / 50000000000000000000000000), (961812910762847716197907 / 100000000000000000000000000), (66667790732142217117061 / 50000000000000000000000000), (15403530393381609954437 / 100000000000000000000000000), (1525273380405984028003 / 100000000000000000000000000), (33038716975360773721 / 25000000000000000000000000), (10178086009239699727 / 100000000000000000000000000), (705491162080112333 / 100000000000000000000000000), (8891076543741623 / 20000000000000000000000000), (2567843599348821 / 100000000000000000000000000), (136914888539041 / 100000000000000000000000000)] =
    (-(108882988553850257683097964107 / 236118324143482260684800000000000000000000000000)) * ch 0 (2 * t) + (-(121747314226235752935591975011 / 7378697629483820646400000000000000000000000000)) * ch 1 (2 * t) + (1765908430757454839821554171 / 9444732965739290427392000000000000000000000000) * ch 2 (2 * t) + (488824661426961950680090591 / 3689348814741910323200000000000000000000000000) * ch 3 (2 * t) + (59585208327713662865602015141 / 59029581035870565171200000000000000000000000000) * ch 4 (2 * t) + (13013173833336022111503679 / 737869762948382064640000000000000000000000000) * ch 5 (2 * t) + (238873484949506041140204385007 / 472236648286964521369600000000000000000000000000) * ch 6 (2 * t) + (117503485994589861330569787 / 14757395258967641292800000000000000000000000000) * ch 7 (2 * t) + (8663125645224118319242563851 / 47223664828696452136960000000000000000000000000) * ch 8 (2 * t) + (-(22570042064209048071617893 / 590295810358705651712000000000000000000000000)) * ch 9 (2 * t) + (-(285437879033552349492899947057 / 94447329657392904273920000000000000000000000000)) * ch 10 (2 * t) + (-(713066017050337373 / 3355443200000000000000000000000000)) * ch 11 (2 * t) + (-(2567843599348821 / 838860800000000000000000000000000)) * ch 12 (2 * t) + (-(136914888539041 / 3355443200000000000000000000000000)) * ch 13 (2 * t) := by
  rw [exp2FpC_R]
  simp only [poly, ch]
  ring

/-- The polynomial of powers of two. -/
theorem exp2FpC_poly {t : ℝ} (h : |t| ≤ 1 / 2) : |poly t (exp2FpC.map (R b64)) - Real.exp (t * Real.log 2)| ≤ 1 / 2 ^ 46 := by
  have h1 := (exp2_taylor h).trans (mul_le_mul_of_nonneg_left (b := 3 / 10 ^ 24 + |t| ^ 13 / 10 ^ 10) (c := 1.3 / 10 ^ 14) (by
    have : |t| ^ 13 ≤ (1 / 2) ^ 13 := pow_le_pow_left₀ (abs_nonneg _) h 13
    norm_num at *; linarith) (abs_nonneg t))
  have hs : 1 + t * poly t [(0.693147180559945309417232121458 : ℝ), 0.693147180559945309417232121458 ^ 2 / 2, 0.693147180559945309417232121458 ^ 3 / 6, 0.693147180559945309417232121458 ^ 4 / 24, 0.693147180559945309417232121458 ^ 5 / 120, 0.693147180559945309417232121458 ^ 6 / 720, 0.693147180559945309417232121458 ^ 7 / 5040, 0.693147180559945309417232121458 ^ 8 / 40320, 0.693147180559945309417232121458 ^ 9 / 362880, 0.693147180559945309417232121458 ^ 10 / 3628800, 0.693147180559945309417232121458 ^ 11 / 39916800, 0.693147180559945309417232121458 ^ 12 / 479001600, 0.693147180559945309417232121458 ^ 13 / 6227020800] = poly t (1 :: [(0.693147180559945309417232121458 : ℝ), 0.693147180559945309417232121458 ^ 2 / 2, 0.693147180559945309417232121458 ^ 3 / 6, 0.693147180559945309417232121458 ^ 4 / 24, 0.693147180559945309417232121458 ^ 5 / 120, 0.693147180559945309417232121458 ^ 6 / 720, 0.693147180559945309417232121458 ^ 7 / 5040, 0.693147180559945309417232121458 ^ 8 / 40320, 0.693147180559945309417232121458 ^ 9 / 362880, 0.693147180559945309417232121458 ^ 10 / 3628800, 0.693147180559945309417232121458 ^ 11 / 39916800, 0.693147180559945309417232121458 ^ 12 / 479001600, 0.693147180559945309417232121458 ^ 13 / 6227020800]) := by
    simp only [poly]; ring
  rw [hs] at h1
  have h2 := exp2_digits h
  have hx : |2 * t| ≤ 1 := by rw [abs_mul]; norm_num at h ⊢; linarith
  have h3 := exp2_cheb t
  have c0 := abs_le.1 (ch_term (a := -(108882988553850257683097964107 / 236118324143482260684800000000000000000000000000)) hx 0)
  have c1 := abs_le.1 (ch_term (a := -(121747314226235752935591975011 / 7378697629483820646400000000000000000000000000)) hx 1)
  have c2 := abs_le.1 (ch_term (a := 1765908430757454839821554171 / 9444732965739290427392000000000000000000000000) hx 2)
  have c3 := abs_le.1 (ch_term (a := 488824661426961950680090591 / 3689348814741910323200000000000000000000000000) hx 3)
  have c4 := abs_le.1 (ch_term (a := 59585208327713662865602015141 / 59029581035870565171200000000000000000000000000) hx 4)
  have c5 := abs_le.1 (ch_term (a := 13013173833336022111503679 / 737869762948382064640000000000000000000000000) hx 5)
  have c6 := abs_le.1 (ch_term (a := 238873484949506041140204385007 / 472236648286964521369600000000000000000000000000) hx 6)
  have c7 := abs_le.1 (ch_term (a := 117503485994589861330569787 / 14757395258967641292800000000000000000000000000) hx 7)
  have c8 := abs_le.1 (ch_term (a := 8663125645224118319242563851 / 47223664828696452136960000000000000000000000000) hx 8)
  have c9 := abs_le.1 (ch_term (a := -(22570042064209048071617893 / 590295810358705651712000000000000000000000000)) hx 9)
  have c10 := abs_le.1 (ch_term (a := -(285437879033552349492899947057 / 94447329657392904273920000000000000000000000000)) hx 10)
  have c11 := abs_le.1 (ch_term (a := -(713066017050337373 / 3355443200000000000000000000000000)) hx 11)
  have c12 := abs_le.1 (ch_term (a := -(2567843599348821 / 838860800000000000000000000000000)) hx 12)
  have c13 := abs_le.1 (ch_term (a := -(136914888539041 / 3355443200000000000000000000000000)) hx 13)
  generalize poly t (exp2FpC.map (R b64)) = P at *
  generalize poly t (1 :: [(0.693147180559945309417232121458 : ℝ), 0.693147180559945309417232121458 ^ 2 / 2, 0.693147180559945309417232121458 ^ 3 / 6, 0.693147180559945309417232121458 ^ 4 / 24, 0.693147180559945309417232121458 ^ 5 / 120, 0.693147180559945309417232121458 ^ 6 / 720, 0.693147180559945309417232121458 ^ 7 / 5040, 0.693147180559945309417232121458 ^ 8 / 40320, 0.693147180559945309417232121458 ^ 9 / 362880, 0.693147180559945309417232121458 ^ 10 / 3628800, 0.693147180559945309417232121458 ^ 11 / 39916800, 0.693147180559945309417232121458 ^ 12 / 479001600, 0.693147180559945309417232121458 ^ 13 / 6227020800]) = Q at *
  generalize poly t [(1 / 1), (17328679513998632735430803 / 25000000000000000000000000), (12011325347955035616677563 / 50000000000000000000000000), (2775205433241078997657113 / 50000000000000000000000000), (961812910762847716197907 / 100000000000000000000000000), (66667790732142217117061 / 50000000000000000000000000), (15403530393381609954437 / 100000000000000000000000000), (1525273380405984028003 / 100000000000000000000000000), (33038716975360773721 / 25000000000000000000000000), (10178086009239699727 / 100000000000000000000000000), (705491162080112333 / 100000000000000000000000000), (8891076543741623 / 20000000000000000000000000), (2567843599348821 / 100000000000000000000000000), (136914888539041 / 100000000000000000000000000)] = W at *
  generalize (-(108882988553850257683097964107 / 236118324143482260684800000000000000000000000000) : ℝ) * ch 0 (2 * t) = u0 at *
  generalize (-(121747314226235752935591975011 / 7378697629483820646400000000000000000000000000) : ℝ) * ch 1 (2 * t) = u1 at *
  generalize (1765908430757454839821554171 / 9444732965739290427392000000000000000000000000 : ℝ) * ch 2 (2 * t) = u2 at *
  generalize (488824661426961950680090591 / 3689348814741910323200000000000000000000000000 : ℝ) * ch 3 (2 * t) = u3 at *
  generalize (59585208327713662865602015141 / 59029581035870565171200000000000000000000000000 : ℝ) * ch 4 (2 * t) = u4 at *
  generalize (13013173833336022111503679 / 737869762948382064640000000000000000000000000 : ℝ) * ch 5 (2 * t) = u5 at *
  generalize (238873484949506041140204385007 / 472236648286964521369600000000000000000000000000 : ℝ) * ch 6 (2 * t) = u6 at *
  generalize (117503485994589861330569787 / 14757395258967641292800000000000000000000000000 : ℝ) * ch 7 (2 * t) = u7 at *
  generalize (8663125645224118319242563851 / 47223664828696452136960000000000000000000000000 : ℝ) * ch 8 (2 * t) = u8 at *
  generalize (-(22570042064209048071617893 / 590295810358705651712000000000000000000000000) : ℝ) * ch 9 (2 * t) = u9 at *
  generalize (-(285437879033552349492899947057 / 94447329657392904273920000000000000000000000000) : ℝ) * ch 10 (2 * t) = u10 at *
  generalize (-(713066017050337373 / 3355443200000000000000000000000000) : ℝ) * ch 11 (2 * t) = u11 at *
  generalize (-(2567843599348821 / 838860800000000000000000000000000) : ℝ) * ch 12 (2 * t) = u12 at *
  generalize (-(136914888539041 / 3355443200000000000000000000000000) : ℝ) * ch 13 (2 * t) = u13 at *
  norm_num [abs_of_pos, abs_of_neg] at c0 c1 c2 c3 c4 c5 c6 c7 c8 c9 c10 c11 c12 c13
  have a := abs_le.1 h2
  have b := abs_le.1 h1
  have : 0 ≤ |t| := abs_nonneg t
  exact abs_le.2 ⟨by norm_num at *; linarith, by norm_num at *; linarith⟩

end Verif.Approx
