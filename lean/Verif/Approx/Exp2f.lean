import Verif.Approx.Expf
import Verif.Approx.Exact
import Verif.Approx.Hard

/-! # The error of `exp2f` -/

namespace Verif.Approx
open Verif.Float Verif.Approx.Spec
open Verif.Math.Spec (Pat)

theorem exp2C_0 : Fin b64 0x3FE62E42FEFA3A17 ∧ R b64 0x3FE62E42FEFA3A17 = 6243314768165399 / 2 ^ 53 := by
  exact_mod_cast lit_pos (x := 0x3FE62E42FEFA3A17) (E := 1022) (m := 6243314768165399) (k := 53) (by norm_num) (by norm_num) (by norm_num) (by norm_num)

theorem exp2C_1 : Fin b64 0x3FCEBFBDFF82C472 ∧ R b64 0x3FCEBFBDFF82C472 = 8655072057803890 / 2 ^ 55 := by
  exact_mod_cast lit_pos (x := 0x3FCEBFBDFF82C472) (E := 1020) (m := 8655072057803890) (k := 55) (by norm_num) (by norm_num) (by norm_num) (by norm_num)

theorem exp2C_2 : Fin b64 0x3FAC6B08D703D59E ∧ R b64 0x3FAC6B08D703D59E = 7998985059161502 / 2 ^ 57 := by
  exact_mod_cast lit_pos (x := 0x3FAC6B08D703D59E) (E := 1018) (m := 7998985059161502) (k := 57) (by norm_num) (by norm_num) (by norm_num) (by norm_num)

theorem exp2C_3 : Fin b64 0x3F83B2AB6FBCE3BC ∧ R b64 0x3F83B2AB6FBCE3BC = 5544473941304252 / 2 ^ 59 := by
  exact_mod_cast lit_pos (x := 0x3F83B2AB6FBCE3BC) (E := 1016) (m := 5544473941304252) (k := 59) (by norm_num) (by norm_num) (by norm_num) (by norm_num)

theorem exp2C_4 : Fin b64 0x3F55D87FE9CAB51F ∧ R b64 0x3F55D87FE9CAB51F = 6149018405745951 / 2 ^ 62 := by
  exact_mod_cast lit_pos (x := 0x3F55D87FE9CAB51F) (E := 1013) (m := 6149018405745951) (k := 62) (by norm_num) (by norm_num) (by norm_num) (by norm_num)

theorem exp2C_5 : Fin b64 0x3F243091283E2AD1 ∧ R b64 0x3F243091283E2AD1 = 5682899537767121 / 2 ^ 65 := by
  exact_mod_cast lit_pos (x := 0x3F243091283E2AD1) (E := 1010) (m := 5682899537767121) (k := 65) (by norm_num) (by norm_num) (by norm_num) (by norm_num)

theorem exp2C_6 : Fin b64 0x3EEFFCB562818C22 ∧ R b64 0x3EEFFCB562818C22 = 9003580249967650 / 2 ^ 69 := by
  exact_mod_cast lit_pos (x := 0x3EEFFCB562818C22) (E := 1006) (m := 9003580249967650) (k := 69) (by norm_num) (by norm_num) (by norm_num) (by norm_num)

theorem exp2C_7 : Fin b64 0x3EB62C111D5715E8 ∧ R b64 0x3EB62C111D5715E8 = 6240901505947112 / 2 ^ 72 := by
  exact_mod_cast lit_pos (x := 0x3EB62C111D5715E8) (E := 1003) (m := 6240901505947112) (k := 72) (by norm_num) (by norm_num) (by norm_num) (by norm_num)

theorem exp2C_8 : Fin b64 0x3E7B673DAD8ADAB8 ∧ R b64 0x3E7B673DAD8ADAB8 = 7713338973412024 / 2 ^ 76 := by
  exact_mod_cast lit_pos (x := 0x3E7B673DAD8ADAB8) (E := 999) (m := 7713338973412024) (k := 76) (by norm_num) (by norm_num) (by norm_num) (by norm_num)

theorem exp2C_9 : Fin b64 0x3E3E3FDE42662D5A ∧ R b64 0x3E3E3FDE42662D5A = 8514473130601818 / 2 ^ 80 := by
  exact_mod_cast lit_pos (x := 0x3E3E3FDE42662D5A) (E := 995) (m := 8514473130601818) (k := 80) (by norm_num) (by norm_num) (by norm_num) (by norm_num)

theorem exp2C_R : exp2C.map (R b64) = [6243314768165399 / 2 ^ 53, 8655072057803890 / 2 ^ 55, 7998985059161502 / 2 ^ 57, 5544473941304252 / 2 ^ 59, 6149018405745951 / 2 ^ 62, 5682899537767121 / 2 ^ 65, 9003580249967650 / 2 ^ 69, 6240901505947112 / 2 ^ 72, 7713338973412024 / 2 ^ 76, 8514473130601818 / 2 ^ 80] := by
  simp only [exp2C, List.map, exp2C_0.2, exp2C_1.2, exp2C_2.2, exp2C_3.2, exp2C_4.2, exp2C_5.2, exp2C_6.2, exp2C_7.2, exp2C_8.2, exp2C_9.2]

theorem exp2C_fin : ∀ c ∈ exp2C, Fin b64 c := by
  unfold exp2C Fin; decide

theorem exp2C_le : ∀ c ∈ exp2C, |R b64 c| ≤ 1 := by
  intro c hc
  simp only [exp2C, List.mem_cons, List.not_mem_nil, or_false] at hc
  rcases hc with rfl | rfl | rfl | rfl | rfl | rfl | rfl | rfl | rfl | rfl <;> norm_num [exp2C_0.2, exp2C_1.2, exp2C_2.2, exp2C_3.2, exp2C_4.2, exp2C_5.2, exp2C_6.2, exp2C_7.2, exp2C_8.2, exp2C_9.2]

theorem poly_exp2 (q t : ℝ) : (t * q) * poly (t * q) [1 / 1, 1 / 2, 1 / 6, 1 / 24, 1 / 120, 1 / 720, 1 / 5040, 1 / 40320, 1 / 362880, 1 / 3628800, 1 / 39916800, 1 / 479001600, 1 / 6227020800] = t * poly t [q, q ^ 2 / 2, q ^ 3 / 6, q ^ 4 / 24, q ^ 5 / 120, q ^ 6 / 720, q ^ 7 / 5040, q ^ 8 / 40320, q ^ 9 / 362880, q ^ 10 / 3628800, q ^ 11 / 39916800, q ^ 12 / 479001600, q ^ 13 / 6227020800] := by
  simp only [poly]; ring

/-- Powers of two by Taylor's polynomial. -/
theorem exp2_taylor {t : ℝ} (h : |t| ≤ 1 / 2) :
    |Real.exp (t * Real.log 2) - (1 + t * poly t [(0.693147180559945309417232121458 : ℝ), 0.693147180559945309417232121458 ^ 2 / 2, 0.693147180559945309417232121458 ^ 3 / 6, 0.693147180559945309417232121458 ^ 4 / 24, 0.693147180559945309417232121458 ^ 5 / 120, 0.693147180559945309417232121458 ^ 6 / 720, 0.693147180559945309417232121458 ^ 7 / 5040, 0.693147180559945309417232121458 ^ 8 / 40320, 0.693147180559945309417232121458 ^ 9 / 362880, 0.693147180559945309417232121458 ^ 10 / 3628800, 0.693147180559945309417232121458 ^ 11 / 39916800, 0.693147180559945309417232121458 ^ 12 / 479001600, 0.693147180559945309417232121458 ^ 13 / 6227020800])| ≤ |t| * (3 / 10 ^ 24 + |t| ^ 13 / 10 ^ 10) := by
  have h0 := abs_nonneg t
  have e1 := exp_taylor (t := t * 0.693147180559945309417232121458) (by
    rw [abs_mul, abs_of_pos (by norm_num : (0 : ℝ) < 0.693147180559945309417232121458)]; norm_num at *; linarith)
  rw [poly_exp2, abs_mul t, abs_of_pos (by norm_num : (0 : ℝ) < 0.693147180559945309417232121458)] at e1
  have hl := abs_le.1 log_two_sharp
  have hd : |t * Real.log 2 - t * 0.693147180559945309417232121458| ≤ |t| * (1 / 10 ^ 24) := by
    rw [← mul_sub, abs_mul]
    refine mul_le_mul_of_nonneg_left (abs_le.2 ⟨?_, ?_⟩) h0 <;> norm_num at * <;> linarith
  have e2 := exp_near (hd.trans (by norm_num at *; linarith))
  have e3 : Real.exp (t * 0.693147180559945309417232121458) ≤ 1.42 := (exp_range (by
    rw [abs_mul, abs_of_pos (by norm_num : (0 : ℝ) < 0.693147180559945309417232121458)]; norm_num at *; linarith)).2
  have e4 : Real.exp (t * 0.693147180559945309417232121458) * (2 * |t * Real.log 2 - t * 0.693147180559945309417232121458|) ≤ 1.42 * (2 * (|t| * (1 / 10 ^ 24))) :=
    mul_le_mul e3 (by linarith) (by positivity) (by norm_num)
  have e5 : |t| * 0.693147180559945309417232121458 * ((|t| * 0.693147180559945309417232121458) ^ 13 / 10 ^ 10) ≤ |t| * (|t| ^ 13 / 10 ^ 10) := by
    have a : (|t| * 0.693147180559945309417232121458) ^ 13 ≤ |t| ^ 13 := pow_le_pow_left₀ (by positivity) (mul_le_of_le_one_right h0 (by norm_num)) 13
    rw [mul_assoc]
    refine mul_le_mul_of_nonneg_left ?_ h0
    calc 0.693147180559945309417232121458 * ((|t| * 0.693147180559945309417232121458) ^ 13 / 10 ^ 10) ≤ 1 * (|t| ^ 13 / 10 ^ 10) := by gcongr; norm_num
      _ = _ := one_mul _
  refine (abs_sub_le _ (Real.exp (t * 0.693147180559945309417232121458)) _).trans ?_
  have a := e2.trans e4
  have b := e1.trans e5
  have c : 1.42 * (2 * (|t| * (1 / 10 ^ 24))) ≤ |t| * (3 / 10 ^ 24) := by
    rw [show (1.42 : ℝ) * (2 * (|t| * (1 / 10 ^ 24))) = |t| * (2.84 / 10 ^ 24) by ring]
    exact mul_le_mul_of_nonneg_left (by norm_num) h0
  rw [mul_add]
  exact (add_le_add a b).trans (add_le_add c le_rfl)

theorem exp2C_poly {t : ℝ} (h : |t| ≤ 1 / 2) :
    |t * poly t (exp2C.map (R b64)) - (Real.exp (t * Real.log 2) - 1)| ≤ |t| * (4.1 / 10 ^ 12) := by
  have h1 := (exp2_taylor h).trans (mul_le_mul_of_nonneg_left (b := 3 / 10 ^ 24 + |t| ^ 13 / 10 ^ 10) (c := 1 / 10 ^ 13) (by
    have : |t| ^ 13 ≤ (1 / 2) ^ 13 := pow_le_pow_left₀ (abs_nonneg _) h 13
    norm_num at *; linarith) (abs_nonneg t))
  have h2 := poly_sub t (exp2C.map (R b64) ++ [0, 0, 0]) [(0.693147180559945309417232121458 : ℝ), 0.693147180559945309417232121458 ^ 2 / 2, 0.693147180559945309417232121458 ^ 3 / 6, 0.693147180559945309417232121458 ^ 4 / 24, 0.693147180559945309417232121458 ^ 5 / 120, 0.693147180559945309417232121458 ^ 6 / 720, 0.693147180559945309417232121458 ^ 7 / 5040, 0.693147180559945309417232121458 ^ 8 / 40320, 0.693147180559945309417232121458 ^ 9 / 362880, 0.693147180559945309417232121458 ^ 10 / 3628800, 0.693147180559945309417232121458 ^ 11 / 39916800, 0.693147180559945309417232121458 ^ 12 / 479001600, 0.693147180559945309417232121458 ^ 13 / 6227020800] (by rfl)
  have h3 : poly t (exp2C.map (R b64) ++ [0, 0, 0]) = poly t (exp2C.map (R b64)) := by
    rw [exp2C_R]; simp [poly]
  rw [h3] at h2
  have h4 := poly_abs h (List.zipWith (· - ·) (exp2C.map (R b64) ++ [0, 0, 0]) [(0.693147180559945309417232121458 : ℝ), 0.693147180559945309417232121458 ^ 2 / 2, 0.693147180559945309417232121458 ^ 3 / 6, 0.693147180559945309417232121458 ^ 4 / 24, 0.693147180559945309417232121458 ^ 5 / 120, 0.693147180559945309417232121458 ^ 6 / 720, 0.693147180559945309417232121458 ^ 7 / 5040, 0.693147180559945309417232121458 ^ 8 / 40320, 0.693147180559945309417232121458 ^ 9 / 362880, 0.693147180559945309417232121458 ^ 10 / 3628800, 0.693147180559945309417232121458 ^ 11 / 39916800, 0.693147180559945309417232121458 ^ 12 / 479001600, 0.693147180559945309417232121458 ^ 13 / 6227020800])
  rw [← h2, exp2C_R] at h4
  rw [exp2C_R]
  have h5 : poly (1 / 2 : ℝ) ((List.zipWith (· - ·) ([6243314768165399 / 2 ^ 53, 8655072057803890 / 2 ^ 55, 7998985059161502 / 2 ^ 57, 5544473941304252 / 2 ^ 59, 6149018405745951 / 2 ^ 62, 5682899537767121 / 2 ^ 65, 9003580249967650 / 2 ^ 69, 6240901505947112 / 2 ^ 72, 7713338973412024 / 2 ^ 76, 8514473130601818 / 2 ^ 80] ++ [0, 0, 0]) [(0.693147180559945309417232121458 : ℝ), 0.693147180559945309417232121458 ^ 2 / 2, 0.693147180559945309417232121458 ^ 3 / 6, 0.693147180559945309417232121458 ^ 4 / 24, 0.693147180559945309417232121458 ^ 5 / 120, 0.693147180559945309417232121458 ^ 6 / 720, 0.693147180559945309417232121458 ^ 7 / 5040, 0.693147180559945309417232121458 ^ 8 / 40320, 0.693147180559945309417232121458 ^ 9 / 362880, 0.693147180559945309417232121458 ^ 10 / 3628800, 0.693147180559945309417232121458 ^ 11 / 39916800, 0.693147180559945309417232121458 ^ 12 / 479001600, 0.693147180559945309417232121458 ^ 13 / 6227020800]).map abs) ≤ 4 / 10 ^ 12 := by
    simp only [List.cons_append, List.nil_append, List.zipWith_cons_cons, List.zipWith_nil_left, List.map, poly]
    norm_num [abs_of_pos, abs_of_neg]
  have h6 := h4.trans h5
  generalize poly t [6243314768165399 / 2 ^ 53, 8655072057803890 / 2 ^ 55, 7998985059161502 / 2 ^ 57, 5544473941304252 / 2 ^ 59, 6149018405745951 / 2 ^ 62, 5682899537767121 / 2 ^ 65, 9003580249967650 / 2 ^ 69, 6240901505947112 / 2 ^ 72, 7713338973412024 / 2 ^ 76, 8514473130601818 / 2 ^ 80] = P at *
  generalize poly t [(0.693147180559945309417232121458 : ℝ), 0.693147180559945309417232121458 ^ 2 / 2, 0.693147180559945309417232121458 ^ 3 / 6, 0.693147180559945309417232121458 ^ 4 / 24, 0.693147180559945309417232121458 ^ 5 / 120, 0.693147180559945309417232121458 ^ 6 / 720, 0.693147180559945309417232121458 ^ 7 / 5040, 0.693147180559945309417232121458 ^ 8 / 40320, 0.693147180559945309417232121458 ^ 9 / 362880, 0.693147180559945309417232121458 ^ 10 / 3628800, 0.693147180559945309417232121458 ^ 11 / 39916800, 0.693147180559945309417232121458 ^ 12 / 479001600, 0.693147180559945309417232121458 ^ 13 / 6227020800] = Q at *
  have h8 : |t * (P - Q)| ≤ |t| * (4 / 10 ^ 12) := by rw [abs_mul]; exact mul_le_mul_of_nonneg_left h6 (abs_nonneg _)
  have a := abs_le.1 h8
  have b := abs_le.1 h1
  have c := abs_nonneg t
  exact abs_le.2 ⟨by linarith, by linarith⟩

theorem kernelExp2_ap {x : Nat} (hx : Fin b64 x) (ht : |R b64 x| ≤ 1 / 2) :
    Ap (kernelExp2 x) (Real.exp (R b64 x * Real.log 2) - 1) (|R b64 x| * (4.11 / 10 ^ 12) + 1 / 2 ^ 250) := by
  obtain ⟨h1, h2⟩ := horner_ap hx ht exp2C exp2C_fin exp2C_le (by decide)
  have h3 := (Ap.exact hx).mul h1 le_rfl h2 (by
    have := abs_nonneg (R b64 x)
    norm_num at ht ⊢
    nlinarith)
  have h4 := h3.shift (exp2C_poly ht)
  refine h4.mono ?_
  have := abs_nonneg (R b64 x)
  norm_num
  nlinarith

/-- `1 + kernel_exp2f_(a)`. -/
theorem exp2_core {a : Nat} (ha : Fin b64 a) (hs : |R b64 a| ≤ 1 / 2) :
    let y := b64.add one (kernelExp2 a)
    Fin b64 y ∧ Pat b64 y ∧ 1 / 2 ≤ R b64 y ∧ R b64 y < 4 ∧
      |R b64 y - Real.exp (R b64 a * Real.log 2)| ≤ 3 / 10 ^ 12 * Real.exp (R b64 a * Real.log 2) := by
  intro y
  have h1 := kernelExp2_ap ha hs
  have h0 : Ap one 1 0 := by
    have := Ap.exact k_one.1
    rw [k_one.2] at this
    norm_num at this
    exact this
  have hl := abs_le.1 log_two_sharp
  obtain ⟨s1, s2⟩ := exp_range (s := R b64 a * Real.log 2) (by
    rw [abs_mul, abs_of_pos (Real.log_pos (by norm_num))]
    have : |R b64 a| * Real.log 2 ≤ 1 / 2 * 0.6932 := mul_le_mul hs (by norm_num at *; linarith) (Real.log_pos (by norm_num)).le (by norm_num)
    norm_num at *; linarith)
  generalize Real.exp (R b64 a * Real.log 2) = E at *
  have hk : |R b64 a| * (4.11 / 10 ^ 12) ≤ 1 / 2 * (4.11 / 10 ^ 12) := mul_le_mul_of_nonneg_right hs (by norm_num)
  have h2 := h0.add (B := 1.42) (h1.mono (add_le_add hk le_rfl)) (by rw [abs_le]; constructor <;> linarith) (by norm_num)
  rw [show 1 + (E - 1) = E by ring] at h2
  have h3 := h2.mono (d := 2.06 / 10 ^ 12) (by norm_num)
  have h4 := abs_le.1 h3.err
  refine ⟨h3.fin, pat_add k_one.1 h1.fin, ?_, ?_, abs_le.2 ⟨?_, ?_⟩⟩
  all_goals (norm_num at *; linarith)

theorem rpow_two (v : ℝ) : (2 : ℝ) ^ v = Real.exp (v * Real.log 2) := by
  rw [Real.rpow_def_of_pos (by norm_num), mul_comm]

theorem exp2f_main {x : Nat} (hx : Fin b32 x) (hb : |R b32 x| ≤ 150) (c1 : b32.lt x 0xC3160000 = false) (c2 : b32.lt 0x43000000 x = false)
    (c3 : b32.eq x 0x3B429D37 = false) (c4 : b32.eq x 0xBCF3A937 = false) :
    ∃ r, exp2f x = some r ∧ Accurate b32 (1 / 2 ^ 38) (2 ^ R b32 x) r := by
  obtain ⟨n, n1, n2, n3, n4, n5⟩ := sub_rint big32 (by decide) hx (hb.trans (by norm_num))
  unfold exp2f
  rw [c1, c2, c3, c4]
  simp only [Bool.false_eq_true, if_false]
  obtain ⟨w1, w2, -, -⟩ := wideR n4
  generalize b32.rint x = N at *
  generalize wide (b32.sub x N) = a at *
  rw [n5] at w2
  obtain ⟨-, y2, y3, y4, y5⟩ := exp2_core w1 (by rw [w2]; exact n3)
  rw [w2] at y5
  have hn : -1000 ≤ n ∧ n < 1022 := by
    have a1 := abs_le.1 n3
    have a2 := abs_le.1 hb
    constructor
    · have : (-152 : ℝ) ≤ n := by linarith
      have : (-152 : Int) ≤ n := by exact_mod_cast this
      omega
    · have : (n : ℝ) ≤ 152 := by linarith
      have : n ≤ (152 : Int) := by exact_mod_cast this
      omega
  obtain ⟨z, z1, z2, z3, z4, z5, -⟩ := exp_scale (v := R b32 x * Real.log 2) y2 y3 y4 hn y5 (by ring)
  rw [toInt_R n1 n2 (by omega), Option.bind_some, z1, Option.map_some, rpow_two]
  refine ⟨_, rfl, R b64 z, z5.trans (mul_le_mul_of_nonneg_right (by norm_num) (abs_nonneg _)), conv_rounded z2⟩

theorem k_m150 : Fin b32 0xC3160000 ∧ R b32 0xC3160000 = -150 := by
  have := lit32 (x := 0xC3160000) (m := 150) (k := 0) (s := true) (by decide) (by decide) (by decide +kernel)
  norm_num at this; exact this

theorem k_128 : Fin b32 0x43000000 ∧ R b32 0x43000000 = 128 := by
  have := lit32 (x := 0x43000000) (m := 128) (k := 0) (s := false) (by decide) (by decide) (by decide +kernel)
  norm_num at this; exact this

theorem k_hard1 : Fin b32 0x3B429D37 ∧ R b32 0x3B429D37 = 12754231 / 2 ^ 32 := by
  have := lit32 (x := 0x3B429D37) (m := 12754231) (k := 32) (s := false) (by decide) (by decide) (by decide +kernel)
  norm_num at this ⊢; exact this

theorem k_hard2 : Fin b32 0xBCF3A937 ∧ R b32 0xBCF3A937 = -(15968567 / 2 ^ 29) := by
  have := lit32 (x := 0xBCF3A937) (m := 15968567) (k := 29) (s := true) (by decide) (by decide) (by decide +kernel)
  norm_num at this ⊢; exact this

theorem exp2_hard1 : Rounded b32 (2 ^ (12754231 / 2 ^ 32 : ℝ)) 0x3F804385 := by
  have := abs_le.1 (exp2_taylor (t := 12754231 / 2 ^ 32) (by norm_num [abs_of_pos]))
  rw [← rpow_two] at this
  simp only [poly] at this
  norm_num [abs_of_pos] at this
  refine rounded_mid (a := 16811785) (b := 16811787) (k := 23) (by decide) (by decide) (by decide +kernel) (by decide +kernel) ?_ ?_
  · norm_num; linarith
  · norm_num; linarith

theorem exp2_hard2 : Rounded b32 (2 ^ (-(15968567 / 2 ^ 29) : ℝ)) 0x3F7AC6B1 := by
  have := abs_le.1 (exp2_taylor (t := -(15968567 / 2 ^ 29)) (by norm_num [abs_of_pos]))
  rw [← rpow_two] at this
  simp only [poly] at this
  norm_num [abs_of_pos] at this
  refine rounded_mid (a := 32869729) (b := 32869731) (k := 24) (by decide) (by decide) (by decide +kernel) (by decide +kernel) ?_ ?_
  · norm_num; linarith
  · norm_num; linarith

theorem eq_of_false {x c : Nat} (h : b32.eq x c = true) (hx : Fin b32 x) (hc : Fin b32 c) : R b32 x = R b32 c := (eq_R hx hc).1 h

theorem exp2f_finite {x : Nat} (hx : Fin b32 x) : ∃ r, exp2f x = some r ∧ Accurate b32 (1 / 2 ^ 38) (2 ^ R b32 x) r := by
  cases c1 : b32.lt x 0xC3160000
  · cases c2 : b32.lt 0x43000000 x
    · cases c3 : b32.eq x 0x3B429D37
      · cases c4 : b32.eq x 0xBCF3A937
        · refine exp2f_main hx ?_ c1 c2 c3 c4
          have a := (lt_R hx k_m150.1).not.1 (by rw [c1]; simp)
          have b := (lt_R k_128.1 hx).not.1 (by rw [c2]; simp)
          rw [k_m150.2] at a
          rw [k_128.2] at b
          exact abs_le.2 ⟨by linarith, by linarith⟩
        · refine ⟨0x3F7AC6B1, by unfold exp2f; rw [c1, c2, c3, c4]; simp, 2 ^ R b32 x, by simp, ?_⟩
          rw [(eq_R hx k_hard2.1).1 c4, k_hard2.2]
          exact exp2_hard2
      · refine ⟨0x3F804385, by unfold exp2f; rw [c1, c2, c3]; simp, 2 ^ R b32 x, by simp, ?_⟩
        rw [(eq_R hx k_hard1.1).1 c3, k_hard1.2]
        exact exp2_hard1
    · have e : b32.mul 0x43000000 fltMax = b32.inf := by decide +kernel
      refine ⟨b32.inf, by unfold exp2f; rw [c1, c2, e]; simp, 2 ^ R b32 x, by simp, rounded_inf ?_⟩
      have b := (lt_R k_128.1 hx).1 c2
      rw [k_128.2] at b
      have := Real.rpow_le_rpow_of_exponent_le (x := 2) (by norm_num) b.le
      refine le_trans ?_ this
      rw [show (128 : ℝ) = ((128 : Nat) : ℝ) by norm_num, Real.rpow_natCast]
      norm_num
  · refine ⟨0, by unfold exp2f; rw [if_pos c1], 2 ^ R b32 x, by simp, rounded_zero (by positivity) ?_⟩
    have a := (lt_R hx k_m150.1).1 c1
    rw [k_m150.2] at a
    have := Real.rpow_le_rpow_of_exponent_le (x := 2) (by norm_num) a.le
    refine this.trans ?_
    rw [show (-150 : ℝ) = ((-150 : Int) : ℝ) by norm_num, Real.rpow_intCast, zpow_neg]
    norm_num

end Verif.Approx
