import Verif.Approx.ModelHyp
import Verif.Approx.Expm1
import Mathlib.Analysis.SpecialFunctions.Trigonometric.DerivHyp

/-! # The errors of `expm1f`, `sinhf`, `coshf` and `tanhf` -/

namespace Verif.Approx
open Verif.Float Verif.Approx.Spec
open Verif.Math.Spec (Pat absOf negative)

theorem k_half : Fin b64 half ∧ R b64 half = 1 / 2 := by
  have := lit_pos (x := half) (E := 1022) (m := 2 ^ 52) (k := 53) (by norm_num [half]) (by norm_num) (by norm_num) (by norm_num)
  norm_num at this ⊢; exact this

theorem k_two : Fin b64 two ∧ R b64 two = 2 := by
  have := lit_pos (x := two) (E := 1024) (m := 2 ^ 52) (k := 51) (by norm_num [two]) (by norm_num) (by norm_num) (by norm_num)
  norm_num at this ⊢; exact this

theorem rel_half : Rel half (1 / 2) 0 := Rel.exact k_half.1 k_half.2
theorem rel_two : Rel two 2 0 := Rel.exact k_two.1 k_two.2

theorem abs_abs' {F : Fmt} {x : Nat} : F.abs (F.abs x) = F.abs x := Nat.mod_mod _ _
theorem fabs_R {F : Fmt} {x : Nat} (hx : Fin F x) : Fin F (F.abs x) ∧ R F (F.abs x) = |R F x| := by
  have h : Fin F (F.abs x) := by unfold Fin; rw [abs_abs']; exact hx
  refine ⟨h, ?_⟩
  have := R_pack (F := F) (s := false) (Nat.le_of_lt hx)
  rw [show F.pack false (F.abs x) = F.abs x by simp [Fmt.pack]] at this
  rw [this, abs_R]; simp

theorem R_sign {F : Fmt} (x : Nat) : R F x = (if F.neg x then -1 else 1) * |R F x| := by rw [abs_R]; exact R_signed x

/-- `copysign`. -/
theorem Rel.sign {y : Nat} {v ε : ℝ} (s : Bool) (h : Rel y v ε) (hv : 0 < v) (hε : ε < 1) : Rel (b64.pack s (b64.abs y)) ((if s then -1 else 1) * v) ε := by
  have hp := h.pos hv hε
  have hR : R b64 (b64.pack s (b64.abs y)) = (if s then -1 else 1) * R b64 y := by
    rw [R_pack (Nat.le_of_lt h.fin), mul_div_assoc, ← abs_R, abs_of_pos hp]
  refine ⟨fin_pack h.fin, ?_⟩
  rw [hR, ← mul_sub, abs_mul, abs_mul, show |(if s then (-1 : ℝ) else 1)| = 1 by cases s <;> simp, one_mul, one_mul]
  exact h.err

/-- The sign of a rounded number. -/
theorem rounded_sign {F : Fmt} {z : ℝ} {r : Nat} (h : Rounded F z r) (hz : 0 < z) (s : Bool) :
    Rounded F ((if s then -1 else 1) * z) (F.pack s (F.abs r)) := by
  have hle : absOf F r ≤ F.inf := h.near.le
  have hle' : F.abs r ≤ F.inf := hle
  refine ⟨Math.pat_pack hle', ?_, fun hp => ?_, fun hn => ?_⟩
  · rw [Math.absOf_pack hle', abs_mul, show |(if s then (-1 : ℝ) else 1)| = 1 by cases s <;> simp, one_mul]
    exact h.near
  · rw [Math.negative_pack hle']
    cases s
    · simp
    · simp at hp; linarith
  · rw [Math.negative_pack hle']
    cases s
    · simp at hn; linarith
    · rfl

/-! ### `expm1f` -/

theorem k_expm1fMax : Fin b32 0x42B17218 ∧ R b32 0x42B17218 = 11629080 / 2 ^ 17 := by
  have := lit32 (x := 0x42B17218) (m := 11629080) (k := 17) (s := false) (by decide) (by decide) (by decide +kernel)
  norm_num at this ⊢; exact this

theorem pow128_le_exp {X : ℝ} (h : 88.7228393 ≤ X) : (2 : ℝ) ^ 128 + 2 ≤ Real.exp X := by
  obtain ⟨l1, l2⟩ := log_two_bounds
  have h1 : (128 : Int) * Real.log 2 + 1 / 10 ^ 7 ≤ X := by push_cast; norm_num at *; linarith
  have h2 := Real.exp_le_exp.2 h1
  rw [Real.exp_add, exp_pow] at h2
  have h3 := Real.add_one_le_exp (1 / 10 ^ 7 : ℝ)
  have h6 : (2 : ℝ) ^ (128 : Int) = 2 ^ 128 := by norm_cast
  rw [h6] at h2
  have := (mul_le_mul_of_nonneg_left h3 (show (0 : ℝ) ≤ 2 ^ 128 by positivity)).trans h2
  refine le_trans ?_ this
  norm_num

theorem pow64_le_exp {X : ℝ} (h : 88.7228393 ≤ X) : (2 : ℝ) ^ 128 + 1 ≤ Real.exp X := le_trans (by norm_num) (pow128_le_exp h)

theorem rounded_zero' {F : Fmt} {r : Nat} (hp : Pat F r) (h : F.abs r = 0) (hf : 1 ≤ F.f) : Rounded F 0 r := by
  refine ⟨hp, ?_, fun h => absurd h (lt_irrefl _), fun h => absurd h (lt_irrefl _)⟩
  rw [show absOf F r = F.abs r from rfl, h]
  exact nearest_zero (by simp) hf

theorem R_zero {F : Fmt} {x : Nat} (h : R F x = 0) : F.abs x = 0 := by
  have hu : (0 : ℝ) < 2 ^ F.unit := by positivity
  have h1 := abs_R (F := F) x
  rw [h, abs_zero, eq_comm, div_eq_zero_iff] at h1
  rcases h1 with h1 | h1
  · have : F.mag (F.abs x) = 0 := by exact_mod_cast h1
    exact Fmt.mag_eq_zero.1 this
  · exact absurd h1 hu.ne'

theorem zero_cases {x : Nat} (hp : Pat b32 x) (h : R b32 x = 0) : x = 0 ∨ x = 0x80000000 := by
  have h0 := R_zero h
  have := Fmt.pack_self (F := b32) hp
  rw [h0] at this
  cases e : b32.neg x
  · rw [e] at this; left; rw [← this]; rfl
  · rw [e] at this; right; rw [← this]; rfl

theorem expm1f_finite {x : Nat} (hp : Pat b32 x) (hx : Fin b32 x) : ∃ r, expm1f x = some r ∧ Accurate b32 (1 / 2 ^ 39) (Real.exp (R b32 x) - 1) r := by
  by_cases h0 : R b32 x = 0
  · rcases zero_cases hp h0 with rfl | rfl
    · refine ⟨0, by decide +kernel, 0, by rw [h0]; simp, rounded_zero' (by unfold Pat; decide) (by decide) (by decide)⟩
    · refine ⟨0x80000000, by decide +kernel, 0, by rw [h0]; simp, rounded_zero' (by unfold Pat; decide) (by decide) (by decide)⟩
  unfold expm1f
  cases c : b32.lt 0x42B17218 x
  · have a := (lt_R k_expm1fMax.1 hx).not.1 (by rw [c]; simp)
    rw [k_expm1fMax.2] at a
    obtain ⟨y, y1, y2⟩ := expm1Wide_rel hx h0 (by norm_num at *; linarith)
    rw [y1]
    exact ⟨_, rfl, (y2.mono (by norm_num)).accurate⟩
  · have a := (lt_R k_expm1fMax.1 hx).1 c
    rw [k_expm1fMax.2] at a
    refine ⟨b32.inf, rfl, Real.exp (R b32 x) - 1, by simp, rounded_inf ?_⟩
    have := pow64_le_exp (X := R b32 x) (by norm_num at *; linarith)
    norm_num at *; linarith

/-! ### Infinities -/

theorem mul_inf_pos {w : Nat} (h : Fin b64 w) (hw : 0 < R b64 w) : b64.mul w b64.inf = b64.inf := by
  have hn : b64.neg w = false := by
    cases e : b64.neg w
    · rfl
    · exfalso
      rw [R_sign, e] at hw
      have := abs_nonneg (R b64 w)
      simp at hw; linarith
  have h0 : b64.abs w ≠ 0 := fun e => by rw [R_signed, e, b64.mag_zero] at hw; simp at hw
  unfold Fmt.mul
  rw [Fmt.not_nan_of_fin h, Fmt.isFin_iff.2 h, hn, show b64.isNaN b64.inf = false by decide, show b64.isFin b64.inf = false by decide]
  have : ¬ (b64.abs w = 0 ∨ b64.abs b64.inf = 0) := by
    rintro (e | e)
    · exact h0 e
    · exact absurd e (by decide)
  rw [if_neg (by simp), if_neg (by simp), if_neg this]
  decide

/-! ### `coshf` -/

theorem expWide_rel {x : Nat} {X : ℝ} (hx : Fin b64 x) (hX : R b64 x = X) (h0 : 0 ≤ X) (h : X ≤ 709.78266) :
    ∃ y, expWide x = some y ∧ Rel y (Real.exp X) (3.04 / 10 ^ 13) := by
  have c1 : b64.lt x 0xC086232BDD7ABCD2 = false := by
    by_contra hc
    have k := fin_opp (F := b64) (x := 0x4086232BDD7ABCD2) (by unfold Fin; decide)
    have b := (lt_R hx (y := 0xC086232BDD7ABCD2) (by unfold Fin; decide)).1 (by simpa using hc)
    rw [hX, R_signed, show b64.neg 0xC086232BDD7ABCD2 = true by decide] at b
    have : (0 : ℝ) ≤ b64.mag (b64.abs 0xC086232BDD7ABCD2) / 2 ^ b64.unit := by positivity
    rw [if_pos rfl] at b
    linarith
  have c2 : b64.lt 0x40862E42FEFA39EF x = false := by
    by_contra hc
    have b := (lt_R k_expm1Max.1 hx).1 (by simpa using hc)
    rw [hX, k_expm1Max.2] at b
    norm_num at *; linarith
  have hXa : |X| ≤ 710 := abs_le.2 ⟨by norm_num at *; linarith, by norm_num at *; linarith⟩
  unfold expWide
  rw [c1, c2]
  simp only [Bool.false_eq_true, if_false]
  obtain ⟨n, n1, n2, n3, -⟩ := reduce hx hX hXa le_rfl
  generalize b64.rint (b64.mul x log2e) = N at *
  have n3' : |X - n * Real.log 2| ≤ 0.3468 := n3.trans (by norm_num)
  have n4 := int_bound hXa n3'
  have n5 := abs_le.1 n4
  have n6 : -1025 ≤ n ∧ n ≤ 1025 := ⟨by exact_mod_cast n5.1, by exact_mod_cast n5.2⟩
  have ra := reduced_ap hx hX n1 n2 n4 hXa n3'
  obtain ⟨l1, l2⟩ := log_two_bounds
  have n7 : -1000 ≤ n := by
    by_contra hc
    have : n ≤ -1001 := by omega
    have : (n : ℝ) ≤ -1001 := by exact_mod_cast this
    have := mul_le_mul_of_nonneg_right this (show 0 ≤ Real.log 2 by linarith)
    have := (abs_le.1 n3').2
    norm_num at *; linarith
  obtain ⟨z, z1, z2, z3⟩ := exp_shift (X := X) ra (by norm_num) (by ring) (n3'.trans (by norm_num)) n7 h
  rw [toInt_R n1 n2 (by omega), Option.bind_some, z1]
  exact ⟨z, rfl, z2.mono (by norm_num)⟩

theorem coshf_finite {x : Nat} (hx : Fin b32 x) : ∃ r, coshf x = some r ∧ Accurate b32 (1 / 2 ^ 41) (Real.cosh (R b32 x)) r := by
  obtain ⟨f1, f2⟩ := fabs_R hx
  obtain ⟨w1, w2, -, -⟩ := wideR f1
  rw [f2] at w2
  rw [← Real.cosh_abs]
  have h0 := abs_nonneg (R b32 x)
  unfold coshf
  rcases le_or_gt |R b32 x| 709.7827129 with h | h
  · have h' := gap709 (x := b32.abs x) (by rw [f2]; exact h)
    rw [f2] at h'
    generalize |R b32 x| = X at *
    obtain ⟨y, y1, y2⟩ := expWide_rel w1 w2 h0 h'
    rw [y1, Option.map_some]
    refine ⟨_, rfl, ?_⟩
    have hE := Real.exp_pos X
    have hE1 := Real.one_le_exp h0
    have hM := exp_le_Mx h'
    have hc : 1 / 2 * Real.exp X + 1 / 2 / Real.exp X = Real.cosh X := by
      rw [Real.cosh_eq, Real.exp_neg]; field_simp
    rw [← hc]
    generalize Real.exp X = E at *
    have m := rel_half.mul y2 (η := 3.06 / 10 ^ 13) (by norm_num) (by
      rw [abs_of_pos (by positivity)]; norm_num at *; linarith) (by
      rw [abs_of_pos (by positivity)]; norm_num at *; linarith) (by norm_num)
    obtain ⟨d1, d2⟩ := rel_half.div_abs y2 (θ := 3.1 / 10 ^ 13) (by norm_num) hE.ne' (by norm_num) (by
      refine le_Mx ?_
      rw [abs_of_pos (by positivity)]
      have : 1 / 2 / E ≤ 1 := by rw [div_le_one hE]; linarith
      norm_num at *; linarith)
    have hw0 : 0 < 1 / 2 / E := by positivity
    have hw1 : 1 / 2 / E ≤ 1 / 2 * E := by rw [div_le_iff₀ hE]; nlinarith
    have e1 := m.err
    rw [abs_of_pos (show 0 < 1 / 2 * E by positivity)] at e1
    rw [abs_of_pos hw0] at d2
    generalize 1 / 2 / E = q at *
    have key : Rel (b64.add (b64.mul half y) (Arith.fdiv b64 half y)) (1 / 2 * E + q) (4 / 10 ^ 13) := by
      refine Rel.add_abs m.fin d1 e1 d2 le_rfl ?_ ?_
      · rw [abs_of_pos (by positivity)]
        norm_num at *; linarith
      · rw [abs_of_pos (by positivity)]
        norm_num at *; linarith
    exact (key.mono (by norm_num)).accurate
  · have c1 : b64.lt (wide (b32.abs x)) 0xC086232BDD7ABCD2 = false := by
      by_contra hc
      have b := (lt_R w1 (y := 0xC086232BDD7ABCD2) (by unfold Fin; decide)).1 (by simpa using hc)
      rw [w2, R_signed (F := b64), show b64.neg 0xC086232BDD7ABCD2 = true by decide] at b
      have : (0 : ℝ) ≤ b64.mag (b64.abs 0xC086232BDD7ABCD2) / 2 ^ b64.unit := by positivity
      rw [if_pos rfl] at b
      linarith
    have c2 : b64.lt 0x40862E42FEFA39EF (wide (b32.abs x)) = true := by
      rw [lt_R k_expm1Max.1 w1, w2, k_expm1Max.2]
      exact lt_trans (by norm_num) h
    refine ⟨b32.inf, ?_, Real.cosh |R b32 x|, by simp, rounded_inf ?_⟩
    · unfold expWide
      rw [c1, c2]
      simp only [Bool.false_eq_true, if_false, if_true, Option.map_some]
      rw [mul_inf_pos w1 (by rw [w2]; exact lt_trans (by norm_num) h)]
      decide +kernel
    · rw [Real.cosh_eq]
      have h1 := Real.exp_pos (-|R b32 x|)
      have h2 : (2 : ℝ) ^ 128 + 2 ≤ Real.exp (|R b32 x| - 100) := pow128_le_exp (by norm_num at *; linarith)
      have h3 : Real.exp (|R b32 x|) = Real.exp (|R b32 x| - 100) * Real.exp 100 := by rw [← Real.exp_add]; ring_nf
      have h4 := Real.add_one_le_exp (100 : ℝ)
      have h5 := Real.exp_pos (|R b32 x| - 100)
      rw [h3]
      norm_num at *
      nlinarith

/-! ### `sinhf` -/

theorem expm1Wide_inf {x : Nat} (f1 : Fin b32 x) (h : 709.7827129 < R b32 x) : expm1Wide x = some b64.inf := by
  obtain ⟨w1, w2, -, -⟩ := wideR f1
  have c1 : b64.lt (wide x) 0xC042B708872320E2 = false := by
    by_contra hc
    have b := (lt_R w1 k_expm1Min.1).1 (by simpa using hc)
    rw [w2, k_expm1Min.2] at b
    norm_num at *; linarith
  have c2 : b64.lt 0x40862E42FEFA39EF (wide x) = true := by
    rw [lt_R k_expm1Max.1 w1, w2, k_expm1Max.2]
    exact lt_trans (by norm_num) h
  unfold expm1Wide
  rw [c1, c2]
  simp only [Bool.false_eq_true, if_false, if_true]
  rw [mul_inf_pos w1 (by rw [w2]; norm_num at *; linarith)]

theorem sinhf_finite {x : Nat} (hp : Pat b32 x) (hx : Fin b32 x) : ∃ r, sinhf x = some r ∧ Accurate b32 (1 / 2 ^ 38) (Real.sinh (R b32 x)) r := by
  by_cases hz : R b32 x = 0
  · rcases zero_cases hp hz with rfl | rfl
    · refine ⟨0, by decide +kernel, 0, by rw [hz]; simp, rounded_zero' (by unfold Pat; decide) (by decide) (by decide)⟩
    · refine ⟨0x80000000, by decide +kernel, 0, by rw [hz]; simp, rounded_zero' (by unfold Pat; decide) (by decide) (by decide)⟩
  obtain ⟨f1, f2⟩ := fabs_R hx
  have h0 : 0 < |R b32 x| := abs_pos.2 hz
  have hsm := fin_ne_zero hz
  rw [show b32.unit = 149 by rfl] at hsm
  have hsinh : Real.sinh (R b32 x) = (if b32.neg x then -1 else 1) * Real.sinh |R b32 x| := by
    have := R_sign (F := b32) x
    cases e : b32.neg x
    · rw [e] at this; simp at this; simp [← this]
    · rw [e] at this; simp at this
      conv_lhs => rw [this]
      simp
  rw [hsinh]
  unfold sinhf
  rcases le_or_gt |R b32 x| 709.7827129 with h | h
  · have h' := gap709 (x := b32.abs x) (by rw [f2]; exact h)
    obtain ⟨y, y1, y2⟩ := expm1Wide_rel f1 (by rw [f2]; exact h0.ne') h'
    rw [f2] at h' y2
    rw [y1, Option.map_some]
    refine ⟨_, rfl, ?_⟩
    generalize |R b32 x| = X at *
    have hE := Real.exp_pos X
    have hEX := Real.add_one_le_exp X
    have hM := exp_le_Mx h'
    have hv : 0 < Real.exp X - 1 := by linarith
    have hc : Real.sinh X = (Real.exp X - 1) * (1 / 2 + 1 / 2 / Real.exp X) := by
      rw [Real.sinh_eq, Real.exp_neg]; field_simp; ring
    rw [hc]
    generalize Real.exp X = E at *
    have a := y2.add (rel_one.mono (δ := 1.1 / 10 ^ 12) (by norm_num)) hv.le (by norm_num) (by
      norm_num at *; linarith) (η := 1.11 / 10 ^ 12) (by norm_num)
    rw [sub_add_cancel] at a
    obtain ⟨d1, d2⟩ := rel_half.div_abs a (θ := 1.12 / 10 ^ 12) (by norm_num) hE.ne' (by norm_num) (by
      refine le_Mx ?_
      rw [abs_of_pos (by positivity)]
      have : 1 / 2 / E ≤ 1 := by rw [div_le_one hE]; linarith
      norm_num at *; linarith)
    have hw0 : 0 < 1 / 2 / E := by positivity
    have hw1 : 1 / 2 / E ≤ 1 / 2 := by rw [div_le_iff₀ hE]; linarith
    rw [abs_of_pos hw0] at d2
    generalize 1 / 2 / E = q at *
    have Q : Rel (b64.add half (Arith.fdiv b64 half (b64.add y one))) (1 / 2 + q) (1.2 / 10 ^ 12) := by
      refine Rel.add_abs rel_half.fin d1 (rel_half.err.trans (by simp)) d2 (e := 0) le_rfl ?_ ?_
      · refine le_Mx ?_
        rw [abs_of_pos (by positivity)]
        norm_num at *; linarith
      · rw [abs_of_pos (by positivity)]
        norm_num at *; linarith
    have sy := y2.sign (b32.neg x) hv (by norm_num)
    have hσ : |(if b32.neg x then (-1 : ℝ) else 1)| = 1 := by cases b32.neg x <;> simp
    generalize (if b32.neg x then (-1 : ℝ) else 1) = σ at *
    have e : |σ * (E - 1) * (1 / 2 + q)| = (E - 1) * (1 / 2 + q) := by
      rw [abs_mul, abs_mul, hσ, abs_of_pos hv, abs_of_pos (by positivity), one_mul]
    have b1 : (E - 1) * (1 / 2 + q) ≤ (E - 1) * 1 := mul_le_mul_of_nonneg_left (by linarith) hv.le
    have b2 : (E - 1) * (1 / 2) ≤ (E - 1) * (1 / 2 + q) := mul_le_mul_of_nonneg_left (by linarith) hv.le
    have k := sy.mul Q (η := 2.4 / 10 ^ 12) (by norm_num) (by rw [e]; norm_num at *; linarith) (by rw [e]; norm_num at *; linarith) (by norm_num)
    rw [mul_assoc] at k
    exact (k.mono (by norm_num)).accurate
  · have c := expm1Wide_inf f1 (by rw [f2]; exact h)
    rw [c, Option.map_some]
    have hs : (2 : ℝ) ^ 128 - 2 ^ 103 ≤ Real.sinh |R b32 x| := by
      rw [Real.sinh_eq]
      have h1 : Real.exp (-|R b32 x|) ≤ 1 := Real.exp_le_one_iff.2 (by linarith)
      have h2 : (2 : ℝ) ^ 128 + 2 ≤ Real.exp (|R b32 x| - 100) := pow128_le_exp (by
        have : (709.7827129 : ℝ) - 100 ≤ |R b32 x| - 100 := by linarith
        exact le_trans (by norm_num) this)
      have h3 : Real.exp (|R b32 x|) = Real.exp (|R b32 x| - 100) * Real.exp 100 := by rw [← Real.exp_add]; ring_nf
      have h4 := Real.add_one_le_exp (100 : ℝ)
      have h5 := mul_le_mul h2 h4 (by norm_num) (Real.exp_pos _).le
      rw [← h3] at h5
      generalize Real.exp |R b32 x| = A at *
      generalize Real.exp (-|R b32 x|) = B at *
      have : (2 : ℝ) ^ 103 ≥ 0 := by positivity
      norm_num at *
      linarith
    have hr : narrow (b64.mul (b64.pack (b32.neg x) (b64.abs b64.inf)) (b64.add half (Arith.fdiv b64 half (b64.add b64.inf one)))) = b32.pack (b32.neg x) (b32.abs b32.inf) := by
      cases b32.neg x <;> decide +kernel
    rw [hr]
    refine ⟨_, rfl, _, by simp, rounded_sign (rounded_inf hs) (lt_of_lt_of_le (by norm_num) hs) _⟩

/-! ### `tanhf` -/

theorem k_tanhMax : Fin b32 0x41102CB3 ∧ R b32 0x41102CB3 = 9448627 / 2 ^ 20 := by
  have := lit32 (x := 0x41102CB3) (m := 9448627) (k := 20) (s := false) (by decide) (by decide) (by decide +kernel)
  norm_num at this ⊢; exact this

theorem k_tanhMax' : Fin b32 0x41102CB4 ∧ R b32 0x41102CB4 = 9448628 / 2 ^ 20 := by
  have := lit32 (x := 0x41102CB4) (m := 9448628) (k := 20) (s := false) (by decide) (by decide) (by decide +kernel)
  norm_num at this ⊢; exact this

/-- The next float. -/
theorem next_R {F : Fmt} {c x : Nat} (hc : c + 1 < F.signBit) (h : R F c < R F x) : R F (c + 1) ≤ R F x := by
  have hu : (0 : ℝ) < 2 ^ F.unit := by positivity
  unfold R at h ⊢
  rw [div_lt_div_iff_of_pos_right hu] at h
  rw [div_le_div_iff_of_pos_right hu]
  have h' : F.val c < F.val x := by exact_mod_cast h
  have e (d : Nat) (hd : d < F.signBit) : F.val d = F.mag d := by
    have := Fmt.val_pack (F := F) (s := false) hd
    rw [show F.pack false d = d by simp [Fmt.pack]] at this
    simpa using this
  have : F.val (c + 1) ≤ F.val x := by
    rw [e _ hc]
    rw [e _ (by omega)] at h'
    cases en : F.neg x
    · have hv : F.val x = F.mag (F.abs x) := by unfold Fmt.val; rw [en]; simp
      rw [hv] at h' ⊢
      have : c < F.abs x := Fmt.mag_lt_iff.1 (by exact_mod_cast h')
      exact_mod_cast F.mag_mono (show c + 1 ≤ F.abs x by omega)
    · have hv : F.val x = -F.mag (F.abs x) := by unfold Fmt.val; rw [en]; simp
      rw [hv] at h'
      omega
  exact_mod_cast this

/-- `2 * x` is exact. -/
theorem twice_R {x : Nat} (hx : Fin b32 x) (h : |R b32 x| ≤ 2 ^ 20) : Fin b32 (b32.mul 0x40000000 x) ∧ R b32 (b32.mul 0x40000000 x) = 2 * R b32 x := by
  obtain ⟨r, r1, r2, r3, -⟩ := Fmt.mul_pow ok32 (c := 0x40000000) (j := 1) (by decide) (by decide +kernel) hx
  have hu : (0 : ℝ) < 2 ^ b32.unit := by positivity
  have hi : (b32.mag b32.inf : ℝ) = 2 ^ 128 * 2 ^ b32.unit := by
    have : b32.mag b32.inf = 2 ^ 128 * 2 ^ b32.unit := by decide +kernel
    rw [this]; push_cast; norm_num
  have hlt : 2 ^ 1 * b32.mag (b32.abs x) < b32.mag b32.inf := by
    have : ((2 ^ 1 * b32.mag (b32.abs x) : Nat) : ℝ) < b32.mag b32.inf := by
      rw [hi]
      rw [abs_R, div_le_iff₀ hu] at h
      push_cast
      generalize (2 : ℝ) ^ b32.unit = w at *
      norm_num at *
      linarith
    exact_mod_cast this
  have h3 := r3 hlt
  have hr : r < b32.inf := (Fmt.mag_lt_iff (F := b32)).1 (by rw [h3]; exact hlt)
  rw [r1]
  refine ⟨fin_pack hr, ?_⟩
  rw [R_pack r2, h3, R_signed]
  push_cast
  ring

theorem tanh_eq' (X : ℝ) : Real.tanh X = (Real.exp (2 * X) - 1) / (Real.exp (2 * X) - 1 + 2) := by
  have h := Real.exp_pos X
  have h2 := Real.exp_pos (2 * X)
  rw [Real.tanh_eq_sinh_div_cosh, Real.sinh_eq, Real.cosh_eq, Real.exp_neg, two_mul, Real.exp_add]
  have : Real.exp X * Real.exp X - 1 + 2 ≠ 0 := by nlinarith
  have h3 : Real.exp X + (Real.exp X)⁻¹ ≠ 0 := by positivity
  rw [div_div_div_cancel_right₀ (by norm_num), div_eq_div_iff h3 this]
  field_simp
  ring

theorem tanhRight_acc {x : Nat} (hx : Fin b32 x) (h0 : 0 < R b32 x) : ∃ r, tanhRight x = some r ∧ Accurate b32 (1 / 2 ^ 38) (Real.tanh (R b32 x)) r ∧ 0 < Real.tanh (R b32 x) := by
  have ht : 0 < Real.tanh (R b32 x) := by
    rw [Real.tanh_eq_sinh_div_cosh]; exact div_pos (Real.sinh_pos_iff.2 h0) (Real.cosh_pos _)
  unfold tanhRight
  cases c : b32.lt 0x41102CB3 x
  · have a := (lt_R k_tanhMax.1 hx).not.1 (by rw [c]; simp)
    rw [k_tanhMax.2] at a
    have hsm := fin_ne_zero h0.ne'
    rw [show b32.unit = 149 by rfl, abs_of_pos h0] at hsm
    obtain ⟨t1, t2⟩ := twice_R hx (by rw [abs_of_pos h0]; norm_num at *; linarith)
    obtain ⟨y, y1, y2⟩ := expm1Wide_rel t1 (by rw [t2]; linarith) (by rw [t2]; norm_num at *; linarith)
    rw [t2] at y2
    rw [if_neg (by simp), y1, Option.map_some]
    refine ⟨_, rfl, ?_, ht⟩
    rw [tanh_eq']
    have hE1 := Real.add_one_le_exp (2 * R b32 x)
    have hE3 : Real.exp (2 * R b32 x) ≤ 2 ^ 27 := by
      obtain ⟨l1, l2⟩ := log_two_bounds
      have : 2 * R b32 x ≤ (27 : Int) * Real.log 2 := by push_cast; norm_num at *; linarith
      have := Real.exp_le_exp.2 this
      rw [exp_pow] at this
      exact this.trans (by norm_num)
    generalize Real.exp (2 * R b32 x) = E at *
    have hv : 0 < E - 1 := by linarith
    have s := y2.add (rel_two.mono (δ := 1.1 / 10 ^ 12) (by norm_num)) hv.le (by norm_num) (η := 1.11 / 10 ^ 12) (by
      refine le_Mx ?_; norm_num at *; linarith) (by norm_num)
    have hq : 0 < (E - 1) / (E - 1 + 2) := div_pos hv (by linarith)
    have q1 : (E - 1) / (E - 1 + 2) ≤ 1 := (div_le_one (by linarith)).2 (by linarith)
    have q2 : 1 / 2 ^ 170 ≤ (E - 1) / (E - 1 + 2) := by
      rw [le_div_iff₀ (by linarith)]
      norm_num at *; linarith
    have k := y2.div s (θ := 2.22 / 10 ^ 12) (η := 2.3 / 10 ^ 12) (by norm_num) (by linarith) (by norm_num) (by
      refine le_Mx ?_; rw [abs_of_pos hq]; norm_num at *; linarith) (by rw [abs_of_pos hq]; exact q2) (by norm_num)
    exact (k.mono (by norm_num)).accurate
  · have a := next_R (F := b32) (c := 0x41102CB3) (by decide) ((lt_R k_tanhMax.1 hx).1 c)
    rw [show 0x41102CB3 + 1 = 0x41102CB4 by rfl, k_tanhMax'.2] at a
    refine ⟨0x3F800000, by simp, ⟨Real.tanh (R b32 x), by simp, ?_⟩, ht⟩
    have hE : (2 : ℝ) ^ 26 ≤ Real.exp (2 * R b32 x) := by
      obtain ⟨l1, l2⟩ := log_two_bounds
      have : (26 : Int) * Real.log 2 ≤ 2 * R b32 x := by push_cast; norm_num at *; linarith
      have := Real.exp_le_exp.2 this
      rw [exp_pow] at this
      exact le_trans (by norm_num) this
    have hlt : Real.tanh (R b32 x) < 1 := Real.tanh_lt_one _
    refine rounded_mid (a := 33554431) (b := 33554434) (k := 24) (by decide) (by decide) (by decide +kernel) (by decide +kernel) ?_ ?_
    · rw [tanh_eq']
      generalize Real.exp (2 * R b32 x) = E at *
      have hp : 0 < E - 1 + 2 := by norm_num at *; linarith
      rw [mul_div_assoc', div_lt_div_iff₀ (by norm_num) hp]
      push_cast
      norm_num at *
      linarith
    · norm_num at *; linarith

theorem tanhf_finite {x : Nat} (hp : Pat b32 x) (hx : Fin b32 x) : ∃ r, tanhf x = some r ∧ Accurate b32 (1 / 2 ^ 38) (Real.tanh (R b32 x)) r := by
  by_cases hz : R b32 x = 0
  · rcases zero_cases hp hz with rfl | rfl
    · refine ⟨0, by decide +kernel, 0, by rw [hz]; simp, rounded_zero' (by unfold Pat; decide) (by decide) (by decide)⟩
    · refine ⟨0x80000000, by decide +kernel, 0, by rw [hz]; simp, rounded_zero' (by unfold Pat; decide) (by decide) (by decide)⟩
  obtain ⟨f1, f2⟩ := fabs_R hx
  have h0 : 0 < |R b32 x| := abs_pos.2 hz
  obtain ⟨r, r1, ⟨z, z1, z2⟩, r3⟩ := tanhRight_acc f1 (by rw [f2]; exact h0)
  rw [f2] at z1 r3
  unfold tanhf
  rw [r1, Option.map_some]
  have htanh : Real.tanh (R b32 x) = (if b32.neg x then -1 else 1) * Real.tanh |R b32 x| := by
    have := R_sign (F := b32) x
    cases e : b32.neg x
    · rw [e] at this; simp at this; simp [← this]
    · rw [e] at this; simp at this
      conv_lhs => rw [this]
      simp
  rw [htanh]
  have hz0 : 0 < z := by
    rw [abs_of_pos r3] at z1
    have := (abs_le.1 z1).1
    norm_num at *; linarith
  refine ⟨_, rfl, (if b32.neg x then -1 else 1) * z, ?_, rounded_sign z2 hz0 _⟩
  rw [← mul_sub, abs_mul, abs_mul, show |(if b32.neg x then (-1 : ℝ) else 1)| = 1 by cases b32.neg x <;> simp, one_mul, one_mul]
  exact z1

end Verif.Approx
