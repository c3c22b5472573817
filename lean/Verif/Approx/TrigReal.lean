import Verif.Approx.Poly
import Mathlib.Analysis.SpecialFunctions.Trigonometric.ArctanDeriv
import Mathlib.Analysis.SpecialFunctions.Trigonometric.InverseDeriv
import Mathlib.Analysis.SpecialFunctions.Sqrt

/-! # The polynomials inside `atanf`, `asinf`, `acosf` and `tanf` against the real functions -/

namespace Verif.Approx

/-- The numerator of src/math/float/kernel/atanf.h, times `2^68`. -/
def atN : List Int := [97400255081558097920, 244085436916964261888, 222443893325374095360, 89761862330549534720, 15520489690239533056, 912836857874542336, 7874677830573602]
/-- The denominator of src/math/float/kernel/atanf.h, times `2^68`. -/
def atD : List Int := [97400255081558081536, 276552188610816770048, 295147905179352825856, 146748381822084382720, 34092240889479233536, 3217774833083027456, 80642356262879680]
/-- The polynomial of src/math/float/kernel/asin.h, times `2^62`. -/
def asP : List Int := [768614336404578560, 345876451368710336, 205878842215302016, 140111859063361952, 103177429316471424, 79951708831178464, 65231691754267904, 47350165335119344, 71577995777867776, -32122471822018824, 129064667237626640]
/-- The numerator of src/math/float/tanf.c, times `2^70`. -/
def tnN : List Int := [1180591620717411303424, -151449127991218274304, 3312502913266689536, -8833753725728546]
/-- The denominator of src/math/float/tanf.c, times `2^70`. -/
def tnD : List Int := [1180591620717411303424, -544979668230353059840, 27560176227660562432, -246071817887927808]

def atQ : List Int := padd (pmul [1, 1] (pquot atN atD)) (psm (-1) (pmul atD atD))

theorem at_check1 : posTo (padd (pmul atD atD) (psm (2 ^ 46) atQ)) 8 8 = true := by decide +kernel
theorem at_check2 : posTo (padd (pmul atD atD) (psm (-2 ^ 46) atQ)) 8 8 = true := by decide +kernel
theorem at_check3 : posTo (padd atD [-2 ^ 66]) 8 8 = true := by decide +kernel

theorem at_den {u : ℝ} (h0 : 0 ≤ u) (h1 : u ≤ 1) : 2 ^ 66 ≤ ev u atD := by
  have := pos_to (by norm_num) (by norm_num) at_check3 h0 (by norm_num; linarith)
  rw [ev_padd] at this
  simp only [ev] at this
  push_cast at this
  linarith

/-- `x N(x²) / D(x²)` is the arctangent up to a relative error of `2^-46`. -/
theorem atan_quot_pos {x : ℝ} (h0 : 0 ≤ x) (h1 : x ≤ 1) :
    |x * ev (x ^ 2) atN / ev (x ^ 2) atD - Real.arctan x| ≤ 1 / 2 ^ 46 * Real.arctan x := by
  have key : ∀ s : Int, (s = 1 ∨ s = -1) → 0 ≤ (1 / 2 ^ 46 + s) * Real.arctan x - s * (x * ev (x ^ 2) atN / ev (x ^ 2) atD) := by
    intro s hs
    refine grows (b := 1) (f := fun x => (1 / 2 ^ 46 + s) * Real.arctan x - s * (x * ev (x ^ 2) atN / ev (x ^ 2) atD))
      (f' := fun x => (1 / 2 ^ 46 + s) * (1 / (1 + x ^ 2)) - s * (ev (x ^ 2) (pquot atN atD) / ev (x ^ 2) atD ^ 2)) ?_ (by simp) ?_ h0 h1
    · intro y y0 y1
      have hd := at_den (u := y ^ 2) (by positivity) (by nlinarith)
      exact ((Real.hasDerivAt_arctan y).const_mul _).sub ((quot_deriv atN atD y (by linarith [show (0 : ℝ) < 2 ^ 66 by norm_num])).const_mul _)
    · intro y y0 y1
      have hd := at_den (u := y ^ 2) (by positivity) (by nlinarith)
      have u1 : y ^ 2 ≤ 1 := by nlinarith
      have c1 := pos_to (u := y ^ 2) (by norm_num) (by norm_num) at_check1 (by positivity) (u1.trans (by norm_num))
      have c2 := pos_to (u := y ^ 2) (by norm_num) (by norm_num) at_check2 (by positivity) (u1.trans (by norm_num))
      simp only [atQ, ev_padd, ev_psm, ev_pmul] at c1 c2
      simp only [ev] at c1 c2
      push_cast at c1 c2
      generalize ev (y ^ 2) atD = d at *
      generalize ev (y ^ 2) (pquot atN atD) = a at *
      have d0 : 0 < d := by linarith [show (0 : ℝ) < 2 ^ 66 by norm_num]
      have y2 : 0 < 1 + y ^ 2 := by positivity
      have e : (1 / 2 ^ 46 + (s : ℝ)) * (1 / (1 + y ^ 2)) - s * (a / d ^ 2) = (d * d + 2 ^ 46 * s * (d * d - (1 + y ^ 2) * a)) / (2 ^ 46 * ((1 + y ^ 2) * d ^ 2)) := by
        field_simp
        ring
      rw [e]
      refine div_nonneg ?_ (by positivity)
      rcases hs with rfl | rfl <;> push_cast <;> linarith
  have k1 := key 1 (Or.inl rfl)
  have k2 := key (-1) (Or.inr rfl)
  push_cast at k1 k2
  rw [abs_le]
  constructor <;> linarith

theorem atan_quot {x : ℝ} (h : |x| ≤ 1) : |x * ev (x ^ 2) atN / ev (x ^ 2) atD - Real.arctan x| ≤ 1 / 2 ^ 46 * |Real.arctan x| := by
  rcases le_total 0 x with h0 | h0
  · rw [abs_of_nonneg h0] at h
    have := atan_quot_pos h0 h
    rwa [abs_of_nonneg (Real.arctan_nonneg.2 h0)]
  · rw [abs_of_nonpos h0] at h
    have := atan_quot_pos (x := -x) (by linarith) h
    rw [Real.arctan_neg, neg_sq] at this
    rw [abs_of_nonpos (show Real.arctan x ≤ 0 by have := Real.arctan_nonneg.2 (show 0 ≤ -x by linarith); rw [Real.arctan_neg] at this; linarith), ← abs_neg]
    convert this using 2
    ring

/-! ### arcsine -/

/-- The derivative of `t + t³ P(t²)`, times `2^62`. -/
def asK : List Int := padd [2 ^ 62] (padd (psm 3 (0 :: asP)) (psm 2 (0 :: 0 :: pder asP)))

theorem as_deriv (t : ℝ) : HasDerivAt (fun t => t + t * t ^ 2 * (ev (t ^ 2) asP / 2 ^ 62)) (ev (t ^ 2) asK / 2 ^ 62) t := by
  have s : HasDerivAt (fun x : ℝ => x ^ 2) (2 * t) t := by simpa using hasDerivAt_pow 2 t
  have n := ((ev_pder (t ^ 2) asP).comp t s).div_const (2 ^ 62)
  have k := (hasDerivAt_id t).add (((hasDerivAt_id t).mul s).mul n)
  refine k.congr_deriv ?_
  simp only [asK, ev_padd, ev_psm, ev, Function.comp, id, Pi.mul_apply]
  push_cast
  field_simp
  ring

theorem as_check1 : posTo (padd (psm (2 ^ 80) (pmul (pmul asK asK) [1, -1])) [-(2 ^ 40 - 1) ^ 2 * 2 ^ 124]) 32 8 = true := by decide +kernel
theorem as_check2 : posTo (padd (psm (-2 ^ 80) (pmul (pmul asK asK) [1, -1])) [(2 ^ 40 + 1) ^ 2 * 2 ^ 124]) 32 8 = true := by decide +kernel
theorem as_check3 : posTo (padd asK [-2 ^ 61]) 32 8 = true := by decide +kernel

theorem asin_poly_pos {t : ℝ} (h0 : 0 ≤ t) (h1 : t ≤ 1 / 2) : |t + t * t ^ 2 * (ev (t ^ 2) asP / 2 ^ 62) - Real.arcsin t| ≤ 1 / 2 ^ 40 * Real.arcsin t := by
  have key : ∀ s : Int, (s = 1 ∨ s = -1) → 0 ≤ (1 / 2 ^ 40 + s) * Real.arcsin t - s * (t + t * t ^ 2 * (ev (t ^ 2) asP / 2 ^ 62)) := by
    intro s hs
    refine grows (b := 1 / 2) (f := fun t => (1 / 2 ^ 40 + s) * Real.arcsin t - s * (t + t * t ^ 2 * (ev (t ^ 2) asP / 2 ^ 62)))
      (f' := fun t => (1 / 2 ^ 40 + s) * (1 / √(1 - t ^ 2)) - s * (ev (t ^ 2) asK / 2 ^ 62)) ?_ (by simp) ?_ h0 h1
    · intro y y0 y1
      exact ((Real.hasDerivAt_arcsin (by linarith) (by linarith)).const_mul _).sub ((as_deriv y).const_mul _)
    · intro y y0 y1
      have u1 : y ^ 2 ≤ 1 / 4 := by nlinarith
      have c1 := pos_to (u := y ^ 2) (by norm_num) (by norm_num) as_check1 (by positivity) (by norm_num; linarith)
      have c2 := pos_to (u := y ^ 2) (by norm_num) (by norm_num) as_check2 (by positivity) (by norm_num; linarith)
      have c3 := pos_to (u := y ^ 2) (by norm_num) (by norm_num) as_check3 (by positivity) (by norm_num; linarith)
      simp only [ev_padd, ev_psm, ev_pmul] at c1 c2 c3
      simp only [ev] at c1 c2 c3
      push_cast at c1 c2 c3
      obtain ⟨k, hk⟩ : ∃ k, ev (y ^ 2) asK = 2 ^ 62 * k := ⟨ev (y ^ 2) asK / 2 ^ 62, by field_simp⟩
      rw [hk] at c1 c2 c3
      show 0 ≤ (1 / 2 ^ 40 + s) * (1 / √(1 - y ^ 2)) - s * (ev (y ^ 2) asK / 2 ^ 62)
      rw [hk]
      have r0 : 0 < √(1 - y ^ 2) := Real.sqrt_pos.2 (by linarith)
      have r2 : √(1 - y ^ 2) ^ 2 = 1 - y ^ 2 := Real.sq_sqrt (by linarith)
      generalize √(1 - y ^ 2) = r at *
      have k0 : 0 < k := by linarith
      have e : (1 / 2 ^ 40 + (s : ℝ)) * (1 / r) - s * (2 ^ 62 * k / 2 ^ 62) = (1 / 2 ^ 40 + s * (1 - k * r)) / r := by field_simp; ring
      rw [e]
      refine div_nonneg ?_ r0.le
      have q : (k * r) ^ 2 = k ^ 2 * (1 - y ^ 2) := by rw [mul_pow, r2]
      have q1 : (1 - 1 / 2 ^ 40) ^ 2 ≤ (k * r) ^ 2 := by rw [q]; linarith
      have q2 : (k * r) ^ 2 ≤ (1 + 1 / 2 ^ 40) ^ 2 := by rw [q]; linarith
      have q3 := abs_le_of_sq_le_sq' q2 (by norm_num)
      have q4 := abs_le_of_sq_le_sq q1 (by positivity)
      have q5 := (abs_le.1 q4).2
      rcases hs with rfl | rfl <;> push_cast <;> linarith [q3.2]
  have k1 := key 1 (Or.inl rfl)
  have k2 := key (-1) (Or.inr rfl)
  push_cast at k1 k2
  rw [abs_le]
  constructor <;> linarith

/-! ### Tangent -/

def tnW : List Int := padd (pmul tnD tnD) (0 :: pmul tnN tnN)
def tnQ : List Int := padd (pquot tnN tnD) (psm (-1) tnW)

theorem tn_check1 : posTo (padd tnW (psm (2 ^ 46) tnQ)) 8 5 = true := by decide +kernel
theorem tn_check2 : posTo (padd tnW (psm (-2 ^ 46) tnQ)) 8 5 = true := by decide +kernel
theorem tn_check3 : posTo (padd tnD [-2 ^ 69]) 8 5 = true := by decide +kernel
theorem tn_check4 : posTo (padd tnN [-2 ^ 69]) 8 5 = true := by decide +kernel

theorem tn_den {u : ℝ} (h0 : 0 ≤ u) (h1 : u ≤ 5 / 8) : 2 ^ 69 ≤ ev u tnD ∧ 2 ^ 69 ≤ ev u tnN := by
  have k := pos_to (by norm_num) (by norm_num) tn_check3 h0 (by norm_num; linarith)
  have l := pos_to (by norm_num) (by norm_num) tn_check4 h0 (by norm_num; linarith)
  rw [ev_padd] at k l
  simp only [ev] at k l
  push_cast at k l
  constructor <;> linarith

/-- The arctangent of `y N(y²) / D(y²)` is `y` up to a relative error of `2^-46`. -/
theorem tan_quot_pos {y : ℝ} (h0 : 0 ≤ y) (h1 : y ≤ 0.79) : |Real.arctan (y * ev (y ^ 2) tnN / ev (y ^ 2) tnD) - y| ≤ 1 / 2 ^ 46 * y := by
  have key : ∀ s : Int, (s = 1 ∨ s = -1) → 0 ≤ (1 / 2 ^ 46 + s) * y - s * Real.arctan (y * ev (y ^ 2) tnN / ev (y ^ 2) tnD) := by
    intro s hs
    refine grows (b := 0.79) (f := fun y => (1 / 2 ^ 46 + s) * y - s * Real.arctan (y * ev (y ^ 2) tnN / ev (y ^ 2) tnD))
      (f' := fun y => (1 / 2 ^ 46 + s) * 1 - s * (1 / (1 + (y * ev (y ^ 2) tnN / ev (y ^ 2) tnD) ^ 2) * (ev (y ^ 2) (pquot tnN tnD) / ev (y ^ 2) tnD ^ 2))) ?_ (by simp) ?_ h0 h1
    · intro y y0 y1
      have hd := (tn_den (u := y ^ 2) (by positivity) (by nlinarith)).1
      exact ((hasDerivAt_id y).const_mul _).sub (((quot_deriv tnN tnD y (by linarith [show (0 : ℝ) < 2 ^ 69 by norm_num])).arctan).const_mul _)
    · intro y y0 y1
      have hd := (tn_den (u := y ^ 2) (by positivity) (by nlinarith)).1
      have c1 := pos_to (u := y ^ 2) (by norm_num) (by norm_num) tn_check1 (by positivity) (by norm_num; nlinarith)
      have c2 := pos_to (u := y ^ 2) (by norm_num) (by norm_num) tn_check2 (by positivity) (by norm_num; nlinarith)
      simp only [tnQ, tnW, ev_padd, ev_psm, ev_pmul] at c1 c2
      simp only [ev, ev_pmul] at c1 c2
      push_cast at c1 c2
      generalize ev (y ^ 2) tnD = d at *
      generalize ev (y ^ 2) tnN = n at *
      generalize ev (y ^ 2) (pquot tnN tnD) = a at *
      have d0 : 0 < d := by linarith [show (0 : ℝ) < 2 ^ 69 by norm_num]
      have w0 : 0 < d * d + y ^ 2 * (n * n) := add_pos_of_pos_of_nonneg (mul_pos d0 d0) (mul_nonneg (sq_nonneg y) (mul_self_nonneg n))
      have e : (1 / 2 ^ 46 + (s : ℝ)) * 1 - s * (1 / (1 + (y * n / d) ^ 2) * (a / d ^ 2)) =
          ((d * d + y ^ 2 * (n * n)) + 2 ^ 46 * s * ((d * d + y ^ 2 * (n * n)) - a)) / (2 ^ 46 * (d * d + y ^ 2 * (n * n))) := by
        have : 1 + (y * n / d) ^ 2 = (d * d + y ^ 2 * (n * n)) / d ^ 2 := by field_simp
        rw [this]
        field_simp
        ring
      rw [e]
      refine div_nonneg ?_ (by positivity)
      rcases hs with rfl | rfl <;> push_cast <;> linarith
  have k1 := key 1 (Or.inl rfl)
  have k2 := key (-1) (Or.inr rfl)
  push_cast at k1 k2
  rw [abs_le]
  constructor <;> linarith

end Verif.Approx
