import Verif.Approx.Asin

/-! # `asinf` and `acosf` at every float from -1 to 1 -/

namespace Verif.Approx
open Verif.Float Verif.Approx.Spec
open Verif.Math.Spec (Pat)

theorem one_pat {x : Nat} (hp : Pat b32 x) (hx : Fin b32 x) (h : |R b32 x| = 1) : x = 0x3F800000 ∨ x = 0xBF800000 := by
  obtain ⟨-, a2⟩ := fabs_R hx
  have e : b32.abs x = 0x3F800000 := by
    rcases Nat.lt_trichotomy (b32.abs x) 0x3F800000 with c | c | c
    · have := R32_mono (show b32.abs x ≤ 0x3F7FFFFF by omega) (by decide)
      rw [a2, h, (lit32 (x := 0x3F7FFFFF) (m := 16777215) (k := 24) (s := false) (by decide) (by decide) (by decide +kernel)).2] at this
      norm_num at this
    · exact c
    · have := R32_mono (show 0x3F800001 ≤ b32.abs x by omega) hx
      rw [a2, h, (lit32 (x := 0x3F800001) (m := 8388609) (k := 23) (s := false) (by decide) (by decide) (by decide +kernel)).2] at this
      norm_num at this
  have := Fmt.pack_self (F := b32) hp
  rw [e] at this
  cases c : b32.neg x
  · rw [c] at this; exact Or.inl (this.symm.trans (by decide))
  · rw [c] at this; exact Or.inr (this.symm.trans (by decide))

theorem asin_direct {x : Nat} (hx : Fin b32 x) (h : |R b32 x| < 1 / 2) (h0 : R b32 x ≠ 0) :
    Rel (kernelAsin (wide x) (b64.mul (wide x) (wide x))) (Real.arcsin (R b32 x)) (1 / 2 ^ 39) := by
  obtain ⟨w1, w2, -, -⟩ := wideR hx
  have hs := square_ap w1 (by rw [w2]; exact h.le.trans (by norm_num))
  rw [w2] at hs
  exact kernelAsin_rel ((Rel.exact w1 w2).mono (by norm_num)) hs.1 h.le (le_trans (by norm_num) ((R32_zero_or (x := x)).resolve_left h0))

theorem asin_two {x : Nat} (hp : Pat b32 x) (hx : Fin b32 x) (h : 1 / 2 ≤ |R b32 x|) (h1 : |R b32 x| ≤ 1) :
    Rel (asinTwo (b64.abs (wide x))) (2 * Real.arcsin √((1 - |R b32 x|) / 2)) (1 / 2 ^ 38) := by
  obtain ⟨w1, w2, -, -⟩ := wideR hx
  obtain ⟨a1, a2⟩ := fabs_R w1
  rw [w2] at a2
  rw [← a2]
  refine asinTwo_rel a1 (by rw [a2]; exact h) ?_
  rcases lt_or_eq_of_le h1 with c | c
  · left; rw [a2]; exact below_one hx c
  · right; rcases one_pat hp hx c with rfl | rfl <;> decide +kernel

theorem asin_split {x : Nat} (hx : Fin b32 x) : b64.lt (b64.abs (wide x)) half = true ↔ |R b32 x| < 1 / 2 := by
  obtain ⟨w1, w2, -, -⟩ := wideR hx
  obtain ⟨a1, a2⟩ := fabs_R w1
  rw [lt_R a1 k_half.1, a2, w2, k_half.2]

theorem arcsin_between {l h x : ℝ} (h0 : 0 ≤ l) (h1 : h ≤ 1) (hlh : l ≤ h) (n : Nat) (hl : sinT (2 * n + 1) l < x) (hh : x < sinT (2 * n + 2) h) : l < Real.arcsin x ∧ Real.arcsin x < h := by
  have hpi := Real.pi_gt_three
  have a := sin_taylor (2 * n) h0
  have b := sin_taylor (2 * n + 1) (h0.trans hlh)
  rw [show (-1 : ℝ) ^ (2 * n + 1) = -1 from Odd.neg_one_pow ⟨n, rfl⟩] at a
  rw [show (-1 : ℝ) ^ (2 * n + 1 + 1) = 1 from Even.neg_one_pow ⟨n + 1, by ring⟩] at b
  constructor
  · exact (Real.lt_arcsin_iff_sin_lt' ⟨by linarith, by linarith⟩).2 (by linarith)
  · exact (Real.arcsin_lt_iff_lt_sin' ⟨by linarith, by linarith⟩).2 (by linarith)

theorem asin_hard : Rounded b32 (Real.arcsin (4463885 / 8388608)) 0x3F0FA5B2 := by
  obtain ⟨a, b⟩ := arcsin_between (l := 18828131 / 2 ^ 25) (h := 18828133 / 2 ^ 25) (x := 4463885 / 8388608) (by norm_num) (by norm_num) (by norm_num) 4
    (by simp only [sinT]; norm_num [Nat.factorial]) (by simp only [sinT]; norm_num [Nat.factorial])
  refine rounded_mid (a := 18828131) (b := 18828133) (k := 24) (by decide) (by decide) (by decide +kernel) (by decide +kernel) ?_ ?_
  · norm_num at *; linarith
  · norm_num at *; linarith

theorem asin_abs {x : Nat} (hp : Pat b32 x) (hx : Fin b32 x) (h : 1 / 2 ≤ |R b32 x|) (h1 : |R b32 x| ≤ 1) :
    Rel (b64.sub pi2 (asinTwo (b64.abs (wide x)))) (Real.arcsin |R b32 x|) (1 / 2 ^ 36) := by
  have k := asin_two hp hx h h1
  obtain ⟨e, -, -, v0, v1⟩ := half_angle h h1
  have lo := sin_arcsin_le (h.trans' (by norm_num)) h1
  have hpi := Real.pi_lt_d20
  rw [e] at lo ⊢
  have ke := k.err
  generalize Real.arcsin √((1 - |R b32 x|) / 2) = θ at *
  rw [abs_of_nonneg (show 0 ≤ 2 * θ by linarith)] at ke
  show Rel (b64.add _ (b64.opp _)) _ _
  rw [sub_eq_add_neg] at lo ⊢
  have hp0 : 0 < Real.pi / 2 + -(2 * θ) := lt_of_lt_of_le (lt_of_lt_of_le (by norm_num) h) lo
  refine Rel.add_abs (e := 1 / 2 ^ 53) (d := 1 / 2 ^ 38 * (2 * θ)) (B := 2) k_pi2.1 (fin_opp k.fin) k_pi2.2 ?_ ?_ (le_Mx (by norm_num)) ?_
  · rw [R_opp, show ∀ a b : ℝ, -a - -b = -(a - b) by intros; ring, abs_neg]; exact ke
  · rw [abs_of_pos hp0]; norm_num at *; linarith
  · rw [abs_of_pos hp0]; norm_num at *; linarith

theorem asinf_finite {x : Nat} (hp : Pat b32 x) (hx : Fin b32 x) (h1 : |R b32 x| ≤ 1) : Accurate b32 (1 / 2 ^ 36) (Real.arcsin (R b32 x)) (asinf x) := by
  by_cases h0 : R b32 x = 0
  · rw [h0, Real.arcsin_zero]
    refine ⟨0, by simp, rounded_zero' ?_ ?_ (by decide)⟩ <;> rcases zero_cases hp h0 with rfl | rfl <;> (try unfold Pat) <;> decide +kernel
  unfold asinf
  by_cases h : |R b32 x| < 1 / 2
  · simp only [(asin_split hx).2 h, if_true]
    exact ((asin_direct hx h h0).mono (by norm_num)).accurate
  · have hv : 0 < Real.arcsin |R b32 x| := Real.arcsin_pos.2 (abs_pos.2 h0)
    have e : Real.arcsin (R b32 x) = (if b32.neg x then -1 else 1) * Real.arcsin |R b32 x| := by
      conv_lhs => rw [R_sign]
      cases b32.neg x
      · simp
      · simp [Real.arcsin_neg]
    rw [e]
    simp only [show b64.lt (b64.abs (wide x)) half = false from Bool.eq_false_iff.2 fun c => h ((asin_split hx).1 c), Bool.false_eq_true, if_false]
    obtain ⟨f1, f2⟩ := fabs_R hx
    obtain ⟨g1, g2⟩ := lit32 (x := 0x3F083A1A) (m := 4463885) (k := 23) (s := false) (by decide) (by decide) (by decide +kernel)
    cases c : b32.eq (b32.abs x) 0x3F083A1A
    · simp only [Bool.false_eq_true, if_false]
      exact accurate_sign (asin_abs hp hx (not_lt.1 h) h1).accurate hv (by norm_num) _
    · simp only [if_true]
      refine accurate_sign (r := 0x3F0FA5B2) ⟨Real.arcsin |R b32 x|, by rw [sub_self, abs_zero]; positivity, ?_⟩ hv (by norm_num) _
      rw [← f2, (eq_R f1 g1).1 c, g2]
      convert asin_hard using 2
      norm_num

theorem acos_hard1 : Rounded b32 (Real.arccos (8947107 / 562949953421312)) 0x3FC90FDB := by
  obtain ⟨a, b⟩ := arcsin_between (l := 8947106 / 2 ^ 49) (h := 8947107 / 2 ^ 49 + 1 / 2 ^ 70) (x := 8947107 / 562949953421312) (by norm_num) (by norm_num) (by norm_num) 2
    (by simp only [sinT]; norm_num [Nat.factorial]) (by simp only [sinT]; norm_num [Nat.factorial])
  have p1 := Real.pi_gt_d20
  have p2 := Real.pi_lt_d20
  rw [Real.arccos_eq_pi_div_two_sub_arcsin]
  generalize Real.arcsin (8947107 / 562949953421312) = q at *
  refine rounded_mid (a := 26353589) (b := 26353591) (k := 23) (by decide) (by decide) (by decide +kernel) (by decide +kernel) ?_ ?_
  · norm_num at *; linarith
  · norm_num at *; linarith

theorem acos_hard2 : Rounded b32 (Real.arccos (4272401 / 17179869184)) 0x3FC907B5 := by
  obtain ⟨a, b⟩ := arcsin_between (l := 4272400 / 2 ^ 34) (h := 4272401 / 17179869184 * (1 + (4272401 / 17179869184) ^ 2 / 6) + 1 / 2 ^ 60) (x := 4272401 / 17179869184) (by norm_num) (by norm_num) (by norm_num) 2
    (by simp only [sinT]; norm_num [Nat.factorial]) (by simp only [sinT]; norm_num [Nat.factorial])
  have p1 := Real.pi_gt_d20
  have p2 := Real.pi_lt_d20
  rw [Real.arccos_eq_pi_div_two_sub_arcsin]
  generalize Real.arcsin (4272401 / 17179869184) = q at *
  refine rounded_mid (a := 26349417) (b := 26349419) (k := 23) (by decide) (by decide) (by decide +kernel) (by decide +kernel) ?_ ?_
  · norm_num at *; linarith
  · norm_num at *; linarith

theorem acos_small {x : Nat} (hp : Pat b32 x) (hx : Fin b32 x) (h : |R b32 x| < 1 / 2) :
    Rel (b64.sub pi2 (kernelAsin (wide x) (b64.mul (wide x) (wide x)))) (Real.arccos (R b32 x)) (1 / 2 ^ 36) := by
  have hpi := Real.pi_lt_d20
  have hpi' := Real.pi_gt_d20
  have hA : |Real.arcsin (R b32 x)| ≤ 0.53 := by
    rw [abs_arcsin]
    have : Real.arcsin |R b32 x| ≤ Real.arcsin (1 / 2) := Real.monotone_arcsin h.le
    rw [← Real.sin_pi_div_six, Real.arcsin_sin (by linarith) (by linarith)] at this
    norm_num at *; linarith
  have k : Ap (kernelAsin (wide x) (b64.mul (wide x) (wide x))) (Real.arcsin (R b32 x)) (1 / 2 ^ 39) := by
    by_cases h0 : R b32 x = 0
    · rw [h0, Real.arcsin_zero]
      have z : R b64 0 = 0 ∧ R b64 0x8000000000000000 = 0 := by
        constructor <;> rw [R_signed] <;> simp only [show b64.abs 0 = 0 from by decide, show b64.abs 0x8000000000000000 = 0 from by decide, b64.mag_zero] <;> simp
      have hd : kernelAsin (wide 0) (b64.mul (wide 0) (wide 0)) = 0 ∧ kernelAsin (wide 0x80000000) (b64.mul (wide 0x80000000) (wide 0x80000000)) = 0x8000000000000000 := by decide +kernel
      rcases zero_cases hp h0 with rfl | rfl
      · rw [hd.1]; exact ⟨by show b64.abs 0 < b64.inf; decide, by rw [z.1]; norm_num⟩
      · rw [hd.2]; exact ⟨by show b64.abs 0x8000000000000000 < b64.inf; decide, by rw [z.2]; norm_num⟩
    · have k := asin_direct hx h h0
      refine ⟨k.fin, k.err.trans ?_⟩
      norm_num at *
      linarith
  have ha := abs_le.1 hA
  rw [Real.arccos_eq_pi_div_two_sub_arcsin]
  show Rel (b64.add _ (b64.opp _)) _ _
  rw [sub_eq_add_neg]
  have hp0 : 1 ≤ Real.pi / 2 + -Real.arcsin (R b32 x) := by norm_num at *; linarith
  have hp1 : Real.pi / 2 + -Real.arcsin (R b32 x) ≤ 2.2 := by norm_num at *; linarith
  refine Rel.add_abs (e := 1 / 2 ^ 53) (d := 1 / 2 ^ 39) (B := 3) k_pi2.1 (fin_opp k.fin) k_pi2.2 ?_ ?_ (le_Mx (by norm_num)) ?_
  · rw [R_opp, show ∀ a b : ℝ, -a - -b = -(a - b) by intros; ring, abs_neg]; exact k.err
  · rw [abs_of_nonneg (by linarith)]; norm_num at *; linarith
  · rw [abs_of_nonneg (by linarith)]; norm_num at *; linarith

theorem acosf_finite {x : Nat} (hp : Pat b32 x) (hx : Fin b32 x) (h1 : |R b32 x| ≤ 1) : Accurate b32 (1 / 2 ^ 36) (Real.arccos (R b32 x)) (acosf x) := by
  unfold acosf
  by_cases h : |R b32 x| < 1 / 2
  · simp only [(asin_split hx).2 h, if_true]
    obtain ⟨g1, g2⟩ := lit32 (x := 0x328885A3) (m := 8947107) (k := 49) (s := false) (by decide) (by decide) (by decide +kernel)
    cases c1 : b32.eq x 0x328885A3
    swap
    · refine ⟨Real.arccos (R b32 x), by rw [sub_self, abs_zero]; positivity, ?_⟩
      rw [(eq_R hx g1).1 c1, g2]
      simp only [if_true]
      convert acos_hard1 using 2
      norm_num
    obtain ⟨g1, g2⟩ := lit32 (x := 0x39826222) (m := 4272401) (k := 34) (s := false) (by decide) (by decide) (by decide +kernel)
    cases c2 : b32.eq x 0x39826222
    swap
    · refine ⟨Real.arccos (R b32 x), by rw [sub_self, abs_zero]; positivity, ?_⟩
      rw [(eq_R hx g1).1 c2, g2]
      simp only [if_true, Bool.false_eq_true, if_false]
      convert acos_hard2 using 2
      norm_num
    simp only [Bool.false_eq_true, if_false]
    exact (acos_small hp hx h).accurate
  · have k := asin_two hp hx (not_lt.1 h) h1
    obtain ⟨e, -, -, v0, v1⟩ := half_angle (not_lt.1 h) h1
    have z32 : Fin b32 0 ∧ R b32 0 = 0 := ⟨by show b32.abs 0 < b32.inf; decide, by rw [R_signed, show b32.abs 0 = 0 from by decide, b32.mag_zero]; simp⟩
    simp only [show b64.lt (b64.abs (wide x)) half = false from Bool.eq_false_iff.2 fun c => h ((asin_split hx).1 c), Bool.false_eq_true, if_false]
    by_cases hs : 0 < R b32 x
    · rw [if_pos ((lt_R z32.1 hx).2 (by rw [z32.2]; exact hs))]
      rw [abs_of_pos hs] at e k
      rw [Real.arccos_eq_pi_div_two_sub_arcsin, e, sub_sub_cancel]
      exact (k.mono (by norm_num)).accurate
    · rw [if_neg (fun c => hs (by have := (lt_R z32.1 hx).1 c; rwa [z32.2] at this))]
      have hpi := Real.pi_lt_d20
      have hpi' := Real.pi_gt_d20
      have ea : |R b32 x| = -R b32 x := abs_of_nonpos (not_lt.1 hs)
      rw [ea, Real.arcsin_neg, ← ea] at e
      have e' : Real.arccos (R b32 x) = Real.pi + -(2 * Real.arcsin √((1 - |R b32 x|) / 2)) := by rw [Real.arccos_eq_pi_div_two_sub_arcsin]; linarith
      rw [e']
      generalize Real.arcsin √((1 - |R b32 x|) / 2) = θ at *
      have ke := k.err
      rw [abs_of_nonneg (show 0 ≤ 2 * θ by linarith)] at ke
      refine Rel.accurate (Rel.add_abs (e := 1 / 2 ^ 52) (d := 1 / 2 ^ 38 * (2 * θ)) (B := 4) k_pi1.1 (fin_opp k.fin) k_pi1.2 ?_ ?_ (le_Mx (by norm_num)) ?_)
      · rw [R_opp, show ∀ a b : ℝ, -a - -b = -(a - b) by intros; ring, abs_neg]; exact ke
      · rw [abs_of_nonneg (by norm_num at *; linarith)]; norm_num at *; linarith
      · rw [abs_of_nonneg (by norm_num at *; linarith)]; norm_num at *; linarith

end Verif.Approx
