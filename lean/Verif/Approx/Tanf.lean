import Verif.Approx.Sincosf

/-! # `tanf` -/

namespace Verif.Approx
open Verif.Float Verif.Approx.Spec
open Verif.Math.Spec (Pat)

theorem tn_link : link 70 tanN tnN = true ∧ link 70 tanD tnD = true ∧ psum tnN ≤ 3 * 2 ^ 70 ∧ psum tnD ≤ 3 * 2 ^ 70 := by decide +kernel

/-- The rational function is the tangent of a number next to the argument. -/
theorem tan_quot {y : ℝ} (h : |y| ≤ 0.79) : |Real.arctan (y * ev (y ^ 2) tnN / ev (y ^ 2) tnD) - y| ≤ 1 / 2 ^ 46 * |y| := by
  rcases abs_cases y with ⟨e, hy⟩ | ⟨e, hy⟩
  · rw [e] at h ⊢
    exact tan_quot_pos hy h
  · rw [e] at h ⊢
    have := tan_quot_pos (y := -y) (by linarith) h
    rw [neg_sq, neg_mul, neg_div, Real.arctan_neg, ← abs_neg] at this
    refine le_of_eq_of_le ?_ this
    congr 1
    ring

theorem tan_sub {a b : ℝ} (ha : 0 < Real.cos a) (hb : 0 < Real.cos b) : |Real.tan a - Real.tan b| ≤ |a - b| / (Real.cos a * Real.cos b) := by
  have e : Real.tan a - Real.tan b = Real.sin (a - b) / (Real.cos a * Real.cos b) := by
    rw [Real.tan_eq_sin_div_cos, Real.tan_eq_sin_div_cos, Real.sin_sub]; field_simp
  rw [e, abs_div, abs_of_pos (mul_pos ha hb)]
  exact div_le_div_of_nonneg_right Real.abs_sin_le_abs (mul_pos ha hb).le

theorem abs_le_tan {r : ℝ} (h : |r| ≤ 0.79) : |r| ≤ |Real.tan r| := by
  have hpi := Real.pi_gt_d20
  have key : ∀ {r : ℝ}, 0 ≤ r → r ≤ 0.79 → r ≤ Real.tan r := fun h0 h1 => Real.le_tan h0 (by norm_num at h1 hpi ⊢; linarith)
  rcases abs_cases r with ⟨e, hr⟩ | ⟨e, hr⟩
  · rw [e] at h ⊢
    exact (key hr h).trans (le_abs_self _)
  · rw [e] at h ⊢
    have := key (r := -r) (by linarith) h
    rw [Real.tan_neg] at this
    exact this.trans (neg_le_abs _)

/-- The tangents of two numbers next to each other. -/
theorem tan_near {a r : ℝ} (hr : |r| ≤ 0.786) (h1 : |a - r| ≤ 831 / 1000 / 2 ^ 26 * |r|) (h2 : |a - r| ≤ 1 / 2 ^ 44) :
    |Real.tan a - Real.tan r| ≤ 85 / 100 / 2 ^ 26 * |Real.tan r| := by
  have ha : |a| ≤ |r| + 1 / 2 ^ 44 := by
    have := abs_sub_abs_le_abs_sub a r
    linarith
  have t := abs_le_tan (r := r) (hr.trans (by norm_num))
  have hr0 := abs_nonneg r
  by_cases h : |r| ≤ 1 / 8
  · have ca : 0.992 ≤ Real.cos a := by
      have := Real.one_sub_sq_div_two_le_cos (x := a)
      have h2 : a ^ 2 ≤ 0.1251 ^ 2 := by rw [← sq_abs]; exact pow_le_pow_left₀ (abs_nonneg a) (by norm_num at ha h ⊢; linarith) 2
      norm_num at h2 ⊢
      linarith
    have cr : 0.992 ≤ Real.cos r := by
      have := Real.one_sub_sq_div_two_le_cos (x := r)
      have h2 : r ^ 2 ≤ 0.1251 ^ 2 := by rw [← sq_abs]; exact pow_le_pow_left₀ (abs_nonneg r) (by norm_num at h ⊢; linarith) 2
      norm_num at h2 ⊢
      linarith
    refine (tan_sub (by linarith) (by linarith)).trans ?_
    have hc : (0.992 : ℝ) * 0.992 ≤ Real.cos a * Real.cos r := mul_le_mul ca cr (by norm_num) (by linarith)
    rw [div_le_iff₀ (by norm_num at hc ⊢; linarith)]
    calc |a - r| ≤ 831 / 1000 / 2 ^ 26 * |Real.tan r| := h1.trans (mul_le_mul_of_nonneg_left t (by norm_num))
      _ ≤ 85 / 100 / 2 ^ 26 * |Real.tan r| * (0.992 * 0.992) := by norm_num; linarith [abs_nonneg (Real.tan r)]
      _ ≤ _ := mul_le_mul_of_nonneg_left hc (by positivity)
  · have ca := cos_ge (x := a) (by norm_num at ha hr ⊢; linarith)
    have cr := cos_ge (x := r) (by norm_num at hr ⊢; linarith)
    refine (tan_sub (by linarith) (by linarith)).trans ?_
    have hc : (0.68 : ℝ) * 0.68 ≤ Real.cos a * Real.cos r := mul_le_mul ca cr (by norm_num) (by linarith)
    rw [div_le_iff₀ (by norm_num at hc ⊢; linarith)]
    calc |a - r| ≤ 85 / 100 / 2 ^ 26 * |Real.tan r| * (0.68 * 0.68) := by norm_num at h2 h ⊢; linarith
      _ ≤ _ := mul_le_mul_of_nonneg_left hc (by positivity)

variable {X : ℝ} {k : Int} {y : Nat} {K : Int} {r : ℝ}

/-- The two polynomials. -/
theorem Reduced.parts (h : Reduced X k y K r) (h0 : X ≠ 0) :
    ∃ N D : ℝ, 1 / 2 ≤ N ∧ N ≤ 3 ∧ 1 / 2 ≤ D ∧ D ≤ 3 ∧ Rel (b64.mul y (horner (b64.mul y y) tanN)) (R b64 y * N) (366 / 2 ^ 53) ∧ Rel (horner (b64.mul y y) tanD) D (364 / 2 ^ 53) ∧
      |R b64 y * N / D - Real.tan r| ≤ 85 / 100 / 2 ^ 26 * |Real.tan r| := by
  have hy := h.y_le
  obtain ⟨s1, s2⟩ := square_ap h.fin (hy.trans (by norm_num))
  obtain ⟨l1, l2, l3, l4⟩ := tn_link
  have hu : R b64 y ^ 2 ≤ 5 / 8 := by
    rw [← sq_abs]
    have := pow_le_pow_left₀ (abs_nonneg _) hy 2
    norm_num at this ⊢
    linarith
  obtain ⟨d1, d2⟩ := tn_den (sq_nonneg (R b64 y)) hu
  have an := (horner_ev s1 s2 tanN tnN l1 l3 (by decide) (by decide)).mono (d := 91 / 2 ^ 53) (by norm_num [tanN])
  have ad := (horner_ev s1 s2 tanD tnD l2 l4 (by decide) (by decide)).mono (d := 91 / 2 ^ 53) (by norm_num [tanD])
  have bn := ev_div_le s2 l3
  have bd := ev_div_le s2 l4
  have tq := tan_quot hy
  have hn : 1 / 2 ≤ ev (R b64 y ^ 2) tnN / 2 ^ 70 := by
    rw [le_div_iff₀ (by positivity)]; norm_num at d2 ⊢; linarith
  have hd : 1 / 2 ≤ ev (R b64 y ^ 2) tnD / 2 ^ 70 := by
    rw [le_div_iff₀ (by positivity)]; norm_num at d1 ⊢; linarith
  have eq : R b64 y * ev (R b64 y ^ 2) tnN / ev (R b64 y ^ 2) tnD = R b64 y * (ev (R b64 y ^ 2) tnN / 2 ^ 70) / (ev (R b64 y ^ 2) tnD / 2 ^ 70) := by
    rw [← mul_div_assoc, div_div_div_cancel_right₀ (by positivity)]
  rw [eq] at tq
  have rn := an.rel (m := 1 / 4) (by norm_num) (by linarith) (η := 364 / 2 ^ 53) (by norm_num)
  have rd := ad.rel (m := 1 / 4) (by norm_num) (by linarith) (η := 364 / 2 ^ 53) (by norm_num)
  have rx := Rel.exact h.fin rfl
  have hy0 := h.y_ge h0
  have yr := h.y_rel
  have e1 := h.rel
  have e2 := h.abs
  have hl := h.le
  clear eq d1 d2 an ad l1 l2 l3 l4 s1 s2 hu
  refine ⟨_, _, hn, (le_abs_self _).trans bn, hd, (le_abs_self _).trans bd, ?_, rd, ?_⟩
  · generalize ev (R b64 y ^ 2) tnN / 2 ^ 70 = N at *
    rw [abs_of_pos (show 0 < N by linarith)] at bn
    have m1 : |R b64 y * N| ≤ 3 := by rw [abs_mul, abs_of_pos (show 0 < N by linarith)]; nlinarith [abs_nonneg (R b64 y)]
    have m2 : 1 / 2 ^ 162 ≤ |R b64 y * N| := by
      rw [abs_mul, abs_of_pos (show 0 < N by linarith)]
      calc (1 : ℝ) / 2 ^ 162 ≤ 1 / 2 ^ 160 * (1 / 2) := by norm_num
        _ ≤ _ := mul_le_mul hy0 hn (by norm_num) (abs_nonneg _)
    exact rx.mul rn (η := 366 / 2 ^ 53) (by norm_num) (by rw [_root_.add_zero, one_mul]; exact rel_big (m1.trans (by norm_num)) (by norm_num)) (le_trans (by norm_num) m2) (by norm_num)
  · generalize R b64 y * (ev (R b64 y ^ 2) tnN / 2 ^ 70) / (ev (R b64 y ^ 2) tnD / 2 ^ 70) = T at *
    have := tan_near (a := Real.arctan T) hl ?_ ?_
    · rwa [Real.tan_arctan] at this
    · refine (abs_sub_le _ (R b64 y) _).trans ?_
      norm_num at tq e1 yr ⊢
      linarith [abs_nonneg r]
    · refine (abs_sub_le _ (R b64 y) _).trans ?_
      norm_num at tq e2 yr hl ⊢
      linarith

theorem Reduced.tan_le (h : Reduced X k y K r) : |Real.tan r| ≤ 2 := by
  have c := cos_ge (h.le.trans (by norm_num))
  rw [Real.tan_eq_sin_div_cos, abs_div, abs_of_pos (show 0 < Real.cos r by linarith), div_le_iff₀ (by linarith)]
  have := Real.abs_sin_le_one r
  linarith

/-- An even number of quarters. -/
theorem Reduced.tan (h : Reduced X k y K r) (h0 : X ≠ 0) :
    Rel (Arith.fdiv b64 (b64.mul y (horner (b64.mul y y) tanN)) (horner (b64.mul y y) tanD)) (Real.tan r) (86 / 100 / 2 ^ 26) := by
  obtain ⟨N, D, n1, n2, d1, d2, a, b, c⟩ := h.parts h0
  have hy0 := h.y_ge h0
  have hy := h.y_le
  have pn : 0 < N := by linarith
  have pd : 0 < D := by linarith
  have q1 : |R b64 y * N / D| ≤ 12 := by
    rw [abs_div, abs_of_pos pd, div_le_iff₀ pd, abs_mul, abs_of_pos pn]; nlinarith [abs_nonneg (R b64 y)]
  have q2 : 1 / 2 ^ 164 ≤ |R b64 y * N / D| := by
    rw [abs_div, abs_of_pos pd, le_div_iff₀ pd, abs_mul, abs_of_pos pn]
    have := mul_le_mul hy0 n1 (by norm_num) (abs_nonneg _)
    norm_num at this ⊢
    linarith
  have d := a.div b (θ := 731 / 2 ^ 53) (η := 1 / 2 ^ 43) (by norm_num) pd.ne' (by norm_num) (rel_big (q1.trans (by norm_num)) (by norm_num)) (le_trans (by norm_num) q2) (by norm_num)
  exact d.shift c (by norm_num) (by norm_num)

/-- An odd number of quarters. -/
theorem Reduced.cot (h : Reduced X k y K r) (h0 : X ≠ 0) :
    Rel (Arith.fdiv b64 (b64.opp (horner (b64.mul y y) tanD)) (b64.mul y (horner (b64.mul y y) tanN))) (-(Real.tan r)⁻¹) (86 / 100 / 2 ^ 26) := by
  obtain ⟨N, D, n1, n2, d1, d2, a, b, c⟩ := h.parts h0
  have hy0 := h.y_ge h0
  have hy := h.y_le
  have pn : 0 < N := by linarith
  have pd : 0 < D := by linarith
  have ypos : 0 < |R b64 y| := lt_of_lt_of_le (by norm_num) hy0
  have hYN : |R b64 y * N| = |R b64 y| * N := by rw [abs_mul, abs_of_pos pn]
  have hYN0 : 0 < |R b64 y * N| := by rw [hYN]; positivity
  have hYNn : R b64 y * N ≠ 0 := abs_pos.1 hYN0
  have q0 : |-D / (R b64 y * N)| = D / (|R b64 y| * N) := by rw [abs_div, abs_neg, abs_of_pos pd, hYN]
  have q1 : |-D / (R b64 y * N)| ≤ 2 ^ 170 := by
    rw [q0, div_le_iff₀ (by positivity)]
    have := mul_le_mul hy0 n1 (by norm_num) (abs_nonneg _)
    norm_num at this ⊢
    linarith
  have q2 : 1 / 8 ≤ |-D / (R b64 y * N)| := by
    rw [q0, le_div_iff₀ (by positivity)]
    have : |R b64 y| * N ≤ 0.79 * 3 := mul_le_mul hy n2 pn.le (by norm_num)
    norm_num at this ⊢
    linarith
  have d := b.opp.div a (θ := 731 / 2 ^ 53) (η := 1 / 2 ^ 43) (by norm_num) hYNn (by norm_num) (rel_big (q1.trans (by norm_num)) (by norm_num)) (le_trans (by norm_num) q2) (by norm_num)
  refine d.shift (δ := 855 / 1000 / 2 ^ 26) ?_ (by norm_num) (by norm_num)
  have e1 : -D / (R b64 y * N) = -(R b64 y * N / D)⁻¹ := by rw [inv_div, neg_div]
  have t0 : Real.tan r ≠ 0 := by
    have := abs_le_tan (r := r) (h.le.trans (by norm_num))
    have h2 := h.ge h0
    exact abs_pos.1 (lt_of_lt_of_le (lt_of_lt_of_le (by norm_num) h2) this)
  have hT0 : R b64 y * N / D ≠ 0 := div_ne_zero hYNn pd.ne'
  rw [e1]
  generalize R b64 y * N / D = T at *
  generalize Real.tan r = t at *
  have ta : 0 < |t| := abs_pos.2 t0
  have Ta : 0 < |T| := abs_pos.2 hT0
  rw [show -T⁻¹ - -t⁻¹ = (T - t) / (T * t) by field_simp; ring, abs_div, abs_neg, abs_inv, abs_mul, div_le_iff₀ (by positivity)]
  have hT : (1 - 85 / 100 / 2 ^ 26) * |t| ≤ |T| := by
    have := abs_sub_abs_le_abs_sub t T
    rw [abs_sub_comm] at this
    linarith
  calc |T - t| ≤ 85 / 100 / 2 ^ 26 * |t| := c
    _ ≤ 855 / 1000 / 2 ^ 26 * |T| := by norm_num at hT ⊢; linarith
    _ = _ := by field_simp

theorem tanf_finite {x : Nat} (hp : Pat b32 x) (hx : Fin b32 x) :
    ∃ r, tanf x = some r ∧ Accurate b32 (1 / 2 ^ 26) (Real.tan (R b32 x)) r ∧ |Real.tan (R b32 x)| ≤ 2 ^ 53 := by
  by_cases h0 : R b32 x = 0
  · refine ⟨x, ?_, ?_⟩
    · rcases zero_cases hp h0 with rfl | rfl <;> decide +kernel
    · rw [h0, Real.tan_zero]
      refine ⟨⟨0, by simp, rounded_zero' hp ?_ (by decide)⟩, by simp⟩
      rcases zero_cases hp h0 with rfl | rfl <;> decide +kernel
  obtain ⟨k, y, K, r, e, h⟩ := remPio2_reduced hx
  unfold tanf
  rw [e, Option.map_some]
  refine ⟨_, rfl, ?_⟩
  simp only
  obtain ⟨u1, u2⟩ := u32_mod h.quo
  obtain ⟨q0, q1, q2, q3⟩ := quarters K r
  have ht := h.tan h0
  have hc := h.cot h0
  have tl := h.tan_le
  have inv_le : K ≠ 0 → |(-(Real.tan r)⁻¹ : ℝ)| ≤ 2 ^ 53 := fun hK => by
    have h1 := (h.far hK).trans (abs_le_tan (r := r) (h.le.trans (by norm_num)))
    rw [abs_neg, abs_inv, inv_le_comm₀ (lt_of_lt_of_le (by norm_num) h1) (by norm_num)]
    refine le_trans ?_ h1
    norm_num
  have even : Real.tan (K * (Real.pi / 2) + r) = Real.tan r ∨ Real.tan (K * (Real.pi / 2) + r) = -(Real.tan r)⁻¹ := by
    simp only [Real.tan_eq_sin_div_cos]
    rcases (by omega : K % 4 = 0 ∨ K % 4 = 1 ∨ K % 4 = 2 ∨ K % 4 = 3) with hK | hK | hK | hK
    · left; rw [(q0 hK).1, (q0 hK).2]
    · right; rw [(q1 hK).1, (q1 hK).2, inv_div, div_neg]
    · left; rw [(q2 hK).1, (q2 hK).2, neg_div_neg_eq]
    · right; rw [(q3 hK).1, (q3 hK).2, inv_div, neg_div]
  clear even
  rw [h.eq]
  rcases (by omega : K % 4 = 0 ∨ K % 4 = 1 ∨ K % 4 = 2 ∨ K % 4 = 3) with hK | hK | hK | hK
  · have et : Real.tan (K * (Real.pi / 2) + r) = Real.tan r := by
      rw [Real.tan_eq_sin_div_cos, Real.tan_eq_sin_div_cos, (q0 hK).1, (q0 hK).2]
    rw [et, if_neg (show ¬ u32 k % 2 = 1 by omega)]
    exact ⟨(ht.mono (by norm_num)).accurate, tl.trans (by norm_num)⟩
  · have et : Real.tan (K * (Real.pi / 2) + r) = -(Real.tan r)⁻¹ := by
      rw [Real.tan_eq_sin_div_cos, Real.tan_eq_sin_div_cos, (q1 hK).1, (q1 hK).2, inv_div, div_neg]
    rw [et, if_pos (show u32 k % 2 = 1 by omega)]
    exact ⟨(hc.mono (by norm_num)).accurate, inv_le (by omega)⟩
  · have et : Real.tan (K * (Real.pi / 2) + r) = Real.tan r := by
      rw [Real.tan_eq_sin_div_cos, Real.tan_eq_sin_div_cos, (q2 hK).1, (q2 hK).2, neg_div_neg_eq]
    rw [et, if_neg (show ¬ u32 k % 2 = 1 by omega)]
    exact ⟨(ht.mono (by norm_num)).accurate, tl.trans (by norm_num)⟩
  · have et : Real.tan (K * (Real.pi / 2) + r) = -(Real.tan r)⁻¹ := by
      rw [Real.tan_eq_sin_div_cos, Real.tan_eq_sin_div_cos, (q3 hK).1, (q3 hK).2, inv_div, neg_div]
    rw [et, if_pos (show u32 k % 2 = 1 by omega)]
    exact ⟨(hc.mono (by norm_num)).accurate, inv_le (by omega)⟩

end Verif.Approx
