import Verif.Approx.HornerEv

/-! # `atanf` -/

namespace Verif.Approx
open Verif.Float Verif.Approx.Spec
open Verif.Math.Spec (Pat)

/-- `x N(x²) / D(x²)` -/
theorem quot_rel {S x : Nat} {cn cd : List Nat} {zn zd : List Int} (hx : Fin b64 x) (h1 : |R b64 x| ≤ 1) (h0 : 1 / 2 ^ 160 ≤ |R b64 x|)
    (ln : link S cn zn = true) (ld : link S cd zd = true) (sn : psum zn ≤ 3 * 2 ^ S) (sd : psum zd ≤ 3 * 2 ^ S)
    (nn : cn ≠ []) (nd : cd ≠ []) (tn : cn.length ≤ 7) (td : cd.length ≤ 7)
    (hn : 1 / 4 ≤ ev (R b64 x ^ 2) zn / 2 ^ S) (hd : 1 / 4 ≤ ev (R b64 x ^ 2) zd / 2 ^ S) :
    Rel (Arith.fdiv b64 (b64.mul x (horner (b64.mul x x) cn)) (horner (b64.mul x x) cd)) (R b64 x * ev (R b64 x ^ 2) zn / ev (R b64 x ^ 2) zd) (1 / 2 ^ 43) := by
  obtain ⟨s1, s2⟩ := square_ap hx h1
  have len : ∀ c : List Nat, c.length ≤ 7 → (13 * c.length / 2 ^ 53 : ℝ) ≤ 91 / 2 ^ 53 := fun c h => by
    have : (c.length : ℝ) ≤ 7 := by exact_mod_cast h
    gcongr
    linarith
  have an := (horner_ev s1 s2 cn zn ln sn nn (by omega)).mono (len cn tn)
  have ad := (horner_ev s1 s2 cd zd ld sd nd (by omega)).mono (len cd td)
  have bn := ev_div_le s2 sn
  have bd := ev_div_le s2 sd
  have rn := an.rel (m := 1 / 4) (by norm_num) hn (η := 364 / 2 ^ 53) (by norm_num)
  have rd := ad.rel (m := 1 / 4) (by norm_num) hd (η := 364 / 2 ^ 53) (by norm_num)
  have eq : R b64 x * ev (R b64 x ^ 2) zn / ev (R b64 x ^ 2) zd = R b64 x * (ev (R b64 x ^ 2) zn / 2 ^ S) / (ev (R b64 x ^ 2) zd / 2 ^ S) := by
    rw [← mul_div_assoc, div_div_div_cancel_right₀ (by positivity)]
  rw [eq]
  clear eq
  generalize ev (R b64 x ^ 2) zn / 2 ^ S = N at *
  generalize ev (R b64 x ^ 2) zd / 2 ^ S = D at *
  generalize horner (b64.mul x x) cn = a at *
  generalize horner (b64.mul x x) cd = b at *
  have pn : 0 < N := lt_of_lt_of_le (by norm_num) hn
  have pd : 0 < D := lt_of_lt_of_le (by norm_num) hd
  rw [abs_of_pos pn] at bn
  rw [abs_of_pos pd] at bd
  have rx := Rel.exact hx rfl
  generalize R b64 x = X at *
  have m1 : |X * N| ≤ 3 := by rw [abs_mul, abs_of_pos pn]; nlinarith [abs_nonneg X]
  have m2 : 1 / 2 ^ 162 ≤ |X * N| := by
    rw [abs_mul, abs_of_pos pn]
    calc (1 : ℝ) / 2 ^ 162 = 1 / 2 ^ 160 * (1 / 4) := by norm_num
      _ ≤ _ := mul_le_mul h0 hn (by norm_num) (abs_nonneg _)
  have p := rx.mul rn (η := 366 / 2 ^ 53) (by norm_num) (by rw [_root_.add_zero, one_mul]; exact rel_big (m1.trans (by norm_num)) (by norm_num)) (le_trans (by norm_num) m2) (by norm_num)
  have q1 : |X * N / D| ≤ 12 := by
    rw [abs_div, abs_of_pos pd, div_le_iff₀ pd]; linarith
  have q2 : 1 / 2 ^ 164 ≤ |X * N / D| := by
    rw [abs_div, abs_of_pos pd, le_div_iff₀ pd]
    refine le_trans ?_ m2
    norm_num at bd ⊢
    linarith
  exact p.div rd (θ := 731 / 2 ^ 53) (by norm_num) pd.ne' (by norm_num) (rel_big (q1.trans (by norm_num)) (by norm_num)) (le_trans (by norm_num) q2) (by norm_num)

theorem at_link : link 68 atanN atN = true ∧ link 68 atanD atD = true ∧ psum atN ≤ 3 * 2 ^ 68 ∧ psum atD ≤ 3 * 2 ^ 68 := by decide +kernel

theorem at_check4 : posTo (padd atN [-2 ^ 66]) 8 8 = true := by decide +kernel

theorem at_num {u : ℝ} (h0 : 0 ≤ u) (h1 : u ≤ 1) : 2 ^ 66 ≤ ev u atN := by
  have := pos_to (by norm_num) (by norm_num) at_check4 h0 (by norm_num; linarith)
  rw [ev_padd] at this
  simp only [ev] at this
  push_cast at this
  linarith

theorem kernelAtan_rel {x : Nat} (hx : Fin b64 x) (h1 : |R b64 x| ≤ 1) (h0 : 1 / 2 ^ 160 ≤ |R b64 x|) :
    Rel (kernelAtan x) (Real.arctan (R b64 x)) (1 / 2 ^ 42) := by
  obtain ⟨l1, l2, l3, l4⟩ := at_link
  have h2 : R b64 x ^ 2 ≤ 1 := by rw [← sq_abs]; exact pow_le_one₀ (abs_nonneg _) h1
  have q := quot_rel hx h1 h0 l1 l2 l3 l4 (by decide) (by decide) (by decide) (by decide)
    (by rw [le_div_iff₀ (by positivity)]; refine le_trans ?_ (at_num (sq_nonneg _) h2); norm_num)
    (by rw [le_div_iff₀ (by positivity)]; refine le_trans ?_ (at_den (sq_nonneg _) h2); norm_num)
  exact q.shift (atan_quot h1) (by norm_num) (by norm_num)

theorem atan_small {x : Nat} (hx : Fin b32 x) (h1 : |R b32 x| ≤ 1) (h0 : R b32 x ≠ 0) :
    Rel (kernelAtan (wide x)) (Real.arctan (R b32 x)) (1 / 2 ^ 42) := by
  obtain ⟨w1, w2, -, -⟩ := wideR hx
  rw [← w2] at h1 ⊢
  refine kernelAtan_rel w1 h1 ?_
  rw [w2]
  exact le_trans (by norm_num) ((R32_zero_or (x := x)).resolve_left h0)

/-- A float above 1 is at least its successor. -/
theorem above_one {x : Nat} (hx : Fin b32 x) (h : 1 < |R b32 x|) : 1 + 1 / 2 ^ 23 ≤ |R b32 x| := by
  obtain ⟨a1, a2⟩ := fabs_R hx
  rw [← a2] at h ⊢
  have hlt : 0x3F800000 < b32.abs x := by
    by_contra hc
    have := R32_mono (Nat.le_of_not_lt hc) (by decide)
    rw [one32.2] at this
    linarith
  have := R32_mono (show 0x3F800001 ≤ b32.abs x by omega) hx
  rw [(lit32 (x := 0x3F800001) (m := 8388609) (k := 23) (s := false) (by decide) (by decide) (by decide +kernel)).2] at this
  refine le_trans ?_ this
  norm_num

theorem atan_large {x : Nat} (hx : Fin b32 x) (h1 : 1 < |R b32 x|) :
    Rel (b64.sub (b64.pack (b32.neg x) pi2) (kernelAtan (Arith.fdiv b64 one (wide x)))) (Real.arctan (R b32 x)) (1 / 2 ^ 40) := by
  obtain ⟨w1, w2, -, -⟩ := wideR hx
  have h2 := above_one hx h1
  have hM := R32_le hx
  have hx0 : R b32 x ≠ 0 := by intro h; rw [h] at h1; norm_num at h1
  have o1 : R b64 one = 1 := by rw [k_one.2]; norm_num
  have rw' : Rel (wide x) (R b32 x) 0 := Rel.exact w1 w2
  have i1 : |1 / R b32 x| ≤ 1 - 1 / 2 ^ 25 := by
    rw [abs_div, abs_one, div_le_iff₀ (abs_pos.2 hx0)]
    nlinarith
  have i2 : 1 / 2 ^ 130 ≤ |1 / R b32 x| := by
    rw [abs_div, abs_one]
    exact one_div_le_one_div_of_le (abs_pos.2 hx0) (hM.trans (by norm_num))
  have i := (Rel.exact k_one.1 o1).div rw' (θ := 0) (η := 2 / 2 ^ 53) (by norm_num) hx0 (by norm_num) (rel_big (i1.trans (by norm_num)) (by norm_num)) (le_trans (by norm_num) i2) (by norm_num)
  generalize Arith.fdiv b64 one (wide x) = y at *
  have i3 := i.abs_le
  have i4 := i.le_abs
  have y1 : |R b64 y| ≤ 1 := i3.trans (by nlinarith)
  have y0 : 1 / 2 ^ 160 ≤ |R b64 y| := by
    refine le_trans ?_ i4
    calc (1 : ℝ) / 2 ^ 160 ≤ (1 - 2 / 2 ^ 53) * (1 / 2 ^ 130) := by norm_num
      _ ≤ _ := mul_le_mul_of_nonneg_left i2 (by norm_num)
  have k := kernelAtan_rel i.fin y1 y0
  have k2 : |R b64 (kernelAtan y) - Real.arctan (1 / R b32 x)| ≤ 1.1 / 2 ^ 42 := by
    have e1 := k.err
    have e2 := arctan_lip (R b64 y) (1 / R b32 x)
    have e3 : |Real.arctan (R b64 y)| ≤ 1 := by
      have := arctan_lip (R b64 y) 0
      simp only [Real.arctan_zero, sub_zero] at this
      exact this.trans y1
    have e4 := i.err
    have := abs_sub_le (R b64 (kernelAtan y)) (Real.arctan (R b64 y)) (Real.arctan (1 / R b32 x))
    have e5 : (1 : ℝ) / 2 ^ 42 * |Real.arctan (R b64 y)| ≤ 1 / 2 ^ 42 * 1 := mul_le_mul_of_nonneg_left e3 (by norm_num)
    have e6 : (2 : ℝ) / 2 ^ 53 * |1 / R b32 x| ≤ 2 / 2 ^ 53 * 1 := mul_le_mul_of_nonneg_left (i1.trans (by norm_num)) (by norm_num)
    norm_num at *
    linarith
  obtain ⟨p1, p2⟩ := k_pi2
  have pp : Fin b64 (b64.pack (b32.neg x) pi2) ∧ R b64 (b64.pack (b32.neg x) pi2) = (if b32.neg x then -1 else 1) * R b64 pi2 := by
    cases b32.neg x
    · refine ⟨p1, ?_⟩
      rw [show b64.pack false pi2 = pi2 from by decide]; simp
    · rw [show b64.pack true pi2 = b64.opp pi2 from by decide]
      exact ⟨fin_opp p1, by rw [R_opp]; simp⟩
  have er : Real.arctan (R b32 x) = (if b32.neg x then -1 else 1) * (Real.pi / 2) + -Real.arctan (1 / R b32 x) := by
    have hs := R_sign (F := b32) x
    have hp : 0 < |R b32 x| := abs_pos.2 hx0
    rw [one_div]
    cases hn : b32.neg x
    · rw [hn] at hs
      rw [Real.arctan_inv_of_pos (by rw [hs]; simpa using hp)]
      simp
    · rw [hn] at hs
      rw [Real.arctan_inv_of_neg (by rw [hs]; simp only [if_true]; linarith)]
      simp
  have lo : 0.7 ≤ |Real.arctan (R b32 x)| := by
    have hpi := Real.pi_gt_d20
    have : Real.pi / 4 ≤ Real.arctan |R b32 x| := by rw [← Real.arctan_one]; exact Real.arctan_le_arctan_iff.2 h1.le
    have e : |Real.arctan (R b32 x)| = Real.arctan |R b32 x| := by
      rcases le_total 0 (R b32 x) with h | h
      · rw [abs_of_nonneg h, abs_of_nonneg (Real.arctan_nonneg.2 h)]
      · rw [abs_of_nonpos h, Real.arctan_neg, abs_of_nonpos (by rw [← Real.arctan_zero]; exact Real.arctan_le_arctan_iff.2 h)]
    rw [e]
    norm_num at hpi ⊢
    linarith
  have hi : |Real.arctan (R b32 x)| ≤ 1.6 := by
    have hpi := Real.pi_lt_d20
    have a := Real.arctan_lt_pi_div_two (R b32 x)
    have b := Real.neg_pi_div_two_lt_arctan (R b32 x)
    rw [abs_le]
    constructor <;> norm_num at hpi ⊢ <;> linarith
  rw [er] at lo hi ⊢
  show Rel (b64.add _ (b64.opp _)) _ _
  refine Rel.add_abs (e := 1 / 2 ^ 53) (d := 1.1 / 2 ^ 42) (B := 2) pp.1 (fin_opp k.fin) ?_ ?_ ?_ (le_Mx (by norm_num)) ?_
  · rw [pp.2, ← mul_sub, abs_mul]
    cases b32.neg x <;> simpa using p2
  · rw [R_opp, show ∀ a b : ℝ, -a - -b = -(a - b) by intros; ring, abs_neg]; exact k2
  · exact (add_le_add_left (add_le_add_left hi _) _).trans (by norm_num)
  · refine le_trans ?_ (mul_le_mul_of_nonneg_left lo (by norm_num))
    norm_num

theorem atanf_finite {x : Nat} (hp : Pat b32 x) (hx : Fin b32 x) : Accurate b32 (1 / 2 ^ 40) (Real.arctan (R b32 x)) (atanf x) := by
  by_cases h0 : R b32 x = 0
  · rw [h0, Real.arctan_zero]
    refine ⟨0, by simp, rounded_zero' ?_ ?_ (by decide)⟩ <;> rcases zero_cases hp h0 with rfl | rfl <;> (try unfold Pat) <;> decide +kernel
  obtain ⟨a1, a2⟩ := fabs_R hx
  unfold atanf
  by_cases h1 : 1 < |R b32 x|
  · rw [if_pos ((lt_R one32.1 a1).2 (by rw [a2, one32.2]; exact h1))]
    exact (atan_large hx h1).accurate
  · rw [if_neg (fun h => h1 (by have := (lt_R one32.1 a1).1 h; rwa [a2, one32.2] at this))]
    exact ((atan_small hx (not_lt.1 h1) h0).mono (by norm_num)).accurate

end Verif.Approx
