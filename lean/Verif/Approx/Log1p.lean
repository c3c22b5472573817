import Verif.Approx.Logf

/-! # Logarithms of a `double`, and `log1p` in it -/

namespace Verif.Approx
open Verif.Float Verif.Approx.Spec
open Verif.Math.Spec (Pat absOf negative value)

theorem div_zeroR {x y : Nat} (hx : Fin b64 x) (hy : Fin b64 y) (h : R b64 x = 0) (hy0 : R b64 y ≠ 0) :
    Fin b64 (Arith.fdiv b64 x y) ∧ R b64 (Arith.fdiv b64 x y) = 0 := by
  have z : Arith.fdiv b64 x y = b64.pack (b64.neg x != b64.neg y) 0 := by
    unfold Arith.fdiv
    rw [Fmt.not_nan_of_fin hx, Fmt.not_nan_of_fin hy, Fmt.isFin_iff.2 hx, Fmt.isFin_iff.2 hy]
    have : b64.abs y ≠ 0 := fun e0 => hy0 (by rw [R_signed, e0, b64.mag_zero]; simp)
    simp only [Bool.false_eq_true, or_self, if_false, if_true, if_neg this, R_zero h, b64.mag_zero, Nat.zero_mul]
    rw [rnd_zero _ ?_]
    rcases Nat.eq_zero_or_pos (b64.mag (b64.abs y)) with h | h
    · exact absurd (Fmt.mag_eq_zero.1 h) this
    · exact h
  rw [z]
  refine ⟨fin_pack (by decide), ?_⟩
  rw [R_pack (Nat.zero_le _), b64.mag_zero]; simp

theorem Rel.zero {x : Nat} {ε : ℝ} (h : Rel x 0 ε) : R b64 x = 0 := by
  have := h.err
  rw [abs_zero, mul_zero, sub_zero] at this
  exact abs_nonpos_iff.1 this

/-- A positive double that is not tiny is normal. -/
theorem pat_normal {p : Nat} (hp : Pat b64 p) (hf : Fin b64 p) (h : 1 / 2 ^ 200 < R b64 p) : 2 ^ 52 ≤ p ∧ p < b64.inf := by
  have hn : b64.neg p = false := by
    cases e : b64.neg p
    · rfl
    · rw [R_signed, e] at h
      have : (0 : ℝ) ≤ b64.mag (b64.abs p) / 2 ^ b64.unit := by positivity
      generalize (b64.mag (b64.abs p) : ℝ) / 2 ^ b64.unit = q at *
      norm_num at h
      linarith
  have ha : b64.abs p = p := by
    have := Fmt.pack_self (F := b64) hp
    rw [hn] at this
    simpa [Fmt.pack] using this
  have hi : p < b64.inf := by rw [← ha]; exact hf
  refine ⟨?_, hi⟩
  by_contra hc
  have := R_mono (a := p) (b := 823 * 2 ^ 52) (by omega) (by decide)
  rw [(lit_pos (x := 823 * 2 ^ 52) (E := 823) (m := 2 ^ 52) (k := 252) (by norm_num) (by norm_num) (by norm_num) (by norm_num)).2] at this
  push_cast at this
  rw [show (4503599627370496 : ℝ) / 2 ^ 252 = 1 / 2 ^ 200 by norm_num] at this
  linarith

/-- The kernel at an approximate argument. -/
theorem kernel_rel {x : Nat} {t : ℝ} (h : Rel x t (8 / 2 ^ 53)) (ht : |t| ≤ 0.17159) (hz : t = 0 ∨ 1 / 2 ^ 155 ≤ |t|) :
    Rel (kernelAtanh x) (ath t) (1.46 / 10 ^ 11) := by
  have hT : |R b64 x| ≤ 0.1716 := h.abs_le.trans (by
    have := mul_le_mul_of_nonneg_left ht (show (0 : ℝ) ≤ 1 + 8 / 2 ^ 53 by norm_num)
    exact this.trans (by norm_num))
  have hz' : R b64 x = 0 ∨ 1 / 2 ^ 160 ≤ |R b64 x| := by
    rcases hz with hz | hz
    · left; rw [hz] at h; exact h.zero
    · right
      refine le_trans ?_ h.le_abs
      have := mul_le_mul_of_nonneg_left hz (show (0 : ℝ) ≤ 1 - 8 / 2 ^ 53 by norm_num)
      refine le_trans ?_ this
      norm_num
  have k := kernelAtanh_rel h.fin hT hz'
  have l := ath_lip hT (ht.trans (by norm_num))
  have a := abs_le_ath (t := t) (lt_of_le_of_lt ht (by norm_num))
  refine k.shift (δ := 10 / 2 ^ 53) ?_ (by norm_num) (by norm_num)
  have := h.err
  refine l.trans ?_
  have := abs_nonneg t
  linarith

theorem abs_ath_le {t : ℝ} (h : |t| ≤ 0.1716) : |ath t| ≤ 1.21 * |t| := by
  have := ath_lip h (b := 0) (by norm_num)
  rwa [ath_zero, sub_zero, sub_zero] at this

theorem two_rel {x : Nat} {v : ℝ} (h : Rel x v (1.46 / 10 ^ 11)) (hv : |v| ≤ 2 ^ 200) (hz : v = 0 ∨ 1 / 2 ^ 160 ≤ |v|) :
    Rel (b64.mul two x) (2 * v) (1.47 / 10 ^ 11) := by
  rcases hz with rfl | hz
  · have := mul_zeroR k_two.1 h.fin (Or.inr h.zero)
    exact ⟨this.1, by rw [this.2]; simp⟩
  · have e : |2 * v| = 2 * |v| := by rw [abs_mul]; norm_num
    refine rel_two.mul h ⟨by norm_num, by norm_num⟩ (le_Mx ?_) ?_ (by norm_num)
    · rw [e]
      have := mul_le_mul_of_nonneg_left hv (show (0 : ℝ) ≤ (1 + 0) * (1 + 1.46 / 10 ^ 11) * 2 by norm_num)
      refine le_trans (le_of_eq (by ring)) (this.trans ?_)
      norm_num
    · rw [e]
      refine le_trans ?_ (mul_le_mul_of_nonneg_left hz (by norm_num : (0 : ℝ) ≤ 2))
      norm_num

/-- The logarithm of a double; the exponent is not zero. -/
theorem logWide_rel {p : Nat} {V δ : ℝ} (hp : Pat b64 p) (hf : Fin b64 p) (h : 1 / 2 ^ 200 < R b64 p) (he : exponent64 p ≠ 0) (hV : 0 < V)
    (hd : |R b64 p - V| ≤ δ * V) (hδ : 0 ≤ δ ∧ δ ≤ 1 / 2 ^ 50) : Rel (logWide p) (Real.log V) (1 / 2 ^ 36 + 4 * δ) := by
  obtain ⟨p1, p2⟩ := pat_normal hp hf h
  obtain ⟨s1, s2, s3, s4, -⟩ := split64 p1 p2
  have k := log_core s1 s2 s3 s4 (fun h => absurd h he) (by norm_num : (0.4 : ℝ) ≤ 1 ∧ (1 : ℝ) ≤ 1.5) two_scale.1 two_scale.2
    (exponent_ap s4 (by have := log_two_bounds; constructor <;> linarith [this.1, this.2]) k_ln2.1 ln2_close) (fun h => absurd h he)
  rw [one_mul] at k
  have hl : 0.346 ≤ |Real.log (R b64 p)| := by
    rw [s3, Real.log_mul (by linarith [s2.1]) (by positivity), Real.log_zpow]
    have hl := log_reduced s2
    obtain ⟨l1, l2⟩ := log_two_bounds
    have e1 : 1 ≤ |(exponent64 p : ℝ)| := by rw [← Int.cast_abs]; exact_mod_cast Int.one_le_abs he
    have a1 := abs_sub_abs_le_abs_sub (exponent64 p * Real.log 2) (-Real.log (R b64 (fraction64 p)))
    rw [abs_neg, abs_mul, abs_of_pos (by linarith : 0 < Real.log 2), sub_neg_eq_add, add_comm (exponent64 p * Real.log 2)] at a1
    have a2 := mul_le_mul e1 l1 (by norm_num) (abs_nonneg _)
    generalize Real.log 2 = s at *
    norm_num at *
    linarith
  have d1 := abs_le.1 hd
  have hm : 0.999 * V ≤ R b64 p := by nlinarith [d1.1, hδ.2]
  have l := log_lip (b := V) (m := 0.999 * V) (by positivity) hm (by linarith)
  have l2 : |Real.log (R b64 p) - Real.log V| ≤ 1.01 * δ := by
    refine l.trans ?_
    rw [div_le_iff₀ (by positivity)]
    nlinarith [hδ.1, mul_nonneg hδ.1 hV.le]
  have h3 : 0.34 ≤ |Real.log V| := by
    have := abs_sub_abs_le_abs_sub (Real.log (R b64 p)) (Real.log V)
    have : δ ≤ 1 / 2 ^ 50 := hδ.2
    norm_num at *
    linarith
  refine k.shift (δ := 3 * δ) (l2.trans ?_) (by norm_num) ?_
  · have := mul_le_mul_of_nonneg_left h3 hδ.1
    linarith
  · linarith [hδ.1]

theorem log1p_ath {X : ℝ} (h : -1 < X) : Real.log (1 + X) = 2 * ath (X / (2 + X)) := by
  rw [log_ath (by linarith), show 1 + X - 1 = X by ring, show 1 + X + 1 = 2 + X by ring]

/-- `log1pf_` -/
theorem log1p_rel {x : Nat} (hx : Fin b64 x) (h : -1 + 1 / 2 ^ 30 ≤ R b64 x) (hb : R b64 x ≤ 2 ^ 200) (hz : R b64 x = 0 ∨ 1 / 2 ^ 150 ≤ |R b64 x|) :
    Rel (log1pFinite x) (Real.log (1 + R b64 x)) (1 / 2 ^ 35) := by
  have h1 : R b64 one = 1 := by rw [k_one.2]; norm_num
  have hpos : 0 < 1 + R b64 x := by
    have : (0 : ℝ) < 1 / 2 ^ 30 := by norm_num
    linarith
  obtain ⟨a1, a2⟩ := add_err ok64 top_big k_one.1 hx (by
    rw [h1, abs_of_pos hpos]; refine le_Mx ?_
    have : (2 : ℝ) ^ 200 + 1 ≤ 2 ^ 250 := by norm_num
    linarith)
  rw [h1, eps64, abs_of_pos hpos] at a2
  have hA : 1 / 2 ^ 31 ≤ R b64 (b64.add one x) := by
    have := (abs_le.1 a2).1
    have : (1 : ℝ) / 2 ^ 30 ≤ 1 + R b64 x := by linarith
    generalize R b64 (b64.add one x) = A at *
    generalize R b64 x = X at *
    norm_num at *
    linarith
  have hA' : 1 / 2 ^ 200 < R b64 (b64.add one x) := lt_of_lt_of_le (by norm_num) hA
  unfold log1pFinite
  by_cases he : exponent64 (b64.add one x) = 0
  · rw [if_neg (by simp [he])]
    obtain ⟨p1, p2⟩ := pat_normal (pat_add k_one.1 hx) a1 hA'
    obtain ⟨-, s2, -, -, s5⟩ := split64 p1 p2
    rw [s5 he] at s2
    have hX : -0.29291 ≤ R b64 x ∧ R b64 x ≤ 0.41423 := by
      have := abs_le.1 a2
      generalize R b64 (b64.add one x) = A at *
      generalize R b64 x = X at *
      norm_num at *
      constructor <;> linarith
    have hw : 0 < 2 + R b64 x := by linarith
    have h2 : R b64 two = 2 := k_two.2
    obtain ⟨c1, c2⟩ := add_err ok64 top_big k_two.1 hx (by
      rw [h2, abs_of_pos hw]; refine le_Mx ?_
      have : (3 : ℝ) ≤ 2 ^ 250 := by norm_num
      linarith)
    rw [h2, eps64] at c2
    have rw2 : Rel (b64.add two x) (2 + R b64 x) (1 / 2 ^ 53) := ⟨c1, c2⟩
    have ht : |R b64 x / (2 + R b64 x)| ≤ 0.17159 := by
      rw [abs_div, abs_of_pos hw, div_le_iff₀ hw]
      exact abs_le.2 ⟨by linarith, by linarith⟩
    rw [log1p_ath (by linarith)]
    have hc0 : R b64 (b64.add two x) ≠ 0 := by
      intro e0; rw [e0, zero_sub, abs_neg, abs_of_pos hw] at c2
      norm_num at c2
      linarith
    have key : Rel (Arith.fdiv b64 x (b64.add two x)) (R b64 x / (2 + R b64 x)) (8 / 2 ^ 53) ∧
        (R b64 x / (2 + R b64 x) = 0 ∨ 1 / 2 ^ 155 ≤ |R b64 x / (2 + R b64 x)|) := by
      rcases hz with hz | hz
      · obtain ⟨q1, q2⟩ := div_zeroR hx c1 hz hc0
        exact ⟨⟨q1, by rw [q2, hz]; simp⟩, Or.inl (by rw [hz]; simp)⟩
      · have hlo : 1 / 2 ^ 155 ≤ |R b64 x / (2 + R b64 x)| := by
          rw [abs_div, abs_of_pos hw, le_div_iff₀ hw]
          generalize |R b64 x| = a at *
          refine le_trans ?_ hz
          norm_num
          linarith
        refine ⟨(Rel.exact hx rfl).div rw2 (θ := 2 / 2 ^ 53) (by norm_num) hw.ne' (by norm_num) (le_Mx ?_) (le_trans (by norm_num) hlo) (by norm_num), Or.inr hlo⟩
        have := mul_le_mul_of_nonneg_left ht (show (0 : ℝ) ≤ 1 + 2 / 2 ^ 53 by norm_num)
        exact this.trans (by norm_num)
    obtain ⟨k1, k2⟩ := key
    have k := kernel_rel k1 ht k2
    have hu := abs_ath_le (ht.trans (by norm_num))
    have hl := abs_le_ath (t := R b64 x / (2 + R b64 x)) (lt_of_le_of_lt ht (by norm_num))
    refine (two_rel k ?_ ?_).mono (by norm_num)
    · refine hu.trans ?_
      refine (mul_le_mul_of_nonneg_left ht (by norm_num)).trans (by norm_num)
    · rcases k2 with k2 | k2
      · left; rw [k2, ath_zero]
      · right; exact le_trans (le_trans (by norm_num) k2) hl
  · rw [if_pos he]
    refine (logWide_rel (pat_add k_one.1 hx) a1 hA' he hpos (δ := 1 / 2 ^ 53) a2 (by norm_num)).mono (by norm_num)

end Verif.Approx
