import Verif.Approx.Horner

/-! # Exact subtractions, exact results -/

namespace Verif.Approx
open Verif.Float Verif.Approx.Spec Verif.Hyp.Spec
open Verif.Math.Spec (Pat)

variable {F : Fmt}

theorem R_pack_int {s : Int} {k : Nat} {z : Bool} (hk : k ≤ F.inf) (he : F.mag k = s.natAbs) :
    R F (F.pack (if s = 0 then z else decide (s < 0)) k) = (s : ℝ) / 2 ^ F.unit := by
  rw [R_pack hk, he, Nat.cast_natAbs]
  by_cases h0 : s = 0
  · simp [h0]
  · rw [if_neg h0]
    by_cases hn : s < 0
    · simp [hn, abs_of_neg]
    · have : 0 ≤ s := by omega
      simp [hn, abs_of_nonneg this]

/-- A sum of multiples of `2^e` is exact if it has few digits. -/
theorem add_exactR (o : F.Ok) {x y e : Nat} (hx : Fin F x) (hy : Fin F y) (h1 : (2 ^ e : Int) ∣ F.val x) (h2 : (2 ^ e : Int) ∣ F.val y)
    (h3 : (F.val x + F.val y).natAbs ≤ 2 ^ (F.f + 1) * 2 ^ e) (h4 : (F.val x + F.val y).natAbs < F.mag F.inf) :
    Fin F (F.add x y) ∧ R F (F.add x y) = R F x + R F y := by
  have hd : 2 ^ e ∣ (F.val x + F.val y).natAbs := by
    have := Int.natAbs_dvd_natAbs.2 (Int.dvd_add h1 h2)
    rwa [Int.natAbs_pow] at this
  obtain ⟨k, k1, k2⟩ := Fmt.representable_mul (F := F) hd h3 h4.le
  rw [Fmt.add_exact hx hy k1 k2, R_pack_int k1 k2]
  refine ⟨fin_pack ?_, ?_⟩
  · rw [← k2] at h4
    exact (Fmt.mag_lt_iff (F := F)).1 h4
  · unfold R; push_cast; ring

theorem val_ulp (x : Nat) : (2 ^ (F.abs x / 2 ^ F.f - 1) : Int) ∣ F.val x := by
  have h := Fmt.ulp_dvd_mag (F := F) (F.abs x)
  unfold Fmt.ulp at h
  rw [← Fmt.natAbs_val] at h
  have := Int.natCast_dvd.2 h
  simpa using this

theorem mag_lt_inf (o : F.Ok) {x : Nat} (hx : Fin F x) : F.mag (F.abs x) < F.mag F.inf := F.mag_strictMono hx

/-- The fraction left by `rint` is exact. -/
theorem sub_rint (g : Big F) (hf : 20 ≤ F.f) {x : Nat} (hx : Fin F x) (hb : |R F x| ≤ 2 ^ 20) :
    ∃ n : Int, Fin F (F.rint x) ∧ R F (F.rint x) = n ∧ |R F x - n| ≤ 1 / 2 ∧ Fin F (F.sub x (F.rint x)) ∧ R F (F.sub x (F.rint x)) = R F x - n := by
  have hp : (0 : ℝ) < 2 ^ F.unit := by positivity
  obtain ⟨n, h1, h2, h3, h4⟩ := rint_R g hx (hb.trans (by norm_num))
  refine ⟨n, h1, h2, h3, ?_⟩
  have hle : |R F x - n| ≤ |R F x| := by
    by_cases hn : n = 0
    · rw [hn]; simp
    · have h5 : (1 : ℝ) ≤ |(n : ℝ)| := by
        rw [← Int.cast_abs]
        exact_mod_cast Int.one_le_abs hn
      have := abs_sub_abs_le_abs_sub (n : ℝ) (R F x)
      rw [abs_sub_comm] at this
      linarith
  have hv : (F.val (F.rint x) : ℝ) = n * 2 ^ F.unit := by
    unfold R at h2
    rwa [div_eq_iff hp.ne'] at h2
  have hv' : F.val (F.rint x) = n * 2 ^ F.unit := by exact_mod_cast hv
  have hdiff : ((F.val x + F.val (F.opp (F.rint x)) : Int) : ℝ) = (R F x - n) * 2 ^ F.unit := by
    rw [Fmt.val_opp, hv']
    unfold R
    push_cast
    field_simp
    ring
  have hnat : (F.val x + F.val (F.opp (F.rint x))).natAbs ≤ F.mag (F.abs x) := by
    have : (((F.val x + F.val (F.opp (F.rint x))).natAbs : Nat) : ℝ) ≤ F.mag (F.abs x) := by
      rw [Nat.cast_natAbs, Int.cast_abs, hdiff, abs_mul, abs_of_pos hp]
      rw [abs_R] at hle
      rwa [le_div_iff₀ hp] at hle
    exact_mod_cast this
  obtain ⟨m, m1, m2⟩ := Fmt.mag_form (F := F) (F.abs x)
  have he : F.abs x / 2 ^ F.f - 1 ≤ F.unit := by
    by_contra hc
    have hn : 2 ^ F.f ≤ F.abs x := by
      by_contra h'
      rw [Nat.div_eq_of_lt (by omega)] at hc
      omega
    have h6 := ulp_le (F := F) hn
    unfold Fmt.ulp at h6
    have h7 : 2 ^ (F.unit + 1) ≤ 2 ^ (F.abs x / 2 ^ F.f - 1) := Nat.pow_le_pow_right (by omega) (by omega)
    have h8 : 2 ^ 20 ≤ 2 ^ F.f := Nat.pow_le_pow_right (by omega) hf
    have h9 : 2 ^ 20 * 2 ^ (F.unit + 1) ≤ F.mag (F.abs x) := (Nat.mul_le_mul h8 h7).trans h6
    have h9' : (2 : ℝ) ^ 20 * 2 ^ (F.unit + 1) ≤ F.mag (F.abs x) := by exact_mod_cast h9
    rw [abs_R, div_le_iff₀ hp] at hb
    rw [pow_succ (2 : ℝ) F.unit] at h9'
    nlinarith
  have hu : F.ulp (F.abs x) = 2 ^ (F.abs x / 2 ^ F.f - 1) := rfl
  have := add_exactR g.ok (x := x) (y := F.opp (F.rint x)) (e := F.abs x / 2 ^ F.f - 1) hx (fin_opp h1) (val_ulp x) (by
      rw [Fmt.val_opp, hv']
      exact Int.dvd_neg.2 (Dvd.dvd.mul_left (pow_dvd_pow 2 he) _)) (by
      refine hnat.trans ?_
      rw [m1, hu]
      exact Nat.mul_le_mul_right _ m2.le) (Nat.lt_of_le_of_lt hnat (mag_lt_inf g.ok hx))
  rw [R_opp, h2, ← sub_eq_add_neg] at this
  exact this

/-- A nearly correctly rounded result is exact if the exact result is a floating-point number. -/
theorem accurate_exact {p r : Nat} {ε : ℝ} (hp : Pat F p) (hf : Fin F p) (h0 : F.abs p ≠ 0) (hε : ε ≤ 1 / 2 ^ (F.f + 4)) (h : Accurate F ε (R F p) r) : r = p := by
  obtain ⟨z, h1, h2⟩ := h
  have hu : (0 : ℝ) < 2 ^ F.unit := by positivity
  have hm := Fmt.mag_pos (F := F) (Nat.pos_of_ne_zero h0)
  have hmr : (0 : ℝ) < F.mag (F.abs p) := by exact_mod_cast hm
  have hv : |R F p| * 2 ^ F.unit = F.mag (F.abs p) := by rw [abs_R]; field_simp
  have hv0 : 0 < |R F p| := by rw [abs_R]; positivity
  have hε1 : ε ≤ 1 / 16 := hε.trans (by
    apply one_div_le_one_div_of_le (by norm_num)
    have : (1 : ℝ) ≤ 2 ^ F.f := one_le_pow₀ (by norm_num)
    rw [pow_add]; norm_num; linarith)
  have hzv : |z - R F p| ≤ 1 / 16 * |R F p| := h1.trans (mul_le_mul_of_nonneg_right hε1 hv0.le)
  -- the signs agree
  have hsgn : F.neg p = true ↔ Math.Spec.negative F r := by
    have hs := R_signed (F := F) p
    have hq : 0 < (F.mag (F.abs p) : ℝ) / 2 ^ F.unit := by positivity
    cases e : F.neg p
    · rw [e] at hs; simp at hs
      have hpos : 0 < R F p := by rw [hs]; exact hq
      rw [abs_of_pos hpos] at hzv
      have := (abs_le.1 hzv).1
      have := h2.pos (by linarith)
      simp [this]
    · rw [e] at hs; simp at hs
      have hneg : R F p < 0 := by rw [hs]; linarith
      rw [abs_of_neg hneg] at hzv
      have := (abs_le.1 hzv).2
      have := h2.neg (by linarith)
      simp [this]
  -- the magnitudes agree
  have hmag : F.abs r = F.abs p := by
    have hb := h2.near.best (F.abs p) (Nat.le_of_lt hf)
    change |_ - ((F.mag (F.abs r) : Nat) : ℝ)| ≤ _ at hb
    have hw : |(|z| * 2 ^ F.unit) - F.mag (F.abs p)| ≤ ε * F.mag (F.abs p) := by
      rw [← hv, ← sub_mul, abs_mul, abs_of_pos hu, ← mul_assoc]
      exact mul_le_mul_of_nonneg_right ((abs_abs_sub_abs_le _ _).trans h1) hu.le
    have hd : |(F.mag (F.abs r) : ℝ) - F.mag (F.abs p)| ≤ 2 * (ε * F.mag (F.abs p)) := by
      have a := abs_le.1 (hb.trans hw)
      have b := abs_le.1 hw
      exact abs_le.2 ⟨by linarith, by linarith⟩
    have hd2 : 2 * (ε * F.mag (F.abs p)) ≤ F.mag (F.abs p) / (8 * 2 ^ F.f) := by
      have : ε * F.mag (F.abs p) ≤ 1 / 2 ^ (F.f + 4) * F.mag (F.abs p) := mul_le_mul_of_nonneg_right hε hmr.le
      have e : 2 * (1 / 2 ^ (F.f + 4) * (F.mag (F.abs p) : ℝ)) = F.mag (F.abs p) / (8 * 2 ^ F.f) := by
        rw [pow_add]; field_simp; norm_num
      linarith
    have h8 : (0 : ℝ) < 8 * 2 ^ F.f := by positivity
    have hd3 := hd.trans hd2
    rw [le_div_iff₀ h8] at hd3
    by_contra hne
    obtain ⟨m, m1, m2⟩ := Fmt.mag_form (F := F) (F.abs p)
    rcases Nat.lt_or_gt_of_ne hne with hlt | hgt
    · -- below
      have hs := F.mag_succ (F.abs p - 1)
      rw [show F.abs p - 1 + 1 = F.abs p by omega] at hs
      have hmo := F.mag_mono (show F.abs r ≤ F.abs p - 1 by omega)
      obtain ⟨m', m1', m2'⟩ := Fmt.mag_form (F := F) (F.abs p - 1)
      have hub : F.mag (F.abs p) ≤ 2 ^ (F.f + 1) * F.ulp (F.abs p - 1) := by
        rw [hs, m1', show m' * F.ulp (F.abs p - 1) + F.ulp (F.abs p - 1) = (m' + 1) * F.ulp (F.abs p - 1) by ring]
        exact Nat.mul_le_mul_right _ m2'
      have a1 : (F.mag (F.abs p) : ℝ) ≤ 2 ^ (F.f + 1) * F.ulp (F.abs p - 1) := by exact_mod_cast hub
      have a2 : (F.mag (F.abs r) : ℝ) + F.ulp (F.abs p - 1) ≤ F.mag (F.abs p) := by exact_mod_cast (by omega)
      have a3 := neg_abs_le ((F.mag (F.abs r) : ℝ) - F.mag (F.abs p))
      have a4 : (F.ulp (F.abs p - 1) : ℝ) ≤ |(F.mag (F.abs r) : ℝ) - F.mag (F.abs p)| := by linarith
      have a5 := mul_le_mul_of_nonneg_right a4 h8.le
      rw [pow_succ] at a1
      nlinarith
    · have hs := F.mag_succ (F.abs p)
      have hmo := F.mag_mono (show F.abs p + 1 ≤ F.abs r by omega)
      have hub : F.mag (F.abs p) ≤ 2 ^ (F.f + 1) * F.ulp (F.abs p) := by
        rw [m1]; exact Nat.mul_le_mul_right _ m2.le
      have a1 : (F.mag (F.abs p) : ℝ) ≤ 2 ^ (F.f + 1) * F.ulp (F.abs p) := by exact_mod_cast hub
      have a2 : (F.mag (F.abs p) : ℝ) + F.ulp (F.abs p) ≤ F.mag (F.abs r) := by exact_mod_cast (by omega)
      have a3 := le_abs_self ((F.mag (F.abs r) : ℝ) - F.mag (F.abs p))
      have a4 : (F.ulp (F.abs p) : ℝ) ≤ |(F.mag (F.abs r) : ℝ) - F.mag (F.abs p)| := by linarith
      have a5 := mul_le_mul_of_nonneg_right a4 h8.le
      rw [pow_succ] at a1
      nlinarith
  have e1 := Fmt.pack_self hp
  have e2 := Fmt.pack_self (F := F) (x := r) h2.pat
  have e3 : F.neg r = F.neg p := by
    have := Math.negative_iff (F := F) h2.pat
    cases e : F.neg p
    · rw [e] at hsgn
      cases e' : F.neg r
      · rfl
      · have := hsgn.2 (this.2 e'); simp at this
    · exact (this.1 (hsgn.1 e))
  rw [← e1, ← e2, e3, hmag]

end Verif.Approx
