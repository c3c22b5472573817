import Verif.Approx.Horner

/-! # Tracking relative errors through a computation in `double` -/

namespace Verif.Approx
open Verif.Float Verif.Approx.Spec
open Verif.Math.Spec (Pat)

/-- A bound just below the largest double. -/
noncomputable def Mx : ℝ := (1 - 1 / 2 ^ 16) * 2 ^ 1024

theorem mag_top (o : Fmt.Ok b64) : (b64.mag b64.inf : ℝ) = 2 ^ 1024 * 2 ^ b64.unit := by
  rw [Fmt.mag_inf o, show b64.f + 2 * b64.bias = 1024 + b64.unit by rfl, pow_add]
  push_cast; rfl

theorem mag_near_top {F : Fmt} {E : Nat} (hE : 2 ≤ E) (hf : 17 ≤ F.f) : (1 - 1 / 2 ^ 16 : ℝ) * F.mag (E * 2 ^ F.f) ≤ F.mag (E * 2 ^ F.f - 2 ^ (F.f - 17)) := by
  have hp := Nat.two_pow_pos (F.f - 17)
  have e1 : 2 ^ F.f = 2 ^ 17 * 2 ^ (F.f - 17) := by rw [← pow_add]; congr 1; omega
  have hs : 2 ^ (F.f - 17) ≤ 2 ^ F.f := by rw [e1]; omega
  have h1 := F.mag_mk (E - 1) (2 ^ (F.f + 1) - 2 ^ (F.f - 17)) (by omega) (by rw [pow_succ]; omega) (by rw [pow_succ]; omega)
  have h2 : (E - 1) * 2 ^ F.f + (2 ^ (F.f + 1) - 2 ^ (F.f - 17) - 2 ^ F.f) = E * 2 ^ F.f - 2 ^ (F.f - 17) := by
    obtain ⟨k, rfl⟩ := Nat.exists_eq_add_of_le hE
    rw [pow_succ, show 2 + k - 1 = k + 1 by omega, show (2 + k) * 2 ^ F.f = (k + 1) * 2 ^ F.f + 2 ^ F.f by ring]
    omega
  rw [h2] at h1
  rw [h1, Fmt.mag_pow (F := F) E (by omega)]
  obtain ⟨k, rfl⟩ := Nat.exists_eq_add_of_le hE
  rw [show F.f + (2 + k) - 1 = F.f + 1 + k by omega, show 2 + k - 1 - 1 = k by omega, pow_add _ (F.f + 1) k]
  have hc : ((2 ^ (F.f + 1) - 2 ^ (F.f - 17) : Nat) : ℝ) = 2 ^ 18 * 2 ^ (F.f - 17) - 2 ^ (F.f - 17) := by
    rw [Nat.cast_sub (by rw [pow_succ]; omega), pow_succ, e1]; push_cast; ring
  have hk : (((2 ^ (F.f + 1) - 2 ^ (F.f - 17)) * 2 ^ k : Nat) : ℝ) = (2 ^ 18 * 2 ^ (F.f - 17) - 2 ^ (F.f - 17)) * 2 ^ k := by
    rw [← hc]; push_cast; rfl
  rw [hk, pow_succ 2 F.f, e1]
  push_cast
  have a : (0 : ℝ) < 2 ^ (F.f - 17) := by positivity
  have b : (0 : ℝ) < 2 ^ k := by positivity
  have : (0 : ℝ) < 2 ^ (F.f - 17) * 2 ^ k := by positivity
  nlinarith

theorem top_big : Top b64 Mx := by
  refine ⟨2047 * 2 ^ b64.f - 2 ^ (b64.f - 17), by decide +kernel, ?_⟩
  have h := mag_near_top (F := b64) (E := 2047) (by omega) (by decide)
  rw [show 2047 * 2 ^ b64.f = b64.inf by rfl] at h ⊢
  rw [mag_top ok64] at h
  unfold Mx
  rw [mul_assoc]
  exact h

theorem pow_le_Mx {k : Nat} (h : k ≤ 1023) : (2 : ℝ) ^ k ≤ Mx := by
  have h1 : (2 : ℝ) ^ k ≤ 2 ^ 1023 := pow_le_pow_right₀ (by norm_num) h
  have h2 : (2 : ℝ) ^ 1024 = 2 * 2 ^ 1023 := by rw [← pow_succ']
  have h3 : (0 : ℝ) < 2 ^ 1023 := by positivity
  unfold Mx
  rw [h2]
  generalize (2 : ℝ) ^ 1023 = w at *
  clear h2
  refine h1.trans ?_
  norm_num
  linarith

theorem le_Mx {x : ℝ} (h : x ≤ 2 ^ 250) : x ≤ Mx := h.trans (pow_le_Mx (by norm_num))

/-- The finite double `x` is `v` up to a relative error `ε`. -/
structure Rel (x : Nat) (v ε : ℝ) : Prop where
  fin : Fin b64 x
  err : |R b64 x - v| ≤ ε * |v|

namespace Rel

theorem mono {x : Nat} {v ε δ : ℝ} (h : Rel x v ε) (hd : ε ≤ δ) : Rel x v δ :=
  ⟨h.fin, h.err.trans (mul_le_mul_of_nonneg_right hd (abs_nonneg _))⟩

theorem exact {x : Nat} {v : ℝ} (h : Fin b64 x) (hv : R b64 x = v) : Rel x v 0 := ⟨h, by simp [hv]⟩

theorem abs_le {x : Nat} {v ε : ℝ} (h : Rel x v ε) : |R b64 x| ≤ (1 + ε) * |v| := by
  have h1 := h.err
  have := abs_sub_abs_le_abs_sub (R b64 x) v
  linarith

theorem le_abs {x : Nat} {v ε : ℝ} (h : Rel x v ε) : (1 - ε) * |v| ≤ |R b64 x| := by
  have h1 := h.err
  have := abs_sub_abs_le_abs_sub v (R b64 x)
  rw [abs_sub_comm] at this
  linarith

/-- A further error. -/
theorem shift {x : Nat} {v w ε δ η : ℝ} (h : Rel x v ε) (hw : |v - w| ≤ δ * |w|) (hε : 0 ≤ ε) (hη : ε * (1 + δ) + δ ≤ η) : Rel x w η := by
  refine ⟨h.fin, ?_⟩
  have h1 : |v| ≤ (1 + δ) * |w| := by
    have := abs_sub_abs_le_abs_sub v w
    linarith
  calc |R b64 x - w| ≤ |R b64 x - v| + |v - w| := abs_sub_le _ _ _
    _ ≤ ε * ((1 + δ) * |w|) + δ * |w| := add_le_add (h.err.trans (mul_le_mul_of_nonneg_left h1 hε)) hw
    _ = (ε * (1 + δ) + δ) * |w| := by ring
    _ ≤ η * |w| := mul_le_mul_of_nonneg_right hη (abs_nonneg _)

theorem opp {x : Nat} {v ε : ℝ} (h : Rel x v ε) : Rel (b64.opp x) (-v) ε :=
  ⟨fin_opp h.fin, by rw [R_opp, show -R b64 x - -v = -(R b64 x - v) by ring, abs_neg, abs_neg]; exact h.err⟩

theorem mul {x y : Nat} {v w ε δ η : ℝ} (hx : Rel x v ε) (hy : Rel y w δ) (hε : 0 ≤ ε ∧ 0 ≤ δ) (hB : (1 + ε) * (1 + δ) * |v * w| ≤ Mx)
    (hlo : 1 / 2 ^ 170 ≤ |v * w|) (hη : ε + δ + ε * δ + (1 + ε) * (1 + δ) / 2 ^ 53 + 1 / 2 ^ 80 ≤ η) : Rel (b64.mul x y) (v * w) η := by
  have ax := hx.abs_le
  have ay := hy.abs_le
  have hb : |R b64 x * R b64 y| ≤ (1 + ε) * (1 + δ) * |v * w| := by
    rw [abs_mul, abs_mul, show (1 + ε) * (1 + δ) * (|v| * |w|) = ((1 + ε) * |v|) * ((1 + δ) * |w|) by ring]
    exact mul_le_mul ax ay (abs_nonneg _) ((abs_nonneg _).trans ax)
  obtain ⟨k1, k2⟩ := mul_err top_big hx.fin hy.fin (hb.trans hB)
  refine ⟨k1, ?_⟩
  rw [eps64] at k2
  have k3 : |R b64 x * R b64 y - v * w| ≤ (ε + δ + ε * δ) * |v * w| := by
    rw [show R b64 x * R b64 y - v * w = (R b64 x - v) * w + (R b64 y - w) * R b64 x by ring]
    refine (abs_add_le _ _).trans ?_
    have a : |(R b64 x - v) * w| ≤ ε * |v| * |w| := by
      rw [abs_mul]; exact mul_le_mul_of_nonneg_right hx.err (abs_nonneg _)
    have b : |(R b64 y - w) * R b64 x| ≤ δ * |w| * ((1 + ε) * |v|) := by
      rw [abs_mul]; exact mul_le_mul hy.err ax (abs_nonneg _) (mul_nonneg hε.2 (abs_nonneg _))
    rw [abs_mul v w]
    calc _ ≤ ε * |v| * |w| + δ * |w| * ((1 + ε) * |v|) := add_le_add a b
      _ = _ := by ring
  have k5 := eta64
  have k6 : (1 : ℝ) / 2 ^ 250 ≤ 1 / 2 ^ 80 * |v * w| := by
    refine le_trans ?_ (mul_le_mul_of_nonneg_left hlo (by norm_num)); norm_num
  calc |R b64 (b64.mul x y) - v * w| ≤ |R b64 (b64.mul x y) - R b64 x * R b64 y| + |R b64 x * R b64 y - v * w| := abs_sub_le _ _ _
    _ ≤ (1 / 2 ^ 53 * ((1 + ε) * (1 + δ) * |v * w|) + 1 / 2 ^ 80 * |v * w|) + (ε + δ + ε * δ) * |v * w| := by
        refine add_le_add (k2.trans (add_le_add (mul_le_mul_of_nonneg_left hb (by norm_num)) (k5.trans k6))) k3
    _ = (ε + δ + ε * δ + (1 + ε) * (1 + δ) / 2 ^ 53 + 1 / 2 ^ 80) * |v * w| := by ring
    _ ≤ _ := mul_le_mul_of_nonneg_right hη (abs_nonneg _)

/-- Division; the quotient may be tiny. -/
theorem div_abs {x y : Nat} {v w ε δ θ : ℝ} (hx : Rel x v ε) (hy : Rel y w δ) (hε : 0 ≤ ε ∧ 0 ≤ δ ∧ δ < 1) (hw : w ≠ 0)
    (hθ : (ε + δ) / (1 - δ) ≤ θ) (hB : (1 + θ) * |v / w| ≤ Mx) :
    Fin b64 (Arith.fdiv b64 x y) ∧ |R b64 (Arith.fdiv b64 x y) - v / w| ≤ (θ + (1 + θ) / 2 ^ 53) * |v / w| + 1 / 2 ^ 250 := by
  have hw0 : 0 < |w| := abs_pos.2 hw
  have hy1 := hy.le_abs
  have h1d : 0 < 1 - δ := by linarith [hε.2.2]
  have hy2 : 0 < |R b64 y| := lt_of_lt_of_le (mul_pos h1d hw0) hy1
  have hy0 : R b64 y ≠ 0 := abs_pos.1 hy2
  have k3 : |R b64 x / R b64 y - v / w| ≤ θ * |v / w| := by
    have e : R b64 x / R b64 y - v / w = ((R b64 x - v) * w - v * (R b64 y - w)) / (R b64 y * w) := by field_simp; ring
    rw [e, abs_div, abs_div, abs_mul, div_le_iff₀ (mul_pos hy2 hw0)]
    have a : |(R b64 x - v) * w - v * (R b64 y - w)| ≤ (ε + δ) * (|v| * |w|) := by
      refine (abs_sub _ _).trans ?_
      rw [abs_mul, abs_mul]
      have b1 := mul_le_mul_of_nonneg_right hx.err hw0.le
      have b2 := mul_le_mul_of_nonneg_left hy.err (abs_nonneg v)
      calc _ ≤ ε * |v| * |w| + |v| * (δ * |w|) := add_le_add b1 b2
        _ = _ := by ring
    refine a.trans ?_
    have c : (ε + δ) ≤ θ * (1 - δ) := by rwa [div_le_iff₀ h1d] at hθ
    have hθ0 : 0 ≤ θ := le_trans (div_nonneg (by linarith [hε.1, hε.2.1]) h1d.le) hθ
    calc (ε + δ) * (|v| * |w|) ≤ θ * (1 - δ) * (|v| * |w|) := mul_le_mul_of_nonneg_right c (by positivity)
      _ = θ * |v| * ((1 - δ) * |w|) := by ring
      _ ≤ θ * |v| * |R b64 y| := mul_le_mul_of_nonneg_left hy1 (mul_nonneg hθ0 (abs_nonneg _))
      _ = θ * (|v| / |w|) * (|R b64 y| * |w|) := by field_simp
  have k4 : |R b64 x / R b64 y| ≤ (1 + θ) * |v / w| := by
    have := abs_sub_abs_le_abs_sub (R b64 x / R b64 y) (v / w)
    linarith
  obtain ⟨k1, k2⟩ := div_err top_big hx.fin hy.fin hy0 (k4.trans hB)
  rw [eps64] at k2
  refine ⟨k1, ?_⟩
  have k5 := eta64
  calc _ ≤ |R b64 (Arith.fdiv b64 x y) - R b64 x / R b64 y| + |R b64 x / R b64 y - v / w| := abs_sub_le _ _ _
    _ ≤ (1 / 2 ^ 53 * ((1 + θ) * |v / w|) + 1 / 2 ^ 250) + θ * |v / w| :=
        add_le_add (k2.trans (add_le_add (mul_le_mul_of_nonneg_left k4 (by norm_num)) k5)) k3
    _ = _ := by ring

theorem div {x y : Nat} {v w ε δ θ η : ℝ} (hx : Rel x v ε) (hy : Rel y w δ) (hε : 0 ≤ ε ∧ 0 ≤ δ ∧ δ < 1) (hw : w ≠ 0)
    (hθ : (ε + δ) / (1 - δ) ≤ θ) (hB : (1 + θ) * |v / w| ≤ Mx) (hlo : 1 / 2 ^ 170 ≤ |v / w|) (hη : θ + (1 + θ) / 2 ^ 53 + 1 / 2 ^ 80 ≤ η) :
    Rel (Arith.fdiv b64 x y) (v / w) η := by
  obtain ⟨k1, k2⟩ := hx.div_abs hy hε hw hθ hB
  refine ⟨k1, k2.trans ?_⟩
  have k6 : (1 : ℝ) / 2 ^ 250 ≤ 1 / 2 ^ 80 * |v / w| := by
    refine le_trans ?_ (mul_le_mul_of_nonneg_left hlo (by norm_num)); norm_num
  calc _ ≤ (θ + (1 + θ) / 2 ^ 53) * |v / w| + 1 / 2 ^ 80 * |v / w| := by gcongr
    _ = (θ + (1 + θ) / 2 ^ 53 + 1 / 2 ^ 80) * |v / w| := by ring
    _ ≤ _ := mul_le_mul_of_nonneg_right hη (abs_nonneg _)

/-- A sum from absolute errors. -/
theorem add_abs {x y : Nat} {v w e d B η : ℝ} (hx : Fin b64 x) (hy : Fin b64 y) (ex : |R b64 x - v| ≤ e) (ey : |R b64 y - w| ≤ d)
    (hB : |v + w| + e + d ≤ B) (hM : B ≤ Mx) (hη : e + d + B / 2 ^ 53 ≤ η * |v + w|) : Rel (b64.add x y) (v + w) η := by
  have h1 := _root_.abs_le.1 ex
  have h2 := _root_.abs_le.1 ey
  have h3 : |R b64 x + R b64 y| ≤ B := by
    refine le_trans ?_ hB
    have := abs_sub_abs_le_abs_sub (R b64 x + R b64 y) (v + w)
    have h4 : |R b64 x + R b64 y - (v + w)| ≤ e + d := _root_.abs_le.2 ⟨by linarith, by linarith⟩
    linarith
  obtain ⟨k1, k2⟩ := add_err ok64 top_big hx hy (h3.trans hM)
  rw [eps64] at k2
  refine ⟨k1, ?_⟩
  have k3 := _root_.abs_le.1 (k2.trans (mul_le_mul_of_nonneg_left h3 (by norm_num)))
  refine le_trans (_root_.abs_le.2 ⟨?_, ?_⟩) hη <;> linarith

/-- A sum of two numbers of the same sign. -/
theorem add {x y : Nat} {v w ε η : ℝ} (hx : Rel x v ε) (hy : Rel y w ε) (hv : 0 ≤ v) (hw : 0 ≤ w) (hM : (1 + ε) * (v + w) ≤ Mx)
    (hη : ε + (1 + ε) / 2 ^ 53 ≤ η) : Rel (b64.add x y) (v + w) η := by
  have ha : |v + w| = v + w := abs_of_nonneg (by linarith)
  refine add_abs hx.fin hy.fin hx.err hy.err le_rfl ?_ ?_ <;> rw [ha, abs_of_nonneg hv, abs_of_nonneg hw]
  · linarith
  · have := mul_le_mul_of_nonneg_right hη (add_nonneg hv hw)
    linarith

theorem pos {x : Nat} {v ε : ℝ} (h : Rel x v ε) (hv : 0 < v) (hε : ε < 1) : 0 < R b64 x := by
  have := _root_.abs_le.1 h.err
  rw [abs_of_pos hv] at this
  nlinarith [this.1]

/-- The rounded result is accurate. -/
theorem accurate {F : Fmt} {x : Nat} {v ε : ℝ} (h : Rel x v ε) : Accurate F ε v (b64.conv F x) := ⟨_, h.err, conv_rounded h.fin⟩

end Rel

/-- Adding to the exponent of a number near one multiplies by a power of two, up to the largest numbers. -/
theorem shift_R' {y k : Nat} {n : Int} (hp : Pat b64 y) (h1 : 1 / 2 ≤ R b64 y) (h2 : R b64 y < 2 ^ k) (hn : -1000 ≤ n ∧ n + k ≤ 1024) (hk : k ≤ 10) :
    ∃ z, shift y n = some z ∧ Fin b64 z ∧ R b64 z = R b64 y * 2 ^ n ∧ Pat b64 z := by
  obtain ⟨-, -, a3, a4, a5⟩ := pat_range (k := k) hp h1 h2
  have hinf : b64.inf = 2047 * 2 ^ 52 := rfl
  have hsb : b64.signBit = 2 ^ 63 := rfl
  have hz : (0 : Int) ≤ (y : Int) + n * 2 ^ 52 ∧ (y : Int) + n * 2 ^ 52 < 2047 * 2 ^ 52 := by omega
  refine ⟨((y : Int) + n * 2 ^ 52).toNat, ?_, (R_small (by omega)).1, ?_, ?_⟩
  · have e1 : s64 y = y := by unfold s64; omega
    have e2 : s64 (u64 (n * 2 ^ 52)) = n * 2 ^ 52 := by unfold s64 u64; omega
    unfold shift
    rw [e1, e2]
    unfold chk64
    rw [if_pos (by unfold IsI64; omega), Option.map_some]
    congr 1
    unfold u64; omega
  · rw [(R_small (by omega)).2, a5]
    rcases Int.le_total 0 n with h | h
    · obtain ⟨k, rfl⟩ := Int.eq_ofNat_of_zero_le h
      rw [show Int.toNat ((y : Int) + (k : Int) * 2 ^ 52) = y + k * 2 ^ 52 by omega, mag_scale64 (by omega)]
      push_cast
      rw [zpow_natCast]; ring
    · obtain ⟨k, hk⟩ := Int.eq_ofNat_of_zero_le (show 0 ≤ -n by omega)
      obtain rfl : n = -(k : Int) := by omega
      have := mag_scale64 (y := ((y : Int) + -(k : Int) * 2 ^ 52).toNat) (k := k) (by omega)
      rw [show Int.toNat ((y : Int) + -(k : Int) * 2 ^ 52) + k * 2 ^ 52 = y by omega] at this
      rw [this]
      push_cast
      rw [zpow_neg, zpow_natCast]
      field_simp
  · unfold Pat; omega

end Verif.Approx
