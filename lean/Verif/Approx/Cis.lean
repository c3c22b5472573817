import Verif.Approx.ModelCplx
import Verif.Approx.Sincosf
import Verif.Approx.InvHypf

/-! # The sine and the cosine in `csinhf`, `ccoshf`, `csinf` and `ccosf` -/

namespace Verif.Approx
open Verif.Float Verif.Approx.Spec
open Verif.Math.Spec (Pat)

/-- The coefficients, times 2^90. -/
def cisZ : List Int := [1237940039226702500420648960, -618970014881987170670739456, 51580773163023584456605696, -1719080193068156881731584, 30180890729446853574656]

theorem cis_link : link 90 cisC cisZ = true ∧ psum cisZ ≤ 3 * 2 ^ 90 := by decide +kernel

/-- The polynomial differs from the series by less than 2^-32. -/
theorem cis_check : posTo (padd [20922789888000 * 2 ^ 58] (padd (psm 20922789888000 cisZ) (psm (-2 ^ 90) cosTZ))) 8 5 = true ∧
    posTo (padd [20922789888000 * 2 ^ 58] (padd (psm (-20922789888000) cisZ) (psm (2 ^ 90) (cosTZ.take 8)))) 8 5 = true := by decide +kernel

theorem cis_poly {y : ℝ} (hy : |y| ≤ 0.79) : |ev (y ^ 2) cisZ / 2 ^ 90 - Real.cos y| ≤ 1 / 2 ^ 32 := by
  have hu : y ^ 2 ≤ 5 / 8 := by rw [← sq_abs]; nlinarith [abs_nonneg y]
  have h0 := sq_nonneg y
  obtain ⟨c1, c2⟩ := cis_check
  have p1 := pos_to (d := 8) (n := 5) (by norm_num) (by norm_num) c1 h0 (by norm_num; exact hu)
  have p2 := pos_to (d := 8) (n := 5) (by norm_num) (by norm_num) c2 h0 (by norm_num; exact hu)
  simp only [ev_padd, ev_psm] at p1 p2
  rw [← sq_abs, ← cosT_ev, sq_abs] at p1
  rw [← sq_abs, ← cosT_ev8, sq_abs] at p2
  have t1 := cos_taylor 8 (abs_nonneg y)
  have t2 := cos_taylor 7 (abs_nonneg y)
  rw [Real.cos_abs] at t1 t2
  norm_num [ev] at p1 p2 t1 t2 ⊢
  rw [abs_le]
  constructor <;> linarith

theorem cisCos_ap {y : Nat} (hy : Fin b64 y) (h : |R b64 y| ≤ 0.79) : Ap (cisCos y) (Real.cos (R b64 y)) (1 / 2 ^ 31) := by
  obtain ⟨s1, s2⟩ := square_ap hy (h.trans (by norm_num))
  obtain ⟨l1, l2⟩ := cis_link
  have a := horner_ev s1 s2 cisC cisZ l1 l2 (by decide) (by decide)
  exact (a.shift (cis_poly h)).mono (by norm_num [cisC])

variable {X : ℝ} {k : Int} {y : Nat} {K : Int} {r : ℝ}

theorem Reduced.cis (h : Reduced X k y K r) : Rel (cisCos y) (Real.cos r) (85 / 100 / 2 ^ 26) := by
  have a := cisCos_ap h.fin h.y_le
  have c := cos_ge (h.le.trans (by norm_num))
  have l : |Real.cos (R b64 y) - Real.cos r| ≤ 1 / 2 ^ 48 :=
    (lip Real.hasDerivAt_cos (fun x => by rw [abs_neg]; exact Real.abs_sin_le_one x) _ _).trans h.abs
  exact (a.shift l).rel (m := 0.68) (by norm_num) c (by norm_num)

/-- `cisf_` at every finite argument other than zero. -/
theorem cisf_rel {x : Nat} (hx : Fin b32 x) (h0 : R b32 x ≠ 0) : ∃ c, cisf x = some c ∧ Rel c.1 (Real.cos (R b32 x)) (85 / 100 / 2 ^ 26) ∧
    Rel c.2 (Real.sin (R b32 x)) (85 / 100 / 2 ^ 26) ∧ 1 / 2 ^ 151 ≤ |Real.cos (R b32 x)| ∧ 1 / 2 ^ 151 ≤ |Real.sin (R b32 x)| := by
  obtain ⟨k, y, K, r, e, h⟩ := remPio2_reduced hx
  unfold cisf
  rw [e, Option.map_some]
  refine ⟨_, rfl, ?_⟩
  have s := h.sin h0
  have c := h.cis
  obtain ⟨u1, u2⟩ := u32_mod h.quo
  obtain ⟨q0, q1, q2, q3⟩ := quarters K r
  have lc : 1 / 2 ^ 151 ≤ |Real.cos r| := le_trans (by norm_num) ((cos_ge (h.le.trans (by norm_num))).trans (le_abs_self _))
  have ls : 1 / 2 ^ 151 ≤ |Real.sin r| := by
    have s := sin_ge (h.le.trans (by norm_num) : |r| ≤ 0.79)
    have h2 : r ^ 2 ≤ 0.786 ^ 2 := by rw [← sq_abs]; exact pow_le_pow_left₀ (abs_nonneg r) h.le 2
    have h3 : 0.84 * |r| ≤ |Real.sin r| := le_trans (mul_le_mul_of_nonneg_right (by norm_num at h2 ⊢; linarith) (abs_nonneg r)) s
    have := h.ge h0
    norm_num at this h3 ⊢
    linarith
  rw [h.eq]
  simp only
  generalize u32 k = q at *
  rcases (by omega : K % 4 = 0 ∨ K % 4 = 1 ∨ K % 4 = 2 ∨ K % 4 = 3) with hK | hK | hK | hK
  · rw [(q0 hK).1, (q0 hK).2, if_neg (show ¬ q % 4 = 1 by omega), if_neg (show ¬ q % 4 = 2 by omega), if_neg (show ¬ q % 4 = 3 by omega)]
    exact ⟨c, s, lc, ls⟩
  · rw [(q1 hK).1, (q1 hK).2, if_pos (show q % 4 = 1 by omega), abs_neg]
    exact ⟨s.opp, c, ls, lc⟩
  · rw [(q2 hK).1, (q2 hK).2, if_neg (show ¬ q % 4 = 1 by omega), if_pos (show q % 4 = 2 by omega), abs_neg, abs_neg]
    exact ⟨c.opp, s.opp, lc, ls⟩
  · rw [(q3 hK).1, (q3 hK).2, if_neg (show ¬ q % 4 = 1 by omega), if_neg (show ¬ q % 4 = 2 by omega), if_pos (show q % 4 = 3 by omega), abs_neg]
    exact ⟨s, c.opp, ls, lc⟩

theorem eta_le400 : eta b64 ≤ 1 / 2 ^ 400 := by
  unfold eta
  rw [div_div]
  refine one_div_le_one_div_of_le (by positivity) ?_
  calc (2 : ℝ) ^ 400 ≤ 2 ^ b64.unit := pow_le_pow_right₀ (by norm_num) (by decide)
    _ ≤ 2 * 2 ^ b64.unit := by linarith [show (0 : ℝ) < 2 ^ b64.unit by positivity]

/-- `Rel.mul` for products down to 2^-320. -/
theorem Rel.mul_tiny {x y : Nat} {v w ε δ η : ℝ} (hx : Rel x v ε) (hy : Rel y w δ) (hε : 0 ≤ ε ∧ 0 ≤ δ) (hB : (1 + ε) * (1 + δ) * |v * w| ≤ Mx)
    (hlo : 1 / 2 ^ 320 ≤ |v * w|) (hη : ε + δ + ε * δ + (1 + ε) * (1 + δ) / 2 ^ 53 + 1 / 2 ^ 80 ≤ η) : Rel (b64.mul x y) (v * w) η := by
  have ax := hx.abs_le
  have ay := hy.abs_le
  have hb : |R b64 x * R b64 y| ≤ (1 + ε) * (1 + δ) * |v * w| := by
    rw [abs_mul, abs_mul, show (1 + ε) * (1 + δ) * (|v| * |w|) = ((1 + ε) * |v|) * ((1 + δ) * |w|) by ring]
    exact mul_le_mul ax ay (abs_nonneg _) ((abs_nonneg _).trans ax)
  obtain ⟨k1, k2⟩ := mul_err top_big hx.fin hy.fin (hb.trans hB)
  refine ⟨k1, ?_⟩
  rw [eps64] at k2
  have k3 : |R b64 x * R b64 y - v * w| ≤ (ε + δ + ε * δ) * |v * w| := by
    rw [show R b64 x * R b64 y - v * w = (R b64 x - v) * w + (R b64 y - w) * R b64 x by ring]
    refine (abs_add_le _ _).trans ?_
    have a : |(R b64 x - v) * w| ≤ ε * |v| * |w| := by
      rw [abs_mul]; exact mul_le_mul_of_nonneg_right hx.err (abs_nonneg _)
    have b : |(R b64 y - w) * R b64 x| ≤ δ * |w| * ((1 + ε) * |v|) := by
      rw [abs_mul]; exact mul_le_mul hy.err ax (abs_nonneg _) (mul_nonneg hε.2 (abs_nonneg _))
    rw [abs_mul v w]
    calc _ ≤ ε * |v| * |w| + δ * |w| * ((1 + ε) * |v|) := add_le_add a b
      _ = _ := by ring
  have k5 := eta_le400
  have k6 : (1 : ℝ) / 2 ^ 400 ≤ 1 / 2 ^ 80 * |v * w| := by
    refine le_trans (le_of_eq ?_) (mul_le_mul_of_nonneg_left hlo (by norm_num))
    rw [div_mul_div_comm, one_mul, ← pow_add]
  calc |R b64 (b64.mul x y) - v * w| ≤ |R b64 (b64.mul x y) - R b64 x * R b64 y| + |R b64 x * R b64 y - v * w| := abs_sub_le _ _ _
    _ ≤ (1 / 2 ^ 53 * ((1 + ε) * (1 + δ) * |v * w|) + 1 / 2 ^ 80 * |v * w|) + (ε + δ + ε * δ) * |v * w| := by
        refine add_le_add (k2.trans (add_le_add (mul_le_mul_of_nonneg_left hb (by norm_num)) (k5.trans k6))) k3
    _ = (ε + δ + ε * δ + (1 + ε) * (1 + δ) / 2 ^ 53 + 1 / 2 ^ 80) * |v * w| := by ring
    _ ≤ _ := mul_le_mul_of_nonneg_right hη (abs_nonneg _)

end Verif.Approx
