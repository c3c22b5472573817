import Verif.Approx.ReduceLarge
import Verif.Approx.SinTaylor
import Verif.Approx.Atan

/-! # The kernels of sine and cosine -/

namespace Verif.Approx
open Verif.Float Verif.Approx.Spec
open Verif.Math.Spec (Pat)

/-- The coefficients of the kernels, times 2^90. -/
def cosZ : List Int := [1237940039285380274899124224, -618970019642683540379795456, 51580834970018935950278656, -1719361163532569589841920, 30702867654910760976384, -341117985026319581184, 2554283748894824448]
def sinZ : List Int := [-206323339880896254353342464, 10316166994030702891106304, -245623023521500678324224, 3411430185826106998784, -31011316913033621504, 196782261889425920]

/-- Taylor's coefficients of the cosine, times 16!, and of the sine, times 17!. -/
def cosTZ : List Int := [20922789888000, -10461394944000, 871782912000, -29059430400, 518918400, -5765760, 43680, -240, 1]
def sinTZ : List Int := [355687428096000, -59281238016000, 2964061900800, -70572902400, 980179200, -8910720, 57120, -272, 1]

theorem sc_link : link 90 cosC cosZ = true ∧ link 90 sinC sinZ = true ∧ psum cosZ ≤ 3 * 2 ^ 90 ∧ psum sinZ ≤ 3 * 2 ^ 90 := by decide +kernel

theorem cosT_ev (y : ℝ) : cosT 9 y * 20922789888000 = ev (y ^ 2) cosTZ := by
  simp [cosT, cosTZ, ev, Nat.factorial]
  ring

theorem cosT_ev8 (y : ℝ) : cosT 8 y * 20922789888000 = ev (y ^ 2) (cosTZ.take 8) := by
  simp [cosT, cosTZ, ev, Nat.factorial]
  ring

theorem sinT_ev (y : ℝ) : sinT 9 y * 355687428096000 = y * ev (y ^ 2) sinTZ := by
  simp [sinT, sinTZ, ev, Nat.factorial]
  ring

theorem sinT_ev8 (y : ℝ) : sinT 8 y * 355687428096000 = y * ev (y ^ 2) (sinTZ.take 8) := by
  simp [sinT, sinTZ, ev, Nat.factorial]
  ring

/-- The kernels differ from the series by less than 2^-46. -/
theorem sc_check : posTo (padd [20922789888000 * 2 ^ 44] (padd (psm 20922789888000 cosZ) (psm (-2 ^ 90) cosTZ))) 8 5 = true ∧
    posTo (padd [20922789888000 * 2 ^ 44] (padd (psm (-20922789888000) cosZ) (psm (2 ^ 90) (cosTZ.take 8)))) 8 5 = true ∧
    posTo (padd [355687428096000 * 2 ^ 44] (padd (psm 355687428096000 (2 ^ 90 :: sinZ)) (psm (-2 ^ 90) sinTZ))) 8 5 = true ∧
    posTo (padd [355687428096000 * 2 ^ 44] (padd (psm (-355687428096000) (2 ^ 90 :: sinZ)) (psm (2 ^ 90) (sinTZ.take 8)))) 8 5 = true := by decide +kernel

/-- The polynomial of the cosine. -/
theorem cos_poly {y : ℝ} (hy : |y| ≤ 0.79) : |ev (y ^ 2) cosZ / 2 ^ 90 - Real.cos y| ≤ 1 / 2 ^ 46 := by
  have hu : y ^ 2 ≤ 5 / 8 := by rw [← sq_abs]; nlinarith [abs_nonneg y]
  have h0 := sq_nonneg y
  obtain ⟨c1, c2, -, -⟩ := sc_check
  have p1 := pos_to (d := 8) (n := 5) (by norm_num) (by norm_num) c1 h0 (by norm_num; exact hu)
  have p2 := pos_to (d := 8) (n := 5) (by norm_num) (by norm_num) c2 h0 (by norm_num; exact hu)
  simp only [ev_padd, ev_psm] at p1 p2
  rw [← sq_abs, ← cosT_ev, sq_abs] at p1
  rw [← sq_abs, ← cosT_ev8, sq_abs] at p2
  have t1 := cos_taylor 8 (abs_nonneg y)
  have t2 := cos_taylor 7 (abs_nonneg y)
  rw [Real.cos_abs] at t1 t2
  norm_num [ev] at p1 p2 t1 t2 ⊢
  rw [abs_le]
  constructor <;> linarith

/-- The polynomial of the sine. -/
theorem sin_poly {y : ℝ} (hy : |y| ≤ 0.79) : |y + y * y ^ 2 * (ev (y ^ 2) sinZ / 2 ^ 90) - Real.sin y| ≤ 1 / 2 ^ 46 * |y| := by
  have key : ∀ {y : ℝ}, 0 ≤ y → y ≤ 0.79 → |y + y * y ^ 2 * (ev (y ^ 2) sinZ / 2 ^ 90) - Real.sin y| ≤ 1 / 2 ^ 46 * y := by
    intro y hy0 hy
    have hu : y ^ 2 ≤ 5 / 8 := by nlinarith
    have h0 := sq_nonneg y
    obtain ⟨-, -, c1, c2⟩ := sc_check
    have p1 := mul_nonneg hy0 (pos_to (d := 8) (n := 5) (by norm_num) (by norm_num) c1 h0 (by norm_num; exact hu))
    have p2 := mul_nonneg hy0 (pos_to (d := 8) (n := 5) (by norm_num) (by norm_num) c2 h0 (by norm_num; exact hu))
    simp only [ev_padd, ev_psm] at p1 p2
    have e1 := sinT_ev y
    have e2 := sinT_ev8 y
    have t1 := sin_taylor 8 hy0
    have t2 := sin_taylor 7 hy0
    rw [show ev (y ^ 2) (2 ^ 90 :: sinZ) = 2 ^ 90 + y ^ 2 * ev (y ^ 2) sinZ by norm_num [ev]] at p1 p2
    generalize ev (y ^ 2) sinTZ = a at *
    generalize ev (y ^ 2) (List.take 8 sinTZ) = b at *
    generalize ev (y ^ 2) sinZ = c at *
    have e3 : y * y ^ 2 * (c / 2 ^ 90) = y * (y ^ 2 * c) / 2 ^ 90 := by ring
    rw [e3]
    have q1 : 0 ≤ 355687428096000 * 2 ^ 44 * y + (355687428096000 * (2 ^ 90 * y + y * (y ^ 2 * c)) - 2 ^ 90 * (y * a)) := by
      norm_num [ev] at p1 ⊢; linarith
    have q2 : 0 ≤ 355687428096000 * 2 ^ 44 * y + (-355687428096000 * (2 ^ 90 * y + y * (y ^ 2 * c)) + 2 ^ 90 * (y * b)) := by
      norm_num [ev] at p2 ⊢; linarith
    rw [← e1] at q1
    rw [← e2] at q2
    generalize y * (y ^ 2 * c) = w at *
    norm_num at q1 q2 t1 t2 ⊢
    rw [abs_le]
    constructor <;> linarith
  rcases abs_cases y with ⟨e, h⟩ | ⟨e, h⟩
  · rw [e] at hy ⊢
    exact key h hy
  · rw [e] at hy ⊢
    have := key (y := -y) (by linarith) hy
    rw [Real.sin_neg, neg_sq, ← abs_neg] at this
    refine le_of_eq_of_le ?_ this
    congr 1
    ring

/-- `kernel_cosf_` -/
theorem kernelCos_ap {y : Nat} (hy : Fin b64 y) (h : |R b64 y| ≤ 0.79) : Ap (kernelCos y) (Real.cos (R b64 y)) (1 / 2 ^ 45) := by
  obtain ⟨s1, s2⟩ := square_ap hy (h.trans (by norm_num))
  obtain ⟨l1, -, l2, -⟩ := sc_link
  have a := horner_ev s1 s2 cosC cosZ l1 l2 (by decide) (by decide)
  exact (a.shift (cos_poly h)).mono (by norm_num [cosC])

/-- `kernel_sinf_` -/
theorem kernelSin_ap {y : Nat} (hy : Fin b64 y) (h : |R b64 y| ≤ 0.79) (h0 : 1 / 2 ^ 160 ≤ |R b64 y|) : Ap (kernelSin y) (Real.sin (R b64 y)) (1 / 2 ^ 45 * |R b64 y|) := by
  obtain ⟨s1, s2⟩ := square_ap hy (h.trans (by norm_num))
  obtain ⟨-, l1, -, l2⟩ := sc_link
  have a := horner_ev s1 s2 sinC sinZ l1 l2 (by decide) (by decide)
  have hsp := sin_poly h
  have hp : |ev (R b64 y ^ 2) sinZ / 2 ^ 90| ≤ 3 := ev_div_le s2 l2
  have m := (Ap.exact hy).mul s1 (V := |R b64 y|) (W := 1) le_rfl s2 (by norm_num at h ⊢; linarith)
  have m' := m.mono (d := 4 / 2 ^ 53 * |R b64 y|) (by norm_num at h0 ⊢; linarith)
  have b := a.mono (d := 80 / 2 ^ 53) (by norm_num [sinC])
  have hY0 := abs_nonneg (R b64 y)
  have hprod : |R b64 y * R b64 y ^ 2| ≤ |R b64 y| := by
    rw [abs_mul]
    calc _ ≤ |R b64 y| * 1 := mul_le_mul_of_nonneg_left s2 hY0
      _ = _ := mul_one _
  have c := m'.mul b (V := |R b64 y|) (W := 3) hprod hp (by norm_num at h ⊢; nlinarith)
  have c' := c.mono (d := 97 / 2 ^ 53 * |R b64 y|) (by norm_num at h0 h ⊢; nlinarith)
  have hB : |R b64 y + R b64 y * R b64 y ^ 2 * (ev (R b64 y ^ 2) sinZ / 2 ^ 90)| ≤ 2 * |R b64 y| := by
    have h1 := abs_sub_abs_le_abs_sub (R b64 y + R b64 y * R b64 y ^ 2 * (ev (R b64 y ^ 2) sinZ / 2 ^ 90)) (Real.sin (R b64 y))
    have h2 : |Real.sin (R b64 y)| ≤ |R b64 y| := Real.abs_sin_le_abs
    norm_num at hsp h1 ⊢
    linarith
  have d := (Ap.exact hy).add c' hB (by norm_num at h ⊢; linarith)
  refine (d.shift hsp).mono ?_
  norm_num
  linarith

theorem cos_ge {x : ℝ} (h : |x| ≤ 0.79) : 0.68 ≤ Real.cos x := by
  have := Real.one_sub_sq_div_two_le_cos (x := x)
  have h2 : x ^ 2 ≤ 0.79 ^ 2 := by rw [← sq_abs]; exact pow_le_pow_left₀ (abs_nonneg x) h 2
  norm_num at h2 ⊢
  linarith

theorem sin_ge {x : ℝ} (h : |x| ≤ 0.79) : (1 - x ^ 2 / 4) * |x| ≤ |Real.sin x| := by
  have key : ∀ {x : ℝ}, 0 ≤ x → x ≤ 1 → (1 - x ^ 2 / 4) * x ≤ Real.sin x := by
    intro x h0 h1
    rcases h0.eq_or_lt with rfl | h0
    · simp
    · have := Real.sin_gt_sub_cube h0
      nlinarith
  rcases abs_cases x with ⟨e, hx⟩ | ⟨e, hx⟩
  · rw [e] at h ⊢
    exact (key hx (by linarith)).trans (le_abs_self _)
  · rw [e] at h ⊢
    have := key (x := -x) (by linarith) (by linarith)
    rw [Real.sin_neg, neg_sq] at this
    exact this.trans (neg_le_abs _)

variable {X : ℝ} {k : Int} {y : Nat} {K : Int} {r : ℝ}

theorem Reduced.y_le (h : Reduced X k y K r) : |R b64 y| ≤ 0.79 := by
  have h1 := abs_sub_abs_le_abs_sub (R b64 y) r
  have h2 := h.le
  have h3 := h.abs
  norm_num at h1 h2 h3 ⊢
  linarith

theorem Reduced.y_ge (h : Reduced X k y K r) (h0 : X ≠ 0) : 1 / 2 ^ 160 ≤ |R b64 y| := by
  have h1 := abs_sub_abs_le_abs_sub r (R b64 y)
  rw [abs_sub_comm] at h1
  have h2 := h.ge h0
  have h3 := h.rel
  norm_num at h1 h2 h3 ⊢
  linarith

theorem Reduced.y_rel (h : Reduced X k y K r) : |R b64 y| ≤ 1.001 * |r| := by
  have h1 := abs_sub_abs_le_abs_sub (R b64 y) r
  have h3 := h.rel
  have := abs_nonneg r
  norm_num at h1 h3 ⊢
  linarith

/-- The cosine of the remainder. -/
theorem Reduced.cos (h : Reduced X k y K r) : Rel (kernelCos y) (Real.cos r) (85 / 100 / 2 ^ 26) := by
  have a := kernelCos_ap h.fin h.y_le
  have c := cos_ge (h.le.trans (by norm_num))
  have l : |Real.cos (R b64 y) - Real.cos r| ≤ 1 / 2 ^ 48 :=
    (lip Real.hasDerivAt_cos (fun x => by rw [abs_neg]; exact Real.abs_sin_le_one x) _ _).trans h.abs
  exact (a.shift l).rel (m := 0.68) (by norm_num) c (by norm_num)

/-- The sine of the remainder. -/
theorem Reduced.sin (h : Reduced X k y K r) (h0 : X ≠ 0) : Rel (kernelSin y) (Real.sin r) (85 / 100 / 2 ^ 26) := by
  have a := kernelSin_ap h.fin h.y_le (h.y_ge h0)
  have l : |Real.sin (R b64 y) - Real.sin r| ≤ |R b64 y - r| := lip Real.hasDerivAt_sin (fun x => Real.abs_cos_le_one x) _ _
  have b := (a.shift l).err
  have s := sin_ge (h.le.trans (by norm_num) : |r| ≤ 0.79)
  have yr := h.y_rel
  refine ⟨a.fin, b.trans ?_⟩
  have hr0 := abs_nonneg r
  by_cases hr : |r| ≤ 1 / 8
  · have h2 : r ^ 2 ≤ (1 / 8) ^ 2 := by rw [← sq_abs]; exact pow_le_pow_left₀ hr0 hr 2
    have h3 : 0.996 * |r| ≤ |Real.sin r| := le_trans (mul_le_mul_of_nonneg_right (by norm_num at h2 ⊢; linarith) hr0) s
    have := h.rel
    norm_num at this h3 yr ⊢
    linarith
  · have hl := h.le
    have h2 : r ^ 2 ≤ 0.786 ^ 2 := by rw [← sq_abs]; exact pow_le_pow_left₀ hr0 hl 2
    have h3 : 0.84 * |r| ≤ |Real.sin r| := le_trans (mul_le_mul_of_nonneg_right (by norm_num at h2 ⊢; linarith) hr0) s
    have := h.abs
    have hr' : 1 / 8 < |r| := not_le.1 hr
    norm_num at this h3 yr hl hr' ⊢
    linarith

/-- The four quarters of a turn. -/
theorem quarters (K : Int) (r : ℝ) :
    (K % 4 = 0 → Real.sin (K * (Real.pi / 2) + r) = Real.sin r ∧ Real.cos (K * (Real.pi / 2) + r) = Real.cos r) ∧
    (K % 4 = 1 → Real.sin (K * (Real.pi / 2) + r) = Real.cos r ∧ Real.cos (K * (Real.pi / 2) + r) = -Real.sin r) ∧
    (K % 4 = 2 → Real.sin (K * (Real.pi / 2) + r) = -Real.sin r ∧ Real.cos (K * (Real.pi / 2) + r) = -Real.cos r) ∧
    (K % 4 = 3 → Real.sin (K * (Real.pi / 2) + r) = -Real.cos r ∧ Real.cos (K * (Real.pi / 2) + r) = Real.sin r) := by
  have e : (K : ℝ) * (Real.pi / 2) + r = ((K % 4 : Int) : ℝ) * (Real.pi / 2) + r + (K / 4 : Int) * (2 * Real.pi) := by
    have : (K : ℝ) = ((K % 4 : Int) : ℝ) + 4 * (K / 4 : Int) := by exact_mod_cast (Int.emod_add_mul_ediv K 4).symm
    rw [this]; ring
  rw [e, Real.sin_add_int_mul_two_pi, Real.cos_add_int_mul_two_pi]
  refine ⟨fun h => ?_, fun h => ?_, fun h => ?_, fun h => ?_⟩ <;> rw [h]
  · simp
  · rw [show ((1 : Int) : ℝ) * (Real.pi / 2) + r = r + Real.pi / 2 by push_cast; ring, Real.sin_add_pi_div_two, Real.cos_add_pi_div_two]
    exact ⟨rfl, rfl⟩
  · rw [show ((2 : Int) : ℝ) * (Real.pi / 2) + r = r + Real.pi by push_cast; ring, Real.sin_add_pi, Real.cos_add_pi]
    exact ⟨rfl, rfl⟩
  · rw [show ((3 : Int) : ℝ) * (Real.pi / 2) + r = r + Real.pi / 2 + Real.pi by push_cast; ring, Real.sin_add_pi, Real.cos_add_pi, Real.sin_add_pi_div_two, Real.cos_add_pi_div_two]
    simp

/-- `sinf` without the table. -/
def sinCore (x : Nat) : Option Nat := (remPio2 x).map fun (k, y) =>
    let q := u32 k
    let z := if q % 2 = 1 then kernelCos y else kernelSin y
    if q / 2 % 2 = 1 then b64.opp z else z

/-- `cosf` without the table. -/
def cosCore (x : Nat) : Option Nat := (remPio2 x).map fun (k, y) =>
    let q := u32 k
    let z := if q % 2 = 1 then kernelSin y else kernelCos y
    if (q + 1) / 2 % 2 = 1 then b64.opp z else z

theorem u32_mod (h : k % 4 = K % 4) : ((u32 k : Nat) : Int) % 4 = K % 4 ∧ u32 k < 4294967296 := by
  unfold u32; omega

theorem sinCore_rel {x : Nat} (hx : Fin b32 x) (h0 : R b32 x ≠ 0) : ∃ z, sinCore x = some z ∧ Rel z (Real.sin (R b32 x)) (85 / 100 / 2 ^ 26) := by
  obtain ⟨k, y, K, r, e, h⟩ := remPio2_reduced hx
  unfold sinCore
  rw [e, Option.map_some]
  refine ⟨_, rfl, ?_⟩
  simp only
  have s := h.sin h0
  have c := h.cos
  obtain ⟨u1, u2⟩ := u32_mod h.quo
  obtain ⟨q0, q1, q2, q3⟩ := quarters K r
  rw [h.eq]
  generalize u32 k = q at *
  rcases (by omega : K % 4 = 0 ∨ K % 4 = 1 ∨ K % 4 = 2 ∨ K % 4 = 3) with hK | hK | hK | hK
  · rw [(q0 hK).1, if_neg (show ¬ q % 2 = 1 by omega), if_neg (show ¬ q / 2 % 2 = 1 by omega)]; exact s
  · rw [(q1 hK).1, if_pos (show q % 2 = 1 by omega), if_neg (show ¬ q / 2 % 2 = 1 by omega)]; exact c
  · rw [(q2 hK).1, if_neg (show ¬ q % 2 = 1 by omega), if_pos (show q / 2 % 2 = 1 by omega)]; exact s.opp
  · rw [(q3 hK).1, if_pos (show q % 2 = 1 by omega), if_pos (show q / 2 % 2 = 1 by omega)]; exact c.opp

theorem cosCore_rel {x : Nat} (hx : Fin b32 x) (h0 : R b32 x ≠ 0) : ∃ z, cosCore x = some z ∧ Rel z (Real.cos (R b32 x)) (85 / 100 / 2 ^ 26) := by
  obtain ⟨k, y, K, r, e, h⟩ := remPio2_reduced hx
  unfold cosCore
  rw [e, Option.map_some]
  refine ⟨_, rfl, ?_⟩
  simp only
  have s := h.sin h0
  have c := h.cos
  obtain ⟨u1, u2⟩ := u32_mod h.quo
  obtain ⟨q0, q1, q2, q3⟩ := quarters K r
  rw [h.eq]
  generalize u32 k = q at *
  rcases (by omega : K % 4 = 0 ∨ K % 4 = 1 ∨ K % 4 = 2 ∨ K % 4 = 3) with hK | hK | hK | hK
  · rw [(q0 hK).2, if_neg (show ¬ q % 2 = 1 by omega), if_neg (show ¬ (q + 1) / 2 % 2 = 1 by omega)]; exact c
  · rw [(q1 hK).2, if_pos (show q % 2 = 1 by omega), if_pos (show (q + 1) / 2 % 2 = 1 by omega)]; exact s.opp
  · rw [(q2 hK).2, if_neg (show ¬ q % 2 = 1 by omega), if_pos (show (q + 1) / 2 % 2 = 1 by omega)]; exact c.opp
  · rw [(q3 hK).2, if_pos (show q % 2 = 1 by omega), if_neg (show ¬ (q + 1) / 2 % 2 = 1 by omega)]; exact s

end Verif.Approx
