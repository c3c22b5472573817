import Verif.Approx.Lattice
import Verif.Approx.ExactOps

/-! # Reduction of an argument of moderate size to a quarter of a turn -/

namespace Verif.Approx
open Verif.Float Verif.Approx.Spec
open Verif.Math.Spec (Pat)

theorem pi_le {A E N M : Nat} (h : (A : ℝ) ≤ 2 / Real.pi * 2 ^ E) (hA : 0 < A) (hc : N * 2 ^ E ≤ M * A) : Real.pi / 2 * N ≤ M := by
  have hpi := Real.pi_pos
  have hA' : (0 : ℝ) < A := by exact_mod_cast hA
  have hc' : (N : ℝ) * 2 ^ E ≤ M * A := by exact_mod_cast hc
  have h1 : Real.pi / 2 * A ≤ 2 ^ E := by
    calc Real.pi / 2 * A ≤ Real.pi / 2 * (2 / Real.pi * 2 ^ E) := mul_le_mul_of_nonneg_left h (by positivity)
      _ = 2 ^ E := by field_simp
  refine le_of_mul_le_mul_right (a := (A : ℝ)) ?_ hA'
  calc Real.pi / 2 * N * A = N * (Real.pi / 2 * A) := by ring
    _ ≤ N * 2 ^ E := mul_le_mul_of_nonneg_left h1 (Nat.cast_nonneg N)
    _ ≤ _ := hc'

theorem le_pi {A E N M : Nat} (h : 2 / Real.pi * 2 ^ E ≤ A + 1) (hc : M * (A + 1) ≤ N * 2 ^ E) : M ≤ Real.pi / 2 * N := by
  have hpi := Real.pi_pos
  have hA' : (0 : ℝ) < A + 1 := by have := Nat.cast_nonneg (α := ℝ) A; linarith
  have hc' : (M : ℝ) * (A + 1) ≤ N * 2 ^ E := by exact_mod_cast hc
  have h1 : (2 : ℝ) ^ E ≤ Real.pi / 2 * (A + 1) := by
    calc (2 : ℝ) ^ E = Real.pi / 2 * (2 / Real.pi * 2 ^ E) := by field_simp
      _ ≤ _ := mul_le_mul_of_nonneg_left h (by positivity)
  refine le_of_mul_le_mul_right (a := (A : ℝ) + 1) ?_ hA'
  calc (M : ℝ) * (A + 1) ≤ N * 2 ^ E := hc'
    _ ≤ N * (Real.pi / 2 * (A + 1)) := mul_le_mul_of_nonneg_left h1 (Nat.cast_nonneg N)
    _ = _ := by ring

theorem pi2hi_R : Fin b64 pi2hi ∧ R b64 pi2hi = 26353589 / 2 ^ 24 := by
  have h := lit_pos (x := pi2hi) (E := 1023) (m := 26353589 * 2 ^ 28) (k := 52) (by decide) (by decide) (by decide) (by decide)
  exact ⟨h.1, by rw [h.2]; norm_num⟩

theorem pi2lo_R : Fin b64 pi2lo ∧ R b64 pi2lo = 4803441513357923 / 2 ^ 78 :=
  lit_pos (x := pi2lo) (E := 997) (m := 4803441513357923) (k := 78) (by decide) (by decide) (by decide) (by decide)

/-- The two parts of π/2 -/
theorem pi_parts : |Real.pi / 2 - 26353589 / 2 ^ 24 - 4803441513357923 / 2 ^ 78| ≤ 193 / 1000 / 2 ^ 78 := by
  have a := pi_le (N := 2 ^ 78 * 1000) (M := (26353589 * 2 ^ 54 + 4803441513357923) * 1000 + 193) two_div_pi.1 (by decide) (by decide +kernel)
  have b := le_pi (N := 2 ^ 78 * 1000) (M := (26353589 * 2 ^ 54 + 4803441513357923) * 1000 - 193) two_div_pi.2 (by decide +kernel)
  norm_num at a b ⊢
  rw [abs_le]
  constructor <;> linarith

theorem pi_half_bounds : 1.5707963 ≤ Real.pi / 2 ∧ Real.pi / 2 ≤ 1.5707964 := by
  have a := Real.pi_gt_d20
  have b := Real.pi_lt_d20
  constructor <;> norm_num at a b ⊢ <;> linarith

theorem pi_half_lt : 26353589 / 2 ^ 24 < Real.pi / 2 ∧ Real.pi / 2 - 26353589 / 2 ^ 24 ≤ 1.0667 / 2 ^ 26 := by
  have a := Real.pi_gt_d20
  have b := Real.pi_lt_d20
  constructor <;> norm_num at a b ⊢ <;> linarith

/-- A `float` not below 1/2 is a multiple of 2^-24. -/
theorem float_parts {x : Nat} (hx : Fin b32 x) (h : 1 / 2 ≤ |R b32 x|) :
    0x3F000000 ≤ b32.abs x ∧ |R b32 x| = ((b32.abs x % 2 ^ 23 + 2 ^ 23 : Nat) : ℝ) * (2 ^ (b32.abs x / 2 ^ 23 - 126) / 2 ^ 24) := by
  obtain ⟨a1, a2⟩ := fabs_R hx
  have hge : 0x3F000000 ≤ b32.abs x := by
    by_contra hc
    have hc' : b32.abs x < 0x3F000000 := by omega
    have m1 : b32.mag (b32.abs x) < b32.mag 0x3F000000 := b32.mag_strictMono hc'
    rw [show b32.mag 0x3F000000 = 2 ^ 148 by decide +kernel] at m1
    rw [abs_R, show b32.unit = 149 from rfl, le_div_iff₀ (by positivity)] at h
    have m1' : (b32.mag (b32.abs x) : ℝ) < 2 ^ 148 := by exact_mod_cast m1
    norm_num at h m1'
    linarith
  refine ⟨hge, ?_⟩
  rw [abs_R, b32.mag_normal (show 2 ^ b32.f ≤ _ by rw [show b32.f = 23 from rfl]; omega), show b32.f = 23 from rfl, show b32.unit = 149 from rfl]
  generalize b32.abs x = n at *
  have hE : n / 2 ^ 23 - 1 = n / 2 ^ 23 - 126 + 125 := by omega
  rw [hE]
  push_cast
  rw [pow_add]
  norm_num
  ring

/-- The remainder `r` of `X` by π/2 is known as the double `y`, and the quotient modulo 4 as `k`. -/
structure Reduced (X : ℝ) (k : Int) (y : Nat) (K : Int) (r : ℝ) : Prop where
  fin : Fin b64 y
  eq : X = K * (Real.pi / 2) + r
  quo : k % 4 = K % 4
  rel : |R b64 y - r| ≤ 83 / 100 / 2 ^ 26 * |r|
  abs : |R b64 y - r| ≤ 1 / 2 ^ 48
  le : |r| ≤ 0.786
  ge : X ≠ 0 → 1 / 2 ^ 150 ≤ |r|
  far : K ≠ 0 → 1 / 2 ^ 53 ≤ |r|

theorem two_pi_bounds : 0.6366197 ≤ 2 / Real.pi ∧ 2 / Real.pi ≤ 0.6366198 := by
  have hpi := Real.pi_pos
  have a := Real.pi_gt_d20
  have b := Real.pi_lt_d20
  rw [le_div_iff₀ hpi, div_le_iff₀ hpi]
  constructor <;> norm_num at a b ⊢ <;> linarith

theorem twoPi_R : Fin b64 twoPi ∧ |R b64 twoPi - 2 / Real.pi| ≤ 1 / 2 ^ 53 := by
  have h := lit_pos (x := twoPi) (E := 1022) (m := 5734161139222659) (k := 53) (by decide) (by decide) (by decide) (by decide)
  refine ⟨h.1, ?_⟩
  have hpi := Real.pi_pos
  have a := Real.pi_gt_d20
  have b := Real.pi_lt_d20
  rw [h.2, abs_le]
  constructor
  · rw [neg_le_sub_iff_le_add, div_le_iff₀ hpi]
    norm_num at a b ⊢; linarith
  · rw [sub_le_comm, le_div_iff₀ hpi]
    norm_num at a b ⊢; linarith

/-- The quotient. -/
theorem small_quotient {x : Nat} (hx : Fin b32 x) (hb : |R b32 x| ≤ 421657440) :
    ∃ n : Int, Fin b64 (b64.add (b64.rint (b64.mul twoPi (wide x))) 0) ∧ R b64 (b64.add (b64.rint (b64.mul twoPi (wide x))) 0) = n ∧
      |R b32 x * (2 / Real.pi) - n| ≤ 1 / 2 + 1 / 2 ^ 20 ∧ n.natAbs ≤ 268435464 := by
  obtain ⟨w1, w2, -, -⟩ := wideR hx
  obtain ⟨t1, t2⟩ := twoPi_R
  have q := two_pi_bounds
  have A := (⟨t1, t2⟩ : Ap twoPi (2 / Real.pi) (1 / 2 ^ 53)).mul (Ap.exact w1) (V := 1) (W := 421657440) (abs_le.2 ⟨by linarith [q.1], by linarith [q.2]⟩) (by rw [w2]; exact hb) (by norm_num)
  rw [w2] at A
  have hprod : |2 / Real.pi * R b32 x| ≤ 268435900 := by
    rw [abs_mul, abs_of_nonneg (by linarith [q.1])]
    calc 2 / Real.pi * |R b32 x| ≤ 0.6366198 * 421657440 := mul_le_mul q.2 hb (abs_nonneg _) (by norm_num)
      _ ≤ _ := by norm_num
  have A' := A.mono (d := 1 / 2 ^ 20) (by norm_num)
  have hA := A'.abs_le hprod
  obtain ⟨n, r1, r2, r3, r4⟩ := rint_R big64 A'.fin (hA.trans (by norm_num))
  have e1 := abs_le.1 A'.err
  have e2 := abs_le.1 r3
  have hq : |R b32 x * (2 / Real.pi) - n| ≤ 1 / 2 + 1 / 2 ^ 20 := by
    rw [abs_le]
    constructor <;> linarith
  have hn : n.natAbs ≤ 268435464 := by
    have h1 := abs_le.1 hq
    have h2 : |2 / Real.pi * R b32 x| ≤ 268435463.6 := by
      rw [abs_mul, abs_of_nonneg (by linarith [q.1])]
      have q' : 2 / Real.pi ≤ 0.6366197723676 := by
        rw [div_le_iff₀ Real.pi_pos]
        have := Real.pi_gt_d20
        norm_num at this ⊢; linarith
      calc 2 / Real.pi * |R b32 x| ≤ 0.6366197723676 * 421657440 := mul_le_mul q' hb (abs_nonneg _) (by norm_num)
        _ ≤ _ := by norm_num
    have h3 := abs_le.1 h2
    have : |(n : ℝ)| < 268435465 := by
      rw [abs_lt]
      constructor <;> norm_num at h1 h3 ⊢ <;> linarith
    have h4 : ((n.natAbs : Nat) : ℝ) < 268435465 := by rw [Nat.cast_natAbs, Int.cast_abs]; exact this
    have : n.natAbs < 268435465 := by exact_mod_cast h4
    omega
  have z0 : Fin b64 0 := by show b64.abs 0 < b64.inf; decide
  have zR : R b64 0 = 0 := by unfold R; rw [show b64.val 0 = 0 by decide +kernel]; simp
  have f := add_exactR' big64 (x := b64.rint (b64.mul twoPi (wide x))) (y := 0) (z := n) (k := 0) r1 z0 (by rw [r2, zR]; simp)
    (by rw [show b64.f = 52 from rfl]; omega) (by omega) (by omega)
  exact ⟨n, f.1, by rw [f.2]; simp, hq, hn⟩

/-- The distance of a `float` from the multiples of π/2. -/
theorem float_lattice {x : Nat} (hx : Fin b32 x) (h : 1 / 2 ≤ |R b32 x|) (n : Int) :
    ∃ d : Int, needed (b32.abs x / 2 ^ 23 - 126) d = true ∧ (d : ℝ) * (Real.pi / 2) ≤ |R b32 x - n * (Real.pi / 2)| * 2 ^ 64 := by
  obtain ⟨h1, h2⟩ := float_parts hx h
  have hE : b32.abs x / 2 ^ 23 - 126 < 129 := by
    have : b32.abs x < 0x7F800000 := hx
    omega
  obtain ⟨d, d1, d2⟩ := lattice hE
  refine ⟨d, d1, ?_⟩
  have hpi := Real.pi_pos
  have key : ∀ n : Int, (d : ℝ) * (Real.pi / 2) ≤ |(|R b32 x|) - n * (Real.pi / 2)| * 2 ^ 64 := by
    intro n
    have := d2 ((b32.abs x % 2 ^ 23 + 2 ^ 23 : Nat) : Int) n (by omega) (by omega)
    calc (d : ℝ) * (Real.pi / 2) ≤ _ := mul_le_mul_of_nonneg_right this (by positivity)
      _ = |(|R b32 x|) - n * (Real.pi / 2)| * 2 ^ 64 := by
        rw [show |R b32 x| - n * (Real.pi / 2) = (((b32.abs x % 2 ^ 23 + 2 ^ 23 : Nat) : Int) * (2 ^ (b32.abs x / 2 ^ 23 - 126) * (2 / Real.pi) / 2 ^ 24) - n) * (Real.pi / 2) by
          rw [h2, Int.cast_natCast]; field_simp]
        rw [abs_mul, abs_of_pos (show 0 < Real.pi / 2 by positivity), mul_right_comm]
  rcases abs_cases (R b32 x) with ⟨e, -⟩ | ⟨e, -⟩
  · have := key n
    rwa [e] at this
  · have := key (-n)
    rw [e] at this
    push_cast at this
    rwa [show -R b32 x - -(n : ℝ) * (Real.pi / 2) = -(R b32 x - n * (Real.pi / 2)) by ring, abs_neg] at this

/-- The path for moderate arguments. -/
theorem remPio2_small {x : Nat} (hx : Fin b32 x) (h : b32.abs x < 0x4DC90FDB) :
    ∃ k y K r, remPio2 x = some (k, y) ∧ Reduced (R b32 x) k y K r := by
  obtain ⟨a1, a2⟩ := fabs_R hx
  have hb : |R b32 x| ≤ 421657440 := by
    have := R32_mono (Nat.le_of_lt h) (by decide)
    rw [a2] at this
    refine this.trans ?_
    have l := (lit32 (x := 0x4DC90FDB) (m := 421657440) (k := 0) (s := false) (by decide) (by decide) (by decide +kernel)).2
    rw [l]; simp
  obtain ⟨w1, w2, -, -⟩ := wideR hx
  obtain ⟨n, q1, q2, q3, q4⟩ := small_quotient hx hb
  unfold remPio2
  rw [if_pos h]
  generalize b64.add (b64.rint (b64.mul twoPi (wide x))) 0 = q at *
  have hn1 : -268435464 ≤ n ∧ n ≤ 268435464 := by omega
  show ∃ k y K r, ((toInt64 b64 q).bind fun k => Option.map (fun k => (k, b64.sub (b64.sub (wide x) (b64.mul q pi2hi)) (b64.mul q pi2lo))) (chk32 k)) = some (k, y) ∧ Reduced (R b32 x) k y K r
  rw [toInt_R q1 q2 (by omega), Option.bind_some, show chk32 n = some n from if_pos (by unfold IsI32; omega), Option.map_some]
  have pb := pi_half_bounds
  have hpi := Real.pi_pos
  have hr : |R b32 x - n * (Real.pi / 2)| ≤ 0.786 := by
    rw [show R b32 x - n * (Real.pi / 2) = (R b32 x * (2 / Real.pi) - n) * (Real.pi / 2) by field_simp, abs_mul, abs_of_pos (show 0 < Real.pi / 2 by positivity)]
    calc _ ≤ (1 / 2 + 1 / 2 ^ 20) * 1.5707964 := mul_le_mul q3 pb.2 (by positivity) (by norm_num)
      _ ≤ _ := by norm_num
  refine ⟨_, _, n, R b32 x - n * (Real.pi / 2), rfl, ?_⟩
  obtain ⟨H1, H2⟩ := pi2hi_R
  obtain ⟨L1, L2⟩ := pi2lo_R
  by_cases hn0 : n = 0
  · subst hn0
    rw [Int.cast_zero] at q2 q3 hr ⊢
    rw [zero_mul, sub_zero] at hr ⊢
    obtain ⟨m1, m2⟩ := mul_exactR big64 (z := 0) (k := 0) q1 H1 (by rw [q2]; simp) (by simp) (by omega) (by simp)
    obtain ⟨l1, l2⟩ := mul_exactR big64 (z := 0) (k := 0) q1 L1 (by rw [q2]; simp) (by simp) (by omega) (by simp)
    simp at m2 l2
    obtain ⟨s1, s2⟩ := sub_err ok64 big64.top w1 m1 (by rw [w2, m2, sub_zero]; exact hr.trans (by norm_num))
    rw [w2, m2, sub_zero, eps64] at s2
    have s3 := abs_le.1 s2
    have hs : |R b64 (b64.sub (wide x) (b64.mul q pi2hi))| ≤ (1 + 1 / 2 ^ 53) * |R b32 x| := by
      have := abs_sub_abs_le_abs_sub (R b64 (b64.sub (wide x) (b64.mul q pi2hi))) (R b32 x)
      linarith
    obtain ⟨u1, u2⟩ := sub_err ok64 big64.top s1 l1 (by rw [l2, sub_zero]; refine hs.trans ?_; norm_num at hr ⊢; linarith)
    rw [l2, sub_zero, eps64] at u2
    have e : |R b64 (b64.sub (b64.sub (wide x) (b64.mul q pi2hi)) (b64.mul q pi2lo)) - R b32 x| ≤ 3 / 2 ^ 53 * |R b32 x| := by
      refine (abs_sub_le _ (R b64 (b64.sub (wide x) (b64.mul q pi2hi))) _).trans ?_
      have := mul_le_mul_of_nonneg_left hs (show (0 : ℝ) ≤ 1 / 2 ^ 53 by norm_num)
      have := abs_nonneg (R b32 x)
      norm_num at *
      linarith
    refine ⟨u1, by simp, rfl, e.trans (mul_le_mul_of_nonneg_right (by norm_num) (abs_nonneg _)), e.trans ?_, hr, fun h0 => R32_zero_or.resolve_left h0, fun h0 => absurd rfl h0⟩
    norm_num at hr ⊢
    linarith
  · have hN1 : (1 : ℝ) ≤ |(n : ℝ)| := by
      rw [← Int.cast_abs]
      exact_mod_cast Int.one_le_abs hn0
    have hX : 1 / 2 ≤ |R b32 x| := by
      have tp := two_pi_bounds
      have h1 := abs_sub_abs_le_abs_sub (n : ℝ) (R b32 x * (2 / Real.pi))
      rw [abs_sub_comm, abs_mul, abs_of_pos (show 0 < 2 / Real.pi by positivity)] at h1
      have h2 : |R b32 x| * (2 / Real.pi) ≤ |R b32 x| * 0.6366198 := mul_le_mul_of_nonneg_left tp.2 (abs_nonneg _)
      norm_num at *
      linarith
    obtain ⟨P1, P2⟩ := float_parts hx hX
    obtain ⟨d, d1, d2⟩ := float_lattice hx hX n
    have hsgn := R_sign (F := b32) x
    generalize hj : b32.abs x / 2 ^ 23 - 126 = j at P2 d1
    generalize hm : b32.abs x % 2 ^ 23 + 2 ^ 23 = m at P2
    have hj29 : j ≤ 29 := by omega
    have hm24 : m < 2 ^ 24 := by omega
    simp only [needed, Bool.and_eq_true, Bool.or_eq_true, decide_eq_true_eq] at d1
    have d1' : 2283 * (6367 * 2 ^ j + 10000) ≤ 10000 * d := by
      rcases d1.1 with h | h
      · omega
      · exact h
    have d1r : (2283 : ℝ) * (6367 * 2 ^ j + 10000) ≤ 10000 * d := by exact_mod_cast d1'
    obtain ⟨σ, hσ⟩ : ∃ σ : Int, R b32 x = ((σ * (m * 2 ^ j) : Int) : ℝ) / 2 ^ 24 := by
      refine ⟨if b32.neg x then -1 else 1, ?_⟩
      rw [hsgn, P2]
      push_cast
      split <;> simp <;> ring
    -- the product of the quotient and the upper part
    obtain ⟨m1, m2⟩ := mul_exactR big64 (z := n * 26353589) (k := 24) q1 H1 (by rw [q2, H2]; push_cast; ring)
      (by rw [show b64.f = 52 from rfl]; omega) (by decide) (by omega)
    have pd := pi_half_lt
    have hN2 : |(n : ℝ)| ≤ 268435464 := by rw [abs_le]; exact ⟨by exact_mod_cast hn1.1, by exact_mod_cast hn1.2⟩
    have hD : R b32 x - n * (26353589 / 2 ^ 24) = (R b32 x - n * (Real.pi / 2)) + n * (Real.pi / 2 - 26353589 / 2 ^ 24) := by ring
    have hDb : |R b32 x - n * (26353589 / 2 ^ 24)| ≤ 8 := by
      rw [hD]
      refine (abs_add_le _ _).trans ?_
      rw [abs_mul, abs_of_nonneg (show 0 ≤ Real.pi / 2 - 26353589 / 2 ^ 24 by linarith [pd.1])]
      have := mul_le_mul hN2 pd.2 (by linarith [pd.1]) (by norm_num)
      norm_num at *
      linarith
    have hDz : R b32 x - n * (26353589 / 2 ^ 24) = ((σ * (m * 2 ^ j) - n * 26353589 : Int) : ℝ) / 2 ^ 24 := by
      rw [hσ]; push_cast; ring
    have hzb : (σ * (m * 2 ^ j) - n * 26353589).natAbs ≤ 2 ^ 27 := by
      rw [hDz, abs_div, abs_of_pos (show (0 : ℝ) < 2 ^ 24 by positivity), div_le_iff₀ (by positivity), ← Int.cast_abs] at hDb
      have : ((|σ * (m * 2 ^ j) - n * 26353589| : Int) : ℝ) ≤ ((2 ^ 27 : Int) : ℝ) := by push_cast at *; norm_num at *; linarith
      have : |σ * (m * 2 ^ j) - n * 26353589| ≤ 2 ^ 27 := by exact_mod_cast this
      rw [Int.abs_eq_natAbs] at this
      exact_mod_cast this
    obtain ⟨s1, s2⟩ := sub_exactR big64 (z := σ * (m * 2 ^ j) - n * 26353589) (k := 24) w1 m1
      (by rw [w2, m2, ← hDz]; push_cast; ring) (by rw [show b64.f = 52 from rfl]; omega) (by decide) (by omega)
    rw [← hDz] at s2
    generalize b64.sub (wide x) (b64.mul q pi2hi) = D at *
    -- the product of the quotient and the lower part
    have hlo : |R b64 q * R b64 pi2lo| = |(n : ℝ)| * (4803441513357923 / 2 ^ 78) := by
      rw [q2, L2, abs_mul, abs_of_pos (show (0 : ℝ) < 4803441513357923 / 2 ^ 78 by norm_num)]
    obtain ⟨l1, l2⟩ := mul_err big64.top q1 L1 (by rw [hlo]; norm_num at *; linarith)
    rw [hlo, q2, L2, eps64] at l2
    have l2 := l2.trans (add_le_add le_rfl eta64)
    generalize b64.mul q pi2lo = w at *
    generalize hr' : R b32 x - n * (Real.pi / 2) = r at *
    have pp := pi_parts
    have ht : |R b64 D - R b64 w - r| ≤ |(n : ℝ)| * (1.4529 / 2 ^ 79) := by
      have e : R b64 D - R b64 w - r = n * (Real.pi / 2 - 26353589 / 2 ^ 24 - 4803441513357923 / 2 ^ 78) + -(R b64 w - n * (4803441513357923 / 2 ^ 78)) := by
        rw [s2, ← hr']; ring
      rw [e]
      refine (abs_add_le _ _).trans ?_
      rw [abs_neg, abs_mul]
      have h1 := mul_le_mul_of_nonneg_left pp (abs_nonneg (n : ℝ))
      have h2 : |(n : ℝ)| * (193 / 1000 / 2 ^ 78) + (1 / 2 ^ 53 * (|(n : ℝ)| * (4803441513357923 / 2 ^ 78)) + 1 / 2 ^ 250) ≤ |(n : ℝ)| * (1.4529 / 2 ^ 79) := by
        norm_num at hN1 ⊢; linarith
      linarith
    have hrN : 2283 * |(n : ℝ)| * (Real.pi / 2) ≤ |r| * 2 ^ 64 := by
      refine le_trans ?_ d2
      refine mul_le_mul_of_nonneg_right ?_ (by positivity)
      have hXj : |R b32 x| ≤ 2 ^ j := by
        rw [P2, ← mul_div_assoc, div_le_iff₀ (by positivity), mul_comm]
        have : (m : ℝ) ≤ 2 ^ 24 := by exact_mod_cast hm24.le
        exact mul_le_mul_of_nonneg_left this (by positivity)
      have tp := two_pi_bounds
      have h1 := abs_sub_abs_le_abs_sub (n : ℝ) (R b32 x * (2 / Real.pi))
      rw [abs_sub_comm, abs_mul, abs_of_pos (show 0 < 2 / Real.pi by positivity)] at h1
      have h2 : |R b32 x| * (2 / Real.pi) ≤ 2 ^ j * 0.6366198 := mul_le_mul hXj tp.2 (by positivity) (by positivity)
      have : (0 : ℝ) ≤ 2 ^ j := by positivity
      norm_num at q3 d1r h2 ⊢
      linarith
    have hrN' : |(n : ℝ)| ≤ |r| * (2 ^ 64 / (2283 * 1.5707963)) := by
      have := mul_le_mul_of_nonneg_left pb.1 (show 0 ≤ 2283 * |(n : ℝ)| by positivity)
      norm_num at this hrN ⊢
      linarith
    have hDw : |R b64 D - R b64 w| ≤ |r| + |(n : ℝ)| * (1.4529 / 2 ^ 79) := by
      have := abs_sub_abs_le_abs_sub (R b64 D - R b64 w) r
      linarith
    have hr2 : |r| ≤ 0.786 := hr
    obtain ⟨y1, y2⟩ := sub_err ok64 big64.top s1 l1 (hDw.trans (by norm_num at *; linarith))
    rw [eps64] at y2
    have hfin : |R b64 (b64.sub D w) - r| ≤ |(n : ℝ)| * (1.453 / 2 ^ 79) + |r| / 2 ^ 53 := by
      refine (abs_sub_le _ (R b64 D - R b64 w) _).trans ?_
      have := mul_le_mul_of_nonneg_left hDw (show (0 : ℝ) ≤ 1 / 2 ^ 53 by norm_num)
      norm_num at *
      linarith
    have hr0 := abs_nonneg r
    refine ⟨y1, by rw [← hr']; ring, rfl, hfin.trans ?_, hfin.trans ?_, hr2, fun _ => ?_, fun _ => ?_⟩
    · norm_num at hrN' ⊢; linarith
    · norm_num at hN2 hr2 ⊢; linarith
    · norm_num at hrN' hN1 ⊢; linarith
    · norm_num at hrN' hN1 ⊢; linarith

end Verif.Approx
