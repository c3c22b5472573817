import Verif.Approx.HornerEv

/-! # Operations whose results have few digits are exact -/

namespace Verif.Approx
open Verif.Float Verif.Approx.Spec
open Verif.Math.Spec (Pat)

variable {F : Fmt}

theorem few_pat (g : Big F) {z k : Nat} (hz : z ≤ 2 ^ (F.f + 1)) (hk : k ≤ F.unit) (hb : z ≤ 2 ^ 64 * 2 ^ k) :
    ∃ n, n < F.inf ∧ F.mag n = z * 2 ^ (F.unit - k) := by
  obtain ⟨p, h1, h2⟩ := g.top
  have h2' : 2 ^ 64 * 2 ^ F.unit ≤ F.mag p := by exact_mod_cast h2
  have hlt := F.mag_strictMono h1
  have hle : z * 2 ^ (F.unit - k) ≤ 2 ^ 64 * 2 ^ F.unit := by
    calc z * 2 ^ (F.unit - k) ≤ 2 ^ 64 * 2 ^ k * 2 ^ (F.unit - k) := Nat.mul_le_mul_right _ hb
      _ = 2 ^ 64 * 2 ^ F.unit := by rw [Nat.mul_assoc, ← Nat.pow_add, Nat.add_sub_cancel' hk]
  obtain ⟨n, n1, n2⟩ := Fmt.representable (F := F) hz (e := F.unit - k) (by omega)
  refine ⟨n, ?_, n2⟩
  rw [← Fmt.mag_lt_iff (F := F), n2]
  omega

/-- A product with few digits is exact. -/
theorem mul_exactR (g : Big F) {x y k : Nat} {z : Int} (hx : Fin F x) (hy : Fin F y) (hv : R F x * R F y = z / 2 ^ k)
    (hz : z.natAbs ≤ 2 ^ (F.f + 1)) (hk : k ≤ F.unit) (hb : z.natAbs ≤ 2 ^ 64 * 2 ^ k) : Fin F (F.mul x y) ∧ R F (F.mul x y) = z / 2 ^ k := by
  obtain ⟨n, n1, n2⟩ := few_pat g hz hk hb
  have hU : (0 : ℝ) < 2 ^ F.unit := by positivity
  have hK : (0 : ℝ) < 2 ^ k := by positivity
  have hs : (2 : ℝ) ^ F.unit = 2 ^ k * 2 ^ (F.unit - k) := by rw [← pow_add, Nat.add_sub_cancel' hk]
  have hm : F.mag (F.abs x) * F.mag (F.abs y) = 2 ^ F.unit * F.mag n := by
    have h := congrArg abs hv
    rw [abs_mul, abs_R, abs_R, abs_div, abs_of_pos hK, ← Int.cast_abs, ← Nat.cast_natAbs] at h
    have : (F.mag (F.abs x) * F.mag (F.abs y) : ℝ) = 2 ^ F.unit * F.mag n := by
      rw [n2]
      push_cast
      have h : (F.mag (F.abs x) * F.mag (F.abs y) : ℝ) * 2 ^ k = z.natAbs * (2 ^ F.unit * 2 ^ F.unit) := by
        rw [div_mul_div_comm, div_eq_div_iff (by positivity) hK.ne'] at h
        exact h
      refine mul_left_cancel₀ hK.ne' ?_
      calc (2 : ℝ) ^ k * (F.mag (F.abs x) * F.mag (F.abs y)) = F.mag (F.abs x) * F.mag (F.abs y) * 2 ^ k := by ring
        _ = 2 ^ F.unit * 2 ^ F.unit * z.natAbs := by rw [h]; ring
        _ = 2 ^ k * (2 ^ F.unit * (z.natAbs * 2 ^ (F.unit - k))) := by
          conv_lhs => rw [hs]
          conv_rhs => rw [hs]
          ring
    exact_mod_cast this
  rw [Fmt.mul_fin hx hy, rnd_exact (Nat.two_pow_pos _) (Nat.le_of_lt n1) hm]
  refine ⟨fin_pack n1, ?_⟩
  rw [← hv, R_pack (Nat.le_of_lt n1), sgn_xor]
  conv_rhs => rw [R_signed x, R_signed y]
  have hm' : (F.mag (F.abs x) * F.mag (F.abs y) : ℝ) = 2 ^ F.unit * F.mag n := by exact_mod_cast hm
  have e : (F.mag n : ℝ) / 2 ^ F.unit = F.mag (F.abs x) / 2 ^ F.unit * (F.mag (F.abs y) / 2 ^ F.unit) := by
    rw [div_mul_div_comm, hm']; field_simp
  rw [mul_div_assoc, e]
  ring

/-- A sum with few digits is exact. -/
theorem add_exactR' (g : Big F) {x y k : Nat} {z : Int} (hx : Fin F x) (hy : Fin F y) (hv : R F x + R F y = z / 2 ^ k)
    (hz : z.natAbs ≤ 2 ^ (F.f + 1)) (hk : k ≤ F.unit) (hb : z.natAbs ≤ 2 ^ 64 * 2 ^ k) : Fin F (F.add x y) ∧ R F (F.add x y) = z / 2 ^ k := by
  obtain ⟨n, n1, n2⟩ := few_pat g hz hk hb
  have hU : (0 : ℝ) < 2 ^ F.unit := by positivity
  have hK : (0 : ℝ) < 2 ^ k := by positivity
  have hs : (2 : ℝ) ^ F.unit = 2 ^ k * 2 ^ (F.unit - k) := by rw [← pow_add, Nat.add_sub_cancel' hk]
  have e : F.val x + F.val y = z * 2 ^ (F.unit - k) := by
    have h : (F.val x + F.val y : ℝ) / 2 ^ F.unit = z / 2 ^ k := by rw [← hv]; unfold R; ring
    rw [div_eq_div_iff hU.ne' hK.ne', hs] at h
    have : (F.val x + F.val y : ℝ) = z * 2 ^ (F.unit - k) := by
      refine mul_right_cancel₀ hK.ne' ?_
      rw [h]; ring
    exact_mod_cast this
  have k2 : F.mag n = (F.val x + F.val y).natAbs := by
    rw [n2, e, Int.natAbs_mul, Int.natAbs_pow]; rfl
  rw [Fmt.add_exact hx hy (Nat.le_of_lt n1) k2, R_pack_int (Nat.le_of_lt n1) k2]
  refine ⟨fin_pack n1, ?_⟩
  rw [← hv]
  unfold R; push_cast; ring

theorem sub_exactR (g : Big F) {x y k : Nat} {z : Int} (hx : Fin F x) (hy : Fin F y) (hv : R F x - R F y = z / 2 ^ k)
    (hz : z.natAbs ≤ 2 ^ (F.f + 1)) (hk : k ≤ F.unit) (hb : z.natAbs ≤ 2 ^ 64 * 2 ^ k) : Fin F (F.sub x y) ∧ R F (F.sub x y) = z / 2 ^ k :=
  add_exactR' g hx (fin_opp hy) (by rw [R_opp, ← sub_eq_add_neg]; exact hv) hz hk hb

end Verif.Approx
