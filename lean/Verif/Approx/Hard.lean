import Verif.Approx.Horner

/-! # Constants of type `float` and single roundings -/

namespace Verif.Approx
open Verif.Float Verif.Approx.Spec
open Verif.Math.Spec (Pat)

theorem lit32 {x m k : Nat} {s : Bool} (h : x = b32.pack s (b32.abs x)) (hf : b32.abs x < b32.inf) (hm : b32.mag (b32.abs x) * 2 ^ k = m * 2 ^ b32.unit) :
    Fin b32 x ∧ R b32 x = (if s then -1 else 1) * ((m : ℝ) / 2 ^ k) := by
  refine ⟨hf, ?_⟩
  have e : R b32 x = R b32 (b32.pack s (b32.abs x)) := congrArg _ h
  rw [e, R_pack (Nat.le_of_lt hf)]
  have hm' : (b32.mag (b32.abs x) : ℝ) * 2 ^ k = m * 2 ^ b32.unit := by exact_mod_cast hm
  have h1 : (2 : ℝ) ^ k ≠ 0 := by positivity
  have h2 : (2 : ℝ) ^ b32.unit ≠ 0 := by positivity
  rw [mul_div_assoc]
  congr 1
  rw [div_eq_div_iff h2 h1, hm']

/-- Correct rounding of a number strictly between two midpoints, in units of `2^-k`. -/
theorem rounded_mid {r a b k : Nat} {v : ℝ} (hr : r < b32.inf) (hr0 : 0 < r) (ha : (b32.mag (r - 1) + b32.mag r) * 2 ^ k = a * 2 ^ b32.unit)
    (hb : (b32.mag r + b32.mag (r + 1)) * 2 ^ k = b * 2 ^ b32.unit) (h1 : (a : ℝ) / 2 ^ k < 2 * v) (h2 : 2 * v < b / 2 ^ k) : Rounded b32 v r := by
  have ha' : ((b32.mag (r - 1) : ℝ) + b32.mag r) * 2 ^ k = a * 2 ^ b32.unit := by exact_mod_cast ha
  have hb' : ((b32.mag r : ℝ) + b32.mag (r + 1)) * 2 ^ k = b * 2 ^ b32.unit := by exact_mod_cast hb
  have hk : (0 : ℝ) < 2 ^ k := by positivity
  have hu : (0 : ℝ) < 2 ^ b32.unit := by positivity
  have h0 : 0 < v := by
    have : (0 : ℝ) ≤ a / 2 ^ k := by positivity
    linarith
  have hs : r < b32.signBit := Nat.lt_trans hr Fmt.inf_lt
  rw [div_lt_iff₀ hk] at h1
  rw [lt_div_iff₀ hk] at h2
  have g1 : (b32.mag (r - 1) : ℝ) + b32.mag r < 2 * (v * 2 ^ b32.unit) := by
    have := mul_lt_mul_of_pos_right h1 hu
    rw [← ha'] at this
    nlinarith
  have g2 : 2 * (v * 2 ^ b32.unit) < (b32.mag r : ℝ) + b32.mag (r + 1) := by
    have := mul_lt_mul_of_pos_right h2 hu
    rw [← hb'] at this
    nlinarith
  refine ⟨by unfold Pat; omega, ?_, fun _ => by unfold Math.Spec.negative; omega, fun h => by linarith⟩
  rw [abs_of_pos h0, show Math.Spec.absOf b32 r = r from Nat.mod_eq_of_lt hs]
  exact Hyp.nearestReal_of_mid hr.le (fun _ => ⟨g2.le, fun e => absurd e g2.ne⟩) (fun _ => ⟨g1.le, fun e => absurd e g1.ne⟩)

/-- Adding zero. -/
theorem add_zeroR {F : Fmt} (o : F.Ok) {x : Nat} (hx : Fin F x) : Fin F (F.add x 0) ∧ R F (F.add x 0) = R F x ∧ Pat F (F.add x 0) := by
  have h0 : Fin F 0 := by unfold Fin; rw [show F.abs 0 = 0 from Nat.zero_mod _]; exact Fmt.inf_pos o
  have hv : F.val 0 = 0 := by unfold Fmt.val; rw [show F.abs 0 = 0 from Nat.zero_mod _, F.mag_zero]; simp
  have hk := Nat.le_of_lt hx
  have e : F.add x 0 = F.pack (if F.val x + F.val 0 = 0 then F.neg x && F.neg 0 else decide (F.val x + F.val 0 < 0)) (F.abs x) :=
    Fmt.add_exact hx h0 hk (by rw [hv, Int.add_zero, Fmt.natAbs_val])
  refine ⟨by rw [e]; exact fin_pack hx, ?_, by rw [e]; exact Math.pat_pack hk⟩
  rw [e, R_pack hk, hv, Int.add_zero, R_signed, mul_div_assoc]
  by_cases hz : F.val x = 0
  · have : F.mag (F.abs x) = 0 := by rw [← Fmt.natAbs_val, hz]; rfl
    rw [this]; simp
  · congr 1
    rw [if_neg hz]
    have : F.val x < 0 ↔ F.neg x = true := by
      have hm := Fmt.natAbs_val (F := F) x
      unfold Fmt.val at hz ⊢
      cases F.neg x <;> simp at hz ⊢ <;> omega
    cases e : F.neg x
    · rw [e] at this; simp [this]
    · rw [e] at this; simp [this]

theorem add_commR {F : Fmt} {x y : Nat} (hx : Fin F x) (hy : Fin F y) : F.add x y = F.add y x := by
  rw [Fmt.add_fin hx hy, Fmt.add_fin hy hx, Int.add_comm, Bool.and_comm]

end Verif.Approx
