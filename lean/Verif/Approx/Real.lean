import Verif.Math.Convert
import Verif.Arith.Model
import Verif.Hyp.Real
import Mathlib.Tactic.FieldSimp
import Mathlib.Tactic.NormNum

/-! # Errors of the floating-point operations, in real numbers -/

namespace Verif.Approx
open Verif.Float Verif.Hyp.Spec

variable {F : Fmt}

theorem dist_abs (a b : Nat) : (Float.dist a b : ℝ) = |(a : ℝ) - b| := by
  unfold Float.dist
  rcases Nat.le_total a b with h | h
  · rw [Nat.sub_eq_zero_of_le h, abs_of_nonpos (by have : (a : ℝ) ≤ b := by exact_mod_cast h
                                                   linarith)]
    push_cast [h]; ring
  · rw [Nat.sub_eq_zero_of_le h, abs_of_nonneg (by have : (b : ℝ) ≤ a := by exact_mod_cast h
                                                   linarith)]
    push_cast [h]; ring

theorem dist_div {num den : Nat} (hd : 0 < den) (m : Nat) : (Float.dist num (den * m) : ℝ) = den * |(num : ℝ) / den - m| := by
  have hd' : (0 : ℝ) < den := by exact_mod_cast hd
  rw [dist_abs, ← abs_of_pos hd', ← abs_mul, abs_of_pos hd']
  congr 1
  push_cast
  field_simp

/-- Rounding of a rational is rounding of a real. -/
theorem nearestReal_rnd (num : Nat) {den : Nat} (hd : 0 < den) : NearestReal F ((num : ℝ) / den) (F.rnd num den) := by
  have h := rnd_nearest (F := F) num den hd
  have hd' : (0 : ℝ) < den := by exact_mod_cast hd
  refine ⟨h.le, fun s hs => ?_, fun s hs hne he => h.even s hs hne ?_⟩
  · have := h.best s hs
    have t : (Float.dist num (den * F.mag (F.rnd num den)) : ℝ) ≤ Float.dist num (den * F.mag s) := by exact_mod_cast this
    rw [dist_div hd, dist_div hd] at t
    exact le_of_mul_le_mul_left t hd'
  · have t : (Float.dist num (den * F.mag (F.rnd num den)) : ℝ) = Float.dist num (den * F.mag s) := by rw [dist_div hd, dist_div hd, he]
    exact_mod_cast t

theorem ulp_le {n : Nat} (h : 2 ^ F.f ≤ n) : 2 ^ F.f * F.ulp n ≤ F.mag n := by
  rw [F.mag_normal h]
  unfold Fmt.ulp
  exact Nat.mul_le_mul_right _ (by omega)

/-- The rounding error is at most half a unit, or half of a unit in the last place. -/
theorem rnd_err {num den : Nat} (hd : 0 < den) (h : num < den * F.mag F.inf) :
    |((num : ℝ) / den) - F.mag (F.rnd num den)| ≤ (num : ℝ) / den / 2 ^ (F.f + 1) + (if den = 1 then 0 else 1 / 2) := by
  have hd' : (0 : ℝ) < den := by exact_mod_cast hd
  obtain ⟨h1, h2⟩ := floorPat_le (F := F) (num / den)
  generalize F.floorPat (num / den) = n at h1 h2
  have h1' : F.mag n * den ≤ num := (Nat.le_div_iff_mul_le hd).1 h1
  have h2' : num < F.mag (n + 1) * den := (Nat.div_lt_iff_lt_mul hd).1 h2
  have hn : n < F.inf := by
    by_contra hc
    have := F.mag_mono (Nat.le_of_not_lt hc)
    have := Nat.mul_le_mul_right den this
    rw [Nat.mul_comm _ den] at this
    omega
  have nr := nearestReal_rnd (F := F) num hd
  generalize F.rnd num den = r at nr
  have b1 := nr.best n (by omega)
  have b2 := nr.best (n + 1) (by omega)
  have e1 : (F.mag n : ℝ) ≤ num / den := by
    rw [le_div_iff₀ hd']; exact_mod_cast h1'
  have e2 : (num : ℝ) / den ≤ F.mag (n + 1) := by
    rw [div_le_iff₀ hd']; exact_mod_cast h2'.le
  have hs : (F.mag (n + 1) : ℝ) = F.mag n + F.ulp n := by rw [F.mag_succ]; push_cast; rfl
  have hv : (0 : ℝ) ≤ (num : ℝ) / den := by positivity
  by_cases hc : den = 1 ∧ n < 2 ^ F.f
  · obtain ⟨c1, c2⟩ := hc
    subst c1
    rw [F.mag_succ] at h2'
    unfold Fmt.ulp at h2'
    rw [Nat.div_eq_of_lt c2] at h2'
    have : F.mag n = num := by simp at h1' h2'; omega
    rw [this] at b1
    simp at b1
    simp only [Nat.cast_one, div_one, if_pos]
    rw [b1]; simp; positivity
  · rw [abs_of_nonneg (show 0 ≤ (num : ℝ) / den - F.mag n by linarith)] at b1
    rw [abs_of_nonpos (show (num : ℝ) / den - F.mag (n + 1) ≤ 0 by linarith), hs] at b2
    have hb : |((num : ℝ) / den) - F.mag r| ≤ F.ulp n / 2 := by linarith
    by_cases hf : n < 2 ^ F.f
    · have hden : den ≠ 1 := fun e => hc ⟨e, hf⟩
      rw [if_neg hden]
      have : F.ulp n = 1 := by unfold Fmt.ulp; rw [Nat.div_eq_of_lt hf]
      rw [this] at hb
      have : (0 : ℝ) ≤ (num : ℝ) / den / 2 ^ (F.f + 1) := by positivity
      rw [Nat.cast_one] at hb
      linarith
    · have hu := ulp_le (F := F) (Nat.le_of_not_lt hf)
      have hu' : (2 : ℝ) ^ F.f * F.ulp n ≤ F.mag n := by exact_mod_cast hu
      have hp : (0 : ℝ) < 2 ^ F.f := by positivity
      have : (F.ulp n : ℝ) / 2 ≤ (num : ℝ) / den / 2 ^ (F.f + 1) := by
        rw [pow_succ, le_div_iff₀ (by positivity)]
        linarith
      split <;> linarith

/-- The number that a pattern stands for. -/
noncomputable def R (F : Fmt) (x : Nat) : ℝ := (F.val x : ℝ) / 2 ^ F.unit

/-- A finite pattern. -/
def Fin (F : Fmt) (x : Nat) : Prop := F.abs x < F.inf

theorem R_pack {s : Bool} {r : Nat} (h : r ≤ F.inf) : R F (F.pack s r) = (if s then -1 else 1) * (F.mag r : ℝ) / 2 ^ F.unit := by
  unfold R
  rw [Fmt.val_pack (Nat.lt_of_le_of_lt h Fmt.inf_lt)]
  cases s <;> simp

theorem fin_pack {s : Bool} {r : Nat} (h : r < F.inf) : Fin F (F.pack s r) := by
  unfold Fin; rwa [Fmt.abs_pack (Nat.lt_trans h Fmt.inf_lt)]

theorem abs_R (x : Nat) : |R F x| = F.mag (F.abs x) / 2 ^ F.unit := by
  unfold R
  rw [abs_div, abs_of_pos (show (0 : ℝ) < 2 ^ F.unit by positivity), ← Fmt.natAbs_val, Nat.cast_natAbs, Int.cast_abs]

/-- Formats that hold numbers up to `2^64`. -/
structure Big (F : Fmt) : Prop where
  ok : F.Ok
  bias : 64 < F.bias

theorem big64 : Big b64 := ⟨ok64, by decide⟩
theorem big32 : Big b32 := ⟨ok32, by decide⟩

/-- Numbers up to `B` do not overflow. -/
def Top (F : Fmt) (B : ℝ) : Prop := ∃ p, p < F.inf ∧ B * 2 ^ F.unit ≤ F.mag p

theorem Big.top (g : Big F) : Top F (2 ^ 64) := by
  obtain ⟨u1, u2⟩ := Fmt.unit_eq g.ok
  have hb := g.bias
  have hk := Fmt.mag_pow (F := F) (F.bias + 64) (by omega)
  rw [show F.f + (F.bias + 64) - 1 = 64 + F.unit by omega] at hk
  refine ⟨_, Fmt.pow_lt_inf g.ok (E := F.bias + 64) (by omega), ?_⟩
  rw [hk]; push_cast; exact (pow_add _ _ _).ge

theorem rnd_fin {B : ℝ} (t : Top F B) {num den : Nat} (hd : 0 < den) (h : (num : ℝ) / den / 2 ^ F.unit ≤ B) :
    F.rnd num den < F.inf ∧ num < den * F.mag F.inf := by
  obtain ⟨k, hlt, hk⟩ := t
  have hd' : (0 : ℝ) < den := by exact_mod_cast hd
  have hn : num ≤ den * F.mag k := by
    rw [div_div, div_le_iff₀ (by positivity)] at h
    have : (num : ℝ) ≤ ((den * F.mag k : Nat) : ℝ) := by
      push_cast
      calc (num : ℝ) ≤ B * (den * 2 ^ F.unit) := h
        _ = den * (B * 2 ^ F.unit) := by ring
        _ ≤ den * F.mag k := mul_le_mul_of_nonneg_left hk hd'.le
    exact_mod_cast this
  have h1 := rnd_mono (F := F) hd hn
  rw [rnd_exact hd hlt.le rfl] at h1
  refine ⟨by omega, Nat.lt_of_le_of_lt hn (Nat.mul_lt_mul_of_pos_left (F.mag_strictMono hlt) hd)⟩

/-- Relative error of a rounding. -/
noncomputable def eps (F : Fmt) : ℝ := 1 / 2 ^ (F.f + 1)
/-- Absolute error of a rounding among the subnormal numbers. -/
noncomputable def eta (F : Fmt) : ℝ := 1 / 2 / 2 ^ F.unit

theorem eps_pos : 0 < eps F := by unfold eps; positivity
theorem eta_pos : 0 < eta F := by unfold eta; positivity

/-- A signed rounding. -/
theorem pack_err {B : ℝ} (t : Top F B) {num den : Nat} (s : Bool) (hd : 0 < den) (h : (num : ℝ) / den / 2 ^ F.unit ≤ B) :
    Fin F (F.pack s (F.rnd num den)) ∧
      |R F (F.pack s (F.rnd num den)) - (if s then -1 else 1) * ((num : ℝ) / den / 2 ^ F.unit)| ≤
        eps F * ((num : ℝ) / den / 2 ^ F.unit) + (if den = 1 then 0 else eta F) := by
  obtain ⟨h1, h2⟩ := rnd_fin t hd h
  refine ⟨fin_pack h1, ?_⟩
  have := rnd_err hd h2
  rw [R_pack h1.le]
  generalize (num : ℝ) / den = v at *
  have e : ((if s then -1 else 1) * (F.mag (F.rnd num den) : ℝ) / 2 ^ F.unit - (if s then -1 else 1) * (v / 2 ^ F.unit)) =
      (if s then 1 else -1) * ((v - F.mag (F.rnd num den)) / 2 ^ F.unit) := by
    cases s <;> simp <;> ring
  rw [e, abs_mul, show |(if s then (1 : ℝ) else -1)| = 1 by cases s <;> simp, one_mul, abs_div,
    abs_of_pos (show (0 : ℝ) < 2 ^ F.unit by positivity), div_le_iff₀ (by positivity)]
  refine this.trans (le_of_eq ?_)
  unfold eps eta
  have hp : (2 : ℝ) ^ F.unit ≠ 0 := by positivity
  split <;> (field_simp; try ring)

theorem add_err {B : ℝ} (o : F.Ok) (t : Top F B) {x y : Nat} (hx : Fin F x) (hy : Fin F y) (h : |R F x + R F y| ≤ B) :
    Fin F (F.add x y) ∧ |R F (F.add x y) - (R F x + R F y)| ≤ eps F * |R F x + R F y| := by
  rw [Fmt.add_fin hx hy]
  have e : R F x + R F y = ((F.val x + F.val y : Int) : ℝ) / 2 ^ F.unit := by unfold R; push_cast; ring
  rw [e] at h ⊢
  generalize F.val x + F.val y = s at *
  unfold Fmt.rndInt
  have hp : (0 : ℝ) < 2 ^ F.unit := by positivity
  by_cases hs : s = 0
  · rw [if_pos hs, hs, R_pack (by omega), F.mag_zero]
    refine ⟨fin_pack (Fmt.inf_pos o), by simp⟩
  · rw [if_neg hs]
    have ha : |(s : ℝ) / 2 ^ F.unit| = ((s.natAbs : ℝ) / (1 : Nat) / 2 ^ F.unit) := by
      rw [abs_div, abs_of_pos hp, Nat.cast_natAbs, Int.cast_abs]; simp
    rw [ha] at h ⊢
    obtain ⟨k1, k2⟩ := pack_err t (decide (s < 0)) Nat.one_pos h
    refine ⟨k1, ?_⟩
    rw [if_pos rfl, add_zero] at k2
    convert k2 using 3
    rw [Nat.cast_natAbs, Int.cast_abs]
    by_cases hn : s < 0
    · simp [hn]; rw [abs_of_neg (by exact_mod_cast hn)]; ring
    · simp [hn]; rw [abs_of_nonneg (by exact_mod_cast (Int.not_lt.1 hn))]

theorem R_opp (x : Nat) : R F (F.opp x) = -R F x := by unfold R; rw [Fmt.val_opp]; push_cast; ring
theorem fin_opp {x : Nat} (h : Fin F x) : Fin F (F.opp x) := by unfold Fin; rwa [Fmt.abs_opp]

theorem sub_err {B : ℝ} (o : F.Ok) (t : Top F B) {x y : Nat} (hx : Fin F x) (hy : Fin F y) (h : |R F x - R F y| ≤ B) :
    Fin F (F.sub x y) ∧ |R F (F.sub x y) - (R F x - R F y)| ≤ eps F * |R F x - R F y| := by
  have := add_err o t hx (fin_opp hy) (by rw [R_opp, ← sub_eq_add_neg]; exact h)
  rw [R_opp, ← sub_eq_add_neg] at this
  exact this

theorem R_signed (x : Nat) : R F x = (if F.neg x then -1 else 1) * (F.mag (F.abs x) / 2 ^ F.unit) := by
  unfold R Fmt.val
  cases F.neg x <;> simp <;> ring

theorem sgn_xor (a b : Bool) : (if (a != b) then (-1 : ℝ) else 1) = (if a then -1 else 1) * (if b then -1 else 1) := by
  cases a <;> cases b <;> simp

theorem mul_err {B : ℝ} (t : Top F B) {x y : Nat} (hx : Fin F x) (hy : Fin F y) (h : |R F x * R F y| ≤ B) :
    Fin F (F.mul x y) ∧ |R F (F.mul x y) - R F x * R F y| ≤ eps F * |R F x * R F y| + eta F := by
  rw [Fmt.mul_fin hx hy]
  have hp : (0 : ℝ) < 2 ^ F.unit := by positivity
  have ha : |R F x * R F y| = ((F.mag (F.abs x) * F.mag (F.abs y) : Nat) : ℝ) / ((2 ^ F.unit : Nat) : ℝ) / 2 ^ F.unit := by
    rw [abs_mul, abs_R, abs_R]; push_cast; field_simp
  have hv : R F x * R F y = (if (F.neg x != F.neg y) then -1 else 1) * (((F.mag (F.abs x) * F.mag (F.abs y) : Nat) : ℝ) / ((2 ^ F.unit : Nat) : ℝ) / 2 ^ F.unit) := by
    rw [sgn_xor, R_signed x, R_signed y]; push_cast; field_simp
  rw [ha] at h ⊢
  obtain ⟨k1, k2⟩ := pack_err t (F.neg x != F.neg y) (Nat.two_pow_pos F.unit) h
  refine ⟨k1, ?_⟩
  rw [← hv] at k2
  refine k2.trans ?_
  have := eta_pos (F := F)
  gcongr
  split <;> linarith

theorem div_err {B : ℝ} (t : Top F B) {x y : Nat} (hx : Fin F x) (hy : Fin F y) (hy0 : R F y ≠ 0) (h : |R F x / R F y| ≤ B) :
    Fin F (Arith.fdiv F x y) ∧ |R F (Arith.fdiv F x y) - R F x / R F y| ≤ eps F * |R F x / R F y| + eta F := by
  have hp : (0 : ℝ) < 2 ^ F.unit := by positivity
  have hy1 : F.abs y ≠ 0 := by
    intro e
    apply hy0
    rw [R_signed, e, F.mag_zero]; simp
  have hm := Fmt.mag_pos (F := F) (Nat.pos_of_ne_zero hy1)
  have hm' : (0 : ℝ) < F.mag (F.abs y) := by exact_mod_cast hm
  unfold Arith.fdiv
  have n1 : F.isNaN x = false := Fmt.not_nan_of_fin hx
  have n2 : F.isNaN y = false := Fmt.not_nan_of_fin hy
  have f1 : F.isFin x = true := Fmt.isFin_iff.2 hx
  have f2 : F.isFin y = true := Fmt.isFin_iff.2 hy
  rw [n1, n2, f1, f2, if_neg (by simp), if_pos rfl, if_pos rfl, if_neg hy1]
  have ha : |R F x / R F y| = ((F.mag (F.abs x) * 2 ^ F.unit : Nat) : ℝ) / (F.mag (F.abs y) : ℝ) / 2 ^ F.unit := by
    rw [abs_div, abs_R, abs_R]; push_cast; field_simp
  have hv : R F x / R F y = (if (F.neg x != F.neg y) then -1 else 1) * (((F.mag (F.abs x) * 2 ^ F.unit : Nat) : ℝ) / (F.mag (F.abs y) : ℝ) / 2 ^ F.unit) := by
    rw [sgn_xor, R_signed x, R_signed y]; push_cast
    cases F.neg x <;> cases F.neg y <;> simp <;> field_simp
  rw [ha] at h ⊢
  obtain ⟨k1, k2⟩ := pack_err t (F.neg x != F.neg y) hm h
  refine ⟨k1, ?_⟩
  rw [← hv] at k2
  refine k2.trans ?_
  have := eta_pos (F := F)
  gcongr
  split <;> linarith

end Verif.Approx
