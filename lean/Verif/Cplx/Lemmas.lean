import Verif.Cplx.Model
import Verif.Cplx.Spec
import Verif.Math.Bridge
import Mathlib.Tactic.Ring
import Mathlib.Tactic.Linarith

/-! # Classes of results of floating-point operations -/

namespace Verif.Cplx
open Verif.Float
open Verif.Arith (fdiv)

variable {F : Fmt}

/-- A NaN or an infinity. -/
def Big (F : Fmt) (x : Nat) : Prop := F.inf ≤ F.abs x

theorem nan_abs (o : F.Ok) : F.inf < F.abs F.nan := Math.nan_nan o.f

theorem add_big (o : F.Ok) {x y : Nat} (h : Big F x ∨ Big F y) : Big F (F.add x y) := by
  unfold Big at *
  have hn := nan_abs o
  unfold Fmt.add
  by_cases h1 : F.isNaN x = true ∨ F.isNaN y = true
  · rw [if_pos h1]; omega
  · rw [if_neg h1]
    by_cases h2 : F.isFin x = true
    · rw [if_pos h2]
      by_cases h3 : F.isFin y = true
      · rw [Fmt.isFin_iff] at h2 h3; omega
      · rw [if_neg h3]; rw [Fmt.isFin_iff] at h3; omega
    · rw [if_neg h2]
      by_cases h3 : F.isFin y = true ∨ F.neg x = F.neg y
      · rw [if_pos h3]; rw [Fmt.isFin_iff] at h2; omega
      · rw [if_neg h3]; omega

theorem big_opp {x : Nat} (h : Big F x) : Big F (F.opp x) := by unfold Big; rwa [Fmt.abs_opp]

theorem sub_big (o : F.Ok) {x y : Nat} (h : Big F x ∨ Big F y) : Big F (F.sub x y) :=
  add_big o (h.imp id big_opp)

theorem mul_big (o : F.Ok) {x y : Nat} (h : Big F x ∨ Big F y) : Big F (F.mul x y) := by
  unfold Big at *
  have hn := nan_abs o
  have hi := Fmt.inf_lt (F := F)
  unfold Fmt.mul
  by_cases h1 : F.isNaN x = true ∨ F.isNaN y = true
  · rw [if_pos h1]; omega
  · rw [if_neg h1, if_neg (by rw [Fmt.isFin_iff, Fmt.isFin_iff]; omega)]
    by_cases h2 : F.abs x = 0 ∨ F.abs y = 0
    · rw [if_pos h2]; omega
    · rw [if_neg h2, Fmt.abs_pack hi]

theorem div_big (o : F.Ok) {x y : Nat} (h : Big F x) : Big F (fdiv F x y) := by
  unfold Big at *
  have hn := nan_abs o
  have hi := Fmt.inf_lt (F := F)
  unfold fdiv
  by_cases h1 : F.isNaN x = true ∨ F.isNaN y = true
  · rw [if_pos h1]; omega
  · rw [if_neg h1, if_neg (by rw [Fmt.isFin_iff]; omega)]
    by_cases h3 : F.isFin y = true
    · rw [if_pos h3, Fmt.abs_pack hi]
    · rw [if_neg h3]; omega

theorem nan_of {x : Nat} (h : F.inf < F.abs x) : F.isNaN x = true := Fmt.isNaN_iff.2 h

theorem div_nan (o : F.Ok) {x y : Nat} (h : (Big F x ∧ Big F y) ∨ F.isNaN x = true ∨ F.isNaN y = true ∨ (F.abs x = 0 ∧ F.abs y = 0)) : F.isNaN (fdiv F x y) = true := by
  unfold Big at *
  have hn := nan_of (nan_abs o)
  have hi := Fmt.inf_pos o
  unfold fdiv
  by_cases h1 : F.isNaN x = true ∨ F.isNaN y = true
  · rw [if_pos h1]; exact hn
  · rw [if_neg h1]
    rcases h with h | h | h | h
    · rw [if_neg (by rw [Fmt.isFin_iff]; omega), if_neg (by rw [Fmt.isFin_iff]; omega)]; exact hn
    · exact absurd (Or.inl h) h1
    · exact absurd (Or.inr h) h1
    · rw [if_pos (by rw [Fmt.isFin_iff]; omega), if_pos (by rw [Fmt.isFin_iff]; omega), if_pos h.2, if_pos h.1]; exact hn

/-- Finite sums: never a NaN, and zero exactly if the exact sum is. -/
theorem add_fin_class (o : F.Ok) {x y : Nat} (hx : F.abs x < F.inf) (hy : F.abs y < F.inf) :
    F.abs (F.add x y) ≤ F.inf ∧ (F.abs (F.add x y) = 0 ↔ F.val x + F.val y = 0) := by
  have hi := Fmt.inf_lt (F := F)
  have hp := Fmt.inf_pos o
  rw [Fmt.add_fin hx hy]
  unfold Fmt.rndInt
  by_cases h : F.val x + F.val y = 0
  · rw [if_pos h, Fmt.abs_pack (by omega)]; exact ⟨by omega, by simp [h]⟩
  · rw [if_neg h]
    have hle : F.rnd (F.val x + F.val y).natAbs 1 ≤ F.inf := rnd_le _ _ (by omega)
    rw [Fmt.abs_pack (by omega)]
    refine ⟨hle, ?_⟩
    have h1 : F.mag 1 = 1 := F.mag_small (by
      have := Nat.pow_lt_pow_right (a := 2) (by omega) (show 0 < F.f by have := o.f; omega); omega)
    have := rnd_mono (F := F) (a := 1) (b := (F.val x + F.val y).natAbs) (den := 1) (by omega) (by omega)
    rw [rnd_exact (n := 1) (by omega) (by omega) (by rw [h1])] at this
    omega

/-- A number that is zero or one in magnitude. -/
def Unit (F : Fmt) (a : Nat) : Prop := F.abs a < F.inf ∧ (F.mag (F.abs a) = 0 ∨ F.mag (F.abs a) = 2 ^ F.unit)

theorem val_sq (x : Nat) : F.val x * F.val x = (F.mag (F.abs x) : Int) * F.mag (F.abs x) := by
  unfold Fmt.val; split <;> ring

theorem val_zero_iff {x : Nat} : F.val x = 0 ↔ F.abs x = 0 := by
  have := Fmt.natAbs_val (F := F) x
  have h2 := Fmt.mag_eq_zero (F := F) (n := F.abs x)
  omega

theorem mul_comm' (x y : Nat) : F.mul x y = F.mul y x := by
  unfold Fmt.mul
  have e : (F.neg x != F.neg y) = (F.neg y != F.neg x) := by cases F.neg x <;> cases F.neg y <;> rfl
  rw [Nat.mul_comm (F.mag (F.abs x)), e]
  simp only [or_comm, and_comm]

theorem add_comm' {x y : Nat} : F.isNaN x = false → F.isNaN y = false → F.isFin x = true → F.add x y = F.add y x := by
  intro h1 h2 h3
  unfold Fmt.add
  rw [h1, h2, h3]
  simp only [Bool.false_eq_true, or_self, if_false, if_true]
  by_cases h4 : F.isFin y = true
  · rw [h4]; simp only [if_true]; rw [Int.add_comm, Bool.and_comm]
  · rw [if_neg h4, if_neg h4]; simp

/-- Multiplication by zero or one is exact. -/
theorem mul_unit {a c : Nat} (ha : Unit F a) (hc : F.abs c < F.inf) :
    F.abs (F.mul a c) < F.inf ∧ F.val (F.mul a c) * 2 ^ F.unit = F.val a * F.val c := by
  obtain ⟨ha1, ha2⟩ := ha
  have hi := Fmt.inf_lt (F := F)
  have hU := Nat.two_pow_pos F.unit
  rw [Fmt.mul_fin ha1 hc]
  have key : ∃ k, k < F.inf ∧ F.mag (F.abs a) * F.mag (F.abs c) = 2 ^ F.unit * F.mag k := by
    rcases ha2 with h | h
    · exact ⟨0, by omega, by rw [h, F.mag_zero]; simp⟩
    · exact ⟨F.abs c, hc, by rw [h]⟩
  obtain ⟨k, hk, e⟩ := key
  rw [rnd_exact hU (Nat.le_of_lt hk) e, Fmt.abs_pack (by omega)]
  refine ⟨hk, ?_⟩
  rw [Fmt.val_pack (by omega)]
  have e' : (F.mag (F.abs a) : Int) * F.mag (F.abs c) = 2 ^ F.unit * (F.mag k : Int) := by exact_mod_cast e
  unfold Fmt.val
  cases F.neg a <;> cases F.neg c <;> simp <;> linarith

theorem mul_unit' {a c : Nat} (hc : Unit F c) (ha : F.abs a < F.inf) :
    F.abs (F.mul a c) < F.inf ∧ F.val (F.mul a c) * 2 ^ F.unit = F.val a * F.val c := by
  rw [mul_comm', mul_comm (F.val a)]; exact mul_unit hc ha

/-- Infinity times a number that is neither zero nor a NaN. -/
theorem mul_inf {r x : Nat} (hr : F.abs r = F.inf) (h : F.abs x ≤ F.inf) (h0 : F.abs x ≠ 0) (hp : 0 < F.inf) : F.abs (F.mul r x) = F.inf := by
  unfold Fmt.mul
  rw [Fmt.isNaN_false.2 h, Fmt.isNaN_false.2 (by omega), if_neg (by simp), if_neg (by rw [Fmt.isFin_iff, Fmt.isFin_iff]; omega), if_neg (by omega),
    Fmt.abs_pack Fmt.inf_lt]

/-- What the four products are if one factor consists of zeros and ones. -/
theorem four {a b c d : Nat} (h : (Unit F a ∧ Unit F b ∧ F.abs c < F.inf ∧ F.abs d < F.inf) ∨ (F.abs a < F.inf ∧ F.abs b < F.inf ∧ Unit F c ∧ Unit F d)) :
    (F.abs (F.mul a c) < F.inf ∧ F.abs (F.mul b d) < F.inf ∧ F.abs (F.mul a d) < F.inf ∧ F.abs (F.mul b c) < F.inf) ∧
    F.val (F.mul a c) * 2 ^ F.unit = F.val a * F.val c ∧ F.val (F.mul b d) * 2 ^ F.unit = F.val b * F.val d ∧
    F.val (F.mul a d) * 2 ^ F.unit = F.val a * F.val d ∧ F.val (F.mul b c) * 2 ^ F.unit = F.val b * F.val c := by
  rcases h with ⟨h1, h2, h3, h4⟩ | ⟨h1, h2, h3, h4⟩
  · obtain ⟨a1, a2⟩ := mul_unit h1 h3
    obtain ⟨b1, b2⟩ := mul_unit h2 h4
    obtain ⟨c1, c2⟩ := mul_unit h1 h4
    obtain ⟨d1, d2⟩ := mul_unit h2 h3
    exact ⟨⟨a1, b1, c1, d1⟩, a2, b2, c2, d2⟩
  · obtain ⟨a1, a2⟩ := mul_unit' h3 h1
    obtain ⟨b1, b2⟩ := mul_unit' h4 h2
    obtain ⟨c1, c2⟩ := mul_unit' h4 h1
    obtain ⟨d1, d2⟩ := mul_unit' h3 h2
    exact ⟨⟨a1, b1, c1, d1⟩, a2, b2, c2, d2⟩

theorem sq_zero {x y : Int} (h : x * x + y * y = 0) : x = 0 ∧ y = 0 := by
  constructor <;> nlinarith [mul_self_nonneg x, mul_self_nonneg y, sq_nonneg (x - 1), sq_nonneg (x + 1), sq_nonneg (y - 1), sq_nonneg (y + 1)]

/-- The product of two nonzero numbers is not zero: the norm is multiplicative. -/
theorem norm_ne {A B C D U p q r s : Int} (hU : U ≠ 0) (h1 : p * U = A * C) (h2 : q * U = B * D) (h3 : r * U = A * D) (h4 : s * U = B * C)
    (hab : A ≠ 0 ∨ B ≠ 0) (hcd : C ≠ 0 ∨ D ≠ 0) : (p - q ≠ 0 ∨ r + s ≠ 0) ∧ (p + q ≠ 0 ∨ s - r ≠ 0) := by
  have key : ∀ {X Y : Int}, X = 0 → Y = 0 → X * X * (U * U) + Y * Y * (U * U) = (A * A + B * B) * (C * C + D * D) → False := by
    intro X Y hX hY h
    rw [hX, hY] at h
    have h' : (A * A + B * B) * (C * C + D * D) = 0 := by linarith
    rcases Int.mul_eq_zero.1 h' with h | h
    · obtain ⟨x, y⟩ := sq_zero h; rcases hab with h | h <;> contradiction
    · obtain ⟨x, y⟩ := sq_zero h; rcases hcd with h | h <;> contradiction
  constructor
  · by_contra hc
    rw [not_or, not_not, not_not] at hc
    refine key hc.1 hc.2 ?_
    have : (p - q) * (p - q) * (U * U) + (r + s) * (r + s) * (U * U) = (p * U - q * U) * (p * U - q * U) + (r * U + s * U) * (r * U + s * U) := by ring
    rw [this, h1, h2, h3, h4]; ring
  · by_contra hc
    rw [not_or, not_not, not_not] at hc
    refine key hc.1 hc.2 ?_
    have : (p + q) * (p + q) * (U * U) + (s - r) * (s - r) * (U * U) = (p * U + q * U) * (p * U + q * U) + (s * U - r * U) * (s * U - r * U) := by ring
    rw [this, h1, h2, h3, h4]; ring

/-- A complex number one part of which is neither zero nor a NaN. -/
def Some1 (F : Fmt) (z : C) : Prop := (F.abs z.1 ≤ F.inf ∧ F.abs z.1 ≠ 0) ∨ (F.abs z.2 ≤ F.inf ∧ F.abs z.2 ≠ 0)

theorem product_some (o : F.Ok) {a b c d : Nat}
    (h : (Unit F a ∧ Unit F b ∧ F.abs c < F.inf ∧ F.abs d < F.inf) ∨ (F.abs a < F.inf ∧ F.abs b < F.inf ∧ Unit F c ∧ Unit F d))
    (hab : F.abs a ≠ 0 ∨ F.abs b ≠ 0) (hcd : F.abs c ≠ 0 ∨ F.abs d ≠ 0) : Some1 F (product F a b c d) ∧ Some1 F (numerator F a b c d) := by
  obtain ⟨⟨f1, f2, f3, f4⟩, e1, e2, e3, e4⟩ := four h
  have nz : ∀ {x : Nat}, F.abs x ≠ 0 → F.val x ≠ 0 := fun h => fun h' => h (val_zero_iff.1 h')
  obtain ⟨n1, n2⟩ := norm_ne (Int.ne_of_gt (Int.pow_pos (by decide : (0 : Int) < 2))) e1 e2 e3 e4 (hab.imp nz nz) (hcd.imp nz nz)
  have fo : ∀ {x : Nat}, F.abs x < F.inf → F.abs (F.opp x) < F.inf := fun h => by rwa [Fmt.abs_opp]
  have s1 := add_fin_class o f1 (fo f2)
  have s2 := add_fin_class o f3 f4
  have s3 := add_fin_class o f1 f2
  have s4 := add_fin_class o f4 (fo f3)
  rw [Fmt.val_opp] at s1 s4
  constructor
  · rcases n1 with n | n
    · exact Or.inl ⟨s1.1, fun h => n (by have := s1.2.1 h; linarith)⟩
    · exact Or.inr ⟨s2.1, fun h => n (by have := s2.2.1 h; linarith)⟩
  · rcases n2 with n | n
    · exact Or.inl ⟨s3.1, fun h => n (by have := s3.2.1 h; linarith)⟩
    · exact Or.inr ⟨s4.1, fun h => n (by have := s4.2.1 h; linarith)⟩

theorem scale_some (o : F.Ok) {r : Nat} {z : C} (hr : F.abs r = F.inf) (h : Some1 F z) :
    F.abs (scale F r z).1 = F.inf ∨ F.abs (scale F r z).2 = F.inf := by
  rcases h with ⟨h1, h2⟩ | ⟨h1, h2⟩
  · exact Or.inl (mul_inf hr h1 h2 (Fmt.inf_pos o))
  · exact Or.inr (mul_inf hr h1 h2 (Fmt.inf_pos o))

/-! ### Boxes -/

theorem one_pat (o : F.Ok) : ∃ k, F.ofInt 1 = k ∧ k < F.inf ∧ F.mag k = 2 ^ F.unit := by
  have hinf : 2 ^ F.unit < F.mag F.inf := by
    rw [Fmt.mag_inf o]; apply Nat.pow_lt_pow_right (by omega); have := Fmt.unit_eq o; omega
  obtain ⟨n, hn, hne⟩ := Fmt.representable (F := F) (m := 1) (e := F.unit) (Nat.one_le_two_pow) (by omega)
  rw [Nat.one_mul] at hne
  refine ⟨n, ?_, (Fmt.mag_lt_iff (F := F)).1 (by omega), hne⟩
  unfold Fmt.ofInt Fmt.rndInt
  have e : ((1 : Int) * 2 ^ F.unit) = ((2 ^ F.unit : Nat) : Int) := by simp
  have hU := Nat.two_pow_pos F.unit
  rw [e, if_neg (by omega), decide_eq_false (by omega), Int.natAbs_natCast, ← hne, rnd_mag hn]
  unfold Fmt.pack; simp

theorem ofInt_zero : F.ofInt 0 = 0 := by unfold Fmt.ofInt Fmt.rndInt Fmt.pack; simp

theorem abs_copysign {x y : Nat} : F.abs (F.copysign x y) = F.abs x := Fmt.abs_pack (Fmt.abs_lt x)

theorem isInf_iff {x : Nat} : isInf F x = true ↔ F.abs x = F.inf := by unfold isInf; simp

theorem box_unit (o : F.Ok) (x : Nat) : Unit F (box F x) ∧ (F.abs x = F.inf → F.abs (box F x) ≠ 0) ∧ (F.abs x ≠ F.inf → F.abs (box F x) = 0) := by
  obtain ⟨k, e, hk, hm⟩ := one_pat o
  have hi := Fmt.inf_lt (F := F)
  have hp := Fmt.inf_pos o
  have hU := Nat.two_pow_pos F.unit
  unfold Unit box
  rw [abs_copysign]
  by_cases h : isInf F x = true
  · rw [if_pos h, e, Fmt.abs_of_lt (by omega)]
    refine ⟨⟨hk, Or.inr hm⟩, fun _ h0 => ?_, fun hne => absurd (isInf_iff.1 h) hne⟩
    rw [h0, F.mag_zero] at hm; omega
  · rw [if_neg h, ofInt_zero, Fmt.abs_of_lt (by omega)]
    exact ⟨⟨hp, Or.inl F.mag_zero⟩, fun hx => absurd (isInf_iff.2 hx) h, fun _ => rfl⟩

theorem scrub_class (o : F.Ok) (x : Nat) : (F.inf < F.abs x → F.abs (scrub F x) = 0) ∧ (F.abs x ≤ F.inf → scrub F x = x) := by
  unfold scrub
  constructor
  · intro h
    rw [if_pos (nan_of h), ofInt_zero, abs_copysign, Fmt.abs_of_lt (Fmt.signBit_pos)]
  · intro h
    rw [if_neg (by rw [Fmt.isNaN_false.2 h]; simp)]

theorem unit_fin {a : Nat} (h : Unit F a) : F.abs a < F.inf := h.1

end Verif.Cplx
