import Verif.Approx.PropsAtan
import Verif.Approx.Atan2All
import Verif.Hyp.Props

/-!
# C165 and C166: `atan2f` and `cargf`
-/

namespace Verif.Approx
open Verif.Float Verif.Math.Spec Verif.Approx.Spec

/-- The pattern `p` of a float with the sign of `y`. -/
def withSign (y p : Nat) : Nat := if negative b32 y then p + 0x80000000 else p

/-! ### Results of the branches at a vanishing quotient -/

theorem kernel_zero (s : Bool) : kernelAtan (b64.pack s 0) = b64.pack s 0 := by cases s <;> decide +kernel

theorem plain_zero (s : Bool) (num den : Nat) (n : Bool) : atanPlain (b64.pack s 0) num den n = some (b32.pack s 0) := by
  unfold atanPlain
  simp only
  rw [if_neg (by cases s <;> decide +kernel)]
  cases s <;> decide +kernel

theorem pi1_zero (t s : Bool) (num den : Nat) (n : Bool) : atanFrom (b64.pack t pi1) (b64.pack t pi1lo) piDint (b64.pack s 0) num den n = some (b32.pack t 0x40490FDB) := by
  unfold atanFrom
  simp only
  rw [if_neg (by cases s <;> decide +kernel)]
  cases s <;> cases t <;> decide +kernel

theorem pi2_zero (t s : Bool) (num den : Nat) (n : Bool) : atanFrom (b64.pack t pi2) (b64.pack t pi2low) pi2Dint (b64.pack s 0) num den n = some (b32.pack t 0x3FC90FDB) := by
  unfold atanFrom
  simp only
  rw [if_neg (by cases s <;> decide +kernel)]
  cases s <;> cases t <;> decide +kernel

theorem fdiv_zero {x y : Nat} (hx : b64.abs x = 0) (hy : Fin b64 y) (h0 : b64.abs y ≠ 0) : Arith.fdiv b64 x y = b64.pack (b64.neg x != b64.neg y) 0 := by
  have fx : Fin b64 x := by unfold Fin; rw [hx]; decide
  unfold Arith.fdiv
  rw [Fmt.not_nan_of_fin fx, Fmt.not_nan_of_fin hy, Fmt.isFin_iff.2 fx, Fmt.isFin_iff.2 hy, if_neg (by simp), if_pos rfl, if_pos rfl, if_neg h0, hx, b64.mag_zero, Nat.zero_mul,
    rnd_zero _ (Fmt.mag_pos (Nat.pos_of_ne_zero h0))]

theorem fdiv_inf {x y : Nat} (hx : Fin b64 x) (hy : b64.abs y = b64.inf) : Arith.fdiv b64 x y = b64.pack (b64.neg x != b64.neg y) 0 := by
  have e1 : b64.isNaN y = false := by unfold Fmt.isNaN; rw [hy]; decide
  have e2 : b64.isFin y = false := by unfold Fmt.isFin; rw [hy]; decide
  unfold Arith.fdiv
  rw [Fmt.not_nan_of_fin hx, e1, Fmt.isFin_iff.2 hx, e2, if_neg (by simp), if_pos rfl, if_neg (by simp)]

theorem abs_pos64 (x : Nat) : b64.neg (b64.abs x) = false := by
  unfold Fmt.neg
  rw [Nat.div_eq_of_lt (show b64.abs x < b64.signBit from Nat.mod_lt _ (Nat.two_pow_pos _))]; rfl

theorem lt_abs {x y : Nat} (hx : b64.abs x ≤ b64.inf) (hy : b64.abs y ≤ b64.inf) : b64.lt (b64.abs x) (b64.abs y) = true ↔ b64.abs x < b64.abs y := by
  rw [Fmt.lt_pos hx hy]
  constructor
  · intro h
    by_contra hc
    exact absurd (b64.mag_mono (not_lt.1 hc)) (by omega)
  · exact fun h => b64.mag_strictMono h

theorem eq_abs {x y : Nat} (hx : b64.abs x ≤ b64.inf) (hy : b64.abs y ≤ b64.inf) (h : b64.abs x ≠ b64.abs y) : b64.eq (b64.abs x) (b64.abs y) = false := by
  rw [← Bool.not_eq_true, Fmt.eq_iff (by rwa [abs_abs']) (by rwa [abs_abs']), Fmt.val_of_lt (lt_of_le_of_lt hx Fmt.inf_lt), Fmt.val_of_lt (lt_of_le_of_lt hy Fmt.inf_lt)]
  intro e
  have e' : b64.mag (b64.abs x) = b64.mag (b64.abs y) := by exact_mod_cast e
  rcases Nat.lt_or_gt_of_ne h with h | h <;> have := b64.mag_strictMono h <;> omega

/-- The quotient of the smaller by the larger magnitude vanishes. -/
theorem wide_flat {x y : Nat} (hx : b64.abs x ≤ b64.inf) (hy : Fin b64 y) (h : (b64.abs y = 0 ∧ b64.abs x ≠ 0) ∨ b64.abs x = b64.inf) :
    atan2Wide y x = some (if b64.neg x then b32.pack (b64.neg y) 0x40490FDB else b32.pack (b64.neg y) 0) := by
  have hlt : b64.abs y < b64.abs x := by
    rcases h with ⟨h1, h2⟩ | h
    · omega
    · rw [h]; exact hy
  have ha : acute y x = b64.pack (b64.neg y) 0 := by
    unfold acute
    simp only
    rw [eq_abs hx (Nat.le_of_lt hy) (by omega), if_neg (by simp)]
    have : Arith.fdiv b64 y (b64.abs x) = b64.pack (b64.neg y) 0 := by
      by_cases hi : b64.abs x = b64.inf
      · rw [fdiv_inf hy (by rw [abs_abs']; exact hi), abs_pos64, Bool.bne_false]
      · have h' := h.resolve_right hi
        rw [fdiv_zero h'.1 (by unfold Fin; rw [abs_abs']; omega) (by rw [abs_abs']; exact h'.2), abs_pos64, Bool.bne_false]
    rw [this, kernel_zero]
  unfold atan2Wide
  simp only
  rw [if_neg (fun hh => by have := (lt_abs hx (Nat.le_of_lt hy)).1 hh; omega), ha]
  unfold Fmt.copysign
  rw [show b64.abs pi1 = pi1 by decide, show b64.abs pi1lo = pi1lo by decide]
  cases b64.neg x
  · rw [if_neg (by simp), if_neg (by simp), plain_zero]
  · rw [if_pos rfl, if_pos rfl, pi1_zero]

theorem wide_steep {x y : Nat} (hx : Fin b64 x) (hy : b64.abs y ≤ b64.inf) (h : (b64.abs x = 0 ∧ b64.abs y ≠ 0) ∨ b64.abs y = b64.inf) :
    atan2Wide y x = some (b32.pack (b64.neg y) 0x3FC90FDB) := by
  have hlt : b64.abs x < b64.abs y := by
    rcases h with ⟨h1, h2⟩ | h
    · omega
    · rw [h]; exact hx
  have hk : kernelAtan (Arith.fdiv b64 x y) = b64.pack (b64.neg x != b64.neg y) 0 := by
    by_cases hi : b64.abs y = b64.inf
    · rw [fdiv_inf hx hi, kernel_zero]
    · have h' := h.resolve_right hi
      rw [fdiv_zero h'.1 (by unfold Fin; omega) h'.2, kernel_zero]
  unfold atan2Wide
  simp only
  rw [if_pos ((lt_abs (Nat.le_of_lt hx) hy).2 hlt), hk]
  unfold Fmt.copysign
  rw [show b64.abs pi2 = pi2 by decide, show b64.abs pi2low = pi2low by decide, pi2_zero]

theorem withSign_pack {y p : Nat} (hp : Pat b32 y) : b32.pack (b32.neg y) p = withSign y p := by
  unfold withSign Fmt.pack
  by_cases h : negative b32 y
  · rw [if_pos h, (negative_neg hp).1 h]; simp only [if_true]; rw [show b32.signBit = 0x80000000 from rfl, Nat.add_comm]
  · rw [if_neg h, show b32.neg y = false by rw [← Bool.not_eq_true]; exact fun hh => h ((negative_neg hp).2 hh)]; simp

theorem wide_zero {x : Nat} (h : Fin b32 x) : b64.abs (wide x) = 0 ↔ b32.abs x = 0 := by
  obtain ⟨a1, a2, -, -⟩ := wideR h
  constructor
  · intro e; exact R_zero (by rw [← a2, R_signed, e, b64.mag_zero]; simp)
  · intro e; exact R_zero (by rw [a2, R_signed, e, b32.mag_zero]; simp)

theorem wide_infinite {x : Nat} (hp : Pat b32 x) (h : Math.Spec.Infinite b32 x) : b64.abs (wide x) = b64.inf ∧ b64.neg (wide x) = b32.neg x := by
  rcases (special_cases hp).2.1 h with rfl | rfl <;> decide +kernel

/-! ### C165 -/

/-- C165: a zero `y` is returned unchanged when `x` is positive, infinite or a positive zero, and gives π with its sign when `x` is negative or a negative zero. -/
theorem C165_zero {x y : Nat} (hx : Pat b32 x) (hy : Pat b32 y) (h : Zero b32 y) (hn : ¬ NaN b32 x) :
    atan2f y x = some (if negative b32 x then withSign y 0x40490FDB else y) := by
  have fy : Fin b32 y := by unfold Fin; rw [show b32.abs y = 0 from h]; decide
  have y1 := (wideR fy).2.2.2
  have yz := (wide_zero fy).2 h
  have e2 : b32.pack (b32.neg y) 0 = y := by have := Fmt.pack_self (F := b32) hy; rwa [show b32.abs y = 0 from h] at this
  have key : ∀ {t : Bool}, (t = b32.neg x) → (if t then b32.pack (b32.neg y) 0x40490FDB else b32.pack (b32.neg y) 0) = if negative b32 x then withSign y 0x40490FDB else y := fun {t} ht => by
    subst ht
    rw [withSign_pack hy, e2]
    by_cases hs : negative b32 x
    · rw [if_pos ((negative_neg hx).1 hs), if_pos hs]
    · rw [if_neg (fun c => hs ((negative_neg hx).2 c)), if_neg hs]
  by_cases hz : Zero b32 x
  · rcases (special_cases hx).1 hz with rfl | rfl <;> rcases (special_cases hy).1 h with rfl | rfl <;> unfold withSign negative <;> decide +kernel
  · unfold atan2f
    by_cases hi : Infinite b32 x
    · obtain ⟨i1, i2⟩ := wide_infinite hx hi
      rw [wide_flat (Nat.le_of_eq i1) (wideR fy).1 (Or.inr i1), y1, key i2]
    · have fx : Fin b32 x := by
        unfold Math.Spec.NaN at hn; unfold Math.Spec.Infinite at hi
        exact lt_of_le_of_ne (not_lt.1 hn) hi
      rw [wide_flat (Nat.le_of_lt (wideR fx).1) (wideR fy).1 (Or.inl ⟨yz, fun c => hz ((wide_zero fx).1 c)⟩), y1, key (wideR fx).2.2.2]

example : Zero b32 0x80000000 ∧ ¬ NaN b32 0xBF800000 ∧ atan2f 0x80000000 0xBF800000 = some 0xC0490FDB ∧ atan2f 0x80000000 0x3F800000 = some 0x80000000 ∧
    atan2f 0 0x80000000 = some 0x40490FDB := by unfold Math.Spec.Zero NaN; decide +kernel

/-- C165: if `x` is zero and `y` is not, the result is π/2 with the sign of `y`. -/
theorem C165_axis {x y : Nat} (hx : Zero b32 x) (hy : Pat b32 y) (h : Math.Spec.Finite b32 y) (h0 : ¬ Zero b32 y) : atan2f y x = some (withSign y 0x3FC90FDB) := by
  have fx : Fin b32 x := by unfold Fin; rw [show b32.abs x = 0 from hx]; decide
  have fy : Fin b32 y := h
  unfold atan2f
  rw [wide_steep (wideR fx).1 (Nat.le_of_lt (wideR fy).1) (Or.inl ⟨(wide_zero fx).2 hx, fun c => h0 ((wide_zero fy).1 c)⟩), (wideR fy).2.2.2, withSign_pack hy]

example : Zero b32 0x80000000 ∧ ¬ Zero b32 0x80000001 ∧ atan2f 0x80000001 0x80000000 = some 0xBFC90FDB := by unfold Math.Spec.Zero; decide +kernel

/-- C165: an infinite `y` with a finite `x` gives π/2 with the sign of `y`; a finite `y` with an infinite `x` gives zero or π with the sign of `y`; two
infinities give π/4 or 3π/4 with the sign of `y`. -/
theorem C165_infinite {x y : Nat} (hx : Pat b32 x) (hy : Pat b32 y) :
    (Infinite b32 y → Math.Spec.Finite b32 x → atan2f y x = some (withSign y 0x3FC90FDB)) ∧
    (Math.Spec.Finite b32 y → Infinite b32 x → atan2f y x = some (withSign y (if negative b32 x then 0x40490FDB else 0))) ∧
    (Infinite b32 y → Infinite b32 x → atan2f y x = some (withSign y (if negative b32 x then 0x4016CBE4 else 0x3F490FDB))) := by
  refine ⟨fun h1 h2 => ?_, fun h1 h2 => ?_, fun h1 h2 => ?_⟩
  · have fx : Fin b32 x := h2
    obtain ⟨i1, i2⟩ := wide_infinite hy h1
    unfold atan2f
    rw [wide_steep (wideR fx).1 (Nat.le_of_eq i1) (Or.inr i1), i2, withSign_pack hy]
  · have fy : Fin b32 y := h1
    obtain ⟨i1, i2⟩ := wide_infinite hx h2
    unfold atan2f
    rw [wide_flat (Nat.le_of_eq i1) (wideR fy).1 (Or.inr i1), i2, (wideR fy).2.2.2]
    by_cases hs : negative b32 x
    · rw [if_pos ((negative_neg hx).1 hs), if_pos hs, withSign_pack hy]
    · rw [if_neg (fun c => hs ((negative_neg hx).2 c)), if_neg hs, withSign_pack hy]
  · rcases (special_cases hx).2.1 h2 with rfl | rfl <;> rcases (special_cases hy).2.1 h1 with rfl | rfl <;> unfold withSign negative <;> decide +kernel

example : Infinite b32 0xFF800000 ∧ atan2f 0xFF800000 0xFF800000 = some 0xC016CBE4 ∧ atan2f 0x7F800000 0x7F800000 = some 0x3F490FDB ∧
    atan2f 0xBF800000 0xFF800000 = some 0xC0490FDB ∧ atan2f 0xBF800000 0x7F800000 = some 0x80000000 := by unfold Math.Spec.Infinite; decide +kernel

/-- C165: the constants are π, π/2, π/4 and 3π/4 up to half a unit in the last place. -/
theorem C165_constants : |real b32 0x40490FDB - Real.pi| < 1 / 2 ^ 23 ∧ |real b32 0x3FC90FDB - Real.pi / 2| < 1 / 2 ^ 24 ∧
    |real b32 0x3F490FDB - Real.pi / 4| < 1 / 2 ^ 25 ∧ |real b32 0x4016CBE4 - 3 * Real.pi / 4| < 1 / 2 ^ 23 := by
  have a := Real.pi_gt_d20
  have b := Real.pi_lt_d20
  rw [real_lit (x := 0x40490FDB) (m := 13176795) (k := 22) (s := false) (by decide) (by decide) (by decide +kernel),
    real_lit (x := 0x3FC90FDB) (m := 13176795) (k := 23) (s := false) (by decide) (by decide) (by decide +kernel),
    real_lit (x := 0x3F490FDB) (m := 13176795) (k := 24) (s := false) (by decide) (by decide) (by decide +kernel),
    real_lit (x := 0x4016CBE4) (m := 9882596) (k := 22) (s := false) (by decide) (by decide) (by decide +kernel)]
  refine ⟨?_, ?_, ?_, ?_⟩ <;> rw [abs_lt] <;> constructor <;> norm_num at * <;> linarith

theorem lt_nan_left {x y : Nat} (h : b64.isNaN x = true) : b64.lt x y = false := by unfold Fmt.lt; simp [h]
theorem lt_nan_right {x y : Nat} (h : b64.isNaN y = true) : b64.lt x y = false := by unfold Fmt.lt; simp [h]

theorem from_nan (chi clo num den : Nat) (base : Dint) (n : Bool) : atanFrom chi clo base b64.nan num den n = some b32.nan := by
  unfold atanFrom
  simp only
  rw [if_neg (by decide), nan_sub, nan_sub, nan_add (Or.inl nan64)]
  decide +kernel

theorem plain_nan (num den : Nat) (n : Bool) : atanPlain b64.nan num den n = some b32.nan := by
  unfold atanPlain
  simp only
  rw [if_neg (by decide)]
  decide +kernel

/-- C165: NaN gives NaN. -/
theorem C165_nan {x y : Nat} (h : NaN b32 x ∨ NaN b32 y) : ∃ r, atan2f y x = some r ∧ NaN b32 r := by
  refine ⟨b32.nan, ?_, by unfold NaN; decide⟩
  have ha : b64.isNaN (b64.abs (wide x)) = true ∨ b64.isNaN (b64.abs (wide y)) = true := by
    rcases h with h | h
    · left; rw [nan_wide (Fmt.isNaN_iff.2 h)]; decide
    · right; rw [nan_wide (Fmt.isNaN_iff.2 h)]; decide
  have hd : b64.isNaN (b64.abs (wide x)) = true ∨ b64.isNaN (wide y) = true := by
    rcases h with h | h
    · left; rw [nan_wide (Fmt.isNaN_iff.2 h)]; decide
    · right; rw [nan_wide (Fmt.isNaN_iff.2 h)]; decide
  have hac : acute (wide y) (wide x) = b64.nan := by
    unfold acute
    simp only
    rw [if_neg (by unfold Fmt.eq; rcases ha with h | h <;> simp [h]), nan_div hd.symm, kernelAtan_nan]
  unfold atan2f atan2Wide
  simp only
  rw [if_neg (by rw [Bool.not_eq_true]; exact ha.elim lt_nan_left lt_nan_right), hac]
  split
  · exact from_nan ..
  · exact plain_nan ..

example : NaN b32 0x7FC00000 ∧ atan2f 0x7FC00000 0xBF800000 = some b32.nan ∧ atan2f 0 0x7FC00000 = some b32.nan := by unfold NaN; decide +kernel

/-! ### C166 -/

/-- C166: at all finite arguments but for a zero `y` the result is the argument of x + iy, within a relative error of 2^-39, rounded; so it is one of the two floats
around it. -/
theorem C166_atan2f_partial {x y : Nat} (hpx : Pat b32 x) (hpy : Pat b32 y) (hx : Math.Spec.Finite b32 x) (hy : Math.Spec.Finite b32 y) (h0 : ¬ Zero b32 y) :
    ∃ r, atan2f y x = some r ∧ Accurate b32 (1 / 2 ^ 39) (Complex.arg ⟨real b32 x, real b32 y⟩) r ∧ Faithful b32 (Complex.arg ⟨real b32 x, real b32 y⟩) r := by
  obtain ⟨r, h1, h2⟩ := atan2f_finite (x := x) (y := y) hx hy (fun e => h0 (R_zero e))
  rw [R_eq hpx, R_eq hpy] at h2
  exact ⟨r, h1, h2, faithful32 (by norm_num) h2⟩

-- in the four quadrants, for subnormal numbers and results, and near the axes
example : Pat b32 0xBFC00000 ∧ Math.Spec.Finite b32 0xBFC00000 ∧ ¬ Zero b32 0xBFC00000 ∧ atan2f 0x3F800000 0x3FC00000 = some 0x3F168757 ∧ atan2f 0xBF800000 0xBFC00000 = some 0xC0236E05 ∧
    atan2f 1 0x7F7FFFFF = some 0 ∧ atan2f 0x80000001 0x7F7FFFFF = some 0x80000000 ∧ atan2f 1 0xFF7FFFFF = some 0x40490FDB := by unfold Pat Math.Spec.Finite Math.Spec.Zero; decide +kernel

/-- C166: the result has the sign of `y` and does not exceed the float next to π. -/
theorem C166_range {x y : Nat} (hpx : Pat b32 x) (hpy : Pat b32 y) (hx : Math.Spec.Finite b32 x) (hy : Math.Spec.Finite b32 y) (h0 : ¬ Zero b32 y) :
    ∃ r, atan2f y x = some r ∧ (negative b32 r ↔ negative b32 y) ∧ absOf b32 r ≤ 0x40490FDB := by
  obtain ⟨r, h1, h2, h3⟩ := C166_atan2f_partial hpx hpy hx hy h0
  have y0 : real b32 y ≠ 0 := by rw [← R_eq hpy]; exact fun e => h0 (R_zero e)
  refine ⟨r, h1, ?_, ?_⟩
  · have hs := R_sg (F := b32) y
    rw [R_eq hpy] at hs
    rw [negative_neg hpy]
    have ha := abs_pos.2 y0
    constructor
    · intro hn
      by_contra hc
      rw [Bool.not_eq_true] at hc
      rw [hc] at hs
      simp only [sg, Bool.false_eq_true, if_false, one_mul] at hs
      refine accurate_pos (by norm_num) ?_ h2 hn
      refine lt_of_le_of_ne (Complex.arg_nonneg_iff.2 ?_) ?_
      · show 0 ≤ real b32 y
        rw [hs]; exact ha.le
      · intro e
        exact y0 (Complex.arg_eq_zero_iff.1 e.symm).2
    · intro hn
      rw [hn] at hs
      simp only [sg, if_true] at hs
      refine accurate_neg (by norm_num) (Complex.arg_neg_iff.2 ?_) h2
      show real b32 y < 0
      linarith
  · refine (h3 0x40490FDB (by decide)).2 ((Complex.abs_arg_le_pi _).trans ?_)
    have b := Real.pi_lt_d20
    rw [real_lit (x := 0x40490FDB) (m := 13176795) (k := 22) (s := false) (by decide) (by decide) (by decide +kernel)]
    norm_num at b ⊢
    linarith

/-- C166 is violated as a claim of correct rounding: in the third quadrant a value next to a midpoint is rounded the other way than its mirror image in the second
quadrant, so the two results, for 0x1.0fd19cp0 and its opposite, with -0x1.b00fb6p0, are not both correctly rounded. -/
theorem C166_atan2f_violated : ∃ r s, atan2f 0x3F87E8CE 0xBFD807DB = some r ∧ atan2f 0xBF87E8CE 0xBFD807DB = some s ∧
    ¬ (Rounded b32 (Complex.arg ⟨real b32 0xBFD807DB, real b32 0x3F87E8CE⟩) r ∧ Rounded b32 (Complex.arg ⟨real b32 0xBFD807DB, real b32 0xBF87E8CE⟩) s) := by
  refine ⟨1076174669, 3223658318, by decide +kernel, by decide +kernel, ?_⟩
  rintro ⟨h1, h2⟩
  have e : real b32 0xBF87E8CE = -real b32 0x3F87E8CE := by
    rw [← R_eq (by unfold Pat; decide), ← R_eq (by unfold Pat; decide), R_signed, R_signed, show b32.neg 0xBF87E8CE = true by decide, show b32.neg 0x3F87E8CE = false by decide,
      show b32.abs 0xBF87E8CE = b32.abs 0x3F87E8CE by decide]
    simp
  have h0 : real b32 0x3F87E8CE ≠ 0 := by
    rw [← R_eq (by unfold Pat; decide)]
    intro c
    exact absurd (R_zero c) (by decide)
  have ha : Complex.arg ⟨real b32 0xBFD807DB, real b32 0xBF87E8CE⟩ = -Complex.arg ⟨real b32 0xBFD807DB, real b32 0x3F87E8CE⟩ := by
    have := Complex.arg_conj ⟨real b32 0xBFD807DB, real b32 0x3F87E8CE⟩
    rw [if_neg (fun c => h0 (Complex.arg_eq_pi_iff.1 c).2)] at this
    rw [← this, e]
    rfl
  have n1 := h1.near
  have n2 := h2.near
  rw [ha, abs_neg] at n2
  exact absurd (Hyp.nearest_unique n1 n2) (by unfold absOf; decide)

end Verif.Approx
