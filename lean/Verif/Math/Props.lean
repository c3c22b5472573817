import Verif.Math.Misc

/-!
# Properties of the bit-level math functions

Arguments are bit patterns; `value` is the exact value in units of the smallest subnormal. `none` would be
undefined behaviour, so a result `some …` says that none occurs.
-/

namespace Verif.Math
open Verif.Float Spec

/-! ### fmod -/

/-- C54: the remainder is exact, has the sign of `x` and is less than `|y|`. -/
theorem C54_fmod (x y : Nat) (hx : Pat b64 x) (hxf : Finite b64 x) (hyf : Finite b64 y) (hy0 : ¬ Zero b64 y) :
    ∃ r, fmod x y = some r ∧ RemTrunc b64 x y r := fmod_spec good_dbl rs_dbl hx hxf hy0 hyf

/-- C54: the same for float. -/
theorem C54_fmodf (x y : Nat) (hx : Pat b32 x) (hxf : Finite b32 x) (hyf : Finite b32 y) (hy0 : ¬ Zero b32 y) :
    ∃ r, fmodf x y = some r ∧ RemTrunc b32 x y r := fmod_spec good_flt rs_flt hx hxf hy0 hyf

/-- C54: an infinite divisor returns `x`; a zero divisor, an infinite dividend or a NaN returns NaN. -/
theorem C54_fmod_special (x y : Nat) :
    (Finite b64 x → Infinite b64 y → fmod x y = some x) ∧
    (¬ Finite b64 x ∨ Zero b64 y ∨ NaN b64 y → ∃ r, fmod x y = some r ∧ NaN b64 r) :=
  ⟨fmod_inf good_dbl, fun h => ⟨_, fmod_nan good_dbl h, nan_nan (by decide)⟩⟩

/-- 5.5 mod 2 = 1.5; -5.5 mod 2 = -1.5. -/
example : fmod 0x4016000000000000 0x4000000000000000 = some 0x3FF8000000000000 ∧
    fmod 0xC016000000000000 0x4000000000000000 = some 0xBFF8000000000000 ∧ Pat b64 0xC016000000000000 ∧
    Finite b64 0xC016000000000000 ∧ ¬ Zero b64 0x4000000000000000 := by
  refine ⟨by decide +kernel, by decide +kernel, ?_, ?_, ?_⟩
  · unfold Pat; decide
  · unfold Finite; decide
  · unfold Spec.Zero; decide

/-! ### nextafter, nexttoward -/

/-- C55: nextafter returns the neighbour of `x` in the direction of `y`, and `y` if they are equal. -/
theorem C55_nextafter (x y : Nat) (hx : Pat b64 x) (hy : Pat b64 y) (hxn : ¬ NaN b64 x) (hyn : ¬ NaN b64 y) :
    (value b64 x < value b64 y → ∃ r, nextafter dbl x y = some r ∧ NextUp b64 x r) ∧
    (value b64 y < value b64 x → ∃ r, nextafter dbl x y = some r ∧ NextDown b64 x r) ∧
    (value b64 x = value b64 y → nextafter dbl x y = some y) := nextafter_spec good_dbl hx hy hxn hyn

/-- C55: the same for float. -/
theorem C55_nextafterf (x y : Nat) (hx : Pat b32 x) (hy : Pat b32 y) (hxn : ¬ NaN b32 x) (hyn : ¬ NaN b32 y) :
    (value b32 x < value b32 y → ∃ r, nextafter flt x y = some r ∧ NextUp b32 x r) ∧
    (value b32 y < value b32 x → ∃ r, nextafter flt x y = some r ∧ NextDown b32 x r) ∧
    (value b32 x = value b32 y → nextafter flt x y = some y) := nextafter_spec good_flt hx hy hxn hyn

/-- C55: NaN propagates. -/
theorem C55_nextafter_nan (x y : Nat) (h : NaN b64 x ∨ NaN b64 y) : ∃ r, nextafter dbl x y = some r ∧ NaN b64 r :=
  nextafter_nan good_dbl h

/-- Upward from -0 is the smallest subnormal; downward from 1. -/
example : nextafter dbl 0x8000000000000000 0x3FF0000000000000 = some 1 ∧
    nextafter dbl 0x3FF0000000000000 0x8000000000000000 = some 0x3FEFFFFFFFFFFFFF ∧
    value b64 0x8000000000000000 < value b64 0x3FF0000000000000 := by
  refine ⟨by decide +kernel, by decide +kernel, by decide +kernel⟩

/-- C87: nexttoward, whose second argument is a `long double`, returns the neighbour of `x` in that
direction; for equal arguments `x` itself with the sign of the second one. -/
theorem C87_nexttoward (x y : Nat) (hx : Pat b64 x) (hy : Pat b128 y) (hxn : ¬ NaN b64 x) (hyn : ¬ NaN b128 y) :
    (wide b64 x < value b128 y → ∃ r, nexttoward dbl x y = some r ∧ NextUp b64 x r) ∧
    (value b128 y < wide b64 x → ∃ r, nexttoward dbl x y = some r ∧ NextDown b64 x r) ∧
    (wide b64 x = value b128 y → ∃ r, nexttoward dbl x y = some r ∧ Pat b64 r ∧ absOf b64 r = absOf b64 x ∧
      (negative b64 r ↔ negative b128 y)) := nexttoward_spec good_dbl (by decide) (by decide) hx hy hxn hyn

/-- C87: the same for float. -/
theorem C87_nexttowardf (x y : Nat) (hx : Pat b32 x) (hy : Pat b128 y) (hxn : ¬ NaN b32 x) (hyn : ¬ NaN b128 y) :
    (wide b32 x < value b128 y → ∃ r, nexttoward flt x y = some r ∧ NextUp b32 x r) ∧
    (value b128 y < wide b32 x → ∃ r, nexttoward flt x y = some r ∧ NextDown b32 x r) ∧
    (wide b32 x = value b128 y → ∃ r, nexttoward flt x y = some r ∧ Pat b32 r ∧ absOf b32 r = absOf b32 x ∧
      (negative b32 r ↔ negative b128 y)) := nexttoward_spec good_flt (by decide) (by decide) hx hy hxn hyn

/-- C87: NaN propagates. -/
theorem C87_nexttoward_nan (x y : Nat) (h : NaN b64 x ∨ NaN b128 y) : ∃ r, nexttoward dbl x y = some r ∧ NaN b64 r :=
  nexttoward_nan good_dbl h

/-- Toward 1 + 2^-112, which is closer to 1 than any double. -/
example : nexttoward dbl 0x3FF0000000000000 0x3FFF0000000000000000000000000001 = some 0x3FF0000000000001 ∧
    wide b64 0x3FF0000000000000 < value b128 0x3FFF0000000000000000000000000001 := by
  refine ⟨by decide +kernel, by decide +kernel⟩

/-! ### frexp -/

/-- `x = m * 2^e` exactly with `1/2 ≤ |m| < 1`. -/
def Frexp (F : Fmt) (x m : Nat) (e : Int) : Prop :=
  Pat F m ∧ (negative F m ↔ negative F x) ∧ 2 ^ F.unit ≤ 2 * size F m ∧ size F m < 2 ^ F.unit ∧
    size F x * 2 ^ (-e).toNat = size F m * 2 ^ e.toNat

theorem frexp_spec {L : Lit} (g : L.Good) {x : Nat} (hx : Pat L.fmt x) (hf : Finite L.fmt x) (h0 : ¬ Zero L.fmt x) :
    ∃ m e, frexp L x = some (m, e) ∧ Frexp L.fmt x m e := by
  obtain ⟨r, e, h1, h2, h3, h4, h5⟩ := frexp_eq g (Nat.pos_of_ne_zero h0) hf
  have hr := Nat.le_of_lt h2
  obtain ⟨u1, u2⟩ := Fmt.unit_eq g.ok
  have hof := g.ok.f
  have e1 : 2 ^ L.fmt.unit = 2 * 2 ^ (L.fmt.unit - 1) := by rw [← Nat.pow_succ']; congr 1; omega
  refine ⟨_, _, h1, pat_pack hr, by rw [negative_pack hr, negative_iff hx], ?_, ?_, ?_⟩
  · rw [size_eq, Fmt.abs_pack (Nat.lt_trans h2 Fmt.inf_lt)]; omega
  · rw [size_eq, Fmt.abs_pack (Nat.lt_trans h2 Fmt.inf_lt)]; exact h4
  · rw [size_eq, size_eq, Fmt.abs_pack (Nat.lt_trans h2 Fmt.inf_lt)]; exact h5

/-- C56: frexp decomposes every nonzero finite double exactly. -/
theorem C56_frexp (x : Nat) (hx : Pat b64 x) (hf : Finite b64 x) (h0 : ¬ Zero b64 x) :
    ∃ m e, frexp dbl x = some (m, e) ∧ Frexp b64 x m e := frexp_spec good_dbl hx hf h0

/-- C56: and every nonzero finite float. -/
theorem C56_frexpf (x : Nat) (hx : Pat b32 x) (hf : Finite b32 x) (h0 : ¬ Zero b32 x) :
    ∃ m e, frexp flt x = some (m, e) ∧ Frexp b32 x m e := frexp_spec good_flt hx hf h0

/-- C56: zeros, infinities and NaNs are returned unchanged. -/
theorem C56_frexp_special (x : Nat) (h : Zero b64 x ∨ ¬ Finite b64 x) : ∃ e, frexp dbl x = some (x, e) := by
  refine ⟨0, ?_⟩
  unfold frexp
  simp only
  rw [if_pos]
  rcases h with h | h
  · exact Or.inl h
  · exact Or.inr (Nat.le_of_not_lt h)

/-- The smallest subnormal is 1/2 * 2^-1073. -/
example : frexp dbl 1 = some (0x3FE0000000000000, -1073) ∧ ¬ Zero b64 1 := by
  refine ⟨by decide +kernel, ?_⟩
  unfold Spec.Zero; decide

/-! ### scalbn -/

/-- C57: scalbn rounds once, to nearest with ties to even. -/
theorem C57_scalbn (x : Nat) (n : Int) (hx : Pat b64 x) (hf : Finite b64 x) (h0 : ¬ Zero b64 x) :
    ∃ r, scalbn x n = some r ∧ Scaled b64 x n r := by
  have hr := rnd_le (F := b64) (b64.mag (b64.abs x) * 2 ^ n.toNat) (2 ^ (-n).toNat) (Nat.two_pow_pos _)
  refine ⟨_, scalbn_eq n (Nat.pos_of_ne_zero h0) hf, pat_pack hr, by rw [negative_pack hr, negative_iff hx], ?_⟩
  rw [absOf_pack hr]
  exact rnd_nearest _ _ (Nat.two_pow_pos _)

/-- C57: zeros, infinities and NaNs are returned unchanged. -/
theorem C57_scalbn_special (x : Nat) (n : Int) (h : Zero b64 x ∨ ¬ Finite b64 x) : scalbn x n = some x := by
  unfold scalbn
  simp only
  rw [if_pos]
  rcases h with h | h
  · exact Or.inl h
  · exact Or.inr (Nat.le_of_not_lt h)

/-- C57: scalbnf, which multiplies in double, also rounds once. -/
theorem C57_scalbnf (x : Nat) (n : Int) (hx : Pat b32 x) (hf : Finite b32 x) : Scaled b32 x n (scalbnf x n) := by
  have hr := rnd_le (F := b32) (b32.mag (b32.abs x) * 2 ^ n.toNat) (2 ^ (-n).toNat) (Nat.two_pow_pos _)
  rw [scalbnf_eq n hf]
  refine ⟨pat_pack hr, by rw [negative_pack hr, negative_iff hx], ?_⟩
  rw [absOf_pack hr]
  exact rnd_nearest _ _ (Nat.two_pow_pos _)

/-- C57: infinities and NaNs. -/
theorem C57_scalbnf_special (x : Nat) (n : Int) (hx : Pat b32 x) :
    (Infinite b32 x → scalbnf x n = x) ∧ (NaN b32 x → NaN b32 (scalbnf x n)) :=
  ⟨scalbnf_inf n hx, scalbnf_nan n⟩

/-- 3 * 2^-1076 is three quarters of the smallest subnormal; 2^-1075 is the tie that goes to zero. -/
example : scalbn 0x4008000000000000 (-1076) = some 1 ∧ scalbn 0x3FF0000000000000 (-1075) = some 0 ∧
    scalbn 0x3FF0000000000000 2000 = some 0x7FF0000000000000 := by
  refine ⟨by decide +kernel, by decide +kernel, by decide +kernel⟩

/-! ### ilogb, logb -/

theorem logb_spec {L : Lit} (g : L.Good) {x : Nat} (hb : L.fmt.unit ≤ 2 ^ (L.fmt.f + 1)) (hb2 : L.fmt.bias ≤ L.fmt.unit)
    (hb3 : L.fmt.unit * 2 ^ L.fmt.unit ≤ L.fmt.mag L.fmt.inf) (hf : Finite L.fmt x) (h0 : ¬ Zero L.fmt x) :
    ∃ k r, ilogb L x = some k ∧ logb L x = some r ∧ Exponent L.fmt x k ∧ Pat L.fmt r ∧ value L.fmt r = k * 2 ^ L.fmt.unit := by
  obtain ⟨k, h1, h2, h3, h4, h5, h6⟩ := ilogb_eq g (Nat.pos_of_ne_zero h0) hf
  have hk : k.natAbs ≤ L.fmt.unit := by omega
  obtain ⟨p1, p2⟩ := ofInt_exact (F := L.fmt) g.ok (k := k) (by omega) (Nat.le_trans (Nat.mul_le_mul_right _ hk) hb3)
  exact ⟨k, _, h1, h2, ⟨h3, h4, h5⟩, p1, p2⟩

/-- C58: both return the exponent `k` with `2^k ≤ |x| < 2^(k+1)`. -/
theorem C58_logb (x : Nat) (hf : Finite b64 x) (h0 : ¬ Zero b64 x) :
    ∃ k r, ilogb dbl x = some k ∧ logb dbl x = some r ∧ Exponent b64 x k ∧ Pat b64 r ∧ value b64 r = k * 2 ^ b64.unit :=
  logb_spec good_dbl (by decide) (by decide) (by decide +kernel) hf h0

/-- C58: the same for float. -/
theorem C58_logbf (x : Nat) (hf : Finite b32 x) (h0 : ¬ Zero b32 x) :
    ∃ k r, ilogb flt x = some k ∧ logb flt x = some r ∧ Exponent b32 x k ∧ Pat b32 r ∧ value b32 r = k * 2 ^ b32.unit :=
  logb_spec good_flt (by decide) (by decide) (by decide +kernel) hf h0

/-- C58: zero gives `FP_ILOGB0` and -∞, an infinity `INT_MAX` and ∞. -/
theorem C58_logb_special (x : Nat) :
    (Zero b64 x → ilogb dbl x = some (-2147483648) ∧ logb dbl x = some 0xFFF0000000000000) ∧
    (Infinite b64 x → ilogb dbl x = some 2147483647 ∧ logb dbl x = some 0x7FF0000000000000) := by
  refine ⟨fun h => ?_, fun h => ?_⟩
  · have h' : dbl.fmt.abs x = 0 := h
    unfold ilogb logb
    simp only
    rw [h']
    exact ⟨rfl, by decide⟩
  · have h' : dbl.fmt.abs x = 0x7FF0000000000000 := h
    unfold ilogb logb
    simp only
    rw [h']
    exact ⟨by decide, by decide⟩

example : ilogb dbl 1 = some (-1074) ∧ logb dbl 0xC008000000000000 = some 0x3FF0000000000000 := by
  refine ⟨by decide +kernel, by decide +kernel⟩

/-! ### remainder, remquo -/

/-- C88: remainder is `x - q * y` exactly for the nearest integer `q`, even in a tie. -/
theorem C88_remainder (x y : Nat) (hx : Pat b64 x) (hy : Pat b64 y) (hxf : Finite b64 x) (hyf : Finite b64 y) (hy0 : ¬ Zero b64 y) :
    ∃ r q, remainder x y = some r ∧ RemNear b64 x y q r := remainder_spec good_dbl rs_dbl hx hy hxf hy0 hyf

/-- C88: the same for float. -/
theorem C88_remainderf (x y : Nat) (hx : Pat b32 x) (hy : Pat b32 y) (hxf : Finite b32 x) (hyf : Finite b32 y) (hy0 : ¬ Zero b32 y) :
    ∃ r q, remainderf x y = some r ∧ RemNear b32 x y q r := remainder_spec good_flt rs_flt hx hy hxf hy0 hyf

/-- C88: an infinite divisor returns `x`; a zero divisor, an infinite dividend or a NaN returns NaN. -/
theorem C88_remainder_special (x y : Nat) (hx : Pat b64 x) :
    (Finite b64 x → Infinite b64 y → remainder x y = some x) ∧
    (¬ Finite b64 x ∨ Zero b64 y ∨ NaN b64 y → ∃ r, remainder x y = some r ∧ NaN b64 r) :=
  ⟨remainder_inf good_dbl hx, remainder_nan good_dbl⟩

/-- 5 rem 3 = -1; the tie 3 rem 2 = -1, as 3/2 goes to 2. -/
example : remainder 0x4014000000000000 0x4008000000000000 = some 0xBFF0000000000000 ∧
    remainder 0x4008000000000000 0x4000000000000000 = some 0xBFF0000000000000 := by
  refine ⟨by decide +kernel, by decide +kernel⟩

/-- The full claim C59. -/
def C59_full : Prop := ∀ x y, Pat b64 x → Pat b64 y → Finite b64 x → Finite b64 y → ¬ Zero b64 y →
  ∃ r k, remquo x y = some (r, k) ∧ RemQuo b64 x y r k

/-- C59 does not hold: remquo(5, -3) stores 2, although 5 / -3 is negative. -/
theorem C59_remquo_violated : ¬ C59_full := by
  intro h
  obtain ⟨r, k, h1, q, _, h2, h3, h4⟩ := h 0x4014000000000000 0xC008000000000000 (by unfold Pat; decide) (by unfold Pat; decide)
    (by unfold Finite; decide) (by unfold Finite; decide) (by unfold Spec.Zero; decide)
  have e : remquo 0x4014000000000000 0xC008000000000000 = some (0xBFF0000000000000, 2) := by decide +kernel
  rw [e] at h1
  have hk : k = 2 := (Prod.mk.inj (Option.some.inj h1)).2.symm
  have := h4 (by unfold negative; decide)
  omega

/-- C59 for divisors that are not negative; for the others, the remainder and the magnitude of the quotient
are right. Missing: the sign of the quotient for negative divisors. -/
theorem C59_remquo_partial (x y : Nat) (hx : Pat b64 x) (hy : Pat b64 y) (hxf : Finite b64 x) (hyf : Finite b64 y) (hy0 : ¬ Zero b64 y) :
    ∃ r k, remquo x y = some (r, k) ∧ (¬ negative b64 y → RemQuo b64 x y r k) ∧
      ∃ q, RemNear b64 x y q r ∧ k.natAbs % 8 = q.natAbs % 8 := by
  obtain ⟨r, k, q, h1, h2, h3, h4, h5⟩ := remquo_spec good_dbl rs_dbl hx hy hxf hy0 hyf
  exact ⟨r, k, h1, fun hn => ⟨q, h2, h3, fun h => h5 (fun hh => hn (h.1 hh)), fun h => h4 (Classical.byContradiction fun hh => h ⟨fun a => absurd a hh, fun a => absurd a hn⟩)⟩, q, h2, h3⟩

/-- C59: the same for float. -/
theorem C59_remquof_partial (x y : Nat) (hx : Pat b32 x) (hy : Pat b32 y) (hxf : Finite b32 x) (hyf : Finite b32 y) (hy0 : ¬ Zero b32 y) :
    ∃ r k, remquof x y = some (r, k) ∧ (¬ negative b32 y → RemQuo b32 x y r k) ∧
      ∃ q, RemNear b32 x y q r ∧ k.natAbs % 8 = q.natAbs % 8 := by
  obtain ⟨r, k, q, h1, h2, h3, h4, h5⟩ := remquo_spec good_flt rs_flt hx hy hxf hy0 hyf
  exact ⟨r, k, h1, fun hn => ⟨q, h2, h3, fun h => h5 (fun hh => hn (h.1 hh)), fun h => h4 (Classical.byContradiction fun hh => h ⟨fun a => absurd a hh, fun a => absurd a hn⟩)⟩, q, h2, h3⟩

/-- -17 / 5 is -3.4: the quotient is -3, the remainder -2. -/
example : remquo 0xC031000000000000 0x4014000000000000 = some (0xC000000000000000, -3) ∧ ¬ negative b64 0x4014000000000000 := by
  refine ⟨by decide +kernel, ?_⟩
  unfold negative; decide

/-! ### fma -/

/-- The full claim C60 for finite arguments. -/
def C60_full : Prop := ∀ a b c, Pat b64 a → Pat b64 b → Pat b64 c → Finite b64 a → Finite b64 b → Finite b64 c →
  ∃ r, fma a b c = some r ∧ Rounded b64 (value b64 a * value b64 b + value b64 c * 2 ^ b64.unit) (2 ^ b64.unit) r

/-- C60 does not hold: fma(1, 1, -1) is -1/4. -/
theorem C60_fma_violated : ¬ C60_full := by
  intro h
  obtain ⟨r, h1, h2, h3, h4⟩ := h 0x3FF0000000000000 0x3FF0000000000000 0xBFF0000000000000 (by unfold Pat; decide) (by unfold Pat; decide)
    (by unfold Pat; decide) (by unfold Finite; decide) (by unfold Finite; decide) (by unfold Finite; decide)
  have e : fma 0x3FF0000000000000 0x3FF0000000000000 0xBFF0000000000000 = some 0xBFD0000000000000 := by decide +kernel
  rw [e] at h1
  have hr : r = 0xBFD0000000000000 := (Option.some.inj h1).symm
  rw [hr] at h4
  have z : (value b64 0x3FF0000000000000 * value b64 0x3FF0000000000000 + value b64 0xBFF0000000000000 * 2 ^ b64.unit).natAbs = 0 := by decide +kernel
  rw [z] at h4
  have h0 := Nearest.unique (Nat.two_pow_pos b64.unit) h4 (nearest_exact (n := 0) (Nat.two_pow_pos b64.unit) (by omega) (by rw [b64.mag_zero, Nat.mul_zero]))
  exact absurd h0 (by decide)

/-- C60 also fails far from cancellation: an addend of 1 hides the product (1 - 2^-53)^2 * -2^-53, although
that is more than half of the distance to the double below 1. -/
theorem C60_fma_absorbs : fma 0x3FEFFFFFFFFFFFFF 0xBC9FFFFFFFFFFFFF 0x3FF0000000000000 = some 0x3FF0000000000000 ∧
    ¬ Rounded b64 (value b64 0x3FEFFFFFFFFFFFFF * value b64 0xBC9FFFFFFFFFFFFF + value b64 0x3FF0000000000000 * 2 ^ b64.unit) (2 ^ b64.unit)
      0x3FF0000000000000 := by
  refine ⟨by decide +kernel, fun h => ?_⟩
  obtain ⟨_, _, h4⟩ := h
  have hb := h4.best 0x3FEFFFFFFFFFFFFF (by decide)
  revert hb
  decide +kernel

/-- C60 when one argument is zero. Missing: the general case, which the code gets wrong. -/
theorem C60_fma_zero_partial (a b c : Nat) (ha : Pat b64 a) (hb : Pat b64 b) (hc : Pat b64 c) (haf : Finite b64 a) (hbf : Finite b64 b)
    (hcf : Finite b64 c) (h : Zero b64 a ∨ Zero b64 b ∨ Zero b64 c) :
    ∃ r, fma a b c = some r ∧ Rounded b64 (value b64 a * value b64 b + value b64 c * 2 ^ b64.unit) (2 ^ b64.unit) r :=
  fma_zero ha hb hc haf hbf hcf h

example : fma 0x4008000000000000 0x4000000000000000 0 = some 0x4018000000000000 ∧ Zero b64 0 := by
  refine ⟨by decide +kernel, ?_⟩
  unfold Spec.Zero; decide

/-- C60 when `c` is at least 2^54 times larger than the product and has the same sign or is not a power of
two. -/
theorem C60_fma_far_partial (a b c : Nat) (ka kb kc : Int) (ha : Pat b64 a) (hb : Pat b64 b) (hc : Pat b64 c)
    (haf : Finite b64 a) (hbf : Finite b64 b) (hcf : Finite b64 c)
    (hka : Exponent b64 a ka) (hkb : Exponent b64 b kb) (hkc : Exponent b64 c kc) (h : ka + kb + 54 < kc)
    (hs : (negative b64 a ↔ negative b64 b) ∧ ¬ negative b64 c ∨ ¬ (negative b64 a ↔ negative b64 b) ∧ negative b64 c ∨ ∀ k, size b64 c ≠ 2 ^ k) :
    ∃ r, fma a b c = some r ∧ Rounded b64 (value b64 a * value b64 b + value b64 c * 2 ^ b64.unit) (2 ^ b64.unit) r := by
  obtain ⟨h1, h2⟩ := fma_big ha hb hc haf hbf hcf hka hkb hkc h hs
  exact ⟨c, h1, h2⟩

example : Exponent b64 0x3FF0000000000000 0 ∧ Exponent b64 0x43F0000000000000 64 ∧
    fma 0x3FF0000000000000 0x3FF0000000000000 0x43F0000000000000 = some 0x43F0000000000000 := by
  refine ⟨?_, ?_, by decide +kernel⟩ <;> (unfold Exponent; decide +kernel)

/-! ### Rounding to integers -/

/-- C61: the full claim. -/
def C61_full : Prop := ∀ x, Pat b64 x → Finite b64 x → ∃ n, RoundAway b64 x n ∧ lround x = clamp 32 n

theorem round_away {F : Fmt} {x : Nat} (hx : Pat F x) : RoundAway F x (sgnd (F.neg x) (away F.unit (F.mag (F.abs x)))) := by
  refine ⟨?_, ?_, ?_⟩
  · rw [sgnd_abs]; rfl
  · rw [negative_iff hx]
    intro h; rw [h]; unfold sgnd; rw [if_pos rfl]; omega
  · rw [negative_iff hx]
    intro h
    have : F.neg x = false := by cases hh : F.neg x; rfl; exact absurd hh h
    rw [this]; unfold sgnd; rw [if_neg (by simp)]; omega

/-- C61 does not hold: 0.49999999999999994 is rounded to 1. -/
theorem C61_lround_violated : ¬ C61_full := by
  intro h
  obtain ⟨n, ⟨h1, _, _⟩, h2⟩ := h 0x3FDFFFFFFFFFFFFF (by unfold Pat; decide) (by unfold Finite; decide)
  have e : lround 0x3FDFFFFFFFFFFFFF = 1 := by decide +kernel
  have e2 : (2 * size b64 0x3FDFFFFFFFFFFFFF + 2 ^ b64.unit) / (2 * 2 ^ b64.unit) = 0 := by decide +kernel
  rw [e2] at h1
  have hn : n = 0 := by omega
  rw [e, hn] at h2
  exact absurd h2 (by decide)

/-- C61 for every double but that one and its negative. -/
theorem C61_lround_partial (x : Nat) (hx : Pat b64 x) (hf : Finite b64 x) (hbad : absOf b64 x ≠ 0x3FDFFFFFFFFFFFFF) :
    ∃ n, RoundAway b64 x n ∧ lround x = clamp 32 n := ⟨_, round_away hx, lround_eq hf hbad⟩

example : lround 0xC004000000000000 = -3 ∧ lround 0x41F0000000000000 = 2147483647 ∧ absOf b64 0xC004000000000000 ≠ 0x3FDFFFFFFFFFFFFF := by
  refine ⟨by decide +kernel, by decide +kernel, by decide⟩

/-- C89: llround rounds halves away from zero and saturates. -/
theorem C89_llround (x : Nat) (hx : Pat b64 x) (hf : Finite b64 x) : ∃ n, RoundAway b64 x n ∧ llround x = clamp 64 n :=
  ⟨_, round_away hx, llround_eq hf⟩

/-- C89: lroundf, through a sum in double, always rounds right. -/
theorem C89_lroundf (x : Nat) (hx : Pat b32 x) (hf : Finite b32 x) : ∃ n, RoundAway b32 x n ∧ lroundf x = clamp 32 n :=
  ⟨_, round_away hx, lroundf_eq hf⟩

/-- C89: llroundf. -/
theorem C89_llroundf (x : Nat) (hx : Pat b32 x) (hf : Finite b32 x) : ∃ n, RoundAway b32 x n ∧ llroundf x = clamp 64 n :=
  ⟨_, round_away hx, llroundf_eq hf⟩

example : llround 0x3FDFFFFFFFFFFFFF = 0 ∧ llround 0xBFE0000000000000 = -1 ∧ lroundf 0x3EFFFFFF = 0 ∧ llroundf 0x7F000000 = 9223372036854775807 := by
  refine ⟨by decide +kernel, by decide +kernel, by decide +kernel, by decide +kernel⟩

/-- `r` is the integer `n` as a floating-point number, with the sign of `x` also if it is zero. -/
def IsInteger (F : Fmt) (x r : Nat) (n : Int) : Prop :=
  Pat F r ∧ ¬ NaN F r ∧ value F r = n * 2 ^ F.unit ∧ (negative F r ↔ negative F x)

theorem is_integer {F : Fmt} {x k N : Nat} (hx : Pat F x) (hk : k ≤ F.inf) (h : F.mag k = N * 2 ^ F.unit) :
    IsInteger F x (F.pack (F.neg x) k) (sgnd (F.neg x) N) := by
  refine ⟨pat_pack hk, ?_, ?_, by rw [negative_pack hk, negative_iff hx]⟩
  · intro hn
    have : absOf F (F.pack (F.neg x) k) = k := absOf_pack hk
    unfold Spec.NaN at hn
    omega
  · rw [value_pack hk, h]
    have hUc : (2 : Int) ^ F.unit = ((2 ^ F.unit : Nat) : Int) := by simp
    have := sgnd_mul (F.neg x) false N (2 ^ F.unit)
    rw [show sgnd false (2 ^ F.unit) = ((2 ^ F.unit : Nat) : Int) from rfl, Bool.bne_false] at this
    rw [hUc, this]

/-- C90: round returns the nearest integer, halves away from zero. -/
theorem C90_round (x : Nat) (hx : Pat b64 x) (hf : Finite b64 x) : ∃ n, RoundAway b64 x n ∧ IsInteger b64 x (round x) n := by
  obtain ⟨k, h1, h2, h3⟩ := round_eq hf
  exact ⟨_, round_away hx, by rw [h1]; exact is_integer hx h2 h3⟩

/-- C90: roundf. -/
theorem C90_roundf (x : Nat) (hx : Pat b32 x) (hf : Finite b32 x) : ∃ n, RoundAway b32 x n ∧ IsInteger b32 x (roundf x) n := by
  obtain ⟨k, h1, h2, h3⟩ := roundf_eq hf
  exact ⟨_, round_away hx, by rw [h1]; exact is_integer hx h2 h3⟩

/-- C90: infinities are returned unchanged, NaN gives NaN. -/
theorem C90_round_special (x : Nat) :
    (Pat b64 x → Infinite b64 x → round x = x) ∧ (NaN b64 x → NaN b64 (round x)) ∧
    (Pat b32 x → Infinite b32 x → roundf x = x) ∧ (NaN b32 x → NaN b32 (roundf x)) :=
  ⟨round_inf, round_nan, roundf_inf, roundf_nan⟩

example : round 0xBFDFFFFFFFFFFFFF = 0x8000000000000000 ∧ round 0x4004000000000000 = 0x4008000000000000 ∧ roundf 0xC0200000 = 0xC0400000 := by
  refine ⟨by decide +kernel, by decide +kernel, by decide +kernel⟩

theorem round_even {F : Fmt} {x : Nat} (hx : Pat F x) : RoundEven F x (sgnd (F.neg x) (Fmt.nearInt (F.mag (F.abs x)) F.unit)) := by
  have hU := Nat.two_pow_pos F.unit
  have hUc : (2 : Int) ^ F.unit = ((2 ^ F.unit : Nat) : Int) := by simp
  have hm := sgnd_mul (F.neg x) false (Fmt.nearInt (F.mag (F.abs x)) F.unit) (2 ^ F.unit)
  rw [show sgnd false (2 ^ F.unit) = ((2 ^ F.unit : Nat) : Int) from rfl, Bool.bne_false] at hm
  unfold RoundEven
  rw [value_eq hx, val_sgnd, hUc, hm]
  have hdm := Nat.div_add_mod (F.mag (F.abs x)) (2 ^ F.unit)
  have hlt := Nat.mod_lt (F.mag (F.abs x)) hU
  unfold Fmt.nearInt at *
  generalize F.mag (F.abs x) = M at *
  generalize 2 ^ F.unit = U at *
  generalize M / U = q at *
  generalize M % U = r at *
  rw [Nat.mul_comm] at hdm
  split
  · rename_i hc
    rw [Nat.add_mul, Nat.one_mul]
    unfold sgnd
    cases F.neg x <;> simp only [if_true, Bool.false_eq_true, if_false] <;> omega
  · rename_i hc
    unfold sgnd
    cases F.neg x <;> simp only [if_true, Bool.false_eq_true, if_false] <;> omega

/-- C91: lrint and llrint round to the nearest integer, halves to even, and saturate. -/
theorem C91_lrint (x : Nat) (hx : Pat b64 x) (hf : Finite b64 x) :
    ∃ n, RoundEven b64 x n ∧ lrint b64 x = clamp 32 n ∧ llrint b64 x = clamp 64 n :=
  ⟨_, round_even hx, lrint_eq ok64 sat64_32 hf, lrint_eq ok64 sat64_64 hf⟩

/-- C91: lrintf and llrintf, although `LONG_MAX` and `LLONG_MAX` are no floats. -/
theorem C91_lrintf (x : Nat) (hx : Pat b32 x) (hf : Finite b32 x) :
    ∃ n, RoundEven b32 x n ∧ lrint b32 x = clamp 32 n ∧ llrint b32 x = clamp 64 n :=
  ⟨_, round_even hx, lrint_eq ok32 sat32_32 hf, lrint_eq ok32 sat32_64 hf⟩

example : lrint b64 0x4004000000000000 = 2 ∧ lrint b64 0xC00C000000000000 = -4 ∧ llrint b32 0x5F000000 = 9223372036854775807 ∧
    lrint b32 0xCF000000 = -2147483648 := by
  refine ⟨by decide +kernel, by decide +kernel, by decide +kernel, by decide +kernel⟩

/-! ### modf, fdim, fmax, fmin -/

/-- C92: modf splits exactly; both parts have the sign of the argument. -/
theorem C92_modf (x : Nat) :
    (Pat b64 x → Finite b64 x → Parts b64 x (modf b64 x).1 (modf b64 x).2) ∧
    (Pat b32 x → Finite b32 x → Parts b32 x (modf b32 x).1 (modf b32 x).2) := ⟨modf_spec, modf_spec⟩

/-- C92: an infinity has itself as integral part and a zero of its sign as fraction. -/
theorem C92_modf_inf (x : Nat) (hx : Pat b64 x) (h : Infinite b64 x) :
    (modf b64 x).2 = x ∧ Zero b64 (modf b64 x).1 ∧ (negative b64 (modf b64 x).1 ↔ negative b64 x) := modf_inf hx h

example : modf b64 0xC00C000000000000 = (0xBFE0000000000000, 0xC008000000000000) ∧ modf b64 0xC008000000000000 = (0x8000000000000000, 0xC008000000000000) := by
  refine ⟨by decide +kernel, by decide +kernel⟩

/-- C93: fmax and fmin return one of the arguments, not less (greater) than either; a NaN is ignored. -/
theorem C93_fmax (F : Fmt) (x y : Nat) (hx : Pat F x) (hy : Pat F y) (hxn : ¬ NaN F x) (hyn : ¬ NaN F y) :
    ((fmax F x y = x ∨ fmax F x y = y) ∧ value F x ≤ value F (fmax F x y) ∧ value F y ≤ value F (fmax F x y)) ∧
    ((fmin F x y = x ∨ fmin F x y = y) ∧ value F (fmin F x y) ≤ value F x ∧ value F (fmin F x y) ≤ value F y) :=
  ⟨fmax_spec hx hy hxn hyn, fmin_spec hx hy hxn hyn⟩

/-- C93: a NaN is ignored. -/
theorem C93_fmax_nan (F : Fmt) (x y : Nat) :
    (NaN F y → fmax F x y = x ∧ fmin F x y = x) ∧ (NaN F x → ¬ NaN F y → fmax F x y = y ∧ fmin F x y = y) := fmax_fmin_nan

/-- C93: fdim is the positive difference, rounded once; NaN propagates. -/
theorem C93_fdim (x y : Nat) (hx : Pat b64 x) (hy : Pat b64 y) :
    (Finite b64 x → Finite b64 y → value b64 x ≤ value b64 y → fdim b64 x y = 0) ∧
    (Finite b64 x → Finite b64 y → value b64 y < value b64 x → Rounded b64 (value b64 x - value b64 y) 1 (fdim b64 x y)) ∧
    (NaN b64 x ∨ NaN b64 y → NaN b64 (fdim b64 x y)) :=
  ⟨fun h1 h2 => (fdim_spec ok64 hx hy h1 h2).1, fun h1 h2 => (fdim_spec ok64 hx hy h1 h2).2, fdim_nan ok64⟩

example : fmax b64 0x3FF0000000000000 0xC000000000000000 = 0x3FF0000000000000 ∧ fmin b64 0x3FF0000000000000 0xC000000000000000 = 0xC000000000000000 ∧
    fdim b64 0x3FF0000000000000 0xC000000000000000 = 0x4008000000000000 := by
  refine ⟨by decide +kernel, by decide +kernel, by decide +kernel⟩

end Verif.Math
