import Verif.Int128.FixLemmas

/-!
# C123: conversions from floating point to 128-bit integers

The integer that a conversion should give is the exact value, in units of the smallest subnormal, divided by the
number of units in one and rounded toward zero (`Int.tdiv`).
-/

namespace Verif.Int128
open Verif.Float Verif.Math Verif.Math.Spec

/-- The numbers less than `2^k` in magnitude. -/
def Below (F : Fmt) (k x : Nat) : Prop := Pat F x ∧ Finite F x ∧ size F x < 2 ^ (F.unit + k)

/-- The integral part. -/
def integral (F : Fmt) (x : Nat) : Int := (value F x).tdiv (2 ^ F.unit)

theorem integral_eq {F : Fmt} {x : Nat} (hx : Pat F x) :
    integral F x = if F.neg x then -((F.mag (F.abs x) / 2 ^ F.unit : Nat) : Int) else (F.mag (F.abs x) / 2 ^ F.unit : Nat) := by
  have e : (2 : Int) ^ F.unit = ((2 ^ F.unit : Nat) : Int) := by simp
  unfold integral
  rw [value_eq hx, e]
  unfold Fmt.val
  cases F.neg x
  · simp only [Bool.false_eq_true, if_false]; exact Int.ofNat_tdiv _ _ |>.symm
  · simp only [if_true]; rw [Int.neg_tdiv]; exact congrArg _ (Int.ofNat_tdiv _ _).symm

theorem signed_limbs {s : Bool} {a b : Nat} (ha : a < 2 ^ 64) (hb : b < 2 ^ 64) (h : a * 2 ^ 64 + b < 2 ^ 127) :
    joinSigned s a b = some (if s then -((a * 2 ^ 64 + b : Nat) : Int) else (a * 2 ^ 64 + b : Nat)) := by
  have e : ((a * 2 ^ 64 + b : Nat) : Int) = (a : Int) * 2 ^ 64 + b := by omega
  unfold joinSigned chk128
  rw [if_pos (show IsI128 ((a : Int) * 2 ^ 64) by unfold IsI128; omega), Option.bind_some, e]
  cases s
  · rw [if_neg (by decide), if_neg (by decide)]
  · rw [if_pos rfl, if_pos rfl, if_pos (show IsI128 (-((a : Int) * 2 ^ 64 + b)) by unfold IsI128; omega)]

theorem fixti_eq {F : Fmt} {down up x : Nat} (c : Consts F down up) (h : Below F 127 x) : fixti F down up x = some (integral F x) := by
  obtain ⟨hp, hf, hs⟩ := h
  rw [size_eq] at hs
  obtain ⟨a, b, e, ha, hb, hab⟩ := limbs_eq (r := F.abs x) c hf
    (Nat.lt_of_lt_of_le hs (Nat.pow_le_pow_right (by decide) (Nat.add_le_add_left (by decide) _)))
  have hlt : F.mag (F.abs x) / 2 ^ F.unit < 2 ^ 127 := (Nat.div_lt_iff_lt_mul (Nat.two_pow_pos _)).2 (by
    rw [← Nat.pow_add, Nat.add_comm 127]; exact hs)
  rw [← hab] at hlt
  rw [integral_eq hp, ← hab, ← signed_limbs ha hb hlt]
  unfold fixti
  rw [e, Option.bind_some]

theorem fixunsti_eq {F : Fmt} {down up one x : Nat} (c : Consts F down up) (h1 : one < F.inf) (h1' : F.mag one = 2 ^ F.unit)
    (h : Below F 128 x) (hn : -(2 ^ F.unit : Int) < value F x) : ∃ n, fixunsti F down up one x = some n ∧ (n : Int) = integral F x := by
  obtain ⟨hp, hf, hs⟩ := h
  have hf' : F.abs x < F.inf := hf
  have h1s := Nat.lt_trans h1 Fmt.inf_lt
  rw [size_eq] at hs
  have hlt := Fmt.lt_iff (F := F) (x := x) (y := one) (by omega) (by rw [Fmt.abs_of_lt h1s]; omega)
  rw [Fmt.val_of_lt h1s, h1'] at hlt
  rw [value_eq hp] at hn
  have hv : F.val x = if F.neg x then -(F.mag (F.abs x) : Int) else F.mag (F.abs x) := rfl
  have hU := Nat.two_pow_pos F.unit
  have ec : (2 : Int) ^ F.unit = ((2 ^ F.unit : Nat) : Int) := by simp
  rw [ec] at hn
  rw [integral_eq hp]
  unfold fixunsti
  by_cases hl : F.lt x one = true
  · rw [if_pos hl]
    have := hlt.1 hl
    have hz : F.mag (F.abs x) / 2 ^ F.unit = 0 := Nat.div_eq_of_lt (by
      cases hh : F.neg x <;> rw [hh] at hv <;> simp at hv <;> omega)
    refine ⟨0, rfl, ?_⟩
    rw [hz]; simp
  · rw [if_neg hl]
    have hnn : F.neg x = false := by
      cases hh : F.neg x
      · rfl
      · exfalso; apply hl; apply hlt.2; rw [hv, hh]; simp only [if_true]; omega
    have hx : F.abs x = x := by
      have := (Fmt.neg_iff hp); rw [hnn] at this; exact Fmt.abs_of_lt (by simp at this; omega)
    rw [hx] at hs hf' ⊢
    obtain ⟨a, b, e, ha, hb, hab⟩ := limbs_eq (r := x) c hf' hs
    rw [e]
    refine ⟨_, rfl, ?_⟩
    rw [hnn]
    simp only [Bool.false_eq_true, if_false]
    rw [Nat.shiftLeft_eq, Nat.mod_eq_of_lt (by omega), ← hab, Nat.mul_comm a, Nat.two_pow_add_eq_or_of_lt hb]

/-- The signed conversions give the integral part of every number of magnitude less than `2^127`.  Missing: the number
`-2^127`, which is representable in `__int128`. -/
theorem C123_signed_partial :
    (∀ x, Below b64 127 x → fixdfti x = some (integral b64 x)) ∧ (∀ x, Below b32 127 x → fixsfti x = some (integral b32 x)) :=
  ⟨fun _ h => fixti_eq c64 h, fun _ h => fixti_eq c32 h⟩

/-- `-2^127` shifts a one into the sign bit of a signed number. -/
theorem C123_min_is_undefined : integral b64 0xC7E0000000000000 = -2 ^ 127 ∧ fixdfti 0xC7E0000000000000 = none ∧
    integral b32 0xFF000000 = -2 ^ 127 ∧ fixsfti 0xFF000000 = none := by decide +kernel

/-- The unsigned conversions give the integral part of every number between `-1` and `2^128`, both excluded. -/
theorem C123_unsigned :
    (∀ x, Below b64 128 x → -(2 ^ b64.unit : Int) < value b64 x → ∃ n, fixunsdfti x = some n ∧ (n : Int) = integral b64 x) ∧
    (∀ x, Below b32 128 x → -(2 ^ b32.unit : Int) < value b32 x → ∃ n, fixunssfti x = some n ∧ (n : Int) = integral b32 x) :=
  ⟨fun _ h hn => fixunsti_eq c64 (by decide) (by decide +kernel) h hn, fun _ h hn => fixunsti_eq c32 (by decide) (by decide +kernel) h hn⟩

/-- Non-vacuity: `-(2^100 + 2^60) - 0.5`-like arguments, fractions and the largest ones. -/
example : Below b64 127 0xC630000000010000 ∧ fixdfti 0xC630000000010000 = some (-(2 ^ 100 + 2 ^ 64)) ∧ fixdfti 0xC004000000000000 = some (-2) ∧
    fixunsdfti 0x47EFFFFFFFFFFFFF = some (2 ^ 128 - 2 ^ 75) ∧ fixunssfti 0x7F7FFFFF = some (2 ^ 128 - 2 ^ 104) ∧
    fixunsdfti 0xBFE0000000000000 = some 0 := by
  unfold Below Finite Pat; decide +kernel

end Verif.Int128
