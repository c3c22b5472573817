import Verif.Hyp.Whole

/-!
# C141: `hypotf` is correctly rounded

For every pair of finite floats the result is the float nearest to the length of the hypotenuse, a tie going to the even one, and
infinity exactly when rounding overflows.
-/

namespace Verif.Hyp
open Verif.Float Verif.Math.Spec Verif.Hyp.Spec
open Verif.Math (flt)

theorem absOf_eq (F : Fmt) {x : Nat} : absOf F x = F.abs x := rfl

/-- The nearest pattern is unique. -/
theorem nearest_unique {F : Fmt} {v : ℝ} {r s : Nat} (hr : NearestReal F v r) (hs : NearestReal F v s) : r = s := by
  have main : ∀ {r s : Nat}, NearestReal F v r → NearestReal F v s → ¬ r < s := by
    intro r s hr hs h
    have e := le_antisymm (hr.best s hs.le) (hs.best r hr.le)
    have p1 := hr.even s hs.le (by omega) e
    have p2 := hs.even r hr.le (by omega) e.symm
    have m1 : (F.mag r : ℝ) < F.mag (r + 1) := by exact_mod_cast F.mag_strictMono (show r < r + 1 by omega)
    have m2 : (F.mag (r + 1) : ℝ) < F.mag s := by exact_mod_cast F.mag_strictMono (show r + 1 < s by omega)
    have b := hr.best (r + 1) (by have := hs.le; omega)
    rcases abs_cases (v - F.mag r) with c | c <;> rcases abs_cases (v - F.mag s) with d | d <;>
      rcases abs_cases (v - F.mag (r + 1)) with f | f <;> linarith
  have := main hr hs
  have := main hs hr
  omega

/-- C141: the hypotenuse of finite floats is correctly rounded; no operation inside is undefined. -/
theorem C141_hypotf {x y : Nat} (hx : Math.Spec.Finite b32 x) (hy : Math.Spec.Finite b32 y) :
    ∃ r, hypotf x y = some r ∧ NearestReal b32 (hyp b32 x y) r := by
  obtain ⟨r, e, h⟩ := hypotf_spec (x := x) (y := y) hx hy
  refine ⟨r, e, ?_⟩
  have := h.real
  unfold hyp
  rw [sq, sq]
  push_cast at this
  exact this

-- 3 and 4, 1 and 1; the largest float twice overflows; a small leg does not change the largest float
example : Math.Spec.Finite b32 0x40400000 ∧ Math.Spec.Finite b32 0xC0800000 ∧ hypotf 0x40400000 0xC0800000 = some 0x40A00000 := by
  unfold Math.Spec.Finite; decide +kernel
example : hypotf 0x3F800000 0x3F800000 = some 0x3FB504F3 := by decide +kernel
example : hypotf 0x7F7FFFFF 0x7F7FFFFF = some 0x7F800000 ∧ hypotf 0x7F7FFFFF 0x72000000 = some 0x7F7FFFFF := by decide +kernel
example : hypotf 0x00000001 0x80000001 = some 0x00000001 := by decide +kernel
-- this pair takes the exact decision: the rounded root lies on a midpoint
example : Math.Spec.Finite b32 0x3F8181C8 ∧ Math.Spec.Finite b32 0x3F74E351 ∧ hypotf 0x3F8181C8 0x3F74E351 = some 0x3FB239E8 ∧
    Cplx.fsqrt b64 (b64.add (b64.mul (Cplx.up 0x3F8181C8) (Cplx.up 0x3F8181C8)) (b64.mul (Cplx.up 0x3F74E351) (Cplx.up 0x3F74E351))) = 0x3FF6473D10000000 := by
  unfold Math.Spec.Finite; decide +kernel

/-- C141: the result is exact whenever the exact length is a finite float. -/
theorem C141_exact {x y z : Nat} (hx : Math.Spec.Finite b32 x) (hy : Math.Spec.Finite b32 y) (hz : z < b32.inf)
    (h : size b32 x ^ 2 + size b32 y ^ 2 = size b32 z ^ 2) : hypotf x y = some z := by
  obtain ⟨r, e, n⟩ := C141_hypotf hx hy
  rw [e]
  congr 1
  have hzs : absOf b32 z = z := Nat.mod_eq_of_lt (Nat.lt_trans hz Fmt.inf_lt)
  have hv : hyp b32 x y = b32.mag z := by
    unfold hyp
    have h' : (size b32 x : ℝ) ^ 2 + (size b32 y : ℝ) ^ 2 = (size b32 z : ℝ) ^ 2 := by exact_mod_cast h
    rw [h', Real.sqrt_sq (by positivity)]
    unfold size
    rw [hzs]
  have b := n.best z (Nat.le_of_lt hz)
  rw [hv, sub_self, abs_zero] at b
  have hm : (b32.mag z : ℝ) = b32.mag r := by
    have := abs_nonpos_iff.1 b
    linarith
  have hm' : b32.mag z = b32.mag r := by exact_mod_cast hm
  rcases Nat.lt_trichotomy r z with c | c | c
  · have := b32.mag_strictMono c; omega
  · exact c
  · have := b32.mag_strictMono c; omega

-- 5, 12, 13
example : Math.Spec.Finite b32 0x40A00000 ∧ Math.Spec.Finite b32 0xC1400000 ∧ 0x41500000 < b32.inf ∧
    size b32 0x40A00000 ^ 2 + size b32 0xC1400000 ^ 2 = size b32 0x41500000 ^ 2 := by
  unfold Math.Spec.Finite; decide +kernel

/-- C141: neither the order nor the signs of the legs matter. -/
theorem C141_symmetric {x y x' y' : Nat} (hx : Math.Spec.Finite b32 x) (hy : Math.Spec.Finite b32 y)
    (h : absOf b32 x' = absOf b32 x ∧ absOf b32 y' = absOf b32 y ∨ absOf b32 x' = absOf b32 y ∧ absOf b32 y' = absOf b32 x) :
    hypotf x' y' = hypotf x y := by
  have hv : hyp b32 x' y' = hyp b32 x y := by
    unfold hyp size
    rcases h with ⟨a, b⟩ | ⟨a, b⟩
    · rw [a, b]
    · rw [a, b, add_comm]
  have hx' : Math.Spec.Finite b32 x' := by
    unfold Math.Spec.Finite at *
    rcases h with ⟨a, _⟩ | ⟨a, _⟩ <;> rw [a] <;> assumption
  have hy' : Math.Spec.Finite b32 y' := by
    unfold Math.Spec.Finite at *
    rcases h with ⟨_, a⟩ | ⟨_, a⟩ <;> rw [a] <;> assumption
  obtain ⟨r, e, n⟩ := C141_hypotf hx hy
  obtain ⟨s, f, m⟩ := C141_hypotf hx' hy'
  rw [hv] at m
  rw [e, f, nearest_unique n m]

example : absOf b32 0xC0800000 = absOf b32 0x40800000 ∧ hypotf 0xC0800000 0x3F800000 = hypotf 0x3F800000 0x40800000 := by decide +kernel

/-- C141: an infinite leg gives infinity, even beside a NaN; otherwise a NaN gives a NaN. -/
theorem C141_special {x y : Nat} :
    (Math.Spec.Infinite b32 x ∨ Math.Spec.Infinite b32 y → hypotf x y = some b32.inf) ∧
    (¬ Math.Spec.Infinite b32 x → ¬ Math.Spec.Infinite b32 y → NaN b32 x ∨ NaN b32 y → ∃ r, hypotf x y = some r ∧ NaN b32 r) := by
  have ea : ∀ z, b32.abs (b32.abs z) = b32.abs z := fun z => Nat.mod_mod _ _
  have hi : ∀ z, Cplx.isInf b32 (b32.abs z) = true ↔ Math.Spec.Infinite b32 z := by
    intro z
    unfold Cplx.isInf
    rw [ea]
    simp only [decide_eq_true_eq]
    exact Iff.rfl
  have hf : ∀ z, b32.isFin (b32.abs z) = true ↔ b32.abs z < b32.inf := by
    intro z; rw [Fmt.isFin_iff, ea]
  constructor
  · intro h
    unfold hypotf
    have h1 : ¬ b32.isFin (b32.abs x) = true ∨ ¬ b32.isFin (b32.abs y) = true := by
      rw [hf, hf]
      rcases h with h | h
      · left; unfold Math.Spec.Infinite at h; rw [absOf_eq] at h; omega
      · right; unfold Math.Spec.Infinite at h; rw [absOf_eq] at h; omega
    have h2 : Cplx.isInf b32 (b32.abs x) = true ∨ Cplx.isInf b32 (b32.abs y) = true := by rw [hi, hi]; exact h
    simp only [if_pos h1, if_pos h2]
  · intro nx ny h
    unfold hypotf
    have h1 : ¬ b32.isFin (b32.abs x) = true ∨ ¬ b32.isFin (b32.abs y) = true := by
      rw [hf, hf]
      rcases h with h | h
      · left; unfold NaN at h; rw [absOf_eq] at h; omega
      · right; unfold NaN at h; rw [absOf_eq] at h; omega
    have h2 : ¬ (Cplx.isInf b32 (b32.abs x) = true ∨ Cplx.isInf b32 (b32.abs y) = true) := by
      rw [hi, hi]; rintro (c | c) <;> contradiction
    simp only [if_pos h1, if_neg h2]
    refine ⟨_, rfl, ?_⟩
    have h3 : b32.isNaN (b32.abs x) = true ∨ b32.isNaN (b32.abs y) = true := by
      rw [Fmt.isNaN_iff, Fmt.isNaN_iff, ea, ea]; exact h
    unfold Fmt.add
    rw [if_pos (by simpa using h3)]
    unfold NaN
    decide +kernel

example : Math.Spec.Infinite b32 0xFF800000 ∧ NaN b32 0x7FC00000 ∧ hypotf 0xFF800000 0x7FC00000 = some 0x7F800000 := by
  unfold Math.Spec.Infinite NaN; decide +kernel

end Verif.Hyp
