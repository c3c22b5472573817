import Verif.Hyp.Core
import Mathlib.Tactic.IntervalCases
import Mathlib.Tactic.NormNum

/-!
# The boundary of overflow

Past `FLT_MAX` the code trusts the rounding of the root. The rounded root can equal the midpoint between `FLT_MAX` and
`2^128` only when the exact sum of squares is at least its square: no sum of two squares of floats lies in the gap below. The
gap is excluded by residues modulo 16, and by a finite search over the larger operand.
-/

namespace Verif.Hyp
open Verif.Float Verif.Math
open Verif.Cplx
open Verif.Decimal (mid nearest_iff mid_form)

/-- No square lies in the gap of width `4^j` below `16 d (2^26 - 2 - d) 4^j`. -/
def gapFree (j d : Nat) : Bool :=
  let n := 16 * (d * (67108862 - d)) * 4 ^ j
  let s := Quad.rootGo (n - 1) 25 0
  decide (s * s < n - 4 ^ j)

def scan (j : Nat) : Nat → Nat → Bool
  | 0, s => gapFree j (2 * s + 1)
  | k + 1, s => scan j k s && scan j k (s + 2 ^ k)

theorem scan_spec (j : Nat) : ∀ k s, scan j k s = true → ∀ i, s ≤ i → i < s + 2 ^ k → gapFree j (2 * i + 1) = true := by
  intro k
  induction k with
  | zero =>
    intro s h i h1 h2
    obtain rfl : i = s := by omega
    exact h
  | succ k ih =>
    intro s h i h1 h2
    simp only [scan, Bool.and_eq_true] at h
    rw [Nat.pow_succ] at h2
    by_cases c : i < s + 2 ^ k
    · exact ih s h.1 i h1 c
    · exact ih _ h.2 i (by omega) (by omega)

theorem gapFree_spec {j d t : Nat} (h : gapFree j d = true) (h1 : 16 * (d * (67108862 - d)) * 4 ^ j ≤ 4 ^ j + t * t)
    (h2 : t * t < 16 * (d * (67108862 - d)) * 4 ^ j) (hn : 16 * (d * (67108862 - d)) * 4 ^ j ≤ 2 ^ 50) : False := by
  unfold gapFree at h
  simp only [decide_eq_true_eq] at h
  generalize 16 * (d * (67108862 - d)) * 4 ^ j = n at *
  obtain ⟨a, b⟩ := rootGo_spec (n - 1) 25 0 (by omega) (by
    have : (0 + 2 ^ 25) * (0 + 2 ^ 25) = 2 ^ 50 := by norm_num
    rw [this]; omega)
  generalize Quad.rootGo (n - 1) 25 0 = s at *
  have : t ≤ s := by
    by_contra hc
    have := Nat.mul_le_mul (show s + 1 ≤ t by omega) (show s + 1 ≤ t by omega)
    omega
  have := Nat.mul_le_mul this this
  omega

theorem scan2 : scan 2 14 0 = true := by decide +kernel
theorem scan3 : scan 3 12 0 = true := by decide +kernel
theorem scan4 : scan 4 10 0 = true := by decide +kernel
theorem scan5 : scan 5 8 0 = true := by decide +kernel
theorem scan6 : scan 6 6 0 = true := by decide +kernel
theorem scan7 : scan 7 4 0 = true := by decide +kernel
theorem scan8 : scan 8 2 0 = true := by decide +kernel
theorem scan9 : scan 9 0 0 = true := by decide +kernel

theorem sq_mod16 (y : Nat) : y * y % 16 = 0 ∨ y * y % 16 = 1 ∨ y * y % 16 = 4 ∨ y * y % 16 = 9 := by
  rw [Nat.mul_mod]
  have : y % 16 < 16 := Nat.mod_lt _ (by omega)
  generalize y % 16 = z at *
  interval_cases z <;> simp

/-- The search, for all admissible operands. -/
theorem no_gap {B t j : Nat} (hB : B < 2 ^ 24) (hB' : 2 ^ 23 ≤ B) (ht : j = 0 ∨ t < 2 ^ 24) (hj : j ≤ 10)
    (h1 : 16 * ((2 ^ 25 - 1) * (2 ^ 25 - 1)) * 4 ^ j ≤ 4 ^ j + (64 * (B * B) * 4 ^ j + t * t))
    (h2 : 64 * (B * B) * 4 ^ j + t * t < 16 * ((2 ^ 25 - 1) * (2 ^ 25 - 1)) * 4 ^ j) : False := by
  obtain ⟨i, rfl⟩ : ∃ i, B = 2 ^ 24 - 1 - i := ⟨2 ^ 24 - 1 - B, by omega⟩
  have hi : i < 2 ^ 23 := by omega
  have eN : 16 * ((2 ^ 25 - 1) * (2 ^ 25 - 1)) = 64 * ((2 ^ 24 - 1 - i) * (2 ^ 24 - 1 - i)) + 16 * ((2 * i + 1) * (67108862 - (2 * i + 1))) := by
    zify [show i ≤ 2 ^ 24 - 1 by omega, show 2 * i + 1 ≤ 67108862 by omega]
    norm_num
    ring
  have hP := Nat.two_pow_pos (2 * j)
  have e4 : 4 ^ j = 2 ^ (2 * j) := by rw [Nat.pow_mul]
  have hPle : 4 ^ j ≤ 4 ^ 10 := Nat.pow_le_pow_right (by omega) hj
  rw [eN, Nat.add_mul] at h1 h2
  have h1' : 16 * ((2 * i + 1) * (67108862 - (2 * i + 1))) * 4 ^ j ≤ 4 ^ j + t * t := by omega
  have h2' : t * t < 16 * ((2 * i + 1) * (67108862 - (2 * i + 1))) * 4 ^ j := by omega
  clear h1 h2 eN
  have hm := sq_mod16 t
  rcases ht with rfl | ht
  · rw [Nat.pow_zero, Nat.mul_one] at h1' h2'
    generalize (2 * i + 1) * (67108862 - (2 * i + 1)) = N at h1' h2'
    omega
  have htt : t * t ≤ (2 ^ 24 - 1) * (2 ^ 24 - 1) := Nat.mul_le_mul (by omega) (by omega)
  have hd : (2 * i + 1) * 4 ^ j < 2 ^ 19 := by
    have a : (2 * i + 1) * 2 ^ 25 ≤ (2 * i + 1) * (67108862 - (2 * i + 1)) := Nat.mul_le_mul_left _ (by omega)
    have b := Nat.mul_le_mul_right (4 ^ j) (Nat.mul_le_mul_left 16 a)
    have c : 16 * ((2 * i + 1) * 2 ^ 25) * 4 ^ j = (2 * i + 1) * 4 ^ j * 2 ^ 29 := by ring
    omega
  have hn : 16 * ((2 * i + 1) * (67108862 - (2 * i + 1))) * 4 ^ j ≤ 2 ^ 50 := by omega
  have fin : gapFree j (2 * i + 1) = true → False := fun h => gapFree_spec h h1' h2' hn
  generalize hN : (2 * i + 1) * (67108862 - (2 * i + 1)) = N at h1' h2'
  interval_cases j
  · omega
  · omega
  · exact fin (scan_spec 2 14 0 scan2 i (by omega) (by omega))
  · exact fin (scan_spec 3 12 0 scan3 i (by omega) (by omega))
  · exact fin (scan_spec 4 10 0 scan4 i (by omega) (by omega))
  · exact fin (scan_spec 5 8 0 scan5 i (by omega) (by omega))
  · exact fin (scan_spec 6 6 0 scan6 i (by omega) (by omega))
  · exact fin (scan_spec 7 4 0 scan7 i (by omega) (by omega))
  · exact fin (scan_spec 8 2 0 scan8 i (by omega) (by omega))
  · exact fin (scan_spec 9 0 0 scan9 i (by omega) (by omega))
  · omega

end Verif.Hyp
