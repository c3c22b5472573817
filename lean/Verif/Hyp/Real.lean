import Verif.Hyp.Spec
import Verif.Math.Lemmas
import Mathlib.Tactic.Linarith
import Mathlib.Tactic.Ring
import Mathlib.Tactic.Positivity

/-! # Correct rounding decided by comparisons with the midpoints -/

namespace Verif.Hyp
open Verif.Float Verif.Hyp.Spec

variable {F : Fmt}

theorem nearestReal_of_mid {v : ℝ} {r : Nat} (hr : r ≤ F.inf)
    (hi : r < F.inf → 2 * v ≤ F.mag r + F.mag (r + 1) ∧ (2 * v = F.mag r + F.mag (r + 1) → r % 2 = 0))
    (lo : 0 < r → (F.mag (r - 1) : ℝ) + F.mag r ≤ 2 * v ∧ ((F.mag (r - 1) : ℝ) + F.mag r = 2 * v → r % 2 = 0)) :
    NearestReal F v r := by
  have main : ∀ s ≤ F.inf, s ≠ r → |v - F.mag r| ≤ |v - F.mag s| ∧ (|v - F.mag r| = |v - F.mag s| → r % 2 = 0) := by
    intro s hs hne
    rcases Nat.lt_or_gt_of_ne hne with h | h
    · obtain ⟨h1, h2⟩ := lo (by omega)
      have a : (F.mag s : ℝ) ≤ F.mag (r - 1) := by exact_mod_cast F.mag_mono (show s ≤ r - 1 by omega)
      have b : (F.mag (r - 1) : ℝ) < F.mag r := by exact_mod_cast F.mag_strictMono (show r - 1 < r by omega)
      have c : |v - F.mag s| = v - F.mag s := abs_of_nonneg (by linarith)
      rw [c]
      refine ⟨abs_le.2 ⟨by linarith, by linarith⟩, fun e => h2 ?_⟩
      rcases abs_choice (v - F.mag r) with q | q <;> rw [q] at e <;> linarith
    · obtain ⟨h1, h2⟩ := hi (by omega)
      have a : (F.mag (r + 1) : ℝ) ≤ F.mag s := by exact_mod_cast F.mag_mono (show r + 1 ≤ s by omega)
      have b : (F.mag r : ℝ) < F.mag (r + 1) := by exact_mod_cast F.mag_strictMono (show r < r + 1 by omega)
      have c : |v - F.mag s| = F.mag s - v := by rw [abs_of_nonpos (by linarith)]; ring
      rw [c]
      refine ⟨abs_le.2 ⟨by linarith, by linarith⟩, fun e => h2 ?_⟩
      rcases abs_choice (v - F.mag r) with q | q <;> rw [q] at e <;> linarith
  refine ⟨hr, fun s hs => ?_, fun s hs hne => (main s hs hne).2⟩
  by_cases h : s = r
  · rw [h]
  · exact (main s hs h).1

/-- Rounding of the root of `S`, decided by squares. -/
structure NearSq (F : Fmt) (S r : Nat) : Prop where
  le : r ≤ F.inf
  hi : r < F.inf → 4 * S ≤ (F.mag r + F.mag (r + 1)) * (F.mag r + F.mag (r + 1)) ∧
    (4 * S = (F.mag r + F.mag (r + 1)) * (F.mag r + F.mag (r + 1)) → r % 2 = 0)
  lo : 0 < r → (F.mag (r - 1) + F.mag r) * (F.mag (r - 1) + F.mag r) ≤ 4 * S ∧
    ((F.mag (r - 1) + F.mag r) * (F.mag (r - 1) + F.mag r) = 4 * S → r % 2 = 0)

theorem NearSq.real {S r : Nat} (h : NearSq F S r) : NearestReal F (Real.sqrt S) r := by
  have h4 : 2 * Real.sqrt S = Real.sqrt (4 * S) := by
    rw [show (4 : ℝ) * S = (2 : ℝ) ^ 2 * S by ring, Real.sqrt_mul (by positivity), Real.sqrt_sq (by norm_num)]
  have key : ∀ M : Nat, (4 * S ≤ M * M → 2 * Real.sqrt S ≤ M) ∧ (M * M ≤ 4 * S → (M : ℝ) ≤ 2 * Real.sqrt S) ∧ (2 * Real.sqrt S = M → 4 * S = M * M) := by
    intro M
    rw [h4]
    refine ⟨fun h => ?_, fun h => ?_, fun h => ?_⟩
    · exact Real.sqrt_le_iff.2 ⟨by positivity, by rw [sq]; exact_mod_cast h⟩
    · exact Real.le_sqrt_of_sq_le (by rw [sq]; exact_mod_cast h)
    · have := Real.sq_sqrt (show (0 : ℝ) ≤ 4 * S by positivity)
      rw [h, sq] at this
      exact_mod_cast this.symm
  refine nearestReal_of_mid h.le (fun hi => ?_) (fun lo => ?_)
  · obtain ⟨h1, h2⟩ := h.hi hi
    have k := key (F.mag r + F.mag (r + 1))
    push_cast at k
    exact ⟨k.1 h1, fun e => h2 (k.2.2 e)⟩
  · obtain ⟨h1, h2⟩ := h.lo lo
    have k := key (F.mag (r - 1) + F.mag r)
    push_cast at k
    exact ⟨k.2.1 h1, fun e => h2 (k.2.2 e.symm).symm⟩

end Verif.Hyp
