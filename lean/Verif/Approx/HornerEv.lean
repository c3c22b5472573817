import Verif.Approx.ModelTrig
import Verif.Approx.TrigReal
import Verif.Approx.InvHypf
import Mathlib.Analysis.Real.Pi.Bounds

/-! # Horner's scheme in `double` against an integer polynomial -/

namespace Verif.Approx
open Verif.Float Verif.Approx.Spec
open Verif.Math.Spec (Pat)

/-- The doubles `cs` are the integers `zs` over `2^S`. -/
def link (S : Nat) : List Nat → List Int → Bool
  | [], [] => true
  | c :: cs, z :: zs => decide (b64.abs c < b64.inf) && decide (b64.val c * 2 ^ S = z * 2 ^ b64.unit) && link S cs zs
  | _, _ => false

theorem ratio_of {u S : Nat} {a z : Int} (h : a * 2 ^ S = z * 2 ^ u) : (a : ℝ) / 2 ^ u = z / 2 ^ S := by
  rw [div_eq_div_iff (by positivity) (by positivity)]
  exact_mod_cast h

theorem link_cons {S c : Nat} {z : Int} {cs : List Nat} {zs : List Int} (h : link S (c :: cs) (z :: zs) = true) :
    Fin b64 c ∧ R b64 c = z / 2 ^ S ∧ link S cs zs = true := by
  simp only [link, Bool.and_eq_true, decide_eq_true_eq] at h
  exact ⟨h.1.1, ratio_of h.1.2, h.2⟩

theorem psum_nonneg : (p : List Int) → 0 ≤ psum p
  | [] => le_rfl
  | a :: q => add_nonneg (abs_nonneg a) (psum_nonneg q)

theorem ev_div_le {u : ℝ} (hu : |u| ≤ 1) {S : Nat} {zs : List Int} (h : psum zs ≤ 3 * 2 ^ S) : |ev u zs / 2 ^ S| ≤ 3 := by
  rw [abs_div, abs_of_pos (show (0 : ℝ) < 2 ^ S by positivity), div_le_iff₀ (by positivity)]
  refine (ev_psum hu zs).trans ?_
  exact_mod_cast h

/-- Horner's scheme with coefficients that add up to at most 3, for an argument up to 1. -/
theorem horner_ev {S xx : Nat} {u : ℝ} (hx : Ap xx u (2 / 2 ^ 53)) (hu : |u| ≤ 1) :
    (cs : List Nat) → (zs : List Int) → link S cs zs = true → psum zs ≤ 3 * 2 ^ S → cs ≠ [] → cs.length ≤ 16 →
    Ap (horner xx cs) (ev u zs / 2 ^ S) (13 * cs.length / 2 ^ 53)
  | [], _, _, _, h, _ => absurd rfl h
  | [c], [], h, _, _, _ => by simp [link] at h
  | [c], [z], h, _, _, _ => by
    obtain ⟨h1, h2, -⟩ := link_cons h
    simp only [horner, ev, mul_zero, add_zero, List.length_singleton]
    rw [← h2]
    exact (Ap.exact h1).mono (by norm_num)
  | [c], z :: w :: zs, h, _, _, _ => by
    obtain ⟨-, -, h3⟩ := link_cons h
    simp [link] at h3
  | c :: d :: cs, [], h, _, _, _ => by simp [link] at h
  | c :: d :: cs, z :: zs, h, hs, _, hl => by
    obtain ⟨h1, h2, h3⟩ := link_cons h
    simp only [psum] at hs
    have hs' : psum zs ≤ 3 * 2 ^ S := by have := abs_nonneg z; omega
    have ih := horner_ev hx hu (d :: cs) zs h3 hs' (by simp) (by simp at hl ⊢; omega)
    have b1 := ev_div_le hu hs'
    have b2 := ev_div_le (zs := z :: zs) hu (by simpa [psum] using hs)
    have hn : (1 : ℝ) ≤ (d :: cs).length ∧ ((d :: cs).length : ℝ) ≤ 15 := by
      constructor
      · exact_mod_cast (by simp : 1 ≤ (d :: cs).length)
      · exact_mod_cast (by simp at hl ⊢; omega : (d :: cs).length ≤ 15)
    have e : ev u (z :: zs) / 2 ^ S = ev u zs / 2 ^ S * u + z / 2 ^ S := by simp only [ev]; ring
    have m := ih.mul hx b1 hu (by nlinarith [hn.1, hn.2])
    rw [e] at b2 ⊢
    rw [← h2] at b2 ⊢
    have hlen : (((c :: d :: cs).length : Nat) : ℝ) = (d :: cs).length + 1 := by push_cast [List.length_cons]; ring
    rw [hlen]
    show Ap (b64.add (b64.mul (horner xx (d :: cs)) xx) c) _ _
    generalize (((d :: cs).length : Nat) : ℝ) = n at *
    have a := m.add (Ap.exact h1) b2 (by norm_num; nlinarith [hn.1, hn.2])
    exact a.mono (by norm_num; nlinarith [hn.1, hn.2])

/-- A square. -/
theorem square_ap {x : Nat} (hx : Fin b64 x) (h : |R b64 x| ≤ 1) : Ap (b64.mul x x) (R b64 x ^ 2) (2 / 2 ^ 53) ∧ |R b64 x ^ 2| ≤ 1 := by
  have := (Ap.exact hx).mul (Ap.exact hx) h h (by norm_num)
  rw [← sq] at this
  exact ⟨this.mono (by norm_num), by rw [abs_pow]; exact pow_le_one₀ (abs_nonneg _) h⟩

/-- A positive value, from an absolute to a relative error. -/
theorem Ap.rel {x : Nat} {v e m : ℝ} (h : Ap x v e) (hm : 0 < m) (hv : m ≤ v) {η : ℝ} (hη : e ≤ η * m) : Rel x v η := by
  refine ⟨h.fin, h.err.trans (hη.trans ?_)⟩
  have : 0 ≤ η := nonneg_of_mul_nonneg_left (h.nonneg.trans hη) hm
  exact mul_le_mul_of_nonneg_left (hv.trans (le_abs_self _)) this

/-- A function whose derivative is at most 1 does not spread numbers. -/
theorem lip {f f' : ℝ → ℝ} (hf : ∀ x, HasDerivAt f (f' x) x) (hb : ∀ x, |f' x| ≤ 1) (a b : ℝ) : |f a - f b| ≤ |a - b| := by
  have := convex_univ.norm_image_sub_le_of_norm_hasDerivWithin_le (f := f) (f' := f') (C := 1) (s := Set.univ) (x := b) (y := a)
    (fun x _ => (hf x).hasDerivWithinAt) (fun x _ => by rw [Real.norm_eq_abs]; exact hb x) (Set.mem_univ _) (Set.mem_univ _)
  rwa [one_mul, Real.norm_eq_abs, Real.norm_eq_abs] at this

theorem arctan_lip (a b : ℝ) : |Real.arctan a - Real.arctan b| ≤ |a - b| :=
  lip Real.hasDerivAt_arctan (fun x => by
    rw [abs_of_pos (by positivity), div_le_one (by positivity)]; nlinarith [sq_nonneg x]) a b

theorem k_pi2 : Fin b64 pi2 ∧ |R b64 pi2 - Real.pi / 2| ≤ 1 / 2 ^ 53 := by
  have h := lit_pos (x := pi2) (E := 1023) (m := 7074237752028440) (k := 52) (by decide) (by decide) (by decide) (by decide)
  refine ⟨h.1, ?_⟩
  have a := Real.pi_gt_d20
  have b := Real.pi_lt_d20
  rw [h.2, abs_le]
  constructor <;> norm_num at a b ⊢ <;> linarith

theorem k_pi1 : Fin b64 pi1 ∧ |R b64 pi1 - Real.pi| ≤ 1 / 2 ^ 52 := by
  have h := lit_pos (x := pi1) (E := 1024) (m := 7074237752028440) (k := 51) (by decide) (by decide) (by decide) (by decide)
  refine ⟨h.1, ?_⟩
  have a := Real.pi_gt_d20
  have b := Real.pi_lt_d20
  rw [h.2, abs_le]
  constructor <;> norm_num at a b ⊢ <;> linarith

end Verif.Approx
