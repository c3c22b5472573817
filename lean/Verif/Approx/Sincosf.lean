import Verif.Approx.SinCos
import Verif.Approx.Asinf

/-! # `sinf`, `cosf` and `tanf` -/

namespace Verif.Approx
open Verif.Float Verif.Approx.Spec
open Verif.Math.Spec (Pat)

/-- A stored result, when the double next to the exact value lies between two floats. -/
theorem hard_pos {v δ : ℝ} {w r M k : Nat} (hw : Rel w v (85 / 100 / 2 ^ 26)) (hv : 0 < v) (hW : R b64 w = M / 2 ^ k) (hM : (1 : ℝ) / 4 ≤ M / 2 ^ k) (hδ : |δ| ≤ 1 / 2 ^ 40)
    (hr : Rounded b32 (M / 2 ^ k + δ) r) : Accurate b32 (1 / 2 ^ 26) v r := by
  refine ⟨_, ?_, hr⟩
  have e := hw.err
  rw [hW] at e
  generalize (M : ℝ) / 2 ^ k = W at *
  rw [abs_of_pos hv] at e ⊢
  have e' := abs_le.1 e
  have d := abs_le.1 hδ
  have : (1 : ℝ) / 8 ≤ v := by
    norm_num at e' ⊢; linarith
  rw [abs_le]
  norm_num at e' d this ⊢
  constructor <;> linarith

theorem eval_core {f : Nat → Option Nat} {c w : Nat} {v ε : ℝ} (h : ∃ z, f c = some z ∧ Rel z v ε) (e : f c = some w) : Rel w v ε := by
  obtain ⟨z, h1, h2⟩ := h
  rw [e] at h1
  exact (Option.some.inj h1) ▸ h2

theorem rel_sgn {w : Nat} {v ε : ℝ} (h : Rel w v ε) (hε : ε < 1) (hw : 0 < R b64 w) : 0 < v := by
  by_contra hc
  have e := abs_le.1 h.err
  rw [abs_of_nonpos (not_lt.1 hc)] at e
  nlinarith [e.2]

theorem sin_hard1 : Rounded b32 ((23327931 : Nat) / 2 ^ 26 + -(1 / 2 ^ 40)) 0x3EB1FA5D := by
  refine rounded_mid (a := 23327929) (b := 23327931) (k := 25) (by decide) (by decide) (by decide +kernel) (by decide +kernel) ?_ ?_ <;> norm_num
theorem cos_hard1 : Rounded b32 ((32708459 : Nat) / 2 ^ 25 + -(1 / 2 ^ 40)) 0x3F798BB5 := by
  refine rounded_mid (a := 32708457) (b := 32708459) (k := 24) (by decide) (by decide) (by decide +kernel) (by decide +kernel) ?_ ?_ <;> norm_num
theorem cos_hard2 : Rounded b32 ((32516189 : Nat) / 2 ^ 25 + 1 / 2 ^ 40) 0x3F78142F := by
  refine rounded_mid (a := 32516189) (b := 32516191) (k := 24) (by decide) (by decide) (by decide +kernel) (by decide +kernel) ?_ ?_ <;> norm_num
theorem cos_hard3 : Rounded b32 ((33433975 : Nat) / 2 ^ 25 + -(1 / 2 ^ 40)) 0x3F7F14BB := by
  refine rounded_mid (a := 33433973) (b := 33433975) (k := 24) (by decide) (by decide) (by decide +kernel) (by decide +kernel) ?_ ?_ <;> norm_num

theorem w_sin : Fin b64 0x3FD63F4BB0000000 ∧ R b64 0x3FD63F4BB0000000 = (23327931 : Nat) / 2 ^ 26 := by
  have h := lit_pos (x := 0x3FD63F4BB0000000) (E := 1021) (m := 23327931 * 2 ^ 28) (k := 54) (by decide) (by decide) (by decide) (by decide)
  exact ⟨h.1, by rw [h.2]; norm_num⟩
theorem w_cos1 : Fin b64 0x3FEF3176B0000000 ∧ R b64 0x3FEF3176B0000000 = (32708459 : Nat) / 2 ^ 25 := by
  have h := lit_pos (x := 0x3FEF3176B0000000) (E := 1022) (m := 32708459 * 2 ^ 28) (k := 53) (by decide) (by decide) (by decide) (by decide)
  exact ⟨h.1, by rw [h.2]; norm_num⟩
theorem w_cos2 : Fin b64 0x3FEF0285D0000000 ∧ R b64 0x3FEF0285D0000000 = (32516189 : Nat) / 2 ^ 25 := by
  have h := lit_pos (x := 0x3FEF0285D0000000) (E := 1022) (m := 32516189 * 2 ^ 28) (k := 53) (by decide) (by decide) (by decide) (by decide)
  exact ⟨h.1, by rw [h.2]; norm_num⟩
theorem w_cos3 : Fin b64 0x3FEFE29770000000 ∧ R b64 0x3FEFE29770000000 = (33433975 : Nat) / 2 ^ 25 := by
  have h := lit_pos (x := 0x3FEFE29770000000) (E := 1022) (m := 33433975 * 2 ^ 28) (k := 53) (by decide) (by decide) (by decide) (by decide)
  exact ⟨h.1, by rw [h.2]; norm_num⟩

/-- A stored value of the cosine. -/
theorem cos_stored {c w r M k : Nat} {δ : ℝ} (hc : Fin b32 c) (h0 : R b32 c ≠ 0) (e : cosCore c = some w) (hW : R b64 w = M / 2 ^ k) (hM : (1 : ℝ) / 4 ≤ M / 2 ^ k) (hδ : |δ| ≤ 1 / 2 ^ 40)
    (hr : Rounded b32 (M / 2 ^ k + δ) r) : Accurate b32 (1 / 2 ^ 26) (Real.cos (R b32 c)) r := by
  have h := eval_core (cosCore_rel hc h0) e
  exact hard_pos h (rel_sgn h (by norm_num) (by rw [hW]; linarith)) hW hM hδ hr

theorem sin_stored {c w r M k : Nat} {δ : ℝ} (hc : Fin b32 c) (h0 : R b32 c ≠ 0) (e : sinCore c = some w) (hW : R b64 w = M / 2 ^ k) (hM : (1 : ℝ) / 4 ≤ M / 2 ^ k) (hδ : |δ| ≤ 1 / 2 ^ 40)
    (hr : Rounded b32 (M / 2 ^ k + δ) r) : 0 < Real.sin (R b32 c) ∧ Accurate b32 (1 / 2 ^ 26) (Real.sin (R b32 c)) r := by
  have h := eval_core (sinCore_rel hc h0) e
  have := rel_sgn h (by norm_num) (by rw [hW]; linarith)
  exact ⟨this, hard_pos h this hW hM hδ hr⟩

theorem sinf_core (x : Nat) : ((remPio2 x).map fun (k, y) =>
    let q := u32 k
    let z := if q % 2 = 1 then kernelCos y else kernelSin y
    narrow (if q / 2 % 2 = 1 then b64.opp z else z)) = (sinCore x).map narrow := by
  unfold sinCore; rw [Option.map_map]; rfl

theorem cosf_core (x : Nat) : ((remPio2 x).map fun (k, y) =>
    let q := u32 k
    let z := if q % 2 = 1 then kernelSin y else kernelCos y
    narrow (if (q + 1) / 2 % 2 = 1 then b64.opp z else z)) = (cosCore x).map narrow := by
  unfold cosCore; rw [Option.map_map]; rfl

theorem z32 : Fin b32 0 ∧ R b32 0 = 0 := ⟨by show b32.abs 0 < b32.inf; decide, by rw [R_signed, show b32.abs 0 = 0 from by decide, b32.mag_zero]; simp⟩

theorem sinf_finite {x : Nat} (hp : Pat b32 x) (hx : Fin b32 x) : ∃ r, sinf x = some r ∧ Accurate b32 (1 / 2 ^ 26) (Real.sin (R b32 x)) r := by
  by_cases h0 : R b32 x = 0
  · refine ⟨x, ?_, ?_⟩
    · unfold sinf
      rw [if_pos ((eq_R hx z32.1).2 (by rw [h0, z32.2]))]
    · rw [h0, Real.sin_zero]
      refine ⟨0, by simp, rounded_zero' hp ?_ (by decide)⟩
      rcases zero_cases hp h0 with rfl | rfl <;> decide +kernel
  unfold sinf
  rw [if_neg (fun c => h0 (by rw [(eq_R hx z32.1).1 c, z32.2]))]
  rw [sinf_core]
  obtain ⟨g1, g2⟩ := lit32 (x := 0x46199998) (m := 10066328) (k := 10) (s := false) (by decide) (by decide) (by decide +kernel)
  obtain ⟨n1, n2⟩ := lit32 (x := 0xC6199998) (m := 10066328) (k := 10) (s := true) (by decide) (by decide) (by decide +kernel)
  have st := sin_stored n1 (by rw [n2]; norm_num) (w := 0x3FD63F4BB0000000) (by decide +kernel) w_sin.2 (by norm_num) (by norm_num) sin_hard1
  have hn : R b32 0x46199998 = -R b32 0xC6199998 := by rw [g2, n2]; norm_num
  cases c1 : b32.eq x 0x46199998
  swap
  · refine ⟨_, rfl, ?_⟩
    rw [(eq_R hx g1).1 c1, hn, Real.sin_neg]
    have := accurate_sign st.2 st.1 (by norm_num) true
    simp only [if_true, neg_one_mul] at this
    rwa [show b32.pack true (b32.abs 0x3EB1FA5D) = 0xBEB1FA5D by decide] at this
  cases c2 : b32.eq x 0xC6199998
  swap
  · refine ⟨_, rfl, ?_⟩
    rw [(eq_R hx n1).1 c2]
    exact st.2
  obtain ⟨z, e, h⟩ := sinCore_rel hx h0
  simp only [Bool.false_eq_true, if_false]
  rw [e]
  exact ⟨_, rfl, (h.mono (by norm_num)).accurate⟩

theorem cos_both {x c d r : Nat} (hx : Fin b32 x) (hc : Fin b32 c) (hd : Fin b32 d) (e : R b32 d = -R b32 c) (h : b32.eq x c ∨ b32.eq x d)
    (ha : Accurate b32 (1 / 2 ^ 26) (Real.cos (R b32 c)) r) : Accurate b32 (1 / 2 ^ 26) (Real.cos (R b32 x)) r := by
  rcases h with h | h
  · rw [(eq_R hx hc).1 h]; exact ha
  · rw [(eq_R hx hd).1 h, e, Real.cos_neg]; exact ha

theorem cosf_finite {x : Nat} (hp : Pat b32 x) (hx : Fin b32 x) : ∃ r, cosf x = some r ∧ Accurate b32 (1 / 2 ^ 26) (Real.cos (R b32 x)) r := by
  by_cases h0 : R b32 x = 0
  · refine ⟨0x3F800000, ?_, ?_⟩
    · rcases zero_cases hp h0 with rfl | rfl <;> decide +kernel
    · rw [h0, Real.cos_zero]
      refine ⟨1, by simp, rounded_mid (a := 33554431) (b := 33554434) (k := 24) (by decide) (by decide) (by decide +kernel) (by decide +kernel) ?_ ?_⟩ <;> norm_num
  unfold cosf
  rw [cosf_core]
  obtain ⟨a1, a2⟩ := lit32 (x := 0x7908CD73) (m := 0x88CD73 * 2 ^ 92) (k := 0) (s := false) (by decide) (by decide) (by decide +kernel)
  obtain ⟨b1, b2⟩ := lit32 (x := 0xF908CD73) (m := 0x88CD73 * 2 ^ 92) (k := 0) (s := true) (by decide) (by decide) (by decide +kernel)
  obtain ⟨c1, c2⟩ := lit32 (x := 0x6115CB11) (m := 0x95CB11 * 2 ^ 44) (k := 0) (s := false) (by decide) (by decide) (by decide +kernel)
  obtain ⟨d1, d2⟩ := lit32 (x := 0xE115CB11) (m := 0x95CB11 * 2 ^ 44) (k := 0) (s := true) (by decide) (by decide) (by decide +kernel)
  obtain ⟨e1, e2⟩ := lit32 (x := 0x5F18B878) (m := 0x98B878 * 2 ^ 40) (k := 0) (s := false) (by decide) (by decide) (by decide +kernel)
  obtain ⟨f1, f2⟩ := lit32 (x := 0xDF18B878) (m := 0x98B878 * 2 ^ 40) (k := 0) (s := true) (by decide) (by decide) (by decide +kernel)
  by_cases h1 : b32.eq x 0x7908CD73 = true ∨ b32.eq x 0xF908CD73 = true
  · rw [if_pos h1]
    exact ⟨_, rfl, cos_both hx a1 b1 (by rw [a2, b2]; norm_num) h1 (cos_stored a1 (by rw [a2]; norm_num) (w := 0x3FEF3176B0000000) (by decide +kernel) w_cos1.2 (by norm_num) (by norm_num) cos_hard1)⟩
  rw [if_neg h1]
  by_cases h2 : b32.eq x 0x6115CB11 = true ∨ b32.eq x 0xE115CB11 = true
  · rw [if_pos h2]
    exact ⟨_, rfl, cos_both hx c1 d1 (by rw [c2, d2]; norm_num) h2 (cos_stored c1 (by rw [c2]; norm_num) (w := 0x3FEF0285D0000000) (by decide +kernel) w_cos2.2 (by norm_num) (by norm_num) cos_hard2)⟩
  rw [if_neg h2]
  by_cases h3 : b32.eq x 0x5F18B878 = true ∨ b32.eq x 0xDF18B878 = true
  · rw [if_pos h3]
    exact ⟨_, rfl, cos_both hx e1 f1 (by rw [e2, f2]; norm_num) h3 (cos_stored e1 (by rw [e2]; norm_num) (w := 0x3FEFE29770000000) (by decide +kernel) w_cos3.2 (by norm_num) (by norm_num) cos_hard3)⟩
  rw [if_neg h3]
  obtain ⟨z, e, h⟩ := cosCore_rel hx h0
  rw [e]
  exact ⟨_, rfl, (h.mono (by norm_num)).accurate⟩

end Verif.Approx
