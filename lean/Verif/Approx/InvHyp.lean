import Verif.Approx.Sqrt
import Mathlib.Analysis.SpecialFunctions.Arsinh
import Mathlib.Analysis.SpecialFunctions.Arcosh
import Mathlib.Analysis.SpecialFunctions.Artanh

/-! # The errors of inverse hyperbolic functions in `double` -/

namespace Verif.Approx
open Verif.Float Verif.Approx.Spec
open Verif.Math.Spec (Pat absOf negative value)

theorem R32_pat {x : Nat} (hx : x < b32.inf) : Fin b32 x ∧ R b32 x = b32.mag x / 2 ^ b32.unit := by
  have e : b32.pack false x = x := by simp [Fmt.pack]
  refine ⟨by have := fin_pack (F := b32) (s := false) hx; rwa [e] at this, ?_⟩
  have := R_pack (F := b32) (s := false) hx.le
  rw [e] at this
  rw [this]; simp

theorem R32_le {x : Nat} (hx : Fin b32 x) : |R b32 x| ≤ 2 ^ 128 := by
  rw [abs_R]
  have m : b32.mag (b32.abs x) ≤ b32.mag b32.inf := b32.mag_mono (Nat.le_of_lt hx)
  rw [show b32.mag b32.inf = 2 ^ 128 * 2 ^ b32.unit by decide +kernel] at m
  have m' : (b32.mag (b32.abs x) : ℝ) ≤ 2 ^ 128 * 2 ^ b32.unit := by exact_mod_cast m
  rwa [div_le_iff₀ (by positivity)]

theorem R32_mono {a b : Nat} (h : a ≤ b) (hb : b < b32.inf) : R b32 a ≤ R b32 b := by
  rw [(R32_pat (Nat.lt_of_le_of_lt h hb)).2, (R32_pat hb).2]
  exact div_le_div_of_nonneg_right (by exact_mod_cast b32.mag_mono h) (by positivity)

theorem R32_zero_or {x : Nat} : R b32 x = 0 ∨ 1 / 2 ^ 150 ≤ |R b32 x| := by
  by_cases h0 : R b32 x = 0
  · exact Or.inl h0
  · right
    have := fin_ne_zero h0
    rw [show b32.unit = 149 from rfl] at this
    refine le_trans ?_ this
    norm_num

theorem ratio_upper {Y : ℝ} (h : 1 ≤ Y ∧ Y ≤ 1.41423) : |(Y - 1) / (Y + 1)| ≤ 0.17159 := by
  have h0 : 0 < Y + 1 := by linarith [h.1]
  rw [abs_div, abs_of_pos h0, div_le_iff₀ h0]
  refine abs_le.2 ⟨?_, ?_⟩ <;> linarith [h.1, h.2]

theorem rel_big {v ε : ℝ} (hv : |v| ≤ 2 ^ 240) (hε : ε ≤ 1) : (1 + ε) * |v| ≤ Mx := le_Mx (by
  have := mul_le_mul_of_nonneg_right (show 1 + ε ≤ 2 by linarith) (abs_nonneg v)
  refine this.trans ?_
  have : (2 : ℝ) * 2 ^ 240 ≤ 2 ^ 250 := by norm_num
  linarith)

theorem pat_div {x y : Nat} (hx : Fin b64 x) (hy : Fin b64 y) (hy0 : R b64 y ≠ 0) : Pat b64 (Arith.fdiv b64 x y) := by
  have h0 : b64.abs y ≠ 0 := fun e0 => hy0 (by rw [R_signed, e0, b64.mag_zero]; simp)
  have hm : 0 < b64.mag (b64.abs y) := by
    rcases Nat.eq_zero_or_pos (b64.mag (b64.abs y)) with h | h
    · exact absurd (Fmt.mag_eq_zero.1 h) h0
    · exact h
  unfold Arith.fdiv
  rw [Fmt.not_nan_of_fin hx, Fmt.not_nan_of_fin hy, Fmt.isFin_iff.2 hx, Fmt.isFin_iff.2 hy]
  simp only [Bool.false_eq_true, or_self, if_false, if_true, if_neg h0]
  exact Math.pat_pack (rnd_le _ _ hm)

/-! ### `asinhf` -/

theorem sq_add_one_sqrt (S : ℝ) : 1 ≤ √(S ^ 2 + 1) ∧ √(S ^ 2 + 1) ^ 2 = S ^ 2 + 1 :=
  ⟨Real.one_le_sqrt.2 (by nlinarith [sq_nonneg S]), Real.sq_sqrt (by positivity)⟩

theorem asinhFinite_rel {x : Nat} (hx : x < b32.inf) : Rel (asinhFinite (wide x)) (Real.arsinh (R b32 x)) (1 / 2 ^ 35) := by
  obtain ⟨f1, f2⟩ := R32_pat hx
  obtain ⟨w1, w2, w3, -⟩ := wideR f1
  obtain ⟨q1, q2, q3⟩ := square_R hx
  have hS : 0 ≤ R b32 x := by rw [f2]; positivity
  have hS' : R b32 x ≤ 2 ^ 128 := (le_abs_self _).trans (R32_le f1)
  have h1 : R b64 one = 1 := by rw [k_one.2]; norm_num
  have hz := R32_zero_or (x := x)
  rw [abs_of_nonneg hS] at hz
  unfold Real.arsinh asinhFinite
  rw [show (1 : ℝ) + R b32 x ^ 2 = R b32 x ^ 2 + 1 by ring]
  generalize hSS : R b32 x = S at *
  obtain ⟨c1, c2⟩ := sq_add_one_sqrt S
  have cle : √(S ^ 2 + 1) ≤ S + 1 := by
    rw [Real.sqrt_le_left (by linarith)]; nlinarith
  have hsq : S ^ 2 + 1 ≤ Mx := by
    refine le_trans ?_ (pow_le_Mx (k := 257) (by norm_num))
    have e : (2 : ℝ) ^ 257 = 2 * (2 ^ 128) ^ 2 := by rw [← pow_mul, ← pow_succ']
    have t : (1 : ℝ) ≤ 2 ^ 128 := by norm_num
    rw [e]
    generalize (2 : ℝ) ^ 128 = T at *
    clear e
    have := pow_le_pow_left₀ hS hS' 2
    have := one_le_pow₀ (n := 2) t
    linarith
  obtain ⟨a1, a2⟩ := add_err ok64 top_big q1 k_one.1 (by rw [q3, h1, abs_of_pos (by positivity)]; exact hsq)
  rw [q3, h1, eps64] at a2
  have ra : Rel (b64.add (b64.mul (wide x) (wide x)) one) (S ^ 2 + 1) (1 / 2 ^ 53) := ⟨a1, a2⟩
  have rc := ra.sqrt (η := 4 / 2 ^ 53) (pat_add q1 k_one.1) (by norm_num) (by
    have : (1 : ℝ) / 2 ^ 150 ≤ 1 := by norm_num
    nlinarith [sq_nonneg S]) (by norm_num)
  generalize Cplx.fsqrt b64 (b64.add (b64.mul (wide x) (wide x)) one) = c at *
  have rs : Rel (wide x) S (4 / 2 ^ 53) := (Rel.exact w1 w2).mono (by norm_num)
  have rw' := rc.add rs (by linarith) hS (η := 6 / 2 ^ 53) (by
    have := rel_big (v := √(S ^ 2 + 1) + S) (ε := 4 / 2 ^ 53) (by
      rw [abs_of_pos (by linarith)]
      have : (2 : ℝ) ^ 128 + 2 ^ 128 + 1 ≤ 2 ^ 240 := by norm_num
      linarith) (by norm_num)
    rwa [abs_of_pos (by linarith)] at this) (by norm_num)
  have hW : 0 < √(S ^ 2 + 1) + S := by linarith
  have hd := rw'.err
  rw [abs_of_pos hW] at hd
  have hlo : 1 / 2 ^ 200 < R b64 (b64.add c (wide x)) := by
    have := (abs_le.1 hd).1
    have : 1 ≤ √(S ^ 2 + 1) + S := by linarith
    generalize R b64 (b64.add c (wide x)) = A at *
    generalize √(S ^ 2 + 1) + S = W at *
    norm_num at *
    linarith
  have hp := pat_add rc.fin w1
  rw [add_comm S]
  by_cases he : exponent64 (b64.add c (wide x)) = 0
  · rw [if_neg (by simp [he])]
    obtain ⟨p1, p2⟩ := pat_normal hp rw'.fin hlo
    obtain ⟨-, s2, -, -, s5⟩ := split64 p1 p2
    rw [s5 he] at s2
    have hW2 : √(S ^ 2 + 1) + S ≤ 1.41423 := by
      have := (abs_le.1 hd).1
      have := s2.2
      generalize R b64 (b64.add c (wide x)) = A at *
      generalize √(S ^ 2 + 1) + S = W at *
      norm_num at *
      linarith
    have hC : 0 < √(S ^ 2 + 1) + 1 := by linarith
    have et : (√(S ^ 2 + 1) + S - 1) / (√(S ^ 2 + 1) + S + 1) = S / (√(S ^ 2 + 1) + 1) := by
      rw [div_eq_div_iff (by linarith) hC.ne']
      linear_combination c2
    have ht := ratio_upper (Y := √(S ^ 2 + 1) + S) ⟨by linarith, hW2⟩
    rw [log_ath hW]
    rw [et] at ht ⊢
    have r1 : Rel one 1 (4 / 2 ^ 53) := rel_one.mono (by norm_num)
    have rd := rc.add r1 (by linarith) (by norm_num) (η := 6 / 2 ^ 53) (le_Mx (by
      have : √(S ^ 2 + 1) + 1 ≤ 3 := by linarith
      have := mul_le_mul_of_nonneg_left this (show (0 : ℝ) ≤ 1 + 4 / 2 ^ 53 by norm_num)
      refine this.trans (by norm_num))) (by norm_num)
    have key : Rel (Arith.fdiv b64 (wide x) (b64.add c one)) (S / (√(S ^ 2 + 1) + 1)) (8 / 2 ^ 53) ∧
        (S / (√(S ^ 2 + 1) + 1) = 0 ∨ 1 / 2 ^ 155 ≤ |S / (√(S ^ 2 + 1) + 1)|) := by
      rcases hz with hz | hz
      · obtain ⟨g1, g2⟩ := div_zeroR w1 rd.fin (by rw [w2, hz]) (ne_of_gt (rd.pos hC (by norm_num)))
        exact ⟨⟨g1, by rw [g2, hz]; simp⟩, Or.inl (by rw [hz]; simp)⟩
      · have hl : 1 / 2 ^ 155 ≤ |S / (√(S ^ 2 + 1) + 1)| := by
          rw [abs_of_nonneg (by positivity), le_div_iff₀ hC]
          refine le_trans ?_ hz
          norm_num
          linarith
        refine ⟨(Rel.exact w1 w2).div rd (θ := 6.1 / 2 ^ 53) (by norm_num) hC.ne' (by norm_num) ?_ (le_trans (by norm_num) hl) (by norm_num), Or.inr hl⟩
        exact rel_big (ht.trans (by norm_num)) (by norm_num)
    obtain ⟨k1, k2⟩ := key
    have k := kernel_rel k1 ht k2
    have hu := abs_ath_le (ht.trans (by norm_num))
    have hl := abs_le_ath (t := S / (√(S ^ 2 + 1) + 1)) (lt_of_le_of_lt ht (by norm_num))
    refine (two_rel k ?_ ?_).mono (by norm_num)
    · refine hu.trans ?_
      refine (mul_le_mul_of_nonneg_left ht (by norm_num)).trans (by norm_num)
    · rcases k2 with k2 | k2
      · left; rw [k2, ath_zero]
      · right; exact le_trans (le_trans (by norm_num) k2) hl
  · rw [if_pos he]
    refine (logWide_rel hp rw'.fin hlo he hW (δ := 6 / 2 ^ 53) hd (by norm_num)).mono (by norm_num)

/-! ### `acoshf` -/

/-- The logarithm of a double; the exponent is zero. -/
theorem logWide_near {p : Nat} {V : ℝ} (hp : Pat b64 p) (hf : Fin b64 p) (he : exponent64 p = 0) (hV : 1 + 1 / 2 ^ 11 ≤ V)
    (hd : |R b64 p - V| ≤ 6 / 2 ^ 53 * V) : Rel (logWide p) (Real.log V) (1 / 2 ^ 35) := by
  have hV0 : 0 < V := lt_of_lt_of_le (by norm_num) hV
  have d := abs_le.1 hd
  have hlo : 1 / 2 ^ 200 < R b64 p := by
    norm_num at *
    linarith
  obtain ⟨p1, p2⟩ := pat_normal hp hf hlo
  obtain ⟨s1, s2, s3, s4, s5⟩ := split64 p1 p2
  have hg : R b64 (fraction64 p) = 1 ∨ 1 / 2 ^ 100 ≤ |R b64 (fraction64 p) - 1| := by
    right
    rw [s5 he]
    refine le_trans ?_ (le_abs_self _)
    norm_num at *
    linarith
  have k := log_core s1 s2 s3 s4 (fun _ => hg) (by norm_num : (0.4 : ℝ) ≤ 1 ∧ (1 : ℝ) ≤ 1.5) two_scale.1 two_scale.2
    (exponent_ap s4 (by have := log_two_bounds; constructor <;> linarith [this.1, this.2]) k_ln2.1 ln2_close)
    (fun h => by
      rw [h]
      obtain ⟨i1, i2⟩ := ofInt_R (e := 0) (by omega)
      exact (mul_zeroR i1 k_ln2.1 (Or.inl (by rw [i2]; simp))).2)
  rw [one_mul] at k
  have hm : 0.999 * V ≤ R b64 p := by
    norm_num at *
    linarith
  have l := log_lip (b := V) (m := 0.999 * V) (by positivity) hm (by linarith)
  have l2 : |Real.log (R b64 p) - Real.log V| ≤ 7 / 2 ^ 53 := by
    refine l.trans ?_
    rw [div_le_iff₀ (by positivity)]
    refine hd.trans ?_
    rw [← mul_assoc]
    exact mul_le_mul_of_nonneg_right (by norm_num) hV0.le
  have l3 : 1 / 2 ^ 12 ≤ Real.log V := by
    have a := Real.one_sub_inv_le_log_of_pos hV0
    have b : V⁻¹ ≤ (1 + 1 / 2 ^ 11)⁻¹ := inv_anti₀ (by norm_num) hV
    norm_num at *
    linarith
  refine k.shift (δ := 7 / 2 ^ 41) (l2.trans ?_) (by norm_num) (by norm_num)
  rw [abs_of_pos (lt_of_lt_of_le (by norm_num) l3)]
  refine le_trans ?_ (mul_le_mul_of_nonneg_left l3 (by norm_num))
  norm_num

theorem pat_sub {F : Fmt} {x y : Nat} (hx : Fin F x) (hy : Fin F y) : Pat F (F.sub x y) := pat_add hx (fin_opp hy)

theorem acoshFinite_rel {x : Nat} (h1 : 0x3F800001 ≤ x) (hx : x < b32.inf) : Rel (acoshFinite (wide x)) (Real.arcosh (R b32 x)) (1 / 2 ^ 35) := by
  obtain ⟨f1, f2⟩ := R32_pat hx
  obtain ⟨w1, w2, w3, -⟩ := wideR f1
  obtain ⟨q1, q2, q3⟩ := square_R hx
  have hC : 1 + 1 / 2 ^ 23 ≤ R b32 x := by
    have := R32_mono h1 hx
    rw [(lit32 (x := 0x3F800001) (m := 8388609) (k := 23) (s := false) (by decide) (by decide) (by decide +kernel)).2] at this
    refine le_trans ?_ this
    norm_num
  have hC' : R b32 x ≤ 2 ^ 128 := (le_abs_self _).trans (R32_le f1)
  have o1 : R b64 one = 1 := by rw [k_one.2]; norm_num
  unfold Real.arcosh acoshFinite
  generalize hSS : R b32 x = C at *
  have hq : 1 / 2 ^ 22 ≤ C ^ 2 - 1 := by nlinarith
  have hsq : C ^ 2 - 1 ≤ Mx := by
    refine le_trans ?_ (pow_le_Mx (k := 257) (by norm_num))
    have e : (2 : ℝ) ^ 257 = 2 * (2 ^ 128) ^ 2 := by rw [← pow_mul, ← pow_succ']
    have t : (1 : ℝ) ≤ 2 ^ 128 := by norm_num
    have c0 : 0 ≤ C := le_trans (by norm_num) hC
    rw [e]
    clear hC hq
    generalize (2 : ℝ) ^ 128 = T at *
    clear e
    have := pow_le_pow_left₀ c0 hC' 2
    have := one_le_pow₀ (n := 2) t
    linarith
  have hqp : 0 < C ^ 2 - 1 := lt_of_lt_of_le (by norm_num) hq
  obtain ⟨a1, a2⟩ := sub_err ok64 top_big q1 k_one.1 (by rw [q3, o1, abs_of_pos hqp]; exact hsq)
  rw [q3, o1, eps64] at a2
  have ra : Rel (b64.sub (b64.mul (wide x) (wide x)) one) (C ^ 2 - 1) (1 / 2 ^ 53) := ⟨a1, a2⟩
  have rs := ra.sqrt (η := 4 / 2 ^ 53) (pat_sub q1 k_one.1) (by norm_num) (le_trans (by norm_num) hq) (by norm_num)
  generalize Cplx.fsqrt b64 (b64.sub (b64.mul (wide x) (wide x)) one) = s at *
  have hs1 : 1 / 2 ^ 11 ≤ √(C ^ 2 - 1) := Real.le_sqrt_of_sq_le (by refine le_trans ?_ hq; norm_num)
  have hs2 : √(C ^ 2 - 1) ≤ C := by
    rw [Real.sqrt_le_left (by linarith)]; linarith
  have hC1 : 1 ≤ C := le_trans (by norm_num) hC
  have rc : Rel (wide x) C (4 / 2 ^ 53) := (Rel.exact w1 w2).mono (by norm_num)
  have rw' := rc.add rs (by linarith) (by linarith) (η := 6 / 2 ^ 53) (by
    have := rel_big (v := C + √(C ^ 2 - 1)) (ε := 4 / 2 ^ 53) (by
      rw [abs_of_pos (by linarith)]
      have : (2 : ℝ) ^ 128 + 2 ^ 128 + 1 ≤ 2 ^ 240 := by norm_num
      linarith) (by norm_num)
    rwa [abs_of_pos (by linarith)] at this) (by norm_num)
  have hW : 0 < C + √(C ^ 2 - 1) := by linarith
  have hd := rw'.err
  rw [abs_of_pos hW] at hd
  have hlo : 1 / 2 ^ 200 < R b64 (b64.add (wide x) s) := by
    have := (abs_le.1 hd).1
    have : 1 ≤ C + √(C ^ 2 - 1) := by linarith
    generalize R b64 (b64.add (wide x) s) = A at *
    generalize C + √(C ^ 2 - 1) = W at *
    norm_num at *
    linarith
  have hp := pat_add w1 rs.fin
  by_cases he : exponent64 (b64.add (wide x) s) = 0
  · exact logWide_near hp rw'.fin he (by linarith) hd
  · exact (logWide_rel hp rw'.fin hlo he hW (δ := 6 / 2 ^ 53) hd (by norm_num)).mono (by norm_num)

/-! ### `atanhf` -/

theorem k_halfln2 : Fin b64 (Arith.fdiv b64 ln2 two) ∧ R b64 (Arith.fdiv b64 ln2 two) = 6243314768165359 / 2 ^ 54 := by
  rw [show Arith.fdiv b64 ln2 two = 0x3FD62E42FEFA39EF by decide +kernel]
  exact_mod_cast lit_pos (x := 0x3FD62E42FEFA39EF) (E := 1021) (m := 6243314768165359) (k := 54) (by norm_num) (by norm_num) (by norm_num) (by norm_num)

theorem halfln2_close : |R b64 (Arith.fdiv b64 ln2 two) - 1 / 2 * Real.log 2| ≤ 1 / 2 ^ 53 := by
  obtain ⟨l1, l2⟩ := log_two_bounds
  rw [k_halfln2.2]
  refine abs_le.2 ⟨?_, ?_⟩ <;> norm_num at * <;> linarith

theorem mul_commR {F : Fmt} {x y : Nat} (hx : Fin F x) (hy : Fin F y) : F.mul x y = F.mul y x := by
  rw [Fmt.mul_fin hx hy, Fmt.mul_fin hy hx, Nat.mul_comm]
  cases F.neg x <;> cases F.neg y <;> rfl

theorem atanhFinite_rel {x : Nat} (hx : Fin b32 x) (h : |R b32 x| ≤ 1 - 1 / 2 ^ 24) :
    Rel (atanhFinite (wide x)) (Real.artanh (R b32 x)) (1 / 2 ^ 35) := by
  obtain ⟨w1, w2, -, -⟩ := wideR hx
  have hz := R32_zero_or (x := x)
  have hX := abs_le.1 h
  rw [Real.artanh_eq_half_log (by constructor <;> linarith [hX.1, hX.2, show (0 : ℝ) < 1 / 2 ^ 24 by norm_num])]
  have o1 : R b64 one = 1 := by rw [k_one.2]; norm_num
  unfold atanhFinite
  generalize hSS : R b32 x = X at *
  have g1 : 1 / 2 ^ 24 ≤ 1 + X := by linarith [hX.1]
  have g2 : 1 / 2 ^ 24 ≤ 1 - X := by linarith [hX.2]
  have p1 : 0 < 1 + X := lt_of_lt_of_le (by norm_num) g1
  have p2 : 0 < 1 - X := lt_of_lt_of_le (by norm_num) g2
  have m1 : 1 + X ≤ 2 := by linarith [hX.2, show (0 : ℝ) < 1 / 2 ^ 24 by norm_num]
  have m2 : 1 - X ≤ 2 := by linarith [hX.1, show (0 : ℝ) < 1 / 2 ^ 24 by norm_num]
  obtain ⟨a1, a2⟩ := add_err ok64 top_big k_one.1 w1 (by rw [o1, w2, abs_of_pos p1]; exact le_Mx (m1.trans (by norm_num)))
  obtain ⟨b1, b2⟩ := sub_err ok64 top_big k_one.1 w1 (by rw [o1, w2, abs_of_pos p2]; exact le_Mx (m2.trans (by norm_num)))
  rw [o1, w2, eps64] at a2 b2
  have ra : Rel (b64.add one (wide x)) (1 + X) (1 / 2 ^ 53) := ⟨a1, a2⟩
  have rb : Rel (b64.sub one (wide x)) (1 - X) (1 / 2 ^ 53) := ⟨b1, b2⟩
  have hV : 0 < (1 + X) / (1 - X) := div_pos p1 p2
  have hV1 : 1 / 2 ^ 25 ≤ (1 + X) / (1 - X) := by
    rw [le_div_iff₀ p2]; norm_num at *; linarith
  have hV2 : (1 + X) / (1 - X) ≤ 2 ^ 25 := by
    rw [div_le_iff₀ p2]; norm_num at *; linarith
  have rq := ra.div rb (θ := 2.1 / 2 ^ 53) (η := 4 / 2 ^ 53) (by norm_num) p2.ne' (by norm_num)
    (rel_big (by rw [abs_of_pos hV]; exact hV2.trans (by norm_num)) (by norm_num)) (by rw [abs_of_pos hV]; exact le_trans (by norm_num) hV1) (by norm_num)
  have hd := rq.err
  rw [abs_of_pos hV] at hd
  have hpat : Pat b64 (Arith.fdiv b64 (b64.add one (wide x)) (b64.sub one (wide x))) := pat_div a1 b1 (ne_of_gt (rb.pos p2 (by norm_num)))
  generalize Arith.fdiv b64 (b64.add one (wide x)) (b64.sub one (wide x)) = q at *
  have eX : X = ((1 + X) / (1 - X) - 1) / ((1 + X) / (1 - X) + 1) := by
    have : 1 - X ≠ 0 := p2.ne'
    field_simp
    ring
  generalize (1 + X) / (1 - X) = V at *
  have d := abs_le.1 hd
  have hlo : 1 / 2 ^ 200 < R b64 q := by
    norm_num at *
    linarith
  obtain ⟨n1, n2⟩ := pat_normal hpat rq.fin hlo
  obtain ⟨s1, s2, s3, s4, s5⟩ := split64 n1 n2
  by_cases he : exponent64 q = 0
  · rw [if_neg (by simp [he])]
    rw [s5 he] at s2
    have hXs : |X| ≤ 0.1716 := by
      rw [eX]
      have : 0.7070999 ≤ V ∧ V ≤ 1.4142201 := by
        norm_num at *
        constructor <;> linarith
      have h0 : 0 < V + 1 := by linarith [this.1]
      rw [abs_div, abs_of_pos h0, div_le_iff₀ h0]
      refine abs_le.2 ⟨?_, ?_⟩ <;> linarith [this.1, this.2]
    have k := kernelAtanh_rel (x := wide x) w1 (by rw [w2]; exact hXs) (by
      rw [w2]
      rcases hz with hz | hz
      · exact Or.inl hz
      · exact Or.inr (le_trans (by norm_num) hz))
    rw [w2] at k
    have : 1 / 2 * Real.log V = ath X := by rw [log_ath hV, ← eX]; ring
    rw [this]
    exact k.mono (by norm_num)
  · rw [if_pos he]
    have i := (ofInt_R (e := exponent64 q) (by omega)).1
    rw [mul_commR k_halfln2.1 i]
    have hb := exponent_ap s4 (c := 1 / 2 * Real.log 2) (by have := log_two_bounds; constructor <;> linarith [this.1, this.2]) k_halfln2.1 halfln2_close
    have ha := (kernel_log s1 s2).1
    have k := log_sum (c := 1 / 2) (a := kernelAtanh (ratio (fraction64 q))) s2 (by norm_num) he s4 (by
      rw [show 1 / 2 * Real.log (R b64 (fraction64 q)) = Real.log (R b64 (fraction64 q)) / 2 by ring]
      refine ha.mono ?_
      have := abs_nonneg (Real.log (R b64 (fraction64 q)))
      linarith) hb
    have hl : Real.log (R b64 (fraction64 q)) + exponent64 q * Real.log 2 = Real.log (R b64 q) := by
      conv_rhs => rw [s3, Real.log_mul (by linarith [s2.1]) (by positivity), Real.log_zpow]
    have hl' : 0.346 ≤ |Real.log (R b64 q)| := by
      rw [← hl]
      have hr := log_reduced s2
      obtain ⟨l1, l2⟩ := log_two_bounds
      have e1 : 1 ≤ |(exponent64 q : ℝ)| := by rw [← Int.cast_abs]; exact_mod_cast Int.one_le_abs he
      have t1 := abs_sub_abs_le_abs_sub (exponent64 q * Real.log 2) (-Real.log (R b64 (fraction64 q)))
      rw [abs_neg, abs_mul, abs_of_pos (by linarith : 0 < Real.log 2), sub_neg_eq_add, add_comm (exponent64 q * Real.log 2)] at t1
      have t2 := mul_le_mul e1 l1 (by norm_num) (abs_nonneg _)
      generalize Real.log 2 = s at *
      norm_num at *
      linarith
    rw [hl] at k
    have hm : 0.999 * V ≤ R b64 q := by
      norm_num at *
      linarith
    have l := log_lip (b := V) (m := 0.999 * V) (by positivity) hm (by linarith)
    have l2 : |Real.log (R b64 q) - Real.log V| ≤ 5 / 2 ^ 53 := by
      refine l.trans ?_
      rw [div_le_iff₀ (by positivity)]
      refine hd.trans ?_
      rw [← mul_assoc]
      exact mul_le_mul_of_nonneg_right (by norm_num) hV.le
    have l3 : 0.34 ≤ |Real.log V| := by
      have := abs_sub_abs_le_abs_sub (Real.log (R b64 q)) (Real.log V)
      norm_num at *
      linarith
    refine k.shift (δ := 20 / 2 ^ 53) ?_ (by norm_num) (by norm_num)
    rw [← mul_sub, abs_mul, abs_mul, abs_of_pos (by norm_num : (0 : ℝ) < 1 / 2)]
    linarith

end Verif.Approx
