import Verif.Approx.LogHard

/-! # The errors of `logf`, `log2f` and `log10f` -/

namespace Verif.Approx
open Verif.Float Verif.Approx.Spec
open Verif.Math.Spec (Pat absOf negative value)

theorem Rel.add_zero {a b : Nat} {v ε η : ℝ} (ha : Rel a v ε) (hb : Fin b64 b) (h : R b64 b = 0) (hM : (1 + ε) * |v| ≤ Mx)
    (hη : ε + (1 + ε) / 2 ^ 53 ≤ η) : Rel (b64.add a b) v η := by
  have := Rel.add_abs (w := 0) (d := 0) (η := η) (B := (1 + ε) * |v|) ha.fin hb ha.err (by rw [h]; simp) (by rw [_root_.add_zero, _root_.add_zero]; linarith) hM (by
    rw [_root_.add_zero, _root_.add_zero]
    have := mul_le_mul_of_nonneg_right hη (abs_nonneg v)
    linarith)
  rwa [_root_.add_zero] at this

/-- The logarithm of a reduced number and an exponent, in any base. -/
theorem log_core {y K b : Nat} {c V : ℝ} {e : Int} (hy : Fin b64 y) (h : 0.7071 ≤ R b64 y ∧ R b64 y ≤ 1.41422) (hV : V = R b64 y * 2 ^ e)
    (he : -1100 ≤ e ∧ e ≤ 1100) (hg : e = 0 → R b64 y = 1 ∨ 1 / 2 ^ 100 ≤ |R b64 y - 1|) (hc : 0.4 ≤ c ∧ c ≤ 1.5) (hK : Fin b64 K)
    (hK' : |R b64 K - 2 * c| ≤ 2 * c / 2 ^ 52) (hb : Ap b (e * (c * Real.log 2)) (|(e : ℝ)| * (3 / 2 ^ 53) + 1 / 2 ^ 250)) (hb0 : e = 0 → R b64 b = 0) :
    Rel (b64.add (b64.mul K (kernelAtanh (ratio y))) b) (c * Real.log V) (1 / 2 ^ 36) := by
  have hl : Real.log V = Real.log (R b64 y) + e * Real.log 2 := by
    rw [hV, Real.log_mul (by linarith [h.1]) (by positivity), Real.log_zpow]
  by_cases h0 : e = 0
  · have k := kernel_scaled_rel hy h hc hK hK' (hg h0)
    rw [hl, h0]
    simp only [Int.cast_zero, zero_mul, _root_.add_zero]
    refine k.add_zero hb.fin (hb0 h0) (le_Mx ?_) (by norm_num)
    rw [abs_mul, abs_of_pos (by linarith [hc.1] : 0 < c)]
    have := mul_le_mul hc.2 (log_reduced h) (abs_nonneg _) (by norm_num)
    have h2 := mul_le_mul_of_nonneg_left this (show (0 : ℝ) ≤ 1 + 1.34 / 10 ^ 11 by norm_num)
    exact h2.trans (by norm_num)
  · rw [hl]
    exact log_sum h hc h0 he (kernel_scaled hy h hc hK hK').1 hb

/-! ### Constants -/

theorem two_scale : Fin b64 two ∧ |R b64 two - 2 * 1| ≤ 2 * 1 / 2 ^ 52 := ⟨k_two.1, by rw [k_two.2]; norm_num⟩

theorem k_2log2e : Fin b64 (b64.mul two log2e) ∧ R b64 (b64.mul two log2e) = 6497320848556798 / 2 ^ 51 := by
  rw [show b64.mul two log2e = 0x40071547652B82FE by decide +kernel]
  exact_mod_cast lit_pos (x := 0x40071547652B82FE) (E := 1024) (m := 6497320848556798) (k := 51) (by norm_num) (by norm_num) (by norm_num) (by norm_num)

theorem k_2log10e : Fin b64 (b64.mul two log10e) ∧ R b64 (b64.mul two log10e) = 7823553867474190 / 2 ^ 53 := by
  rw [show b64.mul two log10e = 0x3FEBCB7B1526E50E by decide +kernel]
  exact_mod_cast lit_pos (x := 0x3FEBCB7B1526E50E) (E := 1022) (m := 7823553867474190) (k := 53) (by norm_num) (by norm_num) (by norm_num) (by norm_num)

theorem k_log10two : Fin b64 log10two ∧ R b64 log10two = 5422874305198591 / 2 ^ 54 := by
  exact_mod_cast lit_pos (x := log10two) (E := 1021) (m := 5422874305198591) (k := 54) (by norm_num [log10two]) (by norm_num) (by norm_num) (by norm_num)

theorem log2_scale : |R b64 (b64.mul two log2e) - 2 * (1 / Real.log 2)| ≤ 2 * (1 / Real.log 2) / 2 ^ 52 := by
  obtain ⟨l1, l2⟩ := log_two_bounds
  have hp : 0 < Real.log 2 := by linarith
  rw [k_2log2e.2, show (6497320848556798 / 2 ^ 51 : ℝ) - 2 * (1 / Real.log 2) = (6497320848556798 / 2 ^ 51 * Real.log 2 - 2) / Real.log 2 by field_simp,
    show 2 * (1 / Real.log 2) / 2 ^ 52 = (2 / 2 ^ 52) / Real.log 2 by ring, abs_div, abs_of_pos hp]
  refine div_le_div_of_nonneg_right (abs_le.2 ⟨?_, ?_⟩) hp.le <;> norm_num at * <;> linarith

theorem log10_scale : |R b64 (b64.mul two log10e) - 2 * (1 / Real.log 10)| ≤ 2 * (1 / Real.log 10) / 2 ^ 52 := by
  have l := abs_le.1 log_ten_sharp
  have hp : 0 < Real.log 10 := Real.log_pos (by norm_num)
  rw [k_2log10e.2, show (7823553867474190 / 2 ^ 53 : ℝ) - 2 * (1 / Real.log 10) = (7823553867474190 / 2 ^ 53 * Real.log 10 - 2) / Real.log 10 by field_simp,
    show 2 * (1 / Real.log 10) / 2 ^ 52 = (2 / 2 ^ 52) / Real.log 10 by ring, abs_div, abs_of_pos hp]
  generalize Real.log 10 = t at *
  refine div_le_div_of_nonneg_right (abs_le.2 ⟨?_, ?_⟩) hp.le <;> norm_num at * <;> linarith

theorem ln2_close : |R b64 ln2 - 1 * Real.log 2| ≤ 1 / 2 ^ 53 := by
  obtain ⟨l1, l2⟩ := log_two_bounds
  rw [k_ln2.2]
  refine abs_le.2 ⟨?_, ?_⟩ <;> norm_num at * <;> linarith

theorem log10two_close : |R b64 log10two - 1 / Real.log 10 * Real.log 2| ≤ 1 / 2 ^ 53 := by
  obtain ⟨l1, l2⟩ := log_two_bounds
  have l := abs_le.1 log_ten_sharp
  have hp : 0 < Real.log 10 := Real.log_pos (by norm_num)
  rw [k_log10two.2, show (5422874305198591 / 2 ^ 54 : ℝ) - 1 / Real.log 10 * Real.log 2 = (5422874305198591 / 2 ^ 54 * Real.log 10 - Real.log 2) / Real.log 10 by field_simp,
    abs_div, abs_of_pos hp, div_le_iff₀ hp]
  generalize Real.log 10 = t at *
  generalize Real.log 2 = s at *
  refine abs_le.2 ⟨?_, ?_⟩ <;> norm_num at * <;> linarith

theorem log_c2 : 0.4 ≤ 1 / Real.log 2 ∧ 1 / Real.log 2 ≤ 1.5 := by
  obtain ⟨l1, l2⟩ := log_two_bounds
  have hp : 0 < Real.log 2 := by linarith
  rw [le_div_iff₀ hp, div_le_iff₀ hp]
  generalize Real.log 2 = s at *
  constructor <;> norm_num at * <;> linarith

theorem log_c10 : 0.4 ≤ 1 / Real.log 10 ∧ 1 / Real.log 10 ≤ 1.5 := by
  have l := abs_le.1 log_ten_sharp
  have hp : 0 < Real.log 10 := Real.log_pos (by norm_num)
  rw [le_div_iff₀ hp, div_le_iff₀ hp]
  generalize Real.log 10 = s at *
  constructor <;> norm_num at * <;> linarith

/-! ### The functions -/

theorem R_pos {x : Nat} (h0 : 0 < x) (hx : x < b32.inf) : Fin b32 x ∧ 0 < R b32 x := by
  have e : b32.pack false x = x := by simp [Fmt.pack]
  refine ⟨by have := fin_pack (F := b32) (s := false) hx; rwa [e] at this, ?_⟩
  have := R_pack (F := b32) (s := false) hx.le
  rw [e] at this
  rw [this]
  have hm : 0 < b32.mag x := by
    rcases Nat.eq_zero_or_pos (b32.mag x) with h | h
    · exact absurd (Fmt.mag_eq_zero.1 h) (by omega)
    · exact h
  have : (0 : ℝ) < b32.mag x := by exact_mod_cast hm
  have hu : (0 : ℝ) < 2 ^ b32.unit := by positivity
  simp only [Bool.false_eq_true, if_false, one_mul]
  exact div_pos this hu

theorem logFinite_acc {x : Nat} (h0 : 0 < x) (hx : x < b32.inf) :
    ∃ r, (Math.normalize Math.flt x).map logFinite = some r ∧ Accurate b32 (1 / 2 ^ 36) (Real.log (R b32 x)) r := by
  obtain ⟨i, n1, n2, n3, n4, n5, n6⟩ := split32 h0 hx
  refine ⟨_, by rw [n1]; rfl, ?_⟩
  have k := log_core n2 n3 n4 n5 (fun _ => n6) (by norm_num : (0.4 : ℝ) ≤ 1 ∧ (1 : ℝ) ≤ 1.5) two_scale.1 two_scale.2
    (exponent_ap n5 (by have := log_two_bounds; constructor <;> linarith [this.1, this.2]) k_ln2.1 ln2_close)
    (fun h => by
      rw [h]
      obtain ⟨i1, i2⟩ := ofInt_R (e := 0) (by omega)
      exact (mul_zeroR i1 k_ln2.1 (Or.inl (by rw [i2]; simp))).2)
  rw [one_mul] at k
  exact k.accurate

theorem log2Finite_acc {x : Nat} (h0 : 0 < x) (hx : x < b32.inf) :
    ∃ r, (Math.normalize Math.flt x).map log2Finite = some r ∧ Accurate b32 (1 / 2 ^ 36) (Real.logb 2 (R b32 x)) r := by
  obtain ⟨i, n1, n2, n3, n4, n5, n6⟩ := split32 h0 hx
  refine ⟨_, by rw [n1]; rfl, ?_⟩
  obtain ⟨i1, i2⟩ := ofInt_R (e := exponent32 i) (by omega)
  have hp : Real.log 2 ≠ 0 := (Real.log_pos (by norm_num)).ne'
  have k := log_core (b := b64.ofInt (exponent32 i)) n2 n3 n4 n5 (fun _ => n6) log_c2 k_2log2e.1 log2_scale ⟨i1, by
    rw [i2, one_div_mul_cancel hp, mul_one, sub_self, abs_zero]; positivity⟩ (fun h => by rw [i2, h]; simp)
  rw [one_div_mul_eq_div] at k
  exact k.accurate

theorem log10Finite_acc {x : Nat} (h0 : 0 < x) (hx : x < b32.inf) :
    ∃ r, (Math.normalize Math.flt x).map log10Finite = some r ∧ Accurate b32 (1 / 2 ^ 36) (Real.logb 10 (R b32 x)) r := by
  obtain ⟨i, n1, n2, n3, n4, n5, n6⟩ := split32 h0 hx
  refine ⟨_, by rw [n1]; rfl, ?_⟩
  have hc : 0 ≤ 1 / Real.log 10 * Real.log 2 ∧ 1 / Real.log 10 * Real.log 2 ≤ 1.1 := by
    have a := abs_le.1 log10two_close
    rw [k_log10two.2] at a
    have h1 : 0 < Real.log 10 := Real.log_pos (by norm_num)
    have h2 : 0 < Real.log 2 := Real.log_pos (by norm_num)
    refine ⟨by positivity, ?_⟩
    generalize 1 / Real.log 10 * Real.log 2 = q at *
    norm_num at *
    linarith
  have k := log_core n2 n3 n4 n5 (fun _ => n6) log_c10 k_2log10e.1 log10_scale
    (exponent_ap n5 hc k_log10two.1 log10two_close)
    (fun h => by
      rw [h]
      obtain ⟨i1, i2⟩ := ofInt_R (e := 0) (by omega)
      exact (mul_zeroR i1 k_log10two.1 (Or.inl (by rw [i2]; simp))).2)
  rw [one_div_mul_eq_div] at k
  exact k.accurate

theorem log_arg1 : Fin b32 0x4C5D65A5 ∧ R b32 0x4C5D65A5 = 14509477 * 2 ^ 2 := by
  have := lit32 (x := 0x4C5D65A5) (m := 14509477 * 2 ^ 2) (k := 0) (s := false) (by decide) (by decide) (by decide +kernel)
  refine ⟨this.1, this.2.trans ?_⟩
  push_cast
  norm_num

theorem log_arg2 : Fin b32 0x65D890D3 ∧ R b32 0x65D890D3 = 14192851 * 2 ^ 53 := by
  have := lit32 (x := 0x65D890D3) (m := 14192851 * 2 ^ 53) (k := 0) (s := false) (by decide) (by decide) (by decide +kernel)
  refine ⟨this.1, this.2.trans ?_⟩
  push_cast
  norm_num

theorem log_arg3 : Fin b32 0x6F31A8EC ∧ R b32 0x6F31A8EC = 11643116 * 2 ^ 72 := by
  have := lit32 (x := 0x6F31A8EC) (m := 11643116 * 2 ^ 72) (k := 0) (s := false) (by decide) (by decide) (by decide +kernel)
  refine ⟨this.1, this.2.trans ?_⟩
  push_cast
  norm_num

theorem log10_arg1 : Fin b32 0x0EFEEE7A ∧ R b32 0x0EFEEE7A = 16707194 / 2 ^ 121 := by
  have := lit32 (x := 0x0EFEEE7A) (m := 16707194) (k := 121) (s := false) (by decide) (by decide) (by decide +kernel)
  refine ⟨this.1, this.2.trans ?_⟩
  push_cast
  simp

theorem log10_arg2 : Fin b32 0x120B93DC ∧ R b32 0x120B93DC = 9147356 / 2 ^ 114 := by
  have := lit32 (x := 0x120B93DC) (m := 9147356) (k := 114) (s := false) (by decide) (by decide) (by decide +kernel)
  refine ⟨this.1, this.2.trans ?_⟩
  push_cast
  simp

theorem log10_arg3 : Fin b32 0x13AE78D3 ∧ R b32 0x13AE78D3 = 11434195 / 2 ^ 111 := by
  have := lit32 (x := 0x13AE78D3) (m := 11434195) (k := 111) (s := false) (by decide) (by decide) (by decide +kernel)
  refine ⟨this.1, this.2.trans ?_⟩
  push_cast
  simp

theorem logf_finite {x : Nat} (h0 : 0 < x) (hx : x < b32.inf) : ∃ r, logf x = some r ∧ Accurate b32 (1 / 2 ^ 36) (Real.log (R b32 x)) r := by
  obtain ⟨f, -⟩ := R_pos h0 hx
  have hinf : b32.inf = 0x7F800000 := rfl
  have e : s32 x = x := by unfold s32; omega
  unfold logf
  rw [e, if_neg (by omega), if_neg (by omega)]
  cases c1 : b32.eq x 0x4C5D65A5
  swap
  · refine ⟨0x418F034B, by simp, Real.log (R b32 x), by simp, ?_⟩
    rw [(eq_R f log_arg1.1).1 c1, log_arg1.2]
    exact log_hard1
  cases c2 : b32.eq x 0x65D890D3
  swap
  · refine ⟨0x4254D1F9, by simp, Real.log (R b32 x), by simp, ?_⟩
    rw [(eq_R f log_arg2.1).1 c2, log_arg2.2]
    exact log_hard2
  cases c3 : b32.eq x 0x6F31A8EC
  swap
  · refine ⟨0x42845A89, by simp, Real.log (R b32 x), by simp, ?_⟩
    rw [(eq_R f log_arg3.1).1 c3, log_arg3.2]
    exact log_hard3
  simpa using logFinite_acc h0 hx

theorem log10f_finite {x : Nat} (h0 : 0 < x) (hx : x < b32.inf) : ∃ r, log10f x = some r ∧ Accurate b32 (1 / 2 ^ 36) (Real.logb 10 (R b32 x)) r := by
  obtain ⟨f, -⟩ := R_pos h0 hx
  have hinf : b32.inf = 0x7F800000 := rfl
  have e : s32 x = x := by unfold s32; omega
  unfold log10f
  rw [e, if_neg (by omega), if_neg (by omega)]
  cases c1 : b32.eq x 0x0EFEEE7A
  swap
  · refine ⟨0xC1E99D23, by simp, Real.logb 10 (R b32 x), by simp, ?_⟩
    rw [(eq_R f log10_arg1.1).1 c1, log10_arg1.2]
    exact log10_hard1
  cases c2 : b32.eq x 0x120B93DC
  swap
  · refine ⟨0xC1DAD957, by simp, Real.logb 10 (R b32 x), by simp, ?_⟩
    rw [(eq_R f log10_arg2.1).1 c2, log10_arg2.2]
    exact log10_hard2
  cases c3 : b32.eq x 0x13AE78D3
  swap
  · refine ⟨0xC1D2D957, by simp, Real.logb 10 (R b32 x), by simp, ?_⟩
    rw [(eq_R f log10_arg3.1).1 c3, log10_arg3.2]
    exact log10_hard3
  simpa using log10Finite_acc h0 hx

theorem log2f_finite {x : Nat} (h0 : 0 < x) (hx : x < b32.inf) : ∃ r, log2f x = some r ∧ Accurate b32 (1 / 2 ^ 36) (Real.logb 2 (R b32 x)) r := by
  have hinf : b32.inf = 0x7F800000 := rfl
  have e : s32 x = x := by unfold s32; omega
  unfold log2f
  rw [e, if_neg (by omega), if_pos (by omega)]
  exact log2Finite_acc h0 hx

end Verif.Approx
