import Verif.Approx.PowCore

/-! # `powf` of positive numbers -/

namespace Verif.Approx
open Verif.Float Verif.Approx.Spec
open Verif.Math.Spec (Pat absOf negative)
open Verif.Hyp.Spec (NearestReal)

/-! ### The power of two -/

theorem exp2_fast {h : Nat} (hh : Fin b64 h) (hs : |R b64 h| ≤ 1 / 2) :
    ∃ p, polyFma h exp2FpC = some p ∧ Pat b64 p ∧ 1 / 2 ≤ R b64 p ∧ R b64 p < 4 ∧
      |R b64 p - Real.exp (R b64 h * Real.log 2)| ≤ 1.6 / 2 ^ 46 * Real.exp (R b64 h * Real.log 2) := by
  obtain ⟨p, p1, p2, p3, -⟩ := polyFma_ap hh hs exp2FpC exp2FpC_fin exp2FpC_ok
  refine ⟨p, p1, p2, ?_⟩
  have h3 := ((p3.mono exp2FpC_err).shift (exp2FpC_poly hs)).err
  have hl := abs_le.1 log_two_sharp
  obtain ⟨s1, s2⟩ := exp_range (s := R b64 h * Real.log 2) (by
    rw [abs_mul, abs_of_pos (Real.log_pos (by norm_num))]
    have : |R b64 h| * Real.log 2 ≤ 1 / 2 * 0.6932 := mul_le_mul hs (by norm_num at *; linarith) (Real.log_pos (by norm_num)).le (by norm_num)
    norm_num at *; linarith)
  clear p3 hl
  generalize Real.exp (R b64 h * Real.log 2) = E at *
  have h4 := abs_le.1 h3
  refine ⟨?_, ?_, abs_le.2 ⟨?_, ?_⟩⟩
  all_goals (norm_num at *; linarith)

theorem rint_exact {e : Nat} (he : Fin b64 e) (hb : |R b64 e| ≤ 200) :
    ∃ p ni r, polyFma (b64.sub e (b64.rint e)) exp2FpC = some p ∧ toInt64 b64 (b64.rint e) = some ni ∧ shift p ni = some r ∧
      Fin b64 r ∧ Pat b64 r ∧ 0 < R b64 r ∧ |R b64 r - Real.exp (R b64 e * Real.log 2)| ≤ 1.6 / 2 ^ 46 * Real.exp (R b64 e * Real.log 2) := by
  obtain ⟨n, n1, n2, n3, n4, n5⟩ := sub_rint big64 (by decide) he (hb.trans (by norm_num))
  obtain ⟨p, p1, p2, p3, p4, p5⟩ := exp2_fast n4 (by rw [n5]; exact n3)
  rw [n5] at p5
  have hn : -1000 ≤ n ∧ n < 1022 := by
    have a1 := abs_le.1 n3
    have a2 := abs_le.1 hb
    constructor
    · have : (-202 : ℝ) ≤ n := by linarith
      have : (-202 : Int) ≤ n := by exact_mod_cast this
      omega
    · have : (n : ℝ) ≤ 202 := by linarith
      have : n ≤ (202 : Int) := by exact_mod_cast this
      omega
  obtain ⟨z, z1, z2, z3, z4, z5, -⟩ := exp_scale (v := R b64 e * Real.log 2) p2 p3 p4 hn p5 (by ring)
  rw [abs_of_pos (Real.exp_pos _)] at z5
  exact ⟨p, n, z, p1, toInt_R n1 n2 (by omega), z1, z2, z3, z4, z5⟩

/-! ### The exponent -/

theorem pow_exponent {l y : Nat} {L Y : ℝ} (hl : Rel l L (40 / 2 ^ 53)) (hy : Fin b64 y) (hY : R b64 y = Y) (hb : |L * Y| ≤ 2 ^ 200) :
    Fin b64 (b64.mul l y) ∧ |R b64 (b64.mul l y) - L * Y| ≤ 41.1 / 2 ^ 53 * |L * Y| + 1 / 2 ^ 250 := by
  have h1 : |R b64 l * R b64 y - L * Y| ≤ 40 / 2 ^ 53 * |L * Y| := by
    rw [hY, ← sub_mul, abs_mul, abs_mul, ← mul_assoc]
    exact mul_le_mul_of_nonneg_right hl.err (abs_nonneg _)
  have h2 : |R b64 l * R b64 y| ≤ (1 + 40 / 2 ^ 53) * |L * Y| := by
    have := abs_sub_abs_le_abs_sub (R b64 l * R b64 y) (L * Y)
    linarith
  obtain ⟨k1, k2⟩ := mul_err top_big hl.fin hy (h2.trans (rel_big (hb.trans (by norm_num)) (by norm_num)))
  rw [eps64] at k2
  refine ⟨k1, ?_⟩
  have h3 := abs_sub_le (R b64 (b64.mul l y)) (R b64 l * R b64 y) (L * Y)
  have h4 := eta64
  have h5 := abs_nonneg (L * Y)
  have h6 : (1 : ℝ) / 2 ^ 53 * |R b64 l * R b64 y| ≤ 1 / 2 ^ 53 * ((1 + 40 / 2 ^ 53) * |L * Y|) := mul_le_mul_of_nonneg_left h2 (by norm_num)
  generalize |R b64 l * R b64 y| = q at *
  generalize |L * Y| = t at *
  norm_num at *
  linarith

/-- All errors together. -/
theorem pow_total {e E r : ℝ} (h : |e - E| ≤ 41.1 / 2 ^ 53 * |E| + 1 / 2 ^ 250) (hE : |E| ≤ 127)
    (hr : |r - Real.exp (e * Real.log 2)| ≤ 1.6 / 2 ^ 46 * Real.exp (e * Real.log 2)) :
    |r - Real.exp (E * Real.log 2)| ≤ 1 / 2 ^ 40 * Real.exp (E * Real.log 2) := by
  have l1 := abs_le.1 log_two_sharp
  have l0 : 0 < Real.log 2 := Real.log_pos (by norm_num)
  have hd : |e * Real.log 2 - E * Real.log 2| ≤ 0.442 / 2 ^ 40 := by
    rw [← sub_mul, abs_mul, abs_of_pos l0]
    have : |e - E| * Real.log 2 ≤ (41.1 / 2 ^ 53 * 127 + 1 / 2 ^ 250) * 0.69315 :=
      mul_le_mul (h.trans (by linarith)) (by norm_num at *; linarith) l0.le (by norm_num)
    exact this.trans (by norm_num)
  have hx := exp_near (a := e * Real.log 2) (b := E * Real.log 2) (hd.trans (by norm_num))
  have hp := Real.exp_pos (E * Real.log 2)
  generalize Real.exp (E * Real.log 2) = V at *
  generalize Real.exp (e * Real.log 2) = W at *
  have hx2 : V * (2 * |e * Real.log 2 - E * Real.log 2|) ≤ V * (2 * (0.442 / 2 ^ 40)) := mul_le_mul_of_nonneg_left (by linarith) hp.le
  have a := abs_le.1 (hx.trans hx2)
  have b := abs_le.1 hr
  refine abs_le.2 ⟨?_, ?_⟩ <;> norm_num at * <;> linarith

/-! ### The gate -/

theorem k_fltMin : Fin b64 fltMin ∧ R b64 fltMin = 1 / 2 ^ 126 := by
  have := lit_pos (x := fltMin) (E := 897) (m := 2 ^ 52) (k := 178) (by norm_num [fltMin]) (by norm_num) (by norm_num) (by norm_num)
  refine ⟨this.1, this.2.trans ?_⟩
  norm_num

theorem k_2p127 : Fin b64 0x47E0000000000000 ∧ R b64 0x47E0000000000000 = 2 ^ 127 := by
  obtain ⟨h1, h2⟩ := R_small (y := 0x47E0000000000000) (by decide)
  refine ⟨h1, h2.trans ?_⟩
  rw [show b64.mag 0x47E0000000000000 = 2 ^ 127 * 2 ^ b64.unit by decide +kernel, Nat.cast_mul, Nat.cast_pow, Nat.cast_pow, Nat.cast_ofNat]
  exact mul_div_cancel_right₀ _ (by positivity)

theorem k_130 : Fin b64 0x4060400000000000 ∧ R b64 0x4060400000000000 = 130 := by
  have := lit_pos (x := 0x4060400000000000) (E := 1030) (m := 130 * 2 ^ 45) (k := 45) (by norm_num) (by norm_num) (by norm_num) (by norm_num)
  refine ⟨this.1, this.2.trans ?_⟩
  norm_num

theorem k_m160 : Fin b64 0xC064000000000000 ∧ R b64 0xC064000000000000 = -160 := by
  have := lit_neg (x := 0xC064000000000000) (E := 1030) (m := 160 * 2 ^ 45) (k := 45) (by norm_num) (by norm_num) (by norm_num) (by norm_num)
  refine ⟨this.1, this.2.trans ?_⟩
  norm_num

theorem pos_pattern {r : Nat} (hr : Fin b64 r) (hp : Pat b64 r) (h0 : 0 < R b64 r) : r < b64.inf := by
  have hn : b64.neg r = false := by
    cases e : b64.neg r
    · rfl
    · exfalso
      rw [R_signed, e] at h0
      have : (0 : ℝ) ≤ b64.mag (b64.abs r) / 2 ^ b64.unit := by positivity
      simp at h0
      linarith
  have : b64.abs r = r := by
    have h1 := Fmt.pack_self (F := b64) hp
    rw [hn] at h1
    simpa [Fmt.pack] using h1
  have h2 : b64.abs r < b64.inf := hr
  omega

theorem le_pattern {a b : Nat} (ha : a < b64.inf) (hb : b < b64.inf) (h : R b64 a ≤ R b64 b) : a ≤ b := by
  rw [(R_small ha).2, (R_small hb).2, div_le_div_iff_of_pos_right (by positivity)] at h
  have h' : b64.mag a ≤ b64.mag b := by exact_mod_cast h
  by_contra c
  exact absurd (b64.mag_strictMono (show b < a by omega)) (by omega)

/-- Doubles that are not next to a midpoint pass. -/
theorem gate_open {r : Nat} (hr : Fin b64 r) (hp : Pat b64 r) (lo : 1 / 2 ^ 126 ≤ R b64 r) (hi : R b64 r < 2 ^ 127)
    (far : ∀ p, p + 1 < b32.inf → 1 / 2 ^ 39 * R b64 r < |R b64 r - ((b32.mag p : ℝ) + b32.mag (p + 1)) / 2 / 2 ^ b32.unit|) :
    b64.le fltMin r ∧ b64.lt r 0x47E0000000000000 ∧ 0x2000 < (((r % 2 ^ 29 : Nat) : Int) - 0x10000000).natAbs := by
  have h0 : 0 < R b64 r := lt_of_lt_of_le (by norm_num) lo
  have hinf := pos_pattern hr hp h0
  have l1 : fltMin ≤ r := le_pattern (by decide) hinf (by rw [k_fltMin.2]; exact lo)
  have l2 : r ≤ 0x47E0000000000000 := le_pattern hinf (by decide) (by rw [k_2p127.2]; exact hi.le)
  have l3 : r ≠ 0x47E0000000000000 := fun e => by rw [e, k_2p127.2] at hi; exact lt_irrefl _ hi
  refine ⟨(le_R k_fltMin.1 hr).2 (by rw [k_fltMin.2]; exact lo), (lt_R hr k_2p127.1).2 (by rw [k_2p127.2]; exact hi), ?_⟩
  by_contra c
  have l1' : 897 * 2 ^ 52 ≤ r := by rw [show fltMin = 897 * 2 ^ 52 by rfl] at l1; exact l1
  have l2' : r < 1150 * 2 ^ 52 := by omega
  clear l1 l2 l3
  obtain ⟨k, hk⟩ : ∃ k, k = r / 2 ^ 52 - 897 := ⟨_, rfl⟩
  obtain ⟨f, hf⟩ : ∃ f, f = r % 2 ^ 52 := ⟨_, rfl⟩
  obtain ⟨d, hd⟩ : ∃ d, d = f % 2 ^ 29 := ⟨_, rfl⟩
  have hd' : r % 2 ^ 29 = d := by omega
  obtain ⟨p, p1, p2⟩ := gate_mid (k := k) (f := f) (d := d) (r := r) (by omega) (by omega) (by omega) hd (by rw [hd'] at c; omega)
  exact absurd (far p p1) (not_lt.2 p2)

theorem top_mid {v : ℝ} (h0 : 0 < v) (hv : v ≤ 2 ^ 127) :
    1 / 2 ^ 40 * v < |v - ((b32.mag (b32.inf - 1) : ℝ) + b32.mag (b32.inf - 1 + 1)) / 2 / 2 ^ b32.unit| := by
  rw [show b32.inf - 1 + 1 = b32.inf from rfl, mag_top32]
  have hu : (2 : ℝ) ^ b32.unit ≠ 0 := by positivity
  rw [show 2 * ((2 : ℝ) ^ 128 - 2 ^ 103) * 2 ^ b32.unit / 2 / 2 ^ b32.unit = 2 ^ 128 - 2 ^ 103 by field_simp]
  rw [abs_of_nonpos (by norm_num at *; linarith)]
  norm_num at *
  linarith

/-- The first attempt is correctly rounded if it is accepted. -/
theorem pow_narrow {r : Nat} {v : ℝ} (hr : Fin b64 r) (h0 : 0 < v) (hv : v ≤ 2 ^ 127) (he : |R b64 r - v| ≤ 1 / 2 ^ 40 * v)
    (far : ∀ p, p + 1 < b32.inf → 1 / 2 ^ 38 * v < |v - ((b32.mag p : ℝ) + b32.mag (p + 1)) / 2 / 2 ^ b32.unit|) :
    Rounded b32 v (narrow r) := by
  refine accurate_rounded (ε := 1 / 2 ^ 40) h0 (by norm_num) ⟨R b64 r, by rw [abs_of_pos h0]; exact he, conv_rounded hr⟩ fun p hp => ?_
  by_cases h : p + 1 < b32.inf
  · refine lt_of_le_of_lt (mul_le_mul_of_nonneg_right ?_ h0.le) (far p h)
    norm_num
  · have e : p = b32.inf - 1 := by omega
    rw [e]
    exact top_mid h0 hv

theorem gate_far {V r a b : ℝ} (hV : 0 < V) (f : 1 / 2 ^ 38 * V < a) (h : |r - V| ≤ 1 / 2 ^ 40 * V) (t : a ≤ |r - V| + b) :
    1 / 2 ^ 39 * r < b := by
  have := abs_le.1 h
  norm_num at *
  linarith

theorem powCore_mid {x y l : Nat} {L Y : ℝ} (h : log2Fast x = some l) (hl : Rel l L (40 / 2 ^ 53)) (hy : Fin b64 y) (hY : R b64 y = Y)
    (lo : (1 + 1 / 2 ^ 38) / 2 ^ 126 ≤ Real.exp (L * Y * Real.log 2)) (hi : Real.exp (L * Y * Real.log 2) ≤ (1 - 1 / 2 ^ 38) * 2 ^ 127)
    (far : ∀ p, p + 1 < b32.inf → 1 / 2 ^ 38 * Real.exp (L * Y * Real.log 2) <
      |Real.exp (L * Y * Real.log 2) - ((b32.mag p : ℝ) + b32.mag (p + 1)) / 2 / 2 ^ b32.unit|) :
    ∃ r, powCore x y = some r ∧ Rounded b32 (Real.exp (L * Y * Real.log 2)) r := by
  have l0 : 0 < Real.log 2 := Real.log_pos (by norm_num)
  have hE : |L * Y| ≤ 127 := by
    rw [abs_le]
    constructor
    · by_contra c
      rw [not_le] at c
      have : Real.exp (L * Y * Real.log 2) ≤ Real.exp (((-126 : Int) : ℝ) * Real.log 2) := Real.exp_le_exp.2 (mul_le_mul_of_nonneg_right (by push_cast; linarith) l0.le)
      rw [exp_pow] at this
      have := lo.trans this
      norm_num at this
    · by_contra c
      rw [not_le] at c
      have : Real.exp (((127 : Int) : ℝ) * Real.log 2) ≤ Real.exp (L * Y * Real.log 2) := Real.exp_le_exp.2 (mul_le_mul_of_nonneg_right (by push_cast; linarith) l0.le)
      rw [exp_pow] at this
      have := this.trans hi
      norm_num at this
  obtain ⟨e1, e2⟩ := pow_exponent hl hy hY (hE.trans (by norm_num))
  unfold powCore
  rw [h, Option.bind_some]
  dsimp only
  generalize b64.mul l y = e at *
  generalize L * Y = E at *
  have he : |R b64 e - E| ≤ 1 := e2.trans (by
    have : (41.1 : ℝ) / 2 ^ 53 * |E| ≤ 41.1 / 2 ^ 53 * 127 := mul_le_mul_of_nonneg_left hE (by norm_num)
    norm_num at *; linarith)
  have b1 := abs_le.1 he
  have b2 := abs_le.1 hE
  rw [if_neg (by rw [lt_R k_130.1 e1, k_130.2, not_lt]; linarith), if_neg (by rw [lt_R e1 k_m160.1, k_m160.2, not_lt]; linarith)]
  obtain ⟨p, ni, r, r1, r2, r3, r4, r5, r6, r7⟩ := rint_exact e1 (abs_le.2 ⟨by linarith, by linarith⟩)
  have r8 := pow_total e2 hE r7
  clear r7 e2 he b1 b2 hE
  have hV := Real.exp_pos (E * Real.log 2)
  generalize Real.exp (E * Real.log 2) = V at *
  have c := abs_le.1 r8
  have g := gate_open r4 r5 (by norm_num at *; linarith) (by norm_num at *; linarith) (fun q hq => by
    have f := far q hq
    generalize ((b32.mag q : ℝ) + b32.mag (q + 1)) / 2 / 2 ^ b32.unit = M at *
    have t := abs_sub_le V (R b64 r) M
    rw [abs_sub_comm V (R b64 r)] at t
    exact gate_far hV f r8 t)
  rw [r1, Option.bind_some, r2, Option.bind_some, r3, Option.bind_some, if_pos g]
  exact ⟨_, rfl, pow_narrow r4 hV (by norm_num at *; linarith) r8 far⟩

theorem powCore_high {x y l : Nat} {L Y : ℝ} (h : log2Fast x = some l) (hl : Rel l L (40 / 2 ^ 53)) (hy : Fin b64 y) (hY : R b64 y = Y)
    (hb : |L * Y| ≤ 2 ^ 200) (hi : 131 ≤ L * Y) : powCore x y = some b32.inf := by
  obtain ⟨e1, e2⟩ := pow_exponent hl hy hY hb
  unfold powCore
  rw [h, Option.bind_some]
  dsimp only
  rw [if_pos]
  rw [lt_R k_130.1 e1, k_130.2]
  rw [abs_of_pos (show 0 < L * Y by linarith)] at e2
  have := abs_le.1 e2
  norm_num at *
  linarith

theorem powCore_low {x y l : Nat} {L Y : ℝ} (h : log2Fast x = some l) (hl : Rel l L (40 / 2 ^ 53)) (hy : Fin b64 y) (hY : R b64 y = Y)
    (hb : |L * Y| ≤ 2 ^ 200) (lo : L * Y ≤ -161) : powCore x y = some 0 := by
  obtain ⟨e1, e2⟩ := pow_exponent hl hy hY hb
  unfold powCore
  rw [h, Option.bind_some]
  dsimp only
  rw [abs_of_neg (show L * Y < 0 by linarith)] at e2
  have := abs_le.1 e2
  rw [if_neg (by rw [lt_R k_130.1 e1, k_130.2, not_lt]; norm_num at *; linarith), if_pos]
  rw [lt_R e1 k_m160.1, k_m160.2]
  norm_num at *
  linarith

end Verif.Approx
