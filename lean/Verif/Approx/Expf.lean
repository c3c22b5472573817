import Verif.Approx.Exp

/-! # The error of `expf` -/

namespace Verif.Approx
open Verif.Float Verif.Approx.Spec
open Verif.Math.Spec (Pat)

theorem kernelExp_ap {x : Nat} (hx : Fin b64 x) (ht : |R b64 x| ≤ 0.347) :
    Ap (kernelExp x) (Real.exp (R b64 x) - 1) (|R b64 x| * (1.62 / 10 ^ 13) + 1 / 2 ^ 250) := by
  obtain ⟨h1, h2⟩ := horner_ap hx (ht.trans (by norm_num)) expC expC_fin expC_le (by decide)
  have h3 := (Ap.exact hx).mul h1 le_rfl h2 (by
    have := abs_nonneg (R b64 x)
    norm_num at ht ⊢
    nlinarith)
  have h4 := h3.shift (expC_poly ht)
  refine h4.mono ?_
  have := abs_nonneg (R b64 x)
  norm_num
  nlinarith

theorem exp_near {a b : ℝ} (h : |a - b| ≤ 1) : |Real.exp a - Real.exp b| ≤ Real.exp b * (2 * |a - b|) := by
  have := Real.abs_exp_sub_one_le h
  have e : Real.exp a - Real.exp b = Real.exp b * (Real.exp (a - b) - 1) := by
    rw [mul_sub, ← Real.exp_add]; ring_nf
  rw [e, abs_mul, abs_of_pos (Real.exp_pos b)]
  exact mul_le_mul_of_nonneg_left this (Real.exp_pos b).le

theorem exp_range {s : ℝ} (h : |s| ≤ 0.3469) : 0.7 ≤ Real.exp s ∧ Real.exp s ≤ 1.42 := by
  have h1 := abs_le.1 (exp_taylor (h.trans (by norm_num)))
  have h2 : |s| ^ 13 ≤ 0.3469 ^ 13 := pow_le_pow_left₀ (abs_nonneg _) h 13
  have h3 : |s| * (|s| ^ 13 / 10 ^ 10) ≤ 0.3469 * (0.3469 ^ 13 / 10 ^ 10) :=
    mul_le_mul h (div_le_div_of_nonneg_right h2 (by norm_num)) (by positivity) (by norm_num)
  have up : Real.exp 0.3469 ≤ 1.42 := by
    have := abs_le.1 (exp_taylor (t := 0.3469) (by norm_num [abs_of_pos]))
    simp only [poly] at this
    norm_num [abs_of_pos] at this
    norm_num
    linarith
  have lo : 0.7 ≤ Real.exp (-0.3469) := by
    have := abs_le.1 (exp_taylor (t := -0.3469) (by norm_num [abs_of_pos]))
    simp only [poly] at this
    norm_num [abs_of_pos] at this
    norm_num
    linarith
  have h4 := abs_le.1 h
  exact ⟨lo.trans (Real.exp_le_exp.2 h4.1), (Real.exp_le_exp.2 h4.2).trans up⟩

/-- `1 + kernel_expf_(a)` where `a` is close to `s`. -/
theorem exp_core {a : Nat} {s δ : ℝ} (ha : Ap a s δ) (hδ : δ ≤ 2 / 10 ^ 13) (hs : |s| ≤ 0.3469) :
    let y := b64.add one (kernelExp a)
    Fin b64 y ∧ Pat b64 y ∧ 1 / 2 ≤ R b64 y ∧ R b64 y < 4 ∧ |R b64 y - Real.exp s| ≤ (0.83 / 10 ^ 13 + 2 * δ) * Real.exp s := by
  intro y
  have ht : |R b64 a| ≤ 0.347 := (ha.abs_le hs).trans (by norm_num at hδ ⊢; linarith)
  have h1 := kernelExp_ap ha.fin ht
  have h0 : Ap one 1 0 := by
    have := Ap.exact k_one.1
    rw [k_one.2] at this
    norm_num at this
    exact this
  have hδ0 := ha.nonneg
  obtain ⟨s1, s2⟩ := exp_range hs
  have hd := exp_near (a := R b64 a) (b := s) (ha.err.trans (by norm_num at hδ ⊢; linarith))
  have hd2 : Real.exp s * (2 * |R b64 a - s|) ≤ Real.exp s * (2 * δ) :=
    mul_le_mul_of_nonneg_left (by have := ha.err; linarith) (by linarith)
  have hd3 := abs_le.1 (hd.trans hd2)
  have hx : |1 + (Real.exp (R b64 a) - 1)| ≤ 1.5 := by
    rw [show 1 + (Real.exp (R b64 a) - 1) = Real.exp (R b64 a) by ring, abs_of_pos (Real.exp_pos _)]
    have : Real.exp s * (2 * δ) ≤ 1.42 * (2 * (2 / 10 ^ 13)) := by
      refine mul_le_mul s2 (by linarith) (by linarith) (by norm_num)
    norm_num at this ⊢
    linarith
  have hnn := abs_nonneg (R b64 a)
  have hk : |R b64 a| * (1.62 / 10 ^ 13) ≤ 0.347 * (1.62 / 10 ^ 13) := mul_le_mul_of_nonneg_right ht (by norm_num)
  have h2 := h0.add (h1.mono (add_le_add hk le_rfl)) hx (by norm_num)
  rw [show 1 + (Real.exp (R b64 a) - 1) = Real.exp (R b64 a) by ring] at h2
  have h3 := h2.mono (d := 0.57 / 10 ^ 13) (by norm_num)
  have h4 : |R b64 y - Real.exp s| ≤ (0.83 / 10 ^ 13 + 2 * δ) * Real.exp s := by
    have a1 := abs_le.1 h3.err
    have : 0.83 / 10 ^ 13 * 0.7 ≤ 0.83 / 10 ^ 13 * Real.exp s := mul_le_mul_of_nonneg_left s1 (by norm_num)
    refine abs_le.2 ⟨?_, ?_⟩ <;> norm_num at * <;> nlinarith
  have h5 : (0.83 / 10 ^ 13 + 2 * δ) * Real.exp s ≤ 0.01 := by
    have : (0.83 / 10 ^ 13 + 2 * δ) * Real.exp s ≤ (0.83 / 10 ^ 13 + 2 * (2 / 10 ^ 13)) * 1.42 :=
      mul_le_mul (by linarith) s2 (Real.exp_pos _).le (by norm_num)
    norm_num at this ⊢
    linarith
  have h6 := abs_le.1 (h4.trans h5)
  refine ⟨h3.fin, pat_add k_one.1 h1.fin, ?_, ?_, h4⟩
  · norm_num at *; linarith
  · norm_num at *; linarith

/-- The result of scaling and rounding. -/
theorem exp_scale {y : Nat} {n : Int} {s v ε : ℝ} (hp : Pat b64 y) (h1 : 1 / 2 ≤ R b64 y) (h2 : R b64 y < 4) (hn : -1000 ≤ n ∧ n < 1022)
    (he : |R b64 y - Real.exp s| ≤ ε * Real.exp s) (hv : v = s + n * Real.log 2) :
    ∃ z, shift y n = some z ∧ Fin b64 z ∧ Pat b64 z ∧ 0 < R b64 z ∧ |R b64 z - Real.exp v| ≤ ε * |Real.exp v| ∧ R b64 z = R b64 y * 2 ^ n := by
  obtain ⟨z, z1, z2, z3, z4⟩ := shift_R hp h1 h2 hn
  have hpow : (0 : ℝ) < 2 ^ n := zpow_pos (by norm_num) n
  have hv' : Real.exp v = Real.exp s * 2 ^ n := by
    rw [hv, Real.exp_add, mul_comm (n : ℝ), Real.exp_mul, Real.exp_log (by norm_num), Real.rpow_intCast]
  refine ⟨z, z1, z2, z4, ?_, ?_, z3⟩
  · rw [z3]; exact mul_pos (by linarith) hpow
  · rw [abs_of_pos (Real.exp_pos v), z3, hv', ← sub_mul, abs_mul, abs_of_pos hpow, ← mul_assoc]
    exact mul_le_mul_of_nonneg_right he hpow.le

theorem log2e_inv : |R b64 log2e * Real.log 2 - 1| ≤ 1 / 10 ^ 15 := by
  have h := abs_le.1 log_two_sharp
  rw [k_log2e.2]
  refine abs_le.2 ⟨?_, ?_⟩ <;> norm_num at * <;> linarith

/-- Reduction of the argument to a number of powers of two and a small rest. -/
theorem reduce {X : ℝ} {x : Nat} {B : ℝ} (hx : Fin b64 x) (hX : R b64 x = X) (hb : |X| ≤ B) (hB : B ≤ 710) :
    ∃ n : Int, Fin b64 (b64.rint (b64.mul x log2e)) ∧ R b64 (b64.rint (b64.mul x log2e)) = n ∧ |X - n * Real.log 2| ≤ 0.34658 ∧
      |(n : ℝ)| ≤ 1.4427 * B + 1 := by
  have hB0 := (abs_nonneg X).trans hb
  have hK := k_log2e
  have hKle : |R b64 log2e| ≤ 1.4427 := by rw [hK.2]; norm_num [abs_of_pos]
  have h1 := (Ap.exact hx).mul (Ap.exact hK.1) (hX ▸ hb) hKle (by norm_num at *; nlinarith)
  rw [hX] at h1
  have h1' := h1.mono (d := 1.2 / 10 ^ 13) (by norm_num at *; nlinarith)
  have hbig : |X * R b64 log2e| ≤ 1.4427 * B := by
    rw [abs_mul, mul_comm]; exact mul_le_mul hKle hb (abs_nonneg _) (by norm_num)
  obtain ⟨n, n1, n2, n3, n4⟩ := rint_R big64 h1.fin (by
    refine (h1'.abs_le hbig).trans ?_
    norm_num at *; linarith)
  refine ⟨n, n1, n2, ?_, ?_⟩
  · have a := abs_le.1 h1'.err
    have b := abs_le.1 n3
    have c : |X * R b64 log2e - n| ≤ 0.5000000001 := abs_le.2 ⟨by norm_num at *; linarith, by norm_num at *; linarith⟩
    have hL := abs_le.1 log_two_sharp
    have hL0 : 0 < Real.log 2 := Real.log_pos (by norm_num)
    have d := log2e_inv
    have e : X - n * Real.log 2 = (X * R b64 log2e - n) * Real.log 2 - X * (R b64 log2e * Real.log 2 - 1) := by ring
    rw [e]
    have f : |(X * R b64 log2e - n) * Real.log 2| ≤ 0.5000000001 * 0.69314718056 := by
      rw [abs_mul, abs_of_pos hL0]
      exact mul_le_mul c (by norm_num at *; linarith) hL0.le (by norm_num)
    have g : |X * (R b64 log2e * Real.log 2 - 1)| ≤ 710 * (1 / 10 ^ 15) := by
      rw [abs_mul]; exact mul_le_mul (hb.trans hB) d (abs_nonneg _) (by norm_num)
    refine (abs_sub _ _).trans ?_
    norm_num at *
    linarith
  · have a := abs_le.1 (h1'.abs_le hbig)
    have b := abs_le.1 n3
    refine abs_le.2 ⟨?_, ?_⟩ <;> norm_num at * <;> linarith

theorem expf_main {x : Nat} (hx : Fin b32 x) (lo : -103.973 ≤ R b32 x) (hi : R b32 x ≤ 88.723) (c1 : b64.lt (wide x) 0xC059FE3682CD3BE4 = false)
    (c2 : b64.lt 0x40562E42FEFA39EF (wide x) = false) :
    ∃ r, expf x = some r ∧ Accurate b32 (1 / 2 ^ 42) (Real.exp (R b32 x)) r := by
  obtain ⟨w1, w2, -, -⟩ := wideR hx
  unfold expf
  rw [c1, c2]
  simp only [Bool.false_eq_true, if_false]
  generalize wide x = X at *
  generalize R b32 x = V at *
  have hV : |V| ≤ 104 := abs_le.2 ⟨by norm_num at *; linarith, by norm_num at *; linarith⟩
  obtain ⟨n, n1, n2, n3, n4⟩ := reduce w1 w2 hV (by norm_num)
  generalize b64.rint (b64.mul X log2e) = N at *
  have hN : Ap N n 0 := by have := Ap.exact n1; rwa [n2] at this
  have n5 : |(n : ℝ)| ≤ 152 := n4.trans (by norm_num)
  have hH : |R b64 ln2hi| ≤ 0.7 := by rw [k_ln2hi.2]; norm_num [abs_of_pos]
  have hLo : |R b64 ln2lo| ≤ 1 / 10 ^ 12 := by rw [k_ln2lo.2]; norm_num [abs_of_pos]
  have m1 := hN.mul (Ap.exact k_ln2hi.1) n5 hH (by norm_num)
  have m2 := hN.mul (Ap.exact k_ln2lo.1) n5 hLo (by norm_num)
  have hX : Ap X V 0 := by have := Ap.exact w1; rwa [w2] at this
  have hLL := abs_le.1 log_two_sharp
  have hsum : |(R b64 ln2hi + R b64 ln2lo) - Real.log 2| ≤ 1 / 10 ^ 20 := by
    rw [k_ln2hi.2, k_ln2lo.2]; refine abs_le.2 ⟨?_, ?_⟩ <;> norm_num at * <;> linarith
  have hhi : |R b64 ln2hi - Real.log 2| ≤ 1 / 10 ^ 12 := by
    rw [k_ln2hi.2]; refine abs_le.2 ⟨?_, ?_⟩ <;> norm_num at * <;> linarith
  have b1 : |V - n * R b64 ln2hi| ≤ 0.35 := by
    have : V - n * R b64 ln2hi = (V - n * Real.log 2) - n * (R b64 ln2hi - Real.log 2) := by ring
    rw [this]
    have : |(n : ℝ) * (R b64 ln2hi - Real.log 2)| ≤ 152 * (1 / 10 ^ 12) := by
      rw [abs_mul]; exact mul_le_mul n5 hhi (abs_nonneg _) (by norm_num)
    refine (abs_sub _ _).trans ?_
    norm_num at *; linarith
  have r1 := (hX.sub m1 b1 (by norm_num)).mono (d := 1.2 / 10 ^ 14) (by norm_num)
  have b2' : |(n : ℝ) * ((R b64 ln2hi + R b64 ln2lo) - Real.log 2)| ≤ 152 * (1 / 10 ^ 20) := by
    rw [abs_mul]; exact mul_le_mul n5 hsum (abs_nonneg _) (by norm_num)
  have b2'' : (V - n * R b64 ln2hi - n * R b64 ln2lo) - (V - n * Real.log 2) = -((n : ℝ) * ((R b64 ln2hi + R b64 ln2lo) - Real.log 2)) := by ring
  have b2 : |V - n * R b64 ln2hi - n * R b64 ln2lo| ≤ 0.35 := by
    have := abs_le.1 b2'
    have := abs_le.1 n3
    refine abs_le.2 ⟨?_, ?_⟩ <;> norm_num at * <;> linarith
  have r2 := ((r1.sub m2 b2 (by norm_num)).mono (d := 1.25 / 10 ^ 14) (by norm_num)).shift (w := V - n * Real.log 2) (d := 152 * (1 / 10 ^ 20))
    (by rw [b2'', abs_neg]; exact b2')
  have r3 := r2.mono (d := 1.3 / 10 ^ 14) (by norm_num)
  obtain ⟨y1, y2, y3, y4, y5⟩ := exp_core r3 (by norm_num) (n3.trans (by norm_num))
  have hn : -1000 ≤ n ∧ n < 1022 := by
    have := abs_le.1 n5
    constructor
    · have : (-152 : ℝ) ≤ n := this.1
      have : (-152 : Int) ≤ n := by exact_mod_cast this
      omega
    · have : (n : ℝ) ≤ 152 := this.2
      have : n ≤ (152 : Int) := by exact_mod_cast this
      omega
  obtain ⟨z, z1, z2, z3, z4, z5, -⟩ := exp_scale (v := V) y2 y3 y4 hn y5 (by ring)
  rw [toInt_R n1 n2 (by omega), Option.bind_some, z1, Option.map_some]
  refine ⟨_, rfl, R b64 z, z5.trans (mul_le_mul_of_nonneg_right (by norm_num) (abs_nonneg _)), conv_rounded z2⟩

/-! ### Results out of range -/

theorem nearest_zero {F : Fmt} {w : ℝ} (h1 : w ≤ 1 / 2) (hf : 1 ≤ F.f) : Hyp.Spec.NearestReal F w 0 := by
  refine Hyp.nearestReal_of_mid (Nat.zero_le _) (fun _ => ⟨?_, fun _ => rfl⟩) (fun h => absurd h (by omega))
  have : F.mag 1 = 1 := F.mag_small (Nat.one_lt_two_pow (by omega))
  rw [F.mag_zero, Nat.zero_add, this]
  push_cast; linarith

theorem inf_even {F : Fmt} (hf : 1 ≤ F.f) : F.inf % 2 = 0 := by
  have : F.inf = (2 ^ F.w - 1) * 2 ^ (F.f - 1) * 2 := by
    unfold Fmt.inf; rw [Nat.mul_assoc, ← pow_succ]; congr 2; omega
  rw [this]; omega

theorem nearest_inf {F : Fmt} (hf : 1 ≤ F.f) {w : ℝ} (h : (F.mag (F.inf - 1) : ℝ) + F.mag F.inf ≤ 2 * w) : Hyp.Spec.NearestReal F w F.inf :=
  Hyp.nearestReal_of_mid le_rfl (fun h => absurd h (Nat.lt_irrefl _)) (fun _ => ⟨h, fun _ => inf_even hf⟩)

theorem mag_top32 : (b32.mag (b32.inf - 1) : ℝ) + b32.mag b32.inf = 2 * (2 ^ 128 - 2 ^ 103) * 2 ^ b32.unit := by
  have h1 : b32.mag b32.inf = 2 ^ 128 * 2 ^ b32.unit := by decide +kernel
  have h2 : b32.mag (b32.inf - 1) = (2 ^ 128 - 2 ^ 104) * 2 ^ b32.unit := by decide +kernel
  rw [h1, h2]
  push_cast
  norm_num
  ring

theorem rounded_zero {z : ℝ} (h0 : 0 ≤ z) (h : z ≤ 1 / 2 ^ 150) : Rounded b32 z 0 := by
  refine ⟨by unfold Pat; decide, ?_, fun _ => by unfold Math.Spec.negative; decide, fun h => by linarith⟩
  rw [abs_of_nonneg h0]
  refine nearest_zero ?_ (by decide)
  have hu : b32.unit = 149 := rfl
  rw [hu]
  have := mul_le_mul_of_nonneg_right h (show (0 : ℝ) ≤ 2 ^ 149 by positivity)
  norm_num at *; linarith

theorem rounded_inf {z : ℝ} (h : 2 ^ 128 - 2 ^ 103 ≤ z) : Rounded b32 z b32.inf := by
  have h0 : 0 < z := lt_of_lt_of_le (by norm_num) h
  refine ⟨by unfold Pat; decide, ?_, fun _ => by unfold Math.Spec.negative; decide, fun h => by linarith⟩
  rw [abs_of_pos h0]
  refine nearest_inf (by decide) ?_
  rw [mag_top32]
  have := mul_le_mul_of_nonneg_right h (show (0 : ℝ) ≤ 2 ^ b32.unit by positivity)
  linarith

theorem k_expMin : Fin b64 0xC059FE3682CD3BE4 ∧ R b64 0xC059FE3682CD3BE4 = -(7316384493943780 / 2 ^ 46) := by
  exact_mod_cast lit_neg (x := 0xC059FE3682CD3BE4) (E := 1029) (m := 7316384493943780) (k := 46) (by norm_num) (by norm_num) (by norm_num) (by norm_num)

theorem k_expMax : Fin b64 0x40562E42FEFA39EF ∧ R b64 0x40562E42FEFA39EF = 6243314768165359 / 2 ^ 46 := by
  exact_mod_cast lit_pos (x := 0x40562E42FEFA39EF) (E := 1029) (m := 6243314768165359) (k := 46) (by norm_num) (by norm_num) (by norm_num) (by norm_num)

theorem exp_pow (n : Int) : Real.exp (n * Real.log 2) = 2 ^ n := by
  rw [mul_comm, Real.exp_mul, Real.exp_log (by norm_num), Real.rpow_intCast]

theorem expf_low {x : Nat} (hx : Fin b32 x) (h : b64.lt (wide x) 0xC059FE3682CD3BE4 = true) :
    ∃ r, expf x = some r ∧ Accurate b32 (1 / 2 ^ 42) (Real.exp (R b32 x)) r := by
  obtain ⟨w1, w2, -, -⟩ := wideR hx
  refine ⟨0, by unfold expf; rw [if_pos h], (1 - 1 / 2 ^ 42) * Real.exp (R b32 x), ?_, ?_⟩
  · rw [show (1 - 1 / 2 ^ 42) * Real.exp (R b32 x) - Real.exp (R b32 x) = -(1 / 2 ^ 42 * Real.exp (R b32 x)) by ring, abs_neg, abs_mul,
      abs_of_pos (show (0 : ℝ) < 1 / 2 ^ 42 by norm_num)]
  · have h1 := (lt_R w1 k_expMin.1).1 h
    rw [w2, k_expMin.2] at h1
    have hL := abs_le.1 log_two_sharp
    have h2 : R b32 x ≤ (-150 : Int) * Real.log 2 + 1 / 10 ^ 13 := by
      push_cast; norm_num at *; linarith
    have h3 := Real.exp_le_exp.2 h2
    rw [Real.exp_add, exp_pow] at h3
    have h4 := abs_le.1 (Real.abs_exp_sub_one_le (x := 1 / 10 ^ 13) (by norm_num [abs_of_pos]))
    rw [abs_of_pos (show (0 : ℝ) < 1 / 10 ^ 13 by norm_num)] at h4
    have h5 := Real.exp_pos (R b32 x)
    have h6 : (2 : ℝ) ^ (-150 : Int) = 1 / 2 ^ 150 := by rw [zpow_neg]; norm_num
    rw [h6] at h3
    refine rounded_zero (by norm_num at *; linarith) ?_
    have h7 : Real.exp (R b32 x) ≤ 1 / 2 ^ 150 * (1 + 2 / 10 ^ 13) :=
      h3.trans (mul_le_mul_of_nonneg_left (by linarith) (by positivity))
    calc (1 - 1 / 2 ^ 42) * Real.exp (R b32 x) ≤ (1 - 1 / 2 ^ 42) * (1 / 2 ^ 150 * (1 + 2 / 10 ^ 13)) := mul_le_mul_of_nonneg_left h7 (by norm_num)
      _ ≤ _ := by norm_num

theorem expf_high {x : Nat} (hx : Fin b32 x) (h0 : b64.lt (wide x) 0xC059FE3682CD3BE4 = false) (h : b64.lt 0x40562E42FEFA39EF (wide x) = true) :
    ∃ r, expf x = some r ∧ Accurate b32 (1 / 2 ^ 42) (Real.exp (R b32 x)) r := by
  obtain ⟨w1, w2, -, -⟩ := wideR hx
  have e : narrow (b64.mul 0x40562E42FEFA39EF (wide fltMax)) = b32.inf := by decide +kernel
  refine ⟨b32.inf, by unfold expf; rw [h0, h, e]; simp, Real.exp (R b32 x), by simp; positivity, ?_⟩
  have h1 := (lt_R k_expMax.1 w1).1 h
  rw [w2, k_expMax.2] at h1
  have hL := abs_le.1 log_two_sharp
  have h2 : (128 : Int) * Real.log 2 + -(1 / 10 ^ 13) ≤ R b32 x := by
    push_cast; norm_num at *; linarith
  have h3 := Real.exp_le_exp.2 h2
  rw [Real.exp_add, exp_pow] at h3
  have h4 := Real.add_one_le_exp (-(1 / 10 ^ 13) : ℝ)
  have h6 : (2 : ℝ) ^ (128 : Int) = 2 ^ 128 := by norm_cast
  rw [h6] at h3
  have h7 := (mul_le_mul_of_nonneg_left h4 (show (0 : ℝ) ≤ 2 ^ 128 by positivity)).trans h3
  refine rounded_inf (le_trans ?_ h7)
  norm_num

theorem expf_finite {x : Nat} (hx : Fin b32 x) : ∃ r, expf x = some r ∧ Accurate b32 (1 / 2 ^ 42) (Real.exp (R b32 x)) r := by
  obtain ⟨w1, w2, -, -⟩ := wideR hx
  cases h0 : b64.lt (wide x) 0xC059FE3682CD3BE4
  · cases h1 : b64.lt 0x40562E42FEFA39EF (wide x)
    · have a := (lt_R w1 k_expMin.1).not.1 (by rw [h0]; simp)
      have b := (lt_R k_expMax.1 w1).not.1 (by rw [h1]; simp)
      rw [w2, k_expMin.2] at a
      rw [w2, k_expMax.2] at b
      exact expf_main hx (by norm_num at *; linarith) (by norm_num at *; linarith) h0 h1
    · exact expf_high hx h0 h1
  · exact expf_low hx h0

end Verif.Approx
