import Verif.Approx.Atan2Near

/-! # `atan2f`: the choice between two floats -/

namespace Verif.Approx
open Verif.Float Verif.Approx.Spec
open Verif.Math.Spec (Pat)

theorem step_small {p q : Nat} (hp : p ≤ 0x40800000) (hq : Next p q) : |(b32.mag p : ℝ) / 2 ^ b32.unit - b32.mag q / 2 ^ b32.unit| ≤ 1 / 2 ^ 20 := by
  have key : ∀ n ≤ 0x40800000, (b32.mag (n + 1) : ℝ) / 2 ^ b32.unit - b32.mag n / 2 ^ b32.unit ≤ 1 / 2 ^ 20 ∧
      0 ≤ (b32.mag (n + 1) : ℝ) / 2 ^ b32.unit - b32.mag n / 2 ^ b32.unit := by
    intro n hn
    rw [b32.mag_succ, ← sub_div]
    push_cast
    rw [add_sub_cancel_left]
    refine ⟨?_, by positivity⟩
    have h1 : b32.ulp n ≤ 2 ^ 128 := by
      unfold Fmt.ulp
      refine Nat.pow_le_pow_right (by decide) ?_
      have : n / 2 ^ b32.f ≤ 129 := by
        rw [show b32.f = 23 from rfl]
        omega
      omega
    have h2 : (b32.ulp n : ℝ) ≤ 2 ^ 128 := by exact_mod_cast h1
    rw [show b32.unit = 149 from rfl, div_le_iff₀ (by positivity)]
    refine h2.trans ?_
    norm_num
  rcases hq with rfl | rfl
  · rw [abs_sub_comm, abs_of_nonneg (key p hp).2]; exact (key p hp).1
  · rw [abs_of_nonneg (key q (by omega)).2]; exact (key q (by omega)).1

theorem k4 : Fin b32 0x40800000 ∧ R b32 0x40800000 = 4 := by
  obtain ⟨h1, h2⟩ := lit32 (x := 0x40800000) (m := 8388608) (k := 21) (s := false) (by decide) (by decide) (by decide +kernel)
  exact ⟨h1, by rw [h2]; norm_num⟩

/-- A number and the `float` it rounds to. -/
structure Near (hi f : Nat) : Prop where
  fin : Fin b64 hi
  pat : Pat b32 f
  top : b32.abs f ≤ 0x40800000
  sign : R b64 hi = sg (b32.neg f) * |R b64 hi|
  near : ∀ q ≤ b32.inf, |R b64 hi - R b32 f| ≤ |R b64 hi - sg (b32.neg f) * (b32.mag q / 2 ^ b32.unit)|

theorem narrow_near {hi : Nat} (h : Fin b64 hi) (h0 : R b64 hi ≠ 0) (h4 : |R b64 hi| ≤ 4) : Near hi (narrow hi) := by
  have hr : Rounded b32 (R b64 hi) (narrow hi) := conv_rounded h
  have hu : (0 : ℝ) < 2 ^ b32.unit := by positivity
  have htop : b32.abs (narrow hi) ≤ 0x40800000 := by
    have a : Accurate b32 0 (R b64 hi) (narrow hi) := ⟨_, by simp, hr⟩
    exact accurate_le (by decide) (by decide) (by positivity) le_rfl (by rw [k4.2]; exact h4) a
  have hs : R b64 hi = sg (b32.neg (narrow hi)) * |R b64 hi| := by
    have e : b32.neg (narrow hi) = true ↔ Math.Spec.negative b32 (narrow hi) := by
      have := hr.pat
      unfold Pat at this
      unfold Fmt.neg Math.Spec.negative
      rw [show b32.signBit = 2147483648 from rfl] at this ⊢
      simp only [decide_eq_true_eq]
      omega
    rcases lt_or_gt_of_ne h0 with hn | hp
    · rw [e.2 (hr.neg hn), abs_of_neg hn]; simp [sg]
    · rw [show b32.neg (narrow hi) = false by rw [← Bool.not_eq_true]; exact fun c => hr.pos hp (e.1 c), abs_of_pos hp]; simp [sg]
  refine ⟨h, hr.pat, htop, hs, fun q hq => ?_⟩
  have b := hr.near.best q hq
  rw [R_signed (narrow hi)]
  change |R b64 hi - sg (b32.neg (narrow hi)) * _| ≤ _
  rw [hs, ← mul_sub, ← mul_sub, abs_mul, abs_mul, sg_abs, one_mul, one_mul]
  have e : ∀ m : ℝ, |R b64 hi| - m / 2 ^ b32.unit = (|R b64 hi| * 2 ^ b32.unit - m) / 2 ^ b32.unit := fun m => by field_simp
  rw [e, e, abs_div, abs_div]
  exact div_le_div_of_nonneg_right b (abs_nonneg _)

theorem near_real {x a b c e : ℝ} (h1 : |x - a| ≤ |x - b|) (h2 : |x - a| ≤ |x - c|) (h3 : c < a) (h4 : a < b) (h5 : b - a ≤ e) (h6 : a - c ≤ e) : |x - a| ≤ e := by
  rcases le_total x a with h | h
  · rw [abs_of_nonpos (sub_nonpos.2 h)] at h1 h2 ⊢
    rcases le_total x c with h' | h'
    · rw [abs_of_nonpos (sub_nonpos.2 h')] at h2; linarith
    · linarith
  · rw [abs_of_nonneg (sub_nonneg.2 h)] at h1 h2 ⊢
    rcases le_total x b with h' | h'
    · linarith
    · rw [abs_of_nonneg (sub_nonneg.2 h')] at h1; linarith

namespace Near
variable {hi f : Nat}

theorem fin32 (n : Near hi f) : Fin b32 f := by
  have := n.top
  unfold Fin
  rw [show b32.inf = 2139095040 from rfl]
  omega

theorem val (n : Near hi f) : R b32 f = sg (b32.neg f) * (b32.mag (b32.abs f) / 2 ^ b32.unit) := R_signed f

theorem dist (n : Near hi f) (h0 : b32.abs f ≠ 0) : |R b64 hi - R b32 f| ≤ 1 / 2 ^ 20 := by
  have ht := n.top
  have hi' : b32.inf = 2139095040 := rfl
  have a := n.near (b32.abs f + 1) (by omega)
  have b := n.near (b32.abs f - 1) (by omega)
  have hu : (0 : ℝ) < 2 ^ b32.unit := by positivity
  have s1 := step_small ht (q := b32.abs f + 1) (Or.inl rfl)
  have s2 := step_small ht (q := b32.abs f - 1) (Or.inr (by omega))
  rw [n.val] at a b ⊢
  rw [n.sign, ← mul_sub, ← mul_sub, abs_mul, abs_mul, sg_abs, one_mul, one_mul] at a b
  rw [n.sign, ← mul_sub, abs_mul, sg_abs, one_mul]
  have m1 : (b32.mag (b32.abs f) : ℝ) / 2 ^ b32.unit < b32.mag (b32.abs f + 1) / 2 ^ b32.unit :=
    div_lt_div_of_pos_right (by exact_mod_cast b32.mag_strictMono (Nat.lt_succ_self _)) hu
  have m2 : (b32.mag (b32.abs f - 1) : ℝ) / 2 ^ b32.unit < b32.mag (b32.abs f) / 2 ^ b32.unit :=
    div_lt_div_of_pos_right (by exact_mod_cast b32.mag_strictMono (by omega)) hu
  exact near_real a b m2 m1 (by have := (abs_le.1 s1).1; linarith) (by have := (abs_le.1 s2).2; linarith)

theorem next_fin (n : Near hi f) {r : Nat} (h : Next (b32.abs f) (b32.abs r)) : Fin b32 r := by
  have := n.top
  unfold Fin
  rw [show b32.inf = 2139095040 from rfl]
  rcases h with h | h <;> omega

end Near

theorem Ap.fabs {x : Nat} {v e : ℝ} (h : Ap x v e) : Ap (b64.abs x) |v| e :=
  ⟨(fabs_R h.fin).1, by rw [(fabs_R h.fin).2]; exact (abs_abs_sub_abs_le_abs_sub _ _).trans h.err⟩

theorem diff_ap {a b : Nat} (ha : Fin b32 a) (hb : Fin b32 b) (h : |R b32 a - R b32 b| ≤ 1 / 2 ^ 20) :
    Ap (b64.sub (wide a) (wide b)) (R b32 a - R b32 b) (1 / 2 ^ 73) := by
  obtain ⟨a1, a2, -, -⟩ := wideR ha
  obtain ⟨b1, b2, -, -⟩ := wideR hb
  have s := (Ap.exact a1).sub (Ap.exact b1) (B := 1 / 2 ^ 20) (by rw [a2, b2]; exact h) (by norm_num)
  rw [a2, b2] at s
  exact s.mono (by norm_num)

theorem halve_ap {x : Nat} {v : ℝ} (h : Ap x v (1 / 2 ^ 73)) (hv : |v| ≤ 1 / 2 ^ 20) : Ap (b64.mul x half) (v / 2) (1 / 2 ^ 70) := by
  have m := h.mul (Ap.exact k_half.1) hv (W := 1 / 2) (by rw [k_half.2]; norm_num) (by norm_num)
  rw [k_half.2, mul_one_div] at m
  exact m.mono (by norm_num)

theorem zero64 : Fin b64 0 ∧ R b64 0 = 0 := by
  refine ⟨by unfold Fin; decide, ?_⟩
  unfold R
  rw [show b64.val 0 = 0 by decide]
  simp

theorem lt_zero64 {d : Nat} (hd : Fin b64 d) : b64.lt 0 d = decide (0 < R b64 d) := by
  rw [Bool.eq_iff_iff, lt_R zero64.1 hd, zero64.2, decide_eq_true_eq]

theorem gap_real {D F A H G e c t : ℝ} (h1 : |D - (H - F)| ≤ e) (h2 : |G - abs (|D| - |A - F| / 2)| ≤ t) (h3 : G < c) (h4 : if 0 < D then F < A else A < F) :
    |(F + A) / 2 - H| ≤ e + c + t := by
  have a := abs_le.1 h1
  have b := abs_le.1 h2
  have k : |(A - F) / 2 - D| = abs (|D| - |A - F| / 2) := by
    split at h4
    · rename_i hp
      rw [abs_of_pos hp, abs_of_pos (show 0 < A - F by linarith), abs_sub_comm]
    · rename_i hp
      rw [abs_of_nonpos (not_lt.1 hp), abs_of_neg (show A - F < 0 by linarith)]
      congr 1; ring
  have := abs_le.1 (show |(A - F) / 2 - D| ≤ c + t by rw [k]; linarith)
  exact abs_le.2 ⟨by linarith, by linarith⟩

theorem k_gate : Fin b64 0x3CC0000000000000 ∧ R b64 0x3CC0000000000000 = 1 / 2 ^ 51 := by
  obtain ⟨h1, h2⟩ := lit_pos (x := 0x3CC0000000000000) (E := 972) (m := 2 ^ 52) (k := 103) (by decide) (by decide) (by decide) (by decide)
  exact ⟨h1, by rw [h2]; norm_num⟩

theorem mid_next {hi f r : Nat} (n : Near hi f) (h : R b32 r = sg (b32.neg f) * (b32.mag (b32.abs r) / 2 ^ b32.unit)) :
    midR (b32.neg f) (b32.abs f) (b32.abs r) = (R b32 f + R b32 r) / 2 := by
  rw [h, n.val]
  unfold midR
  ring

/-- The neighbour towards the residual. -/
theorem gap_near {hi f d : Nat} {e : ℝ} (n : Near hi f) (h0 : b32.abs f ≠ 0) (hd : Fin b64 d) (d1 : |R b64 d| ≤ 1 / 2 ^ 15)
    (he : |R b64 d - (R b64 hi - R b32 f)| ≤ e) :
    ∃ g, atanGap f d = some g ∧ (b64.lt g 0x3CC0000000000000 = true →
      ∃ q, Next (b32.abs f) q ∧ (q = b32.abs f + 1 ↔ b32.neg f = !b64.lt 0 d) ∧ |midR (b32.neg f) (b32.abs f) q - R b64 hi| ≤ e + 1 / 2 ^ 51 + 1 / 2 ^ 50 / 2 ^ 10) := by
  have ht := n.top
  obtain ⟨r, r1, r2, r3, r4, -, r5, r6⟩ := nextF_R n.pat (by rw [show b32.inf = 2139095040 from rfl]; omega) h0 (b64.lt 0 d)
  have rf := n.next_fin r3
  have hst : |R b32 r - R b32 f| ≤ 1 / 2 ^ 20 := by
    rw [r4, n.val, ← mul_sub, abs_mul, sg_abs, one_mul, abs_sub_comm]
    exact step_small ht r3
  unfold atanGap
  rw [r1]
  refine ⟨_, rfl, fun hg => ⟨b32.abs r, r3, r5, ?_⟩⟩
  have a := halve_ap (diff_ap rf n.fin32 hst).fabs (by rwa [abs_abs])
  have hd' : Ap (b64.abs d) |R b64 d| 0 := (Ap.exact hd).fabs
  have b := (hd'.sub a (B := 1 / 2 ^ 14) (by rw [abs_le]; norm_num at hst d1 ⊢; constructor <;> linarith [abs_nonneg (R b64 d), abs_nonneg (R b32 r - R b32 f)]) (by norm_num)).fabs
  rw [lt_R b.fin k_gate.1, k_gate.2] at hg
  rw [mid_next n r4]
  rw [lt_zero64 hd] at r6
  refine (gap_real he b.err hg ?_).trans ?_
  · simpa using r6
  · norm_num

theorem half_way {A F H : ℝ} (h : F < A) (n : |H - F| ≤ |H - A|) : H ≤ (F + A) / 2 := by
  have := sq_le_sq.2 n
  by_contra hc
  nlinarith

theorem dd_real {A F H D e t : ℝ} (h : F < A) (n : |H - F| ≤ |H - A|) (he : |D - (H - F)| ≤ e) (hd : (A - F) / 2 - t < D) (ht : 0 ≤ t) : |(F + A) / 2 - H| ≤ e + t := by
  have a := half_way h n
  have b := abs_le.1 he
  rw [abs_of_nonneg (by linarith)]
  linarith

theorem dd_real' {A F H D e t : ℝ} (h : A < F) (n : |H - F| ≤ |H - A|) (he : |D - (H - F)| ≤ e) (hd : (F - A) / 2 - t < -D) (ht : 0 ≤ t) : |(F + A) / 2 - H| ≤ e + t := by
  have := dd_real (A := -A) (F := -F) (H := -H) (D := -D) (e := e) (t := t) (by linarith)
    (by rw [show -H - -F = -(H - F) by ring, show -H - -A = -(H - A) by ring, abs_neg, abs_neg]; exact n)
    (by rw [show -D - (-H - -F) = -(D - (H - F)) by ring, abs_neg]; exact he) (by linarith) ht
  rwa [show (-F + -A) / 2 - -H = -((F + A) / 2 - H) by ring, abs_neg] at this

/-- `dd_to_float_` -/
theorem dd_near {hi f lo : Nat} {e : ℝ} (n : Near hi f) (hf : f = narrow hi) (h0 : 2 ≤ b32.abs f) (hd : Fin b64 (residual hi lo))
    (he : |R b64 (residual hi lo) - (R b64 hi - R b32 f)| ≤ e) :
    ∃ r, ddToFloat hi lo = some r ∧ (r = f ∨ ∃ q, Next (b32.abs f) q ∧ r = b32.pack (b32.neg f) q ∧ |midR (b32.neg f) (b32.abs f) q - R b64 hi| ≤ e + 1 / 2 ^ 70) := by
  have ht := n.top
  have hin : b32.abs f + 1 < b32.inf := by rw [show b32.inf = 2139095040 from rfl]; omega
  unfold ddToFloat
  rw [← hf]
  by_cases hz : b64.eq (residual hi lo) 0 = true
  · simp only [hz, if_true]
    exact ⟨f, rfl, Or.inl rfl⟩
  simp only [hz, if_false, Bool.false_eq_true]
  cases hl : b64.lt 0 (residual hi lo)
  · obtain ⟨r, r1, r2, r3, r4, r5, -, r6⟩ := nextF_R n.pat hin (by omega) false
    simp only [Bool.false_eq_true, if_false] at r1 r6
    have rf := n.next_fin r3
    simp only [r1, if_false, Bool.false_eq_true, Option.map_some]
    split
    · rename_i hc
      refine ⟨_, rfl, Or.inr ⟨b32.abs r, r3, by rw [← r5 h0]; exact (Fmt.pack_self r2).symm, ?_⟩⟩
      have nr := n.near (b32.abs r) (Nat.le_of_lt rf)
      rw [← r4] at nr
      have hst : |R b32 f - R b32 r| ≤ 1 / 2 ^ 20 := by
        rw [r4, n.val, ← mul_sub, abs_mul, sg_abs, one_mul]
        exact step_small ht r3
      have a := halve_ap (diff_ap n.fin32 rf hst) hst
      rw [lt_R a.fin (fin_opp hd), R_opp] at hc
      have := abs_le.1 a.err
      rw [mid_next n r4]
      exact dd_real' r6 nr he (by linarith) (by norm_num)
    · exact ⟨f, rfl, Or.inl rfl⟩
  · obtain ⟨r, r1, r2, r3, r4, r5, -, r6⟩ := nextF_R n.pat hin (by omega) true
    simp only [if_true] at r1 r6
    have rf := n.next_fin r3
    simp only [r1, if_true, Option.map_some]
    split
    · rename_i hc
      refine ⟨_, rfl, Or.inr ⟨b32.abs r, r3, by rw [← r5 h0]; exact (Fmt.pack_self r2).symm, ?_⟩⟩
      have nr := n.near (b32.abs r) (Nat.le_of_lt rf)
      rw [← r4] at nr
      have hst : |R b32 r - R b32 f| ≤ 1 / 2 ^ 20 := by
        rw [r4, n.val, ← mul_sub, abs_mul, sg_abs, one_mul, abs_sub_comm]
        exact step_small ht r3
      have a := halve_ap (diff_ap rf n.fin32 hst) hst
      rw [lt_R a.fin hd] at hc
      have := abs_le.1 a.err
      rw [mid_next n r4]
      exact dd_real r6 nr he (by linarith) (by norm_num)
    · exact ⟨f, rfl, Or.inl rfl⟩

/-- `(hi - (double)f) + lo` -/
theorem residual_ap {hi lo : Nat} (n : Near hi (narrow hi)) (h0 : b32.abs (narrow hi) ≠ 0) (hl : Fin b64 lo) (l1 : |R b64 lo| ≤ 1 / 2 ^ 45) :
    Fin b64 (residual hi lo) ∧ |R b64 (residual hi lo) - (R b64 hi - R b32 (narrow hi))| ≤ |R b64 lo| + 1 / 2 ^ 60 ∧ |R b64 (residual hi lo)| ≤ 1 / 2 ^ 15 := by
  obtain ⟨w1, w2, -, -⟩ := wideR n.fin32
  have d := n.dist h0
  have s := (Ap.exact n.fin).sub (Ap.exact w1) (B := 1 / 2 ^ 20) (by rw [w2]; exact d) (by norm_num)
  rw [w2] at s
  have b : |R b64 hi - R b32 (narrow hi) + R b64 lo| ≤ 1 / 2 ^ 19 := (abs_add_le _ _).trans ((add_le_add d l1).trans (by norm_num))
  have a := s.add (Ap.exact hl) b (by norm_num)
  have e := abs_le.1 a.err
  have l := abs_le.1 (le_refl |R b64 lo|)
  have d' := abs_le.1 d
  refine ⟨a.fin, abs_le.2 ⟨?_, ?_⟩, ?_⟩
  · unfold residual; norm_num at *; linarith
  · unfold residual; norm_num at *; linarith
  · have := a.abs_le b
    unfold residual
    refine this.trans ?_
    norm_num

end Verif.Approx
