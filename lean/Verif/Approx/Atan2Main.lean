import Verif.Approx.Atan2Val

/-! # The three branches of `atan2f` -/

namespace Verif.Approx
open Verif.Float Verif.Approx.Spec
open Verif.Math.Spec (Pat)

theorem narrow_zero {k : Nat} (hk : Fin b64 k) (h : |R b64 k| ≤ 1 / 2 ^ 151) : b32.abs (narrow k) = 0 := by
  have hr : Rounded b32 (R b64 k) (narrow k) := conv_rounded hk
  have h1 := hr.near.best 0 (Nat.zero_le _)
  rw [show Math.Spec.absOf b32 (narrow k) = b32.abs (narrow k) from rfl, b32.mag_zero, Nat.cast_zero, sub_zero] at h1
  by_contra hc
  have h2 : b32.mag 0 < b32.mag (b32.abs (narrow k)) := b32.mag_strictMono (Nat.pos_of_ne_zero hc)
  rw [b32.mag_zero] at h2
  have h3 : (1 : ℝ) ≤ b32.mag (b32.abs (narrow k)) := by exact_mod_cast h2
  have h4 : |R b64 k| * 2 ^ b32.unit ≤ 1 / 4 := by
    rw [show b32.unit = 149 from rfl]
    calc |R b64 k| * 2 ^ 149 ≤ 1 / 2 ^ 151 * 2 ^ 149 := mul_le_mul_of_nonneg_right h (by positivity)
      _ = _ := by norm_num
  have h5 : 0 ≤ |R b64 k| * 2 ^ b32.unit := by positivity
  rw [abs_of_nonneg h5] at h1
  have h6 := neg_abs_le (|R b64 k| * 2 ^ b32.unit - b32.mag (b32.abs (narrow k)))
  linarith

theorem arctan_low {Q : ℝ} (h0 : 0 ≤ Q) (h1 : Q ≤ 1.001 / 2 ^ 10) : Q ≤ 1.0001 * Real.arctan Q := by
  have h := arctan_taylor h0 1
  simp only [atT] at h
  norm_num at h
  have h2 := (abs_le.1 h).1
  have h3 : Q ^ 3 ≤ (1.001 / 2 ^ 10) ^ 2 * Q := by
    rw [show Q ^ 3 = Q ^ 2 * Q by ring]
    exact mul_le_mul_of_nonneg_right (pow_le_pow_left₀ h0 h1 2) h0
  norm_num at h3 ⊢
  linarith

theorem arctan_big {Q : ℝ} (h : 1.001 / 2 ^ 10 ≤ Q) : 1 / 2 ^ 10 ≤ Real.arctan Q := by
  have h1 := arctan_low (Q := 1.001 / 2 ^ 10) (by norm_num) le_rfl
  have h2 : Real.arctan (1.001 / 2 ^ 10) ≤ Real.arctan Q := Real.arctan_le_arctan_iff.2 h
  generalize Real.arctan (1.001 / 2 ^ 10) = u at *
  norm_num at *
  linarith

theorem plain_small {k num den : Nat} {negative : Bool} {v : ℝ} (hn : Fin b64 num) (hd : Fin b64 den) (n0 : 1 / 2 ^ 150 ≤ R b64 num) (n1 : R b64 num ≤ 2 ^ 130)
    (d0 : 0 < R b64 den) (d1 : R b64 den ≤ 2 ^ 130) (q0 : 1 / 2 ^ 155 ≤ R b64 num / R b64 den) (q1 : R b64 num / R b64 den ≤ 1.001 / 2 ^ 10)
    (hr : Rel k v (1 / 2 ^ 41)) (hv : |v| = Real.arctan (R b64 num / R b64 den)) :
    ∃ r, atanPlain k num den negative = some r ∧ Accurate b32 (1 / 2 ^ 39) v r := by
  obtain ⟨t1, t2, t3⟩ := quot_low hn hd n0 n1 d0 d1 q0 (q1.trans (by norm_num))
  have q2 := arctan_low ((by positivity : (0 : ℝ) ≤ 1 / 2 ^ 155).trans q0) q1
  have q3 := arctan_abs (R b64 num / R b64 den)
  have q4 := Real.arctan_pos.2 (lt_of_lt_of_le (by positivity) q0)
  rw [abs_of_pos q4, abs_of_pos (lt_of_lt_of_le (by positivity) q0)] at q3
  have t4 := abs_le.1 t1.err
  rw [abs_of_pos (lt_of_lt_of_le (by positivity) q0)] at t4
  have t5 := arctan_lip (R b64 (exactQuot num den).1) (R b64 num / R b64 den)
  have t6 := t1.err
  rw [abs_of_pos (lt_of_lt_of_le (by positivity) q0)] at t6
  obtain ⟨s1, s2⟩ := atanDd_small t1.fin t2 (by norm_num at *; linarith) (by norm_num at *; linarith) t3
  rw [← hv] at q2 q3 q4 t5
  have hA : |(atanDd (exactQuot num den).1 (exactQuot num den).2).mg - abs v| ≤ 0.85 / 2 ^ 40 * |v| := by
    have e := abs_le.1 s2
    have e2 := abs_le.1 (t5.trans t6)
    have : 0 < (atanDd (exactQuot num den).1 (exactQuot num den).2).V := by norm_num at *; linarith
    rw [← Dint.V_abs, abs_of_pos this, abs_le]
    constructor <;> norm_num at * <;> linarith
  have v0 : v ≠ 0 := abs_pos.1 q4
  have hr' : Rel k v (1 / 2 ^ 40) := hr.mono (by norm_num)
  have k1 := hr.le_abs
  have k2 := hr.abs_le
  have h0 : R b64 k ≠ 0 := by
    rw [← abs_pos]
    norm_num at k1
    linarith
  have n := narrow_near hr.fin h0 (by norm_num at *; linarith)
  have own : Accurate b32 (1 / 2 ^ 39) v (narrow k) := pick_accurate n rfl v0 hr' (ε := 0) (by norm_num) (Or.inl rfl)
  obtain ⟨w1, w2, -, -⟩ := wideR n.fin32
  unfold atanPlain
  simp only
  split
  · rename_i hc
    have f0 : b32.abs (narrow k) ≠ 0 := fun e => hc.2 (by
      rw [eq_R n.fin32 (by unfold Fin; decide), R_signed, e, R_signed, show b32.abs 0 = 0 from rfl, b32.mag_zero]; simp)
    have ds := n.dist f0
    have d := (Ap.exact n.fin).sub (Ap.exact w1) (B := 1 / 2 ^ 20) (by rw [w2]; exact ds) (by norm_num)
    rw [w2] at d
    obtain ⟨g, g1, -⟩ := gap_near n f0 d.fin ((d.abs_le ds).trans (by norm_num)) d.err
    rw [g1, Option.bind_some]
    split
    · obtain ⟨o, c, x, o1, -, o3, o4, o5⟩ := accurate_choice (d := b64.sub k (wide (narrow k))) (exactQuot num den) negative none n rfl h0 f0
      refine ⟨_, o3, pick_accurate n rfl v0 hr' (ε := 1.9 / 2 ^ 40) (by norm_num) ?_⟩
      rcases o5 with rfl | ⟨rfl, o6⟩
      · left; exact Fmt.pack_self n.pat
      · right
        refine ⟨_, o1, rfl, ?_⟩
        have o6 := o6 rfl
        rw [show atanMagnitude (exactQuot num den) negative none = atanDd (exactQuot num den).1 (exactQuot num den).2 from rfl] at o6
        have nr := n.near c (by have := n.top; rw [show b32.inf = 2139095040 from rfl]; rcases o1 with h | h <;> omega)
        rw [n.val, n.sign, ← mul_sub, ← mul_sub, abs_mul, abs_mul, sg_abs, one_mul, one_mul] at nr
        have vs := sg_same n.sign hr.err (by norm_num) v0
        have hmid : |midR (b32.neg (narrow k)) (b32.abs (narrow k)) c - v| =
            |((b32.mag (b32.abs (narrow k)) : ℝ) / 2 ^ b32.unit + b32.mag c / 2 ^ b32.unit) / 2 - abs v| := by
          conv_lhs => rw [vs]
          unfold midR
          rw [← mul_sub, abs_mul, sg_abs, one_mul]
          congr 2
          ring
        rw [hmid]
        have mf := min_mag (Nat.pos_of_ne_zero f0)
        have mc : (0 : ℝ) ≤ b32.mag c / 2 ^ b32.unit := by positivity
        have mlt : c = b32.abs (narrow k) + 1 → (b32.mag (b32.abs (narrow k)) : ℝ) / 2 ^ b32.unit < b32.mag c / 2 ^ b32.unit := fun h => by
          have := b32.mag_strictMono (show b32.abs (narrow k) < c by omega)
          gcongr
        have mgt : ¬ c = b32.abs (narrow k) + 1 → (b32.mag c : ℝ) / 2 ^ b32.unit < b32.mag (b32.abs (narrow k)) / 2 ^ b32.unit := fun h => by
          have := b32.mag_strictMono (show c < b32.abs (narrow k) by rcases o1 with h' | h' <;> omega)
          gcongr
        generalize (b32.mag (b32.abs (narrow k)) : ℝ) / 2 ^ b32.unit = F at *
        generalize (b32.mag c : ℝ) / 2 ^ b32.unit = O at *
        have mp : 0 < (F + O) / 2 := by have : (0 : ℝ) < 1 / 2 ^ 149 := by positivity
                                        linarith
        have x1 := o4.le_abs
        have x2 := o4.abs_le
        rw [abs_of_pos mp] at x1 x2
        have xv := Dint.ofDouble_exact o4.fin (by norm_num at *; linarith)
        have xm : (Dint.ofDouble x).mg = |R b64 x| := by rw [← Dint.V_abs, xv]
        have cl := Dint.cmp_le s1 (Dint.ofDouble_norm x)
        rw [xm] at cl
        have ha := abs_le.1 hA
        rw [abs_le]
        split at o6
        · rename_i ho
          have h1 := half_way (mlt ho) nr
          have h2 := cl.1 o6
          constructor <;> norm_num at * <;> linarith
        · rename_i ho
          have h1 := half_way (F := -F) (A := -O) (H := -|R b64 k|) (by linarith [mgt ho]) (by
            rw [show -|R b64 k| - -F = -(|R b64 k| - F) by ring, show -|R b64 k| - -O = -(|R b64 k| - O) by ring, abs_neg, abs_neg]; exact nr)
          have h2 := cl.2 o6
          constructor <;> norm_num at * <;> linarith
    · exact ⟨_, rfl, own⟩
  · exact ⟨_, rfl, own⟩

theorem pack_R {C : Nat} (s : Bool) (h : C < b64.signBit) (hC : Fin b64 C) : Fin b64 (b64.pack s C) ∧ R b64 (b64.pack s C) = sg s * R b64 C := by
  have e1 : b64.abs (b64.pack s C) = C := Fmt.abs_pack h
  have e2 : b64.neg (b64.pack s C) = s := Fmt.neg_pack h
  have e3 : b64.abs C = C := Nat.mod_eq_of_lt h
  have e4 : b64.neg C = false := by unfold Fmt.neg; rw [Nat.div_eq_of_lt h]; rfl
  refine ⟨by unfold Fin at hC ⊢; rw [e1]; rwa [e3] at hC, ?_⟩
  rw [R_signed, R_signed, e1, e2, e3, e4]
  simp [sg]

/-- The branches with a constant. -/
theorem from_value {C L k num den : Nat} {base : Dint} {negative s : Bool} {c w : ℝ} (hC : Fin b64 C) (C1 : C < b64.signBit) (hc : |R b64 C - c| ≤ 1 / 2 ^ 52) (hL : Fin b64 L)
    (L1 : L < b64.signBit) (hl : |R b64 L| ≤ 1 / 2 ^ 52) (hk : Ap k w (1.2 / 2 ^ 42)) (hw : |w| ≤ 0.8) (c1 : 1.57 ≤ c) (hv : |sg s * c - w| ≤ 3.2) :
    ∃ r, atanFrom (b64.pack s C) (b64.pack s L) base k num den negative = some r ∧ Accurate b32 (1 / 2 ^ 39) (sg s * c - w) r := by
  obtain ⟨p1, p2⟩ := pack_R s C1 hC
  obtain ⟨l1, l2⟩ := pack_R s L1 hL
  have pa : Ap (b64.pack s C) (sg s * c) (1 / 2 ^ 52) := ⟨p1, by rw [p2, ← mul_sub, abs_mul, sg_abs, one_mul]; exact hc⟩
  have la : |R b64 (b64.pack s L)| ≤ 1 / 2 ^ 52 := by rw [l2, abs_mul, sg_abs, one_mul]; exact hl
  have lo : 0.77 ≤ |sg s * c - w| := by
    have := abs_sub_abs_le_abs_sub (sg s * c) w
    rw [abs_mul, sg_abs, one_mul, abs_of_pos (by linarith)] at this
    norm_num at *
    linarith
  generalize b64.pack s C = chi at *
  generalize b64.pack s L = clo at *
  have hr : Rel (b64.sub chi k) (sg s * c - w) (1 / 2 ^ 40) := by
    have := Rel.add_abs (e := 1 / 2 ^ 52) (d := 1.2 / 2 ^ 42) (B := 4) (η := 1 / 2 ^ 40) (w := -w) (v := sg s * c) p1 (fin_opp hk.fin) pa.err
      (by rw [R_opp, show ∀ a b : ℝ, -a - -b = -(a - b) by intros; ring, abs_neg]; exact hk.err)
      (by rw [← sub_eq_add_neg]; norm_num at *; linarith) (le_Mx (by norm_num)) (by rw [← sub_eq_add_neg]; norm_num at *; linarith)
    rwa [← sub_eq_add_neg] at this
  -- the rounding errors
  have kk : |R b64 k| ≤ 0.81 := (hk.abs_le hw).trans (by norm_num)
  have hh := (Ap.exact p1).sub (Ap.exact hk.fin) (B := 3.3) (by
    have e1 := abs_le.1 pa.err
    have e2 := abs_le.1 hk.err
    have e3 := abs_le.1 hv
    rw [abs_le]
    constructor <;> norm_num at * <;> linarith) (by norm_num)
  have h1 := (Ap.exact p1).sub hh (B := 0.81) (by rw [sub_sub_cancel]; exact kk) (by norm_num)
  rw [sub_sub_cancel] at h1
  have h2 := h1.sub (Ap.exact hk.fin) (B := 0) (by simp) (by norm_num)
  rw [sub_self] at h2
  have h3 := h2.add (Ap.exact l1) (B := 1 / 2 ^ 52) (by rw [zero_add]; exact la) (by norm_num)
  rw [zero_add] at h3
  exact from_accurate hr h3.fin ((h3.abs_le la).trans (by norm_num)) (le_trans (by norm_num) lo) hv

end Verif.Approx
