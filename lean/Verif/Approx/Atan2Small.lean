import Verif.Approx.DintOf

/-! # `atan2f` near zero -/

namespace Verif.Approx
open Verif.Float Verif.Approx.Spec
open Verif.Math.Spec (Pat)
open Dint

theorem dint_small {h : Dint} (hk : h.Ok) (h0 : 0 < h.V) (h1 : h.V ≤ 1.01 / 2 ^ 10) :
    (atanSmall h).Ok ∧ |(atanSmall h).V - Real.arctan h.V| ≤ 0.78 / 2 ^ 40 * h.V := by
  have hm : h.mg = h.V := by rw [← V_abs, abs_of_pos h0]
  obtain ⟨s1, s2⟩ := mul_V hk hk
  have sq : h.V ^ 2 ≤ 1.03 / 2 ^ 20 := by
    calc h.V ^ 2 ≤ (1.01 / 2 ^ 10) ^ 2 := pow_le_pow_left₀ h0.le h1 2
      _ ≤ _ := by norm_num
  have hS : |(h.mul h).V - h.V ^ 2| ≤ h.V ^ 2 / 2 ^ 123 := by rw [hm] at s2; rw [pow_two]; exact s2
  have sm : (h.mul h).mg ≤ 1 / 2 ^ 10 := by
    rw [← V_abs]
    have a := abs_le.1 hS
    have : 0 ≤ h.V ^ 2 := sq_nonneg _
    norm_num at *
    exact abs_le.2 ⟨by linarith, by linarith⟩
  obtain ⟨p1, p2⟩ := poly_third s1 sm
  obtain ⟨c1, c2⟩ := mul_V hk s1
  obtain ⟨b1, b2⟩ := mul_V c1 p1
  obtain ⟨a1, a2⟩ := add_spec hk b1
  refine ⟨a1, ?_⟩
  have := small_real h0 h1 hS (by rw [V_abs, ← hm] ; rw [hm] at c2 ⊢; exact c2) (by rw [V_abs]; exact p2) (by rw [V_abs, V_abs]; exact b2)
    (show |(atanSmall h).V - (h.V + ((h.mul (h.mul h)).mul (dintPoly (h.mul h) atanP)).V)| ≤ _ by rw [V_abs, ← hm]; rw [hm] at a2 ⊢; exact a2)
  have t := arctan_taylor h0.le 2
  have e : atT 2 h.V = h.V - h.V ^ 3 / 3 := by
    unfold atT atT atT; norm_num; ring
  rw [e] at t
  have q5 : h.V ^ (2 * 2 + 1) / (2 * (2 : Nat) + 1) ≤ 0.22 / 2 ^ 40 * h.V := by
    have e5 : h.V ^ (2 * 2 + 1) = (h.V ^ 2) ^ 2 * h.V := by ring
    have q4 : (h.V ^ 2) ^ 2 ≤ 1.07 / 2 ^ 40 := by
      calc (h.V ^ 2) ^ 2 ≤ (1.03 / 2 ^ 20) ^ 2 := pow_le_pow_left₀ (sq_nonneg _) sq 2
        _ ≤ _ := by norm_num
    rw [e5]
    have := mul_le_mul_of_nonneg_right q4 h0.le
    norm_num at this ⊢
    linarith
  have k1 := abs_le.1 this
  have k2 := abs_le.1 (t.trans q5)
  norm_num at k1 k2 ⊢
  exact abs_le.2 ⟨by linarith, by linarith⟩

/-! ### The table index -/

theorem search_zero {x : Nat} (h : ∀ i, 0 < i → i ≤ 127 → b64.le (atanTan.getD i 0) x = false) : ∀ n hi, hi ≤ 127 → atanSearch x n 0 hi = 0
  | 0, _, _ => rfl
  | n + 1, hi, hh => by
      unfold atanSearch
      split
      · simp only
        rw [h _ (by omega) (by omega)]
        exact search_zero h n _ (by omega)
      · rfl

theorem table_big : ∀ i, 0 < i → i ≤ 127 → Fin b64 (atanTan.getD i 0) ∧ b64.lt 0x3F60000000000000 (atanTan.getD i 0) = true := by
  have : ∀ i ∈ List.range 128, 0 < i → b64.abs (atanTan.getD i 0) < b64.inf ∧ b64.lt 0x3F60000000000000 (atanTan.getD i 0) = true := by decide +kernel
  exact fun i h0 h1 => this i (by simp; omega) h0

theorem k_9 : Fin b64 0x3F60000000000000 ∧ R b64 0x3F60000000000000 = 1 / 2 ^ 9 := by
  obtain ⟨h1, h2⟩ := lit_pos (x := 0x3F60000000000000) (E := 1014) (m := 2 ^ 52) (k := 61) (by decide) (by decide) (by decide) (by decide)
  exact ⟨h1, by rw [h2]; norm_num⟩

theorem table_gt {x i : Nat} (h : R b64 x ≤ 1 / 2 ^ 9) (h0 : 0 < i) (h1 : i ≤ 127) : R b64 x < R b64 (atanTan.getD i 0) := by
  obtain ⟨t1, t2⟩ := table_big i h0 h1
  rw [lt_R k_9.1 t1, k_9.2] at t2
  linarith

theorem index_zero {x : Nat} (hx : Fin b64 x) (h : R b64 x ≤ 1 / 2 ^ 9) : atanIndex x = 0 := by
  refine search_zero (fun i h0 h1 => ?_) 8 127 le_rfl
  rw [← Bool.not_eq_true, le_R (table_big i h0 h1).1 hx, not_le]
  exact table_gt h h0 h1

theorem recip_one : recipDint oneDint = oneDint := by decide +kernel

theorem one_V : oneDint.Ok ∧ oneDint.mg = 1 ∧ oneDint.V = 1 := by
  have h : oneDint.mg = 1 := by
    unfold oneDint mg
    simp only
    rw [show (0 - 127 : Int) = -127 from rfl, zpow_neg, show (2 : ℝ) ^ (127 : Int) = 2 ^ 127 by norm_cast]
    norm_num
  refine ⟨Or.inr ⟨by decide, by decide⟩, h, ?_⟩
  unfold V
  rw [h]
  simp [sg, oneDint]

/-- For small arguments the arctangent is the polynomial. -/
theorem atanDint_small {xd : Dint} {x : Nat} (hx : Fin b64 x) (h : R b64 x ≤ 1 / 2 ^ 9) (hn : xd.Norm) : atanDint xd x = atanSmall (xd.mul oneDint) := by
  have h0 : xd.m ≠ 0 := by have := hn.1; intro h; rw [h] at this; norm_num at this
  unfold atanDint
  have l : b64.lt (atanTan.getD 127 0) x = false := by
    rw [← Bool.not_eq_true, lt_R (table_big 127 (by omega) le_rfl).1 hx, not_lt]
    exact (table_gt h (by omega) le_rfl).le
  rw [l]
  simp only [Bool.false_eq_true, if_false, index_zero hx h, true_or, if_true]
  have t0 : atanTanDint.getD 0 oneDint = ⟨false, 0, 0⟩ := rfl
  rw [t0]
  have m0 : (xd.mul ⟨false, 0, 0⟩).m = 0 := by unfold Dint.mul; simp
  have e1 : oneDint.add (xd.mul ⟨false, 0, 0⟩) = oneDint := by
    unfold Dint.add
    rw [if_neg (by decide), if_pos m0]
  have e2 : xd.add (Dint.opp ⟨false, 0, 0⟩) = xd := by
    unfold Dint.add
    rw [if_neg h0]
    simp only [Dint.opp, if_true]
  have e3 : atanStep.mulInt 0 = ⟨false, 0, 0⟩ := by
    unfold Dint.mulInt
    simp only [if_true]
  have e4 : ∀ a : Dint, Dint.add ⟨false, 0, 0⟩ a = a := fun a => by
    unfold Dint.add
    simp only [if_true]
  rw [e1, e2, e3, recip_one, e4]

theorem atanDd_small {hi lo : Nat} (hx : Fin b64 hi) (hl : Fin b64 lo) (h1 : R b64 hi ≤ 1.005 / 2 ^ 10) (h0 : 1 / 2 ^ 160 ≤ R b64 hi) (h2 : |R b64 lo| ≤ R b64 hi / 2 ^ 48) :
    (atanDd hi lo).Norm ∧ |(atanDd hi lo).V - Real.arctan (R b64 hi)| ≤ 0.8 / 2 ^ 40 * R b64 hi := by
  have hp : 0 < R b64 hi := lt_of_lt_of_le (by positivity) h0
  obtain ⟨o1, o2⟩ := ofDd hx hl (h1.trans (by norm_num)) h0 h2
  have o3 := abs_le.1 o2
  have v0 : 0 < (dintOfDd hi lo).V := by norm_num at o3; linarith
  have on : (dintOfDd hi lo).Norm := o1.resolve_left fun h => by rw [V_zero h] at v0; exact lt_irrefl _ v0
  unfold atanDd
  rw [atanDint_small hx (h1.trans (by norm_num)) on]
  obtain ⟨m1, m2⟩ := mul_V o1 one_V.1
  rw [one_V.2.1, one_V.2.2, mul_one, mul_one, ← V_abs, abs_of_pos v0] at m2
  have m3 := abs_le.1 m2
  have hH : |((dintOfDd hi lo).mul oneDint).V - R b64 hi| ≤ R b64 hi / 2 ^ 46 := by
    norm_num at m3 o3 ⊢
    exact abs_le.2 ⟨by linarith, by linarith⟩
  have hH' := abs_le.1 hH
  have w0 : 0 < ((dintOfDd hi lo).mul oneDint).V := by norm_num at hH'; linarith
  have w1 : ((dintOfDd hi lo).mul oneDint).V ≤ 1.01 / 2 ^ 10 := by norm_num at hH' h1 ⊢; linarith
  obtain ⟨a1, a2⟩ := dint_small m1 w0 w1
  generalize (dintOfDd hi lo).mul oneDint = h at *
  have lip := arctan_lip h.V (R b64 hi)
  have k : |(atanSmall h).V - Real.arctan (R b64 hi)| ≤ 0.8 / 2 ^ 40 * R b64 hi := by
    refine (abs_sub_le _ _ _).trans ((add_le_add a2 (lip.trans hH)).trans ?_)
    norm_num at hH' ⊢
    linarith
  refine ⟨a1.resolve_left fun hz => ?_, k⟩
  rw [V_zero hz, zero_sub, abs_neg] at k
  have t := arctan_taylor hp.le 1
  have e : atT 1 (R b64 hi) = R b64 hi := by unfold atT atT; norm_num
  rw [e] at t
  have k1 := abs_le.1 k
  have k2 := abs_le.1 t
  have q3 : R b64 hi ^ (2 * 1 + 1) ≤ R b64 hi * (1 / 2) := by
    have : R b64 hi ^ 2 ≤ 1 / 2 := by
      calc R b64 hi ^ 2 ≤ (1.005 / 2 ^ 10) ^ 2 := pow_le_pow_left₀ hp.le h1 2
        _ ≤ _ := by norm_num
    calc R b64 hi ^ (2 * 1 + 1) = R b64 hi * R b64 hi ^ 2 := by ring
      _ ≤ _ := mul_le_mul_of_nonneg_left this hp.le
  norm_num at k1 k2 q3
  linarith

/-! ### The quotient in two parts -/

theorem k_veltkamp : Fin b64 0x41A0000002000000 ∧ R b64 0x41A0000002000000 = 134217729 := by
  obtain ⟨h1, h2⟩ := lit_pos (x := 0x41A0000002000000) (E := 1050) (m := 0x10000002000000) (k := 25) (by decide) (by decide) (by decide) (by decide)
  exact ⟨h1, by rw [h2]; norm_num⟩

theorem quot_low {num den : Nat} (hn : Fin b64 num) (hd : Fin b64 den) (n0 : 1 / 2 ^ 150 ≤ R b64 num) (n1 : R b64 num ≤ 2 ^ 130) (d0 : 0 < R b64 den) (d1 : R b64 den ≤ 2 ^ 130)
    (q0 : 1 / 2 ^ 155 ≤ R b64 num / R b64 den) (q1 : R b64 num / R b64 den ≤ 1) :
    Rel (exactQuot num den).1 (R b64 num / R b64 den) (1 / 2 ^ 52) ∧ Fin b64 (exactQuot num den).2 ∧ |R b64 (exactQuot num den).2| ≤ R b64 (exactQuot num den).1 / 2 ^ 48 := by
  have m65 : (2 : ℝ) ^ 140 ≤ Mx := le_Mx (by norm_num)
  have np : 0 < R b64 num := lt_of_lt_of_le (by positivity) n0
  have qp : 0 < R b64 num / R b64 den := div_pos np d0
  have rq : Rel (Arith.fdiv b64 num den) (R b64 num / R b64 den) (1 / 2 ^ 52) :=
    Rel.div (θ := 0) (Rel.exact hn rfl) (Rel.exact hd rfl) ⟨le_rfl, le_rfl, by norm_num⟩ d0.ne' (by norm_num) (by rw [abs_of_pos qp]; linarith [show (1 : ℝ) ≤ 2 ^ 140 by norm_num])
      (by rw [abs_of_pos qp]; exact le_trans (by norm_num) q0) (by norm_num)
  unfold exactQuot
  simp only
  refine ⟨rq, ?_⟩
  have rq' := rq.err
  generalize Arith.fdiv b64 num den = q at *
  have fq := rq.fin
  rw [abs_of_pos qp] at rq'
  have rq2 := abs_le.1 rq'
  obtain ⟨g, hg⟩ : ∃ g, R b64 q = g := ⟨_, rfl⟩
  obtain ⟨N, hN⟩ : ∃ g, R b64 num = g := ⟨_, rfl⟩
  obtain ⟨D, hD⟩ : ∃ g, R b64 den = g := ⟨_, rfl⟩
  rw [hN, hD] at rq2 q0 q1 qp
  rw [hN] at n0 n1 np
  rw [hD] at d0 d1
  rw [hg] at rq2
  obtain ⟨Q, hQ⟩ : ∃ Q, N / D = Q := ⟨_, rfl⟩
  have hQD : Q * D = N := by rw [← hQ]; field_simp
  rw [hQ] at rq2 q0 q1 qp
  have g0 : 0 < g := by norm_num at rq2; linarith
  have g1 : g ≤ 2 := by norm_num at rq2; linarith
  have gq : Q ≤ 1.01 * g := by norm_num at rq2 ⊢; linarith
  have gb : 1 / 2 ^ 156 ≤ g := by norm_num at rq2 q0 ⊢; linarith
  obtain ⟨t, ht⟩ : ∃ t : ℝ, t = 1 / 2 ^ 250 := ⟨_, rfl⟩
  have e5 := eta64
  rw [← ht] at e5
  -- c
  obtain ⟨c1, c2⟩ := mul_err top_big k_veltkamp.1 fq (by rw [k_veltkamp.2, hg, abs_of_pos (by positivity)]; linarith [show (2 : ℝ) ^ 29 ≤ 2 ^ 140 by norm_num, show (2 : ℝ) ^ 29 = 536870912 by norm_num])
  rw [k_veltkamp.2, hg, eps64, abs_of_pos (show 0 < 134217729 * g by positivity)] at c2
  generalize b64.mul 0x41A0000002000000 q = c at *
  have c3 := abs_le.1 c2
  have tg : t ≤ g / 2 ^ 80 := by rw [ht]; norm_num at gb ⊢; linarith
  have c4 : |R b64 c - 134217729 * g| ≤ g / 2 ^ 25 := by norm_num at c3 tg ⊢; exact abs_le.2 ⟨by linarith, by linarith⟩
  clear c2 c3
  have c5 := abs_le.1 c4
  -- c - q
  have sB : |R b64 c - R b64 q| ≤ 2 ^ 28 * g := by rw [hg]; norm_num at c5 ⊢; exact abs_le.2 ⟨by linarith, by linarith⟩
  obtain ⟨s1, s2⟩ := sub_err ok64 top_big c1 fq (sB.trans (by linarith [show (2 : ℝ) ^ 28 * g ≤ 2 ^ 28 * 2 from mul_le_mul_of_nonneg_left g1 (by positivity), show (2 : ℝ) ^ 28 * 2 ≤ 2 ^ 140 by norm_num]))
  rw [eps64, hg] at s2
  rw [hg] at sB
  have s3 : |R b64 (b64.sub c q) - (R b64 c - g)| ≤ g / 2 ^ 25 := s2.trans (by norm_num at sB ⊢; linarith)
  generalize b64.sub c q = s at *
  have s4 := abs_le.1 s3
  clear s2 s3
  -- qh
  have hB : |R b64 c - R b64 s| ≤ 2 * g := by norm_num at s4 ⊢; exact abs_le.2 ⟨by linarith, by linarith⟩
  obtain ⟨h1, h2⟩ := sub_err ok64 top_big c1 s1 (hB.trans (by linarith [show (4 : ℝ) ≤ 2 ^ 140 by norm_num]))
  rw [eps64] at h2
  have h3 : |R b64 (b64.sub c s) - g| ≤ g / 2 ^ 24 := by
    have a := abs_le.1 h2
    norm_num at a s4 hB ⊢; exact abs_le.2 ⟨by linarith, by linarith⟩
  generalize b64.sub c s = qh at *
  clear h2 c5 c4 sB s4 hB
  -- ql
  obtain ⟨l1, l2⟩ := sub_err ok64 top_big fq h1 (by rw [hg, abs_sub_comm]; refine h3.trans ?_; norm_num at g1 ⊢; linarith [show (4 : ℝ) ≤ 2 ^ 140 by norm_num])
  rw [eps64, hg, abs_sub_comm g] at l2
  have l3 : |R b64 (b64.sub q qh) - (g - R b64 qh)| ≤ g / 2 ^ 76 := l2.trans (by norm_num at h3 ⊢; linarith)
  generalize b64.sub q qh = ql at *
  clear l2
  obtain ⟨A, hA⟩ : ∃ A, R b64 qh = A := ⟨_, rfl⟩
  obtain ⟨B, hB⟩ : ∃ B, R b64 ql = B := ⟨_, rfl⟩
  rw [hA] at h3 l3
  rw [hB] at l3
  -- products
  have gD : |g * D - N| ≤ N / 2 ^ 52 := by
    rw [← hQD, ← sub_mul, abs_mul, abs_of_pos d0]
    have : |g - Q| ≤ Q / 2 ^ 52 := by norm_num at rq2 ⊢; exact abs_le.2 ⟨by linarith, by linarith⟩
    calc |g - Q| * D ≤ Q / 2 ^ 52 * D := mul_le_mul_of_nonneg_right this d0.le
      _ = _ := by ring
  have AD : |A * D - g * D| ≤ g * D / 2 ^ 24 := by
    rw [← sub_mul, abs_mul, abs_of_pos d0]
    calc |A - g| * D ≤ g / 2 ^ 24 * D := mul_le_mul_of_nonneg_right h3 d0.le
      _ = _ := by ring
  have BD : |B * D - (g * D - A * D)| ≤ g * D / 2 ^ 76 := by
    rw [← sub_mul, ← sub_mul, abs_mul, abs_of_pos d0]
    calc |B - (g - A)| * D ≤ g / 2 ^ 76 * D := mul_le_mul_of_nonneg_right l3 d0.le
      _ = _ := by ring
  have gD' := abs_le.1 gD
  have AD' := abs_le.1 AD
  have BD' := abs_le.1 BD
  have tN : t ≤ N / 2 ^ 80 := by rw [ht]; norm_num at n0 ⊢; linarith
  have aB : |A * D| ≤ 2 * N := by norm_num at gD' AD'; exact abs_le.2 ⟨by linarith, by linarith⟩
  have bB : |B * D| ≤ N / 2 ^ 23 := by norm_num at gD' AD' BD'; exact abs_le.2 ⟨by linarith, by linarith⟩
  have nM : 2 * N ≤ Mx := by linarith [show (2 : ℝ) * 2 ^ 130 ≤ 2 ^ 140 by norm_num]
  obtain ⟨a1, a2⟩ := mul_err top_big h1 hd (by rw [hA, hD]; exact aB.trans nM)
  obtain ⟨b1, b2⟩ := mul_err top_big l1 hd (by rw [hB, hD]; refine bB.trans ?_; norm_num at nM ⊢; linarith)
  rw [hA, hD, eps64] at a2
  rw [hB, hD, eps64] at b2
  have a3 : |R b64 (b64.mul qh den) - A * D| ≤ N / 2 ^ 51 := a2.trans (by norm_num at aB tN ⊢; linarith)
  have b3 : |R b64 (b64.mul ql den) - B * D| ≤ N / 2 ^ 60 := b2.trans (by norm_num at bB tN ⊢; linarith)
  generalize b64.mul qh den = a at *
  generalize b64.mul ql den = b at *
  have a4 := abs_le.1 a3
  have b4 := abs_le.1 b3
  clear a2 b2 gD AD BD
  -- num - a
  have rB : |R b64 num - R b64 a| ≤ N / 2 ^ 22 := by rw [hN]; norm_num at gD' AD' a4 ⊢; exact abs_le.2 ⟨by linarith, by linarith⟩
  obtain ⟨r1, r2⟩ := sub_err ok64 top_big hn a1 (rB.trans (by norm_num at nM ⊢; linarith))
  rw [eps64] at r2
  have r3 : |R b64 (b64.sub num a) - (R b64 num - R b64 a)| ≤ N / 2 ^ 70 := r2.trans (by norm_num at rB ⊢; linarith)
  rw [hN] at r3
  generalize b64.sub num a = r at *
  have r4 := abs_le.1 r3
  clear r2
  -- the remainder
  have uB : |R b64 r - R b64 b| ≤ N / 2 ^ 49 := by
    norm_num at gD' AD' BD' a4 b4 r4 ⊢; exact abs_le.2 ⟨by linarith, by linarith⟩
  obtain ⟨u1, u2⟩ := sub_err ok64 top_big r1 b1 (uB.trans (by norm_num at nM ⊢; linarith))
  rw [eps64] at u2
  have u3 : |R b64 (b64.sub r b)| ≤ 1.001 * N / 2 ^ 49 := by
    have x1 := abs_le.1 u2
    have x2 := abs_le.1 uB
    norm_num at x1 x2 uB ⊢; exact abs_le.2 ⟨by linarith, by linarith⟩
  generalize b64.sub r b = u at *
  clear u2
  have uq : |R b64 u / D| ≤ 1.001 * Q / 2 ^ 49 := by
    rw [abs_div, abs_of_pos d0, div_le_iff₀ d0]
    calc _ ≤ 1.001 * N / 2 ^ 49 := u3
      _ = _ := by rw [← hQD]; ring
  obtain ⟨v1, v2⟩ := div_err top_big u1 hd (by rw [hD]; exact d0.ne') (by rw [hD]; refine uq.trans ?_; norm_num at q1 ⊢; linarith [show (4 : ℝ) ≤ 2 ^ 140 by norm_num])
  rw [hD, eps64] at v2
  refine ⟨v1, ?_⟩
  rw [hg]
  have x1 := abs_le.1 v2
  have x2 := abs_le.1 uq
  norm_num at x1 x2 uq rq2 tg ⊢
  exact abs_le.2 ⟨by linarith, by linarith⟩

end Verif.Approx
