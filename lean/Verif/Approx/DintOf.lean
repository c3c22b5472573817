import Verif.Approx.Atan2Big
import Verif.Approx.PiBits

/-! # The 128-bit arctangent of a small quotient -/

namespace Verif.Approx
open Verif.Float Verif.Approx.Spec
open Verif.Math.Spec (Pat)

namespace Dint

theorem lt_min {x : Nat} (hx : Fin b64 x) : b64.lt (b64.abs x) 0x0010000000000000 = decide (b64.abs x < 2 ^ 52) := by
  have hx' : b64.abs x < b64.inf := hx
  have hs : b64.inf < b64.signBit := Fmt.inf_lt
  have e : b64.abs (b64.abs x) = b64.abs x := Nat.mod_eq_of_lt (by omega)
  have n : b64.neg (b64.abs x) = false := by unfold Fmt.neg; rw [Nat.div_eq_of_lt (by omega)]; rfl
  rw [Bool.eq_iff_iff, Fmt.lt_iff (by omega) (by decide), decide_eq_true_eq]
  unfold Fmt.val
  rw [n, e, show b64.neg 0x0010000000000000 = false by decide, show b64.abs 0x0010000000000000 = 2 ^ 52 by decide]
  simp only [Bool.false_eq_true, if_false]
  rw [Int.ofNat_lt, Fmt.mag_lt_iff]

/-- What is left of `dint_from_f64_` after the scaling. -/
def dec (b : Nat) (k : Int) : Dint := ⟨b64.lt b 0, (b / 2 ^ 52 % 2 ^ 11 : Nat) - 0x3FF - k, (b % 2 ^ 52 + 2 ^ 52) * 2 ^ 11 * 2 ^ 64⟩

theorem dec_norm (b : Nat) (k : Int) : (dec b k).Norm := by unfold Norm dec; simp only; omega

theorem R_abs_mag {x : Nat} : |R b64 x| = b64.mag (b64.abs x) / 2 ^ b64.unit := by
  unfold R Fmt.val
  rw [abs_div, abs_of_pos (show (0 : ℝ) < 2 ^ b64.unit by positivity)]
  split <;> simp

theorem dec_mg {b : Nat} {k : Int} (h : 2 ^ 52 ≤ b64.abs b) : (dec b k).mg = |R b64 b| * 2 ^ (-k) := by
  have hn : b64.abs b = b % 2 ^ 63 := rfl
  have e1 : b / 2 ^ 52 % 2 ^ 11 = b64.abs b / 2 ^ 52 := by omega
  have e2 : b % 2 ^ 52 = b64.abs b % 2 ^ 52 := by omega
  rw [R_abs_mag]
  unfold dec mg
  simp only
  rw [e1, e2]
  have e3 : b64.mag (b64.abs b) = (2 ^ 52 + b64.abs b % 2 ^ 52) * 2 ^ (b64.abs b / 2 ^ 52 - 1) := by
    unfold Fmt.mag; rw [show b64.f = 52 from rfl, if_neg (show ¬ b64.abs b < 2 ^ 52 by omega)]
  rw [e3]
  obtain ⟨e, he⟩ : ∃ e, b64.abs b / 2 ^ 52 = e + 1 := ⟨b64.abs b / 2 ^ 52 - 1, by omega⟩
  rw [he, Nat.add_sub_cancel]
  have hu : b64.unit = 1074 := rfl
  generalize b64.unit = u at *
  generalize b64.abs b % 2 ^ 52 = w
  have e4 : (2 : ℝ) ^ (((e + 1 : Nat) : Int) - 1023 - k - 127) = 2 ^ (e : Int) * 2 ^ (-k) / 2 ^ (u : Int) / 2 ^ (75 : Int) := by
    rw [← zpow_add₀ (by norm_num), ← zpow_sub₀ (by norm_num), ← zpow_sub₀ (by norm_num)]
    congr 1; rw [hu]; push_cast; ring
  rw [e4, zpow_natCast, zpow_natCast, show (2 : ℝ) ^ (75 : Int) = 2 ^ 75 by norm_cast]
  have h5 : (2 : ℝ) ^ 75 ≠ 0 := by positivity
  generalize hP : (2 : ℝ) ^ u = P
  have h6 : P ≠ 0 := by rw [← hP]; positivity
  have h7 : (((w + 2 ^ 52) * 2 ^ 11 * 2 ^ 64 : Nat) : ℝ) = (2 ^ 52 + w) * 2 ^ 75 := by push_cast; ring
  rw [h7, Nat.cast_mul, Nat.cast_add, Nat.cast_pow, Nat.cast_pow, Nat.cast_ofNat]
  generalize (2 : ℝ) ^ 75 = Z at *
  generalize (2 : ℝ) ^ 52 = Y at *
  field_simp

theorem dec_mg_sub {b : Nat} {k : Int} (h : b64.abs b < 2 ^ 52) (hk : 0 ≤ k) : (dec b k).mg ≤ 1 / 2 ^ 240 := by
  have hn : b64.abs b = b % 2 ^ 63 := rfl
  have e1 : b / 2 ^ 52 % 2 ^ 11 = 0 := by omega
  refine (dec_norm b k).hi.le.trans ?_
  unfold dec
  simp only
  rw [e1]
  calc (2 : ℝ) ^ (((0 : Nat) : Int) - 1023 - k + 1) ≤ 2 ^ (-240 : Int) := zpow_le_zpow_right₀ (by norm_num) (by push_cast; omega)
    _ = _ := by rw [zpow_neg, one_div]; norm_cast

theorem ofDouble_norm (x : Nat) : (ofDouble x).Norm := dec_norm _ _

set_option exponentiation.threshold 400 in
theorem sub_small {x : Nat} (h : b64.abs x < 2 ^ 52) : |R b64 x| ≤ 1 / 2 ^ 300 := by
  rw [R_abs_mag]
  have : b64.mag (b64.abs x) = b64.abs x := by unfold Fmt.mag; rw [show b64.f = 52 from rfl, if_pos h]
  rw [this]
  have h1 : (b64.abs x : ℝ) ≤ 2 ^ 52 := by exact_mod_cast h.le
  have h2 : (2 : ℝ) ^ 352 ≤ 2 ^ b64.unit := pow_le_pow_right₀ (by norm_num) (by decide)
  rw [div_le_div_iff₀ (by positivity) (by positivity), one_mul]
  calc (b64.abs x : ℝ) * 2 ^ 300 ≤ 2 ^ 52 * 2 ^ 300 := mul_le_mul_of_nonneg_right h1 (by positivity)
    _ = 2 ^ 352 := by rw [← pow_add]
    _ ≤ _ := h2

set_option exponentiation.threshold 400 in
theorem ofDouble_exact {x : Nat} (hx : Fin b64 x) (h : 1 / 2 ^ 250 ≤ |R b64 x|) : (ofDouble x).V = R b64 x := by
  have h2 : ¬ b64.abs x < 2 ^ 52 := fun hc => by
    have := sub_small hc
    have h3 : (1 : ℝ) / 2 ^ 300 < 1 / 2 ^ 250 := one_div_lt_one_div_of_lt (by positivity) (pow_lt_pow_right₀ (by norm_num) (by norm_num))
    linarith
  have e : ofDouble x = dec x 0 := by
    unfold ofDouble dec
    simp only [lt_min hx, decide_eq_true_eq, if_neg h2]
  rw [e]
  unfold V
  rw [dec_mg (by omega), neg_zero, zpow_zero, mul_one]
  have hl : b64.lt x 0 = decide (R b64 x < 0) := by rw [Bool.eq_iff_iff, lt_R hx zero64.1, zero64.2, decide_eq_true_eq]
  show sg (b64.lt x 0) * _ = _
  rw [hl]
  by_cases hn : R b64 x < 0
  · simp [sg, hn, abs_of_neg hn]
  · simp [sg, hn, abs_of_nonneg (not_lt.1 hn)]

theorem k_52 : Fin b64 0x4330000000000000 ∧ R b64 0x4330000000000000 = 2 ^ 52 := by
  obtain ⟨h1, h2⟩ := lit_pos (x := 0x4330000000000000) (E := 1075) (m := 2 ^ 52) (k := 0) (by decide) (by decide) (by decide) (by decide)
  exact ⟨h1, by rw [h2]; norm_num⟩

set_option exponentiation.threshold 400 in
theorem ofDouble_err {x : Nat} (hx : Fin b64 x) (h1 : |R b64 x| ≤ 1) : |(ofDouble x).V - R b64 x| ≤ 1 / 2 ^ 220 := by
  by_cases h2 : b64.abs x < 2 ^ 52
  · have hs := sub_small h2
    have hb : |R b64 x * R b64 0x4330000000000000| ≤ 1 / 2 ^ 240 := by
      rw [abs_mul, k_52.2, abs_of_pos (show (0 : ℝ) < 2 ^ 52 by positivity)]
      calc _ ≤ 1 / 2 ^ 300 * (2 : ℝ) ^ 52 := mul_le_mul_of_nonneg_right hs (by positivity)
        _ = 1 / 2 ^ 248 := by rw [show (300 : Nat) = 248 + 52 from rfl, pow_add]; field_simp
        _ ≤ _ := one_div_le_one_div_of_le (by positivity) (pow_le_pow_right₀ (by norm_num) (by norm_num))
    obtain ⟨m1, m2⟩ := mul_err big64.top hx k_52.1 (hb.trans (by norm_num))
    have e : ofDouble x = dec (b64.mul x 0x4330000000000000) 52 := by
      unfold ofDouble dec
      simp only [lt_min hx, decide_eq_true_eq, if_pos h2]
    have hm : |R b64 (b64.mul x 0x4330000000000000)| ≤ 1 / 2 ^ 230 := by
      have e5 := eta64
      rw [eps64] at m2
      have := abs_le.1 m2
      have := abs_le.1 hb
      norm_num at *
      exact abs_le.2 ⟨by linarith, by linarith⟩
    have hv : (ofDouble x).mg ≤ 1 / 2 ^ 230 := by
      rw [e]
      by_cases h3 : b64.abs (b64.mul x 0x4330000000000000) < 2 ^ 52
      · exact (dec_mg_sub h3 (by norm_num)).trans (by norm_num)
      · rw [dec_mg (by omega)]
        refine le_trans ?_ hm
        refine mul_le_of_le_one_right (abs_nonneg _) ?_
        rw [zpow_neg]
        norm_num
    rw [← V_abs] at hv
    have a := abs_le.1 hv
    have b := abs_le.1 hs
    have h3 : (1 : ℝ) / 2 ^ 300 ≤ 1 / 2 ^ 230 := one_div_le_one_div_of_le (by positivity) (pow_le_pow_right₀ (by norm_num) (by norm_num))
    have h4 : |(ofDouble x).V - R b64 x| ≤ 2 * (1 / 2 ^ 230) := abs_le.2 ⟨by linarith, by linarith⟩
    exact h4.trans (by norm_num)
  · have e : ofDouble x = dec x 0 := by
      unfold ofDouble dec
      simp only [lt_min hx, decide_eq_true_eq, if_neg h2]
    have : (ofDouble x).V = R b64 x := by
      rw [e]
      unfold V
      rw [dec_mg (by omega), neg_zero, zpow_zero, mul_one]
      have hl : b64.lt x 0 = decide (R b64 x < 0) := by rw [Bool.eq_iff_iff, lt_R hx zero64.1, zero64.2, decide_eq_true_eq]
      show sg (b64.lt x 0) * _ = _
      rw [hl]
      by_cases hn : R b64 x < 0
      · simp [sg, hn, abs_of_neg hn]
      · simp [sg, hn, abs_of_nonneg (not_lt.1 hn)]
    rw [this, sub_self, abs_zero]
    positivity

end Dint
open Dint

theorem ofDd {hi lo : Nat} (hx : Fin b64 hi) (hl : Fin b64 lo) (h1 : R b64 hi ≤ 1 / 2) (h0 : 1 / 2 ^ 160 ≤ R b64 hi) (h2 : |R b64 lo| ≤ R b64 hi / 2 ^ 48) :
    (dintOfDd hi lo).Ok ∧ |(dintOfDd hi lo).V - R b64 hi| ≤ R b64 hi / 2 ^ 47 := by
  have hp : 0 < R b64 hi := lt_of_lt_of_le (by positivity) h0
  have e1 : (ofDouble hi).V = R b64 hi := ofDouble_exact hx (by rw [abs_of_pos hp]; exact le_trans (by norm_num) h0)
  unfold dintOfDd
  split
  · refine ⟨Or.inr (ofDouble_norm _), ?_⟩
    rw [e1, sub_self, abs_zero]; positivity
  · obtain ⟨a1, a2⟩ := add_spec (Or.inr (ofDouble_norm hi)) (Or.inr (ofDouble_norm lo))
    refine ⟨a1, ?_⟩
    have e2 := ofDouble_err hl (h2.trans (by norm_num; linarith))
    rw [← V_abs (ofDouble hi), ← V_abs (ofDouble lo), e1, abs_of_pos hp] at a2
    have e3 : |(ofDouble lo).V| ≤ R b64 hi / 2 ^ 48 + 1 / 2 ^ 220 := by
      have := abs_sub_abs_le_abs_sub (ofDouble lo).V (R b64 lo)
      linarith
    have a := abs_le.1 a2
    have b := abs_le.1 e3
    generalize R b64 hi = w at *
    generalize |(ofDouble lo).V| = z at *
    norm_num at *
    exact abs_le.2 ⟨by linarith, by linarith⟩

/-! ### The polynomial -/

theorem poly_spec {h2 : Dint} (k2 : h2.Ok) (hm : h2.mg ≤ 1 / 2 ^ 10) : ∀ l : List Dint, (∀ c ∈ l, c.Ok ∧ c.mg ≤ 3 / 8) → (dintPoly h2 l).Ok ∧ (dintPoly h2 l).mg ≤ 1 / 2
  | [], _ => ⟨Or.inl rfl, by rw [show dintPoly h2 [] = ⟨false, 0, 0⟩ from rfl, mg_zero rfl]; norm_num⟩
  | [c], h => by
      obtain ⟨c1, c2⟩ := h c (by simp)
      exact ⟨c1, c2.trans (by norm_num)⟩
  | c :: c' :: cs, h => by
      obtain ⟨c1, c2⟩ := h c (by simp)
      obtain ⟨p1, p2⟩ := poly_spec k2 hm (c' :: cs) (fun x hx => h x (List.mem_cons_of_mem _ hx))
      obtain ⟨m1, m2⟩ := mul_V k2 p1
      obtain ⟨a1, a2⟩ := add_spec c1 m1
      show (c.add (h2.mul (dintPoly h2 (c' :: cs)))).Ok ∧ (c.add (h2.mul (dintPoly h2 (c' :: cs)))).mg ≤ 1 / 2
      refine ⟨a1, ?_⟩
      generalize dintPoly h2 (c' :: cs) = p at *
      have n1 := h2.mg_nonneg
      have n2 := p.mg_nonneg
      have pm : h2.mg * p.mg ≤ 1 / 2 ^ 11 := by
        calc _ ≤ (1 / 2 ^ 10 : ℝ) * (1 / 2) := mul_le_mul hm p2 n2 (by norm_num)
          _ = _ := by norm_num
      have hv : |h2.V * p.V| = h2.mg * p.mg := by rw [abs_mul, V_abs, V_abs]
      have m3 : (h2.mul p).mg ≤ 1 / 2 ^ 10 := by
        rw [← V_abs]
        have := abs_sub_abs_le_abs_sub (h2.mul p).V (h2.V * p.V)
        rw [hv] at this
        norm_num at *
        linarith
      rw [← V_abs]
      have t1 := abs_sub_abs_le_abs_sub (c.add (h2.mul p)).V (c.V + (h2.mul p).V)
      have t2 := abs_add_le c.V (h2.mul p).V
      rw [V_abs c, V_abs (h2.mul p)] at t2
      norm_num at *
      linarith

theorem c_bound {c : Dint} (h : 2 ^ 127 ≤ c.m ∧ c.m < 2 ^ 128) (he : c.ex ≤ -2) (hm : c.m ≤ 3 * 2 ^ 126) : c.Ok ∧ c.mg ≤ 3 / 8 := by
  refine ⟨Or.inr h, ?_⟩
  unfold mg
  have h1 : (c.m : ℝ) ≤ 3 * 2 ^ 126 := by exact_mod_cast hm
  have h2 : (2 : ℝ) ^ (c.ex - 127) ≤ 2 ^ (-129 : Int) := zpow_le_zpow_right₀ (by norm_num) (by omega)
  calc (c.m : ℝ) * 2 ^ (c.ex - 127) ≤ 3 * 2 ^ 126 * 2 ^ (-129 : Int) := mul_le_mul h1 h2 (zpow_pos (by norm_num) _).le (by positivity)
    _ = 3 / 8 := by rw [zpow_neg]; norm_num

theorem c_bound' {c : Dint} (h : 2 ^ 127 ≤ c.m ∧ c.m < 2 ^ 128) (he : c.ex ≤ -3) : c.Ok ∧ c.mg ≤ 3 / 8 := by
  refine ⟨Or.inr h, (Norm.hi h).le.trans ?_⟩
  calc (2 : ℝ) ^ (c.ex + 1) ≤ 2 ^ (-2 : Int) := zpow_le_zpow_right₀ (by norm_num) (by omega)
    _ ≤ _ := by rw [zpow_neg]; norm_num

theorem atanP_bound : ∀ c ∈ atanP, c.Ok ∧ c.mg ≤ 3 / 8 := by
  have : ∀ c ∈ atanP, (2 ^ 127 ≤ c.m ∧ c.m < 2 ^ 128) ∧ (c.ex ≤ -3 ∨ c.ex ≤ -2 ∧ c.m ≤ 3 * 2 ^ 126) := by decide +kernel
  intro c hc
  obtain ⟨h1, h2 | ⟨h2, h3⟩⟩ := this c hc
  · exact c_bound' h1 h2
  · exact c_bound h1 h2 h3

theorem c0_third : |(atanP.headD oneDint).V + 1 / 3| ≤ 1 / 2 ^ 120 := by
  rw [show atanP.headD oneDint = ⟨true, -2, 0xAAAAAAAAAAAAAAAAAAAAAAAAAAAAAAAB⟩ from rfl]
  unfold V mg
  simp only [sg, if_true]
  rw [show (-2 - 127 : Int) = -129 from rfl, zpow_neg, show (2 : ℝ) ^ (129 : Int) = 2 ^ 129 by norm_cast, abs_le]
  norm_num

/-- The polynomial is `-1/3` up to a multiple of the square. -/
theorem poly_third {h2 : Dint} (k2 : h2.Ok) (hm : h2.mg ≤ 1 / 2 ^ 10) :
    (dintPoly h2 atanP).Ok ∧ |(dintPoly h2 atanP).V + 1 / 3| ≤ 0.51 * h2.mg + 1 / 2 ^ 119 := by
  obtain ⟨c, c', cs, hl⟩ : ∃ c c' cs, atanP = c :: c' :: cs := ⟨_, _, _, rfl⟩
  have hb := atanP_bound
  have h3 := c0_third
  rw [hl] at hb h3 ⊢
  obtain ⟨c1, c2⟩ := hb c (by simp)
  obtain ⟨p1, p2⟩ := poly_spec k2 hm (c' :: cs) (fun x hx => hb x (List.mem_cons_of_mem _ hx))
  obtain ⟨m1, m2⟩ := mul_V k2 p1
  obtain ⟨a1, a2⟩ := add_spec c1 m1
  show (c.add (h2.mul (dintPoly h2 (c' :: cs)))).Ok ∧ |(c.add (h2.mul (dintPoly h2 (c' :: cs)))).V + 1 / 3| ≤ _
  refine ⟨a1, ?_⟩
  generalize dintPoly h2 (c' :: cs) = p at *
  have n1 := h2.mg_nonneg
  have n2 := p.mg_nonneg
  have pm : h2.mg * p.mg ≤ h2.mg * (1 / 2) := mul_le_mul_of_nonneg_left p2 n1
  have hv : |h2.V * p.V| = h2.mg * p.mg := by rw [abs_mul, V_abs, V_abs]
  have t0 := abs_sub_abs_le_abs_sub (h2.mul p).V (h2.V * p.V)
  rw [hv, V_abs (h2.mul p)] at t0
  have t4 := V_abs (h2.mul p)
  have h3' := abs_le.1 h3
  have a2' := abs_le.1 a2
  have t5 := abs_le.1 t4.le
  simp only [List.headD_cons] at h3'
  generalize (h2.mul p).V = B at *
  generalize (h2.mul p).mg = B' at *
  generalize h2.mg * p.mg = Z at *
  generalize h2.mg = w at *
  clear hb hl a2 h3 hv t4
  norm_num at *
  exact abs_le.2 ⟨by linarith, by linarith⟩

theorem small_real {H S C P A B : ℝ} (h0 : 0 < H) (h1 : H ≤ 1.01 / 2 ^ 10) (hS : |S - H ^ 2| ≤ H ^ 2 / 2 ^ 123) (hC : |C - H * S| ≤ H * |S| / 2 ^ 123)
    (hP : |P + 1 / 3| ≤ 0.51 * |S| + 1 / 2 ^ 119) (hB : |B - C * P| ≤ |C| * |P| / 2 ^ 123) (hA : |A - (H + B)| ≤ (H + |B|) / 2 ^ 125) :
    |A - (H - H ^ 3 / 3)| ≤ 0.55 / 2 ^ 40 * H := by
  have q0 : 0 < H ^ 2 := by positivity
  have q1 : H ^ 2 ≤ 1.03 / 2 ^ 20 := by
    calc H ^ 2 ≤ (1.01 / 2 ^ 10) ^ 2 := pow_le_pow_left₀ h0.le h1 2
      _ ≤ _ := by norm_num
  have s1 := abs_le.1 hS
  have s0 : 0 < S := by norm_num at s1; linarith
  rw [abs_of_pos s0] at hC hP
  have s2 : S ≤ 1.04 / 2 ^ 20 := by norm_num at s1 q1 ⊢; linarith
  -- C = H * S * (1 + e)
  have hHS : 0 < H * S := by positivity
  have c1 := abs_le.1 hC
  have c0 : 0 < C := by norm_num at c1; linarith
  rw [abs_of_pos c0] at hB
  have c2 : C ≤ 1.05 / 2 ^ 20 * H := by
    have : H * S ≤ H * (1.04 / 2 ^ 20) := mul_le_mul_of_nonneg_left s2 h0.le
    norm_num at c1 this ⊢; linarith
  -- C against H ^ 3
  have c3 : |C - H ^ 3| ≤ H / 2 ^ 120 := by
    have e : C - H ^ 3 = (C - H * S) + H * (S - H ^ 2) := by ring
    have t : |H * (S - H ^ 2)| ≤ H * (1 / 2 ^ 123) := by
      rw [abs_mul, abs_of_pos h0]
      refine mul_le_mul_of_nonneg_left (hS.trans ?_) h0.le
      norm_num at q1 ⊢; linarith
    have t2 : H * S ≤ H * 1 := mul_le_mul_of_nonneg_left (s2.trans (by norm_num)) h0.le
    rw [e]
    refine (abs_add_le _ _).trans ((add_le_add hC t).trans ?_)
    norm_num at t2 ⊢; linarith
  have p1 := abs_le.1 hP
  have p2 : |P + 1 / 3| ≤ 0.5305 / 2 ^ 20 := hP.trans (by norm_num at s2 ⊢; linarith)
  have p3 : |P| ≤ 1 := by
    have := abs_le.1 p2
    norm_num at this
    exact abs_le.2 ⟨by linarith, by linarith⟩
  -- B against -H^3/3
  have b1 : |B - C * P| ≤ H / 2 ^ 120 := by
    refine hB.trans ?_
    have : C * |P| ≤ C * 1 := mul_le_mul_of_nonneg_left p3 c0.le
    norm_num at c2 this ⊢; linarith
  have b2 : |C * (P + 1 / 3)| ≤ 0.5305 / 2 ^ 20 * (1.0301 / 2 ^ 20) * H := by
    have c4 : C ≤ 1.0301 / 2 ^ 20 * H := by
      have e : H ^ 3 = H ^ 2 * H := by ring
      have := abs_le.1 c3
      rw [e] at this
      have t := mul_le_mul_of_nonneg_right q1 h0.le
      norm_num at this t ⊢; linarith
    rw [abs_mul, abs_of_pos c0]
    calc C * |P + 1 / 3| ≤ (1.0301 / 2 ^ 20 * H) * (0.5305 / 2 ^ 20) := mul_le_mul c4 p2 (abs_nonneg _) (by positivity)
      _ = _ := by ring
  have b3 : |B + H ^ 3 / 3| ≤ 0.5466 / 2 ^ 40 * H := by
    have e : B + H ^ 3 / 3 = (B - C * P) + C * (P + 1 / 3) - (C - H ^ 3) / 3 := by ring
    have k1 := abs_le.1 b1
    have k2 := abs_le.1 b2
    have k3 := abs_le.1 c3
    rw [e]
    norm_num at k1 k2 k3 ⊢
    exact abs_le.2 ⟨by linarith, by linarith⟩
  have e3 : H ^ 3 ≤ H := by
    have e : H ^ 3 = H ^ 2 * H := by ring
    rw [e]
    have := mul_le_mul_of_nonneg_right (q1.trans (show _ ≤ (1 : ℝ) by norm_num)) h0.le
    linarith
  have b4 : |B| ≤ H := by
    have := abs_le.1 b3
    have : 0 < H ^ 3 := by positivity
    norm_num at *
    exact abs_le.2 ⟨by linarith, by linarith⟩
  have k1 := abs_le.1 hA
  have k2 := abs_le.1 b3
  norm_num at k1 k2 ⊢
  exact abs_le.2 ⟨by linarith, by linarith⟩

end Verif.Approx
