import Verif.Approx.Atan2Step

/-! # 128-bit significands -/

namespace Verif.Approx
open Verif.Float Verif.Approx.Spec

namespace Dint

/-- The magnitude. -/
noncomputable def mg (d : Dint) : ℝ := d.m * 2 ^ (d.ex - 127)
/-- The number. -/
noncomputable def V (d : Dint) : ℝ := sg d.sgn * d.mg
/-- Bit 127 is set. -/
def Norm (d : Dint) : Prop := 2 ^ 127 ≤ d.m ∧ d.m < 2 ^ 128
/-- Zero or normal. -/
def Ok (d : Dint) : Prop := d.m = 0 ∨ d.Norm

theorem mg_nonneg (d : Dint) : 0 ≤ d.mg := mul_nonneg (Nat.cast_nonneg _) (zpow_pos (by norm_num) _).le
theorem V_abs (d : Dint) : |d.V| = d.mg := by unfold V; rw [abs_mul, sg_abs, one_mul, abs_of_nonneg d.mg_nonneg]
theorem V_opp (d : Dint) : d.opp.V = -d.V := by unfold V opp mg; cases d.sgn <;> simp [sg]
theorem ok_opp {d : Dint} (h : d.Ok) : d.opp.Ok := h
theorem mg_opp (d : Dint) : d.opp.mg = d.mg := rfl
theorem mg_zero {d : Dint} (h : d.m = 0) : d.mg = 0 := by unfold mg; rw [h]; simp
theorem V_zero {d : Dint} (h : d.m = 0) : d.V = 0 := by unfold V; rw [mg_zero h]; simp

theorem Norm.lo {d : Dint} (h : d.Norm) : (2 : ℝ) ^ d.ex ≤ d.mg := by
  unfold mg
  have h1 : (2 : ℝ) ^ 127 ≤ d.m := by exact_mod_cast h.1
  have : (2 : ℝ) ^ d.ex = 2 ^ 127 * 2 ^ (d.ex - 127) := by
    rw [← zpow_natCast, ← zpow_add₀ (by norm_num)]; congr 1; push_cast; ring
  rw [this]
  exact mul_le_mul_of_nonneg_right h1 (zpow_pos (by norm_num) _).le

theorem Norm.hi {d : Dint} (h : d.Norm) : d.mg < 2 ^ (d.ex + 1) := by
  unfold mg
  have h1 : (d.m : ℝ) < 2 ^ 128 := by exact_mod_cast h.2
  have : (2 : ℝ) ^ (d.ex + 1) = 2 ^ 128 * 2 ^ (d.ex - 127) := by
    rw [← zpow_natCast, ← zpow_add₀ (by norm_num)]; congr 1; push_cast; ring
  rw [this]
  exact mul_lt_mul_of_pos_right h1 (zpow_pos (by norm_num) _)

theorem cmp_le {a b : Dint} (ha : a.Norm) (hb : b.Norm) : (0 < a.cmp b → b.mg ≤ a.mg) ∧ (a.cmp b ≤ 0 → a.mg ≤ b.mg) := by
  have key : ∀ {a b : Dint}, a.Norm → b.Norm → a.ex < b.ex → a.mg ≤ b.mg := fun {a b} ha hb h =>
    ha.hi.le.trans ((zpow_le_zpow_right₀ (by norm_num) (by omega)).trans hb.lo)
  have key2 : ∀ {a b : Dint}, a.ex = b.ex → a.m ≤ b.m → a.mg ≤ b.mg := fun {a b} h h' => by
    unfold mg
    rw [h]
    exact mul_le_mul_of_nonneg_right (by exact_mod_cast h') (zpow_pos (by norm_num) _).le
  unfold cmp
  by_cases he : a.ex = b.ex
  · rw [if_neg (by simpa using he)]
    by_cases hm : a.m = b.m
    · rw [if_neg (by simpa using hm)]
      exact ⟨fun h => by omega, fun _ => key2 he hm.le⟩
    · rw [if_pos (by simpa using hm)]
      split
      · exact ⟨fun h => by omega, fun _ => key2 he (by omega)⟩
      · exact ⟨fun _ => key2 he.symm (by omega), fun h => by omega⟩
  · rw [if_pos (by simpa using he)]
    split
    · exact ⟨fun h => by omega, fun _ => key ha hb (by omega)⟩
    · exact ⟨fun _ => key hb ha (by omega), fun h => by omega⟩

theorem normal_spec (s : Bool) (e : Int) {c : Nat} (h : c < 2 ^ 128) : (normal s e c).Ok ∧ (normal s e c).mg = c * 2 ^ (e - 127) ∧ (normal s e c).sgn = s := by
  refine ⟨?_, ?_, rfl⟩
  all_goals unfold normal clz
  · by_cases h0 : c = 0
    · left; simp [h0]
    · right
      rw [if_neg h0]
      have l1 : Nat.log2 c ≤ 127 := by
        have := (Nat.log2_lt h0).2 h
        omega
      have l2 := Nat.log2_self_le h0
      have l3 := Nat.lt_log2_self (n := c)
      have e1 : 2 ^ 127 = 2 ^ Nat.log2 c * 2 ^ (127 - Nat.log2 c) := by rw [← Nat.pow_add]; congr 1; omega
      have e2 : 2 ^ 128 = 2 ^ (Nat.log2 c + 1) * 2 ^ (127 - Nat.log2 c) := by rw [← Nat.pow_add]; congr 1; omega
      have u : c * 2 ^ (127 - Nat.log2 c) < 2 ^ 128 := by rw [e2]; exact Nat.mul_lt_mul_of_pos_right l3 (Nat.two_pow_pos _)
      have l : 2 ^ 127 ≤ c * 2 ^ (127 - Nat.log2 c) := by rw [e1]; exact Nat.mul_le_mul_right _ l2
      unfold Norm
      simp only
      rw [Nat.mod_eq_of_lt u]
      exact ⟨l, u⟩
  · unfold mg
    by_cases h0 : c = 0
    · simp [h0]
    · rw [if_neg h0]
      have l1 : Nat.log2 c ≤ 127 := by
        have := (Nat.log2_lt h0).2 h
        omega
      have l3 := Nat.lt_log2_self (n := c)
      have e2 : 2 ^ 128 = 2 ^ (Nat.log2 c + 1) * 2 ^ (127 - Nat.log2 c) := by rw [← Nat.pow_add]; congr 1; omega
      have u : c * 2 ^ (127 - Nat.log2 c) < 2 ^ 128 := by rw [e2]; exact Nat.mul_lt_mul_of_pos_right l3 (Nat.two_pow_pos _)
      simp only
      rw [Nat.mod_eq_of_lt u]
      generalize 127 - Nat.log2 c = k
      push_cast
      rw [mul_assoc, ← zpow_natCast, ← zpow_add₀ (by norm_num)]
      congr 2
      ring

theorem align_nat {s sh : Nat} (h : s < 2 ^ 128) (h0 : 0 < sh) (h1 : sh < 128) :
    ∃ x, align s sh = x ∧ x * 2 ^ sh ≤ s + 1 ∧ s < (x + 1) * 2 ^ sh ∧ x ≤ 2 ^ 127 := by
  have hp : 2 ≤ 2 ^ sh := by calc 2 = 2 ^ 1 := rfl
                              _ ≤ 2 ^ sh := Nat.pow_le_pow_right (by decide) h0
  have e2 : 2 ^ 128 = 2 ^ (128 - sh) * 2 ^ sh := by rw [← Nat.pow_add]; congr 1; omega
  have e3 : 2 ^ (128 - sh) ≤ 2 ^ 127 := Nat.pow_le_pow_right (by decide) (by omega)
  unfold align
  rw [if_pos (by omega), if_pos (by omega)]
  simp only
  rw [if_pos (show (sh : Int) < 128 by omega), show ((sh : Int) - 1).toNat = sh - 1 by omega, show (128 - (sh : Int)).toNat = 128 - sh by omega, Int.toNat_natCast]
  have hr : s / 2 ^ (sh - 1) % 2 < 2 := Nat.mod_lt _ (by decide)
  generalize s / 2 ^ (sh - 1) % 2 = r at *
  by_cases hw : s + r < 2 ^ 128
  · rw [Nat.mod_eq_of_lt hw, if_neg (by omega)]
    refine ⟨_, rfl, ?_, ?_, ?_⟩
    · have := Nat.div_mul_le_self (s + r) (2 ^ sh); omega
    · have := Nat.lt_div_mul_add (a := s + r) (show 0 < 2 ^ sh by omega)
      rw [Nat.add_mul]; omega
    · rw [Nat.div_le_iff_le_mul_add_pred (by omega)]
      have : 2 * 2 ^ 127 ≤ 2 ^ sh * 2 ^ 127 := Nat.mul_le_mul_right _ hp
      omega
  · have : (s + r) % 2 ^ 128 = 0 := by rw [show s + r = 2 ^ 128 by omega]; simp
    rw [this, if_pos (by omega)]
    refine ⟨_, rfl, by omega, by rw [Nat.add_mul]; omega, e3⟩

/-- The shifted significand is off by at most one. -/
theorem align_R {a b : Dint} (hb : b.Norm) (h : b.ex ≤ a.ex) (ha : b.ex = a.ex → b.m ≤ a.m) (hn : a.Norm) :
    |(align b.m (a.ex - b.ex) : ℝ) * 2 ^ (a.ex - 127) - b.mg| ≤ 2 ^ (a.ex - 127) ∧ align b.m (a.ex - b.ex) ≤ a.m := by
  obtain ⟨n, hn'⟩ := Int.eq_ofNat_of_zero_le (show 0 ≤ a.ex - b.ex by omega)
  have hb2 := hb.2
  have ha1 := hn.1
  have hP : (0 : ℝ) < 2 ^ (a.ex - 127) := zpow_pos (by norm_num) _
  have e : b.mg * 2 ^ n = b.m * 2 ^ (a.ex - 127) := by
    unfold mg
    rw [mul_assoc, ← zpow_natCast, ← zpow_add₀ (by norm_num)]
    congr 2
    omega
  have hQ : (0 : ℝ) < 2 ^ n := by positivity
  have e' : b.mg = b.m / 2 ^ n * 2 ^ (a.ex - 127) := by rw [div_mul_eq_mul_div, ← e]; field_simp
  rw [hn', e', ← sub_mul, abs_mul, abs_of_pos hP]
  suffices h : |(align b.m n : ℝ) - b.m / 2 ^ n| ≤ 1 ∧ align b.m n ≤ a.m from ⟨by nlinarith [h.1], h.2⟩
  rcases Nat.eq_zero_or_pos n with rfl | h0
  · have : align b.m ((0 : Nat) : Int) = b.m := by unfold align; simp
    rw [this]
    exact ⟨by simp, ha (by omega)⟩
  by_cases h1 : n < 128
  · obtain ⟨x, x1, x2, x3, x4⟩ := align_nat hb2 h0 h1
    rw [x1]
    have y2 : (x : ℝ) * 2 ^ n ≤ b.m + 1 := by exact_mod_cast x2
    have y3 : (b.m : ℝ) < (x + 1) * 2 ^ n := by exact_mod_cast x3
    have y4 : (1 : ℝ) ≤ 2 ^ n := one_le_pow₀ (by norm_num)
    refine ⟨abs_le.2 ⟨?_, ?_⟩, by omega⟩
    · have : (b.m : ℝ) / 2 ^ n ≤ x + 1 := by rw [div_le_iff₀ hQ]; exact y3.le
      linarith
    · have : (x : ℝ) ≤ b.m / 2 ^ n + 1 := by
        rw [← sub_le_iff_le_add, le_div_iff₀ hQ]; nlinarith
      linarith
  · have : align b.m n = 0 := by
      unfold align
      rw [if_pos (by omega)]
      split
      · simp only; rw [if_neg (by omega)]
      · rfl
    rw [this]
    refine ⟨?_, Nat.zero_le _⟩
    have h2 : (b.m : ℝ) < 2 ^ 128 := by exact_mod_cast hb2
    have h3 : (2 : ℝ) ^ 128 ≤ 2 ^ n := pow_le_pow_right₀ (by norm_num) (by omega)
    rw [Nat.cast_zero, zero_sub, abs_neg, abs_of_nonneg (by positivity), div_le_one hQ]
    linarith

theorem carry_spec (s : Bool) (e : Int) {x y : Nat} (hx : 2 ^ 127 ≤ x ∧ x < 2 ^ 128) (hy : y ≤ x) :
    (carry s e x y).Ok ∧ |(carry s e x y).mg - ((x : ℝ) + y) * 2 ^ (e - 127)| ≤ 2 ^ (e - 127) ∧ (carry s e x y).sgn = s := by
  have hP : (0 : ℝ) < 2 ^ (e - 127) := zpow_pos (by norm_num) _
  unfold carry
  by_cases hw : x + y < 2 ^ 128
  · simp only
    rw [Nat.mod_eq_of_lt hw, if_neg (by omega)]
    obtain ⟨n1, n2, n3⟩ := normal_spec s e hw
    refine ⟨n1, ?_, n3⟩
    rw [n2]
    push_cast
    rw [sub_self, abs_zero]
    exact hP.le
  · have e1 : (x + y) % 2 ^ 128 = x + y - 2 ^ 128 := by
      rw [Nat.mod_eq_sub_mod (by omega), Nat.mod_eq_of_lt (by omega)]
    simp only
    rw [e1, if_pos (by omega)]
    have hr : (x + y - 2 ^ 128) % 2 < 2 := Nat.mod_lt _ (by decide)
    have hpar : ((x + y - 2 ^ 128) + (x + y - 2 ^ 128) % 2) % 2 = 0 := by omega
    generalize (x + y - 2 ^ 128) % 2 = r at *
    rw [Nat.mod_eq_of_lt (show x + y - 2 ^ 128 + r < 2 ^ 128 by omega)]
    obtain ⟨z, hz⟩ : ∃ z, x + y - 2 ^ 128 + r = 2 * z := ⟨_, (Nat.mul_div_cancel' (Nat.dvd_of_mod_eq_zero hpar)).symm⟩
    rw [hz, Nat.mul_div_cancel_left _ (by decide)]
    have hz2 : z < 2 ^ 127 := by omega
    have hor : 2 ^ 127 ||| z = 2 ^ 127 + z := by
      have := Nat.two_pow_add_eq_or_of_lt hz2 1
      rw [Nat.mul_one] at this
      exact this.symm
    rw [hor]
    obtain ⟨n1, n2, n3⟩ := normal_spec s (e + 1) (show 2 ^ 127 + z < 2 ^ 128 by omega)
    refine ⟨n1, ?_, n3⟩
    rw [n2]
    have h2 : (2 : ℝ) ^ (e + 1 - 127) = 2 * 2 ^ (e - 127) := by
      rw [show e + 1 - 127 = 1 + (e - 127) by ring, zpow_add₀ (by norm_num), zpow_one]
    have hs : 2 * (2 ^ 127 + z) = x + y + r := by omega
    have hs' : (2 : ℝ) * (2 ^ 127 + z) = x + y + r := by exact_mod_cast hs
    rw [h2, Nat.cast_add, Nat.cast_pow, Nat.cast_ofNat]
    rw [show ((2 : ℝ) ^ 127 + z) * (2 * 2 ^ (e - 127)) - (x + y) * 2 ^ (e - 127) = (2 * (2 ^ 127 + z) - (x + y)) * 2 ^ (e - 127) by ring, hs', add_sub_cancel_left, abs_mul, abs_of_pos hP]
    have : (r : ℝ) ≤ 1 := by exact_mod_cast (show r ≤ 1 by omega)
    rw [abs_of_nonneg (Nat.cast_nonneg _)]
    exact mul_le_of_le_one_left hP.le this

theorem addBig_spec {a b : Dint} (ha : a.Norm) (hb : b.Norm) (h : b.ex ≤ a.ex) (hm : b.ex = a.ex → b.m ≤ a.m) :
    (addBig a b).Ok ∧ |(addBig a b).V - (a.V + b.V)| ≤ 2 * 2 ^ (a.ex - 127) := by
  obtain ⟨l1, l2⟩ := align_R hb h hm ha
  have hP : (0 : ℝ) < 2 ^ (a.ex - 127) := zpow_pos (by norm_num) _
  unfold addBig
  simp only
  generalize align b.m (a.ex - b.ex) = y at *
  have a2 := ha.2
  have ea : a.mg = a.m * 2 ^ (a.ex - 127) := rfl
  by_cases hs : a.sgn = b.sgn
  · rw [if_neg (by simpa using hs)]
    obtain ⟨c1, c2, c3⟩ := carry_spec a.sgn a.ex ha l2
    refine ⟨c1, ?_⟩
    unfold V
    rw [c3, ← hs, ← mul_add, ← mul_sub, abs_mul, sg_abs, one_mul]
    have c2' := abs_le.1 c2
    have l1' := abs_le.1 l1
    rw [add_mul, ← ea] at c2'
    exact abs_le.2 ⟨by linarith, by linarith⟩
  · rw [if_pos (by simpa using hs)]
    have e1 : (a.m + 2 ^ 128 - y) % 2 ^ 128 = a.m - y := by
      rw [show a.m + 2 ^ 128 - y = a.m - y + 2 ^ 128 by omega, Nat.add_mod_right, Nat.mod_eq_of_lt (by omega)]
    rw [e1]
    obtain ⟨n1, n2, n3⟩ := normal_spec a.sgn a.ex (show a.m - y < 2 ^ 128 by omega)
    refine ⟨n1, ?_⟩
    unfold V
    have hs' : sg b.sgn = -sg a.sgn := by cases h1 : a.sgn <;> cases h2 : b.sgn <;> simp [sg, h1, h2] at hs ⊢
    rw [n3, hs', neg_mul, ← sub_eq_add_neg, ← mul_sub, ← mul_sub, abs_mul, sg_abs, one_mul, n2, Nat.cast_sub l2, sub_mul, ← ea]
    have l1' := abs_le.1 l1
    exact abs_le.2 ⟨by linarith, by linarith⟩

/-- Sums have an error below `2^-125` of the larger operand. -/
theorem add_spec {a b : Dint} (ha : a.Ok) (hb : b.Ok) : (a.add b).Ok ∧ |(a.add b).V - (a.V + b.V)| ≤ (a.mg + b.mg) / 2 ^ 125 := by
  have n1 := a.mg_nonneg
  have n2 := b.mg_nonneg
  have z : (0 : ℝ) ≤ (a.mg + b.mg) / 2 ^ 125 := by positivity
  unfold add
  by_cases a0 : a.m = 0
  · rw [if_pos a0]
    refine ⟨hb, ?_⟩
    rw [V_zero a0, _root_.zero_add, sub_self, abs_zero]; exact z
  rw [if_neg a0]
  by_cases b0 : b.m = 0
  · rw [if_pos b0]
    refine ⟨ha, ?_⟩
    rw [V_zero b0, _root_.add_zero, sub_self, abs_zero]; exact z
  rw [if_neg b0]
  have na : a.Norm := ha.resolve_left a0
  have nb : b.Norm := hb.resolve_left b0
  have hc : a.cmp b = 0 ↔ a.ex = b.ex ∧ a.m = b.m := by unfold cmp; split <;> (try split) <;> (try split) <;> simp_all
  have hl : a.cmp b < 0 ↔ a.ex < b.ex ∨ (a.ex = b.ex ∧ a.m < b.m) := by unfold cmp; split <;> (try split) <;> (try split) <;> simp_all <;> omega
  have big : ∀ {a : Dint}, a.Norm → (2 : ℝ) * 2 ^ (a.ex - 127) ≤ a.mg / 2 ^ 125 := fun {a} na => by
    have := na.lo
    have e : (2 : ℝ) ^ a.ex = 2 ^ 127 * 2 ^ (a.ex - 127) := by
      rw [← zpow_natCast, ← zpow_add₀ (by norm_num)]; congr 1; push_cast; ring
    have hP : (0 : ℝ) < 2 ^ (a.ex - 127) := zpow_pos (by norm_num) _
    rw [le_div_iff₀ (by norm_num)]
    rw [e] at this
    norm_num at this ⊢
    linarith
  by_cases h0 : a.cmp b = 0
  · rw [if_pos h0]
    obtain ⟨e1, e2⟩ := hc.1 h0
    have em : a.mg = b.mg := by unfold mg; rw [e1, e2]
    by_cases hs : a.sgn = b.sgn
    · rw [if_neg (by simpa using hs)]
      refine ⟨Or.inr na, ?_⟩
      have : (⟨a.sgn, a.ex + 1, a.m⟩ : Dint).V = a.V + b.V := by
        have e : a.V = b.V := by unfold V; rw [hs, em]
        rw [← e]
        unfold V mg
        simp only
        rw [show a.ex + 1 - 127 = 1 + (a.ex - 127) by ring, zpow_add₀ (by norm_num), zpow_one]
        ring
      rw [this, sub_self, abs_zero]; exact z
    · rw [if_pos (by simpa using hs)]
      refine ⟨Or.inl rfl, ?_⟩
      have : a.V + b.V = 0 := by
        unfold V
        rw [em]
        cases h1 : a.sgn <;> cases h2 : b.sgn <;> simp [sg, h1, h2] at hs ⊢
      rw [this, V_zero rfl, sub_self, abs_zero]; exact z
  rw [if_neg h0]
  by_cases hlt : a.cmp b < 0
  · rw [if_pos hlt]
    have hx := hl.1 hlt
    obtain ⟨s1, s2⟩ := addBig_spec nb na (by omega) (by omega)
    refine ⟨s1, ?_⟩
    rw [_root_.add_comm a.V]
    refine (s2.trans (big nb)).trans ?_
    gcongr
    linarith
  · rw [if_neg hlt]
    have hx : ¬ (a.ex < b.ex ∨ (a.ex = b.ex ∧ a.m < b.m)) := fun h => hlt (hl.2 h)
    obtain ⟨s1, s2⟩ := addBig_spec na nb (by omega) (by omega)
    refine ⟨s1, (s2.trans (big na)).trans ?_⟩
    gcongr
    linarith

theorem mul_nat {a b : Nat} (ha : 2 ^ 127 ≤ a ∧ a < 2 ^ 128) (hb : 2 ^ 127 ≤ b ∧ b < 2 ^ 128) {t m : Nat}
    (hm : m = (a / 2 ^ 64 * (b % 2 ^ 64) + a % 2 ^ 64 * (b / 2 ^ 64)) % 2 ^ 128)
    (ht : t = ((a / 2 ^ 64 * (b / 2 ^ 64) + if m < a / 2 ^ 64 * (b % 2 ^ 64) then 2 ^ 64 else 0) + m / 2 ^ 64) % 2 ^ 128) :
    2 ^ 126 ≤ t ∧ t ≤ 2 ^ 128 - 2 ∧ t * 2 ^ 128 ≤ a * b ∧ a * b < (t + 2) * 2 ^ 128 := by
  have ea := Nat.div_add_mod a (2 ^ 64)
  have eb := Nat.div_add_mod b (2 ^ 64)
  have la : a % 2 ^ 64 < 2 ^ 64 := Nat.mod_lt _ (by decide)
  have lb : b % 2 ^ 64 < 2 ^ 64 := Nat.mod_lt _ (by decide)
  have ha1 : 2 ^ 63 ≤ a / 2 ^ 64 ∧ a / 2 ^ 64 < 2 ^ 64 := by omega
  have hb1 : 2 ^ 63 ≤ b / 2 ^ 64 ∧ b / 2 ^ 64 < 2 ^ 64 := by omega
  generalize a / 2 ^ 64 = ah at *
  generalize a % 2 ^ 64 = al at *
  generalize b / 2 ^ 64 = bh at *
  generalize b % 2 ^ 64 = bl at *
  have e : a * b = ah * bh * 2 ^ 128 + (ah * bl + al * bh) * 2 ^ 64 + al * bl := by rw [← ea, ← eb]; ring
  have c1 : ah * bl ≤ (2 ^ 64 - 1) * (2 ^ 64 - 1) := Nat.mul_le_mul (by omega) (by omega)
  have c2 : al * bh ≤ (2 ^ 64 - 1) * (2 ^ 64 - 1) := Nat.mul_le_mul (by omega) (by omega)
  have c3 : al * bl ≤ (2 ^ 64 - 1) * (2 ^ 64 - 1) := Nat.mul_le_mul (by omega) (by omega)
  have c4 : ah * bh ≤ (2 ^ 64 - 1) * (2 ^ 64 - 1) := Nat.mul_le_mul (by omega) (by omega)
  have c5 : 2 ^ 63 * 2 ^ 63 ≤ ah * bh := Nat.mul_le_mul ha1.1 hb1.1
  have c6 : a * b ≤ (2 ^ 128 - 1) * (2 ^ 128 - 1) := Nat.mul_le_mul (by omega) (by omega)
  rw [e] at c6 ⊢
  generalize ah * bh = p at *
  generalize ah * bl = q at *
  generalize al * bh = r at *
  generalize al * bl = s at *
  norm_num at *
  have hm2 : (q + r < 340282366920938463463374607431768211456 ∧ m = q + r ∧ ¬ m < q) ∨ (340282366920938463463374607431768211456 ≤ q + r ∧ m + 340282366920938463463374607431768211456 = q + r ∧ m < q) := by omega
  rcases hm2 with ⟨h1, h2, h3⟩ | ⟨h1, h2, h3⟩
  · rw [if_neg h3] at ht
    omega
  · rw [if_pos h3] at ht
    omega

theorem mul_real {W P c u k : ℝ} (hP : 0 < P) (hk : 0 < k) (h : |c * k - W| ≤ u) (hu : u ≤ W / 2 ^ 123) :
    |c * P - W * (P / k)| ≤ W * (P / k) / 2 ^ 123 := by
  have e : c * P - W * (P / k) = (c * k - W) * (P / k) := by field_simp
  have hq : 0 < P / k := by positivity
  rw [e, abs_mul, abs_of_pos hq]
  calc |c * k - W| * (P / k) ≤ W / 2 ^ 123 * (P / k) := mul_le_mul_of_nonneg_right (h.trans hu) hq.le
    _ = _ := by ring

theorem mul_spec {a b : Dint} (ha : a.Ok) (hb : b.Ok) : (a.mul b).Ok ∧ (a.mul b).sgn = (a.sgn != b.sgn) ∧ |(a.mul b).mg - a.mg * b.mg| ≤ a.mg * b.mg / 2 ^ 123 := by
  have z : (0 : ℝ) ≤ a.mg * b.mg / 2 ^ 123 := by have := a.mg_nonneg; have := b.mg_nonneg; positivity
  have hz : a.m = 0 ∨ b.m = 0 → (a.mul b).m = 0 ∧ (a.mul b).sgn = (a.sgn != b.sgn) := by
    intro h
    unfold mul
    rcases h with h | h <;> rw [h] <;> simp
  by_cases h0 : a.m = 0 ∨ b.m = 0
  · obtain ⟨h1, h2⟩ := hz h0
    refine ⟨Or.inl h1, h2, ?_⟩
    have : a.mg * b.mg = 0 := by rcases h0 with h | h <;> rw [mg_zero h] <;> simp
    rw [mg_zero h1, this]; simp
  rw [not_or] at h0
  have na : a.Norm := ha.resolve_left h0.1
  have nb : b.Norm := hb.resolve_left h0.2
  have hS : ∀ k : Int, (2 : ℝ) ^ (a.ex - 127) * 2 ^ (b.ex - 127) = 2 ^ (a.ex + b.ex + k - 127) / 2 ^ (127 + k) := fun k => by
    rw [← zpow_add₀ (by norm_num), ← zpow_sub₀ (by norm_num)]; congr 1; ring
  have hab : a.mg * b.mg = (a.m * b.m : ℝ) * (2 ^ (a.ex - 127) * 2 ^ (b.ex - 127)) := by unfold mg; ring
  have hbig : (2 : ℝ) ^ 254 ≤ a.m * b.m := by
    have := Nat.mul_le_mul na.1 nb.1
    exact_mod_cast (show 2 ^ 254 ≤ a.m * b.m from le_trans (by norm_num) this)
  unfold mul
  simp only
  generalize hm : (a.m / 2 ^ 64 * (b.m % 2 ^ 64) + a.m % 2 ^ 64 * (b.m / 2 ^ 64)) % 2 ^ 128 = m
  generalize ht : ((a.m / 2 ^ 64 * (b.m / 2 ^ 64) + if m < a.m / 2 ^ 64 * (b.m % 2 ^ 64) then 2 ^ 64 else 0) + m / 2 ^ 64) % 2 ^ 128 = t
  obtain ⟨t1, t2, t3, t4⟩ := mul_nat na nb hm.symm ht.symm
  have hr : m % 2 ^ 64 / 2 ^ 63 < 2 := by omega
  generalize m % 2 ^ 64 / 2 ^ 63 = r at *
  have u3 : (t : ℝ) * 2 ^ 128 ≤ a.m * b.m := by exact_mod_cast t3
  have u4 : (a.m * b.m : ℝ) < (t + 2) * 2 ^ 128 := by exact_mod_cast t4
  have hr1 : (r : ℝ) ≤ 1 := by exact_mod_cast (show r ≤ 1 by omega)
  have hr0 : (0 : ℝ) ≤ r := Nat.cast_nonneg _
  split
  · rename_i hlt
    have hlt' : t < 2 ^ 127 := by omega
    have e : (t * 2 % 2 ^ 128 + r) % 2 ^ 128 = t * 2 + r := by omega
    rw [e]
    refine ⟨Or.inr ⟨by simp only; omega, by simp only; omega⟩, rfl, ?_⟩
    unfold mg at hab ⊢
    rw [hab, hS 0]
    simp only [_root_.add_zero]
    rw [show (2 : ℝ) ^ (127 : Int) = 2 ^ 127 by norm_cast]
    refine mul_real (u := 4 * 2 ^ 128) (zpow_pos (by norm_num) _) (by norm_num) ?_ ?_
    · push_cast
      norm_num at u3 u4 ⊢
      exact abs_le.2 ⟨by linarith, by linarith⟩
    · norm_num at hbig ⊢
      linarith
  · rename_i hlt
    have hlt' : 2 ^ 127 ≤ t := by omega
    have e : (t + r) % 2 ^ 128 = t + r := by omega
    rw [e]
    refine ⟨Or.inr ⟨by simp only; omega, by simp only; omega⟩, rfl, ?_⟩
    unfold mg at hab ⊢
    rw [hab, hS 1]
    simp only
    rw [show (2 : ℝ) ^ ((127 : Int) + 1) = 2 ^ 128 by norm_cast]
    refine mul_real (u := 4 * 2 ^ 128) (zpow_pos (by norm_num) _) (by norm_num) ?_ ?_
    · push_cast
      norm_num at u3 u4 ⊢
      exact abs_le.2 ⟨by linarith, by linarith⟩
    · norm_num at hbig ⊢
      linarith

theorem mul_V {a b : Dint} (ha : a.Ok) (hb : b.Ok) : (a.mul b).Ok ∧ |(a.mul b).V - a.V * b.V| ≤ a.mg * b.mg / 2 ^ 123 := by
  obtain ⟨h1, h2, h3⟩ := mul_spec ha hb
  refine ⟨h1, ?_⟩
  have : (a.mul b).V - a.V * b.V = sg (a.sgn != b.sgn) * ((a.mul b).mg - a.mg * b.mg) := by
    unfold V
    rw [h2]
    cases a.sgn <;> cases b.sgn <;> simp [sg] <;> ring
  rw [this, abs_mul, sg_abs, one_mul]
  exact h3

end Dint

end Verif.Approx
