import Verif.Approx.Reduce

/-! # Reduction of a large argument to a quarter of a turn -/

namespace Verif.Approx
open Verif.Float Verif.Approx.Spec
open Verif.Math.Spec (Pat)

variable {F : Fmt}

theorem ofInt_err {B : ℝ} (o : F.Ok) (t : Top F B) {a : Int} (h : |(a : ℝ)| ≤ B) :
    Fin F (F.ofInt a) ∧ |R F (F.ofInt a) - a| ≤ eps F * |(a : ℝ)| := by
  have hp : (0 : ℝ) < 2 ^ F.unit := by positivity
  have e : (a : ℝ) = ((a * 2 ^ F.unit : Int) : ℝ) / 2 ^ F.unit := by push_cast; field_simp
  unfold Fmt.ofInt
  rw [e] at h ⊢
  generalize a * 2 ^ F.unit = s at *
  unfold Fmt.rndInt
  by_cases hs : s = 0
  · rw [if_pos hs, hs, R_pack (by omega), F.mag_zero]
    refine ⟨fin_pack (Fmt.inf_pos o), by simp⟩
  · rw [if_neg hs]
    have ha : |(s : ℝ) / 2 ^ F.unit| = ((s.natAbs : ℝ) / (1 : Nat) / 2 ^ F.unit) := by
      rw [abs_div, abs_of_pos hp, Nat.cast_natAbs, Int.cast_abs]; simp
    rw [ha] at h ⊢
    obtain ⟨k1, k2⟩ := pack_err t (decide (s < 0)) Nat.one_pos h
    refine ⟨k1, ?_⟩
    rw [if_pos rfl, add_zero] at k2
    convert k2 using 3
    rw [Nat.cast_natAbs, Int.cast_abs]
    by_cases hn : s < 0
    · simp [hn]; rw [abs_of_neg (by exact_mod_cast hn)]; ring
    · simp [hn]; rw [abs_of_nonneg (by exact_mod_cast (Int.not_lt.1 hn))]

/-- The table holds 2/π, and the words taken from it are its digits. -/
theorem segments : ∀ o < 103, segmentHigh o * 2 ^ 32 + segmentLow o = twoDivPi / 2 ^ (204 - o) % 2 ^ 96 := by decide +kernel

/-- The table is not read beyond its end. -/
theorem segments_inside {a : Nat} (h : a < 0x7F800000) : (a / 2 ^ 23 - 152) / 64 + 2 < pioBits.length := by
  show _ < 4
  omega

theorem digits {α : ℝ} {A E s E' : Nat} (h : (A : ℝ) ≤ α * 2 ^ E ∧ α * 2 ^ E ≤ A + 1) (hs : s + E' = E) :
    ((A / 2 ^ s : Nat) : ℝ) ≤ α * 2 ^ E' ∧ α * 2 ^ E' ≤ (A / 2 ^ s : Nat) + 1 := by
  have hp : (0 : ℝ) < 2 ^ s := by positivity
  have h1 : A / 2 ^ s * 2 ^ s ≤ A := Nat.div_mul_le_self _ _
  have h2 : A + 1 ≤ (A / 2 ^ s + 1) * 2 ^ s := by
    have := Nat.lt_div_mul_add (a := A) (Nat.two_pow_pos s)
    rw [Nat.add_mul]; omega
  have h1' : ((A / 2 ^ s : Nat) : ℝ) * 2 ^ s ≤ A := by exact_mod_cast h1
  have h2' : (A : ℝ) + 1 ≤ ((A / 2 ^ s : Nat) + 1) * 2 ^ s := by exact_mod_cast h2
  rw [← hs, pow_add] at h
  constructor
  · refine le_of_mul_le_mul_right (a := (2 : ℝ) ^ s) ?_ hp
    calc _ ≤ (A : ℝ) := h1'
      _ ≤ α * (2 ^ s * 2 ^ E') := h.1
      _ = _ := by ring
  · refine le_of_mul_le_mul_right (a := (2 : ℝ) ^ s) ?_ hp
    calc α * 2 ^ E' * 2 ^ s = α * (2 ^ s * 2 ^ E') := by ring
      _ ≤ _ := h.2.trans h2'

theorem product_eq {m h l G : Nat} (e : h * 2 ^ 32 + l = G % 2 ^ 96) : (m * h + m * l / 2 ^ 32) % 2 ^ 64 = m * G / 2 ^ 32 % 2 ^ 64 := by
  have e1 : m * h + m * l / 2 ^ 32 = m * (G % 2 ^ 96) / 2 ^ 32 := by
    rw [← e, Nat.mul_add, ← Nat.mul_assoc, Nat.add_comm (m * h * 2 ^ 32), Nat.add_mul_div_right _ _ (by norm_num), Nat.add_comm]
  have e2 : m * G = m * (G % 2 ^ 96) + m * (G / 2 ^ 96) * 2 ^ 64 * 2 ^ 32 := by
    conv_lhs => rw [← Nat.mod_add_div G (2 ^ 96)]
    ring
  rw [e1, e2, Nat.add_mul_div_right _ _ (by norm_num), Nat.add_mul_mod_self_right]

/-- The product holds 64 bits of the fraction of a turn. -/
theorem product_R {a : Nat} (h : a < 0x7F800000) (h' : 0x4C000000 ≤ a) :
    ∃ (t : Nat) (τ : ℝ), 0 ≤ τ ∧ τ ≤ 1.004 ∧ ((a % 2 ^ 23 + 2 ^ 23 : Nat) : ℝ) * (2 / Real.pi * 2 ^ (a / 2 ^ 23 - 152)) * 2 ^ 64 = pioProduct a + 2 ^ 64 * t + τ := by
  have ho : a / 2 ^ 23 - 152 < 103 := by omega
  unfold pioProduct
  simp only
  rw [product_eq (segments _ ho)]
  generalize a / 2 ^ 23 - 152 = o at *
  have hm : a % 2 ^ 23 + 2 ^ 23 < 2 ^ 24 := by omega
  generalize a % 2 ^ 23 + 2 ^ 23 = m at *
  obtain ⟨d1, d2⟩ := digits two_div_pi (s := 204 - o) (E' := 96 + o) (by omega)
  generalize twoDivPi / 2 ^ (204 - o) = G at *
  refine ⟨m * G / 2 ^ 32 / 2 ^ 64, m * (2 / Real.pi * 2 ^ o) * 2 ^ 64 - (m * G / 2 ^ 32 : Nat), ?_, ?_, ?_⟩
  · have h1 : ((m * G / 2 ^ 32 : Nat) : ℝ) * 2 ^ 32 ≤ m * G := by exact_mod_cast Nat.div_mul_le_self (m * G) (2 ^ 32)
    have h2 : (m : ℝ) * G ≤ m * (2 / Real.pi * 2 ^ (96 + o)) := mul_le_mul_of_nonneg_left d1 (Nat.cast_nonneg _)
    rw [pow_add] at h2
    have h3 : (m : ℝ) * (2 / Real.pi * (2 ^ 96 * 2 ^ o)) = m * (2 / Real.pi * 2 ^ o) * 2 ^ 64 * 2 ^ 32 := by ring
    rw [h3] at h2
    rw [sub_nonneg]
    exact le_of_mul_le_mul_right (h1.trans h2) (by positivity)
  · have h1 : (m * G : ℝ) ≤ ((m * G / 2 ^ 32 : Nat) + 1) * 2 ^ 32 := by
      have : m * G ≤ (m * G / 2 ^ 32 + 1) * 2 ^ 32 := by
        have := Nat.lt_div_mul_add (a := m * G) (Nat.two_pow_pos 32)
        rw [Nat.add_mul]; omega
      exact_mod_cast this
    have h2 : (m : ℝ) * (2 / Real.pi * 2 ^ (96 + o)) ≤ m * (G + 1) := mul_le_mul_of_nonneg_left d2 (Nat.cast_nonneg _)
    rw [pow_add] at h2
    have h3 : (m : ℝ) * (2 / Real.pi * (2 ^ 96 * 2 ^ o)) = m * (2 / Real.pi * 2 ^ o) * 2 ^ 64 * 2 ^ 32 := by ring
    rw [h3] at h2
    have hm' : (m : ℝ) ≤ 2 ^ 24 := by exact_mod_cast hm.le
    generalize (m : ℝ) * (2 / Real.pi * 2 ^ o) * 2 ^ 64 = T at *
    generalize ((m * G / 2 ^ 32 : Nat) : ℝ) = Q at *
    have h4 : T * 2 ^ 32 ≤ (Q + 1) * 2 ^ 32 + m := by linarith
    clear h1 h2 h3 d1 d2
    norm_num at h4 ⊢
    have hm'' : (m : ℝ) ≤ 16777216 := by norm_num at hm'; exact_mod_cast hm'
    linarith
  · have : (m * G / 2 ^ 32 : Nat) = m * G / 2 ^ 32 % 2 ^ 64 + 2 ^ 64 * (m * G / 2 ^ 32 / 2 ^ 64) := (Nat.mod_add_div _ _).symm
    have : ((m * G / 2 ^ 32 : Nat) : ℝ) = (m * G / 2 ^ 32 % 2 ^ 64 : Nat) + 2 ^ 64 * (m * G / 2 ^ 32 / 2 ^ 64 : Nat) := by exact_mod_cast this
    rw [← this]; ring

theorem piTiny_R : Fin b64 piTiny ∧ |R b64 piTiny - Real.pi / 2 ^ 65| ≤ 1 / 2 ^ 53 * (Real.pi / 2 ^ 65) := by
  have h := lit_pos (x := piTiny) (E := 959) (m := 7074237752028440) (k := 116) (by decide) (by decide) (by decide) (by decide)
  refine ⟨h.1, ?_⟩
  have a := Real.pi_gt_d20
  have b := Real.pi_lt_d20
  rw [h.2, abs_le]
  constructor <;> norm_num at a b ⊢ <;> linarith

/-- A turn of 2^66 units: the quotient and the remainder in units. -/
theorem turn {m u v P t q i τ p X : ℝ} (hp : p ≠ 0) (hX : X = m * (v / 2 ^ 24)) (hv : v = u * 2 ^ 26) (hT : m * (2 / p * u) * 2 ^ 64 = P + 2 ^ 64 * t + τ)
    (hq : 4 * P = 2 ^ 64 * q + i) : X = (q + 4 * t) * (p / 2) + (i + 4 * τ) * (p / 2 ^ 65) := by
  have h1 : m * u * 2 ^ 65 = p * (P + 2 ^ 64 * t + τ) := by
    rw [← hT]; field_simp
  have h2 : X = m * u * 4 := by rw [hX, hv]; ring
  have h3 : X * 2 ^ 65 = 4 * (p * (P + 2 ^ 64 * t + τ)) := by rw [h2, ← h1]; ring
  have h4 : (0 : ℝ) < 2 ^ 65 := by positivity
  refine mul_right_cancel₀ h4.ne' ?_
  rw [h3, show 4 * (p * (P + 2 ^ 64 * t + τ)) = p * (4 * P + 4 * (2 ^ 64 * t + τ)) by ring, hq]
  ring

theorem large_error {Y σ i τ c r : ℝ} (hσ : |σ| = 1) (hc : 0 < c ∧ c ≤ 3.15 / 2 ^ 65) (hi : |i| ≤ 2 ^ 63) (hτ : 0 ≤ τ ∧ τ ≤ 1.004) (hY : |Y - σ * (c * i)| ≤ 4 / 2 ^ 53 * |σ * (c * i)|)
    (hr : r = σ * ((i + 4 * τ) * c)) (hd : 17 * 2 ^ 30 ≤ |i + 4 * τ|) :
    |Y - r| ≤ 83 / 100 / 2 ^ 26 * |r| ∧ |Y - r| ≤ 1 / 2 ^ 48 := by
  have e1 : |σ * (c * i)| = c * |i| := by rw [abs_mul, hσ, one_mul, abs_mul, abs_of_pos hc.1]
  have e2 : |r| = c * |i + 4 * τ| := by rw [hr, abs_mul, hσ, one_mul, abs_mul, abs_of_pos hc.1, mul_comm]
  have e3 : |σ * (c * i) - r| = c * (4 * τ) := by
    rw [hr, show σ * (c * i) - σ * ((i + 4 * τ) * c) = -(σ * (c * (4 * τ))) by ring, abs_neg, abs_mul, hσ, one_mul, abs_of_nonneg (mul_nonneg hc.1.le (by linarith [hτ.1]))]
  have e4 : |Y - r| ≤ c * (4 / 2 ^ 53 * |i| + 4.016) := by
    refine (abs_sub_le _ (σ * (c * i)) _).trans ?_
    rw [e1] at hY
    rw [e3]
    have := mul_le_mul_of_nonneg_left (show 4 * τ ≤ 4.016 by linarith [hτ.2]) hc.1.le
    calc _ ≤ 4 / 2 ^ 53 * (c * |i|) + c * 4.016 := add_le_add hY this
      _ = _ := by ring
  have e5 : |i| ≤ |i + 4 * τ| + 4.016 := by
    have := abs_sub_abs_le_abs_sub i (i + 4 * τ)
    rw [show i - (i + 4 * τ) = -(4 * τ) by ring, abs_neg, abs_of_nonneg (show 0 ≤ 4 * τ by linarith [hτ.1])] at this
    linarith [hτ.2]
  constructor
  · rw [e2]
    refine e4.trans ?_
    rw [show 83 / 100 / 2 ^ 26 * (c * |i + 4 * τ|) = c * (83 / 100 / 2 ^ 26 * |i + 4 * τ|) by ring]
    refine mul_le_mul_of_nonneg_left ?_ hc.1.le
    norm_num at hd e5 ⊢
    linarith
  · refine e4.trans ?_
    calc c * (4 / 2 ^ 53 * |i| + 4.016) ≤ 3.15 / 2 ^ 65 * (4 / 2 ^ 53 * 2 ^ 63 + 4.016) := by
          refine mul_le_mul hc.2 ?_ (by positivity) (by norm_num)
          linarith
      _ ≤ _ := by norm_num

/-- The sign. -/
theorem large_sign {s : Bool} {σ : Int} {i : Int} {c : ℝ} (hσ : σ = if s then -1 else 1) (hc0 : 0 < c) (hT : Rel piTiny c (1 / 2 ^ 53)) (hi : |(i : ℝ)| ≤ 2 ^ 63) (h1 : 1 ≤ |(i : ℝ)|)
    (hc : c ≤ 1) (hc' : 1 / 2 ^ 65 ≤ c) : Rel (b64.mul (b64.pack s piTiny) (b64.ofInt i)) (σ * (c * i)) (4 / 2 ^ 53) := by
  have a := hT.sign s hc0 (by norm_num)
  rw [show b64.abs piTiny = piTiny by decide] at a
  have e : ((if s then -1 else 1 : ℝ)) = σ := by rw [hσ]; cases s <;> simp
  rw [e] at a
  have hs : |(σ : ℝ)| = 1 := by rw [← e]; cases s <;> simp
  have b : Rel (b64.ofInt i) i (1 / 2 ^ 53) := by
    have := ofInt_err ok64 big64.top (a := i) (hi.trans (by norm_num))
    exact ⟨this.1, this.2⟩
  have hv : |(σ : ℝ) * c * i| = c * |(i : ℝ)| := by rw [abs_mul, abs_mul, hs, one_mul, abs_of_pos hc0]
  rw [← mul_assoc]
  refine a.mul b ⟨by norm_num, by norm_num⟩ ?_ ?_ (by norm_num)
  · rw [hv]
    refine le_Mx ?_
    have : c * |(i : ℝ)| ≤ 1 * 2 ^ 63 := mul_le_mul hc hi (abs_nonneg _) (by norm_num)
    have h0 : 0 ≤ c * |(i : ℝ)| := by positivity
    norm_num at this ⊢
    linarith
  · rw [hv]
    have : 1 / 2 ^ 65 * 1 ≤ c * |(i : ℝ)| := mul_le_mul hc' h1 (by norm_num) hc0.le
    refine le_trans ?_ this
    norm_num

/-- The path for large arguments. -/
theorem remPio2_large {x : Nat} (hx : Fin b32 x) (h : 0x4DC90FDB ≤ b32.abs x) :
    ∃ k y K r, remPio2 x = some (k, y) ∧ Reduced (R b32 x) k y K r := by
  have hlt : b32.abs x < 0x7F800000 := hx
  obtain ⟨a1, a2⟩ := fabs_R hx
  have hX : 1 / 2 ≤ |R b32 x| := by
    have := R32_mono (a := 0x3F800000) (b := b32.abs x) (by omega) hx
    rw [a2, one32.2] at this
    linarith
  obtain ⟨P1, P2⟩ := float_parts hx hX
  obtain ⟨t, τ, τ0, τ1, hT⟩ := product_R hlt (by omega)
  have hE : 2 ^ (b32.abs x / 2 ^ 23 - 126) = (2 : ℝ) ^ (b32.abs x / 2 ^ 23 - 152) * 2 ^ 26 := by rw [← pow_add, show b32.abs x / 2 ^ 23 - 152 + 26 = b32.abs x / 2 ^ 23 - 126 by omega]
  unfold remPio2
  rw [if_neg (by omega), if_neg (by omega)]
  unfold remLarge
  simp only
  have hP : pioProduct (b32.abs x) < 2 ^ 64 := Nat.mod_lt _ (by norm_num)
  generalize pioProduct (b32.abs x) = P at *
  generalize hi : s64 (P * 4 % 2 ^ 64) = i
  have hq : (4 * P : Int) = 18446744073709551616 * ((P : Int) / 2 ^ 62 + if i < 0 then 1 else 0) + i ∧ -9223372036854775808 ≤ i ∧ i ≤ 9223372036854775808 := by
    rw [← hi]; unfold s64
    norm_num
    split <;> split <;> omega
  clear hi hP
  generalize ((P : Int) / 2 ^ 62 + if i < 0 then 1 else 0) = q at *
  obtain ⟨q1, q2, q3⟩ := hq
  have q1' : (4 * P : ℝ) = 2 ^ 64 * q + i := by
    have : (4 * P : ℝ) = 18446744073709551616 * q + i := by exact_mod_cast q1
    rw [this]; norm_num
  have hi63 : |(i : ℝ)| ≤ 2 ^ 63 := by
    rw [abs_le]
    have q2' : (-9223372036854775808 : ℝ) ≤ i := by exact_mod_cast q2
    have q3' : (i : ℝ) ≤ 9223372036854775808 := by exact_mod_cast q3
    constructor <;> norm_num <;> linarith
  have hpi := Real.pi_pos
  have pb := pi_half_bounds
  have hXa := turn hpi.ne' P2 hE hT q1'
  have hc0 : 0 < Real.pi / 2 ^ 65 := by positivity
  have hc1 : Real.pi / 2 ^ 65 ≤ 3.15 / 2 ^ 65 := div_le_div_of_nonneg_right (by linarith [pb.2]) (by positivity)
  have hc2 : 1 / 2 ^ 65 ≤ Real.pi / 2 ^ 65 := div_le_div_of_nonneg_right (by linarith [pb.1]) (by positivity)
  have hsgn := R_sign (F := b32) x
  generalize hσ : (if b32.neg x then -1 else 1 : Int) = σ
  have hσ1 : σ = 1 ∨ σ = -1 := by rw [← hσ]; cases b32.neg x <;> simp
  have hσa : |(σ : ℝ)| = 1 := by rcases hσ1 with h | h <;> rw [h] <;> simp
  have hXs : R b32 x = ((σ * (q + 4 * t) : Int) : ℝ) * (Real.pi / 2) + σ * ((i + 4 * τ) * (Real.pi / 2 ^ 65)) := by
    rw [hsgn, hXa, ← hσ]
    push_cast
    generalize Real.pi / 2 ^ 65 = c
    cases b32.neg x <;> simp <;> ring
  have hrX : R b32 x - ((σ * (q + 4 * t) : Int) : ℝ) * (Real.pi / 2) = σ * ((i + 4 * τ) * (Real.pi / 2 ^ 65)) := by rw [hXs]; ring
  obtain ⟨d, d1, d2⟩ := float_lattice hx hX (σ * (q + 4 * t))
  rw [hrX] at d2
  simp only [needed, Bool.and_eq_true, Bool.or_eq_true, decide_eq_true_eq] at d1
  have d1' : (17 * 1073741824 : Int) ≤ d := by
    rcases d1.2 with h | h
    · omega
    · exact h
  have d1r : (17 * 2 ^ 30 : ℝ) ≤ d := by
    have : (17 * 1073741824 : ℝ) ≤ d := by exact_mod_cast d1'
    norm_num at this ⊢; exact this
  have hra : |(σ : ℝ) * ((i + 4 * τ) * (Real.pi / 2 ^ 65))| = |i + 4 * τ| * (Real.pi / 2 ^ 65) := by
    rw [abs_mul, hσa, one_mul, abs_mul, abs_of_pos hc0]
  have hJ : 17 * 2 ^ 30 ≤ |i + 4 * τ| := by
    rw [hra] at d2
    have : (d : ℝ) * (Real.pi / 2) ≤ |i + 4 * τ| * (Real.pi / 2) := by
      calc _ ≤ _ := d2
        _ = _ := by field_simp
    exact d1r.trans (le_of_mul_le_mul_right this (by positivity))
  have hi1 : 1 ≤ |(i : ℝ)| := by
    have := abs_sub_abs_le_abs_sub ((i : ℝ) + 4 * τ) (4 * τ)
    rw [show (i : ℝ) + 4 * τ - 4 * τ = i by ring, abs_of_nonneg (show 0 ≤ 4 * τ by linarith)] at this
    norm_num at hJ τ1
    linarith
  have hy := large_sign (s := b32.neg x) hσ.symm hc0 ⟨piTiny_R.1, by rw [abs_of_pos hc0]; exact piTiny_R.2⟩ hi63 hi1 (hc1.trans (by norm_num)) hc2
  obtain ⟨E1, E2⟩ := large_error hσa ⟨hc0, hc1⟩ hi63 ⟨τ0, τ1⟩ hy.err rfl hJ
  refine ⟨_, _, σ * (q + 4 * t), _, rfl, hy.fin, hXs, ?_, E1, E2, ?_, fun _ => ?_, fun _ => ?_⟩
  · show (if b32.neg x then -q else q) % 4 = _
    rw [← hσ]
    cases b32.neg x <;> simp <;> omega
  · rw [hra]
    have h1 : |(i : ℝ) + 4 * τ| ≤ 2 ^ 63 + 4.016 := by
      refine (abs_add_le _ _).trans ?_
      rw [abs_of_nonneg (show 0 ≤ 4 * τ by linarith)]
      linarith
    calc _ ≤ (2 ^ 63 + 4.016) * (2 * 1.5707964 / 2 ^ 65) := mul_le_mul h1 (div_le_div_of_nonneg_right (by linarith [pb.2]) (by positivity)) hc0.le (by norm_num)
      _ ≤ _ := by norm_num
  · rw [hra]
    calc (1 : ℝ) / 2 ^ 150 ≤ 17 * 2 ^ 30 * (1 / 2 ^ 65) := by norm_num
      _ ≤ _ := mul_le_mul hJ hc2 (by norm_num) (abs_nonneg _)
  · rw [hra]
    calc (1 : ℝ) / 2 ^ 53 ≤ 17 * 2 ^ 30 * (1 / 2 ^ 65) := by norm_num
      _ ≤ _ := mul_le_mul hJ hc2 (by norm_num) (abs_nonneg _)

/-- `__rem_pio2f` reduces every finite number. -/
theorem remPio2_reduced {x : Nat} (hx : Fin b32 x) : ∃ k y K r, remPio2 x = some (k, y) ∧ Reduced (R b32 x) k y K r := by
  by_cases h : b32.abs x < 0x4DC90FDB
  · exact remPio2_small hx h
  · exact remPio2_large hx (by omega)

end Verif.Approx
