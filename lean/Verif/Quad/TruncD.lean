import Verif.Quad.Trunc

/-! # Conversion of `long double` to `double` -/

namespace Verif.Quad
open Verif.Float Verif.Int128 Verif.Math Verif.Math.Spec Verif.Quad.Spec

/-- The shortened pattern in the normal range. -/
theorem double_normal {P : Nat} (h1 : 0x3C01 * 2 ^ 112 ≤ P) (h2 : P < 0x43FF * 2 ^ 112) :
    truncMagnitude (P / 2 ^ 64) (P % 2 ^ 64) = P / 2 ^ 60 - 0x3C00 * 2 ^ 52 + bit (2 ^ 59 ≤ P % 2 ^ 60) := by
  unfold truncMagnitude
  rw [if_neg (by omega), if_neg (by omega), if_pos (by omega)]
  have e1 : ((P / 2 ^ 64 - 0x3C00000000000000) * 2 ^ 4 ||| P % 2 ^ 64 / 2 ^ 60) = P / 2 ^ 60 - 0x3C00 * 2 ^ 52 := by
    rw [Nat.or_comm, or_mul _ _ 4 (by omega)]
    omega
  rw [e1]
  congr 1
  refine bit_congr ?_
  have e2 : P % 2 ^ 64 * 2 ^ 4 % 2 ^ 64 = P % 2 ^ 60 * 2 ^ 4 := by omega
  rw [e2]
  have h : P % 2 ^ 64 / 2 ^ 59 % 2 = P % 2 ^ 60 / 2 ^ 59 := by omega
  rw [h]
  generalize hR : P % 2 ^ 60 = R
  have hR' : R < 2 ^ 60 := by omega
  rw [Nat.or_comm]
  have h3 : R / 2 ^ 59 < 2 ^ 4 := by omega
  rw [Nat.or_comm, or_mul _ _ 4 h3]
  omega

/-- The pieces of a number in the normal range. -/
theorem double_pieces {P : Nat} (h1 : 0x3C01 * 2 ^ 112 ≤ P) (h2 : P < 0x43FF * 2 ^ 112) :
    ∃ k, b128.mag P * 2 ^ b64.unit = 2 ^ b128.unit * b64.mag (P / 2 ^ 60 - 0x3C00 * 2 ^ 52) + P % 2 ^ 60 * 2 ^ k ∧
      2 ^ b128.unit * b64.mag (P / 2 ^ 60 - 0x3C00 * 2 ^ 52 + 1) =
        2 ^ b128.unit * b64.mag (P / 2 ^ 60 - 0x3C00 * 2 ^ 52) + 2 ^ 60 * 2 ^ k := by
  obtain ⟨v, hv, hv'⟩ : ∃ v, b64.unit = v ∧ v = 1074 := ⟨_, rfl, rfl⟩
  obtain ⟨w, hw, hw'⟩ : ∃ w, b128.unit = w ∧ w = 16494 := ⟨_, rfl, rfl⟩
  rw [hv, hw]
  obtain ⟨n, hn⟩ : ∃ n, n = P / 2 ^ 60 - 0x3C00 * 2 ^ 52 := ⟨_, rfl⟩
  rw [← hn, b64.mag_succ, Nat.mul_add]
  obtain ⟨E, hE⟩ : ∃ E, E = P / 2 ^ 112 := ⟨_, rfl⟩
  have hE1 : 0x3C01 ≤ E := by omega
  have hnE : n / 2 ^ 52 = E - 0x3C00 := by omega
  have hnM : 2 ^ 52 + n % 2 ^ 52 = (2 ^ 112 + P % 2 ^ 112) / 2 ^ 60 := by omega
  have hMR : (2 ^ 112 + P % 2 ^ 112) % 2 ^ 60 = P % 2 ^ 60 := by omega
  have hm1 : b64.mag n = (2 ^ 52 + n % 2 ^ 52) * 2 ^ (n / 2 ^ 52 - 1) := b64.mag_normal (by show 2 ^ 52 ≤ n; omega)
  have hu1 : b64.ulp n = 2 ^ (n / 2 ^ 52 - 1) := rfl
  rw [hm1, hu1, hnE, hnM, mag_parts (by omega), ← hE, ← hMR]
  generalize 2 ^ 112 + P % 2 ^ 112 = M
  refine ⟨E - 1 + v, ?_, ?_⟩
  · have e1 : M * 2 ^ (E - 1) * 2 ^ v = M * 2 ^ (E - 1 + v) := by rw [Nat.pow_add, Nat.mul_assoc]
    have e2 : 2 ^ w * (M / 2 ^ 60 * 2 ^ (E - 0x3C00 - 1)) = 2 ^ 60 * (M / 2 ^ 60) * 2 ^ (E - 1 + v) := by
      have : 2 ^ w * 2 ^ (E - 0x3C00 - 1) = 2 ^ 60 * 2 ^ (E - 1 + v) := by
        rw [← Nat.pow_add, ← Nat.pow_add]; exact pow_eq (by omega)
      generalize M / 2 ^ 60 = A
      rw [Nat.mul_left_comm, this]
      generalize 2 ^ 60 = B
      ac_rfl
    rw [e1, e2, ← Nat.add_mul, Nat.div_add_mod]
  · have e3 : 2 ^ w * 2 ^ (E - 0x3C00 - 1) = 2 ^ 60 * 2 ^ (E - 1 + v) := by
      rw [← Nat.pow_add, ← Nat.pow_add]; exact pow_eq (by omega)
    rw [e3]

/-- In the normal range the result is right except at ties with an even lower neighbour. -/
theorem double_normal_iff {P : Nat} (h1 : 0x3C01 * 2 ^ 112 ≤ P) (h2 : P < 0x43FF * 2 ^ 112) :
    Nearest b64 (b128.mag P * 2 ^ b64.unit) (2 ^ b128.unit) (truncMagnitude (P / 2 ^ 64) (P % 2 ^ 64)) ↔
      ¬ (P % 2 ^ 60 = 2 ^ 59 ∧ P / 2 ^ 60 % 2 = 0) := by
  rw [double_normal h1 h2]
  have hD := Nat.two_pow_pos b128.unit
  obtain ⟨k, e1, e2⟩ := double_pieces h1 h2
  obtain ⟨n, hn⟩ : ∃ n, n = P / 2 ^ 60 - 0x3C00 * 2 ^ 52 := ⟨_, rfl⟩
  have hi := inf64
  have hn1 : n + 1 ≤ b64.inf := by omega
  have hpar : P / 2 ^ 60 % 2 = n % 2 := by omega
  rw [← hn] at e1 e2 ⊢
  rw [hpar]
  have hR : P % 2 ^ 60 < 2 ^ 60 := Nat.mod_lt _ (by decide)
  generalize P % 2 ^ 60 = R at *
  have hK := Nat.two_pow_pos k
  generalize 2 ^ k = K at *
  generalize 2 ^ b128.unit = D at *
  generalize b128.mag P * 2 ^ b64.unit = N at *
  rcases Nat.lt_trichotomy R (2 ^ 59) with c | c | c
  · have : bit (2 ^ 59 ≤ R) = 0 := if_neg (by omega)
    rw [this, Nat.add_zero]
    refine iff_of_true (nearest_lo hn1 (by omega) (.inl ?_)) (by omega)
    have h3 := Nat.mul_lt_mul_of_pos_right c hK
    omega
  · have : bit (2 ^ 59 ≤ R) = 1 := if_pos (by omega)
    rw [this]
    subst c
    have hmid : 2 * N = D * b64.mag n + D * b64.mag (n + 1) := by omega
    by_cases he : n % 2 = 0
    · refine iff_of_false (fun h => ?_) (fun h => h ⟨rfl, he⟩)
      have := h.unique hD (nearest_lo hn1 (by omega) (.inr ⟨hmid, he⟩))
      omega
    · exact iff_of_true (nearest_hi hD hn1 (by omega) (.inr ⟨hmid, by omega⟩)) (by omega)
  · have : bit (2 ^ 59 ≤ R) = 1 := if_pos (by omega)
    rw [this]
    have h3 := Nat.mul_lt_mul_of_pos_right c hK
    have h4 := Nat.mul_lt_mul_of_pos_right hR hK
    exact iff_of_true (nearest_hi hD hn1 (by omega) (.inl (by omega))) (by omega)

theorem or_top64 {r c : Nat} (hr : r < 2 ^ 63) (hc : c ≤ 1) : (0x8000000000000000 ||| (r + c * 2 ^ 63)) = r + 2 ^ 63 := by
  rw [Nat.or_comm, show 0x8000000000000000 = 2 ^ 63 from rfl]
  rcases (show c = 0 ∨ c = 1 by omega) with rfl | rfl
  · rw [Nat.zero_mul, Nat.add_zero, or_sign _ _ hr, Nat.add_comm]
  · rw [Nat.one_mul, Nat.add_comm, ← or_sign _ _ hr, Nat.or_assoc, Nat.or_self]

/-- The magnitude below the normal range. -/
theorem double_sub {P : Nat} (h1 : 0x3BCC * 2 ^ 112 ≤ P) (h2 : P < 0x3C01 * 2 ^ 112) :
    truncMagnitude (P / 2 ^ 64) (P % 2 ^ 64) =
      b64.rnd (((2 ^ 112 + P % 2 ^ 112) / 2 ^ 60 ||| bit ((2 ^ 112 + P % 2 ^ 112) % 2 ^ 60 ≠ 0)) * 2 ^ (P / 2 ^ 112 - 0x37CF))
        (2 ^ b64.unit) := by
  unfold truncMagnitude
  rw [if_neg (by omega), if_neg (by omega), if_neg (by omega), if_pos (by omega)]
  simp only
  have e1 : (0x8000000000000000 ||| P / 2 ^ 64 * 2 ^ 15 % 2 ^ 64) / 2 ^ 11 = 2 ^ 52 + P / 2 ^ 64 % 2 ^ 48 * 2 ^ 4 := by
    have h3 : P / 2 ^ 64 * 2 ^ 15 % 2 ^ 64 = P / 2 ^ 64 % 2 ^ 48 * 2 ^ 15 + P / 2 ^ 64 / 2 ^ 48 % 2 * 2 ^ 63 := by omega
    have h4 : (0x8000000000000000 ||| P / 2 ^ 64 * 2 ^ 15 % 2 ^ 64) = P / 2 ^ 64 % 2 ^ 48 * 2 ^ 15 + 2 ^ 63 := by
      rw [h3]
      exact or_top64 (by omega) (by omega)
    rw [h4]; omega
  have e2 : (2 ^ 52 + P / 2 ^ 64 % 2 ^ 48 * 2 ^ 4 ||| P % 2 ^ 64 / 2 ^ 60) = (2 ^ 112 + P % 2 ^ 112) / 2 ^ 60 := by
    have h3 : 2 ^ 52 + P / 2 ^ 64 % 2 ^ 48 * 2 ^ 4 = (2 ^ 48 + P / 2 ^ 64 % 2 ^ 48) * 2 ^ 4 := by omega
    rw [h3, Nat.or_comm, or_mul _ _ 4 (by omega)]
    omega
  have e3 : bit (P % 2 ^ 64 * 2 ^ 4 % 2 ^ 64 ≠ 0) = bit ((2 ^ 112 + P % 2 ^ 112) % 2 ^ 60 ≠ 0) := bit_congr (by omega)
  rw [e1, e2, e3]
  have hE : P / 2 ^ 64 / 2 ^ 48 = P / 2 ^ 112 := by omega
  rw [hE]
  have hS : 2 ^ 52 ≤ ((2 ^ 112 + P % 2 ^ 112) / 2 ^ 60 ||| bit ((2 ^ 112 + P % 2 ^ 112) % 2 ^ 60 ≠ 0)) ∧
      ((2 ^ 112 + P % 2 ^ 112) / 2 ^ 60 ||| bit ((2 ^ 112 + P % 2 ^ 112) % 2 ^ 60 ≠ 0)) < 2 ^ 53 := by
    rw [or_bit]; split <;> omega
  generalize ((2 ^ 112 + P % 2 ^ 112) / 2 ^ 60 ||| bit ((2 ^ 112 + P % 2 ^ 112) % 2 ^ 60 ≠ 0)) = S at *
  have hi := inf64
  obtain ⟨E, hE'⟩ : ∃ E, E = P / 2 ^ 112 := ⟨_, rfl⟩
  have hE1 : 0x3BCC ≤ E := by omega
  have hE2 : E ≤ 0x3C00 := by omega
  rw [← hE']
  have aS : b64.abs S = S := Nat.mod_eq_of_lt (by rw [sign64]; omega)
  have hc : (E - 0x3802) * 2 ^ 52 < b64.inf := by
    rw [hi]
    have := Nat.mul_le_mul_right (2 ^ 52) (show E - 0x3802 ≤ 0x3FE by omega)
    omega
  have hc' := Nat.lt_trans hc Fmt.inf_lt
  have aC : b64.abs ((E - 0x3802) * 2 ^ 52) = (E - 0x3802) * 2 ^ 52 := Nat.mod_eq_of_lt hc'
  have nS : b64.neg S = false := Fmt.neg_of_lt (by rw [sign64]; omega)
  have nC : b64.neg ((E - 0x3802) * 2 ^ 52) = false := Fmt.neg_of_lt hc'
  rw [Fmt.mul_fin (by rw [aS]; omega) (by rw [aC]; exact hc), aS, aC, nS, nC]
  have mS : b64.mag S = S := by
    have h := b64.mag_mk 1 S (by omega) hS.1 hS.2
    have e : (1 * 2 ^ b64.f + (S - 2 ^ b64.f)) = S := by
      show 1 * 2 ^ 52 + (S - 2 ^ 52) = S
      omega
    rw [e] at h
    rw [h]; exact Nat.mul_one S
  have mC : b64.mag ((E - 0x3802) * 2 ^ 52) = 2 ^ (E - 0x37CF) := by
    have h := b64.mag_mk (E - 0x3802) (2 ^ 52) (by omega) (Nat.le_refl _) (by decide)
    have e : b64.f = 52 := rfl
    rw [e, Nat.sub_self, Nat.add_zero, ← Nat.pow_add] at h
    rw [h]; exact pow_eq (by omega)
  rw [mS, mC]
  exact Nat.zero_add _

/-- Scaling both sides of the comparisons with a midpoint. -/
theorem scale_cmp {S E T u v w : Nat} (hv : v = 1074) (hw : w = 16494) (hE : 0x37CF ≤ E) (hu : u = E + v) :
    (2 * (S * 2 ^ (E - 0x37CF)) < 2 ^ v * T ↔ S * 2 ^ 60 * 2 ^ u < T * 2 ^ w) ∧
      (2 * (S * 2 ^ (E - 0x37CF)) = 2 ^ v * T ↔ S * 2 ^ 60 * 2 ^ u = T * 2 ^ w) := by
  have p15420 := Nat.two_pow_pos (w - v)
  have l3 : 2 * (S * 2 ^ (E - 0x37CF)) * 2 ^ (w - v) = S * 2 ^ 60 * 2 ^ u := by
    have : 2 ^ 60 * 2 ^ u = 2 ^ 1 * 2 ^ (E - 0x37CF) * 2 ^ (w - v) := by
      rw [← Nat.pow_add, ← Nat.pow_add, ← Nat.pow_add]
      exact pow_eq (by omega)
    rw [Nat.mul_assoc S (2 ^ 60), this, Nat.pow_one]
    generalize 2 ^ (E - 0x37CF) = B
    ac_rfl
  have l4 : 2 ^ v * T * 2 ^ (w - v) = T * 2 ^ w := by
    rw [show w = v + (w - v) by omega, Nat.pow_add, show v + (w - v) - v = w - v by omega]; ac_rfl
  rw [← l3, ← l4]
  exact ⟨(Nat.mul_lt_mul_right p15420).symm, (Nat.mul_right_cancel_iff p15420).symm⟩

/-- Below the normal range the result is right if the sticky bit is beyond the last place or not needed. -/
theorem double_sub_nearest {P : Nat} (h1 : 0x3BCC * 2 ^ 112 ≤ P) (h2 : P < 0x3C01 * 2 ^ 112)
    (h : P < 0x3C00 * 2 ^ 112 ∨ P % 2 ^ 60 = 0) :
    Nearest b64 (b128.mag P * 2 ^ b64.unit) (2 ^ b128.unit) (truncMagnitude (P / 2 ^ 64) (P % 2 ^ 64)) := by
  rw [double_sub h1 h2, mag_parts (by omega)]
  obtain ⟨v, hv, hv'⟩ : ∃ v, b64.unit = v ∧ v = 1074 := ⟨_, rfl, rfl⟩
  obtain ⟨w, hw, hw'⟩ : ∃ w, b128.unit = w ∧ w = 16494 := ⟨_, rfl, rfl⟩
  rw [hv, hw]
  have h' : P / 2 ^ 112 ≤ 0x3BFF ∨ (2 ^ 112 + P % 2 ^ 112) % 2 ^ 60 = 0 := by omega
  have hE : 0x3BCC ≤ P / 2 ^ 112 := by omega
  generalize P / 2 ^ 112 = E at h' hE ⊢
  generalize 2 ^ 112 + P % 2 ^ 112 = M at h' ⊢
  have hV := Nat.two_pow_pos v
  refine nearest_transfer (Nat.two_pow_pos _) hV (fun n _ => ?_) (rnd_nearest _ _ hV)
  generalize b64.mag n + b64.mag (n + 1) = T
  obtain ⟨k1, k2⟩ := scale_cmp (S := M / 2 ^ 60 ||| bit (M % 2 ^ 60 ≠ 0)) (T := T) hv' hw' (show 0x37CF ≤ E by omega) rfl
  have l1 : 2 * (M * 2 ^ (E - 1) * 2 ^ v) = M * 2 ^ (E + v) := by
    rw [show E + v = 1 + (E - 1) + v by omega, Nat.pow_add, Nat.pow_add]
    generalize 2 ^ (E - 1) = A; generalize 2 ^ v = B
    rw [Nat.pow_one]; ac_rfl
  rw [l1, Nat.mul_comm (2 ^ w) T]
  rcases h' with h' | h'
  · obtain ⟨s1, s2⟩ := sticky_cmp (M := M) (k := 60) (p := E + v) (q := w) (t := T) (.inl (by omega))
    exact ⟨s1.trans k1.symm, s2.trans k2.symm⟩
  · have e : (M / 2 ^ 60 ||| bit (M % 2 ^ 60 ≠ 0)) * 2 ^ 60 = M := by
      rw [or_bit, if_neg (by omega)]; omega
    rw [e] at k1 k2
    exact ⟨k1.symm, k2.symm⟩

theorem mag64_small {n : Nat} (h : n ≤ 2 ^ 52) : b64.mag n = n := by
  rcases Nat.lt_or_eq_of_le h with c | c
  · exact b64.mag_small c
  · rw [c]; decide

/-- Rounding an odd number of halves. -/
theorem half_rnd {S : Nat} (h : S / 2 < 2 ^ 52) (ho : S % 2 = 1) {v : Nat} (hv : 1 ≤ v) :
    b64.rnd (S * 2 ^ (v - 1)) (2 ^ v) = S / 2 + S / 2 % 2 := by
  have hV := Nat.two_pow_pos v
  refine rnd_eq hV ?_
  have e : 2 ^ v = 2 * 2 ^ (v - 1) := by rw [← Nat.pow_succ']; exact pow_eq (by omega)
  have hi := inf64
  have m1 := mag64_small (n := S / 2) (by omega)
  have m2 := mag64_small (n := S / 2 + 1) (by omega)
  have hS : S = 2 * (S / 2) + 1 := by omega
  rw [e]
  generalize 2 ^ (v - 1) = K at *
  generalize S / 2 = a at *
  subst hS
  have hmid : 2 * ((2 * a + 1) * K) = 2 * K * b64.mag a + 2 * K * b64.mag (a + 1) := by
    rw [m1, m2, Nat.add_mul, Nat.mul_add (2 * K)]
    have : 2 * a * K = 2 * K * a := by ac_rfl
    omega
  have hlt := Nat.mul_le_mul_left (2 * K) (b64.mag_mono (show a ≤ a + 1 by omega))
  by_cases c : a % 2 = 0
  · rw [c, Nat.add_zero]
    exact nearest_lo (n := a) (by omega) (by omega) (.inr ⟨hmid, c⟩)
  · rw [show a % 2 = 1 by omega]
    exact nearest_hi (by omega) (by omega) (by omega) (.inr ⟨hmid, by omega⟩)

/-- In the binade below the smallest normal number an inexact result is right only in half of the cases. -/
theorem double_binade_iff {P : Nat} (h1 : 0x3C00 * 2 ^ 112 ≤ P) (h2 : P < 0x3C01 * 2 ^ 112) (hR : P % 2 ^ 60 ≠ 0) :
    Nearest b64 (b128.mag P * 2 ^ b64.unit) (2 ^ b128.unit) (truncMagnitude (P / 2 ^ 64) (P % 2 ^ 64)) ↔
      ¬ (P / 2 ^ 60 % 4 = 1 ∨ P / 2 ^ 60 % 4 = 2) := by
  rw [double_sub (by omega) h2, mag_parts (by omega)]
  obtain ⟨v, hv, hv'⟩ : ∃ v, b64.unit = v ∧ v = 1074 := ⟨_, rfl, rfl⟩
  obtain ⟨w, hw, hw'⟩ : ∃ w, b128.unit = w ∧ w = 16494 := ⟨_, rfl, rfl⟩
  rw [hv, hw]
  have hE : P / 2 ^ 112 = 0x3C00 := by omega
  rw [hE]
  obtain ⟨M, hM⟩ : ∃ M, M = 2 ^ 112 + P % 2 ^ 112 := ⟨_, rfl⟩
  have hq : P / 2 ^ 60 % 4 = M / 2 ^ 60 % 4 := by omega
  have hR' : M % 2 ^ 60 ≠ 0 := by omega
  rw [hq, ← hM, or_bit, if_pos hR']
  have hM1 : 2 ^ 52 ≤ M / 2 ^ 60 := by omega
  have hM2 : M / 2 ^ 60 < 2 ^ 53 := by omega
  have hMd := Nat.div_add_mod M (2 ^ 60)
  have hMr := Nat.mod_lt M (show 0 < 2 ^ 60 by decide)
  have hx : 0x3C00 - 0x37CF = v - 1 := by omega
  rw [hx, half_rnd (by omega) (by omega) (by omega)]
  have hD := Nat.two_pow_pos w
  have hk := Nat.two_pow_pos (0x3C00 - 1 + v)
  have hDk : 2 ^ w = 2 ^ 61 * 2 ^ (0x3C00 - 1 + v) := by rw [← Nat.pow_add]; exact pow_eq (by omega)
  have hN : M * 2 ^ (0x3C00 - 1) * 2 ^ v = M * 2 ^ (0x3C00 - 1 + v) := by rw [Nat.pow_add, Nat.mul_assoc]
  rw [hN]
  rw [hDk] at hD ⊢
  generalize 2 ^ (0x3C00 - 1 + v) = K at *
  have hi := inf64
  obtain ⟨a, ha⟩ : ∃ a, a = M / 2 ^ 60 / 2 := ⟨_, rfl⟩
  have m1 := mag64_small (n := a) (by omega)
  have m2 := mag64_small (n := a + 1) (by omega)
  have hhalf : (M / 2 ^ 60 / 2 * 2 + 1) / 2 = a := by omega
  rw [hhalf]
  have c1 : 2 ^ 61 * K * b64.mag a = 2 ^ 61 * a * K := by rw [m1]; generalize 2 ^ 61 = p; ac_rfl
  have c2 : 2 ^ 61 * K * b64.mag (a + 1) = (2 ^ 61 * a + 2 ^ 61) * K := by
    rw [m2, Nat.mul_assoc, Nat.mul_comm K, ← Nat.mul_assoc, Nat.mul_add, Nat.mul_one]
  have hMK : ∀ z, z * K < M * K ↔ z < M := fun z => Nat.mul_lt_mul_right hk
  rcases (show M / 2 ^ 60 % 2 = 0 ∨ M / 2 ^ 60 % 2 = 1 by omega) with c | c
  · -- below the middle
    have hn : Nearest b64 (M * K) (2 ^ 61 * K) a := by
      refine nearest_lo (by omega) ?_ (.inl ?_)
      · rw [c1]; exact Nat.mul_le_mul_right _ (by omega)
      · rw [c1, c2, ← Nat.add_mul, ← Nat.mul_assoc]
        exact Nat.mul_lt_mul_of_pos_right (by omega) hk
    constructor
    · intro h
      have := h.unique hD hn
      omega
    · intro h
      rw [show a % 2 = 0 by omega]
      exact hn
  · have hn : Nearest b64 (M * K) (2 ^ 61 * K) (a + 1) := by
      refine nearest_hi hD (by omega) ?_ (.inl ?_)
      · rw [c2]; exact Nat.mul_le_mul_right _ (by omega)
      · rw [c1, c2, ← Nat.add_mul, ← Nat.mul_assoc]
        exact Nat.mul_lt_mul_of_pos_right (by omega) hk
    constructor
    · intro h
      have := h.unique hD hn
      omega
    · intro h
      rw [show a % 2 = 1 by omega]
      exact hn

/-- Both failures in terms of the bits of a finite magnitude. -/
def Wrong (P : Nat) : Prop :=
  (0x3C01 * 2 ^ 112 ≤ P ∧ P < 0x43FF * 2 ^ 112 ∧ P % 2 ^ 60 = 2 ^ 59 ∧ P / 2 ^ 60 % 2 = 0) ∨
  (0x3C00 * 2 ^ 112 ≤ P ∧ P < 0x3C01 * 2 ^ 112 ∧ P % 2 ^ 60 ≠ 0 ∧ (P / 2 ^ 60 % 4 = 1 ∨ P / 2 ^ 60 % 4 = 2))

theorem truncMagnitude_iff {P : Nat} (hP : P < b128.inf) :
    Nearest b64 (b128.mag P * 2 ^ b64.unit) (2 ^ b128.unit) (truncMagnitude (P / 2 ^ 64) (P % 2 ^ 64)) ↔ ¬ Wrong P := by
  rw [inf128] at hP
  unfold Wrong
  rcases Nat.lt_or_ge P (0x3BCC * 2 ^ 112) with c | c
  · refine iff_of_true ?_ (by omega)
    have e : truncMagnitude (P / 2 ^ 64) (P % 2 ^ 64) = 0 := by
      unfold truncMagnitude
      rw [if_neg (by omega), if_neg (by omega), if_neg (by omega), if_neg (by omega)]
    rw [e]
    exact tiny_zero ok64 (E := 0x3BCC) (by decide) (Nat.le_of_lt c) (by decide)
  · rcases Nat.lt_or_ge P (0x3C01 * 2 ^ 112) with c1 | c1
    · by_cases c2 : P < 0x3C00 * 2 ^ 112 ∨ P % 2 ^ 60 = 0
      · exact iff_of_true (double_sub_nearest c c1 c2) (by omega)
      · rw [double_binade_iff (by omega) c1 (by omega)]
        omega
    · rcases Nat.lt_or_ge P (0x43FF * 2 ^ 112) with c2 | c2
      · rw [double_normal_iff c1 c2]
        omega
      · refine iff_of_true ?_ (by omega)
        have e : truncMagnitude (P / 2 ^ 64) (P % 2 ^ 64) = b64.inf := by
          unfold truncMagnitude
          rw [if_neg (by omega), if_pos (by omega)]
          exact inf64.symm
        rw [e]
        exact huge_inf ok64 (E := 0x43FF) (by decide) c2 (by decide)

theorem truncMagnitude_le {P : Nat} (hP : P ≤ b128.inf) : truncMagnitude (P / 2 ^ 64) (P % 2 ^ 64) ≤ b64.inf := by
  rw [inf128] at hP
  have hi := inf64
  rcases Nat.lt_or_ge P (0x3BCC * 2 ^ 112) with c | c
  · unfold truncMagnitude
    rw [if_neg (by omega), if_neg (by omega), if_neg (by omega), if_neg (by omega)]
    omega
  · rcases Nat.lt_or_ge P (0x3C01 * 2 ^ 112) with c1 | c1
    · rw [double_sub c c1]
      exact rnd_le _ _ (Nat.two_pow_pos _)
    · rcases Nat.lt_or_ge P (0x43FF * 2 ^ 112) with c2 | c2
      · rw [double_normal c1 c2]
        unfold bit; split <;> omega
      · unfold truncMagnitude
        rw [if_neg (by omega), if_pos (by omega)]
        omega

theorem trunctfdf2_pack {x : Nat} (hx : Pat b128 x) :
    trunctfdf2 x = (truncMagnitude (b128.abs x / 2 ^ 64) (b128.abs x % 2 ^ 64) ||| if b128.neg x then 2 ^ 63 else 0) := by
  obtain ⟨h1, h2, h3⟩ := split_sign hx
  unfold trunctfdf2
  simp only
  rw [h1, h2, h3]

theorem mag_binade {q : Nat} (h1 : 2 ^ 52 ≤ q) (h2 : q ≤ 2 ^ 53) :
    b128.mag ((q + 0x3BFF * 2 ^ 52) * 2 ^ 60) = q * 2 ^ (b128.unit - b64.unit - 1) := by
  obtain ⟨v, hv, hv'⟩ : ∃ v, b128.unit - b64.unit - 1 = v ∧ v = 15419 := ⟨_, rfl, by decide⟩
  rw [hv, mag_parts (by omega)]
  rcases Nat.lt_or_eq_of_le h2 with c | c
  · obtain ⟨E, e1, hE⟩ : ∃ E, (q + 0x3BFF * 2 ^ 52) * 2 ^ 60 / 2 ^ 112 = E ∧ E = 0x3C00 := ⟨_, rfl, by omega⟩
    have e2 : 2 ^ 112 + (q + 0x3BFF * 2 ^ 52) * 2 ^ 60 % 2 ^ 112 = q * 2 ^ 60 := by omega
    rw [e1, e2, Nat.mul_assoc, ← Nat.pow_add]
    exact congrArg (q * ·) (pow_eq (by omega))
  · obtain ⟨E, e1, hE⟩ : ∃ E, (q + 0x3BFF * 2 ^ 52) * 2 ^ 60 / 2 ^ 112 = E ∧ E = 0x3C01 := ⟨_, rfl, by omega⟩
    have e2 : 2 ^ 112 + (q + 0x3BFF * 2 ^ 52) * 2 ^ 60 % 2 ^ 112 = 2 ^ 112 := by omega
    rw [e1, e2, c, ← Nat.pow_add, ← Nat.pow_add]
    exact pow_eq (by omega)

theorem place {P q : Nat} (hq : q = P / 2 ^ 60 - 0x3BFF * 2 ^ 52) (h1 : 0x3C00 * 2 ^ 112 ≤ P) (h3 : P % 2 ^ 60 ≠ 0) :
    (q + 0x3BFF * 2 ^ 52) * 2 ^ 60 < P ∧ P < (q + 1 + 0x3BFF * 2 ^ 52) * 2 ^ 60 := by
  have e : P = 2 ^ 60 * (P / 2 ^ 60) + P % 2 ^ 60 := (Nat.div_add_mod _ _).symm
  have h4 := Nat.mod_lt P (show 0 < 2 ^ 60 by decide)
  have h5 : 0x3C00 * 2 ^ 52 ≤ P / 2 ^ 60 := by omega
  generalize P / 2 ^ 60 = A at *
  generalize P % 2 ^ 60 = R at *
  have hA : A = q + 0x3BFF * 2 ^ 52 := by omega
  rw [e, show q + 1 + 0x3BFF * 2 ^ 52 = A + 1 by omega, ← hA, Nat.add_mul, Nat.mul_comm A]
  omega

/-- The bits of `Mistruncated` numbers. -/
theorem wrong_iff {x : Nat} (hf : Finite b128 x) : Wrong (b128.abs x) ↔ Mistruncated x := by
  have hf' : b128.abs x < b128.inf := hf
  rw [inf128] at hf'
  unfold Mistruncated size
  rw [absOf_eq]
  generalize b128.abs x = P at *
  have hD := Nat.two_pow_pos b128.unit
  have hi := inf64
  unfold Wrong
  refine or_congr ⟨?_, ?_⟩ ⟨?_, ?_⟩
  · rintro ⟨h1, h2, h3, h4⟩
    obtain ⟨k, e1, e2⟩ := double_pieces h1 h2
    refine ⟨P / 2 ^ 60 - 0x3C00 * 2 ^ 52, by omega, by omega, by omega, ?_⟩
    rw [h3] at e1
    generalize 2 ^ k = K at *
    omega
  · rintro ⟨n, n1, n2, n3, n4⟩
    have hP : P = (n + 0x3C00 * 2 ^ 52) * 2 ^ 60 + 2 ^ 59 := by
      obtain ⟨k, e1, e2⟩ := double_pieces (P := (n + 0x3C00 * 2 ^ 52) * 2 ^ 60 + 2 ^ 59) (by omega) (by omega)
      have f1 : ((n + 0x3C00 * 2 ^ 52) * 2 ^ 60 + 2 ^ 59) / 2 ^ 60 - 0x3C00 * 2 ^ 52 = n := by omega
      have f2 : ((n + 0x3C00 * 2 ^ 52) * 2 ^ 60 + 2 ^ 59) % 2 ^ 60 = 2 ^ 59 := by omega
      rw [f1] at e1 e2
      rw [f2] at e1
      have hU := Nat.two_pow_pos b64.unit
      generalize (n + 0x3C00 * 2 ^ 52) * 2 ^ 60 + 2 ^ 59 = Q at *
      refine b128.mag_inj (Nat.mul_right_cancel hU ?_)
      generalize 2 ^ k = K at *
      omega
    omega
  · rintro ⟨h1, h2, h3, h4⟩
    obtain ⟨q, hq⟩ : ∃ q, q = P / 2 ^ 60 - 0x3BFF * 2 ^ 52 := ⟨_, rfl⟩
    refine ⟨q, by omega, by omega, by omega, ?_⟩
    obtain ⟨g1, g2⟩ := place hq h1 h3
    have k1 := b128.mag_strictMono g1
    have k2 := b128.mag_strictMono g2
    rw [mag_binade (by omega) (by omega)] at k1 k2
    exact ⟨k1, k2⟩
  · rintro ⟨q, h1, h2, h3, h4, h5⟩
    rw [← mag_binade (q := q) (by omega) (by omega)] at h4
    rw [← mag_binade (q := q + 1) (by omega) (by omega)] at h5
    have g1 : ¬ P ≤ (q + 0x3BFF * 2 ^ 52) * 2 ^ 60 := fun h => Nat.lt_irrefl _ (Nat.lt_of_lt_of_le h4 (b128.mag_mono h))
    have g2 : ¬ (q + 1 + 0x3BFF * 2 ^ 52) * 2 ^ 60 ≤ P := fun h => Nat.lt_irrefl _ (Nat.lt_of_lt_of_le h5 (b128.mag_mono h))
    omega

/-- Conversion to `double` is right exactly outside the cases of `Mistruncated`. -/
theorem trunctfdf2_iff {x : Nat} (hx : Pat b128 x) (hn : ¬ NaN b128 x) :
    Converted b128 b64 x (trunctfdf2 x) ↔ ¬ (Finite b128 x ∧ Mistruncated x) := by
  have hP : b128.abs x ≤ b128.inf := by
    have : ¬ b128.inf < b128.abs x := hn
    omega
  have hl := truncMagnitude_le hP
  have hi := inf64
  rw [trunctfdf2_pack hx, or_pack64 (by omega)]
  have hneg : (negative b64 (b64.pack (b128.neg x) (truncMagnitude (b128.abs x / 2 ^ 64) (b128.abs x % 2 ^ 64))) ↔ negative b128 x) := by
    rw [negative_pack hl, negative_iff hx]
  unfold Converted
  rw [absOf_pack hl]
  by_cases hf : Finite b128 x
  · have hni : ¬ Infinite b128 x := by
      intro h
      have h1 : b128.abs x < b128.inf := hf
      have h2 : b128.abs x = b128.inf := h
      omega
    have := truncMagnitude_iff (P := b128.abs x) hf
    rw [wrong_iff hf] at this
    constructor
    · intro h h'
      exact this.1 (h.2.2.1 hf) h'.2
    · intro h
      exact ⟨pat_pack hl, hneg, fun _ => this.2 (fun h' => h ⟨hf, h'⟩), fun h' => absurd h' hni⟩
  · refine iff_of_true ⟨pat_pack hl, hneg, fun h => absurd h hf, fun h => ?_⟩ (fun h => hf h.1)
    have h2 : b128.abs x = b128.inf := h
    unfold Infinite
    rw [absOf_pack hl, h2, inf128]
    decide

theorem trunctfdf2_nan {x : Nat} (hx : Pat b128 x) (hn : NaN b128 x) : NaN b64 (trunctfdf2 x) := by
  have hn' : b128.inf < b128.abs x := hn
  have hl := abs_lt x
  have hi := inf64
  rw [inf128] at hn'
  rw [trunctfdf2_pack hx]
  have e : truncMagnitude (b128.abs x / 2 ^ 64) (b128.abs x % 2 ^ 64) = b128.abs x / 2 ^ 64 := by
    unfold truncMagnitude
    rw [if_pos (by omega)]
  rw [e, or_pack64 (by omega)]
  show b64.inf < b64.abs _
  rw [Fmt.abs_pack (by rw [sign64]; omega)]
  omega

end Verif.Quad
