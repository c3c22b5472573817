import Verif.Quad.Mul

/-! # Addition and subtraction of `long double` magnitudes -/

namespace Verif.Quad
open Verif.Float Verif.Int128 Verif.Math

/-- A left shift that keeps the low 128 bits where it has a result. -/
def Shifts (sl : Nat → Nat → Option Nat) : Prop := ∀ x s v, sl x s = some v → v = x * 2 ^ s % 2 ^ 128

theorem shifts_shl : Shifts shl := by
  intro x s v h
  unfold shl at h
  split at h
  · exact (Option.some.inj h).symm
  · cases h

/-- The significand and the exponent of a finite pattern, subnormal numbers having exponent 1. -/
theorem parts (b : Nat) : ∃ m e, m = b % 2 ^ 112 + (if b / 2 ^ 112 = 0 then 0 else 2 ^ 112) ∧ e = (if b / 2 ^ 112 = 0 then 1 else b / 2 ^ 112) ∧
    1 ≤ e ∧ m < 2 ^ 113 ∧ b128.mag b = m * 2 ^ (e - 1) ∧ (b / 2 ^ 112 ≠ 0 → 2 ^ 112 ≤ m) := by
  refine ⟨_, _, rfl, rfl, ?_, ?_, ?_, ?_⟩
  · split <;> omega
  · split <;> omega
  · by_cases h : b / 2 ^ 112 = 0
    · rw [if_pos h, if_pos h, b128.mag_small (by show b < 2 ^ 112; omega)]; omega
    · rw [if_neg h, if_neg h, b128.mag_normal (by show 2 ^ 112 ≤ b; omega), Nat.add_comm]
      rfl
  · intro h; rw [if_neg h]; omega

theorem expDiff_eq (a b : Nat) : expDiff a b = a / 2 ^ 112 - (if b / 2 ^ 112 = 0 then 1 else b / 2 ^ 112) := by
  unfold expDiff
  rw [or_bit]
  split
  · next h => rw [h]
  · rfl

theorem or_field (r : Nat) (p : Prop) [Decidable p] (k : Nat) (h : r < 2 ^ k) : (r ||| bit p * 2 ^ k) = r + if p then 2 ^ k else 0 := by
  rw [or_mul _ _ _ h]
  unfold bit
  split <;> omega

/-- The bits shifted out. -/
theorem shifted_out (m s : Nat) (hs : s ≤ 128) : m * 2 ^ (128 - s) % 2 ^ 128 = m % 2 ^ s * 2 ^ (128 - s) := by
  have := Nat.mul_mod_mul_right (2 ^ (128 - s)) m (2 ^ s)
  rw [← Nat.pow_add, show s + (128 - s) = 128 by omega] at this
  exact this

theorem half_test' (r i : Nat) (h : r < 2 ^ 128) :
    0x8000000000000000 < (r / 2 ^ 64 ||| i % 2 ||| bit (r % 2 ^ 64 ≠ 0)) ↔ 2 ^ 127 < r ∨ (r = 2 ^ 127 ∧ i % 2 = 1) := by
  rw [← half_test r (i % 2 = 1) h]
  have : (r / 2 ^ 64 ||| i % 2 ||| bit (r % 2 ^ 64 ≠ 0)) = (r / 2 ^ 64 ||| bit (i % 2 = 1 ∨ r % 2 ^ 64 ≠ 0)) := by
    rw [Nat.or_assoc]
    congr 1
    rcases Nat.mod_two_eq_zero_or_one i with e | e
    · rw [e, Nat.zero_or]; exact bit_congr (by simp)
    · rw [e, or_bit, bit_congr (q := True) (by simp)]
      split <;> rfl
  rw [this]

theorem lower_place {i E : Nat} (hi : 2 ^ 112 ≤ i) (hE : 1 ≤ E) (t : Nat) : E * 2 ^ 112 + (i - 2 ^ 112) + t = i + t + (E - 1) * 2 ^ 112 := by
  have : E * 2 ^ 112 = (E - 1) * 2 ^ 112 + 2 ^ 112 := by rw [← Nat.succ_mul]; congr 1; omega
  generalize 2 ^ 112 = p at *
  omega

/-- addtf3.c:11-32: the exact sum, rounded once. -/
theorem addMagnitude_eq {sl : Nat → Nat → Option Nat} (hsl : Shifts sl) {a b r : Nat} (hba : b ≤ a) (ha : a < b128.inf)
    (h : addMagnitude sl a b = some r) : Nearest b128 (b128.mag a + b128.mag b) 1 r := by
  rw [inf128] at ha
  unfold addMagnitude at h
  simp only at h
  by_cases c1 : a < 2 ^ 112
  · rw [if_pos c1] at h
    rw [← Option.some.inj h]
    refine nearest_exact (by omega) (by rw [inf128]; omega) ?_
    rw [b128.mag_small c1, b128.mag_small (Nat.lt_of_le_of_lt hba c1), Fmt.mag_tiny (by show a + b ≤ 2 ^ 113; omega), Nat.one_mul]
  rw [if_neg c1, expDiff_eq] at h
  obtain ⟨m, E, hm, hE, hE1, hm2, hma, hm1⟩ := parts a
  obtain ⟨m', e, hm', he, he1, hm2', hmb, _⟩ := parts b
  have hq : a / 2 ^ 112 ≠ 0 := by omega
  rw [if_neg hq] at hm hE
  have hm1 := hm1 hq
  rw [← he, ← hE] at h
  have hle : e ≤ E := by
    have := Nat.div_le_div_right (c := 2 ^ 112) hba
    rw [he]; split <;> omega
  have haa : a % 2 ^ 112 ||| 2 ^ 112 = m := by rw [or_sign _ _ (by omega)]; omega
  have hbb : b % 2 ^ 112 ||| bit (b / 2 ^ 112 ≠ 0) * 2 ^ 112 = m' := by
    rw [or_field _ _ _ (by omega), hm']
    by_cases hz : b / 2 ^ 112 = 0 <;> simp [hz]
  rw [haa, hbb] at h
  generalize hs : E - e = s at h
  have hEs : E = e + s := by omega
  have hmax : E ≤ 0x7FFE := by omega
  have hsum : b128.mag a + b128.mag b = (m * 2 ^ s + m') * 2 ^ (e - 1) := by
    rw [hma, hmb, Nat.add_mul, hEs, show e + s - 1 = s + (e - 1) by omega, Nat.pow_add, Nat.mul_assoc]
  have hpe := Nat.two_pow_pos (e - 1)
  have hps := Nat.two_pow_pos s
  by_cases c2 : 114 ≤ s
  · rw [if_pos c2] at h
    rw [← Option.some.inj h]
    have hulp : b128.ulp a = 2 ^ (E - 1) := by unfold Fmt.ulp; rw [hE]; rfl
    refine nearest_lo (by rw [inf128]; omega) (by omega) (.inl ?_)
    rw [Nat.one_mul, Nat.one_mul, b128.mag_succ, hulp]
    have : 2 * b128.mag b < 2 ^ (E - 1) := by
      rw [hmb]
      have h1 := Nat.mul_lt_mul_of_pos_right (show 2 * m' < 2 ^ 114 by omega) hpe
      have h2 := Nat.pow_le_pow_right (n := 2) (by omega) (show 114 + (e - 1) ≤ E - 1 by omega)
      rw [Nat.pow_add] at h2
      rw [← Nat.mul_assoc]
      omega
    omega
  rw [if_neg c2] at h
  unfold shr at h
  rw [if_pos (by omega), Option.bind_some] at h
  cases hf : sl m' (128 - s) with
  | none => rw [hf] at h; cases h
  | some frac =>
  have hfr := hsl _ _ _ hf
  rw [shifted_out _ _ (by omega)] at hfr
  rw [hf, Option.bind_some] at h
  -- the exact sum split at the last place of `a`
  generalize hx : m * 2 ^ s + m' = x at *
  have hi : m + m' / 2 ^ s = x / 2 ^ s := by rw [← hx, Nat.mul_comm, Nat.mul_add_div hps]
  have hR : m' % 2 ^ s = x % 2 ^ s := by rw [← hx, Nat.mul_comm, Nat.mul_add_mod]
  rw [hi] at h
  rw [hR] at hfr
  have hdm := Nat.div_add_mod x (2 ^ s)
  have hmod := Nat.mod_lt x hps
  have hilo : 2 ^ 112 ≤ x / 2 ^ s := by rw [← hi]; exact Nat.le_trans hm1 (Nat.le_add_right _ _)
  have hihi : x / 2 ^ s < 2 ^ 114 := by
    have := Nat.div_le_self m' (2 ^ s)
    omega
  have hfl : frac < 2 ^ 128 := by
    rw [hfr]
    have := Nat.mul_lt_mul_of_pos_right hmod (Nat.two_pow_pos (128 - s))
    rw [← Nat.pow_add, show s + (128 - s) = 128 by omega] at this
    exact this
  by_cases c3 : x / 2 ^ s < 2 ^ 112 * 2
  · rw [if_pos c3] at h
    have := nearest_normal (F := b128) (num := b128.mag a + b128.mag b) (den := 1) (E := E) (M := x / 2 ^ s) (K := 2 ^ s) (ρ := x % 2 ^ s)
      (a := 1) (b := 2 ^ (e - 1)) (by omega) (by omega) hpe (by decide) hE1 (by show E + 1 < 2 ^ 15; omega) hilo (by show x / 2 ^ s < 2 ^ 113; omega) hmod
      (by rw [hsum, Nat.mul_one, Nat.mul_comm _ (2 ^ s), hdm]) (by
        rw [Nat.one_mul, Nat.mul_one, ← Nat.pow_add]; congr 1; omega)
    refine this.of_eq ?_
    rw [← Option.some.inj h]
    unfold composeSum
    rw [if_pos (show E - 1 < 0x7FFE by omega), bit_congr (half_test' _ _ hfl)]
    have hcond : (2 ^ s < 2 * (x % 2 ^ s) ∨ 2 ^ s = 2 * (x % 2 ^ s) ∧ x / 2 ^ s % 2 = 1) ↔ (2 ^ 127 < frac ∨ frac = 2 ^ 127 ∧ x / 2 ^ s % 2 = 1) := by
      have hp := Nat.two_pow_pos (128 - s)
      have e1 : 2 ^ 127 * 2 = 2 ^ s * 2 ^ (128 - s) := by rw [← Nat.pow_add, show s + (128 - s) = 128 by omega]
      have e2 : frac * 2 = 2 * (x % 2 ^ s) * 2 ^ (128 - s) := by rw [hfr]; ac_rfl
      have i1 : 2 ^ 127 < frac ↔ 2 ^ s < 2 * (x % 2 ^ s) := by
        rw [← Nat.mul_lt_mul_right (a := 2) (by omega), e1, e2]; exact Nat.mul_lt_mul_right hp
      have i2 : frac = 2 ^ 127 ↔ 2 ^ s = 2 * (x % 2 ^ s) := by
        constructor
        · intro hh
          rw [hh, e1] at e2
          exact Nat.eq_of_mul_eq_mul_right hp e2
        · intro hh
          rw [← hh, ← e1] at e2
          omega
      rw [i1, i2]
    rw [bit_congr hcond.symm]
    unfold bit
    exact lower_place hilo hE1 _
  · rw [if_neg c3] at h
    rw [← Option.some.inj h]
    unfold composeSum
    by_cases c4 : E < 0x7FFE
    · rw [if_pos c4]
      have hd2 : x / 2 ^ s / 2 = x / 2 ^ (s + 1) := by rw [Nat.div_div_eq_div_mul, Nat.pow_succ]
      have hm2 : x % 2 ^ (s + 1) = x / 2 ^ s % 2 * 2 ^ s + x % 2 ^ s := by
        rw [Nat.pow_succ, Nat.mod_mul, Nat.add_comm, Nat.mul_comm (2 ^ s)]
      have hdm' := Nat.div_add_mod x (2 ^ (s + 1))
      have := nearest_normal (F := b128) (num := b128.mag a + b128.mag b) (den := 1) (E := E + 1) (M := x / 2 ^ (s + 1)) (K := 2 ^ (s + 1)) (ρ := x % 2 ^ (s + 1))
        (a := 1) (b := 2 ^ (e - 1)) (by omega) (by omega) hpe (by decide) (by omega) (by show E + 1 + 1 < 2 ^ 15; omega) (by rw [← hd2]; show 2 ^ 112 ≤ _; omega)
        (by rw [← hd2]; show _ < 2 ^ 113; omega) (Nat.mod_lt _ (Nat.two_pow_pos _))
        (by rw [hsum, Nat.mul_one, Nat.mul_comm _ (2 ^ (s + 1)), hdm']) (by
          rw [Nat.one_mul, Nat.mul_one, ← Nat.pow_add]; congr 1; omega)
      refine this.of_eq ?_
      have hfz : frac ≠ 0 ↔ x % 2 ^ s ≠ 0 := by
        rw [hfr]
        have hp := Nat.two_pow_pos (128 - s)
        constructor
        · intro hh h0; rw [h0] at hh; simp at hh
        · intro hh h0
          rcases Nat.mul_eq_zero.1 h0 with h0 | h0 <;> omega
      have hup : (x / 2 ^ s &&& (x / 2 ^ s / 2 % 2 ||| bit (frac ≠ 0))) =
          if 2 ^ (s + 1) < 2 * (x % 2 ^ (s + 1)) ∨ 2 ^ (s + 1) = 2 * (x % 2 ^ (s + 1)) ∧ x / 2 ^ (s + 1) % 2 = 1 then 1 else 0 := by
        rw [or_bit, hm2, ← hd2, Nat.pow_succ]
        simp only [hfz]
        generalize x / 2 ^ s = i at *
        generalize 2 ^ s = K at *
        generalize x % K = R at *
        have hand : ∀ t, t ≤ 1 → i &&& t = i % 2 * t := by
          intro t ht
          rcases (show t = 0 ∨ t = 1 by omega) with rfl | rfl
          · simp
          · rw [Nat.and_one_is_mod]; simp
        rw [hand _ (by split <;> omega)]
        rcases Nat.mod_two_eq_zero_or_one i with ei | ei
        · rw [ei, Nat.zero_mul, Nat.zero_mul, Nat.zero_add, if_neg (by omega)]
        · rw [ei, Nat.one_mul, Nat.one_mul]
          by_cases hz : R ≠ 0
          · rw [if_pos hz, if_pos (by omega)]; omega
          · rw [if_neg hz]
            rcases Nat.mod_two_eq_zero_or_one (i / 2) with ej | ej
            · rw [ej, if_neg (by omega)]
            · rw [ej, if_pos (by omega)]
      rw [hup, ← hd2]
      have hfin : ∀ t, (E + 1) * 2 ^ 112 + (x / 2 ^ s / 2 - 2 ^ 112) + t = x / 2 ^ s / 2 + t + E * 2 ^ 112 := by intro t; omega
      exact hfin _
    · rw [if_neg c4, ← inf128]
      refine nearest_inf (by omega) ?_
      obtain ⟨K, hK, hK'⟩ : ∃ K, b128.mag b128.inf = 2 ^ K ∧ K = 32878 := ⟨_, Fmt.mag_inf ok128, rfl⟩
      rw [Nat.one_mul, hsum, hK]
      have h1 : 2 ^ 113 * 2 ^ s ≤ x := by
        have := Nat.mul_le_mul_right (2 ^ s) (show 2 ^ 113 ≤ x / 2 ^ s by omega)
        have := Nat.div_mul_le_self x (2 ^ s)
        omega
      have h2 := Nat.mul_le_mul_right (2 ^ (e - 1)) h1
      rw [← Nat.pow_add, ← Nat.pow_add] at h2
      exact Nat.le_trans (Nat.pow_le_pow_right (by omega) (by omega)) h2

end Verif.Quad
