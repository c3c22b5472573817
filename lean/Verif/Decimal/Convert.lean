import Verif.Decimal.Assemble
import Verif.Decimal.Sep

/-! # Decimals to double precision -/

namespace Verif.Decimal
open Verif.Float

/-- `m * 10^e` in units of the smallest subnormal, as a fraction. -/
def tenNum (m : Nat) (e : Int) : Nat := m * 10 ^ e.toNat * 2 ^ 1074
def tenDen (e : Int) : Nat := 10 ^ (-e).toNat

theorem tenDen_pos (e : Int) : 0 < tenDen e := Nat.pow_pos (by omega)

theorem shift_pos (b : Int) : 2 ^ shiftOf b = 2 * 2 ^ (shiftOf b - 1) := by
  have : 75 ≤ shiftOf b := by unfold shiftOf; split <;> omega
  obtain ⟨s, hs⟩ : ∃ s, shiftOf b = s + 1 := ⟨shiftOf b - 1, by omega⟩
  rw [hs, Nat.add_sub_cancel, Nat.pow_succ, Nat.mul_comm]

theorem exp_shift (b : Int) : (expOf b : Int) - shiftOf b = b + 1074 := by
  unfold expOf shiftOf
  split <;> omega

/-- The number approximated is rounded to nearest unless digits were dropped. -/
theorem assemble_plain {d : Dec} {num den M x y : Nat} {b : Int} {lost : Bool} (ht : d.truncated = false) (hd : 0 < den)
    (m1 : 2 ^ 127 ≤ M) (m2 : M < 2 ^ 128) (h : Bracket num den M x y lost) (hxy : (x : Int) - y = b + 1074) :
    ∃ r, assemble d M b lost = some r ∧ Nearest b64 num den r := by
  have hes := exp_shift b
  have h' : Bracket num den M (expOf b) (shiftOf b) lost := h.shift (by omega)
  obtain ⟨g1, g2, g3, g4, g5⟩ := h'.bounds (shift_pos b)
  rw [assemble_eq d b lost m1 m2]
  have hrb : M / 2 ^ (shiftOf b - 1) % 2 < 2 := Nat.mod_lt _ (by omega)
  obtain ⟨up, hup, u1, u2⟩ : ∃ up, goUp d M b lost = some up ∧
      (up = false → 2 * num < den * ((2 * (M / 2 ^ shiftOf b) + 1) * 2 ^ expOf b) ∨
        2 * num = den * ((2 * (M / 2 ^ shiftOf b) + 1) * 2 ^ expOf b) ∧ M / 2 ^ shiftOf b % 2 = 0) ∧
      (up = true → den * ((2 * (M / 2 ^ shiftOf b) + 1) * 2 ^ expOf b) < 2 * num ∨
        2 * num = den * ((2 * (M / 2 ^ shiftOf b) + 1) * 2 ^ expOf b) ∧ M / 2 ^ shiftOf b % 2 = 1) := by
    unfold goUp
    by_cases c : M / 2 ^ (shiftOf b - 1) % 2 = 1
    · rw [if_pos c, ht, if_neg Bool.false_ne_true]
      refine ⟨_, rfl, ?_, ?_⟩
      · intro h
        rw [Bool.or_eq_false_iff, Bool.or_eq_false_iff, decide_eq_false_iff_not, decide_eq_false_iff_not, Decidable.not_not] at h
        exact Or.inr ⟨g5 c h.1.1 h.1.2, by omega⟩
      · intro h
        rw [Bool.or_eq_true, Bool.or_eq_true, decide_eq_true_eq, decide_eq_true_eq] at h
        by_cases s : M % 2 ^ (shiftOf b - 1) ≠ 0 ∨ lost = true
        · exact Or.inl (g4 c s)
        · rcases h with h | h
          · exact absurd h s
          · refine Or.inr ⟨g5 c (Decidable.not_not.mp fun q => s (Or.inl q)) ?_, h⟩
            cases lost with
            | false => rfl
            | true => exact absurd (Or.inr rfl) s
    · rw [if_neg c]
      exact ⟨false, rfl, fun _ => Or.inl (g3 (by omega)), fun h => by cases h⟩
  rw [hup, Option.bind_some]
  exact ⟨_, rfl, nearest_low up hd m1 m2 g1 g2 u1 u2⟩

/-- The approximation and the number itself are on the same side of every midpoint. -/
theorem same_scaled {p : Nat × Int} {w : Nat} {e : Int} (hp : pow5 e.natAbs = some p) (h1 : -380 ≤ e) (h2 : e ≤ 309)
    (h0 : 0 < w) (hw : e.natAbs ≤ 54 ∨ w < 2 ^ 67) :
    Same b64 (numOf w e (scaled p)) (denOf e (scaled p)) (numOf w e (5 ^ e.natAbs * 2 ^ 127)) (denOf e (5 ^ e.natAbs * 2 ^ 127)) := by
  by_cases hk : e.natAbs ≤ 54
  · rw [pow5_exact hk hp]
    exact fun n _ => ⟨Iff.rfl, Iff.rfl⟩
  · have hw : w < 2 ^ 67 := hw.resolve_left hk
    intro n _
    obtain ⟨m, E, hm, m0, m1⟩ := mid_form b64 n
    rw [hm]
    unfold numOf denOf
    by_cases c : 0 ≤ e
    · simp only [if_pos c, Nat.one_mul]
      obtain ⟨g, -⟩ := pow5_apart (by omega) (by omega) hp (w := w) (m := m) (e.toNat + 948) E h0 hw m0 m1
      have e1 : ∀ z, 2 * (w * z * 2 ^ (e.toNat + 947)) = w * z * 2 ^ (e.toNat + 948) := by
        intro z
        rw [show e.toNat + 948 = e.toNat + 947 + 1 from rfl, Nat.pow_succ _ (e.toNat + 947)]
        generalize 2 ^ (e.toNat + 947) = u
        generalize w * z = v
        ac_rfl
      rw [e1, e1]
      generalize scaled p = S at *
      generalize 5 ^ e.natAbs * 2 ^ 127 = T at *
      generalize 2 ^ (e.toNat + 948) = A at *
      generalize m * 2 ^ E = B at *
      have mono : ∀ {a c : Nat}, a ≤ c → w * a * A ≤ w * c * A := fun h => Nat.mul_le_mul_right _ (Nat.mul_le_mul_left _ h)
      rcases Nat.le_total S T with h | h
      · rw [Nat.min_eq_left h, Nat.max_eq_right h] at g
        have := mono h
        omega
      · rw [Nat.min_eq_right h, Nat.max_eq_left h] at g
        have := mono h
        omega
    · simp only [if_neg c]
      obtain ⟨-, g⟩ := pow5_apart (by omega) (by omega) hp (w := w) (m := m) ((-e).toNat + E) 1202 h0 hw m0 m1
      have e1 : 2 * (w * 2 ^ 1201) = w * 2 ^ 1202 := by
        rw [show 1202 = 1201 + 1 from rfl, Nat.pow_succ _ 1201]
        generalize 2 ^ 1201 = u
        ac_rfl
      have e2 : ∀ z, z * 2 ^ (-e).toNat * (m * 2 ^ E) = m * z * 2 ^ ((-e).toNat + E) := by
        intro z
        rw [Nat.pow_add]; ac_rfl
      rw [e1, e2, e2]
      generalize scaled p = S at *
      generalize 5 ^ e.natAbs * 2 ^ 127 = T at *
      generalize w * 2 ^ 1202 = B at *
      generalize 2 ^ ((-e).toNat + E) = A at *
      have mono : ∀ {a c : Nat}, a ≤ c → m * a * A ≤ m * c * A := fun h => Nat.mul_le_mul_right _ (Nat.mul_le_mul_left _ h)
      rcases Nat.le_total S T with h | h
      · rw [Nat.min_eq_left h, Nat.max_eq_right h] at g
        have := mono h
        omega
      · rw [Nat.min_eq_right h, Nat.max_eq_left h] at g
        have := mono h
        omega

theorem ten_cross (w n : Nat) (a b c : Nat) (h : a + b = c) : w * 2 ^ c * 10 ^ n = w * 2 ^ a * (5 ^ n * 2 ^ b * 2 ^ n) := by
  rw [← h, Nat.pow_add, show (10 : Nat) = 5 * 2 from rfl, Nat.mul_pow]
  ac_rfl

theorem ten_cross' (w n : Nat) (a b c : Nat) (h : a + b = c) : w * 10 ^ n * 2 ^ c = w * (5 ^ n * 2 ^ b) * 2 ^ (n + a) := by
  rw [← h, Nat.pow_add, Nat.pow_add, show (10 : Nat) = 5 * 2 from rfl, Nat.mul_pow]
  ac_rfl

theorem same_ten (w : Nat) (e : Int) :
    Same b64 (numOf w e (5 ^ e.natAbs * 2 ^ 127)) (denOf e (5 ^ e.natAbs * 2 ^ 127)) (tenNum w e) (tenDen e) := by
  have hd : 0 < denOf e (5 ^ e.natAbs * 2 ^ 127) := by
    unfold denOf
    split
    · omega
    · exact Nat.mul_pos (Nat.mul_pos (Nat.pow_pos (by omega)) (Nat.two_pow_pos _)) (Nat.two_pow_pos _)
  refine same_of_eq hd (tenDen_pos e) ?_
  unfold numOf denOf tenNum tenDen
  by_cases c : 0 ≤ e
  · rw [if_pos c, if_pos c, show (-e).toNat = 0 by omega, Nat.pow_zero, Nat.mul_one, Nat.mul_one, show e.natAbs = e.toNat by omega]
    exact (ten_cross' w e.toNat 947 127 1074 rfl).symm
  · rw [if_neg c, if_neg c, show e.toNat = 0 by omega, Nat.pow_zero, Nat.mul_one, show e.natAbs = (-e).toNat by omega]
    exact ten_cross w (-e).toNat 1074 127 1201 rfl

/-- Decimals with few digits or small exponents are rounded to nearest. -/
theorem convert_plain {d : Dec} (ht : d.truncated = false) (hm : d.mant < 2 ^ 128) (hw : d.exp.natAbs ≤ 54 ∨ d.mant < 2 ^ 67) :
    ∃ r, decToDouble d = some r ∧ Nearest b64 (tenNum d.mant d.exp) (tenDen d.exp) r := by
  unfold decToDouble
  by_cases h0 : d.mant = 0
  · rw [if_pos h0]
    refine ⟨0, rfl, nearest_exact (tenDen_pos _) (Nat.zero_le _) ?_⟩
    unfold tenNum
    rw [h0, Nat.zero_mul, Nat.zero_mul, b64.mag_zero, Nat.mul_zero]
  rw [if_neg h0]
  by_cases h2 : 309 < d.exp
  · rw [if_pos h2]
    refine ⟨_, rfl, ?_⟩
    rw [show 0x7FF0000000000000 = b64.inf by decide]
    refine nearest_inf (tenDen_pos _) ?_
    unfold tenNum tenDen
    rw [show (-d.exp).toNat = 0 by omega, Nat.pow_zero, Nat.one_mul]
    refine Nat.le_trans ?_ (Nat.mul_le_mul_right _ (Nat.mul_le_mul (show 1 ≤ d.mant by omega)
      (Nat.pow_le_pow_right (by omega) (show 310 ≤ d.exp.toNat by omega))))
    decide +kernel
  rw [if_neg h2]
  by_cases h1 : d.exp < -380
  · rw [if_pos h1]
    refine ⟨0, rfl, nearest_lo (by decide) (by rw [b64.mag_zero, Nat.mul_zero]; omega) (Or.inl ?_)⟩
    rw [b64.mag_zero, show b64.mag (0 + 1) = 1 by decide, Nat.mul_zero, Nat.zero_add, Nat.mul_one]
    unfold tenNum tenDen
    rw [show d.exp.toNat = 0 by omega, Nat.pow_zero, Nat.mul_one]
    have k1 : d.mant * 2 ^ 1074 < 2 ^ 128 * 2 ^ 1074 := (Nat.mul_lt_mul_right (Nat.two_pow_pos _)).mpr hm
    have k2 : 10 ^ 381 ≤ 10 ^ (-d.exp).toNat := Nat.pow_le_pow_right (by omega) (by omega)
    have k3 : 2 * (2 ^ 128 * 2 ^ 1074) ≤ 10 ^ 381 := by decide +kernel
    generalize d.mant * 2 ^ 1074 = A at *
    generalize 2 ^ 128 * 2 ^ 1074 = B at *
    generalize 10 ^ (-d.exp).toNat = C at *
    generalize 10 ^ 381 = D at *
    omega
  rw [if_neg h1]
  obtain ⟨p, M, b, lost, x, y, hp, hs, m1, m2, hb, hxy⟩ := scale_eq (d := d) (by omega) hm (by omega) (by omega)
  have hd : 0 < denOf d.exp (scaled p) := by
    unfold denOf
    split
    · omega
    · obtain ⟨p', hp', q, -⟩ := pow5_some (k := d.exp.natAbs) (by omega)
      rw [hp] at hp'
      cases hp'
      exact Nat.mul_pos (Nat.mul_pos (by omega) (Nat.two_pow_pos _)) (Nat.two_pow_pos _)
  have hd5 : 0 < denOf d.exp (5 ^ d.exp.natAbs * 2 ^ 127) := by
    unfold denOf
    split
    · omega
    · exact Nat.mul_pos (Nat.mul_pos (Nat.pow_pos (by omega)) (Nat.two_pow_pos _)) (Nat.two_pow_pos _)
  rw [hs, Option.bind_some, ht, Bool.false_or]
  obtain ⟨r, hr, hn⟩ := assemble_plain ht hd m1 m2 hb hxy
  have h3 := (same_scaled hp (by omega) (by omega) (by omega) hw).nearest hd hd5 hn
  exact ⟨r, hr, (same_ten d.mant d.exp).nearest hd5 (tenDen_pos _) h3⟩

end Verif.Decimal
