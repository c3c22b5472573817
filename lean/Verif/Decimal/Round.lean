import Verif.Decimal.Sep
import Verif.Float.Arith
import Verif.Int128.FloatModel
import Verif.Int128.Lemmas

/-! # Scaling and rounding of decimals -/

namespace Verif.Decimal
open Verif.Float Verif.Int128

theorem or_low {a b k : Nat} (h : b < 2 ^ k) : a * 2 ^ k ||| b = a * 2 ^ k + b := by
  rw [Nat.mul_comm]; exact (Nat.two_pow_add_eq_or_of_lt h a).symm

/-! ### Long division -/

theorem divGo_eq {lo d : Nat} (hd : d < 2 ^ 128) : ∀ (i q rem : Nat), i ≤ 128 → rem < d → q < 2 ^ (128 - i) →
    divGo lo d i q rem = (q * 2 ^ i + (rem * 2 ^ i + lo % 2 ^ i) / d, (rem * 2 ^ i + lo % 2 ^ i) % d)
  | 0, q, rem, _, hr, _ => by
    unfold divGo
    rw [Nat.pow_zero, Nat.mul_one, Nat.mul_one, Nat.mod_one, Nat.add_zero, Nat.div_eq_of_lt hr, Nat.mod_eq_of_lt hr, Nat.add_zero]
  | i + 1, q, rem, hi, hr, hq => by
    have hd0 : 0 < d := by omega
    have hb : lo / 2 ^ i % 2 < 2 ^ 1 := Nat.mod_lt _ (by decide)
    have hq2 : q * 2 + 1 < 2 ^ (128 - i) := by
      have : 2 ^ (128 - i) = 2 ^ (128 - (i + 1)) * 2 := by rw [← Nat.pow_succ]; congr 1; omega
      omega
    have hq3 : 2 ^ (128 - i) ≤ 2 ^ 128 := Nat.pow_le_pow_right (by omega) (by omega)
    have hlo : lo % 2 ^ (i + 1) = lo / 2 ^ i % 2 * 2 ^ i + lo % 2 ^ i := by
      rw [Nat.pow_succ, Nat.mod_mul, Nat.mul_comm (2 ^ i), Nat.add_comm]
    have hor : rem * 2 % 2 ^ 128 ||| lo / 2 ^ i % 2 = (rem * 2 + lo / 2 ^ i % 2) % 2 ^ 128 := by
      have : rem * 2 % 2 ^ 128 = rem % 2 ^ 127 * 2 ^ 1 := by omega
      rw [this, or_low hb]
      omega
    have hor2 : q * 2 % 2 ^ 128 ||| 1 = q * 2 + 1 := by
      rw [Nat.mod_eq_of_lt (by omega), show q * 2 = q * 2 ^ 1 from rfl, or_low (by decide)]
    unfold divGo
    simp only [hor, hor2]
    generalize lo / 2 ^ i % 2 = u at *
    have target : rem * 2 ^ (i + 1) + lo % 2 ^ (i + 1) = (rem * 2 + u) * 2 ^ i + lo % 2 ^ i := by
      rw [hlo, Nat.pow_succ, Nat.add_mul, Nat.mul_assoc, Nat.mul_comm (2 ^ i) 2]
      omega
    rw [target]
    by_cases c : d ≤ rem * 2 + u
    · have hc : rem / 2 ^ 127 ≠ 0 ∨ d ≤ (rem * 2 + u) % 2 ^ 128 := by omega
      rw [if_pos hc, show ((rem * 2 + u) % 2 ^ 128 + 2 ^ 128 - d) % 2 ^ 128 = rem * 2 + u - d by omega,
        divGo_eq hd i _ _ (by omega) (by omega) (by omega)]
      obtain ⟨v, hv⟩ : ∃ v, rem * 2 + u = d + v := ⟨rem * 2 + u - d, by omega⟩
      rw [hv, Nat.add_sub_cancel_left, Nat.add_mul d v, Nat.add_assoc (d * 2 ^ i), Nat.mul_add_mod, Nat.mul_add_div hd0]
      rw [Nat.pow_succ, show q * (2 ^ i * 2) = q * 2 * 2 ^ i by ac_rfl, Nat.add_mul, Nat.one_mul, Nat.add_assoc]
    · have hc : ¬ (rem / 2 ^ 127 ≠ 0 ∨ d ≤ (rem * 2 + u) % 2 ^ 128) := by omega
      rw [if_neg hc, Nat.mod_eq_of_lt (show q * 2 < 2 ^ 128 by omega), Nat.mod_eq_of_lt (show rem * 2 + u < 2 ^ 128 by omega),
        divGo_eq hd i _ _ (by omega) (by omega) (by omega)]
      rw [Nat.pow_succ, show q * (2 ^ i * 2) = q * 2 * 2 ^ i by ac_rfl]

theorem udiv_eq {hi lo d : Nat} (hd : d < 2 ^ 128) (h : hi < d) (hl : lo < 2 ^ 128) :
    udiv256by128 hi lo d = ((hi * 2 ^ 128 + lo) / d, (hi * 2 ^ 128 + lo) % d) := by
  unfold udiv256by128
  rw [divGo_eq hd 128 0 hi (Nat.le_refl _) h (by decide), Nat.mod_eq_of_lt hl, Nat.zero_mul, Nat.zero_add]

/-! ### Brackets -/

/-- `num / den` lies in `[M, M + 1) * 2^(x - y)`, at the lower end if and only if nothing was lost. -/
def Bracket (num den M x y : Nat) (lost : Bool) : Prop :=
  den * M * 2 ^ x ≤ num * 2 ^ y ∧ num * 2 ^ y < den * (M + 1) * 2 ^ x ∧ (lost = false ↔ num * 2 ^ y = den * M * 2 ^ x)

theorem Bracket.up {num den M x y : Nat} {lost : Bool} (h : Bracket num den M x y lost) (n : Nat) :
    Bracket num den M (x + n) (y + n) lost := by
  obtain ⟨h1, h2, h3⟩ := h
  have hn := Nat.two_pow_pos n
  unfold Bracket
  rw [Nat.pow_add, Nat.pow_add, ← Nat.mul_assoc, ← Nat.mul_assoc, ← Nat.mul_assoc]
  refine ⟨Nat.mul_le_mul_right _ h1, (Nat.mul_lt_mul_right hn).mpr h2, h3.trans ⟨fun e => by rw [e], fun e => Nat.eq_of_mul_eq_mul_right hn e⟩⟩

theorem Bracket.down {num den M x y n : Nat} {lost : Bool} (h : Bracket num den M (x + n) (y + n) lost) :
    Bracket num den M x y lost := by
  obtain ⟨h1, h2, h3⟩ := h
  have hn := Nat.two_pow_pos n
  rw [Nat.pow_add, Nat.pow_add, ← Nat.mul_assoc, ← Nat.mul_assoc] at h1 h3
  rw [Nat.pow_add, Nat.pow_add, ← Nat.mul_assoc, ← Nat.mul_assoc] at h2
  exact ⟨Nat.le_of_mul_le_mul_right h1 hn, Nat.lt_of_mul_lt_mul_right h2,
    h3.trans ⟨fun e => Nat.eq_of_mul_eq_mul_right hn e, fun e => by rw [e]⟩⟩

theorem Bracket.shift {num den M x y x' y' : Nat} {lost : Bool} (h : Bracket num den M x y lost) (he : x + y' = x' + y) :
    Bracket num den M x' y' lost := by
  have h2 := h.up y'
  rw [show x + y' = x' + y from he, show y + y' = y' + y from Nat.add_comm ..] at h2
  exact h2.down

/-- The number converted, relative to an approximation `s` of `5^k * 2^127`. -/
def numOf (mant : Nat) (e : Int) (s : Nat) : Nat := if 0 ≤ e then mant * s * 2 ^ (e.toNat + 947) else mant * 2 ^ 1201
def denOf (e : Int) (s : Nat) : Nat := if 0 ≤ e then 1 else s * 2 ^ (-e).toNat

theorem scale_eq {d : Dec} (h0 : 0 < d.mant) (hm : d.mant < 2 ^ 128) (h1 : -380 ≤ d.exp) (h2 : d.exp ≤ 309) :
    ∃ p M b lost x y, pow5 d.exp.natAbs = some p ∧ scale d = some (M, b, d.truncated || lost) ∧ 2 ^ 127 ≤ M ∧ M < 2 ^ 128 ∧
      Bracket (numOf d.mant d.exp (scaled p)) (denOf d.exp (scaled p)) M x y lost ∧ (x : Int) - y = b + 1074 := by
  obtain ⟨p, hp, p1, p2, p3, p4⟩ := pow5_some (k := d.exp.natAbs) (by omega)
  have hl := Nat.log2_self_le (Nat.ne_of_gt h0)
  have hu := Nat.lt_log2_self (n := d.mant)
  have hn : Nat.log2 d.mant < 128 := (Nat.log2_lt (Nat.ne_of_gt h0)).mpr hm
  have hlead : clz d.mant ≤ 127 := by unfold clz; omega
  have m1 : 2 ^ 127 ≤ d.mant * 2 ^ clz d.mant := by
    calc 2 ^ 127 = 2 ^ Nat.log2 d.mant * 2 ^ clz d.mant := by rw [← Nat.pow_add]; unfold clz; congr 1; omega
      _ ≤ _ := Nat.mul_le_mul_right _ hl
  have m2 : d.mant * 2 ^ clz d.mant < 2 ^ 128 := by
    calc d.mant * 2 ^ clz d.mant < 2 ^ (Nat.log2 d.mant + 1) * 2 ^ clz d.mant := (Nat.mul_lt_mul_right (Nat.two_pow_pos _)).mpr hu
      _ = 2 ^ 128 := by rw [← Nat.pow_add]; unfold clz; congr 1; omega
  unfold scale
  simp only
  rw [Nat.mod_eq_of_lt m2]
  obtain ⟨m, hmd⟩ : ∃ m, m = d.mant * 2 ^ clz d.mant := ⟨_, rfl⟩
  rw [← hmd] at m1 m2 ⊢
  by_cases c : 0 ≤ d.exp
  · rw [if_pos c, show d.exp.toNat = d.exp.natAbs by omega, hp, Option.bind_some, umulti4_eq m p.1 m2 p2]
    have hprod : 2 ^ 127 * 2 ^ 127 ≤ m * p.1 := Nat.mul_le_mul m1 p1
    have hprod2 : m * p.1 < 2 ^ 128 * 2 ^ 128 := Nat.mul_lt_mul'' m2 p2
    have fin : ∀ s : Nat, s ≤ 1 → 2 ^ 127 ≤ m * p.1 / 2 ^ (128 - s) → m * p.1 / 2 ^ (128 - s) < 2 ^ 128 →
        ∃ x y, Bracket (numOf d.mant d.exp (scaled p)) (denOf d.exp (scaled p)) (m * p.1 / 2 ^ (128 - s)) x y
            (decide (m * p.1 % 2 ^ (128 - s) ≠ 0)) ∧
          (x : Int) - y = -(clz d.mant : Int) + d.exp + (p.2 + 128 - (s : Int)) + 1074 := by
      intro s hs k1 k2
      refine ⟨128 - s + ((p.2 + 127).toNat + (d.exp.toNat + 947)), clz d.mant, ?_, by omega⟩
      have e1 : numOf d.mant d.exp (scaled p) * 2 ^ clz d.mant = m * p.1 * 2 ^ ((p.2 + 127).toNat + (d.exp.toNat + 947)) := by
        unfold numOf scaled
        rw [if_pos c, hmd, Nat.pow_add 2 (p.2 + 127).toNat]
        generalize 2 ^ (p.2 + 127).toNat = u
        generalize 2 ^ (d.exp.toNat + 947) = v
        generalize 2 ^ clz d.mant = w
        ac_rfl
      have e2 : denOf d.exp (scaled p) = 1 := by unfold denOf; rw [if_pos c]
      unfold Bracket
      rw [e1, e2, Nat.one_mul, Nat.one_mul, Nat.pow_add 2 (128 - s), ← Nat.mul_assoc, ← Nat.mul_assoc]
      have hN := Nat.two_pow_pos ((p.2 + 127).toNat + (d.exp.toNat + 947))
      have hS := Nat.two_pow_pos (128 - s)
      generalize 2 ^ ((p.2 + 127).toNat + (d.exp.toNat + 947)) = N at *
      have hdm := Nat.div_add_mod (m * p.1) (2 ^ (128 - s))
      have hlt := Nat.mod_lt (m * p.1) hS
      generalize m * p.1 = Z at *
      generalize 2 ^ (128 - s) = W at *
      refine ⟨Nat.mul_le_mul_right _ (Nat.div_mul_le_self ..), (Nat.mul_lt_mul_right hN).mpr ?_, ?_⟩
      · rw [Nat.add_mul, Nat.one_mul, Nat.mul_comm]; omega
      · rw [decide_eq_false_iff_not, Decidable.not_not]
        constructor
        · intro e; congr 1; rw [Nat.mul_comm]; omega
        · intro e
          have := Nat.eq_of_mul_eq_mul_right hN e
          rw [Nat.mul_comm] at this
          omega
    by_cases cs : m * p.1 / 2 ^ 128 / 2 ^ 127 = 0
    · have hb : bit (m * p.1 / 2 ^ 128 / 2 ^ 127 = 0) = 1 := if_pos cs
      obtain ⟨x, y, g1, g2⟩ := fin 1 (by omega) (by omega) (by omega)
      refine ⟨p, m * p.1 / 2 ^ 127, -(clz d.mant : Int) + d.exp + (p.2 + 128 - 1), decide (m * p.1 % 2 ^ 127 ≠ 0), x, y, rfl, ?_, by omega, by omega,
        g1, by have := g2; omega⟩
      simp only [hb]
      congr 2
      · rw [if_pos (by decide), show m * p.1 / 2 ^ 128 * 2 ^ 1 % 2 ^ 128 = m * p.1 / 2 ^ 128 * 2 ^ 1 by omega, or_low (by omega)]
        omega
      · congr 2
        have : m * p.1 % 2 ^ 128 % 2 ^ 127 = m * p.1 % 2 ^ 127 := by omega
        refine decide_eq_decide.mpr ?_
        rw [if_pos (by decide), this]
    · have hb : bit (m * p.1 / 2 ^ 128 / 2 ^ 127 = 0) = 0 := if_neg cs
      obtain ⟨x, y, g1, g2⟩ := fin 0 (by omega) (by omega) (by omega)
      refine ⟨p, m * p.1 / 2 ^ 128, -(clz d.mant : Int) + d.exp + (p.2 + 128 - 0), decide (m * p.1 % 2 ^ 128 ≠ 0), x, y, rfl, ?_, by omega, by omega,
        g1, by have := g2; omega⟩
      simp only [hb]
      congr 2
      · rw [if_neg (by decide), Nat.pow_zero, Nat.mul_one, Nat.mod_eq_of_lt (by omega), Nat.or_zero]
  · rw [if_neg c, show (-d.exp).toNat = d.exp.natAbs by omega, hp, Option.bind_some]
    have p0 : 0 < p.1 := by omega
    have fin : ∀ kk : Nat, 2 ^ 127 ≤ m * 2 ^ kk / p.1 → m * 2 ^ kk / p.1 < 2 ^ 128 →
        ∃ x y, Bracket (numOf d.mant d.exp (scaled p)) (denOf d.exp (scaled p)) (m * 2 ^ kk / p.1) x y
            (decide (m * 2 ^ kk % p.1 ≠ 0)) ∧
          (x : Int) - y = -(clz d.mant : Int) + d.exp - (p.2 + (kk : Int)) + 1074 := by
      intro kk k1 k2
      refine ⟨1201, clz d.mant + kk + (p.2 + 127).toNat + (-d.exp).toNat, ?_, by omega⟩
      have e1 : numOf d.mant d.exp (scaled p) * 2 ^ (clz d.mant + kk + (p.2 + 127).toNat + (-d.exp).toNat) =
          m * 2 ^ kk * (2 ^ (p.2 + 127).toNat * 2 ^ (-d.exp).toNat * 2 ^ 1201) := by
        unfold numOf
        rw [if_neg c, hmd, Nat.pow_add, Nat.pow_add, Nat.pow_add]
        generalize 2 ^ (p.2 + 127).toNat = u
        generalize 2 ^ (-d.exp).toNat = v
        generalize 2 ^ clz d.mant = w
        generalize 2 ^ 1201 = x
        ac_rfl
      have e2 : ∀ z, denOf d.exp (scaled p) * z * 2 ^ 1201 = p.1 * z * (2 ^ (p.2 + 127).toNat * 2 ^ (-d.exp).toNat * 2 ^ 1201) := by
        intro z
        unfold denOf scaled
        rw [if_neg c]
        generalize 2 ^ (p.2 + 127).toNat = u
        generalize 2 ^ (-d.exp).toNat = v
        generalize 2 ^ 1201 = x
        ac_rfl
      unfold Bracket
      rw [e1, e2, e2]
      have hN : 0 < 2 ^ (p.2 + 127).toNat * 2 ^ (-d.exp).toNat * 2 ^ 1201 :=
        Nat.mul_pos (Nat.mul_pos (Nat.two_pow_pos _) (Nat.two_pow_pos _)) (Nat.two_pow_pos _)
      generalize 2 ^ (p.2 + 127).toNat * 2 ^ (-d.exp).toNat * 2 ^ 1201 = N at *
      have hdm := Nat.div_add_mod (m * 2 ^ kk) p.1
      have hlt := Nat.mod_lt (m * 2 ^ kk) p0
      generalize m * 2 ^ kk = Z at *
      refine ⟨Nat.mul_le_mul_right _ (Nat.mul_div_le ..), (Nat.mul_lt_mul_right hN).mpr ?_, ?_⟩
      · rw [Nat.mul_add, Nat.mul_one]; omega
      · rw [decide_eq_false_iff_not, Decidable.not_not]
        constructor
        · intro e; congr 1; omega
        · intro e
          have := Nat.eq_of_mul_eq_mul_right hN e
          omega
    by_cases cs : m < p.1
    · rw [if_pos cs, if_pos rfl, udiv_eq p2 cs (by decide), Nat.add_zero]
      have q1 : 2 ^ 127 ≤ m * 2 ^ 128 / p.1 := (Nat.le_div_iff_mul_le p0).mpr (by omega)
      have q2 : m * 2 ^ 128 / p.1 < 2 ^ 128 := (Nat.div_lt_iff_lt_mul p0).mpr (by omega)
      obtain ⟨x, y, g1, g2⟩ := fin 128 q1 q2
      exact ⟨p, _, _, _, x, y, rfl, rfl, q1, q2, g1, g2⟩
    · rw [if_neg cs, if_neg (by decide), udiv_eq p2 (by omega) (Nat.mod_lt _ (by decide))]
      have em : m / 2 * 2 ^ 128 + m * 2 ^ 127 % 2 ^ 128 = m * 2 ^ 127 := by omega
      rw [em]
      have q1 : 2 ^ 127 ≤ m * 2 ^ 127 / p.1 := (Nat.le_div_iff_mul_le p0).mpr (by omega)
      have q2 : m * 2 ^ 127 / p.1 < 2 ^ 128 := (Nat.div_lt_iff_lt_mul p0).mpr (by omega)
      obtain ⟨x, y, g1, g2⟩ := fin 127 q1 q2
      exact ⟨p, _, _, _, x, y, rfl, rfl, q1, q2, g1, g2⟩

end Verif.Decimal
