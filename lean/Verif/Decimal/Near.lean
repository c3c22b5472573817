import Verif.Float.Lemmas

/-! # Rounding to nearest decided by comparisons with the midpoints -/

namespace Verif.Decimal
open Verif.Float

variable {F : Fmt}

/-- Twice the midpoint after a pattern. -/
def mid (F : Fmt) (n : Nat) : Nat := F.mag n + F.mag (n + 1)

theorem nearest_iff {num den r : Nat} (hd : 0 < den) :
    Nearest F num den r ↔ r ≤ F.inf ∧
      (∀ n, n + 1 ≤ F.inf → n = r → 2 * num ≤ den * mid F n ∧ (2 * num = den * mid F n → r % 2 = 0)) ∧
      (∀ n, n + 1 ≤ F.inf → n + 1 = r → den * mid F n ≤ 2 * num ∧ (2 * num = den * mid F n → r % 2 = 0)) := by
  unfold mid
  constructor
  · intro h
    refine ⟨h.le, ?_, ?_⟩
    · rintro n hn rfl
      have b := h.best (n + 1) hn
      have e := h.even (n + 1) hn (by omega)
      have m := Nat.mul_lt_mul_of_pos_left (F.mag_strictMono (show n < n + 1 by omega)) hd
      rw [Nat.mul_add]
      unfold dist at b e
      constructor
      · omega
      · intro q; exact e (by omega)
    · rintro n hn rfl
      have b := h.best n (by omega)
      have e := h.even n (by omega) (by omega)
      have m := Nat.mul_lt_mul_of_pos_left (F.mag_strictMono (show n < n + 1 by omega)) hd
      rw [Nat.mul_add]
      unfold dist at b e
      constructor
      · omega
      · intro q; exact e (by omega)
  · rintro ⟨h0, h1, h2⟩
    rcases Nat.le_total (den * F.mag r) num with c | c
    · by_cases i : r = F.inf
      · rw [i] at c ⊢; exact nearest_inf hd c
      · have g := h1 r (by omega) rfl
        rw [Nat.mul_add] at g
        refine nearest_lo (by omega) c ?_
        rcases Nat.lt_or_eq_of_le g.1 with g1 | g1
        · exact Or.inl g1
        · exact Or.inr ⟨g1, g.2 g1⟩
    · by_cases z : r = 0
      · rw [z, F.mag_zero, Nat.mul_zero] at c
        rw [z]
        exact nearest_exact hd (Nat.zero_le _) (by rw [F.mag_zero]; omega)
      · obtain ⟨n, rfl⟩ : ∃ n, r = n + 1 := ⟨r - 1, by omega⟩
        have g := h2 n h0 rfl
        rw [Nat.mul_add] at g
        refine nearest_hi hd h0 c ?_
        rcases Nat.lt_or_eq_of_le g.1 with g1 | g1
        · exact Or.inl g1
        · exact Or.inr ⟨g1.symm, g.2 g1.symm⟩

/-- Two rationals on the same side of every midpoint. -/
def Same (F : Fmt) (num den num' den' : Nat) : Prop :=
  ∀ n, n + 1 ≤ F.inf → (2 * num ≤ den * mid F n ↔ 2 * num' ≤ den' * mid F n) ∧ (den * mid F n ≤ 2 * num ↔ den' * mid F n ≤ 2 * num')

theorem Same.nearest {num den num' den' r : Nat} (h : Same F num den num' den') (hd : 0 < den) (hd' : 0 < den')
    (hr : Nearest F num den r) : Nearest F num' den' r := by
  rw [nearest_iff hd] at hr
  rw [nearest_iff hd']
  obtain ⟨h0, h1, h2⟩ := hr
  refine ⟨h0, ?_, ?_⟩
  · intro n hn e
    have g := h1 n hn e
    have s := h n hn
    exact ⟨s.1.mp g.1, fun q => g.2 (Nat.le_antisymm g.1 (s.2.mpr (Nat.le_of_eq q.symm)))⟩
  · intro n hn e
    have g := h2 n hn e
    have s := h n hn
    exact ⟨s.2.mp g.1, fun q => g.2 (Nat.le_antisymm (s.1.mpr (Nat.le_of_eq q)) g.1)⟩

/-- Comparisons of equal fractions. -/
theorem cross_le {a b c d m : Nat} (hb : 0 < b) (hd : 0 < d) (h : a * d = c * b) : a ≤ b * m ↔ c ≤ d * m := by
  constructor
  · intro g
    have := Nat.mul_le_mul_right d g
    rw [h, show b * m * d = d * m * b by ac_rfl] at this
    exact Nat.le_of_mul_le_mul_right this hb
  · intro g
    have := Nat.mul_le_mul_right b g
    rw [← h, show d * m * b = b * m * d by ac_rfl] at this
    exact Nat.le_of_mul_le_mul_right this hd

theorem cross_ge {a b c d m : Nat} (hb : 0 < b) (hd : 0 < d) (h : a * d = c * b) : b * m ≤ a ↔ d * m ≤ c := by
  constructor
  · intro g
    have := Nat.mul_le_mul_right d g
    rw [h, show b * m * d = d * m * b by ac_rfl] at this
    exact Nat.le_of_mul_le_mul_right this hb
  · intro g
    have := Nat.mul_le_mul_right b g
    rw [← h, show d * m * b = b * m * d by ac_rfl] at this
    exact Nat.le_of_mul_le_mul_right this hd

theorem same_of_eq {num den num' den' : Nat} (hd : 0 < den) (hd' : 0 < den') (h : num * den' = num' * den) :
    Same F num den num' den' := by
  intro n _
  have e : 2 * num * den' = 2 * num' * den := by rw [Nat.mul_assoc, h, Nat.mul_assoc]
  exact ⟨cross_le hd hd' e, cross_ge hd hd' e⟩

/-- A midpoint is an odd number of at most `f + 2` bits times a power of two. -/
theorem mid_form (F : Fmt) (n : Nat) : ∃ m E, mid F n = m * 2 ^ E ∧ 0 < m ∧ m < 2 ^ (F.f + 2) := by
  unfold mid
  have e : 2 ^ (F.f + 2) = 4 * 2 ^ F.f := by rw [Nat.pow_add]; omega
  have hp := Nat.two_pow_pos F.f
  by_cases c : n < 2 ^ F.f
  · refine ⟨F.mag n + F.mag (n + 1), 0, by omega, ?_, ?_⟩
    · have := F.mag_strictMono (show n < n + 1 by omega); omega
    · rw [F.mag_succ, F.mag_small c]
      unfold Fmt.ulp
      rw [Nat.div_eq_of_lt c, e]
      simp only [Nat.zero_sub, Nat.pow_zero]
      omega
  · refine ⟨2 * (2 ^ F.f + n % 2 ^ F.f) + 1, n / 2 ^ F.f - 1, ?_, by omega, ?_⟩
    · rw [F.mag_succ, F.mag_normal (by omega)]
      unfold Fmt.ulp
      generalize 2 ^ F.f + n % 2 ^ F.f = u
      rw [Nat.add_mul, Nat.mul_assoc]
      omega
    · have := Nat.mod_lt n hp
      rw [e]; omega

end Verif.Decimal
