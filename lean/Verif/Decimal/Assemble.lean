import Verif.Decimal.Model
import Verif.Decimal.Round
import Verif.Decimal.Near
import Verif.Bits

/-! # From the 128-bit significand to the pattern (scientific.h:89-133) -/

namespace Verif.Decimal
open Verif.Float

/-- The position of the significand `M * 2^b`: the exponent field less one of the result and the bits dropped. -/
def expOf (b : Int) : Nat := (b + 1149).toNat
def shiftOf (b : Int) : Nat := if 1 ≤ b + 1150 then 75 else (-(b + 1074)).toNat

/-- The pattern below the number. -/
def low (M : Nat) (b : Int) : Nat := expOf b * 2 ^ 52 + M / 2 ^ shiftOf b

/-- The decision of scientific.h:115-119. -/
def goUp (d : Dec) (M : Nat) (b : Int) (lost : Bool) : Option Bool :=
  if M / 2 ^ (shiftOf b - 1) % 2 = 1 then
    if d.truncated = true then
      (halfway d (2 * (M / 2 ^ shiftOf b) + 1) (shiftOf b + b - 1)).bind fun cmp =>
        some (decide (0 < cmp) || decide (cmp = 0 ∧ M / 2 ^ shiftOf b % 2 = 1))
    else some (decide (M % 2 ^ (shiftOf b - 1) ≠ 0) || lost || decide (M / 2 ^ shiftOf b % 2 = 1))
  else some false

/-- scientific.h:121-133. -/
theorem pack_eq {b : Int} {r : Nat} (h1 : 0 ≤ b + 1149 → 2 ^ 52 ≤ r ∧ r ≤ 2 ^ 53) (h2 : b + 1149 < 0 → r ≤ 2 ^ 52) :
    (if 2047 ≤ (if r / 2 ^ 53 ≠ 0 then (b + 127 + 1023).toNat + 1
          else if r / 2 ^ 52 ≠ 0 ∧ (b + 127 + 1023).toNat = 0 then 1 else (b + 127 + 1023).toNat) then 0x7FF0000000000000
      else (if r / 2 ^ 53 ≠ 0 then (b + 127 + 1023).toNat + 1
          else if r / 2 ^ 52 ≠ 0 ∧ (b + 127 + 1023).toNat = 0 then 1 else (b + 127 + 1023).toNat) * 2 ^ 52 |||
        (if r / 2 ^ 53 ≠ 0 then r / 2 else r) % 2 ^ 52) = min (expOf b * 2 ^ 52 + r) b64.inf := by
  have hor : ∀ a c : Nat, c < 2 ^ 52 → a * 2 ^ 52 ||| c = a * 2 ^ 52 + c := fun a c h => or_low h
  rw [show b64.inf = 2047 * 2 ^ 52 by decide, hor _ _ (Nat.mod_lt _ (by decide))]
  unfold expOf
  by_cases c1 : r / 2 ^ 53 ≠ 0
  · simp only [if_pos c1]
    split <;> omega
  · simp only [if_neg c1]
    by_cases c2 : r / 2 ^ 52 ≠ 0 ∧ (b + 127 + 1023).toNat = 0
    · simp only [if_pos c2]
      split <;> omega
    · simp only [if_neg c2]
      split <;> omega

theorem low_bound {M : Nat} (b : Int) (m1 : 2 ^ 127 ≤ M) (m2 : M < 2 ^ 128) :
    (0 ≤ b + 1149 → 2 ^ 52 ≤ M / 2 ^ shiftOf b ∧ M / 2 ^ shiftOf b < 2 ^ 53) ∧
    (b + 1149 < 0 → M / 2 ^ shiftOf b < 2 ^ 52) := by
  unfold shiftOf
  constructor
  · intro h
    rw [if_pos (by omega)]
    omega
  · intro h
    rw [if_neg (by omega), Nat.div_lt_iff_lt_mul (Nat.two_pow_pos _), ← Nat.pow_add]
    exact Nat.lt_of_lt_of_le m2 (Nat.pow_le_pow_right (by omega) (by omega))

theorem assemble_eq (d : Dec) {M : Nat} (b : Int) (lost : Bool) (m1 : 2 ^ 127 ≤ M) (m2 : M < 2 ^ 128) :
    assemble d M b lost = (goUp d M b lost).bind fun up => some (min (low M b + bit (up = true)) b64.inf) := by
  have hs : (if 1 ≤ b + 127 + 1023 then 75 else (75 + 1 - (b + 127 + 1023)).toNat) = shiftOf b := by
    unfold shiftOf
    split
    · rw [if_pos (by omega)]
    · rw [if_neg (by omega)]; omega
  have hs75 : 75 ≤ shiftOf b := by unfold shiftOf; split <;> omega
  have hb := low_bound b m1 m2
  unfold assemble
  simp only [hs]
  have hres : (if 128 ≤ shiftOf b then 0 else M / 2 ^ shiftOf b) = M / 2 ^ shiftOf b := by
    split
    · rename_i c
      exact (Nat.div_eq_of_lt (Nat.lt_of_lt_of_le m2 (Nat.pow_le_pow_right (by omega) c))).symm
    · rfl
  have hround : (if 128 ≤ shiftOf b then decide (shiftOf b = 128 ∧ M / 2 ^ 127 ≠ 0) else decide (M / 2 ^ (shiftOf b - 1) % 2 = 1)) =
      decide (M / 2 ^ (shiftOf b - 1) % 2 = 1) := by
    split
    · rename_i c
      refine decide_eq_decide.mpr ?_
      rcases Nat.lt_or_eq_of_le c with c | c
      · rw [Nat.div_eq_of_lt (Nat.lt_of_lt_of_le m2 (Nat.pow_le_pow_right (by omega) (show 128 ≤ shiftOf b - 1 by omega)))]
        omega
      · rw [← c]; omega
    · rfl
  have hsticky : (if 128 ≤ shiftOf b then if shiftOf b = 128 then decide (M % 2 ^ 127 ≠ 0) else decide (M ≠ 0)
      else decide (M % 2 ^ (shiftOf b - 1) ≠ 0)) = decide (M % 2 ^ (shiftOf b - 1) ≠ 0) := by
    split
    · rename_i c
      split
      · rename_i c2; rw [c2]
      · rw [Nat.mod_eq_of_lt (Nat.lt_of_lt_of_le m2 (Nat.pow_le_pow_right (by omega) (show 128 ≤ shiftOf b - 1 by omega)))]
    · rfl
  rw [hres]
  simp only [hround, hsticky]
  unfold goUp
  have hpack : ∀ up : Bool, _ := fun up => pack_eq (b := b) (r := if up = true then M / 2 ^ shiftOf b + 1 else M / 2 ^ shiftOf b)
    (by intro h; have := hb.1 h; split <;> omega) (by intro h; have := hb.2 h; split <;> omega)
  simp only [hpack]
  have hlow : ∀ up : Bool, expOf b * 2 ^ 52 + (if up = true then M / 2 ^ shiftOf b + 1 else M / 2 ^ shiftOf b) =
      low M b + bit (up = true) := by
    intro up
    unfold low bit
    split <;> omega
  simp only [hlow]
  by_cases c : M / 2 ^ (shiftOf b - 1) % 2 = 1
  · rw [if_pos c, decide_eq_true c, Bool.true_and, Bool.true_and]
  · rw [if_neg c, decide_eq_false c, Bool.false_and, Bool.false_and, if_neg Bool.false_ne_true]

theorem mag_low {E r : Nat} (h1 : 1 ≤ E → 2 ^ 52 ≤ r) (h2 : r ≤ 2 ^ 53) : b64.mag (E * 2 ^ 52 + r) = r * 2 ^ E := by
  rcases Nat.lt_or_ge r (2 ^ 52) with c | c
  · have : E = 0 := by omega
    rw [this, Nat.zero_mul, Nat.zero_add, b64.mag_small c, Nat.pow_zero, Nat.mul_one]
  · rcases Nat.lt_or_eq_of_le h2 with g | g
    · have := b64.mag_mk (E + 1) r (by omega) c g
      rw [show b64.f = 52 from rfl, Nat.add_sub_cancel] at this
      rw [← this, show (E + 1) * 2 ^ 52 + (r - 2 ^ 52) = E * 2 ^ 52 + r by omega]
    · have := b64.mag_mk (E + 2) (2 ^ 52) (by omega) (Nat.le_refl _) (by decide)
      rw [show b64.f = 52 from rfl, show E + 2 - 1 = E + 1 by omega] at this
      rw [g, show 2 ^ 53 * 2 ^ E = 2 ^ 52 * 2 ^ (E + 1) by rw [Nat.pow_succ 2 E]; generalize 2 ^ E = z; omega, ← this,
        show (E + 2) * 2 ^ 52 + (2 ^ 52 - 2 ^ 52) = E * 2 ^ 52 + 2 ^ 53 by omega]

/-- Rounding up or down from the pattern below, decided by a comparison with the midpoint. -/
theorem nearest_low {num den M : Nat} {b : Int} (up : Bool) (hd : 0 < den) (m1 : 2 ^ 127 ≤ M) (m2 : M < 2 ^ 128)
    (l1 : den * (M / 2 ^ shiftOf b * 2 ^ expOf b) ≤ num) (l2 : num ≤ den * ((M / 2 ^ shiftOf b + 1) * 2 ^ expOf b))
    (u1 : up = false → 2 * num < den * ((2 * (M / 2 ^ shiftOf b) + 1) * 2 ^ expOf b) ∨
      2 * num = den * ((2 * (M / 2 ^ shiftOf b) + 1) * 2 ^ expOf b) ∧ M / 2 ^ shiftOf b % 2 = 0)
    (u2 : up = true → den * ((2 * (M / 2 ^ shiftOf b) + 1) * 2 ^ expOf b) < 2 * num ∨
      2 * num = den * ((2 * (M / 2 ^ shiftOf b) + 1) * 2 ^ expOf b) ∧ M / 2 ^ shiftOf b % 2 = 1) :
    Nearest b64 num den (min (low M b + bit (up = true)) b64.inf) := by
  have hb := low_bound b m1 m2
  have hinf : b64.inf = 2047 * 2 ^ 52 := by decide
  have r1 : 1 ≤ expOf b → 2 ^ 52 ≤ M / 2 ^ shiftOf b := by unfold expOf; omega
  have r2 : M / 2 ^ shiftOf b < 2 ^ 53 := by omega
  unfold low
  generalize M / 2 ^ shiftOf b = r at *
  generalize expOf b = E at *
  have e0 := mag_low r1 (by omega)
  have e1 := mag_low (E := E) (r := r + 1) (by omega) (by omega)
  rw [← Nat.add_assoc] at e1
  by_cases c : 2046 ≤ E
  · rw [Nat.min_eq_right (by omega)]
    refine nearest_inf hd (Nat.le_trans (Nat.mul_le_mul_left _ ?_) l1)
    rw [← e0]
    exact b64.mag_mono (by omega)
  · have hm : den * ((2 * r + 1) * 2 ^ E) = den * b64.mag (E * 2 ^ 52 + r) + den * b64.mag (E * 2 ^ 52 + r + 1) := by
      rw [e0, e1, ← Nat.mul_add, ← Nat.add_mul]
      congr 2
      omega
    rw [hm] at u1 u2
    rw [← e0] at l1
    rw [← e1] at l2
    cases up with
    | false =>
      rw [show bit (false = true) = 0 from rfl, Nat.add_zero, Nat.min_eq_left (by omega)]
      refine nearest_lo (by omega) l1 ?_
      rcases u1 rfl with g | g
      · exact Or.inl g
      · exact Or.inr ⟨g.1, by omega⟩
    | true =>
      rw [show bit (true = true) = 1 from rfl, Nat.min_eq_left (by omega)]
      refine nearest_hi hd (by omega) l2 ?_
      rcases u2 rfl with g | g
      · exact Or.inl g
      · exact Or.inr ⟨g.1, by omega⟩

/-- The bracket relative to the pattern below. -/
theorem Bracket.bounds {num den M E K : Nat} {lost : Bool} {s : Nat} (hs : 2 ^ s = 2 * K) (h : Bracket num den M E s lost) :
    den * (M / 2 ^ s * 2 ^ E) ≤ num ∧ num ≤ den * ((M / 2 ^ s + 1) * 2 ^ E) ∧
    (M / K % 2 = 0 → 2 * num < den * ((2 * (M / 2 ^ s) + 1) * 2 ^ E)) ∧
    (M / K % 2 = 1 → (M % K ≠ 0 ∨ lost = true) → den * ((2 * (M / 2 ^ s) + 1) * 2 ^ E) < 2 * num) ∧
    (M / K % 2 = 1 → M % K = 0 → lost = false → 2 * num = den * ((2 * (M / 2 ^ s) + 1) * 2 ^ E)) := by
  obtain ⟨h1, h2, h3⟩ := h
  have hK : 0 < K := by
    have := Nat.two_pow_pos s
    omega
  rw [hs] at *
  have e1 : M = M / (2 * K) * (2 * K) + M / K % 2 * K + M % K := by
    have := Nat.div_add_mod M K
    have q := Nat.div_add_mod (M / K) 2
    rw [Nat.div_div_eq_div_mul, Nat.mul_comm K 2] at q
    have q2 : M / K * K = M / (2 * K) * (2 * K) + M / K % 2 * K := by
      conv => lhs; rw [← q]
      rw [Nat.add_mul]; congr 1; ac_rfl
    rw [← q2, Nat.mul_comm (M / K)]; exact this.symm
  have hst := Nat.mod_lt M hK
  have hrb : M / K % 2 < 2 := Nat.mod_lt _ (by omega)
  generalize M / (2 * K) = r at *
  generalize M / K % 2 = rb at *
  generalize M % K = st at *
  have eU : ∀ z, den * (z * 2 ^ E) = z * (den * 2 ^ E) := by intro z; ac_rfl
  have eV : ∀ z, den * z * 2 ^ E = z * (den * 2 ^ E) := by intro z; ac_rfl
  rw [eV] at h1 h2 h3
  rw [eU, eU, eU]
  generalize den * 2 ^ E = U at *
  have key : ∀ {a c : Nat}, a * K ≤ c * K → a ≤ c := fun h => Nat.le_of_mul_le_mul_right h hK
  have keyl : ∀ {a c : Nat}, a * K < c * K → a < c := fun h => Nat.lt_of_mul_lt_mul_right h
  have mono : ∀ {a c : Nat}, a ≤ c → a * U ≤ c * U := fun h => Nat.mul_le_mul_right _ h
  have n2 : 2 * num * K = num * (2 * K) := by ac_rfl
  have m2 : (2 * r + 1) * U * K = (r * (2 * K) + K) * U := by
    rw [show (2 * r + 1) * U * K = ((2 * r + 1) * K) * U by ac_rfl, Nat.add_mul (2 * r), Nat.one_mul]
    congr 2; ac_rfl
  refine ⟨?_, ?_, ?_, ?_, ?_⟩
  · refine Nat.le_of_mul_le_mul_right (Nat.le_trans ?_ h1) (show 0 < 2 * K by omega)
    rw [show r * U * (2 * K) = r * (2 * K) * U by ac_rfl]
    exact mono (by omega)
  · refine Nat.le_of_mul_le_mul_right (Nat.le_trans (Nat.le_of_lt h2) ?_) (show 0 < 2 * K by omega)
    rw [show (r + 1) * U * (2 * K) = (r + 1) * (2 * K) * U by ac_rfl]
    refine mono ?_
    rw [Nat.add_mul r, Nat.one_mul]
    have : rb * K ≤ 1 * K := Nat.mul_le_mul_right _ (by omega)
    omega
  · intro z
    rw [z, Nat.zero_mul, Nat.add_zero] at e1
    apply keyl
    rw [n2, m2]
    exact Nat.lt_of_lt_of_le h2 (mono (by omega))
  · intro z g
    rw [z, Nat.one_mul] at e1
    apply keyl
    rw [n2, m2]
    have hU : 0 < U := by
      rcases Nat.eq_zero_or_pos U with q | q
      · rw [q] at h2; omega
      · exact q
    by_cases gs : st = 0
    · have hl : lost = true := g.resolve_left fun h => h gs
      have : M * U ≤ num * (2 * K) := h1
      have ne : num * (2 * K) ≠ M * U := fun q => by have := h3.mpr q; rw [hl] at this; cases this
      rw [show r * (2 * K) + K = M by omega]
      omega
    · exact Nat.lt_of_lt_of_le ((Nat.mul_lt_mul_right hU).mpr (by omega)) h1
  · intro z g l
    rw [z, Nat.one_mul] at e1
    apply Nat.eq_of_mul_eq_mul_right hK
    rw [n2, m2, h3.mp l]
    congr 1
    omega

end Verif.Decimal
