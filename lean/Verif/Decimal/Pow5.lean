import Verif.Decimal.Model

/-!
# The table of powers of five

`pow5 k` is a truncation of `5^k` to 128 bits, exact up to 54.  Beyond, no fraction `m / w` or `w / m` with
`m < 2^54` and `w < 2^67`, scaled by any power of two, lies between the two.  This is checked for each `k` with a pair of
neighbours in the Farey sense: between `a / b` and `c / d` with `b * c = a * d + 1` there is no fraction of numerator less
than `a + c` or denominator less than `b + d`.
-/

namespace Verif.Decimal

theorem farey {a b c d p q : Nat} (h : b * c = a * d + 1) (h1 : a * q < p * b) (h2 : p * d < c * q) : a + c ≤ p ∧ b + d ≤ q := by
  obtain ⟨u, hu⟩ : ∃ u, p * b = a * q + (u + 1) := ⟨p * b - a * q - 1, by omega⟩
  obtain ⟨v, hv⟩ : ∃ v, c * q = p * d + (v + 1) := ⟨c * q - p * d - 1, by omega⟩
  constructor
  · have e1 : p * (b * c) = (p * b) * c := by rw [Nat.mul_assoc]
    have e2 : (a * q + (u + 1)) * c = a * (c * q) + (u + 1) * c := by
      rw [Nat.add_mul, Nat.mul_assoc, Nat.mul_comm q c]
    have e3 : p * (a * d + 1) = a * (p * d) + p := by
      rw [Nat.mul_add, Nat.mul_one, Nat.mul_left_comm]
    rw [h, e3, hu, e2, hv, Nat.mul_add, Nat.mul_add, Nat.add_mul] at e1
    have := Nat.zero_le (a * v)
    have := Nat.zero_le (u * c)
    omega
  · have e1 : q * (b * c) = b * (c * q) := by rw [Nat.mul_left_comm, Nat.mul_comm q c]
    have e2 : b * (p * d + (v + 1)) = (p * b) * d + b * (v + 1) := by
      rw [Nat.mul_add, ← Nat.mul_assoc, Nat.mul_comm b p]
    have e3 : q * (a * d + 1) = a * q * d + q := by
      rw [Nat.mul_add, Nat.mul_one, ← Nat.mul_assoc, Nat.mul_comm q a]
    rw [h, e3, hv, e2, hu, Nat.add_mul, Nat.mul_add, Nat.add_mul] at e1
    have := Nat.zero_le (b * v)
    have := Nat.zero_le (u * d)
    omega

/-- A search for neighbours `a / b < S / 2^t` and `T / 2^t < c / d`; its result is checked by `apart`. -/
def neighbours (S T t : Nat) : Nat → Nat → Nat → Nat → Nat → Nat × Nat × Nat × Nat
  | 0, a, b, c, d => (a, b, c, d)
  | n + 1, a, b, c, d =>
    let i := (S * b - a * 2 ^ t - 1) / (c * 2 ^ t - S * d)
    let a := a + i * c
    let b := b + i * d
    let j := (c * 2 ^ t - T * d - 1) / (T * b - a * 2 ^ t)
    if i = 0 ∧ j = 0 then (a, b, c, d) else neighbours S T t n a b (c + j * a) (d + j * b)

/-- No fraction `p / q` with `p < P` and `q < Q` lies in `[S / 2^t, T / 2^t]`. -/
def apart (S T t P Q : Nat) : Bool :=
  let r := neighbours S T t 100 0 1 1 0
  r.1 * 2 ^ t < S * r.2.1 ∧ T * r.2.2.2 < r.2.2.1 * 2 ^ t ∧ r.2.1 * r.2.2.1 = r.1 * r.2.2.2 + 1 ∧
    (P ≤ r.1 + r.2.2.1 ∨ Q ≤ r.2.1 + r.2.2.2)

theorem apart_spec {S T t P Q p q : Nat} (h : apart S T t P Q = true) (hp : p < P) (hq : q < Q)
    (h1 : S * q ≤ p * 2 ^ t) (h2 : p * 2 ^ t ≤ T * q) (hq0 : 0 < q) : False := by
  unfold apart at h
  simp only [decide_eq_true_eq] at h
  obtain ⟨g1, g2, g3, g4⟩ := h
  generalize neighbours S T t 100 0 1 1 0 = r at *
  obtain ⟨a, b, c, d⟩ := r
  simp only at *
  have hb : 0 < b := Nat.pos_of_ne_zero fun e => by subst e; omega
  have hp2 := Nat.two_pow_pos t
  have k1 : a * q < p * b := by
    apply Nat.lt_of_mul_lt_mul_right (a := 2 ^ t)
    have e1 := (Nat.mul_lt_mul_right hq0).mpr g1
    have e2 := Nat.mul_le_mul_right b h1
    rw [Nat.mul_right_comm] at e1
    rw [Nat.mul_right_comm S q b, Nat.mul_right_comm p] at e2
    omega
  have k2 : p * d < c * q := by
    apply Nat.lt_of_mul_lt_mul_right (a := 2 ^ t)
    have e1 := (Nat.mul_lt_mul_right hq0).mpr g2
    have e2 := Nat.mul_le_mul_right d h2
    rw [Nat.mul_right_comm c] at e1
    rw [Nat.mul_right_comm T q d, Nat.mul_right_comm p] at e2
    omega
  obtain ⟨f1, f2⟩ := farey g3 k1 k2
  omega

/-- The check for one power: a normalized significand; exact up to 54; beyond, accurate to one part in 2^125 with no
fraction in between. -/
def goodPow (k : Nat) : Bool :=
  match pow5 k with
  | none => false
  | some (P, e) =>
    decide (2 ^ 127 ≤ P ∧ P < 2 ^ 128 ∧ -127 ≤ e ∧ e ≤ 800) &&
    if k ≤ 54 then decide (P * 2 ^ (e + 127).toNat = 5 ^ k * 2 ^ 127)
    else
      let S := min (P * 2 ^ e.toNat) (5 ^ k)
      let T := max (P * 2 ^ e.toNat) (5 ^ k)
      let L := e.toNat + 127
      decide (0 ≤ e ∧ T * (2 ^ 125 - 1) ≤ S * 2 ^ 125 ∧ 2 ^ L ≤ 5 ^ k ∧ 5 ^ k < 2 ^ (L + 1)) &&
      apart S T (L + 13) (2 ^ 54) (2 ^ 67) && apart S T (L + 14) (2 ^ 54) (2 ^ 67) &&
      apart S T (L - 13) (2 ^ 67) (2 ^ 54) && apart S T (L - 12) (2 ^ 67) (2 ^ 54)

theorem goodPow_all : (List.range 381).all goodPow = true := by decide +kernel

end Verif.Decimal
