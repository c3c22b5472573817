import Verif.Decimal.Pow5

/-! # Separation of decimals from midpoints at all scales -/

namespace Verif.Decimal

/-- A positive number can be brought to `n + 1` bits. -/
theorem normal (n : Nat) {w : Nat} (h0 : 0 < w) (h : w < 2 ^ (n + 1)) : ∃ i, 2 ^ n ≤ w * 2 ^ i ∧ w * 2 ^ i < 2 ^ (n + 1) := by
  have hl := Nat.log2_self_le (Nat.ne_of_gt h0)
  have hu := Nat.lt_log2_self (n := w)
  have hn : Nat.log2 w < n + 1 := (Nat.log2_lt (Nat.ne_of_gt h0)).mpr h
  refine ⟨n - Nat.log2 w, ?_, ?_⟩
  · calc 2 ^ n = 2 ^ Nat.log2 w * 2 ^ (n - Nat.log2 w) := by rw [← Nat.pow_add]; congr 1; omega
      _ ≤ _ := Nat.mul_le_mul_right _ hl
  · calc w * 2 ^ (n - Nat.log2 w) < 2 ^ (Nat.log2 w + 1) * 2 ^ (n - Nat.log2 w) := (Nat.mul_lt_mul_right (Nat.two_pow_pos _)).mpr hu
      _ = 2 ^ (n + 1) := by rw [← Nat.pow_add]; congr 1; omega

theorem exp_lt {a b : Nat} (h : 2 ^ a < 2 ^ b) : a < b := (Nat.pow_lt_pow_iff_right (by omega)).mp h

/-- `apart` for all scales. -/
theorem apart_all {S T L w m a b : Nat} (hS : 2 ^ L ≤ S) (hT : T < 2 ^ (L + 1)) (hL : 14 ≤ L)
    (h1 : apart S T (L + 13) (2 ^ 54) (2 ^ 67) = true) (h2 : apart S T (L + 14) (2 ^ 54) (2 ^ 67) = true)
    (h3 : apart S T (L - 13) (2 ^ 67) (2 ^ 54) = true) (h4 : apart S T (L - 12) (2 ^ 67) (2 ^ 54) = true)
    (hw0 : 0 < w) (hw : w < 2 ^ 67) (hm0 : 0 < m) (hm : m < 2 ^ 54) :
    ¬ (w * S * 2 ^ a ≤ m * 2 ^ b ∧ m * 2 ^ b ≤ w * T * 2 ^ a) ∧ ¬ (m * S * 2 ^ a ≤ w * 2 ^ b ∧ w * 2 ^ b ≤ m * T * 2 ^ a) := by
  obtain ⟨i, i1, i2⟩ := normal 66 hw0 hw
  obtain ⟨j, j1, j2⟩ := normal 53 hm0 hm
  constructor
  · rintro ⟨g1, g2⟩
    have e1 := Nat.mul_le_mul_right (2 ^ i * 2 ^ j) g1
    have e2 := Nat.mul_le_mul_right (2 ^ i * 2 ^ j) g2
    rw [show w * S * 2 ^ a * (2 ^ i * 2 ^ j) = (w * 2 ^ i) * S * 2 ^ (a + j) by rw [Nat.pow_add]; ac_rfl,
      show m * 2 ^ b * (2 ^ i * 2 ^ j) = (m * 2 ^ j) * 2 ^ (b + i) by rw [Nat.pow_add]; ac_rfl] at e1
    rw [show w * T * 2 ^ a * (2 ^ i * 2 ^ j) = (w * 2 ^ i) * T * 2 ^ (a + j) by rw [Nat.pow_add]; ac_rfl,
      show m * 2 ^ b * (2 ^ i * 2 ^ j) = (m * 2 ^ j) * 2 ^ (b + i) by rw [Nat.pow_add]; ac_rfl] at e2
    generalize w * 2 ^ i = w' at *
    generalize m * 2 ^ j = m' at *
    generalize a + j = A at *
    generalize b + i = B at *
    have hA := Nat.two_pow_pos A
    have hB := Nat.two_pow_pos B
    have u : 53 + B < 67 + (L + 1) + A := exp_lt (by
      calc 2 ^ (53 + B) = 2 ^ 53 * 2 ^ B := Nat.pow_add ..
        _ ≤ m' * 2 ^ B := Nat.mul_le_mul_right _ j1
        _ ≤ w' * T * 2 ^ A := e2
        _ < 2 ^ 67 * 2 ^ (L + 1) * 2 ^ A := by
          apply (Nat.mul_lt_mul_right hA).mpr
          exact Nat.lt_of_le_of_lt (Nat.mul_le_mul_right _ (Nat.le_of_lt i2)) ((Nat.mul_lt_mul_left (Nat.two_pow_pos _)).mpr hT)
        _ = _ := by rw [← Nat.pow_add, ← Nat.pow_add])
    have v : 66 + L + A < 54 + B := exp_lt (by
      calc 2 ^ (66 + L + A) = 2 ^ 66 * 2 ^ L * 2 ^ A := by rw [Nat.pow_add, Nat.pow_add]
        _ ≤ w' * S * 2 ^ A := Nat.mul_le_mul_right _ (Nat.mul_le_mul i1 hS)
        _ ≤ m' * 2 ^ B := e1
        _ < 2 ^ 54 * 2 ^ B := (Nat.mul_lt_mul_right hB).mpr j2
        _ = _ := (Nat.pow_add ..).symm)
    have fin : ∀ t, B = t + A → apart S T t (2 ^ 54) (2 ^ 67) = true → False := by
      intro t ht hap
      subst ht
      rw [Nat.pow_add, ← Nat.mul_assoc] at e1 e2
      refine apart_spec hap j2 i2 ?_ ?_ (Nat.lt_of_lt_of_le (Nat.two_pow_pos _) i1)
      · rw [Nat.mul_comm S]; exact Nat.le_of_mul_le_mul_right e1 hA
      · rw [Nat.mul_comm T]; exact Nat.le_of_mul_le_mul_right e2 hA
    rcases (by omega : B = L + 13 + A ∨ B = L + 14 + A) with h | h
    · exact fin _ h h1
    · exact fin _ h h2
  · rintro ⟨g1, g2⟩
    have e1 := Nat.mul_le_mul_right (2 ^ i * 2 ^ j) g1
    have e2 := Nat.mul_le_mul_right (2 ^ i * 2 ^ j) g2
    rw [show m * S * 2 ^ a * (2 ^ i * 2 ^ j) = (m * 2 ^ j) * S * 2 ^ (a + i) by rw [Nat.pow_add]; ac_rfl,
      show w * 2 ^ b * (2 ^ i * 2 ^ j) = (w * 2 ^ i) * 2 ^ (b + j) by rw [Nat.pow_add]; ac_rfl] at e1
    rw [show m * T * 2 ^ a * (2 ^ i * 2 ^ j) = (m * 2 ^ j) * T * 2 ^ (a + i) by rw [Nat.pow_add]; ac_rfl,
      show w * 2 ^ b * (2 ^ i * 2 ^ j) = (w * 2 ^ i) * 2 ^ (b + j) by rw [Nat.pow_add]; ac_rfl] at e2
    generalize w * 2 ^ i = w' at *
    generalize m * 2 ^ j = m' at *
    generalize a + i = A at *
    generalize b + j = B at *
    have hA := Nat.two_pow_pos A
    have hB := Nat.two_pow_pos B
    have u : 66 + B < 54 + (L + 1) + A := exp_lt (by
      calc 2 ^ (66 + B) = 2 ^ 66 * 2 ^ B := Nat.pow_add ..
        _ ≤ w' * 2 ^ B := Nat.mul_le_mul_right _ i1
        _ ≤ m' * T * 2 ^ A := e2
        _ < 2 ^ 54 * 2 ^ (L + 1) * 2 ^ A := by
          apply (Nat.mul_lt_mul_right hA).mpr
          exact Nat.lt_of_le_of_lt (Nat.mul_le_mul_right _ (Nat.le_of_lt j2)) ((Nat.mul_lt_mul_left (Nat.two_pow_pos _)).mpr hT)
        _ = _ := by rw [← Nat.pow_add, ← Nat.pow_add])
    have v : 53 + L + A < 67 + B := exp_lt (by
      calc 2 ^ (53 + L + A) = 2 ^ 53 * 2 ^ L * 2 ^ A := by rw [Nat.pow_add, Nat.pow_add]
        _ ≤ m' * S * 2 ^ A := Nat.mul_le_mul_right _ (Nat.mul_le_mul j1 hS)
        _ ≤ w' * 2 ^ B := e1
        _ < 2 ^ 67 * 2 ^ B := (Nat.mul_lt_mul_right hB).mpr i2
        _ = _ := (Nat.pow_add ..).symm)
    have fin : ∀ t, B = t + A → apart S T t (2 ^ 67) (2 ^ 54) = true → False := by
      intro t ht hap
      subst ht
      rw [Nat.pow_add, ← Nat.mul_assoc] at e1 e2
      refine apart_spec hap i2 j2 ?_ ?_ (Nat.lt_of_lt_of_le (Nat.two_pow_pos _) j1)
      · rw [Nat.mul_comm S]; exact Nat.le_of_mul_le_mul_right e1 hA
      · rw [Nat.mul_comm T]; exact Nat.le_of_mul_le_mul_right e2 hA
    rcases (by omega : B = L - 13 + A ∨ B = L - 12 + A) with h | h
    · exact fin _ h h3
    · exact fin _ h h4

/-- The power up to the factor 2^127, an approximation of `5^k * 2^127`. -/
def scaled (p : Nat × Int) : Nat := p.1 * 2 ^ (p.2 + 127).toNat

theorem pow5_some {k : Nat} (hk : k ≤ 380) : ∃ p, pow5 k = some p ∧ 2 ^ 127 ≤ p.1 ∧ p.1 < 2 ^ 128 ∧ -127 ≤ p.2 ∧ p.2 ≤ 800 := by
  have h := List.all_eq_true.mp goodPow_all k (List.mem_range.mpr (by omega))
  unfold goodPow at h
  cases hp : pow5 k with
  | none => rw [hp] at h; cases h
  | some p =>
    rw [hp] at h
    simp only [Bool.and_eq_true, decide_eq_true_eq] at h
    exact ⟨p, rfl, h.1⟩

theorem pow5_exact {k : Nat} (hk : k ≤ 54) {p : Nat × Int} (hp : pow5 k = some p) : scaled p = 5 ^ k * 2 ^ 127 := by
  have h := List.all_eq_true.mp goodPow_all k (List.mem_range.mpr (by omega))
  unfold goodPow at h
  rw [hp] at h
  simp only [Bool.and_eq_true, decide_eq_true_eq] at h
  rw [if_pos hk] at h
  exact of_decide_eq_true h.2

theorem pow5_apart {k : Nat} (hk : 54 < k) (hk' : k ≤ 380) {p : Nat × Int} (hp : pow5 k = some p) {w m : Nat} (a b : Nat)
    (hw0 : 0 < w) (hw : w < 2 ^ 67) (hm0 : 0 < m) (hm : m < 2 ^ 54) :
    ¬ (w * min (scaled p) (5 ^ k * 2 ^ 127) * 2 ^ a ≤ m * 2 ^ b ∧ m * 2 ^ b ≤ w * max (scaled p) (5 ^ k * 2 ^ 127) * 2 ^ a) ∧
    ¬ (m * min (scaled p) (5 ^ k * 2 ^ 127) * 2 ^ a ≤ w * 2 ^ b ∧ w * 2 ^ b ≤ m * max (scaled p) (5 ^ k * 2 ^ 127) * 2 ^ a) := by
  have h := List.all_eq_true.mp goodPow_all k (List.mem_range.mpr (by omega))
  unfold goodPow at h
  rw [hp] at h
  obtain ⟨P, e⟩ := p
  simp only [Bool.and_eq_true, decide_eq_true_eq] at h
  rw [if_neg (by omega)] at h
  simp only [Bool.and_eq_true, decide_eq_true_eq] at h
  obtain ⟨⟨hP1, hP2, -, -⟩, ⟨⟨⟨⟨he, -, hl1, hl2⟩, g1⟩, g2⟩, g3⟩, g4⟩ := h
  have u1 : 2 ^ (e.toNat + 127) ≤ P * 2 ^ e.toNat := by
    rw [Nat.pow_add, Nat.mul_comm]; exact Nat.mul_le_mul_right _ hP1
  have u2 : P * 2 ^ e.toNat < 2 ^ (e.toNat + 127 + 1) := by
    rw [Nat.add_assoc, Nat.pow_add, Nat.mul_comm (2 ^ e.toNat)]; exact (Nat.mul_lt_mul_right (Nat.two_pow_pos _)).mpr hP2
  have key := apart_all (S := min (P * 2 ^ e.toNat) (5 ^ k)) (T := max (P * 2 ^ e.toNat) (5 ^ k)) (L := e.toNat + 127)
    (w := w) (m := m) (a := a + 127) (b := b) (Nat.le_min.mpr ⟨u1, hl1⟩) (Nat.max_lt.mpr ⟨u2, hl2⟩) (by omega) g1 g2 g3 g4 hw0 hw hm0 hm
  have e1 : scaled (P, e) = P * 2 ^ e.toNat * 2 ^ 127 := by
    unfold scaled
    simp only
    rw [show (e + 127).toNat = e.toNat + 127 by omega, Nat.pow_add, Nat.mul_assoc]
  have f : ∀ u v, u * (v * 2 ^ 127) * 2 ^ a = u * v * 2 ^ (a + 127) := by intro u v; rw [Nat.pow_add]; ac_rfl
  have m1 : ∀ x y : Nat, min (x * 2 ^ 127) (y * 2 ^ 127) = min x y * 2 ^ 127 := by
    intro x y
    rcases Nat.le_total x y with h | h
    · rw [Nat.min_eq_left h, Nat.min_eq_left (Nat.mul_le_mul_right _ h)]
    · rw [Nat.min_eq_right h, Nat.min_eq_right (Nat.mul_le_mul_right _ h)]
  have m2 : ∀ x y : Nat, max (x * 2 ^ 127) (y * 2 ^ 127) = max x y * 2 ^ 127 := by
    intro x y
    rcases Nat.le_total x y with h | h
    · rw [Nat.max_eq_right h, Nat.max_eq_right (Nat.mul_le_mul_right _ h)]
    · rw [Nat.max_eq_left h, Nat.max_eq_left (Nat.mul_le_mul_right _ h)]
  rw [e1, m1, m2, f, f, f, f]
  exact key

end Verif.Decimal
