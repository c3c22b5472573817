import Verif.Int128.Lemmas

namespace Verif.Int128

theorem and64_of_lt (s : Nat) (h : s < 64) : s &&& 64 = 0 := by
  have : ∀ s < 64, s &&& 64 = 0 := by decide
  exact this s h

theorem and64_of_ge (s : Nat) (h : 64 ≤ s) (h' : s < 128) : s &&& 64 ≠ 0 ∧ s &&& 63 = s - 64 := by
  have : ∀ s < 128, 64 ≤ s → s &&& 64 ≠ 0 ∧ s &&& 63 = s - 64 := by decide
  exact this s h' h

/-- Splitting by `2^s * 2^(64-s) = 2^64`. -/
theorem pq (s : Nat) (h : s ≤ 64) : 2 ^ s * 2 ^ (64 - s) = 2 ^ 64 := by
  rw [← Nat.pow_add]; congr 1; omega

theorem ashlti3_eq (x s : Nat) (hx : x < 2 ^ 128) (hs : s < 128) : ashlti3 x s = x * 2 ^ s % 2 ^ 128 := by
  unfold ashlti3
  simp only [Nat.shiftRight_eq_div_pow]
  have hh : x / 2 ^ 64 % 2 ^ 64 = x / 2 ^ 64 := by omega
  rw [hh]
  by_cases h : 64 ≤ s
  · obtain ⟨h1, h2⟩ := and64_of_ge s h hs
    rw [if_pos h1, h2]
    obtain ⟨t, rfl⟩ : ∃ t, s = 64 + t := ⟨s - 64, by omega⟩
    rw [show 64 + t - 64 = t by omega, Nat.shiftLeft_eq, Nat.shiftLeft_eq, Nat.pow_add]
    have e : x * (2 ^ 64 * 2 ^ t) % 2 ^ 128 = (x % 2 ^ 64 * 2 ^ t % 2 ^ 64) * 2 ^ 64 := by
      rw [Nat.mod_mul_mod, ← Nat.mul_assoc, Nat.mul_right_comm, show (2 : Nat) ^ 128 = 2 ^ 64 * 2 ^ 64 from rfl,
        Nat.mul_mod_mul_right]
    rw [e, Nat.mod_eq_of_lt]
    have := Nat.mod_lt (x % 2 ^ 64 * 2 ^ t) (show 2 ^ 64 > 0 by decide)
    omega
  · rw [if_neg (by rw [and64_of_lt s (by omega)]; simp)]
    by_cases h0 : s = 0
    · subst h0; simp; omega
    · rw [if_pos h0]
      have hpq := pq s (by omega)
      have e1 : ((x / 2 ^ 64) <<< s % 2 ^ 64 ||| x % 2 ^ 64 / 2 ^ (64 - s)) =
          (x / 2 ^ 64 % 2 ^ (64 - s)) * 2 ^ s + x % 2 ^ 64 / 2 ^ (64 - s) := by
        have := shl_mod_or (x / 2 ^ 64) (x % 2 ^ 64 / 2 ^ (64 - s)) s (64 - s) (by
          rw [Nat.div_lt_iff_lt_mul (Nat.two_pow_pos _), hpq]; omega)
        rw [show s + (64 - s) = 64 by omega] at this
        exact this
      have e2 : (x % 2 ^ 64) <<< s % 2 ^ 64 = (x % 2 ^ 64 % 2 ^ (64 - s)) * 2 ^ s := by
        have := shl_mod (x % 2 ^ 64) s (64 - s)
        rw [show s + (64 - s) = 64 by omega] at this
        exact this
      rw [e1, e2]
      have hP := Nat.two_pow_pos s
      have hQ := Nat.two_pow_pos (64 - s)
      generalize 2 ^ s = P at *
      generalize 2 ^ (64 - s) = Q at *
      have ex : x = x / 2 ^ 64 * 2 ^ 64 + x % 2 ^ 64 := by omega
      have hl : x % 2 ^ 64 < 2 ^ 64 := by omega
      generalize x / 2 ^ 64 = hi at *
      generalize x % 2 ^ 64 = l at *
      have b1 : hi % Q * P + l / Q < 2 ^ 64 := by
        have q1 : hi % Q + 1 ≤ Q := Nat.mod_lt _ hQ
        have q2 : l / Q < P := by rw [Nat.div_lt_iff_lt_mul hQ, hpq]; exact hl
        have := Nat.mul_le_mul_right P q1
        rw [Nat.add_mul, Nat.one_mul, Nat.mul_comm Q, hpq] at this
        omega
      have b2 : l % Q * P < 2 ^ 64 := by
        have q1 : l % Q + 1 ≤ Q := Nat.mod_lt _ hQ
        have := Nat.mul_le_mul_right P q1
        rw [Nat.add_mul, Nat.one_mul, Nat.mul_comm Q, hpq] at this
        omega
      have e3 := shl_mod_or (hi % Q * P + l / Q) (l % Q * P) 64 64 b2
      rw [show (64 + 64 : Nat) = 128 from rfl, Nat.mod_eq_of_lt b1] at e3
      rw [e3, ex]
      have d1 := Nat.div_add_mod hi Q
      have d2 := Nat.div_add_mod l Q
      have key : (hi * 2 ^ 64 + l) * P = 2 ^ 128 * (hi / Q) + ((hi % Q * P + l / Q) * 2 ^ 64 + l % Q * P) := by
        have k1 : hi * P = 2 ^ 64 * (hi / Q) + hi % Q * P := by
          conv => lhs; rw [← d1]
          rw [Nat.add_mul, ← hpq]; grind
        have k2 : l * P = 2 ^ 64 * (l / Q) + l % Q * P := by
          conv => lhs; rw [← d2]
          rw [Nat.add_mul, ← hpq]; grind
        rw [Nat.add_mul, Nat.mul_right_comm, k1, k2]
        generalize hi % Q * P = u
        generalize l % Q * P = v
        omega
      have hlt : (hi % Q * P + l / Q) * 2 ^ 64 + l % Q * P < 2 ^ 128 := by
        clear key d1 d2 e3 ex
        generalize hi % Q * P + l / Q = u at *
        generalize l % Q * P = v at *
        omega
      rw [key, Nat.mul_add_mod, Nat.mod_eq_of_lt hlt]

theorem lshr_core (hi l P Q : Nat) (hpq : P * Q = 2 ^ 64) (hP : 0 < P) :
    (hi * 2 ^ 64 + l) / P = hi / P * 2 ^ 64 + (hi % P * Q + l / P) := by
  have d1 := Nat.div_add_mod hi P
  have : hi * 2 ^ 64 + l = P * (hi / P * 2 ^ 64 + hi % P * Q) + l := by
    conv => lhs; rw [← d1]
    rw [Nat.add_mul, Nat.mul_add, ← hpq]; grind
  rw [this, Nat.mul_add_div hP, Nat.add_assoc]

theorem low_or (hi l s : Nat) (hl : l < 2 ^ 64) (h : s ≤ 64) :
    (hi <<< (64 - s) % 2 ^ 64 ||| l / 2 ^ s) = hi % 2 ^ s * 2 ^ (64 - s) + l / 2 ^ s := by
  have := shl_mod_or hi (l / 2 ^ s) (64 - s) s (by
    rw [Nat.div_lt_iff_lt_mul (Nat.two_pow_pos _), Nat.mul_comm, pq s h]; omega)
  rw [show (64 - s) + s = 64 by omega] at this
  exact this

theorem low_lt (hi l P Q : Nat) (hpq : P * Q = 2 ^ 64) (hP : 0 < P) (hl : l < 2 ^ 64) :
    hi % P * Q + l / P < 2 ^ 64 := by
  have q1 : hi % P + 1 ≤ P := Nat.mod_lt _ hP
  have q2 : l / P < Q := by rw [Nat.div_lt_iff_lt_mul hP, Nat.mul_comm, hpq]; exact hl
  have := Nat.mul_le_mul_right Q q1
  rw [Nat.add_mul, Nat.one_mul, hpq] at this
  omega

theorem lshrti3_eq (x s : Nat) (hx : x < 2 ^ 128) (hs : s < 128) : lshrti3 x s = x / 2 ^ s := by
  unfold lshrti3
  simp only [Nat.shiftRight_eq_div_pow]
  have hh : x / 2 ^ 64 % 2 ^ 64 = x / 2 ^ 64 := by omega
  rw [hh]
  by_cases h : 64 ≤ s
  · obtain ⟨h1, h2⟩ := and64_of_ge s h hs
    rw [if_pos h1, h2, Nat.div_div_eq_div_mul, ← Nat.pow_add]
    congr 2; omega
  · rw [if_neg (by rw [and64_of_lt s (by omega)]; simp)]
    by_cases h0 : s = 0
    · subst h0; simp
    · rw [if_pos h0]
      have hpq := pq s (by omega)
      rw [low_or _ _ _ (by omega) (by omega)]
      have hP := Nat.two_pow_pos s
      generalize 2 ^ s = P at *
      generalize 2 ^ (64 - s) = Q at *
      have ex : x = x / 2 ^ 64 * 2 ^ 64 + x % 2 ^ 64 := by omega
      have hhi : x / 2 ^ 64 < 2 ^ 64 := by omega
      have hl : x % 2 ^ 64 < 2 ^ 64 := by omega
      generalize x / 2 ^ 64 = hi at *
      generalize x % 2 ^ 64 = l at *
      have hle : hi / P ≤ hi := Nat.div_le_self _ _
      have e3 := shl_mod_or (hi / P) (hi % P * Q + l / P) 64 64 (low_lt hi l P Q hpq hP hl)
      rw [show (64 + 64 : Nat) = 128 from rfl, Nat.mod_eq_of_lt (show hi / P < 2 ^ 64 by omega)] at e3
      rw [e3, ex, lshr_core hi l P Q hpq hP]

theorem compl_mod (h P Q : Nat) (hpq : P * Q = 2 ^ 64) (hP : 0 < P) (hh : h < 2 ^ 64) :
    (2 ^ 64 - 1 - h) / P = Q - 1 - h / P ∧ (2 ^ 64 - 1 - h) % P = P - 1 - h % P := by
  have d1 := Nat.div_add_mod h P
  have hm : h % P < P := Nat.mod_lt _ hP
  have hq : h / P < Q := by rw [Nat.div_lt_iff_lt_mul hP, Nat.mul_comm, hpq]; exact hh
  have key : 2 ^ 64 - 1 - h = P * (Q - 1 - h / P) + (P - 1 - h % P) := by
    have : P * (Q - 1 - h / P) = P * Q - P - P * (h / P) := by
      rw [Nat.mul_sub, Nat.mul_sub, Nat.mul_one]
    have hle : P * (h / P + 1) ≤ P * Q := Nat.mul_le_mul_left P hq
    rw [Nat.mul_add, Nat.mul_one] at hle
    rw [this, ← hpq]
    generalize P * (h / P) = z at *
    generalize P * Q = w at *
    omega
  have hlt : P - 1 - h % P < P := by omega
  refine ⟨?_, ?_⟩
  · rw [key, Nat.mul_add_div hP, Nat.div_eq_of_lt hlt, Nat.add_zero]
  · rw [key, Nat.mul_add_mod, Nat.mod_eq_of_lt hlt]

theorem ashrti3_pos (x s : Nat) (hx : x < 2 ^ 127) (hs : s < 128) : ashrti3 x s = x / 2 ^ s := by
  rw [← lshrti3_eq x s (by omega) hs]
  unfold ashrti3 lshrti3
  simp only [Nat.shiftRight_eq_div_pow]
  have hh : x / 2 ^ 64 % 2 ^ 64 < 2 ^ 63 := by omega
  generalize x / 2 ^ 64 % 2 ^ 64 = hi at *
  have hsar : ∀ k, sar64 hi k = hi / 2 ^ k ∧ sext (sar64 hi k) = hi / 2 ^ k := by
    intro k
    have h1 : sar64 hi k = hi / 2 ^ k := by unfold sar64; rw [if_pos hh, Nat.shiftRight_eq_div_pow]
    have h2 : hi / 2 ^ k ≤ hi := Nat.div_le_self _ _
    exact ⟨h1, by rw [h1]; unfold sext; rw [if_pos (by omega)]⟩
  simp only [(hsar _).2]

theorem ashrti3_neg (x s : Nat) (hx : 2 ^ 127 ≤ x) (hx' : x < 2 ^ 128) (hs : s < 128) :
    ashrti3 x s = 2 ^ 128 - 1 - (2 ^ 128 - 1 - x) / 2 ^ s := by
  unfold ashrti3
  simp only [Nat.shiftRight_eq_div_pow]
  have hh : x / 2 ^ 64 % 2 ^ 64 = x / 2 ^ 64 := by omega
  rw [hh]
  have hsar : ∀ k, sar64 (x / 2 ^ 64) k = 2 ^ 64 - 1 - (2 ^ 64 - 1 - x / 2 ^ 64) / 2 ^ k ∧
      sext (sar64 (x / 2 ^ 64) k) = 2 ^ 128 - 1 - (2 ^ 64 - 1 - x / 2 ^ 64) / 2 ^ k := by
    intro k
    have h1 : sar64 (x / 2 ^ 64) k = 2 ^ 64 - 1 - (2 ^ 64 - 1 - x / 2 ^ 64) / 2 ^ k := by
      unfold sar64; rw [if_neg (by omega), Nat.shiftRight_eq_div_pow]
    have h2 : (2 ^ 64 - 1 - x / 2 ^ 64) / 2 ^ k ≤ 2 ^ 64 - 1 - x / 2 ^ 64 := Nat.div_le_self _ _
    refine ⟨h1, ?_⟩
    rw [h1]; unfold sext
    generalize (2 ^ 64 - 1 - x / 2 ^ 64) / 2 ^ k = z at *
    rw [if_neg (by omega)]
    omega
  by_cases h : 64 ≤ s
  · obtain ⟨h1, h2⟩ := and64_of_ge s h hs
    rw [if_pos h1, h2, (hsar _).2]
    obtain ⟨t, rfl⟩ : ∃ t, s = 64 + t := ⟨s - 64, by omega⟩
    rw [show 64 + t - 64 = t by omega, Nat.pow_add, ← Nat.div_div_eq_div_mul]
    congr 3
    omega
  · rw [if_neg (by rw [and64_of_lt s (by omega)]; simp)]
    by_cases h0 : s = 0
    · subst h0; simp; omega
    · rw [if_pos h0, (hsar _).2]
      have hpq := pq s (by omega)
      rw [low_or _ _ _ (by omega) (by omega)]
      clear hsar
      have hP := Nat.two_pow_pos s
      generalize 2 ^ s = P at *
      generalize 2 ^ (64 - s) = Q at *
      have ex : 2 ^ 128 - 1 - x = (2 ^ 64 - 1 - x / 2 ^ 64) * 2 ^ 64 + (2 ^ 64 - 1 - x % 2 ^ 64) := by omega
      have hhi : x / 2 ^ 64 < 2 ^ 64 := by omega
      have hl : x % 2 ^ 64 < 2 ^ 64 := by omega
      rw [ex]
      generalize x / 2 ^ 64 = hi at *
      generalize x % 2 ^ 64 = l at *
      rw [lshr_core _ _ P Q hpq hP]
      have c1 := compl_mod hi P Q hpq hP hhi
      have c2 := compl_mod l P Q hpq hP hl
      have hle : (2 ^ 64 - 1 - hi) / P ≤ 2 ^ 64 - 1 - hi := Nat.div_le_self _ _
      have lowlt := low_lt hi l P Q hpq hP hl
      have lowlt2 := low_lt (2 ^ 64 - 1 - hi) (2 ^ 64 - 1 - l) P Q hpq hP (by omega)
      have hsum : hi % P * Q + l / P + ((2 ^ 64 - 1 - hi) % P * Q + (2 ^ 64 - 1 - l) / P) = 2 ^ 64 - 1 := by
        rw [c1.2, c2.1]
        have hm : hi % P < P := Nat.mod_lt _ hP
        have hq : l / P < Q := by rw [Nat.div_lt_iff_lt_mul hP, Nat.mul_comm, hpq]; exact hl
        have e : (P - 1 - hi % P) * Q = P * Q - Q - hi % P * Q := by
          rw [Nat.sub_mul, Nat.sub_mul, Nat.one_mul]
        have hle2 : (hi % P + 1) * Q ≤ P * Q := Nat.mul_le_mul_right Q hm
        rw [Nat.add_mul, Nat.one_mul] at hle2
        rw [e, hpq]
        rw [hpq] at hle2
        generalize hi % P * Q = z at *
        omega
      have e3 := shl_mod_or (2 ^ 128 - 1 - (2 ^ 64 - 1 - hi) / P) (hi % P * Q + l / P) 64 64 lowlt
      rw [show (64 + 64 : Nat) = 128 from rfl] at e3
      rw [e3]
      generalize hi % P * Q + l / P = z at *
      generalize (2 ^ 64 - 1 - hi) % P * Q + (2 ^ 64 - 1 - l) / P = z' at *
      generalize (2 ^ 64 - 1 - hi) / P = y at *
      omega

end Verif.Int128
