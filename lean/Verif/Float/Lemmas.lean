import Verif.Bits
import Verif.Float.Spec

namespace Verif.Float

namespace Fmt

variable (F : Fmt)

theorem mag_small {n : Nat} (h : n < 2 ^ F.f) : F.mag n = n := by unfold mag; rw [if_pos h]

theorem mag_normal {n : Nat} (h : 2 ^ F.f ≤ n) :
    F.mag n = (2 ^ F.f + n % 2 ^ F.f) * 2 ^ (n / 2 ^ F.f - 1) := by unfold mag; rw [if_neg (by omega)]

/-- Magnitude of the pattern with exponent field `E ≥ 1` and fraction `m - 2^f`. -/
theorem mag_mk (E m : Nat) (hE : 1 ≤ E) (h1 : 2 ^ F.f ≤ m) (h2 : m < 2 ^ (F.f + 1)) :
    F.mag (E * 2 ^ F.f + (m - 2 ^ F.f)) = m * 2 ^ (E - 1) := by
  have hp := Nat.two_pow_pos F.f
  rw [Nat.pow_succ] at h2
  have hlt : m - 2 ^ F.f < 2 ^ F.f := by omega
  have hge : 2 ^ F.f ≤ E * 2 ^ F.f + (m - 2 ^ F.f) := by
    have := Nat.mul_le_mul_right (2 ^ F.f) hE
    omega
  rw [mag_normal F hge]
  rw [Nat.mul_comm E, Nat.mul_add_mod, Nat.mod_eq_of_lt hlt, Nat.mul_add_div hp, Nat.div_eq_of_lt hlt]
  congr 1
  omega

/-- Spacing between neighbours. -/
def ulp (n : Nat) : Nat := 2 ^ (n / 2 ^ F.f - 1)

theorem mag_succ (n : Nat) : F.mag (n + 1) = F.mag n + F.ulp n := by
  have hp := Nat.two_pow_pos F.f
  unfold ulp
  have hdm := Nat.div_add_mod n (2 ^ F.f)
  have hm : n % 2 ^ F.f < 2 ^ F.f := Nat.mod_lt _ hp
  by_cases hsmall : n + 1 < 2 ^ F.f
  · rw [mag_small F hsmall, mag_small F (by omega), Nat.div_eq_of_lt (by omega)]
  by_cases hn : n < 2 ^ F.f
  · have he : n + 1 = 2 ^ F.f := by omega
    rw [mag_small F hn, he, mag_normal F (Nat.le_refl _), Nat.mod_self, Nat.div_self hp,
      Nat.div_eq_of_lt hn]
    simp; omega
  · rw [mag_normal F (n := n) (by omega), mag_normal F (n := n + 1) (by omega)]
    have hE : 1 ≤ n / 2 ^ F.f := by
      rw [Nat.le_div_iff_mul_le hp]; omega
    generalize hEe : n / 2 ^ F.f = E at *
    generalize hRe : n % 2 ^ F.f = R at *
    by_cases hwrap : R + 1 < 2 ^ F.f
    · have e1 : n + 1 = 2 ^ F.f * E + (R + 1) := by omega
      rw [e1, Nat.mul_add_mod, Nat.mod_eq_of_lt hwrap, Nat.mul_add_div hp, Nat.div_eq_of_lt hwrap]
      rw [Nat.add_zero E, ← Nat.add_assoc, Nat.add_mul _ 1, Nat.one_mul]
    · have e1 : n + 1 = 2 ^ F.f * (E + 1) := by rw [Nat.mul_add]; omega
      rw [e1, Nat.mul_mod_right, Nat.mul_div_cancel_left _ hp]
      obtain ⟨d, rfl⟩ : ∃ d, E = d + 1 := ⟨E - 1, by omega⟩
      rw [show R = 2 ^ F.f - 1 by omega]
      simp only [Nat.add_zero, Nat.add_sub_cancel]
      rw [Nat.pow_succ]
      have : 2 ^ F.f + (2 ^ F.f - 1) + 1 = 2 ^ F.f * 2 := by omega
      calc 2 ^ F.f * (2 ^ d * 2) = (2 ^ F.f * 2) * 2 ^ d := by rw [Nat.mul_comm (2 ^ d), Nat.mul_assoc]
        _ = _ := by rw [← this, Nat.add_mul _ 1, Nat.one_mul]

theorem ulp_pos (n : Nat) : 0 < F.ulp n := Nat.two_pow_pos _

theorem mag_lt_add (n d : Nat) : F.mag n < F.mag (n + (d + 1)) := by
  induction d with
  | zero => have := F.mag_succ n; have := F.ulp_pos n; rw [Nat.zero_add]; omega
  | succ d ih =>
    have h1 := F.mag_succ (n + (d + 1)); have := F.ulp_pos (n + (d + 1))
    rw [← Nat.add_assoc n (d + 1) 1]; omega

theorem mag_strictMono {m n : Nat} (h : m < n) : F.mag m < F.mag n := by
  obtain ⟨d, rfl⟩ : ∃ d, n = m + (d + 1) := ⟨n - m - 1, by omega⟩
  exact F.mag_lt_add m d

theorem mag_mono {m n : Nat} (h : m ≤ n) : F.mag m ≤ F.mag n := by
  rcases Nat.lt_or_eq_of_le h with h | h
  · exact Nat.le_of_lt (F.mag_strictMono h)
  · rw [h]; exact Nat.le_refl _

theorem mag_inj {m n : Nat} (h : F.mag m = F.mag n) : m = n := by
  rcases Nat.lt_trichotomy m n with h1 | h1 | h1
  · have := F.mag_strictMono h1; omega
  · exact h1
  · have := F.mag_strictMono h1; omega

theorem mag_zero : F.mag 0 = 0 := F.mag_small (Nat.two_pow_pos _)

end Fmt

variable {F : Fmt}

theorem nearest_lo {num den n : Nat} (hn : n + 1 ≤ F.inf) (h1 : den * F.mag n ≤ num)
    (h2 : 2 * num < den * F.mag n + den * F.mag (n + 1) ∨
      (2 * num = den * F.mag n + den * F.mag (n + 1) ∧ n % 2 = 0)) : Nearest F num den n := by
  have key : ∀ s, s ≠ n → (s < n ∧ den * F.mag s ≤ den * F.mag n) ∨ (n + 1 ≤ s ∧ den * F.mag (n + 1) ≤ den * F.mag s) := by
    intro s hs
    rcases Nat.lt_or_ge s n with h | h
    · exact Or.inl ⟨h, Nat.mul_le_mul_left _ (F.mag_mono (by omega))⟩
    · exact Or.inr ⟨by omega, Nat.mul_le_mul_left _ (F.mag_mono (by omega))⟩
  refine ⟨by omega, ?_, ?_⟩
  · intro s hs
    by_cases hsn : s = n
    · rw [hsn]; exact Nat.le_refl _
    · unfold dist
      rcases key s hsn with ⟨_, h⟩ | ⟨_, h⟩ <;> omega
  · intro s hs hsn he
    unfold dist at he
    rcases key s hsn with ⟨hlt, h⟩ | ⟨hlt, h⟩
    · rcases h2 with h2 | h2
      · -- equality with a smaller pattern forces den = 0
        rcases Nat.eq_zero_or_pos den with h0 | h0
        · subst h0; omega
        · have := Nat.mul_lt_mul_of_pos_left (F.mag_strictMono hlt) h0
          omega
      · exact h2.2
    · rcases h2 with h2 | h2
      · omega
      · exact h2.2

theorem nearest_hi {num den n : Nat} (hd : 0 < den) (hn : n + 1 ≤ F.inf) (h1 : num ≤ den * F.mag (n + 1))
    (h2 : den * F.mag n + den * F.mag (n + 1) < 2 * num ∨
      (2 * num = den * F.mag n + den * F.mag (n + 1) ∧ (n + 1) % 2 = 0)) : Nearest F num den (n + 1) := by
  have key : ∀ s, s ≠ n + 1 → (s ≤ n ∧ den * F.mag s ≤ den * F.mag n) ∨
      (n + 1 < s ∧ den * F.mag (n + 1) < den * F.mag s) := by
    intro s hs
    rcases Nat.lt_or_ge n s with h | h
    · exact Or.inr ⟨by omega, Nat.mul_lt_mul_of_pos_left (F.mag_strictMono (by omega)) hd⟩
    · exact Or.inl ⟨h, Nat.mul_le_mul_left _ (F.mag_mono h)⟩
  refine ⟨hn, ?_, ?_⟩
  · intro s hs
    by_cases hsn : s = n + 1
    · rw [hsn]; exact Nat.le_refl _
    · unfold dist
      rcases key s hsn with ⟨_, h⟩ | ⟨_, h⟩ <;> omega
  · intro s hs hsn he
    unfold dist at he
    rcases h2 with h2 | h2
    · rcases key s hsn with ⟨hlt, h⟩ | ⟨hlt, h⟩ <;> omega
    · exact h2.2

/-- Overflow. -/
theorem nearest_inf {num den : Nat} (hd : 0 < den) (h : den * F.mag F.inf ≤ num) : Nearest F num den F.inf := by
  refine ⟨Nat.le_refl _, ?_, ?_⟩
  · intro s hs
    have := Nat.mul_le_mul_left den (F.mag_mono hs)
    unfold dist; omega
  · intro s hs hne he
    have := Nat.mul_lt_mul_of_pos_left (F.mag_strictMono (show s < F.inf by omega)) hd
    unfold dist at he
    omega

/-- A representable value is its own rounding. -/
theorem nearest_exact {num den n : Nat} (hd : 0 < den) (hn : n ≤ F.inf) (h : num = den * F.mag n) :
    Nearest F num den n := by
  refine ⟨hn, ?_, ?_⟩
  · intro s _; rw [h]; unfold dist; omega
  · intro s hs hne he
    rw [h] at he
    have : den * F.mag n = den * F.mag s := by unfold dist at he; omega
    exact absurd (F.mag_inj (Nat.eq_of_mul_eq_mul_left hd this)).symm hne

/-- Rounding is single-valued. -/
theorem Nearest.unique {num den r s : Nat} (hd : 0 < den) (hr : Nearest F num den r) (hs : Nearest F num den s) :
    r = s := by
  have key : ∀ r s, Nearest F num den r → Nearest F num den s → ¬ r < s := by
    intro r s hr hs hlt
    have e : dist num (den * F.mag r) = dist num (den * F.mag s) := by
      have := hr.best s hs.le; have := hs.best r hr.le; omega
    have p1 := hr.even s hs.le (by omega) e
    have p2 := hs.even r hr.le (by omega) e.symm
    have hb := hr.best (r + 1) (by have := hs.le; omega)
    have m1 := Nat.mul_lt_mul_of_pos_left (F.mag_strictMono (show r < r + 1 by omega)) hd
    have m2 := Nat.mul_lt_mul_of_pos_left (F.mag_strictMono (show r + 1 < s by omega)) hd
    unfold dist at *
    omega
  rcases Nat.lt_trichotomy r s with h | h | h
  · exact absurd h (key r s hr hs)
  · exact h
  · exact absurd h (key s r hs hr)

/-- The classical guard/sticky rule: `num = (M * 2^k + R) * c` between the neighbours
`M * 2^k * c` and `(M+1) * 2^k * c`. -/
theorem nearest_round {num den n M K R c : Nat} (hd : 0 < den) (hn : n + 1 ≤ F.inf) (hR : R < 2 * K) (hc : 0 < c)
    (hnum : num = (M * (2 * K) + R) * c) (h0 : den * F.mag n = M * (2 * K) * c)
    (h1 : den * F.mag (n + 1) = (M + 1) * (2 * K) * c) (hpar : n % 2 = M % 2) :
    Nearest F num den (n + if R > K ∨ (R = K ∧ M % 2 = 1) then 1 else 0) := by
  have e1 : (M + 1) * (2 * K) * c = M * (2 * K) * c + 2 * (K * c) := by
    rw [Nat.add_mul, Nat.add_mul, Nat.one_mul, Nat.mul_assoc 2]
  have e2 : num = M * (2 * K) * c + R * c := by rw [hnum, Nat.add_mul]
  have hR' : R * c < 2 * (K * c) := by
    have := Nat.mul_lt_mul_of_pos_right hR hc
    rw [Nat.mul_assoc 2] at this; exact this
  split
  · rename_i h
    apply nearest_hi hd hn
    · rw [h1, e1, e2]; omega
    · rw [h0, h1, e1, e2]
      rcases h with h | ⟨h, hp⟩
      · left
        have := Nat.mul_lt_mul_of_pos_right h hc
        omega
      · right
        subst h; omega
  · rename_i h
    apply nearest_lo hn
    · rw [h0, e2]; omega
    · rw [h0, h1, e1, e2]
      have hle : R ≤ K := by omega
      rcases Nat.lt_or_eq_of_le hle with h3 | h3
      · left
        have := Nat.mul_lt_mul_of_pos_right h3 hc
        omega
      · right
        subst h3
        omega

end Verif.Float
