import Verif.Time.Lemmas

/-!
# The 400-year cycle

`civilOfEra` decomposes the day of the era correctly: the year by monotonicity and its 400
boundaries, the month by a table of the 366 days of a year.
-/

namespace Verif.Time

/-- First day of year `Y` of the era (years starting on March 1). -/
def startOf (Y : Nat) : Nat := 365 * Y + Y / 4 - Y / 100

/-- First day after year `Y` of the era. -/
def endOf (Y : Nat) : Nat := if Y = 399 then 146097 else startOf (Y + 1)

theorem usub_le (a b : Nat) (h : b ≤ a) (ha : a < 4294967296) : usub a b = a - b := by
  unfold usub; omega

/-- The numerator in the year-of-era formula. -/
def num (n : Nat) : Nat := n - n / 1460 + n / 36524 - n / 146096

theorem num_mono1 (n : Nat) (h : n < 146096) : num n ≤ num (n + 1) := by
  unfold num; omega

theorem num_mono (a b : Nat) (h : a ≤ b) (hb : b ≤ 146096) : num a ≤ num b := by
  induction b with
  | zero => rw [Nat.le_zero.mp h]; exact Nat.le_refl _
  | succ b ih =>
    by_cases e : a = b + 1
    · rw [e]; exact Nat.le_refl _
    · exact Nat.le_trans (ih (by omega) (by omega)) (num_mono1 b (by omega))

theorem bounds : ∀ Y < 400, 365 * Y ≤ num (startOf Y) ∧ num (endOf Y - 1) < 365 * (Y + 1) ∧
    startOf Y < endOf Y ∧ endOf Y ≤ 146097 ∧
    endOf Y - startOf Y ≤ (if ((Y + 1) % 4 = 0 ∧ (Y + 1) % 100 ≠ 0) ∨ (Y + 1) % 400 = 0 then 366 else 365) := by
  decide +kernel

theorem exists_year (doe : Nat) (h : doe < 146097) : ∃ Y < 400, startOf Y ≤ doe ∧ doe < endOf Y := by
  have key : ∀ k, k ≤ 400 → doe < (if k = 400 then 146097 else startOf k) →
      ∃ Y < 400, startOf Y ≤ doe ∧ doe < endOf Y := by
    intro k
    induction k with
    | zero => intro _ h; simp [startOf] at h
    | succ k ih =>
      intro hk hd
      by_cases hs : startOf k ≤ doe
      · refine ⟨k, by omega, hs, ?_⟩
        unfold endOf
        by_cases e : k = 399
        · simp [e]; omega
        · rw [if_neg e]; rw [if_neg (by omega)] at hd; exact hd
      · exact ih (by omega) (by rw [if_neg (by omega)]; omega)
  exact key 400 (by omega) (by simpa using h)

/-- Month and day of the day of year `doy` (from March 1). -/
def monthDay (doy : Nat) : Nat × Nat :=
  let mp := (5 * doy + 2) / 153
  (if mp < 10 then mp + 3 else mp - 9, doy - (153 * mp + 2) / 5 + 1)

theorem month_table : ∀ doy < 366, 1 ≤ (monthDay doy).1 ∧ (monthDay doy).1 ≤ 12 ∧ 1 ≤ (monthDay doy).2 ∧
    (monthDay doy).2 ≤ (if (monthDay doy).1 = 2 then (if doy = 365 then 29 else 28)
      else if (monthDay doy).1 = 4 ∨ (monthDay doy).1 = 6 ∨ (monthDay doy).1 = 9 ∨ (monthDay doy).1 = 11 then 30 else 31) ∧
    (153 * (if (monthDay doy).1 ≤ 2 then (monthDay doy).1 + 9 else (monthDay doy).1 - 3) + 2) / 5 + (monthDay doy).2 = doy + 1 ∧
    usub doy ((153 * ((5 * doy + 2) / 153) + 2) % 4294967296 / 5) = doy - (153 * ((5 * doy + 2) / 153) + 2) / 5 ∧
    (doy = 365 → (monthDay doy).1 = 2) := by
  decide +kernel

/-- The decomposition computed by the code. -/
theorem civilOfEra_spec (doe : Nat) (h : doe < 146097) :
    ∃ Y < 400, startOf Y ≤ doe ∧ doe - startOf Y < 366 ∧
      (doe - startOf Y = 365 → ((Y + 1) % 4 = 0 ∧ (Y + 1) % 100 ≠ 0) ∨ (Y + 1) % 400 = 0) ∧
      civilOfEra doe = (Y, monthDay (doe - startOf Y)) := by
  obtain ⟨Y, hY, h1, h2⟩ := exists_year doe h
  obtain ⟨b1, b2, b3, b4, b5⟩ := bounds Y hY
  have m1 := num_mono (startOf Y) doe h1 (by omega)
  have m2 := num_mono doe (endOf Y - 1) (by omega) (by omega)
  have hlen : doe - startOf Y < 366 := by split at b5 <;> omega
  refine ⟨Y, hY, h1, hlen, ?_, ?_⟩
  · intro e; split at b5 <;> omega
  · have e1 : usub ((usub doe (doe / 1460) + doe / 36524) % 4294967296) (doe / 146096) = num doe := by
      rw [usub_le doe _ (by omega) (by omega), Nat.mod_eq_of_lt (by omega), usub_le _ _ (by omega) (by omega)]
      rfl
    have e2 : num doe / 365 = Y := by omega
    have e3 : usub doe (usub ((365 * Y + Y / 4) % 4294967296) (Y / 100)) = doe - startOf Y := by
      rw [Nat.mod_eq_of_lt (by omega), usub_le (365 * Y + Y / 4) _ (by omega) (by omega)]
      exact usub_le _ _ h1 (by omega)
    unfold civilOfEra
    simp only [e1, e2, e3]
    obtain ⟨t1, t2, t3, t4, t5, t6, t7⟩ := month_table (doe - startOf Y) hlen
    generalize doe - startOf Y = doy at *
    have e4 : (5 * doy + 2) % 4294967296 = 5 * doy + 2 := Nat.mod_eq_of_lt (by omega)
    simp only [e4, t6, monthDay]
    have e5 : (doy - (153 * ((5 * doy + 2) / 153) + 2) / 5 + 1) % 4294967296 =
        doy - (153 * ((5 * doy + 2) / 153) + 2) / 5 + 1 := Nat.mod_eq_of_lt (by omega)
    rw [e5]
    by_cases e6 : (5 * doy + 2) / 153 < 10
    · simp only [if_pos e6]
    · simp only [if_neg e6]
      rw [usub_le _ 9 (by omega) (by omega)]

end Verif.Time
