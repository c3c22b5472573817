import Verif.Time.Era

/-!
# Correctness of `civil_from_days` and `days_from_civil`
-/

namespace Verif.Time

theorem leap_iff (y : Int) : Leap y ↔ (y % 4 = 0 ∧ y % 100 ≠ 0) ∨ y % 400 = 0 := by
  unfold Leap; omega

theorem chk64_ok {x : Int} (h : -9223372036854775808 ≤ x ∧ x ≤ 9223372036854775807) : chk64 x = some x :=
  if_pos h

theorem chk32_ok {x : Int} (h : -2147483648 ≤ x ∧ x ≤ 2147483647) : chk32 x = some x := if_pos h

theorem s32_small (n : Nat) (h : n < 2147483648) : s32 n = n := by
  unfold s32; rw [Nat.mod_eq_of_lt (by omega), if_pos h]

theorem s32_u32 (x : Int) (h : -2147483648 ≤ x ∧ x ≤ 2147483647) : s32 (u32 x) = x := by
  unfold s32 u32; split <;> omega

theorem era_eq (d : Int) : (if d ≥ 0 then d else d - 146096).tdiv 146097 = d / 146097 := by
  split
  · rw [Int.tdiv_eq_ediv_of_nonneg (by omega)]
  · have h : (d - 146096).tdiv 146097 = -((146096 - d) / 146097) := by
      rw [← Int.tdiv_eq_ediv_of_nonneg (by omega), ← Int.neg_tdiv]; congr 1; omega
    rw [h]; omega

theorem cyc_aux (n : Int) (doe st Y q dm : Nat) (y : Int) (hdoe : doe = ((n + 719468) % 146097).toNat)
    (hs : (st : Int) = 365 * Y + Y / 4 - Y / 100) (h1 : st ≤ doe) (t5 : q + dm = doe - st + 1)
    (hy : y = Y + 400 * ((n + 719468) / 146097)) (hY : Y < 400) :
    365 * y + y / 4 - y / 100 + y / 400 + (q : Int) + dm - 1 - 719468 = n := by
  have e1 : y / 4 = (Y / 4 : Nat) + 100 * ((n + 719468) / 146097) := by omega
  have e2 : y / 100 = (Y / 100 : Nat) + 4 * ((n + 719468) / 146097) := by omega
  have e3 : y / 400 = (n + 719468) / 146097 := by omega
  rw [e1, e2, e3]
  generalize hE : (n + 719468) / 146097 = E at *
  have h4 : ((Y / 4 : Nat) : Int) = (Y : Int) / 4 := by omega
  have h100 : ((Y / 100 : Nat) : Int) = (Y : Int) / 100 := by omega
  rw [← h4, ← h100] at hs
  generalize Y / 4 = q4 at *
  generalize Y / 100 = q100 at *
  omega

/-- The date in the cycle that the code computes for a day. -/
theorem civil_date (n : Int) :
    ∃ Y mo dm : Nat, Y < 400 ∧ 1 ≤ mo ∧ mo ≤ 12 ∧ 1 ≤ dm ∧ dm ≤ 31 ∧
      civilOfEra ((n + 719468) % 146097).toNat = (Y, mo, dm) ∧
      (Date.mk (Y + 400 * ((n + 719468) / 146097) + if mo ≤ 2 then 1 else 0) mo dm).Valid ∧
      dn (Date.mk (Y + 400 * ((n + 719468) / 146097) + if mo ≤ 2 then 1 else 0) mo dm) = n := by
  obtain ⟨doe, hdoe⟩ : ∃ doe : Nat, doe = ((n + 719468) % 146097).toNat := ⟨_, rfl⟩
  have hlt : doe < 146097 := by omega
  rw [← hdoe]
  obtain ⟨Y, hY, h1, h2, h3, h4⟩ := civilOfEra_spec doe hlt
  obtain ⟨t1, t2, t3, t4, t5, t6, t7⟩ := month_table (doe - startOf Y) h2
  refine ⟨Y, (monthDay (doe - startOf Y)).1, (monthDay (doe - startOf Y)).2, hY, t1, t2, t3, ?_, h4, ?_, ?_⟩
  · repeat' split at t4
    all_goals omega
  · refine ⟨by simp only; omega, by simp only; omega, by simp only; omega, ?_⟩
    simp only [monthLen, leap_iff]
    generalize (monthDay (doe - startOf Y)).1 = mo at *
    generalize (monthDay (doe - startOf Y)).2 = dm at *
    generalize (n + 719468) / 146097 = E at *
    generalize doe - startOf Y = doy at *
    by_cases hm : mo = 2
    · subst hm
      simp only [if_pos] at t4
      rw [if_pos (show ((2 : Nat) : Int) = 2 from rfl)]
      by_cases hd : doy = 365
      · have := h3 hd
        rw [if_pos hd] at t4
        have hl : (((Y : Int) + 400 * E + if 2 ≤ 2 then 1 else 0) % 4 = 0 ∧
            ((Y : Int) + 400 * E + if 2 ≤ 2 then 1 else 0) % 100 ≠ 0) ∨
            ((Y : Int) + 400 * E + if 2 ≤ 2 then 1 else 0) % 400 = 0 := by
          rw [if_pos (Nat.le_refl 2)]; omega
        rw [if_pos hl]; omega
      · rw [if_neg hd] at t4
        split <;> omega
    · have hm' : (mo : Int) ≠ 2 := by omega
      rw [if_neg hm']
      rw [if_neg hm] at t4
      split at t4
      · rw [if_pos (by omega)]; omega
      · rw [if_neg (by omega)]; omega
  · unfold dn cycle
    simp only
    have hs : (startOf Y : Int) = 365 * Y + Y / 4 - Y / 100 := by unfold startOf; omega
    generalize (monthDay (doe - startOf Y)).1 = mo at *
    generalize (monthDay (doe - startOf Y)).2 = dm at *
    by_cases hm : mo ≤ 2
    · rw [if_pos hm] at t5
      rw [if_pos (show (mo : Int) ≤ 2 by omega), if_pos (show (mo : Int) ≤ 2 by omega), if_pos hm]
      have e1 : (153 * ((mo : Int) + 9) + 2) / 5 = ((153 * (mo + 9) + 2) / 5 : Nat) := by omega
      rw [e1]
      exact cyc_aux _ _ _ _ _ _ _ hdoe hs h1 t5 (by omega) hY
    · rw [if_neg hm] at t5
      rw [if_neg (show ¬ (mo : Int) ≤ 2 by omega), if_neg (show ¬ (mo : Int) ≤ 2 by omega), if_neg hm]
      have e1 : (153 * ((mo : Int) - 3) + 2) / 5 = ((153 * (mo - 3) + 2) / 5 : Nat) := by omega
      rw [e1]
      exact cyc_aux _ _ _ _ _ _ _ hdoe hs h1 t5 (by omega) hY

/-- Bounds on the day that keep the 64-bit arithmetic in range. -/
def DayOk (n : Int) : Prop := -200000000000000 ≤ n ∧ n ≤ 200000000000000

/-- `civil_from_days` yields the date of the day, provided the year is an `int`. -/
theorem civilFromDays_eq (n : Int) (x : Date) (hn : DayOk n) (hx : x.Valid) (hd : dn x = n)
    (hy : -2147483247 ≤ x.y ∧ x.y ≤ 2147483647) : civilFromDays n = some (x.y, x.m, x.d) := by
  obtain ⟨Y, mo, dm, hY, m1, m2, d1, d2, hc, hv, hdn⟩ := civil_date n
  have he := dn_inj _ _ hx hv (by rw [hd, hdn])
  subst he
  simp only at hy ⊢
  obtain ⟨n1, n2⟩ := hn
  unfold civilFromDays
  rw [chk64_ok (by omega)]
  simp only [Option.bind_eq_bind, Option.bind_some]
  have hsel : (if n + 719468 ≥ 0 then some (n + 719468) else chk64 (n + 719468 - 146096)) =
      some (if n + 719468 ≥ 0 then n + 719468 else n + 719468 - 146096) := by
    split
    · rfl
    · exact chk64_ok (by omega)
  rw [hsel]
  simp only [Option.bind_some, era_eq]
  rw [chk64_ok (by omega)]
  simp only [Option.bind_some]
  rw [chk64_ok (by omega)]
  simp only [Option.bind_some]
  have hu : u32 (n + 719468 - (n + 719468) / 146097 * 146097) = ((n + 719468) % 146097).toNat := by
    unfold u32; omega
  rw [hu, hc]
  simp only
  rw [chk64_ok (by omega)]
  simp only [Option.bind_some]
  have hyy : -2147483648 ≤ (n + 719468) / 146097 * 400 ∧ (n + 719468) / 146097 * 400 ≤ 2147483647 := by
    split at hy <;> omega
  rw [s32_u32 _ hyy, s32_small Y (by omega), chk32_ok (by split at hy <;> omega)]
  simp only [Option.bind_some]
  rw [s32_small mo (by omega), s32_small dm (by omega)]
  by_cases hm : mo ≤ 2
  · rw [if_pos hm, if_pos hm]
    rw [if_pos hm] at hy
    rw [chk32_ok (by omega)]
    simp only [Option.bind_some, pure]
    congr 2; omega
  · rw [if_neg hm, if_neg hm]
    simp only [Option.bind_some, pure]
    congr 2; omega

/-- The copy of `civil_from_days` inlined in `mktime` computes the same. -/
theorem mktimeCivil_eq (n : Int) (x : Date) (hn : DayOk n) (hx : x.Valid) (hd : dn x = n)
    (hy : -2147483247 ≤ x.y ∧ x.y ≤ 2147483647) :
    mktimeCivil n = some (x.y, x.m.toNat, x.d.toNat) ∧ 1 ≤ x.m ∧ x.m ≤ 12 ∧ 1 ≤ x.d ∧ x.d ≤ 31 := by
  obtain ⟨Y, mo, dm, hY, m1, m2, d1, d2, hc, hv, hdn⟩ := civil_date n
  have he := dn_inj _ _ hx hv (by rw [hd, hdn])
  subst he
  simp only at hy ⊢
  refine ⟨?_, by omega, by omega, by omega, by omega⟩
  obtain ⟨n1, n2⟩ := hn
  unfold mktimeCivil
  rw [chk64_ok (by omega)]
  simp only [Option.bind_eq_bind, Option.bind_some]
  have hsel : (if n + 719468 ≥ 0 then some (n + 719468) else chk64 (n + 719468 - 146096)) =
      some (if n + 719468 ≥ 0 then n + 719468 else n + 719468 - 146096) := by
    split
    · rfl
    · exact chk64_ok (by omega)
  rw [hsel]
  simp only [Option.bind_some, era_eq]
  rw [chk64_ok (by omega)]
  simp only [Option.bind_some]
  rw [chk64_ok (by omega)]
  simp only [Option.bind_some]
  have hu : u32 (n + 719468 - (n + 719468) / 146097 * 146097) = ((n + 719468) % 146097).toNat := by
    unfold u32; omega
  rw [hu]
  unfold civilOfEra at hc
  simp only [Prod.mk.injEq] at hc
  obtain ⟨c1, c2, c3⟩ := hc
  rw [chk64_ok (by omega)]
  simp only [Option.bind_some]
  have hyy : -2147483648 ≤ (n + 719468) / 146097 * 400 ∧ (n + 719468) / 146097 * 400 ≤ 2147483647 := by
    split at hy <;> omega
  rw [c1] at c2 c3 ⊢
  rw [s32_u32 _ hyy, s32_small Y (by omega), chk32_ok (by split at hy <;> omega)]
  simp only [Option.bind_some]
  rw [c2, c3]
  by_cases hm : mo ≤ 2
  · rw [if_pos hm, if_pos hm]
    rw [if_pos hm] at hy
    rw [chk32_ok (by omega)]
    simp only [Option.bind_some, pure]
    congr 2
    omega
  · rw [if_neg hm, if_neg hm]
    simp only [Option.bind_some, pure]
    congr 2
    omega

theorem era400_eq (d : Int) : (if d ≥ 0 then d else d - 399).tdiv 400 = d / 400 := by
  split
  · rw [Int.tdiv_eq_ediv_of_nonneg (by omega)]
  · have h : (d - 399).tdiv 400 = -((399 - d) / 400) := by
      rw [← Int.tdiv_eq_ediv_of_nonneg (by omega), ← Int.neg_tdiv]; congr 1; omega
    rw [h]; omega

/-- Days since the last March 1 of a year divisible by 400 of the first of a month. -/
def inCycle (y m : Int) : Int := (dn ⟨y, m, 1⟩ + 719468) % 146097

/-- `days_from_civil` for the first day of a month plus an offset: exact when the day lies in or
after the cycle of its month, too large by 2^32 days otherwise. -/
theorem daysFromCivil_eq (y mon mday : Int) (hy : -2147483248 ≤ y ∧ y ≤ 2147483647) (hm : 0 ≤ mon ∧ mon ≤ 11)
    (hd : -2147483648 ≤ mday ∧ mday ≤ 2147483647) :
    daysFromCivil y (u32 (mon + 1)) (u32 mday) =
      some (dn ⟨y, mon + 1, 1⟩ + (mday - 1) + if inCycle y (mon + 1) + (mday - 1) < 0 then 4294967296 else 0) := by
  obtain ⟨m, hmm⟩ : ∃ m : Nat, (m : Int) = mon + 1 := ⟨(mon + 1).toNat, by omega⟩
  have hu : u32 (mon + 1) = m := by unfold u32; omega
  have hm1 : 1 ≤ m := by omega
  have hm2 : m ≤ 12 := by omega
  rw [hu, ← hmm]
  unfold daysFromCivil
  obtain ⟨y', hy'⟩ : ∃ y', y' = y - (if m ≤ 2 then 1 else 0) := ⟨_, rfl⟩
  rw [← hy', chk32_ok (by split at hy' <;> omega)]
  have hb : -2147483249 ≤ y' ∧ y' ≤ 2147483647 := by split at hy' <;> omega
  simp only [Option.bind_eq_bind, Option.bind_some]
  have hsel : (if y' ≥ 0 then some y' else chk32 (y' - 399)) = some (if y' ≥ 0 then y' else y' - 399) := by
    split
    · rfl
    · exact chk32_ok (by omega)
  rw [hsel]
  simp only [Option.bind_some, era400_eq]
  rw [chk32_ok (by omega)]
  simp only [Option.bind_some]
  rw [chk32_ok (by omega)]
  simp only [Option.bind_some]
  have hyoe : u32 (y' - y' / 400 * 400) = (y' % 400).toNat := by unfold u32; omega
  rw [hyoe]
  obtain ⟨Y, hY⟩ : ∃ Y : Nat, Y = (y' % 400).toNat := ⟨_, rfl⟩
  have hYlt : Y < 400 := by omega
  rw [← hY]
  obtain ⟨mp, hmp⟩ : ∃ mp : Nat, mp = if m > 2 then m - 3 else m + 9 := ⟨_, rfl⟩
  have hmpe : (if m > 2 then usub m 3 else (m + 9) % 4294967296) = mp := by
    rw [hmp]; split
    · exact usub_le m 3 (by omega) (by omega)
    · omega
  rw [hmpe]
  have hmplt : mp ≤ 11 := by split at hmp <;> omega
  rw [Nat.mod_eq_of_lt (show 153 * mp + 2 < 4294967296 by omega),
    Nat.mod_eq_of_lt (show Y * 365 + Y / 4 < 4294967296 by omega),
    usub_le (Y * 365 + Y / 4) (Y / 100) (by omega) (by omega)]
  -- the position in the cycle
  have hdn : dn ⟨y, (m : Int), 1⟩ = y' / 400 * 146097 + (Y * 365 + Y / 4 - Y / 100 + (153 * mp + 2) / 5 : Nat) - 719468 := by
    unfold dn cycle
    simp only
    by_cases hm : m ≤ 2
    · rw [if_pos (show (m : Int) ≤ 2 by omega), if_pos (show (m : Int) ≤ 2 by omega)]
      rw [if_pos hm] at hy'
      rw [if_neg (by omega)] at hmp
      rw [← hy']
      have : ((153 * ((m : Int) + 9) + 2) / 5) = ((153 * mp + 2) / 5 : Nat) := by omega
      rw [this]
      generalize (153 * mp + 2) / 5 = q
      omega
    · rw [if_neg (show ¬ (m : Int) ≤ 2 by omega), if_neg (show ¬ (m : Int) ≤ 2 by omega)]
      rw [if_neg hm] at hy'
      rw [if_pos (by omega)] at hmp
      have : y' = y := by omega
      rw [this] at hY
      rw [this]
      have : ((153 * ((m : Int) - 3) + 2) / 5) = ((153 * mp + 2) / 5 : Nat) := by omega
      rw [this]
      generalize (153 * mp + 2) / 5 = q
      omega
  have hpos : Y * 365 + Y / 4 - Y / 100 + (153 * mp + 2) / 5 < 146097 := by
    clear hdn hmpe hsel hyoe hY
    have : (153 * mp + 2) / 5 ≤ 337 := by omega
    omega
  have hcy : inCycle y (m : Int) = (Y * 365 + Y / 4 - Y / 100 + (153 * mp + 2) / 5 : Nat) := by
    unfold inCycle; rw [hdn]; omega
  rw [hcy, hdn]
  have hu2 : (u32 mday : Int) = mday % 4294967296 := by unfold u32; omega
  have hu3 : u32 mday < 4294967296 := by unfold u32; omega
  have hus : usub (((153 * mp + 2) / 5 + u32 mday) % 4294967296) 1 = ((153 * mp + 2) / 5 + u32 mday + 4294967295) % 4294967296 := by
    unfold usub; omega
  rw [hus]
  have hadd : ((Y * 365 + Y / 4 - Y / 100 + ((153 * mp + 2) / 5 + u32 mday + 4294967295) % 4294967296) % 4294967296) =
      ((Y * 365 + Y / 4 - Y / 100 + (153 * mp + 2) / 5) + u32 mday + 4294967295) % 4294967296 := by
    clear hdn hcy hpos hus
    omega
  rw [hadd]
  generalize Y * 365 + Y / 4 - Y / 100 + (153 * mp + 2) / 5 = c at *
  have hval : (((c + u32 mday + 4294967295) % 4294967296 : Nat) : Int) =
      c + (mday - 1) + if (c : Int) + (mday - 1) < 0 then 4294967296 else 0 := by
    split <;> omega
  rw [hval, chk64_ok (by omega)]
  simp only [Option.bind_some]
  rw [chk64_ok (by split <;> omega)]
  simp only [Option.bind_some]
  rw [chk64_ok (by split <;> omega)]
  apply congrArg some
  split <;> omega

end Verif.Time
