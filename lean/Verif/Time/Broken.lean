import Verif.Time.Civil

/-!
# `gmtime` and `mktime` as a whole
-/

namespace Verif.Time

theorem isLeap_eq (y : Int) : isLeap y = decide (Leap y) := by
  unfold isLeap
  have h4 : (y.tmod 4 = 0) ↔ 4 ∣ y := (Int.dvd_iff_tmod_eq_zero ..).symm
  have h100 : (y.tmod 100 = 0) ↔ 100 ∣ y := (Int.dvd_iff_tmod_eq_zero ..).symm
  have h400 : (y.tmod 400 = 0) ↔ 400 ∣ y := (Int.dvd_iff_tmod_eq_zero ..).symm
  rw [Bool.eq_iff_iff]
  simp only [Bool.or_eq_true, Bool.and_eq_true, beq_iff_eq, bne_iff_ne, ne_eq, decide_eq_true_eq, h4, h100, h400]
  rfl

theorem yday_eq (x : Date) (h : x.Valid) : ∃ b, monthYday (isLeap x.y) (x.m - 1) = some b ∧
    dn x - (b + (x.d - 1)) = dn ⟨x.y, 1, 1⟩ ∧ 0 ≤ b + (x.d - 1) ∧ b + (x.d - 1) ≤ 365 := by
  obtain ⟨y, m, d⟩ := x
  obtain ⟨h1, h2, h3, h4⟩ := h
  simp only at h1 h2 h3 h4 ⊢
  rw [isLeap_eq]
  have hm : m = 1 ∨ m = 2 ∨ m = 3 ∨ m = 4 ∨ m = 5 ∨ m = 6 ∨ m = 7 ∨ m = 8 ∨ m = 9 ∨ m = 10 ∨ m = 11 ∨ m = 12 := by
    omega
  by_cases hl : Leap y <;> simp only [hl, decide_true, decide_false] <;>
  rcases hm with rfl | rfl | rfl | rfl | rfl | rfl | rfl | rfl | rfl | rfl | rfl | rfl <;>
    simp [monthYday] <;> simp [monthLen, hl] at h4 <;> simp [dn, cycle] <;> unfold Leap at hl <;> omega

theorem split_day (t : Int) :
    (if t.tmod 86400 < 0 then (t.tmod 86400 + 86400, t.tdiv 86400 - 1) else (t.tmod 86400, t.tdiv 86400)) =
      (t % 86400, t / 86400) := by
  rw [Int.tmod_eq_emod, Int.tdiv_eq_ediv]
  have : (86400 : Int).natAbs = 86400 := rfl
  have hs : (86400 : Int).sign = 1 := rfl
  by_cases h0 : 0 ≤ t
  · simp only [h0, true_or, if_true]; rw [if_neg (by omega)]; simp
  · by_cases hd : 86400 ∣ t
    · simp only [hd, or_true, if_true]; rw [if_neg (by omega)]; simp
    · simp only [h0, hd, or_self, if_false, this, hs]
      rw [if_pos (by omega)]
      congr 1 <;> omega

theorem wday_eq (n : Int) : ∃ w, w = (if ((n.tmod 7 + 4).tmod 7) < 0 then (n.tmod 7 + 4).tmod 7 + 7 else (n.tmod 7 + 4).tmod 7) ∧
    0 ≤ w ∧ w ≤ 6 ∧ 7 ∣ (n + 4 - w) := by
  refine ⟨_, rfl, ?_⟩
  have e1 : ∃ k, n = 7 * k + n.tmod 7 := ⟨n.tdiv 7, by have := Int.mul_tdiv_add_tmod n 7; omega⟩
  obtain ⟨k, hk⟩ := e1
  generalize n.tmod 7 = r at *
  have e2 : ∃ k, r + 4 = 7 * k + (r + 4).tmod 7 := ⟨(r + 4).tdiv 7, by have := Int.mul_tdiv_add_tmod (r + 4) 7; omega⟩
  have b1 := Int.tmod_lt_of_pos (r + 4) (show (0 : Int) < 7 by decide)
  have b2 := Int.lt_tmod_of_pos (r + 4) (show (0 : Int) < 7 by decide)
  obtain ⟨k', hk'⟩ := e2
  generalize (r + 4).tmod 7 = r' at *
  split <;> omega

theorem gmtime_eq (t : Int) (ht : InTime t) (x : Date) (hx : DateOfDay (t / 86400) x)
    (hy : -2147481748 ≤ x.y ∧ x.y ≤ 2147483647) : ∃ tm, gmtime t = some tm ∧ mktimeFields t = some tm ∧ Denotes tm t ∧
      tm.year + 1900 = x.y ∧ tm.mon + 1 = x.m ∧ tm.mday = x.d := by
  obtain ⟨hv, hdn⟩ := date_inv hx
  obtain ⟨t1, t2⟩ := ht
  have hday : DayOk (t / 86400) := by unfold DayOk; omega
  obtain ⟨b, hb, hyd, hb0, hb1⟩ := yday_eq x hv
  obtain ⟨hmc, m1, m2, d1, d2⟩ := mktimeCivil_eq (t / 86400) x hday hv hdn (by omega)
  have hcv := civilFromDays_eq (t / 86400) x hday hv hdn (by omega)
  obtain ⟨w, hw, w0, w1, w2⟩ := wday_eq (t / 86400)
  have q1 : (t % 86400).tmod 60 = t % 86400 % 60 := Int.tmod_eq_emod_of_nonneg (by omega)
  have q2 : (t % 86400).tdiv 60 = t % 86400 / 60 := Int.tdiv_eq_ediv_of_nonneg (by omega)
  have q3 : (t % 86400 / 60).tmod 60 = t % 86400 / 60 % 60 := Int.tmod_eq_emod_of_nonneg (by omega)
  have q4 : (t % 86400).tdiv 3600 = t % 86400 / 3600 := Int.tdiv_eq_ediv_of_nonneg (by omega)
  refine ⟨⟨t % 86400 % 60, t % 86400 / 60 % 60, t % 86400 / 3600, x.d, x.m - 1, x.y - 1900, w, b + (x.d - 1), 0⟩,
    ?_, ?_, ?_, by simp only; omega, by simp only; omega, rfl⟩
  · unfold gmtime
    simp only [split_day, hcv, Option.bind_eq_bind, Option.bind_some, hb]
    rw [chk32_ok (by omega)]
    simp only [Option.bind_some, pure, q1, q2, q3, q4, ← hw]
  · unfold mktimeFields
    simp only [split_day, hmc, Option.bind_eq_bind, Option.bind_some]
    rw [s32_small x.m.toNat (by omega), s32_small x.d.toNat (by omega), Int.toNat_of_nonneg (by omega),
      Int.toNat_of_nonneg (by omega), hb, chk32_ok (by omega)]
    simp only [Option.bind_some, pure, q1, q2, q3, q4, ← hw]
  · refine ⟨by simp only; omega, by simp only; omega, by simp only; omega, by simp only; omega, by simp only; omega,
      by simp only; omega, w0, w1, hb0, hb1, rfl, t / 86400, by simp only; omega, ?_, w2, ?_⟩
    · simp only
      have : (Date.mk (x.y - 1900 + 1900) (x.m - 1 + 1) x.d) = x := by
        rw [Int.sub_add_cancel, Int.sub_add_cancel]
      rw [this]; exact hx
    · simp only
      rw [Int.sub_add_cancel]
      refine date_of_dn _ _ ?_ ?_
      · exact ⟨by simp only; omega, by simp only; omega, by simp only; omega, by simp [monthLen]⟩
      · rw [← hdn, ← hyd]

theorem month_eq (ty tmn : Int) (hy : InInt (ty + 1900)) (h2 : InInt (ty + 1900 + tmn / 12)) :
    mktimeMonth ty tmn = some (ty + 1900 + tmn / 12, tmn % 12) := by
  unfold mktimeMonth
  unfold InInt at hy h2
  rw [chk32_ok hy]
  simp only [Option.bind_eq_bind, Option.bind_some]
  by_cases hm : tmn < 0 ∨ tmn > 11
  · rw [if_pos hm]
    have : (if tmn.tmod 12 < 0 then (tmn.tmod 12 + 12, tmn.tdiv 12 - 1) else (tmn.tmod 12, tmn.tdiv 12)) =
        (tmn % 12, tmn / 12) := by
      rw [Int.tmod_eq_emod, Int.tdiv_eq_ediv]
      have h12 : (12 : Int).natAbs = 12 := rfl
      have hs : (12 : Int).sign = 1 := rfl
      by_cases h0 : 0 ≤ tmn
      · simp only [h0, true_or, if_true]; rw [if_neg (by omega)]; simp
      · by_cases hd : 12 ∣ tmn
        · simp only [hd, or_true, if_true]; rw [if_neg (by omega)]; simp
        · simp only [h0, hd, or_self, if_false, h12, hs]
          rw [if_pos (by omega)]
          congr 1 <;> omega
    rw [this]
    simp only
    rw [chk32_ok h2]; rfl
  · rw [if_neg hm]
    simp only [pure]
    congr 2 <;> omega

/-- Seconds computed by `mktime`. -/
theorem seconds_eq (tm : Tm) (hy : InInt (tm.year + 1900))
    (hyn : -2147483248 ≤ tm.year + 1900 + tm.mon / 12 ∧ tm.year + 1900 + tm.mon / 12 ≤ 2147483647)
    (hd : InInt tm.mday) (hh : InInt tm.hour) (hmi : InInt tm.min) (hs : InInt tm.sec) :
    mktimeSeconds tm = some ((dn ⟨tm.year + 1900 + tm.mon / 12, tm.mon % 12 + 1, 1⟩ + (tm.mday - 1) +
      if inCycle (tm.year + 1900 + tm.mon / 12) (tm.mon % 12 + 1) + (tm.mday - 1) < 0 then 4294967296 else 0) * 86400 +
      tm.hour * 3600 + tm.min * 60 + tm.sec) := by
  unfold mktimeSeconds
  rw [month_eq _ _ hy ⟨by omega, by omega⟩]
  simp only [Option.bind_eq_bind, Option.bind_some]
  rw [daysFromCivil_eq _ _ _ hyn (by omega) hd]
  simp only [Option.bind_some]
  unfold InInt at *
  rw [chk64_ok (by omega)]
  simp only [Option.bind_some]
  rw [chk64_ok (by omega)]
  simp only [Option.bind_some]
  rw [chk64_ok (by omega)]
  simp only [Option.bind_some]
  rw [chk64_ok (by omega)]
  simp only [Option.bind_some]
  have hdn : -800000000000 ≤ dn ⟨tm.year + 1900 + tm.mon / 12, tm.mon % 12 + 1, 1⟩ ∧
      dn ⟨tm.year + 1900 + tm.mon / 12, tm.mon % 12 + 1, 1⟩ ≤ 800000000000 := by
    unfold dn cycle
    simp only
    generalize tm.year + 1900 + tm.mon / 12 = y at *
    have : 0 ≤ tm.mon % 12 ∧ tm.mon % 12 < 12 := by omega
    generalize tm.mon % 12 = mm at *
    split <;> omega
  generalize dn ⟨tm.year + 1900 + tm.mon / 12, tm.mon % 12 + 1, 1⟩ = D at *
  rw [chk64_ok (by split <;> omega)]
  simp only [Option.bind_some]
  rw [chk64_ok (by split <;> omega)]
  apply congrArg some
  omega

end Verif.Time
