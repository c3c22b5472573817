import Verif.Int128.Lemmas

namespace Verif.Int128

theorem toU_nat (n : Nat) (h : n < 2 ^ 128) : toU (n : Int) = n := by unfold toU; omega

theorem toS_small (n : Nat) (h : n < 2 ^ 127) : toS n = n := by
  unfold toS
  rw [Nat.mod_eq_of_lt (by omega), if_pos h]

theorem toS_compl (n : Nat) (h : n ≤ 2 ^ 127) : toS (2 ^ 128 - 1 - (n + (2 ^ 128 - 1)) % 2 ^ 128) = -(n : Int) := by
  unfold toS
  rcases Nat.eq_zero_or_pos n with h0 | h0
  · subst h0; simp
  · have : (2 ^ 128 - 1 - (n + (2 ^ 128 - 1)) % 2 ^ 128) % 2 ^ 128 = 2 ^ 128 - n := by omega
    rw [this, if_neg (by omega)]
    omega

/-- `(x + s) ^ s` with `s = x >> 127` is the absolute value. -/
theorem abs_trick (a : Int) (h1 : -2 ^ 127 < a) (h2 : a < 2 ^ 127) :
    chk128 (a + sign127 a) = some (a + sign127 a) ∧ toU (xorSign (a + sign127 a) (sign127 a)) = a.natAbs := by
  unfold chk128 sign127 xorSign IsI128 toU
  by_cases h : a < 0
  · simp only [if_pos h]
    refine ⟨by rw [if_pos (by omega)], ?_⟩
    rw [if_neg (by omega)]
    omega
  · simp only [if_neg h]
    refine ⟨by rw [if_pos (by omega)], ?_⟩
    rw [if_pos trivial]
    omega

theorem divti3_eq (a b : Int) (ha : -2 ^ 127 < a) (ha' : a < 2 ^ 127) (hb : -2 ^ 127 < b) (hb' : b < 2 ^ 127)
    (h0 : b ≠ 0) : divti3 a b = some (a.tdiv b) := by
  obtain ⟨ca, ta⟩ := abs_trick a ha ha'
  obtain ⟨cb, tb⟩ := abs_trick b hb hb'
  unfold divti3
  simp only [ca, cb, ta, tb]
  rw [udivmodti4_eq _ _ (by omega) (by omega) (by omega)]
  simp only
  have hq : a.natAbs / b.natAbs < 2 ^ 127 := by
    have := Nat.div_le_self a.natAbs b.natAbs
    omega
  have e0 : toU 0 = 0 := rfl
  have e1 : toU (-1) = 2 ^ 128 - 1 := by decide
  have hz : (a.natAbs / b.natAbs + 0) % 2 ^ 128 = a.natAbs / b.natAbs := by
    generalize a.natAbs / b.natAbs = z at *
    omega
  obtain ⟨m, rfl | rfl⟩ := Int.eq_nat_or_neg a <;> obtain ⟨n, rfl | rfl⟩ := Int.eq_nat_or_neg b
  · simp only [sign127, if_neg (show ¬ (m : Int) < 0 by omega), if_neg (show ¬ (n : Int) < 0 by omega), if_true, e0, hz]
    rw [toS_small _ hq, Int.natAbs_natCast, Int.natAbs_natCast, Int.ofNat_tdiv]
  · simp only [sign127, if_neg (show ¬ (m : Int) < 0 by omega), if_pos (show -(n : Int) < 0 by omega)]
    rw [if_neg (show ¬ ((0 : Int) = -1) by omega), e1, if_neg (by omega), toS_compl _ (by omega)]
    rw [Int.natAbs_natCast, Int.natAbs_neg, Int.natAbs_natCast, Int.tdiv_neg, Int.ofNat_tdiv]
  · by_cases hm : m = 0
    · subst hm
      simp [sign127, e0, toS]
    simp only [sign127, if_pos (show -(m : Int) < 0 by omega), if_neg (show ¬ (n : Int) < 0 by omega)]
    rw [if_neg (show ¬ ((-1 : Int) = 0) by omega), e1, if_neg (by omega), toS_compl _ (by omega)]
    rw [Int.natAbs_natCast, Int.natAbs_neg, Int.natAbs_natCast, Int.neg_tdiv, Int.ofNat_tdiv]
  · by_cases hm : m = 0
    · subst hm
      simp [sign127, toS]
      split <;> simp [e0, e1]
    simp only [sign127, if_pos (show -(m : Int) < 0 by omega), if_pos (show -(n : Int) < 0 by omega), if_true, e0, hz]
    rw [toS_small _ hq, Int.natAbs_neg, Int.natAbs_neg, Int.natAbs_natCast, Int.natAbs_natCast, Int.neg_tdiv,
      Int.tdiv_neg, Int.neg_neg, Int.ofNat_tdiv]

theorem tmod_abs (m : Nat) (b : Int) : ((m % b.natAbs : Nat) : Int) = (m : Int).tmod b := by
  obtain ⟨n, rfl | rfl⟩ := Int.eq_nat_or_neg b
  · rw [Int.natAbs_natCast]; exact Int.ofNat_tmod m n
  · rw [Int.natAbs_neg, Int.natAbs_natCast, Int.tmod_neg]; exact Int.ofNat_tmod m n

theorem modti3_eq (a b : Int) (ha : -2 ^ 127 ≤ a) (ha' : a < 2 ^ 127) (hb : -2 ^ 127 < b) (hb' : b < 2 ^ 127)
    (h0 : b ≠ 0) : modti3 a b = some (a.tmod b) := by
  have habs : (if b < 0 then chk128 (-b) else some b) = some (b.natAbs : Int) := by
    unfold chk128
    split
    · rw [if_pos (show IsI128 (-b) from ⟨by omega, by omega⟩)]; congr 1; omega
    · congr 1; omega
  unfold modti3
  simp only [habs]
  have e0 : toU 0 = 0 := rfl
  have e1 : toU (-1) = 2 ^ 128 - 1 := by decide
  have hr : a.natAbs % b.natAbs < b.natAbs := Nat.mod_lt _ (by omega)
  have hzr : (a.natAbs % b.natAbs + 0) % 2 ^ 128 = a.natAbs % b.natAbs := by omega
  rw [toU_nat b.natAbs (by omega)]
  by_cases hneg : a < 0
  · have hs : toU (sign127 a) = 2 ^ 128 - 1 := by unfold sign127; rw [if_pos hneg, e1]
    rw [hs]
    have hA : (if (2 ^ 128 - 1 : Nat) = 0 then (toU a + (2 ^ 128 - 1)) % 2 ^ 128
        else 2 ^ 128 - 1 - (toU a + (2 ^ 128 - 1)) % 2 ^ 128) = a.natAbs := by
      rw [if_neg (by omega)]; unfold toU; omega
    rw [hA, udivmodti4_eq _ _ (by omega) (by omega) (by omega)]
    simp only
    rw [if_neg (show ¬ ((2 ^ 128 - 1 : Nat) = 0) by decide), toS_compl _ (by omega)]
    apply congrArg some
    obtain ⟨m, rfl | rfl⟩ := Int.eq_nat_or_neg a
    · omega
    · rw [Int.neg_tmod, ← tmod_abs]; simp
  · have hs : toU (sign127 a) = 0 := by unfold sign127; rw [if_neg hneg, e0]
    rw [hs]
    have hA : (if (0 : Nat) = 0 then (toU a + 0) % 2 ^ 128 else 2 ^ 128 - 1 - (toU a + 0) % 2 ^ 128) = a.natAbs := by
      rw [if_pos rfl]; unfold toU; omega
    rw [hA, udivmodti4_eq _ _ (by omega) (by omega) (by omega)]
    simp only
    rw [if_pos trivial, hzr, toS_small _ (by omega)]
    apply congrArg some
    obtain ⟨m, rfl | rfl⟩ := Int.eq_nat_or_neg a
    · rw [← tmod_abs]; simp
    · have : m = 0 := by omega
      subst this; simp

end Verif.Int128
