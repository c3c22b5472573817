import Verif.Quad.TruncD

/-! # Conversion of `long double` to integers -/

namespace Verif.Quad
open Verif.Float Verif.Int128 Verif.Math Verif.Math.Spec Verif.Quad.Spec

/-- Magnitudes below one have no integral part. -/
theorem whole_small {P : Nat} (h : P < 0x3FFF * 2 ^ 112) : b128.mag P / 2 ^ b128.unit = 0 := by
  apply Nat.div_eq_of_lt
  have h1 := b128.mag_strictMono h
  obtain ⟨E, hE⟩ : ∃ E, E = 0x3FFF := ⟨_, rfl⟩
  obtain ⟨w, hw, hw'⟩ : ∃ w, b128.unit = w ∧ w = 16494 := ⟨_, rfl, rfl⟩
  rw [← hE] at h1
  have h2 := mag_le_pow (E := E) (by omega) (Nat.le_refl (E * 2 ^ 112))
  rw [hw, show w = E + 111 by omega]
  exact Nat.lt_of_lt_of_le h1 h2

/-- The integral part of a magnitude that is at least one. -/
theorem whole_big {P : Nat} (h : 0x3FFF * 2 ^ 112 ≤ P) :
    b128.mag P / 2 ^ b128.unit =
      if P / 2 ^ 112 ≤ 16495 then (2 ^ 112 + P % 2 ^ 112) / 2 ^ (16495 - P / 2 ^ 112)
      else (2 ^ 112 + P % 2 ^ 112) * 2 ^ (P / 2 ^ 112 - 16495) := by
  rw [mag_parts (by omega)]
  obtain ⟨w, hw, hw'⟩ : ∃ w, b128.unit = w ∧ w = 16494 := ⟨_, rfl, rfl⟩
  rw [hw]
  have hE : 0x3FFF ≤ P / 2 ^ 112 := by omega
  generalize P / 2 ^ 112 = E at hE ⊢
  generalize 2 ^ 112 + P % 2 ^ 112 = M
  split
  · have e : 2 ^ w = 2 ^ (E - 1) * 2 ^ (16495 - E) := by rw [← Nat.pow_add]; exact pow_eq (by omega)
    rw [e, ← Nat.div_div_eq_div_mul, Nat.mul_div_cancel _ (Nat.two_pow_pos _)]
  · have e : 2 ^ (E - 1) = 2 ^ (E - 16495) * 2 ^ w := by rw [← Nat.pow_add]; exact pow_eq (by omega)
    rw [e, ← Nat.mul_assoc, Nat.mul_div_cancel _ (Nat.two_pow_pos _)]

/-- The exponent of a magnitude with a bounded integral part. -/
theorem whole_bound {P k : Nat} (h : b128.mag P / 2 ^ b128.unit < 2 ^ k) : P < (0x3FFF + k) * 2 ^ 112 := by
  rcases Nat.lt_or_ge P ((0x3FFF + k) * 2 ^ 112) with c | c
  · exact c
  · exfalso
    have h1 := pow_le_mag (E := 0x3FFF + k) (by omega) c
    have h2 := (Nat.div_lt_iff_lt_mul (Nat.two_pow_pos b128.unit)).1 h
    have h3 : 2 ^ k * 2 ^ b128.unit = 2 ^ (0x3FFF + k + 111) := by
      obtain ⟨w, hw, hw'⟩ : ∃ w, b128.unit = w ∧ w = 16494 := ⟨_, rfl, rfl⟩
      rw [hw, ← Nat.pow_add]; exact pow_eq (by omega)
    rw [h3] at h2
    exact Nat.lt_irrefl _ (Nat.lt_of_lt_of_le h2 h1)

theorem split_shift (M s : Nat) (h1 : 49 ≤ s) (h2 : s < 64) (hM : M < 2 ^ 113) :
    (M / 2 ^ 64 * 2 ^ (64 - s) % 2 ^ 64 ||| M % 2 ^ 64 / 2 ^ s) = M / 2 ^ s := by
  have hp : 2 ^ 64 = 2 ^ (64 - s) * 2 ^ s := by rw [← Nat.pow_add]; exact pow_eq (by omega)
  have hs := Nat.two_pow_pos s
  have h3 : M / 2 ^ 64 * 2 ^ (64 - s) < 2 ^ 64 := by
    have a : M / 2 ^ 64 < 2 ^ 49 := by omega
    have b := Nat.mul_lt_mul_of_pos_right a (Nat.two_pow_pos (64 - s))
    rw [← Nat.pow_add] at b
    exact Nat.lt_of_lt_of_le b (Nat.pow_le_pow_right (by omega) (by omega))
  have h4 : M % 2 ^ 64 / 2 ^ s < 2 ^ (64 - s) := by
    rw [Nat.div_lt_iff_lt_mul hs, ← hp]
    exact Nat.mod_lt _ (by decide)
  rw [Nat.mod_eq_of_lt h3, Nat.or_comm, or_mul _ _ _ h4]
  have hM' : M = M % 2 ^ 64 + 2 ^ s * (M / 2 ^ 64 * 2 ^ (64 - s)) := by
    have := Nat.div_add_mod M (2 ^ 64)
    have e : 2 ^ s * (M / 2 ^ 64 * 2 ^ (64 - s)) = 2 ^ 64 * (M / 2 ^ 64) := by
      rw [hp]; ac_rfl
    rw [e]; omega
  rw [hM'] 
  rw [Nat.add_mul_div_left _ _ hs, ← hM']
  omega

/-- The common part of the conversions to 64 bits. -/
theorem fixHigh_eq {P : Nat} (hP : P < 2 ^ 127) (h : b128.mag P / 2 ^ b128.unit < 2 ^ 64) :
    fixHigh (P / 2 ^ 64 : Nat) (P % 2 ^ 64) = some (b128.mag P / 2 ^ b128.unit) := by
  have hb := whole_bound h
  unfold fixHigh
  by_cases c : P < 0x3FFF * 2 ^ 112
  · rw [if_pos (by omega), whole_small c]
  · have hc : 0x3FFF * 2 ^ 112 ≤ P := Nat.le_of_not_lt c
    rw [if_neg (by omega), whole_big hc]
    simp only
    obtain ⟨E, hE⟩ : ∃ E, E = P / 2 ^ 112 := ⟨_, rfl⟩
    have hE1 : 0x3FFF ≤ E := by omega
    have hE2 : E < 0x3FFF + 64 := by omega
    have hEI : (112 + 0x3FFF - ((P / 2 ^ 64 : Nat) : Int) / 2 ^ 48) = ((16495 - E : Nat) : Int) := by omega
    have hE3 : E ≤ 16495 := by omega
    rw [hEI, ← hE, if_pos hE3]
    obtain ⟨s, hs⟩ : ∃ s, s = 16495 - E := ⟨_, rfl⟩
    rw [← hs]
    have hM : (((P / 2 ^ 64 : Nat) : Int).toNat % 2 ^ 48 ||| 0x0001000000000000) = (2 ^ 112 + P % 2 ^ 112) / 2 ^ 64 := by
      rw [Int.toNat_natCast, show 0x0001000000000000 = 2 ^ 48 from rfl, or_sign _ _ (by omega)]
      omega
    have hL : P % 2 ^ 64 = (2 ^ 112 + P % 2 ^ 112) % 2 ^ 64 := by omega
    rw [hM, hL]
    have hMb : 2 ^ 112 + P % 2 ^ 112 < 2 ^ 113 := by omega
    generalize 2 ^ 112 + P % 2 ^ 112 = M at hMb ⊢
    by_cases c1 : s < 64
    · rw [if_pos (by omega), if_pos (by omega), Int.toNat_natCast, show ((64 : Int) - (s : Int)).toNat = 64 - s by omega]
      rw [split_shift M s (by omega) c1 hMb]
    · rw [if_neg (by omega), Int.toNat_natCast, Nat.div_div_eq_div_mul, ← Nat.pow_add]
      rw [show 64 + s % 64 = s by omega]

/-- The integral part of a number. -/
theorem whole_eq (x : Nat) : size b128 x / 2 ^ b128.unit = b128.mag (b128.abs x) / 2 ^ b128.unit := by
  unfold size; rw [absOf_eq]

theorem upper_eq {x : Nat} (hx : Pat b128 x) :
    upper x = if b128.neg x then ((b128.abs x / 2 ^ 64 : Nat) : Int) - 2 ^ 63 else ((b128.abs x / 2 ^ 64 : Nat) : Int) := by
  unfold upper
  rw [toS_pat hx]
  split <;> omega

/-- A number above minus one that fits into 64 bits. -/
theorem fixunstfdi_eq {x : Nat} (hx : Pat b128 x) (h : size b128 x / 2 ^ b128.unit < 2 ^ 64)
    (hn : negative b128 x → size b128 x / 2 ^ b128.unit = 0) :
    fixunstfdi x = some (size b128 x / 2 ^ b128.unit) := by
  have hl := abs_lt x
  rw [negative_iff hx] at hn
  rw [whole_eq] at h hn ⊢
  unfold fixunstfdi
  have e2 : x % 2 ^ 64 = b128.abs x % 2 ^ 64 := (split_sign hx).2.1
  rw [upper_eq hx, e2]
  cases hb : b128.neg x
  · rw [if_neg (by decide)]
    exact fixHigh_eq hl h
  · rw [if_pos rfl, hn hb]
    unfold fixHigh
    rw [if_pos (by omega)]

theorem wrap_sub (m : Nat) (h : m ≤ 2 ^ 63) : wrap64 (2 ^ 64 - 1 - (((m : Int) + -1) % 2 ^ 64).toNat) = -(m : Int) := by
  unfold wrap64
  rcases Nat.eq_zero_or_pos m with rfl | hm
  · decide
  · have e : (((m : Int) + -1) % 2 ^ 64).toNat = m - 1 := by omega
    rw [e]
    split <;> omega

theorem fixtfdi_eq {x : Nat} (hx : Pat b128 x)
    (h : size b128 x / 2 ^ b128.unit < 2 ^ 63 ∨ (negative b128 x ∧ size b128 x / 2 ^ b128.unit = 2 ^ 63)) :
    ∃ n, fixtfdi x = some n ∧ Truncated b128 x n := by
  have hl := abs_lt x
  have e2 : x % 2 ^ 64 = b128.abs x % 2 ^ 64 := (split_sign hx).2.1
  unfold Truncated
  rw [negative_iff hx] at h ⊢
  rw [whole_eq] at h ⊢
  obtain ⟨m, hm⟩ : ∃ m, m = b128.mag (b128.abs x) / 2 ^ b128.unit := ⟨_, rfl⟩
  have hf := fixHigh_eq hl (by rw [← hm] at h ⊢; omega)
  rw [← hm] at h hf ⊢
  unfold fixtfdi
  have eu : upper x % 2 ^ 63 = ((b128.abs x / 2 ^ 64 : Nat) : Int) := by
    rw [upper_eq hx]; split <;> omega
  have es : upper x < 0 ↔ b128.neg x = true := by
    rw [upper_eq hx]; cases b128.neg x <;> simp <;> omega
  dsimp only
  rw [eu, e2, hf, Option.bind_some]
  simp only [es]
  cases hb : b128.neg x
  · rw [hb] at h
    simp only [Bool.false_eq_true, false_and, or_false] at h
    refine ⟨(m : Int), ?_, by omega, fun h => by simp at h, fun _ => by omega⟩
    have e0 : (((m : Int) + 0) % 2 ^ 64).toNat = m := by omega
    rw [if_neg (show ¬ false = true by decide), if_pos rfl, e0]
    unfold wrap64
    rw [if_pos h]
  · rw [hb] at h
    simp only [true_and] at h
    have := wrap_sub m (by omega)
    refine ⟨-(m : Int), ?_, by omega, fun _ => by omega, fun h => absurd rfl h⟩
    rw [if_pos rfl, if_neg (by decide), this]

/-- The `double` with the upper bits of the pattern. -/
theorem head_whole {P : Nat} (h1 : 0x3FFF * 2 ^ 112 ≤ P) (h2 : P < (0x3FFF + 32) * 2 ^ 112) :
    b64.mag ((P / 2 ^ 64 - 0x3C00000000000000) * 2 ^ 4) / 2 ^ b64.unit = b128.mag P / 2 ^ b128.unit ∧
      (P / 2 ^ 64 - 0x3C00000000000000) * 2 ^ 4 < b64.inf := by
  have hi := inf64
  refine ⟨?_, by omega⟩
  rw [whole_big h1, if_pos (by omega)]
  obtain ⟨E, hE⟩ : ∃ E, E = P / 2 ^ 112 := ⟨_, rfl⟩
  obtain ⟨S, hS⟩ : ∃ S, S = (2 ^ 112 + P % 2 ^ 112) / 2 ^ 64 := ⟨_, rfl⟩
  have hS12 : 2 ^ 48 ≤ S ∧ S < 2 ^ 49 := by omega
  have hP : P / 2 ^ 64 = E * 2 ^ 48 + (S - 2 ^ 48) := by omega
  have hE1 : 0x3FFF ≤ E := by omega
  have hE2 : E < 0x3FFF + 32 := by omega
  rw [← hE, hP, shift_field E S (by omega) hS12.1]
  have h := b64.mag_mk (E - 0x3C00) (S * 2 ^ 4) (by omega) (by show 2 ^ 52 ≤ _; omega) (by show _ < 2 ^ 53; omega)
  rw [show E - 0x3C00 - 1 = E - 0x3C01 by omega] at h
  rw [show b64.mag ((E - 0x3C00) * 2 ^ 52 + (S * 2 ^ 4 - 2 ^ 52)) = _ from h]
  obtain ⟨v, hv, hv'⟩ : ∃ v, b64.unit = v ∧ v = 1074 := ⟨_, rfl, rfl⟩
  rw [hv]
  have e1 : S * 2 ^ 4 * 2 ^ (E - 0x3C01) = S * 2 ^ (E - 0x3C01 + 4) := by
    rw [Nat.mul_assoc, ← Nat.pow_add]; exact congrArg (S * ·) (pow_eq (by omega))
  have e2 : 2 ^ v = 2 ^ (E - 0x3C01 + 4) * 2 ^ (16431 - E) := by rw [← Nat.pow_add]; exact pow_eq (by omega)
  rw [e1, e2, ← Nat.div_div_eq_div_mul, Nat.mul_div_cancel _ (Nat.two_pow_pos _), hS, Nat.div_div_eq_div_mul, ← Nat.pow_add]
  rw [show 64 + (16431 - E) = 16495 - E by omega]

theorem fromDouble_pack {lo hi : Int} {s : Bool} {d m : Nat} (hd : d < b64.inf) (hm : b64.mag d / 2 ^ b64.unit = m)
    (h : lo ≤ (if s then -(m : Int) else (m : Int)) ∧ (if s then -(m : Int) else (m : Int)) ≤ hi) :
    fromDouble lo hi (b64.pack s d) = some (if s then -(m : Int) else (m : Int)) := by
  have hd' : d < b64.signBit := Nat.lt_trans hd Fmt.inf_lt
  unfold fromDouble Fmt.whole
  rw [if_pos (Fmt.isFin_iff.2 (by rw [Fmt.abs_pack hd']; exact hd)), Fmt.abs_pack hd', Fmt.neg_pack hd', hm]
  simp only
  rw [if_pos h]

theorem trunc_pack {s : Bool} {x m : Nat} (hx : Pat b128 x) (hs : b128.neg x = s) (hm : b128.mag (b128.abs x) / 2 ^ b128.unit = m) :
    Truncated b128 x (if s then -(m : Int) else (m : Int)) := by
  unfold Truncated
  rw [whole_eq, hm, negative_iff hx, hs]
  cases s <;> simp

theorem fixtfsi_eq {x : Nat} (hx : Pat b128 x)
    (h : size b128 x / 2 ^ b128.unit < 2 ^ 31 ∨ (negative b128 x ∧ size b128 x / 2 ^ b128.unit = 2 ^ 31)) :
    ∃ n, fixtfsi x = some n ∧ Truncated b128 x n := by
  have hl := abs_lt x
  obtain ⟨e1, e2, e3⟩ := split_sign hx
  rw [negative_iff hx] at h
  rw [whole_eq] at h
  obtain ⟨m, hm⟩ : ∃ m, m = b128.mag (b128.abs x) / 2 ^ b128.unit := ⟨_, rfl⟩
  rw [← hm] at h
  have hb := whole_bound (P := b128.abs x) (k := 32) (by rw [← hm]; omega)
  have ht := trunc_pack hx rfl hm.symm
  unfold fixtfsi
  simp only
  rw [e1, e3]
  by_cases c : b128.abs x < 0x3FFF * 2 ^ 112
  · rw [if_pos (by omega)]
    rw [whole_small c] at hm
    subst hm
    refine ⟨0, rfl, ?_⟩
    have e : (if b128.neg x = true then -((0 : Nat) : Int) else ((0 : Nat) : Int)) = 0 := by split <;> rfl
    rwa [e] at ht
  · rw [if_neg (by omega)]
    have hc : 0x3FFF * 2 ^ 112 ≤ b128.abs x := Nat.le_of_not_lt c
    obtain ⟨w1, w2⟩ := head_whole hc hb
    have ed : (x / 2 ^ 64 + (2 ^ 64 - 0x3C00000000000000)) * 2 ^ 4 % 2 ^ 64 = (b128.abs x / 2 ^ 64 - 0x3C00000000000000) * 2 ^ 4 := by
      have hi := inf64
      omega
    rw [ed]
    have hi := inf64
    have hd : (b128.abs x / 2 ^ 64 - 0x3C00000000000000) * 2 ^ 4 < 2 ^ 63 := by omega
    rw [Nat.or_comm, or_pack64 hd]
    refine ⟨_, fromDouble_pack w2 (w1.trans hm.symm) ?_, ht⟩
    cases hs : b128.neg x
    · rw [hs] at h
      simp only [Bool.false_eq_true, if_false, false_and, or_false] at h ⊢
      omega
    · rw [hs] at h
      simp only [if_true, true_and] at h ⊢
      omega

theorem fixunstfsi_eq {x : Nat} (hx : Pat b128 x) (h : size b128 x / 2 ^ b128.unit < 2 ^ 32)
    (hn : negative b128 x → size b128 x / 2 ^ b128.unit = 0) :
    fixunstfsi x = some ((size b128 x / 2 ^ b128.unit : Nat) : Int) := by
  have hl := abs_lt x
  rw [negative_iff hx] at hn
  rw [whole_eq] at h hn ⊢
  have hb := whole_bound h
  unfold fixunstfsi
  simp only
  rw [upper_eq hx]
  cases hs : b128.neg x
  · rw [if_neg (show ¬ false = true by decide)]
    by_cases c : b128.abs x < 0x3FFF * 2 ^ 112
    · rw [if_pos (by omega), whole_small c]; rfl
    · rw [if_neg (by omega)]
      have hc : 0x3FFF * 2 ^ 112 ≤ b128.abs x := Nat.le_of_not_lt c
      obtain ⟨w1, w2⟩ := head_whole hc hb
      have ed : ((((b128.abs x / 2 ^ 64 : Nat) : Int) - 0x3C00000000000000) * 2 ^ 4 % 2 ^ 64).toNat =
          (b128.abs x / 2 ^ 64 - 0x3C00000000000000) * 2 ^ 4 := by
        have hi := inf64
        omega
      rw [ed]
      have := fromDouble_pack (lo := 0) (hi := 2 ^ 32 - 1) (s := false) w2 w1 (by
        simp only [Bool.false_eq_true, if_false]
        exact ⟨Int.natCast_nonneg _, by omega⟩)
      have ep : b64.pack false ((b128.abs x / 2 ^ 64 - 0x3C00000000000000) * 2 ^ 4) = (b128.abs x / 2 ^ 64 - 0x3C00000000000000) * 2 ^ 4 := Nat.zero_add _
      rw [ep] at this
      exact this
  · rw [if_pos (show true = true from rfl), if_pos (by omega), hn hs]; rfl

theorem fixBits_eq {P : Nat} (hP : P < 2 ^ 127) (h : b128.mag P / 2 ^ b128.unit < 2 ^ 128) :
    fixBits (P : Nat) = some (b128.mag P / 2 ^ b128.unit) := by
  have hb := whole_bound h
  unfold fixBits
  simp only
  by_cases c : P < 0x3FFF * 2 ^ 112
  · rw [if_pos (by omega), whole_small c]
  · have hc : 0x3FFF * 2 ^ 112 ≤ P := Nat.le_of_not_lt c
    rw [if_neg (by omega)]
    rw [whole_big hc] at h ⊢
    obtain ⟨E, hE⟩ : ∃ E, E = P / 2 ^ 112 := ⟨_, rfl⟩
    have hE1 : 0x3FFF ≤ E := by omega
    have hE2 : E < 0x3FFF + 128 := by omega
    have hEI : (112 + 0x3FFF - (P : Int) / 2 ^ 112) = 16495 - (E : Int) := by omega
    have hM : ((P : Int).toNat % 2 ^ 112 ||| 2 ^ 112) = 2 ^ 112 + P % 2 ^ 112 := by
      rw [Int.toNat_natCast, or_sign _ _ (by omega)]
    rw [hEI, hM]
    rw [← hE] at h ⊢
    generalize 2 ^ 112 + P % 2 ^ 112 = M at h ⊢
    by_cases c1 : E ≤ 16495
    · rw [if_pos c1, if_neg (by omega), show ((16495 : Int) - E).toNat = 16495 - E by omega]
      unfold shr
      rw [if_pos (by omega)]
    · rw [if_neg c1] at h
      rw [if_neg c1, if_pos (by omega), show (-((16495 : Int) - E)).toNat = E - 16495 by omega]
      unfold shl
      rw [if_pos (by omega), Nat.mod_eq_of_lt h]

theorem fixunstfti_eq {x : Nat} (hx : Pat b128 x) (h : size b128 x / 2 ^ b128.unit < 2 ^ 128)
    (hn : negative b128 x → size b128 x / 2 ^ b128.unit = 0) :
    fixunstfti x = some (size b128 x / 2 ^ b128.unit) := by
  have hl := abs_lt x
  rw [negative_iff hx] at hn
  rw [whole_eq] at h hn ⊢
  unfold fixunstfti
  rw [toS_pat hx]
  cases hb : b128.neg x
  · rw [if_neg (by decide)]
    exact fixBits_eq hl h
  · rw [if_pos rfl, hn hb]
    unfold fixBits
    simp only
    rw [if_pos (by omega)]

theorem fixtfti_eq {x : Nat} (hx : Pat b128 x) (h : size b128 x / 2 ^ b128.unit < 2 ^ 127) :
    ∃ n, fixtfti x = some n ∧ Truncated b128 x n := by
  have hl := abs_lt x
  rw [whole_eq] at h
  obtain ⟨m, hm⟩ : ∃ m, m = b128.mag (b128.abs x) / 2 ^ b128.unit := ⟨_, rfl⟩
  have ht := trunc_pack hx rfl hm.symm
  rw [← hm] at h
  refine ⟨_, ?_, ht⟩
  unfold fixtfti
  rw [← abs128, toS_small _ hl, fixBits_eq hl (by rw [← hm]; omega), ← hm]
  simp only [Option.bind_some]
  rw [toS_small m h]
  have hn := Fmt.neg_iff (F := b128) hx
  rw [sign128] at hn
  cases hb : b128.neg x
  · rw [hb] at hn
    simp only [Bool.false_eq_true, false_iff] at hn ⊢
    rw [if_neg hn, if_neg (by decide)]
  · rw [hb] at hn
    simp only [true_iff] at hn ⊢
    rw [if_pos hn, if_pos trivial]
    unfold chk128
    rw [if_pos (by unfold IsI128; omega)]

/-- The most negative integer is out of reach: the code negates it. -/
theorem fixtfti_min {x : Nat} (hx : Pat b128 x) (hn : negative b128 x) (h : size b128 x / 2 ^ b128.unit = 2 ^ 127) :
    fixtfti x = none := by
  have hl := abs_lt x
  rw [whole_eq] at h
  rw [negative_iff hx] at hn
  have hs := (Fmt.neg_iff (F := b128) hx).1 hn
  rw [sign128] at hs
  unfold fixtfti
  rw [← abs128, toS_small _ hl, fixBits_eq hl (by rw [h]; decide), h]
  simp only [Option.bind_some]
  rw [if_pos hs]
  decide

end Verif.Quad
