import Verif.Quad.Sub
import Verif.Quad.Spec
import Verif.Math.Bridge

/-! # Addition of signed `long double` numbers -/

namespace Verif.Quad
open Verif.Float Verif.Int128 Verif.Math Verif.Math.Spec Verif.Quad.Spec

theorem sign_differs (a b : Nat) (ha : Pat b128 a) (hb : Pat b128 b) : (a ^^^ b) / 2 ^ 127 ≠ 0 ↔ b128.neg a ≠ b128.neg b := by
  have ha' : a < 2 ^ 128 := ha
  have hb' : b < 2 ^ 128 := hb
  have hx : a ^^^ b < 2 ^ 128 := Nat.xor_lt_two_pow ha' hb'
  have ht : (a ^^^ b).testBit 127 = (a.testBit 127 != b.testBit 127) := by rw [Nat.testBit_xor]
  rw [neg_bit, neg_bit]
  rw [Nat.testBit_eq_decide_div_mod_eq] at ht
  constructor
  · intro h e
    rw [e] at ht
    simp at ht
    omega
  · intro h e
    rw [e] at ht
    cases hA : a.testBit 127 <;> cases hB : b.testBit 127 <;> simp_all

theorem with_sign {a m : Nat} (hm : m < 2 ^ 127) : (a &&& 2 ^ 127) ||| m = b128.pack (b128.neg a) m := by
  have := or_sign_xor (x := a) (y := 0) hm
  rw [Nat.or_comm, Nat.xor_zero] at this
  rw [this, show b128.neg 0 = false by decide]
  simp

theorem inf_lt_sign : b128.inf < 2 ^ 127 := by rw [inf128]; omega

theorem nearest_lt {num den r : Nat} (h : Nearest b128 num den r) : r < 2 ^ 127 := Nat.lt_of_le_of_lt h.le inf_lt_sign

theorem sgnd_rounded {s : Bool} {n r : Nat} (h : Nearest b128 n 1 r) : Rounded b128 (sgnd s n) 1 (b128.pack s r) := by
  refine ⟨pat_pack h.le, ?_, ?_⟩
  · intro hn
    rw [negative_pack h.le]
    unfold sgnd at hn ⊢
    cases s <;> simp at hn ⊢ <;> omega
  · rw [absOf_pack h.le, sgnd_abs]; exact h

/-- addtf3.c:55-77 for finite operands. -/
theorem sorted_eq {sl : Nat → Nat → Option Nat} (hsl : Shifts sl) {a b r : Nat} (ha : Pat b128 a) (hb : Pat b128 b)
    (hba : b128.abs b ≤ b128.abs a) (haf : b128.abs a < b128.inf) (hgap : ¬ Straddle a b) (h : sorted sl a b = some r) : IsSum a b r := by
  unfold sorted at h
  simp only at h
  have e1 : a % 2 ^ 127 = b128.abs a := rfl
  have e2 : b % 2 ^ 127 = b128.abs b := rfl
  rw [e1, e2, ← inf128, if_neg (by omega)] at h
  simp only [sign_differs a b ha hb] at h
  unfold IsSum
  rw [value_eq ha, value_eq hb, val_sgnd, val_sgnd, negative_iff ha, negative_iff hb]
  by_cases hs : b128.neg a ≠ b128.neg b
  · rw [if_pos hs, if_neg (by omega)] at h
    have hsum : sgnd (b128.neg a) (b128.mag (b128.abs a)) + sgnd (b128.neg b) (b128.mag (b128.abs b)) =
        sgnd (b128.neg a) (b128.mag (b128.abs a) - b128.mag (b128.abs b)) := by
      have := b128.mag_mono hba
      unfold sgnd
      cases hA : b128.neg a <;> cases hB : b128.neg b <;> simp_all <;> omega
    rw [hsum]
    by_cases hab : b128.abs a = b128.abs b
    · rw [if_pos hab] at h
      rw [← Option.some.inj h, hab, Nat.sub_self]
      have h0 : sgnd (b128.neg a) 0 = 0 := by unfold sgnd; split <;> rfl
      rw [h0]
      refine ⟨⟨by unfold Pat; decide, fun h => absurd rfl h, ?_⟩, fun _ => ?_⟩
      · exact nearest_exact (by omega) (by rw [inf128]; exact Nat.zero_le _) (by rw [show absOf b128 0 = 0 by decide, b128.mag_zero]; rfl)
      · constructor
        · intro h; exact absurd h (by decide)
        · intro h; rw [h.1, h.2] at hs; exact absurd rfl hs
    · rw [if_neg hab] at h
      cases hm : subMagnitude sl (b128.abs a) (b128.abs b) with
      | none => rw [hm] at h; cases h
      | some m =>
      rw [hm, Option.bind_some] at h
      have hlt : b128.abs b < b128.abs a := by omega
      have hmag := b128.mag_strictMono hlt
      have hn := subMagnitude_eq hsl hlt haf (by
        rintro ⟨g1, g2, g3, g4⟩
        apply hgap
        refine ⟨by rw [negative_iff ha, negative_iff hb]; intro h; apply hs; cases hA : b128.neg a <;> cases hB : b128.neg b <;> simp_all, ?_⟩
        rw [size_eq, size_eq, Nat.max_eq_left (Nat.le_of_lt hmag), Nat.min_eq_right (Nat.le_of_lt hmag)]
        rw [expDiff_eq, if_neg g3] at g1
        obtain ⟨m1, E, hm1, hE, _, _, hma, _⟩ := parts (b128.abs a)
        obtain ⟨m2, e, hm2, he, _, hlt2, hmb, _⟩ := parts (b128.abs b)
        rw [if_neg (by omega)] at hm1 hE
        rw [if_neg g3] at hm2 he
        rw [g2, Nat.zero_add] at hm1
        refine ⟨112 + (E - 1), ?_, ?_, ?_⟩
        · rw [hma, hm1, ← Nat.pow_add]
        · rw [hmb, show 112 + (E - 1) = 113 + (113 + (e - 1)) by omega, Nat.pow_add, Nat.pow_add (m := 113)]
          exact Nat.mul_lt_mul_of_pos_left (Nat.mul_lt_mul_of_pos_right hlt2 (Nat.two_pow_pos _)) (by omega)
        · rw [hmb, show 112 + (E - 1) = 114 + (112 + (e - 1)) by omega, Nat.pow_add, Nat.pow_add (m := 112)]
          exact Nat.mul_lt_mul_of_pos_left (Nat.mul_lt_mul_of_pos_right (by omega) (Nat.two_pow_pos _)) (by omega)) hm
      rw [← Option.some.inj h, with_sign (nearest_lt hn)]
      refine ⟨sgnd_rounded hn, fun h => ?_⟩
      unfold sgnd at h
      split at h <;> omega
  · rw [if_neg hs] at h
    have hs' : b128.neg b = b128.neg a := by
      cases hA : b128.neg a <;> cases hB : b128.neg b <;> simp_all
    cases hm : addMagnitude sl (b128.abs a) (b128.abs b) with
    | none => rw [hm] at h; cases h
    | some m =>
    rw [hm, Option.bind_some] at h
    have hn := addMagnitude_eq hsl hba haf hm
    rw [← Option.some.inj h, with_sign (nearest_lt hn), hs']
    have hsum : sgnd (b128.neg a) (b128.mag (b128.abs a)) + sgnd (b128.neg a) (b128.mag (b128.abs b)) =
        sgnd (b128.neg a) (b128.mag (b128.abs a) + b128.mag (b128.abs b)) := by
      unfold sgnd
      cases hA : b128.neg a <;> simp <;> omega
    rw [hsum]
    refine ⟨sgnd_rounded hn, fun _ => ?_⟩
    rw [negative_pack hn.le]; simp

theorem isSum_comm {x y r : Nat} (h : IsSum x y r) : IsSum y x r := by
  unfold IsSum at *
  rw [Int.add_comm]
  exact ⟨h.1, fun e => (h.2 e).trans and_comm⟩

theorem straddle_comm {x y : Nat} (h : Straddle x y) : Straddle y x := by
  unfold Straddle at *
  rw [Nat.max_comm, Nat.min_comm]
  exact ⟨fun e => h.1 e.symm, h.2⟩

/-- addtf3.c:79-86 for finite operands. -/
theorem addWith_eq {sl : Nat → Nat → Option Nat} (hsl : Shifts sl) {x y r : Nat} (hx : Pat b128 x) (hy : Pat b128 y)
    (hxf : Finite b128 x) (hyf : Finite b128 y) (hgap : ¬ Straddle x y) (h : addWith sl x y = some r) : IsSum x y r := by
  unfold addWith at h
  split at h
  · next c => exact isSum_comm (sorted_eq hsl hy hx (Nat.le_of_lt c) hyf (fun g => hgap (straddle_comm g)) h)
  · next c => exact sorted_eq hsl hx hy (Nat.le_of_not_lt c) hxf hgap h

/-! ### When the shifts are defined -/

theorem shr_some {x s : Nat} (h : s < 128) : shr x s = some (x / 2 ^ s) := by unfold shr; rw [if_pos h]
theorem shl_some {x s : Nat} (h : s < 128) : shl x s = some (x * 2 ^ s % 2 ^ 128) := by unfold shl; rw [if_pos h]
theorem shl_none (x : Nat) : shl x (128 - 0) = none := by unfold shl; rw [if_neg (by omega)]

theorem align_or (b : Nat) : b * 2 ^ 15 % 2 ^ 128 ||| bit (b / 2 ^ 112 ≠ 0) * 2 ^ 127 =
    (b % 2 ^ 112 + if b / 2 ^ 112 = 0 then 0 else 2 ^ 112) * 2 ^ 15 := by
  rw [align]
  by_cases hz : b / 2 ^ 112 = 0
  · rw [if_pos hz, bit_congr (q := False) (by simp [hz]), hz, show bit False = 0 from rfl, Nat.zero_mul, Nat.or_zero]
    generalize b % 2 ^ 112 = q
    rw [Nat.add_zero, Nat.add_zero]
  · rw [if_neg hz, bit_congr (q := True) (by simp [hz]), show bit True = 1 from rfl, Nat.one_mul, or_top (by omega) (by omega)]
    omega

theorem addMagnitude_none (a b : Nat) : addMagnitude shl a b = none ↔ 2 ^ 112 ≤ a ∧ expDiff a b = 0 := by
  unfold addMagnitude
  simp only
  by_cases c1 : a < 2 ^ 112
  · rw [if_pos c1]; simp; omega
  rw [if_neg c1]
  by_cases c2 : 114 ≤ expDiff a b
  · rw [if_pos c2]; simp; omega
  rw [if_neg c2, shr_some (by omega), Option.bind_some]
  by_cases c3 : expDiff a b = 0
  · rw [c3, shl_none]; simp; omega
  · rw [shl_some (by omega), Option.bind_some]
    split <;> simp [c3]

theorem subMagnitude_none {a b : Nat} (hba : b < a) (ha : a < b128.inf) : subMagnitude shl a b = none ↔ 2 ^ 113 ≤ a ∧ expDiff a b = 0 := by
  rw [inf128] at ha
  unfold subMagnitude
  simp only
  by_cases c1 : a < 2 * 2 ^ 112
  · rw [if_pos c1]; simp; omega
  rw [if_neg c1]
  by_cases c2 : 114 ≤ expDiff a b
  · rw [if_pos c2]; simp; omega
  rw [if_neg c2, shr_some (by omega), Option.bind_some]
  by_cases c3 : expDiff a b = 0
  · rw [c3, shl_none]; simp; omega
  rw [shl_some (by omega), Option.bind_some]
  refine ⟨fun h => ?_, fun h => absurd h.2 c3⟩
  exfalso
  rw [align_or] at h
  have hm2 : b % 2 ^ 112 + (if b / 2 ^ 112 = 0 then 0 else 2 ^ 112) < 2 ^ 113 := by split <;> omega
  generalize b % 2 ^ 112 + (if b / 2 ^ 112 = 0 then 0 else 2 ^ 112) = m' at h hm2
  obtain ⟨bb, hbb⟩ : ∃ bb, bb = m' * 2 ^ 15 := ⟨_, rfl⟩
  rw [← hbb] at h
  rw [align, or_top (by omega) (by omega)] at h
  have ht : (bb / 2 ^ expDiff a b ||| bit (bb * 2 ^ (128 - expDiff a b) % 2 ^ 128 ≠ 0)) ≤ bb / 2 + 1 := by
    have h1 : bb / 2 ^ expDiff a b ≤ bb / 2 := by
      apply Nat.div_le_div_left _ (by omega)
      exact Nat.le_trans (by omega : 2 ≤ 2 ^ 1) (Nat.pow_le_pow_right (by omega) (by omega))
    rw [or_bit]
    split <;> omega
  generalize (bb / 2 ^ expDiff a b ||| bit (bb * 2 ^ (128 - expDiff a b) % 2 ^ 128 ≠ 0)) = t at h ht
  generalize hi : (a % 2 ^ 112 * 2 ^ 15 + 2 ^ 127 + 2 ^ 128 - t) % 2 ^ 128 = i at h
  by_cases hi0 : i = 0
  · -- only the full difference of the leading bits could vanish
    omega
  rw [bits_eq i _ hi0 (by omega)] at h
  generalize (i * 2 ^ (127 - Nat.log2 i) / 2 ^ 15 - 2 ^ 112) = p at h
  generalize (if i * 2 ^ (127 - Nat.log2 i) % 2 ^ 15 > 2 ^ 14 ∨ (i * 2 ^ (127 - Nat.log2 i) % 2 ^ 15 = 2 ^ 14 ∧ i * 2 ^ (127 - Nat.log2 i) / 2 ^ 15 % 2 = 1) then 1 else 0 : Nat) = u at h
  split at h
  · cases h
  · next hbits =>
    split at h
    · rw [shr_some (by omega)] at h; cases h
    · rw [shl_some (by omega)] at h; cases h

theorem expDiff_zero {a b : Nat} (hba : b ≤ a) (ha : 2 ^ 112 ≤ a) : expDiff a b = 0 ↔ max 1 (a / 2 ^ 112) = max 1 (b / 2 ^ 112) := by
  have := Nat.div_le_div_right (c := 2 ^ 112) hba
  rw [expDiff_eq]
  split <;> omega

theorem sorted_none {a b : Nat} (ha : Pat b128 a) (hb : Pat b128 b) (hba : b128.abs b ≤ b128.abs a) (haf : b128.abs a < b128.inf) :
    sorted shl a b = none ↔ max 1 (b128.abs a / 2 ^ 112) = max 1 (b128.abs b / 2 ^ 112) ∧
      ((b128.neg a = b128.neg b ∧ 2 ^ 112 ≤ b128.abs a) ∨ (b128.neg a ≠ b128.neg b ∧ b128.abs a ≠ b128.abs b ∧ 2 ^ 113 ≤ b128.abs a)) := by
  unfold sorted
  simp only
  have e1 : a % 2 ^ 127 = b128.abs a := rfl
  have e2 : b % 2 ^ 127 = b128.abs b := rfl
  rw [e1, e2, ← inf128, if_neg (by omega)]
  simp only [sign_differs a b ha hb]
  by_cases hs : b128.neg a ≠ b128.neg b
  · rw [if_pos hs, if_neg (by omega)]
    by_cases hab : b128.abs a = b128.abs b
    · rw [if_pos hab]; simp [hab, hs]
    · rw [if_neg hab, Option.bind_eq_none_iff]
      have : (∀ m, subMagnitude shl (b128.abs a) (b128.abs b) = some m → (some ((a &&& 2 ^ 127) ||| m) : Option Nat) = none) ↔
          subMagnitude shl (b128.abs a) (b128.abs b) = none := by
        cases subMagnitude shl (b128.abs a) (b128.abs b) <;> simp
      rw [this, subMagnitude_none (by omega) haf]
      constructor
      · rintro ⟨h1, h2⟩
        exact ⟨(expDiff_zero hba (by omega)).1 h2, .inr ⟨hs, hab, h1⟩⟩
      · rintro ⟨h1, ⟨h2, _⟩ | ⟨_, _, h2⟩⟩
        · exact absurd h2 hs
        · exact ⟨h2, (expDiff_zero hba (by omega)).2 h1⟩
  · rw [if_neg hs, Option.bind_eq_none_iff]
    have : (∀ m, addMagnitude shl (b128.abs a) (b128.abs b) = some m → (some ((a &&& 2 ^ 127) ||| m) : Option Nat) = none) ↔
        addMagnitude shl (b128.abs a) (b128.abs b) = none := by
      cases addMagnitude shl (b128.abs a) (b128.abs b) <;> simp
    rw [this, addMagnitude_none]
    constructor
    · rintro ⟨h1, h2⟩
      exact ⟨(expDiff_zero hba h1).1 h2, .inl ⟨Decidable.not_not.1 hs, h1⟩⟩
    · rintro ⟨h1, ⟨_, h2⟩ | ⟨h2, _⟩⟩
      · exact ⟨h2, (expDiff_zero hba h2).2 h1⟩
      · exact absurd h2 hs

theorem neg_same {x y : Nat} (hx : Pat b128 x) (hy : Pat b128 y) : (negative b128 x ↔ negative b128 y) ↔ b128.neg x = b128.neg y := by
  rw [negative_iff hx, negative_iff hy]
  cases b128.neg x <;> cases b128.neg y <;> simp

/-- The finite operands for which a shift by 128 is evaluated. -/
theorem addtf3_none {x y : Nat} (hx : Pat b128 x) (hy : Pat b128 y) (hxf : Finite b128 x) (hyf : Finite b128 y) :
    addtf3 x y = none ↔ expo x = expo y ∧
      (((negative b128 x ↔ negative b128 y) ∧ 2 ^ 112 ≤ max (absOf b128 x) (absOf b128 y)) ∨
        (¬ (negative b128 x ↔ negative b128 y) ∧ absOf b128 x ≠ absOf b128 y ∧ 2 ^ 113 ≤ max (absOf b128 x) (absOf b128 y))) := by
  rw [neg_same hx hy]
  unfold addtf3 addWith expo
  rw [absOf_eq, absOf_eq]
  have e1 : x % 2 ^ 127 = b128.abs x := rfl
  have e2 : y % 2 ^ 127 = b128.abs y := rfl
  rw [e1, e2]
  by_cases c : b128.abs x < b128.abs y
  · rw [if_pos c, sorted_none hy hx (Nat.le_of_lt c) hyf, Nat.max_eq_right (a := b128.abs x) (Nat.le_of_lt c)]
    rw [eq_comm (a := max 1 (b128.abs y / 2 ^ 112)), eq_comm (a := b128.neg y), ne_comm (a := b128.abs y), ne_comm (a := b128.neg y)]
  · rw [if_neg c, sorted_none hx hy (Nat.le_of_not_lt c) hxf, Nat.max_eq_left (b := b128.abs y) (Nat.le_of_not_lt c)]

/-! ### Infinities and NaN -/

theorem or_nan {a : Nat} (h : b128.inf ≤ b128.abs a) : NaN b128 (a ||| 2 ^ 111) := by
  have e : ∀ a : Nat, b128.abs a = a % 2 ^ 127 := fun _ => rfl
  show b128.inf < b128.abs (a ||| 2 ^ 111)
  rw [e] at h ⊢
  rw [Nat.or_mod_two_pow, show 2 ^ 111 % 2 ^ 127 = 2 ^ 111 by decide]
  rw [inf128] at h ⊢
  have h1 : a % 2 ^ 127 ≤ (a % 2 ^ 127 ||| 2 ^ 111) := Nat.left_le_or
  rcases Nat.lt_or_eq_of_le h with h2 | h2
  · exact Nat.lt_of_lt_of_le h2 h1
  · rw [← h2]; decide

theorem sorted_nan {sl : Nat → Nat → Option Nat} {a b : Nat} (h : NaN b128 a) : ∃ r, sorted sl a b = some r ∧ NaN b128 r := by
  have h' : b128.inf < b128.abs a := h
  unfold sorted
  simp only
  rw [← inf128, if_pos (by exact h')]
  exact ⟨_, rfl, or_nan (Nat.le_of_lt h')⟩

/-- A NaN operand gives NaN. -/
theorem addWith_nan {sl : Nat → Nat → Option Nat} {x y : Nat} (h : NaN b128 x ∨ NaN b128 y) : ∃ r, addWith sl x y = some r ∧ NaN b128 r := by
  unfold addWith
  have e1 : x % 2 ^ 127 = b128.abs x := rfl
  have e2 : y % 2 ^ 127 = b128.abs y := rfl
  rw [e1, e2]
  have ex : NaN b128 x ↔ b128.inf < b128.abs x := Iff.rfl
  have ey : NaN b128 y ↔ b128.inf < b128.abs y := Iff.rfl
  split
  · apply sorted_nan; rw [ex, ey] at h; rw [ey]; omega
  · apply sorted_nan; rw [ex, ey] at h; rw [ex]; omega

theorem composeSum_inf {s e : Nat} (h : 0x7FFE ≤ e) : composeSum s e = b128.inf := by
  unfold composeSum
  rw [if_neg (by omega), inf128]

theorem addMagnitude_inf {sl : Nat → Nat → Option Nat} {b r : Nat} (h : addMagnitude sl b128.inf b = some r) : r = b128.inf := by
  have hi := inf128
  unfold addMagnitude at h
  simp only at h
  rw [if_neg (by omega)] at h
  split at h
  · exact (Option.some.inj h).symm
  · cases h1 : shr ((b % 2 ^ 112) ||| bit (b / 2 ^ 112 ≠ 0) * 2 ^ 112) (expDiff b128.inf b) with
    | none => rw [h1] at h; cases h
    | some t =>
    rw [h1, Option.bind_some] at h
    cases h2 : sl ((b % 2 ^ 112) ||| bit (b / 2 ^ 112 ≠ 0) * 2 ^ 112) (128 - expDiff b128.inf b) with
    | none => rw [h2] at h; cases h
    | some f =>
    rw [h2, Option.bind_some, composeSum_inf (by omega), composeSum_inf (by omega)] at h
    split at h <;> exact (Option.some.inj h).symm

/-- Adding to an infinity. -/
theorem sorted_inf {sl : Nat → Nat → Option Nat} {a b r : Nat} (ha : Pat b128 a) (hb : Pat b128 b) (hai : Infinite b128 a)
    (h : sorted sl a b = some r) :
    ((Infinite b128 b → (negative b128 a ↔ negative b128 b)) → r = a) ∧ (Infinite b128 b → ¬ (negative b128 a ↔ negative b128 b) → NaN b128 r) := by
  rw [neg_same ha hb]
  have hai' : b128.abs a = b128.inf := hai
  have ebi : Infinite b128 b ↔ b128.abs b = b128.inf := Iff.rfl
  rw [ebi]
  unfold sorted at h
  simp only at h
  have e1 : a % 2 ^ 127 = b128.abs a := rfl
  have e2 : b % 2 ^ 127 = b128.abs b := rfl
  rw [e1, e2, ← inf128, if_neg (by omega)] at h
  simp only [sign_differs a b ha hb] at h
  by_cases hs : b128.neg a ≠ b128.neg b
  · rw [if_pos hs, if_pos hai'] at h
    by_cases hbi' : b128.abs b = b128.inf
    · refine ⟨fun g => absurd (g hbi') hs, fun _ _ => ?_⟩
      rw [bit_congr (q := True) (by simp [hbi'])] at h
      rw [← Option.some.inj h]
      exact or_nan (Nat.le_of_eq hai'.symm)
    · refine ⟨fun _ => ?_, fun g => absurd g hbi'⟩
      rw [bit_congr (q := False) (by simp [hbi'])] at h
      rw [← Option.some.inj h]
      show a ||| 0 = a
      exact Nat.or_zero _
  · rw [if_neg hs] at h
    refine ⟨fun _ => ?_, fun _ g => absurd (Decidable.not_not.1 hs) g⟩
    cases hm : addMagnitude sl (b128.abs a) (b128.abs b) with
    | none => rw [hm] at h; cases h
    | some m =>
    rw [hm, Option.bind_some] at h
    rw [hai'] at hm
    rw [← Option.some.inj h, addMagnitude_inf hm, with_sign inf_lt_sign, ← hai', Fmt.pack_self ha]

theorem sorted_inf_some {a b : Nat} (ha : Pat b128 a) (hb : Pat b128 b) (hai : Infinite b128 a)
    (h : Finite b128 b ∨ ¬ (negative b128 a ↔ negative b128 b)) : ∃ r, sorted shl a b = some r := by
  rw [neg_same ha hb] at h
  have hai' : b128.abs a = b128.inf := hai
  unfold sorted
  simp only
  have e1 : a % 2 ^ 127 = b128.abs a := rfl
  have e2 : b % 2 ^ 127 = b128.abs b := rfl
  rw [e1, e2, ← inf128, if_neg (by omega)]
  simp only [sign_differs a b ha hb]
  by_cases hs : b128.neg a ≠ b128.neg b
  · rw [if_pos hs, if_pos hai']; exact ⟨_, rfl⟩
  · rw [if_neg hs]
    have hbf : b128.abs b < b128.inf := by
      rcases h with h | h
      · exact h
      · exact absurd h hs
    cases hm : addMagnitude shl (b128.abs a) (b128.abs b) with
    | some m => exact ⟨_, rfl⟩
    | none =>
      have := (addMagnitude_none _ _).1 hm
      rw [hai', expDiff_eq] at this
      rw [inf128] at this hbf
      exfalso
      have h2 := this.2
      split at h2 <;> omega

/-- An infinity plus a finite number is the infinity. -/
theorem addtf3_inf {x y : Nat} (hx : Pat b128 x) (hy : Pat b128 y) (hxi : Infinite b128 x) (hyf : Finite b128 y) :
    addtf3 x y = some x ∧ addtf3 y x = some x := by
  have hxi' : b128.abs x = b128.inf := hxi
  have hyf' : b128.abs y < b128.inf := hyf
  obtain ⟨r, hr⟩ := sorted_inf_some hx hy hxi (.inl hyf)
  have := (sorted_inf hx hy hxi hr).1 (fun h => absurd (show b128.abs y = b128.inf from h) (by omega))
  subst this
  unfold addtf3 addWith
  have e1 : r % 2 ^ 127 = b128.abs r := rfl
  have e2 : y % 2 ^ 127 = b128.abs y := rfl
  rw [e1, e2, if_neg (by omega), if_pos (by omega)]
  exact ⟨hr, hr⟩

/-- Infinities of opposite signs give NaN; of equal signs, a result can only be the infinity. -/
theorem addWith_inf_inf {x y : Nat} (hx : Pat b128 x) (hy : Pat b128 y) (hxi : Infinite b128 x) (hyi : Infinite b128 y) :
    (¬ (negative b128 x ↔ negative b128 y) → ∃ r, addtf3 x y = some r ∧ NaN b128 r) ∧
    ((negative b128 x ↔ negative b128 y) → addtf3 x y = none ∧ ∀ sl r, addWith sl x y = some r → r = x) := by
  have hxi' : b128.abs x = b128.inf := hxi
  have hyi' : b128.abs y = b128.inf := hyi
  have e1 : x % 2 ^ 127 = b128.abs x := rfl
  have e2 : y % 2 ^ 127 = b128.abs y := rfl
  have e3 : ∀ sl, addWith sl x y = sorted sl x y := by
    intro sl; unfold addWith; rw [e1, e2, if_neg (by omega)]
  refine ⟨fun h => ?_, fun h => ⟨?_, fun sl r hr => ?_⟩⟩
  · obtain ⟨r, hr⟩ := sorted_inf_some hx hy hxi (.inr h)
    unfold addtf3
    rw [e3]
    exact ⟨r, hr, (sorted_inf hx hy hxi hr).2 hyi h⟩
  · unfold addtf3
    rw [e3]
    rw [neg_same hx hy] at h
    unfold sorted
    simp only
    rw [e1, e2, ← inf128, if_neg (by omega)]
    simp only [sign_differs x y hx hy]
    rw [if_neg (by simp [h]), (addMagnitude_none _ _).2 ⟨by rw [hxi', inf128]; omega, by rw [hxi', hyi']; decide⟩]
    rfl
  · rw [e3] at hr
    exact (sorted_inf hx hy hxi hr).1 (fun _ => h)

end Verif.Quad
