import Verif.Quad.Cmp

/-! # Conversion of `float` and `double` to `long double` -/

namespace Verif.Quad
open Verif.Float Verif.Int128 Verif.Math Verif.Math.Spec Verif.Quad.Spec

theorem inf64 : b64.inf = 0x7FF * 2 ^ 52 := by decide
theorem sign64 : b64.signBit = 2 ^ 63 := rfl

/-- The pattern of an exponent and a significand of `f` bits below the implied one. -/
theorem mag_of (E : Int) (m : Nat) (hE : -15359 ≤ E) (h1 : 2 ^ 52 ≤ m) (h2 : m < 2 ^ 53) :
    b128.mag (0x3C * 2 ^ 120 + (E * ((2 ^ 52 : Nat) : Int) + ((m - 2 ^ 52 : Nat) : Int)) * 2 ^ 60).toNat = m * 2 ^ 60 * 2 ^ (E + 15359).toNat := by
  obtain ⟨k, hk⟩ : ∃ k : Nat, (k : Int) = E + 15360 := ⟨(E + 15360).toNat, by omega⟩
  have e1 : (0x3C * 2 ^ 120 + (E * ((2 ^ 52 : Nat) : Int) + ((m - 2 ^ 52 : Nat) : Int)) * 2 ^ 60).toNat = k * 2 ^ 112 + (m * 2 ^ 60 - 2 ^ 112) := by
    rw [show E = (k : Int) - 15360 by omega]
    omega
  rw [e1, show (E + 15359).toNat = k - 1 by omega]
  exact b128.mag_mk k (m * 2 ^ 60) (by omega) (by show 2 ^ 112 ≤ _; omega) (by show _ < 2 ^ 113; omega)

theorem extend_bound (E : Int) (m : Nat) (hE : -15359 ≤ E) (hE' : E ≤ 2046) (h1 : 2 ^ 52 ≤ m) (h2 : m < 2 ^ 53) :
    (0x3C * 2 ^ 120 + (E * ((2 ^ 52 : Nat) : Int) + ((m - 2 ^ 52 : Nat) : Int)) * 2 ^ 60).toNat < b128.inf := by
  rw [inf128]
  omega

theorem or_high {i : Nat} (h : i < 2 ^ 63) : 0x78 * 2 ^ 120 ||| i * 2 ^ 60 = 0x78 * 2 ^ 120 + i * 2 ^ 60 := by
  have : i * 2 ^ 60 ||| 0xF * 2 ^ 123 = _ := or_mul _ _ _ (show i * 2 ^ 60 < 2 ^ 123 by omega)
  rw [Nat.or_comm]
  have e : 0x78 * 2 ^ 120 = 0xF * 2 ^ 123 := by decide
  rw [e, this, Nat.add_comm]

/-- extenddftf2.c:4-12. -/
theorem extendMagnitude_eq {i : Nat} (h : i < 2 ^ 63) : ∃ n, extendMagnitude i = some n ∧ n < 2 ^ 127 ∧
    (i < b64.inf → n < b128.inf ∧ b128.mag n * 2 ^ b64.unit = b64.mag i * 2 ^ b128.unit) ∧ (i = b64.inf → n = b128.inf) ∧ (b64.inf < i → b128.inf < n) := by
  unfold extendMagnitude
  rw [show 0x7FF0000000000000 = b64.inf by decide]
  have hi := inf64
  have hi' := inf128
  by_cases c : b64.inf ≤ i
  · rw [if_pos c, or_high h]
    exact ⟨_, rfl, by omega, by omega, by omega, by omega⟩
  · rw [if_neg c]
    by_cases c0 : i = 0
    · rw [if_pos c0]
      refine ⟨0, rfl, by omega, fun _ => ⟨by omega, ?_⟩, by omega, by omega⟩
      rw [c0, b128.mag_zero, b64.mag_zero, Nat.zero_mul, Nat.zero_mul]
    · rw [if_neg c0]
      obtain ⟨E, m, h1, h2, h3, h4, h5, h6⟩ := normalize_eq good_dbl (i := i) (by omega) (by show i < b64.inf; omega)
      have e1 : dbl.fmt = b64 := rfl
      have e2 : b64.f = 52 := rfl
      have e3 : b64.bias = 1023 := rfl
      rw [e1, e2] at h1 h2 h3 h4
      rw [e1] at h6
      rw [e1, e3] at h5
      obtain ⟨u, hu, hu'⟩ : ∃ u, u = b64.unit ∧ u = 1074 := ⟨_, rfl, rfl⟩
      obtain ⟨v, hv, hv'⟩ : ∃ u, u = b128.unit ∧ u = 16494 := ⟨_, rfl, rfl⟩
      rw [h1, Option.bind_some]
      have hb := extend_bound E m (by omega) (by omega) h2 h3
      refine ⟨_, rfl, by omega, fun _ => ⟨hb, ?_⟩, by omega, by omega⟩
      rw [← hu, ← hv, mag_of E m (by omega) h2 h3, Nat.mul_assoc, Nat.mul_assoc, ← Nat.pow_add, ← Nat.pow_add]
      exact (pow_shift h6 (by omega)).symm

theorem extenddftf2_eq {x : Nat} (hx : Pat b64 x) : ∃ r, extenddftf2 x = some r ∧ (¬ NaN b64 x → SameNumber b64 b128 x r) ∧ (NaN b64 x → NaN b128 r) := by
  have hl : b64.abs x < 2 ^ 63 := Nat.mod_lt _ (Nat.two_pow_pos 63)
  obtain ⟨n, h1, h2, h3, h4, h5⟩ := extendMagnitude_eq hl
  unfold extenddftf2
  rw [h1, Option.bind_some]
  have ha : absOf b128 (b128.pack (b64.neg x) n) = n := Fmt.abs_pack h2
  refine ⟨_, rfl, fun hn => ⟨Fmt.pack_lt h2, ?_, fun hf => ?_, fun hf => ?_⟩, fun hn => ?_⟩
  · have : n ≤ b128.inf := by
      have hn' : ¬ b64.inf < b64.abs x := hn
      rcases Nat.lt_or_eq_of_le (Nat.le_of_not_lt hn') with h | h
      · exact Nat.le_of_lt (h3 h).1
      · exact Nat.le_of_eq (h4 h)
    rw [negative_pack this, negative_iff hx]
  · obtain ⟨g1, g2⟩ := h3 hf
    refine ⟨?_, ?_⟩
    · unfold Finite; rw [ha]; exact g1
    · unfold size; rw [ha]; exact g2
  · unfold Infinite; rw [ha]; exact h4 hf
  · unfold NaN; rw [ha]; exact h5 hn

/-! ### float -/

/-- A normal `double` moved to the exponent range of `long double`. -/
theorem ext_normal {n : Nat} (h1 : 2 ^ 52 ≤ n) (h2 : n < b64.inf) :
    0x3C * 2 ^ 120 + n * 2 ^ 60 < b128.inf ∧ b128.mag (0x3C * 2 ^ 120 + n * 2 ^ 60) * 2 ^ b64.unit = b64.mag n * 2 ^ b128.unit := by
  have hn : n = n / 2 ^ 52 * 2 ^ 52 + ((2 ^ 52 + n % 2 ^ 52) - 2 ^ 52) := by omega
  rw [inf64] at h2
  generalize hE : n / 2 ^ 52 = E at hn
  generalize hm : 2 ^ 52 + n % 2 ^ 52 = m at hn
  have e1 : 0x3C * 2 ^ 120 + n * 2 ^ 60 = (0x3C * 2 ^ 120 + ((E : Int) * ((2 ^ 52 : Nat) : Int) + ((m - 2 ^ 52 : Nat) : Int)) * 2 ^ 60).toNat := by
    omega
  rw [e1]
  refine ⟨extend_bound E m (by omega) (by omega) (by omega) (by omega), ?_⟩
  obtain ⟨u, hu, hu'⟩ : ∃ u, u = b64.unit ∧ u = 1074 := ⟨_, rfl, rfl⟩
  obtain ⟨v, hv, hv'⟩ : ∃ u, u = b128.unit ∧ u = 16494 := ⟨_, rfl, rfl⟩
  rw [mag_of E m (by omega) (by omega) (by omega), hn, ← hu, ← hv]
  have : b64.mag (E * 2 ^ 52 + (m - 2 ^ 52)) = m * 2 ^ (E - 1) := b64.mag_mk E m (by omega) (by show 2 ^ 52 ≤ _; omega) (by show _ < 2 ^ 53; omega)
  rw [this, Nat.mul_assoc, Nat.mul_assoc, Nat.mul_assoc, ← Nat.pow_add, ← Nat.pow_add, ← Nat.pow_add]
  exact congrArg (m * ·) (pow_eq (by omega))

/-- A nonzero finite `float` as a `double`: normal, with zeros at the end. -/
theorem conv32_form {x : Nat} (h0 : 0 < b32.abs x) (hf : b32.abs x < b32.inf) :
    ∃ n, b32.conv b64 x = b64.pack (b32.neg x) n ∧ 2 ^ 52 ≤ n ∧ n < b64.inf ∧ n % 2 ^ 4 = 0 ∧ b64.mag n * 2 ^ b32.unit = b32.mag (b32.abs x) * 2 ^ b64.unit := by
  obtain ⟨n, h1, h2, h3⟩ := Fmt.conv_exact ok32 ok64 (by decide) (by decide) hf (G := b64)
  obtain ⟨E, m, g1, g2, g3, g4, g5, g6⟩ := normalize_eq good_flt (i := b32.abs x) h0 hf
  have e1 : flt.fmt = b32 := rfl
  have e2 : b32.f = 23 := rfl
  have e3 : b32.bias = 127 := rfl
  rw [e1, e2] at g1 g2 g3 g4
  rw [e1] at g6
  rw [e1, e3] at g5
  obtain ⟨k, hk⟩ : ∃ k : Nat, (k : Int) = E + 896 := ⟨(E + 896).toNat, by omega⟩
  have hmk : b64.mag (k * 2 ^ 52 + (m * 2 ^ 29 - 2 ^ 52)) = m * 2 ^ 29 * 2 ^ (k - 1) :=
    b64.mag_mk k (m * 2 ^ 29) (by omega) (by show 2 ^ 52 ≤ _; omega) (by show _ < 2 ^ 53; omega)
  obtain ⟨d, hd, hd'⟩ : ∃ d, b64.unit - b32.unit = d ∧ d = 925 := ⟨_, rfl, by decide⟩
  have hn : n = k * 2 ^ 52 + (m * 2 ^ 29 - 2 ^ 52) := by
    apply b64.mag_inj
    rw [h3, hmk, hd, Nat.mul_assoc, ← Nat.pow_add]
    exact pow_shift g6 (by omega)
  refine ⟨n, h1, by omega, h2, by omega, ?_⟩
  rw [h3, Nat.mul_assoc, ← Nat.pow_add]
  exact congrArg (b32.mag (b32.abs x) * ·) (pow_eq (by decide))

theorem sign_high {s : Bool} {n : Nat} (h : n < 2 ^ 63) : b64.pack s n % 2 ^ 63 = n ∧ (b64.pack s n &&& 2 ^ 63) = if s then 2 ^ 63 else 0 := by
  refine ⟨Fmt.abs_pack (F := b64) h, ?_⟩
  rw [and_two_pow]
  unfold Fmt.pack
  rw [sign64]
  cases s <;> simp <;> omega

theorem sign_quad {s : Bool} {h : Nat} (hh : h < 2 ^ 63) : (h ||| if s then 2 ^ 63 else 0) * 2 ^ 64 = b128.pack s (h * 2 ^ 64) := by
  unfold Fmt.pack
  rw [sign128]
  cases s
  · simp
  · have e := or_sign h 63 hh
    simp only [if_true]
    rw [e]
    omega

theorem extendsftf2_eq {x : Nat} (hx : Pat b32 x) : (¬ NaN b32 x → SameNumber b32 b128 x (extendsftf2 x)) ∧ (NaN b32 x → NaN b128 (extendsftf2 x)) := by
  have key : ∀ n, b32.conv b64 x = b64.pack (b32.neg x) n → n < 2 ^ 63 → extendHigh n < 2 ^ 63 →
      extendsftf2 x = b128.pack (b32.neg x) (extendHigh n * 2 ^ 64) := by
    intro n h1 h2 h3
    unfold extendsftf2
    simp only
    rw [h1, (sign_high h2).1, (sign_high h2).2]
    exact sign_quad h3
  have hi := inf128
  have hi64 := inf64
  refine ⟨fun hn => ?_, fun hn => ?_⟩
  · have hn' : b32.abs x ≤ b32.inf := Nat.le_of_not_lt hn
    suffices ∃ m, extendsftf2 x = b128.pack (b32.neg x) m ∧ m ≤ b128.inf ∧
        (b32.abs x < b32.inf → m < b128.inf ∧ b128.mag m * 2 ^ b32.unit = b32.mag (b32.abs x) * 2 ^ b128.unit) ∧ (b32.abs x = b32.inf → m = b128.inf) by
      obtain ⟨m, h1, h2, h3, h4⟩ := this
      rw [h1]
      refine ⟨pat_pack h2, by rw [negative_pack h2, negative_iff hx], fun hf => ?_, fun hf => ?_⟩
      · unfold Finite size; rw [absOf_pack h2]; exact h3 hf
      · unfold Infinite; rw [absOf_pack h2]; exact h4 hf
    rcases Nat.lt_or_eq_of_le hn' with hf | hf
    · by_cases h0 : b32.abs x = 0
      · have : b32.conv b64 x = b64.pack (b32.neg x) 0 := by
          obtain ⟨n, h1, h2, h3⟩ := Fmt.conv_exact ok32 ok64 (by decide) (by decide) hf (G := b64)
          rw [h0, b32.mag_zero, Nat.zero_mul] at h3
          rw [h1, show n = 0 from b64.mag_inj (by rw [h3, b64.mag_zero])]
        rw [key 0 this (by decide) (by decide)]
        refine ⟨0, rfl, by omega, fun _ => ⟨by omega, ?_⟩, fun h => ?_⟩
        · rw [h0, b32.mag_zero, b128.mag_zero, Nat.zero_mul, Nat.zero_mul]
        · rw [h0] at h; exact absurd h (by decide)
      · obtain ⟨n, h1, h2, h3, h4, h5⟩ := conv32_form (by omega) hf
        obtain ⟨q1, q2⟩ := ext_normal h2 h3
        have hh : extendHigh n = 0x3C00000000000000 + n / 2 ^ 4 := by
          unfold extendHigh
          rw [if_neg (by omega), if_neg (by omega)]
        have hm : extendHigh n * 2 ^ 64 = 0x3C * 2 ^ 120 + n * 2 ^ 60 := by rw [hh]; omega
        rw [key n h1 (by omega) (by omega), hm]
        refine ⟨_, rfl, by omega, fun _ => ⟨q1, ?_⟩, by omega⟩
        apply Nat.eq_of_mul_eq_mul_right (Nat.two_pow_pos b64.unit)
        rw [Nat.mul_right_comm, q2, Nat.mul_right_comm, h5, Nat.mul_right_comm]
    · rw [key b64.inf (Fmt.conv_inf hf) (by decide) (by decide)]
      refine ⟨b128.inf, ?_, Nat.le_refl _, fun h => by omega, fun _ => rfl⟩
      congr 1
  · have hn' : b32.inf < b32.abs x := hn
    have : b32.conv b64 x = b64.nan := by
      unfold Fmt.conv
      rw [if_pos (Fmt.isNaN_iff.2 hn')]
    unfold extendsftf2
    simp only
    rw [this]
    show b128.inf < absOf b128 _
    decide

end Verif.Quad
