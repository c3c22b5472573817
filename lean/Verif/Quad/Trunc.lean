import Verif.Quad.Transfer

/-! # Conversion of `long double` to `float` and `double` -/

namespace Verif.Quad
open Verif.Float Verif.Int128 Verif.Math Verif.Math.Spec Verif.Quad.Spec

/-- A sign and the upper half of a magnitude. -/
theorem split_sign {x : Nat} (hx : Pat b128 x) :
    x / 2 ^ 64 % 2 ^ 63 = b128.abs x / 2 ^ 64 ∧ x % 2 ^ 64 = b128.abs x % 2 ^ 64 ∧ (x / 2 ^ 64 &&& 2 ^ 63) = if b128.neg x then 2 ^ 63 else 0 := by
  have h' : x < 2 ^ 128 := hx
  have hn := Fmt.neg_iff (F := b128) hx
  rw [sign128] at hn
  rw [abs128]
  refine ⟨by omega, by omega, ?_⟩
  rw [and_two_pow]
  cases hb : b128.neg x <;> rw [hb] at hn <;> simp at hn ⊢ <;> omega

theorem or_pack64 {s : Bool} {n : Nat} (h : n < 2 ^ 63) : (n ||| if s then 2 ^ 63 else 0) = b64.pack s n := by
  unfold Fmt.pack
  rw [sign64]
  cases s
  · simp
  · simp only [if_true]
    exact or_sign n 63 h

/-- A normal magnitude. -/
theorem mag_parts {P : Nat} (h : 2 ^ 112 ≤ P) : b128.mag P = (2 ^ 112 + P % 2 ^ 112) * 2 ^ (P / 2 ^ 112 - 1) := b128.mag_normal h

theorem mag_le_pow {P E : Nat} (hE : 1 ≤ E) (h : P ≤ E * 2 ^ 112) : b128.mag P ≤ 2 ^ (E + 111) := by
  have h1 := b128.mag_mono h
  have h2 := b128.mag_mk E (2 ^ 112) hE (Nat.le_refl _) (by decide)
  have e : b128.f = 112 := rfl
  rw [e, Nat.sub_self, Nat.add_zero, ← Nat.pow_add] at h2
  rw [h2, show 112 + (E - 1) = E + 111 by omega] at h1
  exact h1

theorem pow_le_mag {P E : Nat} (hE : 1 ≤ E) (h : E * 2 ^ 112 ≤ P) : 2 ^ (E + 111) ≤ b128.mag P := by
  have h1 := b128.mag_mono h
  have h2 := b128.mag_mk E (2 ^ 112) hE (Nat.le_refl _) (by decide)
  have e : b128.f = 112 := rfl
  rw [e, Nat.sub_self, Nat.add_zero, ← Nat.pow_add] at h2
  rw [h2, show 112 + (E - 1) = E + 111 by omega] at h1
  exact h1

/-- A magnitude below half the smallest subnormal rounds to zero. -/
theorem tiny_zero {G : Fmt} (o : G.Ok) {P E g u : Nat} (hE : 1 ≤ E) (h : P ≤ E * 2 ^ 112) (hu : E + 112 + g ≤ u) :
    Nearest G (b128.mag P * 2 ^ g) (2 ^ u) 0 := by
  have hp := Nat.two_pow_pos u
  have := rnd_tiny o (num := b128.mag P * 2 ^ g) (den := 2 ^ u) hp (by
    have h1 := Nat.mul_le_mul_right (2 ^ g) (mag_le_pow hE h)
    rw [← Nat.pow_add] at h1
    have h2 := Nat.pow_le_pow_right (n := 2) (by omega) hu
    have h3 : 2 ^ (E + 112 + g) = 2 * 2 ^ (E + 111 + g) := by rw [← Nat.pow_succ']; exact pow_eq (by omega)
    omega)
  rw [← this]
  exact rnd_nearest _ _ hp

/-- A magnitude beyond the range rounds to infinity. -/
theorem huge_inf {G : Fmt} (o : G.Ok) {P E g u : Nat} (hE : 1 ≤ E) (h : E * 2 ^ 112 ≤ P) (hu : u + (G.f + 2 * G.bias) ≤ E + 111 + g) :
    Nearest G (b128.mag P * 2 ^ g) (2 ^ u) G.inf := by
  refine nearest_inf (Nat.two_pow_pos u) ?_
  rw [Fmt.mag_inf o, ← Nat.pow_add]
  have h1 := Nat.mul_le_mul_right (2 ^ g) (pow_le_mag hE h)
  rw [← Nat.pow_add] at h1
  exact Nat.le_trans (Nat.pow_le_pow_right (by omega) hu) h1

/-! ### float -/

/-- The exponent and the shortened significand of a normal magnitude. -/
theorem high_parts (P : Nat) :
    (P / 2 ^ 64 ||| bit (P % 2 ^ 64 ≠ 0)) =
      P / 2 ^ 112 * 2 ^ 48 + (((2 ^ 112 + P % 2 ^ 112) / 2 ^ 64 ||| bit ((2 ^ 112 + P % 2 ^ 112) % 2 ^ 64 ≠ 0)) - 2 ^ 48) := by
  have e : (2 ^ 112 + P % 2 ^ 112) % 2 ^ 64 = P % 2 ^ 64 := by omega
  rw [e, or_bit, or_bit]
  split <;> omega

theorem shift_field (E S : Nat) (hE : 0x3C00 ≤ E) (h : 2 ^ 48 ≤ S) :
    (E * 2 ^ 48 + (S - 2 ^ 48) - 0x3C00000000000000) * 2 ^ 4 = (E - 0x3C00) * 2 ^ 52 + (S * 2 ^ 4 - 2 ^ 52) := by
  obtain ⟨k, hk⟩ : ∃ k, E - 0x3C00 = k := ⟨_, rfl⟩
  rw [hk]
  have hE' : E = k + 0x3C00 := by omega
  clear hk hE
  subst hE'
  obtain ⟨T, rfl⟩ : ∃ T, S = 2 ^ 48 + T := ⟨S - 2 ^ 48, by omega⟩
  omega

/-- The intermediate `double` rounds to the same `float`. -/
theorem float_transfer {P r : Nat} (h1 : 0x3C01 * 2 ^ 112 ≤ P) {d : Nat}
    (hd : d = ((P / 2 ^ 64 ||| bit (P % 2 ^ 64 ≠ 0)) - 0x3C00000000000000) * 2 ^ 4)
    (hn : Nearest b32 (b64.mag d * 2 ^ b32.unit) (2 ^ b64.unit) r) : Nearest b32 (b128.mag P * 2 ^ b32.unit) (2 ^ b128.unit) r := by
  obtain ⟨u, hu, hu'⟩ : ∃ u, b32.unit = u ∧ u = 149 := ⟨_, rfl, rfl⟩
  obtain ⟨v, hv, hv'⟩ : ∃ v, b64.unit = v ∧ v = 1074 := ⟨_, rfl, rfl⟩
  obtain ⟨w, hw, hw'⟩ : ∃ w, b128.unit = w ∧ w = 16494 := ⟨_, rfl, rfl⟩
  rw [hu] at hn ⊢
  rw [hv] at hn
  rw [hw]
  rw [high_parts P] at hd
  rw [mag_parts (by omega)]
  have hE : 0x3C01 ≤ P / 2 ^ 112 := by omega
  generalize P / 2 ^ 112 = E at hE hd ⊢
  obtain ⟨M, hM⟩ : ∃ M, M = 2 ^ 112 + P % 2 ^ 112 := ⟨_, rfl⟩
  rw [← hM] at hd ⊢
  have hM1 : 2 ^ 112 ≤ M := by omega
  have hM2 : M < 2 ^ 113 := by omega
  obtain ⟨S, hS⟩ : ∃ S, S = (M / 2 ^ 64 ||| bit (M % 2 ^ 64 ≠ 0)) := ⟨_, rfl⟩
  rw [← hS] at hd
  have hS12 : 2 ^ 48 ≤ S ∧ S < 2 ^ 49 := by
    rw [hS, or_bit]; split <;> omega
  have hmd : b64.mag d = S * 2 ^ 4 * 2 ^ (E - 0x3C01) := by
    have : d = (E - 0x3C00) * 2 ^ 52 + (S * 2 ^ 4 - 2 ^ 52) := by
      exact hd.trans (shift_field E S (by omega) hS12.1)
    have h := b64.mag_mk (E - 0x3C00) (S * 2 ^ 4) (by omega) (by show 2 ^ 52 ≤ _; omega) (by show _ < 2 ^ 53; omega)
    rw [show E - 0x3C00 - 1 = E - 0x3C01 by omega] at h
    rw [this]
    exact h
  rw [hmd] at hn
  refine nearest_transfer (Nat.two_pow_pos _) (Nat.two_pow_pos _) (fun n hn' => ?_) hn
  obtain ⟨m, hm, hm24⟩ := mid_form (F := b32) n
  rw [hm]
  have hm24' : m < 2 ^ 24 := hm24
  unfold Fmt.ulp
  generalize n / 2 ^ b32.f - 1 = g
  have key := sticky_cmp (M := M) (k := 64) (p := E + u) (q := g + w) (t := 2 * m + 1) (by
    by_cases c : E + u + 64 + 1 ≤ g + w
    · exact .inl c
    · right
      have h3 : 2 ^ 47 * 2 * 2 ^ 64 * 2 ^ (E + u) ≤ M / 2 ^ 64 / 2 * 2 * 2 ^ 64 * 2 ^ (E + u) := by
        apply Nat.mul_le_mul_right; apply Nat.mul_le_mul_right; apply Nat.mul_le_mul_right
        omega
      refine Nat.lt_of_lt_of_le ?_ h3
      have h4 := Nat.mul_lt_mul_of_pos_right (show 2 * m + 1 < 2 ^ 25 by omega) (Nat.two_pow_pos (g + w))
      rw [← Nat.pow_add] at h4
      refine Nat.lt_of_lt_of_le h4 ?_
      rw [show 2 ^ 47 * 2 * 2 ^ 64 = 2 ^ 112 by decide, ← Nat.pow_add]
      exact Nat.pow_le_pow_right (by omega) (by omega))
  rw [← hS] at key
  have p15420 := Nat.two_pow_pos (w - v)
  have l1 : 2 * (M * 2 ^ (E - 1) * 2 ^ u) = M * 2 ^ (E + u) := by
    rw [show E + u = 1 + (E - 1) + u by omega, Nat.pow_add, Nat.pow_add]
    generalize 2 ^ (E - 1) = A; generalize 2 ^ u = B
    rw [Nat.pow_one]; ac_rfl
  have l2 : 2 ^ w * ((2 * m + 1) * 2 ^ g) = (2 * m + 1) * 2 ^ (g + w) := by rw [Nat.pow_add]; ac_rfl
  have l3 : 2 * (S * 2 ^ 4 * 2 ^ (E - 0x3C01) * 2 ^ u) * 2 ^ (w - v) = S * 2 ^ 64 * 2 ^ (E + u) := by
    have : 2 ^ 64 * 2 ^ (E + u) = 2 * 2 ^ 4 * 2 ^ (E - 0x3C01) * 2 ^ u * 2 ^ (w - v) := by
      rw [show 2 * 2 ^ 4 = 2 ^ 5 by decide, ← Nat.pow_add, ← Nat.pow_add, ← Nat.pow_add, ← Nat.pow_add]
      exact pow_eq (by omega)
    rw [Nat.mul_assoc S (2 ^ 64), this]
    generalize 2 ^ 4 = A
    generalize 2 ^ (E - 0x3C01) = B
    ac_rfl
  have l4 : 2 ^ v * ((2 * m + 1) * 2 ^ g) * 2 ^ (w - v) = (2 * m + 1) * 2 ^ (g + w) := by
    rw [show g + w = v + g + (w - v) by omega, Nat.pow_add, Nat.pow_add]; ac_rfl
  rw [l1, l2]
  have c1 : 2 * (S * 2 ^ 4 * 2 ^ (E - 0x3C01) * 2 ^ u) < 2 ^ v * ((2 * m + 1) * 2 ^ g) ↔ S * 2 ^ 64 * 2 ^ (E + u) < (2 * m + 1) * 2 ^ (g + w) := by
    rw [← l3, ← l4]; exact (Nat.mul_lt_mul_right p15420).symm
  have c2 : 2 * (S * 2 ^ 4 * 2 ^ (E - 0x3C01) * 2 ^ u) = 2 ^ v * ((2 * m + 1) * 2 ^ g) ↔ S * 2 ^ 64 * 2 ^ (E + u) = (2 * m + 1) * 2 ^ (g + w) := by
    rw [← l3, ← l4]; exact (Nat.mul_right_cancel_iff p15420).symm
  exact ⟨key.1.trans c1.symm, key.2.trans c2.symm⟩

theorem conv_pack {G : Fmt} {s : Bool} {d : Nat} (hd : d < b64.inf) :
    b64.conv G (b64.pack s d) = G.pack s (G.rnd (b64.mag d * 2 ^ G.unit) (2 ^ b64.unit)) := by
  have hd' : d < b64.signBit := Nat.lt_trans hd Fmt.inf_lt
  unfold Fmt.conv
  have h1 : b64.isNaN (b64.pack s d) = false := Fmt.isNaN_false.2 (by rw [Fmt.abs_pack hd']; omega)
  have h2 : b64.isFin (b64.pack s d) = true := Fmt.isFin_iff.2 (by rw [Fmt.abs_pack hd']; exact hd)
  rw [h1, h2, Fmt.abs_pack hd', Fmt.neg_pack hd']
  rfl

theorem trunctfsf2_high {x : Nat} (hx : Pat b128 x) :
    trunctfsf2 x = b64.conv b32 (truncHigh (b128.abs x / 2 ^ 64 ||| bit (b128.abs x % 2 ^ 64 ≠ 0)) ||| if b128.neg x then 2 ^ 63 else 0) := by
  obtain ⟨h1, h2, h3⟩ := split_sign hx
  unfold trunctfsf2
  simp only
  have e1 : (x / 2 ^ 64 ||| bit (x % 2 ^ 64 ≠ 0)) % 2 ^ 63 = (b128.abs x / 2 ^ 64 ||| bit (b128.abs x % 2 ^ 64 ≠ 0)) := by
    rw [Nat.or_mod_two_pow, h1, h2]
    congr 1
    unfold bit; split <;> rfl
  have e2 : (x / 2 ^ 64 ||| bit (x % 2 ^ 64 ≠ 0)) &&& 2 ^ 63 = (x / 2 ^ 64 &&& 2 ^ 63) := by
    rw [and_two_pow, and_two_pow]
    have : (x / 2 ^ 64 ||| bit (x % 2 ^ 64 ≠ 0)) / 2 ^ 63 = x / 2 ^ 64 / 2 ^ 63 := by
      rw [or_bit]; split <;> omega
    rw [this]
  rw [e1, e2, h3]

theorem trunctfsf2_eq {x : Nat} (hx : Pat b128 x) :
    (¬ NaN b128 x → Converted b128 b32 x (trunctfsf2 x)) ∧ (NaN b128 x → NaN b32 (trunctfsf2 x)) := by
  rw [trunctfsf2_high hx]
  have hl := abs_lt x
  have hi := inf128
  have hi64 := inf64
  generalize hP : b128.abs x = P at hl ⊢
  have hj : (P / 2 ^ 64 ||| bit (P % 2 ^ 64 ≠ 0)) = if P % 2 ^ 64 ≠ 0 then P / 2 ^ 64 / 2 * 2 + 1 else P / 2 ^ 64 := or_bit _ _
  generalize hJ : (P / 2 ^ 64 ||| bit (P % 2 ^ 64 ≠ 0)) = j at hj ⊢
  have hj63 : j < 2 ^ 63 := by rw [hj]; split <;> omega
  have hd63 : truncHigh j < 2 ^ 63 := by
    unfold truncHigh; repeat' split
    all_goals omega
  rw [or_pack64 hd63]
  refine ⟨fun hn => ?_, fun hn => ?_⟩
  · have hn' : P ≤ b128.inf := by
      have : ¬ b128.inf < b128.abs x := hn
      omega
    suffices ∃ r, b64.conv b32 (b64.pack (b128.neg x) (truncHigh j)) = b32.pack (b128.neg x) r ∧ r ≤ b32.inf ∧
        (P < b128.inf → Nearest b32 (b128.mag P * 2 ^ b32.unit) (2 ^ b128.unit) r) ∧ (P = b128.inf → r = b32.inf) by
      obtain ⟨r, h1, h2, h3, h4⟩ := this
      rw [h1]
      refine ⟨pat_pack h2, by rw [negative_pack h2, negative_iff hx], fun hf => ?_, fun hf => ?_⟩
      · unfold size
        rw [absOf_pack h2, absOf_eq, hP]
        have hf' : b128.abs x < b128.inf := hf
        exact h3 (by omega)
      · unfold Infinite; rw [absOf_pack h2]
        have hf' : b128.abs x = b128.inf := hf
        exact h4 (by omega)
    have hj1 : ¬ 0x7FFF000000000000 < j := by rw [hj]; split <;> omega
    by_cases c1 : 0x43FF000000000000 ≤ j
    · have e : truncHigh j = b64.inf := by
        unfold truncHigh; rw [if_neg hj1, if_pos c1]; exact hi64.symm
      rw [e]
      refine ⟨b32.inf, ?_, Nat.le_refl _, fun hf => ?_, fun _ => rfl⟩
      · rw [Fmt.conv_inf (Fmt.abs_pack Fmt.inf_lt), Fmt.neg_pack Fmt.inf_lt]
      · have hP43 : 0x43FF * 2 ^ 112 ≤ P := by
          rw [hj] at c1; split at c1 <;> omega
        exact huge_inf ok32 (E := 0x43FF) (by decide) hP43 (by decide)
    · by_cases c2 : P < 0x3C01 * 2 ^ 112
      · -- both the number and the intermediate `double` are negligible
        have hd52 : truncHigh j < 2 ^ 52 := by
          unfold truncHigh
          rw [if_neg hj1, if_neg c1]
          split
          · rw [hj]; split <;> omega
          · omega
        rw [conv_pack (by omega)]
        have h0 : b32.rnd (b64.mag (truncHigh j) * 2 ^ b32.unit) (2 ^ b64.unit) = 0 := by
          refine rnd_tiny ok32 (Nat.two_pow_pos _) ?_
          rw [b64.mag_small hd52]
          have h1 := Nat.mul_lt_mul_of_pos_right hd52 (Nat.two_pow_pos b32.unit)
          rw [← Nat.pow_add] at h1
          have h2 := Nat.pow_le_pow_right (n := 2) (by omega) (show 52 + b32.unit + 1 ≤ b64.unit by decide)
          rw [Nat.pow_succ] at h2
          omega
        rw [h0]
        refine ⟨0, rfl, by decide, fun _ => ?_, by omega⟩
        exact tiny_zero ok32 (E := 0x3C01) (by decide) (Nat.le_of_lt c2) (by decide)
      · have hj3 : 0x3C00000000000000 < j := by rw [hj]; split <;> omega
        have e : truncHigh j = (j - 0x3C00000000000000) * 2 ^ 4 := by
          unfold truncHigh; rw [if_neg hj1, if_neg c1, if_pos hj3]
        rw [e, conv_pack (by omega)]
        have hU := Nat.two_pow_pos b64.unit
        refine ⟨_, rfl, rnd_le _ _ hU, fun _ => ?_, fun hh => by exfalso; rw [hj] at c1; split at c1 <;> omega⟩
        exact float_transfer (P := P) (Nat.le_of_not_lt c2) (by rw [hJ]) (rnd_nearest _ _ hU)
  · have hn' : b128.inf < P := by
      have : b128.inf < b128.abs x := hn
      omega
    have hj1 : 0x7FFF000000000000 < j := by rw [hj]; split <;> omega
    have e : truncHigh j = j := by unfold truncHigh; rw [if_pos hj1]
    rw [e]
    refine nan_conv (by decide) ?_
    unfold NaN
    rw [absOf_eq, Fmt.abs_pack hj63]
    omega

end Verif.Quad
