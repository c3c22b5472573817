import Verif.Arith.Lemmas

/-! # C124: absolute values and quotients; C125: integer powers -/

namespace Verif.Arith
open Verif.Float Verif.Math Verif.Math.Spec

/-- The values of a signed type of width `N`. -/
def Signed (N : Nat) (x : Int) : Prop := -2 ^ (N - 1) ≤ x ∧ x < 2 ^ (N - 1)

/-- The absolute value, whenever it is representable; otherwise the call is undefined.  `abs`, `labs`: `N = 32`; `llabs`,
`imaxabs`: `N = 64`. -/
theorem C124_abs (N : Nat) (a : Int) (h : Signed N a) :
    (a ≠ -2 ^ (N - 1) → abs N a = some (a.natAbs : Int)) ∧ (a = -2 ^ (N - 1) → abs N a = none) := by
  unfold Signed at h
  unfold abs chkN
  have hp : (0 : Int) < 2 ^ (N - 1) := Int.pow_pos (by decide)
  generalize (2 : Int) ^ (N - 1) = P at *
  constructor
  · intro hne
    by_cases h0 : a < 0
    · rw [if_pos h0, if_pos (by omega)]; congr 1; omega
    · rw [if_neg h0]
      by_cases h1 : a = 0
      · rw [if_neg (by omega), h1]; rfl
      · rw [if_pos h1]; congr 1; omega
  · intro he
    rw [if_pos (by omega), if_neg (by omega)]

example : abs 32 (-7) = some 7 ∧ abs 64 (-2 ^ 63 + 1) = some (2 ^ 63 - 1) ∧ abs 32 (-2 ^ 31) = none ∧ abs 32 0 = some 0 := by decide

/-- The quotient and the remainder fit in the type, the numerator is the quotient times the denominator plus the remainder, the
remainder is less than the denominator in magnitude and it does not have the opposite sign of the numerator.  The call is
undefined exactly if the denominator is zero or the quotient does not fit. -/
theorem C124_div (N : Nat) (a b : Int) (hN : 2 ≤ N) (ha : Signed N a) (hb : Signed N b) :
    ((b ≠ 0 ∧ ¬ (a = -2 ^ (N - 1) ∧ b = -1)) → ∃ q r, div N a b = some (q, r) ∧ Signed N q ∧ Signed N r ∧ a = q * b + r ∧
      r.natAbs < b.natAbs ∧ 0 ≤ a * r) ∧
    ((b = 0 ∨ (a = -2 ^ (N - 1) ∧ b = -1)) → div N a b = none) := by
  unfold Signed at *
  have hp : (2 : Int) ≤ 2 ^ (N - 1) := by
    have := Nat.pow_le_pow_right (n := 2) (by omega) (show 1 ≤ N - 1 by omega)
    have e : (2 : Int) ^ (N - 1) = ((2 ^ (N - 1) : Nat) : Int) := by simp
    omega
  unfold div remainder quotient chkN
  generalize (2 : Int) ^ (N - 1) = P at *
  have hd := Int.mul_tdiv_add_tmod a b
  constructor
  · rintro ⟨h0, h1⟩
    have hl : (a.tdiv b).natAbs ≤ a.natAbs := by rw [Int.natAbs_tdiv]; exact Nat.div_le_self _ _
    have hm : (a.tmod b).natAbs < b.natAbs := by rw [Int.natAbs_tmod]; exact Nat.mod_lt _ (by omega)
    have hm2 : (a.tmod b).natAbs ≤ a.natAbs := by rw [Int.natAbs_tmod]; exact Nat.mod_le _ _
    have hq : -P ≤ a.tdiv b ∧ a.tdiv b < P := by
      by_cases hb1 : b = -1
      · subst hb1
        rw [Int.tdiv_neg, Int.tdiv_one]; omega
      · have hq2 : (a.tdiv b).natAbs = a.natAbs / b.natAbs := Int.natAbs_tdiv _ _
        by_cases hb2 : b = 1
        · subst hb2; rw [Int.tdiv_one]; omega
        · have : a.natAbs / b.natAbs ≤ a.natAbs / 2 := Nat.div_le_div_left (by omega) (by omega)
          omega
    rw [if_neg h0, if_pos hq]
    have hsgn : 0 ≤ a * a.tmod b := by
      rcases Int.lt_or_le a 0 with h | h
      · exact Int.mul_nonneg_of_nonpos_of_nonpos (by omega) (by
        have := Int.tmod_nonneg b (a := -a) (by omega)
        rw [Int.neg_tmod] at this; omega)
      · exact Int.mul_nonneg h (Int.tmod_nonneg b h)
    refine ⟨a.tdiv b, a.tmod b, rfl, hq, ?_, by rw [Int.mul_comm]; omega, hm, hsgn⟩
    have hms := Int.tmod_nonneg b (a := a)
    omega
  · rintro (h0 | ⟨h1, h2⟩)
    · rw [if_pos h0]; rfl
    · rw [if_neg (by omega), if_neg (by rw [h2, Int.tdiv_neg, Int.tdiv_one]; omega)]; rfl

example : div 32 (-7) 2 = some (-3, -1) ∧ div 64 7 (-2) = some (-3, 1) ∧ div 32 (-2 ^ 31) (-1) = none ∧ div 32 (-2 ^ 31) 1 = some (-2 ^ 31, 0) ∧
    div 64 5 0 = none := by decide

/-! ### Powers -/

/-- `r` is exactly the `n`-th power of `x`. -/
def IsPower (F : Fmt) (x : Nat) (n : Nat) (r : Nat) : Prop := value F r * 2 ^ (F.unit * n) = value F x ^ n * 2 ^ F.unit

theorem natAbs_value {F : Fmt} (x : Nat) : (value F x).natAbs = F.mag (F.abs x) := by
  unfold value; rw [size_eq]; split <;> omega

theorem isPower_mag {F : Fmt} {x n r : Nat} (hr : Finite F r) (h : IsPower F x n r) : IsPow F (F.abs x) n (F.abs r) := by
  refine ⟨hr, ?_⟩
  have := congrArg Int.natAbs h
  rw [Int.natAbs_mul, Int.natAbs_mul, Int.natAbs_pow, Int.natAbs_pow, Int.natAbs_pow, natAbs_value, natAbs_value] at this
  exact this

theorem isPower_pack {F : Fmt} {x n c : Nat} (hx : Pat F x) (h : IsPow F (F.abs x) n c) : IsPower F x n (F.pack (F.neg x && n % 2 == 1) c) := by
  unfold IsPower
  have h2 : ((F.mag c * 2 ^ (F.unit * n) : Nat) : Int) = ((F.mag (F.abs x) ^ n * 2 ^ F.unit : Nat) : Int) := congrArg _ h.2
  rw [Int.natCast_mul, Int.natCast_mul, Int.natCast_pow, Int.natCast_pow, Int.natCast_pow] at h2
  rw [value_pack (Nat.le_of_lt h.1), value_eq hx]
  unfold sgnd Fmt.val
  cases F.neg x
  · simpa using h2
  · rcases Nat.mod_two_eq_zero_or_one n with e | e
    · rw [e]
      have : (-(F.mag (F.abs x) : Int)) ^ n = (F.mag (F.abs x) : Int) ^ n := by
        obtain ⟨k, rfl⟩ : ∃ k, n = 2 * k := ⟨n / 2, by omega⟩
        rw [Int.pow_mul, Int.pow_mul]
        congr 1
        rw [Int.pow_succ, Int.pow_succ, Int.pow_zero, Int.pow_succ, Int.pow_succ, Int.pow_zero, Int.one_mul, Int.one_mul, Int.neg_mul_neg]
      simp only [Bool.true_and, if_true]
      rw [this]
      simpa using h2
    · rw [e]
      have : (-(F.mag (F.abs x) : Int)) ^ n = -(F.mag (F.abs x) : Int) ^ n := by
        obtain ⟨k, rfl⟩ : ∃ k, n = 2 * k + 1 := ⟨n / 2, by omega⟩
        rw [Int.pow_succ, Int.pow_succ, Int.pow_mul, Int.pow_mul]
        have : (-(F.mag (F.abs x) : Int)) ^ 2 = (F.mag (F.abs x) : Int) ^ 2 := by
          rw [Int.pow_succ, Int.pow_succ, Int.pow_zero, Int.pow_succ, Int.pow_succ, Int.pow_zero, Int.one_mul, Int.one_mul, Int.neg_mul_neg]
        rw [this, Int.mul_neg]
      simp only [Bool.true_and, if_true, beq_self_eq_true]
      rw [this, Int.neg_mul, Int.neg_mul]
      simpa using congrArg (-·) h2

theorem powu_exact {F : Fmt} (o : F.Ok) {one x n r : Nat} (h1 : one < F.inf) (h1' : F.mag one = 2 ^ F.unit) (hx : Pat F x) (hf : Finite F x)
    (hr : Finite F r) (h : IsPower F x n r) :
    Pat F (powu F one x n) ∧ Finite F (powu F one x n) ∧ IsPower F x n (powu F one x n) := by
  have hp := isPower_mag hr h
  rw [powu_eq o h1 h1' hx hf hp]
  refine ⟨pat_pack (Nat.le_of_lt hp.1), ?_, isPower_pack hx hp⟩
  unfold Finite
  rw [absOf_pack (Nat.le_of_lt hp.1)]
  exact hp.1

theorem inv_exact {F : Fmt} {one x w : Nat} (h1 : one < F.inf) (h1' : F.mag one = 2 ^ F.unit) (hx : Pat F x) (hf : Finite F x)
    (hw : Pat F w) (hwf : Finite F w) (h : value F x * value F w = 2 ^ F.unit * 2 ^ F.unit) : fdiv F one x = w := by
  have hf' : F.abs x < F.inf := hf
  have hwf' : F.abs w < F.inf := hwf
  have h1s := Nat.lt_trans h1 Fmt.inf_lt
  have hU := Nat.two_pow_pos F.unit
  have hm := congrArg Int.natAbs h
  rw [Int.natAbs_mul, Int.natAbs_mul, natAbs_value, natAbs_value, Int.natAbs_pow] at hm
  have hm' : F.mag (F.abs x) * F.mag (F.abs w) = 2 ^ F.unit * 2 ^ F.unit := hm
  have hne : F.abs x ≠ 0 := by
    intro h0; rw [h0, F.mag_zero, Nat.zero_mul] at hm'
    have := Nat.mul_pos hU hU; omega
  have hs : F.neg x = F.neg w := by
    rw [value_eq hx, value_eq hw] at h
    have e : (2 : Int) ^ F.unit * 2 ^ F.unit = ((2 ^ F.unit * 2 ^ F.unit : Nat) : Int) := by simp
    rw [e] at h
    have hpos := Nat.mul_pos hU hU
    rw [← hm'] at h hpos
    unfold Fmt.val at h
    cases hx : F.neg x <;> cases hw : F.neg w <;> simp [hx, hw] at h ⊢
    · rw [Int.mul_neg] at h; have : (0 : Int) < (F.mag (F.abs x) : Int) * F.mag (F.abs w) := by exact_mod_cast hpos
      omega
    · rw [Int.neg_mul] at h; have : (0 : Int) < (F.mag (F.abs x) : Int) * F.mag (F.abs w) := by exact_mod_cast hpos
      omega
  unfold fdiv
  rw [Fmt.not_nan_of_fin hf', Fmt.not_nan_of_fin (by rw [Fmt.abs_of_lt h1s]; exact h1), Fmt.isFin_iff.2 hf',
    Fmt.isFin_iff.2 (by rw [Fmt.abs_of_lt h1s]; exact h1), if_neg (by simp), if_pos rfl, if_pos rfl, if_neg hne, Fmt.abs_of_lt h1s,
    Fmt.neg_of_lt h1s, h1', rnd_exact (Fmt.mag_pos (Nat.pos_of_ne_zero hne)) (Nat.le_of_lt hwf') hm'.symm, hs]
  have := Fmt.pack_self hw
  cases hh : F.neg w <;> rw [hh] at this <;> simpa using this

/-- A nonnegative power that is representable is computed exactly, whatever the exponent.  Both precisions. -/
theorem C125_exact :
    (∀ x r n, Pat b64 x → Finite b64 x → Finite b64 r → IsPower b64 x n r →
      ∃ y, powidf2 x n = some y ∧ Pat b64 y ∧ Finite b64 y ∧ IsPower b64 x n y) ∧
    (∀ x r n, Pat b32 x → Finite b32 x → Finite b32 r → IsPower b32 x n r →
      ∃ y, powisf2 x n = some y ∧ Pat b32 y ∧ Finite b32 y ∧ IsPower b32 x n y) := by
  constructor
  · intro x r n hx hf hr h
    refine ⟨_, ?_, powu_exact ok64 (one := 0x3FF0000000000000) (by decide) (by decide +kernel) hx hf hr h⟩
    unfold powidf2 powi
    rw [if_neg (by omega), Int.toNat_natCast]
  · intro x r n hx hf hr h
    refine ⟨_, ?_, powu_exact ok32 (one := 0x3F800000) (by decide) (by decide +kernel) hx hf hr h⟩
    unfold powisf2 powi
    rw [if_neg (by omega), Int.toNat_natCast]

/-- A negative power of a number whose reciprocal `w` is representable is exact if the power of `w` is representable.  Missing:
the exponent `INT_MIN`. -/
theorem C125_reciprocal_partial :
    (∀ x w r n, Pat b64 x → Finite b64 x → Pat b64 w → Finite b64 w → value b64 x * value b64 w = 2 ^ b64.unit * 2 ^ b64.unit →
      Finite b64 r → IsPower b64 w n r → n < 2 ^ 31 →
      ∃ y, powidf2 x (-(n : Int)) = some y ∧ Pat b64 y ∧ Finite b64 y ∧ IsPower b64 w n y) ∧
    (∀ x w r n, Pat b32 x → Finite b32 x → Pat b32 w → Finite b32 w → value b32 x * value b32 w = 2 ^ b32.unit * 2 ^ b32.unit →
      Finite b32 r → IsPower b32 w n r → n < 2 ^ 31 →
      ∃ y, powisf2 x (-(n : Int)) = some y ∧ Pat b32 y ∧ Finite b32 y ∧ IsPower b32 w n y) := by
  have run : ∀ {F : Fmt} {one x w n : Nat} {P : Nat → Prop}, n < 2 ^ 31 → (0 < n → fdiv F one x = w) → P (powu F one w n) →
      (n = 0 → powu F one x n = powu F one w n) → ∃ y, powi F one x (-(n : Int)) = some y ∧ P y := by
    intro F one x w n P hn hd hP h0
    unfold powi
    by_cases hz : n = 0
    · rw [if_neg (by omega)]
      refine ⟨_, rfl, ?_⟩
      have : (-(n : Int)).toNat = n := by omega
      rw [this, h0 hz]; exact hP
    · rw [if_pos (by omega)]
      unfold chk32
      rw [if_pos (by unfold IsI32; omega)]
      refine ⟨_, rfl, ?_⟩
      rw [hd (by omega)]
      have : (- -(n : Int)).toNat = n := by omega
      show P (powu F one w (- -(n : Int)).toNat)
      rw [this]; exact hP
  constructor
  · intro x w r n hx hf hw hwf hv hr h hn
    exact run hn (fun _ => inv_exact (by decide) (by decide +kernel) hx hf hw hwf hv) (powu_exact ok64 (by decide) (by decide +kernel) hw hwf hr h)
      (fun h0 => by subst h0; unfold powu powuLoop; rw [dif_pos rfl, powuLoop, dif_pos rfl])
  · intro x w r n hx hf hw hwf hv hr h hn
    exact run hn (fun _ => inv_exact (by decide) (by decide +kernel) hx hf hw hwf hv) (powu_exact ok32 (by decide) (by decide +kernel) hw hwf hr h)
      (fun h0 => by subst h0; unfold powu powuLoop; rw [dif_pos rfl, powuLoop, dif_pos rfl])

/-- The exponent `INT_MIN` is negated with overflow, although `1` to any power is `1`. -/
theorem C125_min_is_undefined : powidf2 0x3FF0000000000000 (-2 ^ 31) = none ∧ powisf2 0x3F800000 (-2 ^ 31) = none := by decide +kernel

theorem powu_side {F : Fmt} {one x n : Nat} (h1 : one < F.inf) (h0 : 0 < one) (h1' : F.mag one = 2 ^ F.unit) (hx : Pat F x)
    (hn : ¬ NaN F x) :
    Pat F (powu F one x n) ∧ ¬ NaN F (powu F one x n) ∧ (negative F (powu F one x n) ↔ negative F x ∧ n % 2 = 1) ∧
      (size F x ≤ size F one → size F (powu F one x n) ≤ size F one) ∧ (size F one ≤ size F x → size F one ≤ size F (powu F one x n)) := by
  have ha : F.abs x ≤ F.inf := Nat.le_of_not_lt hn
  have h1s := Nat.lt_trans h1 Fmt.inf_lt
  have key := fun small hs => powuLoop_side h1 h0 h1' small (F.neg x) n 0 1 one (F.abs x) (Nat.le_of_lt h1) ha hs
  have e1 : F.pack (F.neg x && 1 % 2 == 1) (F.abs x) = x := by simpa using Fmt.pack_self hx
  have e2 : F.pack (F.neg x && 0 % 2 == 1) one = one := by simp [Fmt.pack]
  rw [e1, e2] at key
  have fin : ∀ {c}, powuLoop F x one n = F.pack (F.neg x && (0 + 1 * n) % 2 == 1) c → c ≤ F.inf →
      Pat F (powu F one x n) ∧ ¬ NaN F (powu F one x n) ∧ (negative F (powu F one x n) ↔ negative F x ∧ n % 2 = 1) ∧
        size F (powu F one x n) = F.mag c := by
    intro c hc hle
    unfold powu
    rw [hc]
    refine ⟨pat_pack hle, ?_, ?_, ?_⟩
    · unfold NaN; rw [absOf_pack hle]; omega
    · rw [negative_pack hle, negative_iff hx]
      simp
    · unfold size; rw [absOf_pack hle]
  have hso : size F one = F.mag one := by unfold size; rw [show absOf F one = one from Fmt.abs_of_lt h1s]
  have hsx : size F x = F.mag (F.abs x) := rfl
  rw [hso, hsx]
  rcases Nat.le_total (F.abs x) one with h | h
  · obtain ⟨c, c1, c2, c3⟩ := key true (by simp; exact h)
    simp only [if_true] at c3
    obtain ⟨f1, f2, f3, f4⟩ := fin c1 c2
    refine ⟨f1, f2, f3, fun _ => by rw [f4]; exact F.mag_mono c3, fun h' => ?_⟩
    have he : F.abs x = one := Nat.le_antisymm h ((Fmt.mag_le_iff (F := F)).1 h')
    obtain ⟨c', d1, d2, d3⟩ := key false (by simp; omega)
    simp only [Bool.false_eq_true, if_false] at d3
    obtain ⟨_, _, _, g4⟩ := fin d1 d2
    rw [g4]; exact F.mag_mono d3
  · obtain ⟨c, c1, c2, c3⟩ := key false (by simp; exact h)
    simp only [Bool.false_eq_true, if_false] at c3
    obtain ⟨f1, f2, f3, f4⟩ := fin c1 c2
    refine ⟨f1, f2, f3, fun h' => ?_, fun _ => by rw [f4]; exact F.mag_mono c3⟩
    have he : F.abs x = one := Nat.le_antisymm ((Fmt.mag_le_iff (F := F)).1 h') h
    obtain ⟨c', d1, d2, d3⟩ := key true (by simp; omega)
    simp only [if_true] at d3
    obtain ⟨_, _, _, g4⟩ := fin d1 d2
    rw [g4]; exact F.mag_mono d3

/-- For every argument that is not a NaN and every nonnegative exponent: the power is not a NaN, it is negative exactly if the
argument is negative and the exponent odd, and it lies on the same side of one as the argument. -/
theorem C125_order :
    (∀ x (n : Nat), Pat b64 x → ¬ NaN b64 x → ∃ y, powidf2 x n = some y ∧ Pat b64 y ∧ ¬ NaN b64 y ∧ (negative b64 y ↔ negative b64 x ∧ n % 2 = 1) ∧
      (size b64 x ≤ size b64 0x3FF0000000000000 → size b64 y ≤ size b64 0x3FF0000000000000) ∧
      (size b64 0x3FF0000000000000 ≤ size b64 x → size b64 0x3FF0000000000000 ≤ size b64 y)) ∧
    (∀ x (n : Nat), Pat b32 x → ¬ NaN b32 x → ∃ y, powisf2 x n = some y ∧ Pat b32 y ∧ ¬ NaN b32 y ∧ (negative b32 y ↔ negative b32 x ∧ n % 2 = 1) ∧
      (size b32 x ≤ size b32 0x3F800000 → size b32 y ≤ size b32 0x3F800000) ∧
      (size b32 0x3F800000 ≤ size b32 x → size b32 0x3F800000 ≤ size b32 y)) := by
  constructor
  · intro x n hx hn
    refine ⟨_, ?_, powu_side (n := n) (one := 0x3FF0000000000000) (by decide) (by decide) (by decide +kernel) hx hn⟩
    unfold powidf2 powi
    rw [if_neg (by omega), Int.toNat_natCast]
  · intro x n hx hn
    refine ⟨_, ?_, powu_side (n := n) (one := 0x3F800000) (by decide) (by decide) (by decide +kernel) hx hn⟩
    unfold powisf2 powi
    rw [if_neg (by omega), Int.toNat_natCast]

/-- Non-vacuity: `(-3)^5 = -243` and `(-2)^-3 = (-1/2)^3`. -/
example : IsPower b32 0xC0400000 5 0xC3730000 ∧ powisf2 0xC0400000 5 = some 0xC3730000 ∧ IsPower b32 0xBF000000 3 0xBE000000 ∧
    value b32 0xC0000000 * value b32 0xBF000000 = 2 ^ b32.unit * 2 ^ b32.unit ∧ powisf2 0xC0000000 (-3) = some 0xBE000000 ∧
    powidf2 0x4008000000000000 5 = some 0x406E600000000000 := by
  unfold IsPower; decide +kernel

end Verif.Arith
