import Verif.Quad.Div

/-!
# Properties C62–C67 and C94–C98: `long double`

A `long double` is a pattern of binary128.  `none` stands for undefined behaviour in the C code.
-/

namespace Verif.Quad
open Verif.Float Verif.Int128 Verif.Math Verif.Math.Spec Verif.Quad.Spec

/-- Patterns of small numbers, for the examples. -/
theorem pat128 {x : Nat} (h : x < 2 ^ 128) : Pat b128 x := h
theorem fin128 {x : Nat} (h : x % 2 ^ 127 < 0x7FFF * 2 ^ 112) : Finite b128 x := by
  show b128.abs x < b128.inf
  rw [abs128, inf128]; exact h

/-! ### C62: nearbyintl -/

/-- C62, partial: right for every `long double` that is a `double`.  Missing: all others, where the property
fails, see `C62_nearbyintl_violated`. -/
theorem C62_nearbyintl_partial (x : Nat) (hx : Pat b128 x) (h : IsDouble x) :
    ∃ r, nearbyintl x = some r ∧ NearestIntegral x r := nearbyintl_eq hx h

/-- The value of a positive integer. -/
theorem value_whole {x q k : Nat} (hx : x < 2 ^ 127) (hP : 2 ^ 112 ≤ x) (hM : 2 ^ 112 + x % 2 ^ 112 = q * 2 ^ k)
    (hE : k + (x / 2 ^ 112 - 1) = b128.unit) : value b128 x = (q : Int) * ((2 ^ b128.unit : Nat) : Int) := by
  have hp : Pat b128 x := pat128 (by omega)
  have ha : absOf b128 x = x := by rw [absOf_eq, abs128, Nat.mod_eq_of_lt hx]
  have hn : ¬ negative b128 x := by rw [negative_iff hp, Fmt.neg_iff hp, sign128]; omega
  unfold value size
  rw [if_neg hn, ha, mag_parts hP, hM, Nat.mul_assoc, ← Nat.pow_add, hE, Int.natCast_mul]

/-- C62 is violated: 2^60 + 1 is sent to 2^60. -/
theorem C62_nearbyintl_violated :
    ∃ x r, Pat b128 x ∧ Finite b128 x ∧ nearbyintl x = some r ∧ ¬ NearestIntegral x r := by
  refine ⟨0x403B * 2 ^ 112 + 2 ^ 52, 0x403B * 2 ^ 112, pat128 (by decide), fin128 (by decide), by decide +kernel, ?_⟩
  rintro ⟨_, _, n, ⟨h1, _⟩, h2⟩
  have e1 := value_whole (x := 0x403B * 2 ^ 112 + 2 ^ 52) (q := 2 ^ 60 + 1) (k := 52) (by decide) (by decide) (by decide) (by decide)
  have e2 := value_whole (x := 0x403B * 2 ^ 112) (q := 2 ^ 60) (k := 52) (by decide) (by decide) (by decide) (by decide)
  have hUc : (2 : Int) ^ b128.unit = ((2 ^ b128.unit : Nat) : Int) := by simp
  have hU := Nat.two_pow_pos b128.unit
  rw [e1, hUc] at h1
  rw [e2, hUc] at h2
  generalize 2 ^ b128.unit = U at *
  rw [← h2] at h1
  omega

/-- C62: infinities and NaNs stay. -/
theorem C62_nearbyintl_special (x : Nat) (hx : Pat b128 x) :
    (Infinite b128 x → ∃ r, nearbyintl x = some r ∧ Infinite b128 r ∧ (negative b128 r ↔ negative b128 x)) ∧
    (NaN b128 x → ∃ r, nearbyintl x = some r ∧ NaN b128 r) := by
  have fixed : ∀ d, ¬ Finite b64 d → b64.rint d = d := by
    intro d hd
    unfold Fmt.rint
    rw [if_neg]
    intro h
    exact hd (Fmt.isFin_iff.1 h)
  constructor
  · intro h
    have hn : ¬ NaN b128 x := fun g => by
      have h1 : b128.abs x = b128.inf := h
      have h2 : b128.inf < b128.abs x := g
      omega
    have hnf : ¬ (Finite b128 x ∧ Mistruncated x) := fun g => by
      have h1 : b128.abs x = b128.inf := h
      have h2 : b128.abs x < b128.inf := g.1
      omega
    obtain ⟨c1, c2, _, c4⟩ := (trunctfdf2_iff hx hn).2 hnf
    have hi : absOf b64 (trunctfdf2 x) = b64.inf := c4 h
    obtain ⟨r, r1, r2, _⟩ := extenddftf2_eq c1
    obtain ⟨_, p2, _, p4⟩ := r2 (by intro g; have : b64.inf < absOf b64 (trunctfdf2 x) := g; omega)
    refine ⟨r, ?_, p4 hi, p2.trans c2⟩
    unfold nearbyintl
    rw [fixed _ (by intro g; have : absOf b64 (trunctfdf2 x) < b64.inf := g; omega), r1]
  · intro h
    have hd := trunctfdf2_nan hx h
    have hl := abs_lt x
    have hp : Pat b64 (trunctfdf2 x) := by
      rw [trunctfdf2_pack hx]
      have hlt : truncMagnitude (b128.abs x / 2 ^ 64) (b128.abs x % 2 ^ 64) < 2 ^ 63 := by
        have h' : b128.inf < b128.abs x := h
        rw [inf128] at h'
        unfold truncMagnitude
        rw [if_pos (by omega)]; omega
      rw [or_pack64 hlt]
      exact Fmt.pack_lt hlt
    obtain ⟨r, r1, _, r3⟩ := extenddftf2_eq hp
    refine ⟨r, ?_, r3 hd⟩
    unfold nearbyintl
    rw [fixed _ (by intro g; have h1 : absOf b64 (trunctfdf2 x) < b64.inf := g; have h2 : b64.inf < absOf b64 (trunctfdf2 x) := hd; omega), r1]

/-- The hypothesis of the partial theorem holds of 2.5, which becomes 2. -/
example : IsDouble (0x40004 * 2 ^ 108) ∧ nearbyintl (0x40004 * 2 ^ 108) = some (0x4000 * 2 ^ 112) := by
  refine ⟨⟨0x4004000000000000, by unfold Pat; decide, by unfold Finite; decide, ?_⟩, by decide +kernel⟩
  obtain ⟨r, h1, h2, _⟩ := extenddftf2_eq (x := 0x4004000000000000) (by unfold Pat; decide)
  have e : extenddftf2 0x4004000000000000 = some (0x40004 * 2 ^ 108) := by decide +kernel
  rw [e] at h1
  cases h1
  exact h2 (by unfold NaN; decide)

/-! ### C63: comparison -/

/-- C63: `__eqtf2` and `__netf2`. -/
theorem C63_equal (x y : Nat) (hx : Pat b128 x) (hy : Pat b128 y) : eqtf2 x y = 0 ↔ Same x y := eqtf2_iff hx hy

/-- C63: `__cmptf2`, `__lttf2`, `__letf2` are negative, zero, positive as x is less than, equal to, greater than y; positive for NaN. -/
theorem C63_less (x y : Nat) (hx : Pat b128 x) (hy : Pat b128 y) :
    (cmptf2 x y < 0 ↔ Less x y) ∧ (cmptf2 x y ≤ 0 ↔ Less x y ∨ Same x y) := by
  obtain ⟨h1, h2, h3, h4⟩ := cmptf2'_eq hx hy 1
  unfold cmptf2
  by_cases hn : NaN b128 x ∨ NaN b128 y
  · rw [h1 hn]
    have : ¬ Less x y ∧ ¬ Same x y := ⟨fun h => hn.elim h.1 h.2.1, fun h => hn.elim h.1 h.2.1⟩
    simp [this]
  · have hn' : ¬ NaN b128 x ∧ ¬ NaN b128 y := ⟨fun h => hn (.inl h), fun h => hn (.inr h)⟩
    rcases Int.lt_trichotomy (value b128 x) (value b128 y) with c | c | c
    · have hl : Less x y := ⟨hn'.1, hn'.2, c⟩
      rw [h2 hl]; simp [hl]
    · have hs : Same x y := ⟨hn'.1, hn'.2, c⟩
      have hl : ¬ Less x y := fun h => by have := h.2.2; omega
      rw [h3 hs]; simp [hs, hl]
    · have hg : Less y x := ⟨hn'.2, hn'.1, c⟩
      have hl : ¬ Less x y := fun h => by have := h.2.2; omega
      have hs : ¬ Same x y := fun h => by have := h.2.2; omega
      rw [h4 hg]; simp [hs, hl]

/-- C63: `__gttf2` and `__getf2` are negative for NaN. -/
theorem C63_greater (x y : Nat) (hx : Pat b128 x) (hy : Pat b128 y) :
    (0 < getf2 x y ↔ Less y x) ∧ (0 ≤ getf2 x y ↔ Less y x ∨ Same x y) := by
  obtain ⟨h1, h2, h3, h4⟩ := cmptf2'_eq hx hy (-1)
  unfold getf2
  by_cases hn : NaN b128 x ∨ NaN b128 y
  · rw [h1 hn]
    have : ¬ Less y x ∧ ¬ Same x y := ⟨fun h => hn.elim h.2.1 h.1, fun h => hn.elim h.1 h.2.1⟩
    simp [this]
  · have hn' : ¬ NaN b128 x ∧ ¬ NaN b128 y := ⟨fun h => hn (.inl h), fun h => hn (.inr h)⟩
    rcases Int.lt_trichotomy (value b128 x) (value b128 y) with c | c | c
    · have hl : ¬ Less y x := fun h => by have := h.2.2; omega
      have hs : ¬ Same x y := fun h => by have := h.2.2; omega
      rw [h2 ⟨hn'.1, hn'.2, c⟩]; simp [hl, hs]
    · have hs : Same x y := ⟨hn'.1, hn'.2, c⟩
      have hl : ¬ Less y x := fun h => by have := h.2.2; omega
      rw [h3 hs]; simp [hs, hl]
    · have hg : Less y x := ⟨hn'.2, hn'.1, c⟩
      rw [h4 hg]; simp [hg]

/-- C63: `__unordtf2`. -/
theorem C63_unordered (x y : Nat) : unordtf2 x y ≠ 0 ↔ NaN b128 x ∨ NaN b128 y := unordtf2_iff x y

/-- -1 < 0, -0 = 0, and nothing about NaN. -/
example : cmptf2 (0xBFFF * 2 ^ 112) 0 = -1 ∧ eqtf2 (2 ^ 127) 0 = 0 ∧ cmptf2 (2 ^ 127) 0 = 0 ∧ unordtf2 (0x7FFF8 * 2 ^ 108) 0 = 1 ∧
    cmptf2 (0xBFFF * 2 ^ 112) (0xC000 * 2 ^ 112) = 1 := by decide

/-! ### C64: multiplication -/

/-- C64: the product of finite numbers is rounded once. -/
theorem C64_mul (x y : Nat) (hx : Pat b128 x) (hy : Pat b128 y) (hxf : Finite b128 x) (hyf : Finite b128 y) :
    ∃ r, multf3 x y = some r ∧ IsProduct x y r := by
  have hU := Nat.two_pow_pos b128.unit
  have hr := rnd_le (F := b128) (b128.mag (b128.abs x) * b128.mag (b128.abs y)) (2 ^ b128.unit) hU
  refine ⟨_, multf3_fin hxf hyf, ?_⟩
  rw [Fmt.mul_fin hxf hyf]
  refine ⟨pat_pack hr, ?_, ?_⟩
  · rw [negative_pack hr, neg_same hx hy]
    cases b128.neg x <;> cases b128.neg y <;> simp
  · rw [absOf_pack hr]
    unfold size
    rw [absOf_eq, absOf_eq]
    exact rnd_nearest _ _ hU

/-- C64: NaN operands and infinity times zero. -/
theorem C64_mul_nan (x y : Nat)
    (h : NaN b128 x ∨ NaN b128 y ∨ (Infinite b128 x ∧ Zero b128 y) ∨ (Zero b128 x ∧ Infinite b128 y)) :
    ∃ r, multf3 x y = some r ∧ NaN b128 r := multf3_nan h

/-- C64: infinity times a nonzero number. -/
theorem C64_mul_inf (x y : Nat) (hx : Pat b128 x) (hy : Pat b128 y)
    (h : (Infinite b128 x ∧ ¬ NaN b128 y ∧ ¬ Zero b128 y) ∨ (Infinite b128 y ∧ ¬ NaN b128 x ∧ ¬ Zero b128 x)) :
    ∃ r, multf3 x y = some r ∧ Pat b128 r ∧ Infinite b128 r ∧ (negative b128 r ↔ ¬ (negative b128 x ↔ negative b128 y)) := by
  have hr := Nat.le_refl b128.inf
  refine ⟨_, multf3_inf h, pat_pack hr, absOf_pack hr, ?_⟩
  rw [negative_pack hr, neg_same hx hy]
  cases b128.neg x <;> cases b128.neg y <;> simp

/-- 1.5 * 2.5 = 3.75; half of the smallest subnormal is a tie and becomes zero; overflow. -/
example : multf3 (0x3FFF8 * 2 ^ 108) (0x40004 * 2 ^ 108) = some (0x4000E * 2 ^ 108) ∧ multf3 1 (0x3FFE * 2 ^ 112) = some 0 ∧
    multf3 3 (0x3FFE * 2 ^ 112) = some 2 ∧ multf3 (0x7FFE * 2 ^ 112) (0xC000 * 2 ^ 112) = some (0xFFFF * 2 ^ 112) := by
  refine ⟨by decide +kernel, by decide +kernel, by decide +kernel, by decide +kernel⟩

/-! ### C65: addition and subtraction -/

/-- C65, partial: whenever the addition of finite numbers is defined and the operands do not straddle, the sum is rounded once.
Missing: undefined additions (`C65_add_undefined`) and straddling operands (`C65_sub_misrounds`), where the property fails. -/
theorem C65_add_partial (x y r : Nat) (hx : Pat b128 x) (hy : Pat b128 y) (hxf : Finite b128 x) (hyf : Finite b128 y)
    (hs : ¬ Straddle x y) (h : addtf3 x y = some r) : IsSum x y r := addWith_eq shifts_shl hx hy hxf hyf hs h

/-- C65, partial: the same for any machine on which left shifts by 128 yield zero instead of being undefined. -/
theorem C65_add_shifting_partial (sl : Nat → Nat → Option Nat) (hsl : Shifts sl) (x y r : Nat) (hx : Pat b128 x) (hy : Pat b128 y)
    (hxf : Finite b128 x) (hyf : Finite b128 y) (hs : ¬ Straddle x y) (h : addWith sl x y = some r) : IsSum x y r :=
  addWith_eq hsl hx hy hxf hyf hs h

/-- C65 is violated: the finite operands for which addition shifts by 128 bits, which is undefined. -/
theorem C65_add_undefined (x y : Nat) (hx : Pat b128 x) (hy : Pat b128 y) (hxf : Finite b128 x) (hyf : Finite b128 y) :
    addtf3 x y = none ↔ expo x = expo y ∧
      (((negative b128 x ↔ negative b128 y) ∧ 2 ^ 112 ≤ max (absOf b128 x) (absOf b128 y)) ∨
        (¬ (negative b128 x ↔ negative b128 y) ∧ absOf b128 x ≠ absOf b128 y ∧ 2 ^ 113 ≤ max (absOf b128 x) (absOf b128 y))) :=
  addtf3_none hx hy hxf hyf

/-- Flipping the sign bit. -/
theorem flip_sign {y : Nat} (hy : Pat b128 y) :
    Pat b128 (y ^^^ 2 ^ 127) ∧ absOf b128 (y ^^^ 2 ^ 127) = absOf b128 y ∧ (negative b128 (y ^^^ 2 ^ 127) ↔ ¬ negative b128 y) := by
  have hy' : y < 2 ^ 128 := hy
  have e : y ^^^ 2 ^ 127 = if y < 2 ^ 127 then y + 2 ^ 127 else y - 2 ^ 127 := by
    apply Nat.eq_of_testBit_eq
    intro i
    rw [Nat.testBit_xor, Nat.testBit_two_pow]
    by_cases c : y < 2 ^ 127
    · rw [if_pos c, Nat.add_comm, ← or_sign _ _ c, Nat.testBit_or, Nat.testBit_two_pow]
      by_cases hi : 127 = i
      · subst hi; rw [Nat.testBit_lt_two_pow c]; simp
      · simp [hi]
    · rw [if_neg c]
      have hz : y - 2 ^ 127 < 2 ^ 127 := by omega
      have hyz : y = (y - 2 ^ 127) ||| 2 ^ 127 := by rw [or_sign _ _ hz]; omega
      conv => lhs; rw [hyz]
      rw [Nat.testBit_or, Nat.testBit_two_pow]
      by_cases hi : 127 = i
      · subst hi; rw [Nat.testBit_lt_two_pow hz]; simp
      · simp [hi]
  have ha : ∀ z, absOf b128 z = z % 2 ^ 127 := fun z => by rw [absOf_eq, abs128]
  have hp : Pat b128 (y ^^^ 2 ^ 127) := by
    show _ < 2 ^ 128
    rw [e]; split <;> omega
  refine ⟨hp, ?_, ?_⟩
  · rw [ha, ha, e]; split <;> omega
  · rw [negative_iff hp, negative_iff hy, Fmt.neg_iff hp, Fmt.neg_iff hy, sign128, e]
    split <;> omega

/-- C65, partial: subtraction adds the opposite. -/
theorem C65_sub_partial (x y r : Nat) (hx : Pat b128 x) (hy : Pat b128 y) (hxf : Finite b128 x) (hyf : Finite b128 y)
    (hs : ¬ Straddle x (y ^^^ 2 ^ 127)) (h : subtf3 x y = some r) :
    Rounded b128 (value b128 x - value b128 y) 1 r ∧
      (value b128 x = value b128 y → (negative b128 r ↔ negative b128 x ∧ ¬ negative b128 y)) := by
  obtain ⟨p1, p2, p3⟩ := flip_sign hy
  have hf : Finite b128 (y ^^^ 2 ^ 127) := by
    show absOf b128 _ < _
    rw [p2]; exact hyf
  have hv : value b128 (y ^^^ 2 ^ 127) = - value b128 y := by
    unfold value size
    rw [p2]
    by_cases c : negative b128 y
    · rw [if_neg (fun g => p3.1 g c), if_pos c]; omega
    · rw [if_pos (p3.2 c), if_neg c]
  have := addWith_eq shifts_shl hx p1 hxf hf hs h
  unfold IsSum at this
  rw [hv, p3] at this
  exact ⟨this.1, fun e => this.2 (by omega)⟩

/-- C65: NaN operands. -/
theorem C65_add_nan (x y : Nat) (h : NaN b128 x ∨ NaN b128 y) : ∃ r, addtf3 x y = some r ∧ NaN b128 r := addWith_nan h

/-- C65: infinite operands; the sum of two infinities of the same sign is undefined, and infinite if the shift is completed. -/
theorem C65_add_inf (x y : Nat) (hx : Pat b128 x) (hy : Pat b128 y) (hxi : Infinite b128 x) :
    (Finite b128 y → addtf3 x y = some x ∧ addtf3 y x = some x) ∧
    (Infinite b128 y → ¬ (negative b128 x ↔ negative b128 y) → ∃ r, addtf3 x y = some r ∧ NaN b128 r) ∧
    (Infinite b128 y → (negative b128 x ↔ negative b128 y) → addtf3 x y = none ∧ ∀ sl r, addWith sl x y = some r → r = x) :=
  ⟨addtf3_inf hx hy hxi, fun hyi => (addWith_inf_inf hx hy hxi hyi).1, fun hyi => (addWith_inf_inf hx hy hxi hyi).2⟩

/-- 1.5 + 2.5 = 4, 2.5 - 1.5 = 1; a tie and a carry; 1 + 1 is undefined. -/
example : addtf3 (0x3FFF8 * 2 ^ 108) (0x40004 * 2 ^ 108) = some (0x4001 * 2 ^ 112) ∧
    subtf3 (0x40004 * 2 ^ 108) (0x3FFF8 * 2 ^ 108) = some (0x3FFF * 2 ^ 112) ∧
    addtf3 (0x3FFF * 2 ^ 112 + 1) (0x3F8E * 2 ^ 112) = some (0x3FFF * 2 ^ 112 + 2) ∧
    addtf3 (0x3FFF * 2 ^ 112) (0x3F8E * 2 ^ 112) = some (0x3FFF * 2 ^ 112) ∧
    addtf3 (0x3FFF * 2 ^ 112) (0x3FFF * 2 ^ 112) = none := by
  refine ⟨by decide +kernel, by decide +kernel, by decide +kernel, by decide +kernel, by decide +kernel⟩

/-- C65 is violated: 1 - 1.5 * 2^-114 yields 1 instead of 1 - 2^-113. -/
theorem C65_sub_misrounds :
    ∃ x y r, Pat b128 x ∧ Pat b128 y ∧ Finite b128 x ∧ Finite b128 y ∧ addtf3 x y = some r ∧ ¬ IsSum x y r := by
  refine ⟨0x3FFF * 2 ^ 112, 0xBF8D8 * 2 ^ 108, 0x3FFF * 2 ^ 112, pat128 (by decide), pat128 (by decide), fin128 (by decide), fin128 (by decide),
    by decide +kernel, ?_⟩
  intro h
  obtain ⟨⟨_, _, hn⟩, _⟩ := h
  obtain ⟨w, hw, hw'⟩ : ∃ w, b128.unit = w ∧ w = 16494 := ⟨_, rfl, rfl⟩
  obtain ⟨K, hK⟩ : ∃ K, K = 2 ^ (w - 115) := ⟨_, rfl⟩
  have pK : 0 < K := by rw [hK]; exact Nat.two_pow_pos _
  have hbig : 2 ^ w = 2 ^ 115 * K := by rw [hK, ← Nat.pow_add]; exact pow_eq (by omega)
  have m1 : b128.mag (0x3FFF * 2 ^ 112) = 2 ^ 115 * K := by
    rw [mag_parts (by decide), show 2 ^ 112 + (0x3FFF * 2 ^ 112) % 2 ^ 112 = 2 ^ 112 by decide, ← Nat.pow_add,
      show 112 + ((0x3FFF * 2 ^ 112) / 2 ^ 112 - 1) = b128.unit by decide, hw, hbig]
  have m2 : b128.mag (0x3F8D8 * 2 ^ 108) = 3 * K := by
    have e : (0x3F8D8 * 2 ^ 108) / 2 ^ 112 - 1 = w - 115 - 111 := by rw [hw']
    have e2 : K = 2 ^ 111 * 2 ^ (w - 115 - 111) := by rw [hK, ← Nat.pow_add]; exact pow_eq (by omega)
    rw [mag_parts (by decide), show 2 ^ 112 + (0x3F8D8 * 2 ^ 108) % 2 ^ 112 = 3 * 2 ^ 111 by decide, e, e2, Nat.mul_assoc]
  have m3 : b128.mag (0x3FFF * 2 ^ 112 - 1) + 4 * K = 2 ^ 115 * K := by
    have e : (0x3FFF * 2 ^ 112 - 1) / 2 ^ 112 - 1 = w - 113 := by rw [hw']
    have e2 : 4 * K = 2 ^ (w - 113) := by rw [hK, show (4 : Nat) = 2 ^ 2 by decide, ← Nat.pow_add]; exact pow_eq (by omega)
    have e3 : 2 ^ 115 * K = 2 ^ 113 * 2 ^ (w - 113) := by rw [← e2]; omega
    rw [mag_parts (by decide), show 2 ^ 112 + (0x3FFF * 2 ^ 112 - 1) % 2 ^ 112 = 2 ^ 113 - 1 by decide, e, e2, e3]
    omega
  have v1 : value b128 (0x3FFF * 2 ^ 112) = ((2 ^ 115 * K : Nat) : Int) := by
    unfold value size
    rw [if_neg (by unfold negative; decide), show absOf b128 (0x3FFF * 2 ^ 112) = 0x3FFF * 2 ^ 112 by decide, m1]
  have v2 : value b128 (0xBF8D8 * 2 ^ 108) = - ((3 * K : Nat) : Int) := by
    unfold value size
    rw [if_pos (by unfold negative; decide), show absOf b128 (0xBF8D8 * 2 ^ 108) = 0x3F8D8 * 2 ^ 108 by decide, m2]
  have hb := hn.best (0x3FFF * 2 ^ 112 - 1) (by rw [inf128]; decide)
  rw [v1, v2, show absOf b128 (0x3FFF * 2 ^ 112) = 0x3FFF * 2 ^ 112 by decide, m1, Nat.one_mul, Nat.one_mul,
    show (((2 ^ 115 * K : Nat) : Int) + -((3 * K : Nat) : Int)).natAbs = 2 ^ 115 * K - 3 * K by omega] at hb
  unfold dist at hb
  generalize b128.mag (0x3FFF * 2 ^ 112 - 1) = z at *
  omega

/-! ### C66: conversions between floating-point types -/

/-- C66: `double` to `long double` is exact. -/
theorem C66_extend_double (x : Nat) (hx : Pat b64 x) :
    ∃ r, extenddftf2 x = some r ∧ (¬ NaN b64 x → SameNumber b64 b128 x r) ∧ (NaN b64 x → NaN b128 r) := extenddftf2_eq hx

/-- C66: `float` to `long double` is exact. -/
theorem C66_extend_float (x : Nat) (hx : Pat b32 x) :
    (¬ NaN b32 x → SameNumber b32 b128 x (extendsftf2 x)) ∧ (NaN b32 x → NaN b128 (extendsftf2 x)) := extendsftf2_eq hx

/-- C66: `long double` to `float` rounds once. -/
theorem C66_trunc_float (x : Nat) (hx : Pat b128 x) :
    (¬ NaN b128 x → Converted b128 b32 x (trunctfsf2 x)) ∧ (NaN b128 x → NaN b32 (trunctfsf2 x)) := trunctfsf2_eq hx

/-- C66, partial: `long double` to `double` rounds once exactly outside the cases of `Mistruncated`.  Missing: those cases, where
the property fails. -/
theorem C66_trunc_double_partial (x : Nat) (hx : Pat b128 x) :
    (¬ NaN b128 x → (Converted b128 b64 x (trunctfdf2 x) ↔ ¬ (Finite b128 x ∧ Mistruncated x))) ∧ (NaN b128 x → NaN b64 (trunctfdf2 x)) :=
  ⟨trunctfdf2_iff hx, trunctfdf2_nan hx⟩

/-- C66 is violated: 1 + 2^-53 becomes 1 + 2^-52 instead of 1. -/
theorem C66_trunc_double_violated : ∃ x, Pat b128 x ∧ Finite b128 x ∧ ¬ Converted b128 b64 x (trunctfdf2 x) := by
  have hp : Pat b128 (0x3FFF * 2 ^ 112 + 2 ^ 59) := pat128 (by decide)
  have hf : Finite b128 (0x3FFF * 2 ^ 112 + 2 ^ 59) := fin128 (by decide)
  have hn : ¬ NaN b128 (0x3FFF * 2 ^ 112 + 2 ^ 59) := fun h => by
    have h1 : b128.inf < b128.abs (0x3FFF * 2 ^ 112 + 2 ^ 59) := h
    have h2 : b128.abs (0x3FFF * 2 ^ 112 + 2 ^ 59) < b128.inf := hf
    omega
  refine ⟨_, hp, hf, fun h => (trunctfdf2_iff hp hn).1 h ⟨hf, (wrong_iff hf).1 (.inl ?_)⟩⟩
  rw [abs128]
  decide

/-- C66: narrowing after widening is the identity. -/
theorem C66_roundtrip_double (x : Nat) (hx : Pat b64 x) (hn : ¬ NaN b64 x) : ∃ r, extenddftf2 x = some r ∧ trunctfdf2 r = x := by
  obtain ⟨r, h1, h2, _⟩ := extenddftf2_eq hx
  have hs := h2 hn
  refine ⟨r, h1, ?_⟩
  by_cases hf : Finite b64 x
  · exact trunc_exact hs.1 hx hf hs
  · have hi : Infinite b64 x := by
      have a1 : ¬ b64.inf < b64.abs x := hn
      have a2 : ¬ b64.abs x < b64.inf := hf
      show b64.abs x = b64.inf
      omega
    obtain ⟨p1, p2, _, p4⟩ := hs
    have hri : b128.abs r = b128.inf := p4 hi
    have hrn : ¬ NaN b128 r := fun g => by
      have : b128.inf < b128.abs r := g
      omega
    obtain ⟨c1, c2, _, c4⟩ := (trunctfdf2_iff p1 hrn).2 (fun g => by have : b128.abs r < b128.inf := g.1; omega)
    have ha : b64.abs (trunctfdf2 r) = b64.abs x := (c4 hri).trans hi.symm
    have hg : b64.neg (trunctfdf2 r) = b64.neg x := by
      have := c2.trans p2
      rw [negative_iff c1, negative_iff hx] at this
      rwa [Bool.eq_iff_iff]
    rw [← Fmt.pack_self c1, ← Fmt.pack_self hx, hg, ha]

theorem C66_roundtrip_float (x : Nat) (hx : Pat b32 x) (hn : ¬ NaN b32 x) : trunctfsf2 (extendsftf2 x) = x := by
  have hs := (extendsftf2_eq hx).1 hn
  obtain ⟨p1, p2, p3, p4⟩ := hs
  have hxi : b32.abs x ≤ b32.inf := Nat.le_of_not_lt hn
  have hU := Nat.two_pow_pos b128.unit
  have fin : ∀ r : Nat, Finite b128 r ∨ Infinite b128 r → ¬ NaN b128 r := by
    intro r h g
    have h1 : b128.abs r < b128.inf ∨ b128.abs r = b128.inf := h
    have h2 : b128.inf < b128.abs r := g
    omega
  have key : ¬ NaN b128 (extendsftf2 x) ∧ b32.abs (trunctfsf2 (extendsftf2 x)) = b32.abs x := by
    by_cases hf : Finite b32 x
    · obtain ⟨q1, q2⟩ := p3 hf
      have hrn := fin _ (.inl q1)
      obtain ⟨c1, c2, c3, _⟩ := (trunctfsf2_eq p1).1 hrn
      have hc := c3 q1
      rw [q2] at hc
      have he := nearest_exact (F := b32) (num := size b32 x * 2 ^ b128.unit) (n := absOf b32 x) hU hxi (Nat.mul_comm _ _)
      exact ⟨hrn, hc.unique hU he⟩
    · have hi : Infinite b32 x := by
        have a2 : ¬ b32.abs x < b32.inf := hf
        show b32.abs x = b32.inf
        omega
      have hrn := fin _ (.inr (p4 hi))
      obtain ⟨_, _, _, c4⟩ := (trunctfsf2_eq p1).1 hrn
      have : b32.abs (trunctfsf2 (extendsftf2 x)) = b32.inf := c4 (p4 hi)
      exact ⟨hrn, this.trans hi.symm⟩
  obtain ⟨c1, c2, _, _⟩ := (trunctfsf2_eq p1).1 key.1
  have hg : b32.neg (trunctfsf2 (extendsftf2 x)) = b32.neg x := by
    have := c2.trans p2
    rw [negative_iff c1, negative_iff hx] at this
    rwa [Bool.eq_iff_iff]
  have e1 := Fmt.pack_self c1
  have e2 := Fmt.pack_self hx
  rw [hg, key.2, e2] at e1
  exact e1.symm

/-- 3.125 both ways; the smallest subnormal double and float; 1 + 2^-53 rounds up wrongly, 1 + 2^-24 to float rightly. -/
example : extenddftf2 0x4009000000000000 = some (0x40009 * 2 ^ 108) ∧ trunctfdf2 (0x40009 * 2 ^ 108) = 0x4009000000000000 ∧
    extenddftf2 1 = some (0x3BCD * 2 ^ 112) ∧ extendsftf2 1 = 0x3F6A * 2 ^ 112 ∧ trunctfsf2 (0x3F6A * 2 ^ 112) = 1 ∧
    trunctfdf2 (0x3FFF * 2 ^ 112 + 2 ^ 59) = 0x3FF0000000000001 ∧ trunctfsf2 (0x3FFF * 2 ^ 112 + 2 ^ 88) = 0x3F800000 := by
  refine ⟨by decide +kernel, by decide +kernel, by decide +kernel, by decide +kernel, by decide +kernel, by decide +kernel, by decide +kernel⟩

/-! ### C67: truncl -/

/-- C67: truncl drops the fraction of finite numbers and returns the others unchanged. -/
theorem C67_truncl (x : Nat) (hx : Pat b128 x) :
    ∃ r, truncl x = some r ∧ (Finite b128 x → IntegralPart x r) ∧ (¬ Finite b128 x → r = x) := truncl_eq hx

example : truncl (0xC0009 * 2 ^ 108) = some (0xC0008 * 2 ^ 108) ∧ truncl (0xBFFE8 * 2 ^ 108) = some (0x8000 * 2 ^ 112) ∧
    truncl (0x7FFF8 * 2 ^ 108 + 1) = some (0x7FFF8 * 2 ^ 108 + 1) := by
  refine ⟨by decide, by decide, by decide⟩

/-! ### C94: conversion to integers -/

/-- C94: to `int`. -/
theorem C94_to_int (x : Nat) (hx : Pat b128 x)
    (h : size b128 x / 2 ^ b128.unit < 2 ^ 31 ∨ (negative b128 x ∧ size b128 x / 2 ^ b128.unit = 2 ^ 31)) :
    ∃ n, fixtfsi x = some n ∧ Truncated b128 x n := fixtfsi_eq hx h

/-- C94: to `unsigned`; numbers above -1 become 0. -/
theorem C94_to_unsigned (x : Nat) (hx : Pat b128 x) (h : size b128 x / 2 ^ b128.unit < 2 ^ 32)
    (hn : negative b128 x → size b128 x / 2 ^ b128.unit = 0) :
    fixunstfsi x = some ((size b128 x / 2 ^ b128.unit : Nat) : Int) := fixunstfsi_eq hx h hn

/-- C94: to `long long`. -/
theorem C94_to_llong (x : Nat) (hx : Pat b128 x)
    (h : size b128 x / 2 ^ b128.unit < 2 ^ 63 ∨ (negative b128 x ∧ size b128 x / 2 ^ b128.unit = 2 ^ 63)) :
    ∃ n, fixtfdi x = some n ∧ Truncated b128 x n := fixtfdi_eq hx h

/-- C94: to `unsigned long long`. -/
theorem C94_to_ullong (x : Nat) (hx : Pat b128 x) (h : size b128 x / 2 ^ b128.unit < 2 ^ 64)
    (hn : negative b128 x → size b128 x / 2 ^ b128.unit = 0) :
    fixunstfdi x = some (size b128 x / 2 ^ b128.unit) := fixunstfdi_eq hx h hn

/-- C94: to `unsigned __int128`. -/
theorem C94_to_u128 (x : Nat) (hx : Pat b128 x) (h : size b128 x / 2 ^ b128.unit < 2 ^ 128)
    (hn : negative b128 x → size b128 x / 2 ^ b128.unit = 0) :
    fixunstfti x = some (size b128 x / 2 ^ b128.unit) := fixunstfti_eq hx h hn

/-- C94, partial: to `__int128`.  Missing: the least integer, see `C94_least_undefined`. -/
theorem C94_to_i128_partial (x : Nat) (hx : Pat b128 x) (h : size b128 x / 2 ^ b128.unit < 2 ^ 127) :
    ∃ n, fixtfti x = some n ∧ Truncated b128 x n := fixtfti_eq hx h

/-- C94 is violated: the conversion of numbers in (-2^127 - 1, -2^127] to `__int128` overflows. -/
theorem C94_least_undefined (x : Nat) (hx : Pat b128 x) (hn : negative b128 x) (h : size b128 x / 2 ^ b128.unit = 2 ^ 127) :
    fixtfti x = none := fixtfti_min hx hn h

/-- -3.125, 3.125 and the least integers. -/
example : fixtfsi (0xC0009 * 2 ^ 108) = some (-3) ∧ fixunstfsi (0x40009 * 2 ^ 108) = some 3 ∧ fixtfdi (0xC03E * 2 ^ 112) = some (-2 ^ 63) ∧
    fixunstfdi (0x403E8 * 2 ^ 108) = some (3 * 2 ^ 62) ∧ fixtfti (0xC0009 * 2 ^ 108) = some (-3) ∧ fixtfti (0xC07E * 2 ^ 112) = none ∧
    fixunstfti (0x407E * 2 ^ 112) = some (2 ^ 127) ∧ fixtfsi (0xC01E * 2 ^ 112) = some (-2 ^ 31) := by
  refine ⟨by decide +kernel, by decide +kernel, by decide +kernel, by decide +kernel, by decide +kernel, by decide +kernel, by decide +kernel,
    by decide +kernel⟩

/-! ### C95: ldexpl -/

/-- C95: `x * 2^n` rounded once. -/
theorem C95_ldexpl (x : Nat) (n : Int) (hx : Pat b128 x) (hf : Finite b128 x) (h0 : ¬ Zero b128 x) :
    ∃ r, ldexpl x n = some r ∧ Scaled b128 x n r := by
  have hr := rnd_le (F := b128) (b128.mag (b128.abs x) * 2 ^ n.toNat) (2 ^ (-n).toNat) (Nat.two_pow_pos _)
  refine ⟨_, ldexpl_eq n (Nat.pos_of_ne_zero h0) hf, pat_pack hr, by rw [negative_pack hr, negative_iff hx], ?_⟩
  rw [absOf_pack hr]
  exact rnd_nearest _ _ (Nat.two_pow_pos _)

/-- C95: zeros, infinities and NaNs are returned unchanged. -/
theorem C95_ldexpl_special (x : Nat) (n : Int) (h : Zero b128 x ∨ ¬ Finite b128 x) : ldexpl x n = some x := by
  have h' : b128.abs x = 0 ∨ ¬ b128.abs x < b128.inf := h
  rw [abs128, inf128] at h'
  unfold ldexpl
  simp only
  rw [if_pos (by omega)]

/-- 3 * 2^-16496 is three quarters of the smallest subnormal. -/
example : ldexpl (0x40008 * 2 ^ 108) (-16496) = some 1 ∧ ldexpl (0x3FFF * 2 ^ 112) (-16495) = some 0 ∧
    ldexpl (0x3FFF * 2 ^ 112) 20000 = some (0x7FFF * 2 ^ 112) ∧ ldexpl 1 16494 = some (0x3FFF * 2 ^ 112) := by
  refine ⟨by decide +kernel, by decide +kernel, by decide +kernel, by decide +kernel⟩

/-! ### C96: nexttowardl -/

/-- C96: the neighbour of x in the direction of y. -/
theorem C96_nexttowardl (x y : Nat) (hx : Pat b128 x) (hy : Pat b128 y) (hxn : ¬ NaN b128 x) (hyn : ¬ NaN b128 y) :
    (value b128 x < value b128 y → ∃ r, nexttowardl x y = some r ∧ NextUp b128 x r) ∧
    (value b128 y < value b128 x → ∃ r, nexttowardl x y = some r ∧ NextDown b128 x r) ∧
    (value b128 x = value b128 y → nexttowardl x y = some y) := by
  rw [nexttowardl_eq hx hy]
  exact nextafter_spec good_ldbl hx hy hxn hyn

/-- C96: NaN operands. -/
theorem C96_nexttowardl_nan (x y : Nat) (hx : Pat b128 x) (hy : Pat b128 y) (h : NaN b128 x ∨ NaN b128 y) :
    ∃ r, nexttowardl x y = some r ∧ NaN b128 r := by
  rw [nexttowardl_eq hx hy]
  exact nextafter_nan good_ldbl h

example : nexttowardl 1 0 = some 0 ∧ nexttowardl 0 (0xBFFF * 2 ^ 112) = some (2 ^ 127 + 1) ∧
    nexttowardl (0x3FFF * 2 ^ 112) 0 = some (0x3FFF * 2 ^ 112 - 1) ∧ nexttowardl (0x7FFF * 2 ^ 112 - 1) (0x7FFF * 2 ^ 112) = some (0x7FFF * 2 ^ 112) := by
  refine ⟨by decide, by decide, by decide, by decide⟩

/-! ### C97: division -/

/-- C97, partial: NaN quotients.  Missing: finite nonzero operands, where the property fails (`C97_div_violated`). -/
theorem C97_div_nan_partial (x y : Nat)
    (h : NaN b128 x ∨ NaN b128 y ∨ (Infinite b128 x ∧ Infinite b128 y) ∨ (Zero b128 x ∧ Zero b128 y)) :
    ∃ r, divtf3 x y = some r ∧ NaN b128 r := divtf3_nan h

/-- C97, partial: infinite and zero quotients of special operands. -/
theorem C97_div_special_partial (x y : Nat) (hx : Pat b128 x) (hy : Pat b128 y) :
    (((Infinite b128 x ∧ Finite b128 y) ∨ (Finite b128 x ∧ ¬ Zero b128 x ∧ Zero b128 y)) →
      ∃ r, divtf3 x y = some r ∧ Pat b128 r ∧ Infinite b128 r ∧ (negative b128 r ↔ ¬ (negative b128 x ↔ negative b128 y))) ∧
    (((Zero b128 x ∧ ¬ NaN b128 y ∧ ¬ Zero b128 y) ∨ (Finite b128 x ∧ Infinite b128 y)) →
      ∃ r, divtf3 x y = some r ∧ Pat b128 r ∧ Zero b128 r ∧ (negative b128 r ↔ ¬ (negative b128 x ↔ negative b128 y))) := by
  refine ⟨fun h => ?_, fun h => ?_⟩
  · have hr := Nat.le_refl b128.inf
    refine ⟨_, divtf3_inf h, pat_pack hr, absOf_pack hr, ?_⟩
    rw [negative_pack hr, neg_same hx hy]
    cases b128.neg x <;> cases b128.neg y <;> simp
  · have hr := Nat.zero_le b128.inf
    refine ⟨_, divtf3_zero h, pat_pack hr, absOf_pack hr, ?_⟩
    rw [negative_pack hr, neg_same hx hy]
    cases b128.neg x <;> cases b128.neg y <;> simp

/-- C97 is violated: the quotient of these two numbers in [1, 2) is not the nearest `long double`. -/
theorem C97_div_violated :
    ∃ x y r, Pat b128 x ∧ Pat b128 y ∧ Finite b128 x ∧ Finite b128 y ∧ ¬ Zero b128 y ∧ divtf3 x y = some r ∧ ¬ IsQuotient x y r := by
  refine ⟨0x3FFF * 2 ^ 112, 0x3FFE * 2 ^ 112 + 0x1ffffffffffffffffffff9c7f9bf9, 0x3FFE * 2 ^ 112 + 0x31c03203,
    pat128 (by decide), pat128 (by decide), fin128 (by decide), fin128 (by decide), by unfold Spec.Zero; decide, by decide +kernel, ?_⟩
  rintro ⟨_, _, h⟩
  have hb := h.best (0x3FFE * 2 ^ 112 + 0x31c03204) (by decide)
  revert hb
  decide +kernel

/-- 3 / 2, -1 / 3, the smallest subnormal over 2, 1 / 0 and 0 / 0. -/
example : divtf3 (0x40008 * 2 ^ 108) (0x4000 * 2 ^ 112) = some (0x3FFF8 * 2 ^ 108) ∧
    divtf3 (0xBFFF * 2 ^ 112) (0x40008 * 2 ^ 108) = some 0xBFFD5555555555555555555555555555 ∧
    divtf3 1 (0x4000 * 2 ^ 112) = some 0 ∧ divtf3 (0xBFFF * 2 ^ 112) 0 = some (0xFFFF * 2 ^ 112) ∧
    divtf3 0 0 = some (0x7FFF8 * 2 ^ 108) := by
  refine ⟨by decide +kernel, by decide +kernel, by decide +kernel, by decide +kernel, by decide +kernel⟩

/-! ### C98: square root -/

/-- C98, partial: the root of a NaN or of a negative number is NaN.  Missing: positive finite numbers, where the property
fails (`C98_sqrt_violated`). -/
theorem C98_sqrt_nan_partial (x : Nat) (hx : Pat b128 x) (h : NaN b128 x ∨ (negative b128 x ∧ ¬ Zero b128 x)) :
    ∃ r, sqrtl x = some r ∧ NaN b128 r := sqrtl_nan hx h

/-- C98, partial: the root of a zero or of the positive infinity is the operand. -/
theorem C98_sqrt_special_partial (x : Nat) (h : Zero b128 x ∨ x = b128.inf) : sqrtl x = some x := sqrtl_same h

/-- C98 is violated: the root of this number near 1 is 116 units in the last place too small. -/
theorem C98_sqrt_violated :
    ∃ x r, Pat b128 x ∧ Finite b128 x ∧ ¬ negative b128 x ∧ sqrtl x = some r ∧ ¬ NearRoot x r ∧ NearRoot x (r + 116) := by
  refine ⟨0x3fff00000000000011ae5b7b8a309d31, 0x3fff00000000000008d72dbdc5184dfd, pat128 (by decide), fin128 (by decide),
    by unfold negative; decide, by decide +kernel, ?_, pat128 (by decide), by unfold negative; decide, by decide +kernel, by decide +kernel⟩
  rintro ⟨_, _, _, h⟩
  revert h
  decide +kernel

/-- The roots of 4, 2, -1 and -0. -/
example : sqrtl (0x4001 * 2 ^ 112) = some (0x4000 * 2 ^ 112) ∧ sqrtl (0x4000 * 2 ^ 112) = some 0x3FFF6A09E667F3BCC908B2FB1366EA95 ∧
    sqrtl (0xBFFF * 2 ^ 112) = some (0xFFFF8 * 2 ^ 108) ∧ sqrtl (2 ^ 127) = some (2 ^ 127) := by
  refine ⟨by decide +kernel, by decide +kernel, by decide +kernel, by decide +kernel⟩

end Verif.Quad
