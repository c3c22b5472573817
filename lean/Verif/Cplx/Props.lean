import Verif.Cplx.MiscLemmas
import Mathlib.Analysis.SpecialFunctions.Log.Basic
import Mathlib.Analysis.Complex.ExponentialBounds

/-!
# Properties of complex arithmetic

Multiplication and division, which compilers call for `*` and `/`, the square root, the real part of the logarithm, `cproj`
and `conj`.
-/

namespace Verif.Cplx
open Verif.Float Verif.Math Verif.Math.Spec Verif.Cplx.Spec
open Verif.Arith (fdiv)

theorem ample_of {F : Fmt} {z : C} (h : InfC F z ∨ (FinC F z ∧ ¬ ZeroC F z)) : Ample F z.1 z.2 := by
  rcases h with h | ⟨⟨h1, h2⟩, h3⟩
  · exact Or.inl h
  · refine Or.inr ⟨h1, h2, ?_⟩
    by_contra hc
    rw [not_or, not_not, not_not] at hc
    exact h3 hc

/-! ### C126: multiplication -/

/-- C126: an infinity times an infinity or a finite number other than zero is an infinity, on either side, even if the infinity has
a NaN for its other part. -/
theorem C126_infinite (F : Fmt) (hF : F = b32 ∨ F = b64) (z w : C) (h : InfC F z ∨ InfC F w)
    (hz : InfC F z ∨ (FinC F z ∧ ¬ ZeroC F z)) (hw : InfC F w ∨ (FinC F w ∧ ¬ ZeroC F w)) : InfC F (cmul F z.1 z.2 w.1 w.2) := by
  have o : F.Ok := by rcases hF with h | h <;> subst h; exacts [ok32, ok64]
  exact cmul_inf o h (ample_of hz) (ample_of hw)

/-- C126: if the four products and the two sums are representable, the product is exact. -/
theorem C126_exact (F : Fmt) (hF : F = b32 ∨ F = b64) (z w v : C) (p q r s : Nat) (hz : PatC F z ∧ FinC F z) (hw : PatC F w ∧ FinC F w)
    (hv : PatC F v ∧ FinC F v) (hpq : (Pat F p ∧ Finite F p) ∧ Pat F q ∧ Finite F q) (hrs : (Pat F r ∧ Finite F r) ∧ Pat F s ∧ Finite F s)
    (hp : value F p * 2 ^ F.unit = value F z.1 * value F w.1) (hq : value F q * 2 ^ F.unit = value F z.2 * value F w.2)
    (hr : value F r * 2 ^ F.unit = value F z.1 * value F w.2) (hs : value F s * 2 ^ F.unit = value F z.2 * value F w.1)
    (h1 : value F v.1 = value F p - value F q) (h2 : value F v.2 = value F r + value F s) :
    FinC F (cmul F z.1 z.2 w.1 w.2) ∧ PatC F (cmul F z.1 z.2 w.1 w.2) ∧
      value F (cmul F z.1 z.2 w.1 w.2).1 = value F v.1 ∧ value F (cmul F z.1 z.2 w.1 w.2).2 = value F v.2 := by
  have hi := Fmt.inf_lt (F := F)
  have mulx : ∀ {x y t : Nat}, Pat F x → Pat F y → Pat F t → Finite F x → Finite F y → Finite F t → value F t * 2 ^ F.unit = value F x * value F y →
      F.abs (F.mul x y) < F.inf ∧ F.val (F.mul x y) = value F t := by
    intro x y t px py pt fx fy ft e
    rw [value_eq pt, value_eq px, value_eq py] at e
    rw [value_eq pt]
    have ea := congrArg Int.natAbs e
    rw [Int.natAbs_mul, Int.natAbs_mul, Int.natAbs_pow, Fmt.natAbs_val, Fmt.natAbs_val, Fmt.natAbs_val, show Int.natAbs 2 = 2 from rfl] at ea
    have hU := Nat.two_pow_pos F.unit
    rw [Fmt.mul_fin fx fy, rnd_exact (n := F.abs t) hU (Nat.le_of_lt ft) (by rw [← ea, Nat.mul_comm]), Fmt.abs_pack (Fmt.abs_lt t)]
    refine ⟨ft, ?_⟩
    rw [Fmt.val_pack (Fmt.abs_lt t)]
    have hU' : (0 : Int) < 2 ^ F.unit := Int.pow_pos (by decide)
    apply Int.eq_of_mul_eq_mul_right (Int.ne_of_gt hU')
    rw [e]
    have ea' : (F.mag (F.abs t) : Int) * 2 ^ F.unit = F.mag (F.abs x) * F.mag (F.abs y) := by exact_mod_cast ea
    unfold Fmt.val
    cases F.neg x <;> cases F.neg y <;> simp <;> linarith
  have addx : ∀ {x y t : Nat}, Pat F t → Finite F t → F.abs x < F.inf → F.abs y < F.inf → value F t = F.val x + F.val y →
      Finite F (F.add x y) ∧ Pat F (F.add x y) ∧ value F (F.add x y) = value F t := by
    intro x y t pt ft fx fy e
    have e' := e
    rw [value_eq pt] at e
    have hk : F.mag (F.abs t) = (F.val x + F.val y).natAbs := by rw [← e, Fmt.natAbs_val]
    rw [Fmt.add_exact fx fy (Nat.le_of_lt ft) hk]
    have hle : absOf F t ≤ F.inf := Nat.le_of_lt ft
    refine ⟨?_, pat_pack hle, ?_⟩
    · show absOf F _ < _; rw [absOf_pack hle]; exact ft
    · rw [value_pack hle, e', show F.mag (absOf F t) = _ from hk]
      unfold sgnd
      by_cases h0 : F.val x + F.val y = 0
      · rw [if_pos h0, h0]; simp
      · rw [if_neg h0]
        by_cases hn : F.val x + F.val y < 0
        · rw [decide_eq_true hn, if_pos rfl]; omega
        · rw [decide_eq_false hn, if_neg (by decide)]; omega
  obtain ⟨a1, a2⟩ := mulx hz.1.1 hw.1.1 hpq.1.1 hz.2.1 hw.2.1 hpq.1.2 hp
  obtain ⟨b1, b2⟩ := mulx hz.1.2 hw.1.2 hpq.2.1 hz.2.2 hw.2.2 hpq.2.2 hq
  obtain ⟨c1, c2⟩ := mulx hz.1.1 hw.1.2 hrs.1.1 hz.2.1 hw.2.2 hrs.1.2 hr
  obtain ⟨d1, d2⟩ := mulx hz.1.2 hw.1.1 hrs.2.1 hz.2.2 hw.2.1 hrs.2.2 hs
  obtain ⟨x1, x2, x3⟩ := addx (y := F.opp (F.mul z.2 w.2)) hv.1.1 hv.2.1 a1 (by rw [Fmt.abs_opp]; exact b1) (by rw [h1, Fmt.val_opp, a2, b2]; rfl)
  obtain ⟨y1, y2, y3⟩ := addx hv.1.2 hv.2.2 c1 d1 (by rw [h2, c2, d2])
  have e : cmul F z.1 z.2 w.1 w.2 = product F z.1 z.2 w.1 w.2 := by
    unfold cmul
    simp only
    rw [if_neg]
    rintro ⟨h, -⟩
    rw [Fmt.isNaN_iff] at h
    have : F.abs (product F z.1 z.2 w.1 w.2).1 < F.inf := x1
    omega
  rw [e]
  exact ⟨⟨x1, y1⟩, ⟨x2, y2⟩, x3, y3⟩

/-- `(∞ + i∞)(1 + i)`, whose formula gives a NaN, is infinite; so is `(∞ + i NaN)(2 - i)`. -/
example : product b64 b64.inf b64.inf 0x3FF0000000000000 0x3FF0000000000000 = (b64.nan, b64.inf) ∧
    InfC b64 (cmul b64 b64.inf b64.inf b64.inf b64.inf) ∧ InfC b64 (cmul b64 b64.inf b64.nan 0x4000000000000000 0xBFF0000000000000) :=
  ⟨by decide +kernel, C126_infinite b64 (Or.inr rfl) (b64.inf, b64.inf) (b64.inf, b64.inf) (Or.inl (Or.inl rfl)) (Or.inl (Or.inl rfl)) (Or.inl (Or.inl rfl)),
    C126_infinite b64 (Or.inr rfl) (b64.inf, b64.nan) (0x4000000000000000, 0xBFF0000000000000) (Or.inl (Or.inl rfl)) (Or.inl (Or.inl rfl))
      (Or.inr ⟨by unfold FinC Math.Spec.Finite absOf; decide +kernel, by unfold ZeroC Math.Spec.Zero absOf; decide +kernel⟩)⟩

/-- `(1 + 2i)(3 + 4i) = -5 + 10i`. -/
example : cmul b64 0x3FF0000000000000 0x4000000000000000 0x4008000000000000 0x4010000000000000 = (0xC014000000000000, 0x4024000000000000) := by
  decide +kernel

/-! ### C127: special quotients -/

/-- C127: an infinity divided by a finite number, zero included, is an infinity. -/
theorem C127_infinite_dividend (z w : C) :
    (InfC b64 z → FinC b64 w → ∃ q, divdc3 z.1 z.2 w.1 w.2 = some q ∧ InfC b64 q) ∧ (InfC b32 z → FinC b32 w → InfC b32 (divsc3 z.1 z.2 w.1 w.2)) :=
  ⟨fun h hw => divdc3_inf h hw.1 hw.2, fun h hw => divsc3_inf h hw.1 hw.2⟩

/-- C127: a number other than zero and NaN divided by zero is an infinity. -/
theorem C127_zero_divisor (z w : C) :
    (InfC b64 z ∨ (FinC b64 z ∧ ¬ ZeroC b64 z) → ZeroC b64 w → ∃ q, divdc3 z.1 z.2 w.1 w.2 = some q ∧ InfC b64 q) ∧
    (InfC b32 z ∨ (FinC b32 z ∧ ¬ ZeroC b32 z) → ZeroC b32 w → InfC b32 (divsc3 z.1 z.2 w.1 w.2)) :=
  ⟨fun h hw => divdc3_zero (ample_of h) hw.1 hw.2, fun h hw => divsc3_zero (ample_of h) hw.1 hw.2⟩

/-- C127: a finite number divided by an infinity is zero.  The sum of the magnitudes of the parts of the dividend may not exceed the
largest finite number: see `C127_nan`. -/
theorem C127_infinite_divisor_partial (z w : C) :
    (FinC b64 z → size b64 z.1 + size b64 z.2 ≤ b64.mag (b64.inf - 1) → InfC b64 w → ∃ q, divdc3 z.1 z.2 w.1 w.2 = some q ∧ ZeroC b64 q) ∧
    (FinC b32 z → size b32 z.1 + size b32 z.2 ≤ b32.mag (b32.inf - 1) → InfC b32 w → ZeroC b32 (divsc3 z.1 z.2 w.1 w.2)) :=
  ⟨fun h hs hw => divdc3_divisor h.1 h.2 hs hw, fun h hs hw => divsc3_divisor h.1 h.2 hs hw⟩

/-- C127 is violated: `(DBL_MAX + i DBL_MAX) / (∞ + i∞)` has a NaN for its real part; the sum overflows.  So does the quotient of
floats. -/
theorem C127_nan : divdc3 0x7FEFFFFFFFFFFFFF 0x7FEFFFFFFFFFFFFF b64.inf b64.inf = some (b64.nan, 0) ∧
    divsc3 0x7F7FFFFF 0x7F7FFFFF b32.inf b32.inf = (b32.nan, 0) := by decide +kernel

/-- `∞ / (1 + i)`, `(1 - i) / 0` and `(1 + 2i) / (∞ + i NaN)`. -/
example : (∃ q, divdc3 b64.inf 0 0x3FF0000000000000 0x3FF0000000000000 = some q ∧ InfC b64 q) ∧
    (∃ q, divdc3 0x3FF0000000000000 0xBFF0000000000000 0 0 = some q ∧ InfC b64 q) ∧
    (∃ q, divdc3 0x3FF0000000000000 0x4000000000000000 b64.inf b64.nan = some q ∧ ZeroC b64 q) :=
  ⟨(C127_infinite_dividend (b64.inf, 0) (0x3FF0000000000000, 0x3FF0000000000000)).1 (Or.inl rfl) (by unfold FinC Math.Spec.Finite absOf; decide +kernel),
    (C127_zero_divisor (0x3FF0000000000000, 0xBFF0000000000000) (0, 0)).1
      (Or.inr ⟨by unfold FinC Math.Spec.Finite absOf; decide +kernel, by unfold ZeroC Math.Spec.Zero absOf; decide +kernel⟩) (by unfold ZeroC Math.Spec.Zero absOf; decide +kernel),
    (C127_infinite_divisor_partial (0x3FF0000000000000, 0x4000000000000000) (b64.inf, b64.nan)).1 (by unfold FinC Math.Spec.Finite absOf; decide +kernel)
      (by decide +kernel) (Or.inl rfl)⟩

/-! ### C128: finite quotients -/

/-- C128: dividing by a real power of two rounds each part once, for the whole range of exponents. -/
theorem C128_power_partial (z w : C) (k : Int) (hz : PatC b64 z ∧ FinC b64 z) (hw : PatC b64 w) (hf : Finite b64 w.1) (h0 : Zero b64 w.2)
    (hk : 0 ≤ k + b64.unit) (hs : size b64 w.1 = 2 ^ (k + b64.unit).toNat) :
    ∃ q, divdc3 z.1 z.2 w.1 w.2 = some q ∧ PatC b64 q ∧
      Nearest b64 (size b64 z.1 * 2 ^ (-k).toNat) (2 ^ k.toNat) (absOf b64 q.1) ∧ Nearest b64 (size b64 z.2 * 2 ^ (-k).toNat) (2 ^ k.toNat) (absOf b64 q.2) ∧
      (¬ Zero b64 z.1 → (negative b64 q.1 ↔ ¬ (negative b64 z.1 ↔ negative b64 w.1))) ∧ (¬ Zero b64 z.2 → (negative b64 q.2 ↔ ¬ (negative b64 z.2 ↔ negative b64 w.1))) := by
  obtain ⟨q, e, ⟨p1, a1, s1⟩, p2, a2, s2⟩ := divdc3_pow hz.2.1 hz.2.2 hf h0 hk hs
  rw [Int.neg_neg] at a1 a2
  have sg : ∀ {x y v : Nat}, Pat b64 x → Pat b64 y → Pat b64 v → b64.neg v = (b64.neg x != b64.neg y) → (negative b64 v ↔ ¬ (negative b64 x ↔ negative b64 y)) := by
    intro x y v hx hy hv h
    rw [negative_iff hx, negative_iff hy, negative_iff hv, h]
    cases b64.neg x <;> cases b64.neg y <;> simp
  refine ⟨q, e, ⟨p1, p2⟩, ?_, ?_, fun h => sg hz.1.1 hw.1 p1 (s1 h), fun h => sg hz.1.2 hw.1 p2 (s2 h)⟩
  · rw [absOf_eq, a1]; exact rnd_nearest _ _ (Nat.two_pow_pos _)
  · rw [absOf_eq, a2]; exact rnd_nearest _ _ (Nat.two_pow_pos _)

/-- C128 is violated: `(DBL_MAX + i DBL_MAX) / (1 + i)` is `DBL_MAX` but becomes infinite. -/
theorem C128_overflow : divdc3 0x7FEFFFFFFFFFFFFF 0x7FEFFFFFFFFFFFFF 0x3FF0000000000000 0x3FF0000000000000 = some (b64.inf, 0) := by decide +kernel

/-- `(DBL_MAX + i 2^-1074) / 2^1023` and `/ 2^-1074`. -/
example : divdc3 0x7FEFFFFFFFFFFFFF 1 0x7FE0000000000000 0 = some (0x3FFFFFFFFFFFFFFF, 0) ∧ divdc3 0 1 1 0 = some (0, 0x3FF0000000000000) := by decide +kernel

/-! ### C129: square roots -/

theorem eqInf {x : Nat} (hp : Pat b64 x) (h : Infinite b64 x) : (negative b64 x → x = b64.opp b64.inf) ∧ (¬ negative b64 x → x = b64.inf) := by
  have e := Fmt.pack_self (F := b64) hp
  rw [show b64.abs x = b64.inf from h] at e
  rw [negative_iff hp]
  constructor
  · intro hn; rw [hn] at e; rw [← e]; decide +kernel
  · intro hn
    have : b64.neg x = false := by simpa using hn
    rw [this] at e; rw [← e]; decide +kernel

/-- C129: infinities (Annex G.6.4.2).  An infinite imaginary part wins even over a NaN. -/
theorem C129_infinite (x y : Nat) (hx : Pat b64 x) (hy : Pat b64 y) :
    (Infinite b64 y → csqrt (x, y) = (b64.inf, y)) ∧
    (x = b64.inf → Finite b64 y → ∃ t, csqrt (x, y) = (b64.inf, t) ∧ Zero b64 t ∧ (negative b64 t ↔ negative b64 y)) ∧
    (x = b64.opp b64.inf → Finite b64 y → ∃ t, csqrt (x, y) = (0, t) ∧ Infinite b64 t ∧ (negative b64 t ↔ negative b64 y)) ∧
    (x = b64.inf → NaN b64 y → ∃ t, csqrt (x, y) = (b64.inf, t) ∧ NaN b64 t) ∧
    (x = b64.opp b64.inf → NaN b64 y → ∃ s t, csqrt (x, y) = (s, t) ∧ NaN b64 s ∧ Infinite b64 t) := by
  have hi0 : b64.eq b64.inf 0 = false := by decide +kernel
  have hm0 : b64.eq (b64.opp b64.inf) 0 = false := by decide +kernel
  have hii : b64.eq b64.inf b64.inf = true := by decide +kernel
  have hmi : b64.eq (b64.opp b64.inf) b64.inf = false := by decide +kernel
  have hmm : b64.eq (b64.opp b64.inf) (b64.opp b64.inf) = true := by decide +kernel
  have hp := Fmt.inf_pos ok64
  refine ⟨fun h => ?_, fun h1 h2 => ?_, fun h1 h2 => ?_, fun h1 h2 => ?_, fun h1 h2 => ?_⟩
  · have hyz : b64.eq y 0 = false := big_ne_zero ok64 (by unfold Big; exact Nat.le_of_eq h.symm)
    unfold csqrt
    simp only
    rw [if_neg (by rw [hyz]; simp), if_pos (isInf_iff.2 h)]
  · have hn : ¬ isInf b64 y = true := by rw [isInf_iff]; exact Nat.ne_of_lt h2
    subst h1
    unfold csqrt
    simp only
    rw [hi0, if_neg (by simp), if_neg hn, if_pos hii]
    refine ⟨_, rfl, ?_⟩
    have e0 : b64.abs (b64.ofInt 0) = 0 := by rw [ofInt_zero]; exact Fmt.abs_of_lt Fmt.signBit_pos
    rw [Fmt.mul_fin (by rw [e0]; exact hp) h2, e0, Fmt.mag_zero, Nat.zero_mul, rnd_zero ok64 (Nat.two_pow_pos _), ofInt_zero, Fmt.neg_of_lt (x := 0) Fmt.signBit_pos]
    refine ⟨absOf_pack (Nat.zero_le _), ?_⟩
    rw [negative_pack (Nat.zero_le _), negative_iff hy]
    simp
  · have hn : ¬ isInf b64 y = true := by rw [isInf_iff]; exact Nat.ne_of_lt h2
    subst h1
    unfold csqrt
    simp only
    rw [hm0, if_neg (by simp), if_neg hn, hmi, if_neg (by simp), if_pos hmm]
    refine ⟨_, Prod.ext ?_ rfl, ?_⟩
    · show b64.sub y y = 0
      unfold Fmt.sub
      rw [Fmt.add_fin h2 (by rw [Fmt.abs_opp]; exact h2), Fmt.val_opp, Fmt.neg_opp]
      have e1 : b64.val y + -b64.val y = 0 := by omega
      rw [e1]
      cases b64.neg y
      · show b64.rndInt (false && !false) 0 = 0; decide
      · show b64.rndInt (true && !true) 0 = 0; decide
    · have hc : b64.copysign (b64.opp b64.inf) y = b64.pack (b64.neg y) b64.inf := by
        unfold Fmt.copysign; rw [Fmt.abs_opp, inf_abs]
      rw [hc]
      refine ⟨absOf_pack (Nat.le_refl _), ?_⟩
      rw [negative_pack (Nat.le_refl _), negative_iff hy]
  · have hn : ¬ isInf b64 y = true := by rw [isInf_iff]; exact Nat.ne_of_gt h2
    subst h1
    unfold csqrt
    simp only
    rw [hi0, if_neg (by simp), if_neg hn, if_pos hii]
    exact ⟨_, rfl, Fmt.isNaN_iff.1 (mul_nan ok64 (Or.inr (nan_of h2)))⟩
  · have hn : ¬ isInf b64 y = true := by rw [isInf_iff]; exact Nat.ne_of_gt h2
    subst h1
    unfold csqrt
    simp only
    rw [hm0, if_neg (by simp), if_neg hn, hmi, if_neg (by simp), if_pos hmm]
    refine ⟨_, _, rfl, Fmt.isNaN_iff.1 (add_nan ok64 (Or.inl (nan_of h2))), ?_⟩
    show b64.abs _ = _
    rw [abs_copysign, Fmt.abs_opp, inf_abs]

/-- C129: zeros and NaNs. -/
theorem C129_zero_nan (x y : Nat) :
    (Zero b64 x → Zero b64 y → csqrt (x, y) = (0, y)) ∧
    ((NaN b64 x ∨ NaN b64 y) → ¬ Infinite b64 x → ¬ Infinite b64 y → NaN b64 (csqrt (x, y)).1 ∧ NaN b64 (csqrt (x, y)).2) := by
  refine ⟨fun h1 h2 => ?_, fun h hx hy => ?_⟩
  · have e0 : b64.abs 0 = 0 := Fmt.abs_of_lt Fmt.signBit_pos
    have z : ∀ {v : Nat}, b64.abs v = 0 → b64.eq v 0 = true := fun h => by
      rw [Fmt.eq_iff (by rw [h]; exact Nat.zero_le _) (by rw [e0]; exact Nat.zero_le _), val_zero_iff.2 h, val_zero_iff.2 e0]
    unfold csqrt
    simp only
    rw [if_pos ⟨z h1, z h2⟩, ofInt_zero]
  · obtain ⟨h1, h2⟩ := csqrt_nan (h.imp nan_of nan_of) hx hy
    exact ⟨Fmt.isNaN_iff.1 h1, Fmt.isNaN_iff.1 h2⟩

/-- C129: the root of the conjugate is the conjugate of the root. -/
theorem C129_conjugate (x y : Nat) :
    ((csqrt (x, y)).1 = (csqrt (x, b64.opp y)).1 ∨ (NaN b64 (csqrt (x, y)).1 ∧ NaN b64 (csqrt (x, b64.opp y)).1)) ∧
    ((csqrt (x, b64.opp y)).2 = b64.opp (csqrt (x, y)).2 ∨ (NaN b64 (csqrt (x, y)).2 ∧ NaN b64 (csqrt (x, b64.opp y)).2)) := by
  obtain ⟨h1, h2⟩ := csqrt_conj x y
  exact ⟨h1.imp id (fun h => ⟨Fmt.isNaN_iff.1 h.1, Fmt.isNaN_iff.1 h.2⟩), h2.imp id (fun h => ⟨Fmt.isNaN_iff.1 h.1, Fmt.isNaN_iff.1 h.2⟩)⟩

/-- C129: the root lies in the right half-plane. -/
theorem C129_half_plane (x y : Nat) : b64.neg (csqrt (x, y)).1 = false ∨ NaN b64 (csqrt (x, y)).1 :=
  (csqrt_half x y).imp id Fmt.isNaN_iff.1

/-- C129: real numbers with `2^-511 ≤ |x| < 2^511` have a correctly rounded root: on the real axis if positive, on the imaginary
axis if negative.  Outside this range see `C129_violated`. -/
theorem C129_real_partial (x y : Nat) (hx : Pat b64 x) (hy : Pat b64 y) (hlo : 2 ^ (b64.unit - 511) ≤ size b64 x) (hhi : size b64 x < 2 ^ (b64.unit + 511)) (h0 : Zero b64 y) :
    ∃ s, RootNearest b64 x s ∧ (¬ negative b64 x → csqrt (x, y) = (s, y)) ∧
      (negative b64 x → ∃ t, csqrt (x, y) = (0, t) ∧ absOf b64 t = s ∧ (negative b64 t ↔ negative b64 y)) := by
  obtain ⟨s, es, s0, s1, e⟩ := csqrt_real hlo hhi h0
  have hp := Fmt.inf_pos ok64
  have hmi := Fmt.mag_inf ok64
  have hn : b64.abs x < b64.inf := (Fmt.mag_lt_iff (F := b64)).1 (by
    rw [hmi]; exact Nat.lt_trans hhi (Nat.pow_lt_pow_right (by decide) (by decide)))
  have hx0 : b64.abs x ≠ 0 := by
    intro h
    rw [size_eq, h, Fmt.mag_zero] at hlo
    exact absurd (Nat.two_pow_pos (b64.unit - 511)) (Nat.not_lt.2 hlo)
  have hne : ∀ v, b64.abs v ≠ b64.abs x → b64.abs v ≤ b64.inf → b64.eq x v = false := by
    intro v hv hv2
    rw [← Bool.not_eq_true, Fmt.eq_iff (Nat.le_of_lt hn) hv2]
    intro hc
    have := congrArg Int.natAbs hc
    rw [Fmt.natAbs_val, Fmt.natAbs_val] at this
    have h1 := (Fmt.mag_le_iff (F := b64)).1 (Nat.le_of_eq this)
    have h2 := (Fmt.mag_le_iff (F := b64)).1 (Nat.le_of_eq this.symm)
    omega
  have e0 : b64.abs 0 = 0 := Fmt.abs_of_lt Fmt.signBit_pos
  have h0' : b64.abs y = 0 := h0
  have hcs : csqrt (x, y) = csqrtFinite x y := by
    unfold csqrt
    simp only
    rw [hne 0 (by rw [e0]; exact hx0.symm) (by rw [e0]; exact Nat.zero_le _), if_neg (by simp), if_neg (by rw [isInf_iff, h0']; exact Nat.ne_of_lt hp),
      hne b64.inf (by rw [inf_abs]; exact Nat.ne_of_gt hn) (by rw [inf_abs]), if_neg (by simp),
      hne (b64.opp b64.inf) (by rw [Fmt.abs_opp, inf_abs]; exact Nat.ne_of_gt hn) (by rw [Fmt.abs_opp, inf_abs]), if_neg (by simp)]
  have hroot := rootPat_spec (F := b64) (root_fin ok64 (by decide) hn)
  rw [← es] at hroot
  refine ⟨s, ⟨s1, ?_, ?_⟩, fun h => ?_, fun h => ?_⟩
  · rw [Nat.pow_two]; exact hroot.1
  · rw [Nat.pow_two]; exact hroot.2
  · rw [negative_iff hx] at h
    rw [hcs, e, if_neg h]
    have := Fmt.pack_self (F := b64) hy
    rw [h0'] at this
    rw [this]
  · rw [negative_iff hx] at h
    rw [hcs, e, if_pos h]
    have ha := Fmt.abs_of_lt (Nat.lt_trans s1 (Fmt.inf_lt (F := b64)))
    refine ⟨_, rfl, ?_⟩
    unfold Fmt.copysign
    rw [ha]
    exact ⟨absOf_pack (Nat.le_of_lt s1), by rw [negative_pack (Nat.le_of_lt s1), negative_iff hy]⟩

/-- C129 is violated outside that range: the root of `2^600` is `∞` instead of `2^300`; that of `2^-600 i` is `0 + i∞`; that of
`2^-1074` has a NaN for its imaginary part. -/
theorem C129_violated : csqrt (0x6570000000000000, 0) = (b64.inf, 0) ∧ csqrt (0, 0x1A70000000000000) = (0, b64.inf) ∧ csqrt (1, 0) = (0, b64.nan) := by
  decide +kernel

/-- The roots of 4, -4 and 2. -/
example : csqrt (0x4010000000000000, 0) = (0x4000000000000000, 0) ∧ csqrt (0xC010000000000000, 0) = (0, 0x4000000000000000) ∧
    csqrt (0x4000000000000000, 0) = (0x3FF6A09E667F3BCD, 0) := by decide +kernel

/-! ### C130: the real part of the logarithm -/

/-- C130: infinities, zeros and NaNs: the modulus decides, as Annex G.6.3.2 demands. -/
theorem C130_special (log1p : Nat → Nat) (z : C) :
    (InfC b64 z → clogReal log1p z = b64.inf) ∧ (ZeroC b64 z → clogReal log1p z = b64.opp b64.inf) ∧
    ((NaN b64 z.1 ∨ NaN b64 z.2) → ¬ InfC b64 z → NaN b64 (clogReal log1p z)) := by
  have hp := Fmt.inf_pos ok64
  refine ⟨fun h => ?_, fun h => ?_, fun h hn => ?_⟩
  · unfold clogReal realClog
    rw [if_pos]
    have e : ∀ {v : Nat}, b64.abs v = b64.inf → b64.eq (b64.abs v) b64.inf = true := fun h => by rw [h]; decide +kernel
    exact h.imp e e
  · unfold clogReal realClog
    rw [show b64.abs z.1 = 0 from h.1, show b64.abs z.2 = 0 from h.2, if_neg (by decide +kernel)]
    have : b64.add (b64.mul 0 0) (b64.mul 0 0) = 0 := by decide +kernel
    rw [this]
    rfl
  · unfold clogReal realClog
    have e : ∀ {v : Nat}, ¬ b64.abs v = b64.inf → b64.eq (b64.abs v) b64.inf = false := by
      intro v hv
      by_cases h1 : b64.isNaN (b64.abs v) = true
      · unfold Fmt.eq; rw [h1]; simp
      · have h2 : b64.abs (b64.abs v) ≤ b64.inf := Fmt.isNaN_false.1 (by simpa using h1)
        rw [← Bool.not_eq_true, Fmt.eq_iff h2 (by rw [inf_abs])]
        intro hc
        have := congrArg Int.natAbs hc
        rw [Fmt.natAbs_val, Fmt.natAbs_val, Fmt.abs_abs, inf_abs] at this
        have h1 := (Fmt.mag_le_iff (F := b64)).1 (Nat.le_of_eq this)
        have h2 := (Fmt.mag_le_iff (F := b64)).1 (Nat.le_of_eq this.symm)
        omega
    have n1 : ¬ b64.abs z.1 = b64.inf := fun h => hn (Or.inl h)
    have n2 : ¬ b64.abs z.2 = b64.inf := fun h => hn (Or.inr h)
    rw [e n1, e n2, if_neg (by simp)]
    have hi : b64.add (b64.mul (b64.abs z.1) (b64.abs z.1)) (b64.mul (b64.abs z.2) (b64.abs z.2)) = b64.nan := by
      have hm : ∀ {v : Nat}, NaN b64 v → b64.isNaN (b64.mul (b64.abs v) (b64.abs v)) = true := fun h =>
        mul_nan ok64 (Or.inl (by rw [isNaN_abs]; exact nan_of h))
      have hor := h.imp hm hm
      unfold Fmt.add
      rw [if_pos hor]
    rw [hi]
    have hn' := nan_abs ok64
    simp only
    rw [if_neg (by decide), if_pos (by decide)]
    exact hn'

/-- What the function computes for `2^600` and `107/64`. -/
theorem clog_values (log1p : Nat → Nat) : clogReal log1p (0x6570000000000000, 0) = 0x40762E42FEFA39EF ∧ clogReal log1p (0x3FFAC00000000000, 0) = 0x3FE5CCEFEC779168 := by
  constructor
  · unfold clogReal realClog
    rw [if_neg (by decide +kernel)]
    simp only
    rw [if_neg (by decide +kernel), if_neg (by decide +kernel), if_neg (by decide +kernel)]
    decide +kernel
  · unfold clogReal realClog
    rw [if_neg (by decide +kernel)]
    simp only
    rw [if_neg (by decide +kernel), if_neg (by decide +kernel), if_neg (by decide +kernel)]
    decide +kernel

/-- C130 is violated: the real part of the logarithm of `107/64`, which is less than 0.6, comes out above 0.68, and that of `2^600`, which is
above 415, below 355, whatever `log1p` is. -/
theorem C130_violated (log1p : Nat → Nat) :
    (real b64 (0x3FFAC00000000000) = 107 / 64 ∧ Real.log (107 / 64) < 0.6 ∧ 0.68 < real b64 (clogReal log1p (0x3FFAC00000000000, 0))) ∧
    (real b64 (0x6570000000000000) = 2 ^ 600 ∧ 415 < Real.log (2 ^ 600) ∧ real b64 (clogReal log1p (0x6570000000000000, 0)) < 355) := by
  obtain ⟨v1, v2⟩ := clog_values log1p
  rw [v1, v2]
  have hU : (0 : ℝ) < 2 ^ b64.unit := by positivity
  refine ⟨⟨?_, ?_, ?_⟩, ?_, ?_, ?_⟩
  · unfold real
    rw [div_eq_iff (ne_of_gt hU)]
    have h : value b64 0x3FFAC00000000000 * 64 = 107 * 2 ^ b64.unit := by decide +kernel
    have h' : (value b64 0x3FFAC00000000000 : ℝ) * 64 = 107 * 2 ^ b64.unit := by exact_mod_cast h
    linarith
  · have h1 : Real.log (107 / 64) < Real.log (1.3 * 1.3) := Real.log_lt_log (by norm_num) (by norm_num)
    rw [Real.log_mul (by norm_num) (by norm_num)] at h1
    have h2 := Real.log_le_sub_one_of_pos (show (0 : ℝ) < 1.3 by norm_num)
    linarith
  · unfold real
    rw [lt_div_iff₀ hU]
    have h : 68 * 2 ^ b64.unit < value b64 0x3FE5CCEFEC779168 * 100 := by decide +kernel
    have h' : (68 : ℝ) * 2 ^ b64.unit < (value b64 0x3FE5CCEFEC779168 : ℝ) * 100 := by exact_mod_cast h
    linarith
  · unfold real
    rw [div_eq_iff (ne_of_gt hU)]
    have h : value b64 0x6570000000000000 = 2 ^ 600 * 2 ^ b64.unit := by decide +kernel
    have h' : (value b64 0x6570000000000000 : ℝ) = 2 ^ 600 * 2 ^ b64.unit := by exact_mod_cast h
    exact h'
  · rw [Real.log_pow]
    have := Real.log_two_gt_d9
    push_cast
    linarith
  · unfold real
    rw [div_lt_iff₀ hU]
    have h : value b64 0x40762E42FEFA39EF < 355 * 2 ^ b64.unit := by decide +kernel
    exact_mod_cast h

/-! ### C131: projection and conjugation -/

/-- C131: `cproj` maps all infinities to the positive real one, keeping the sign of the imaginary part on its zero, and nothing
else. -/
theorem C131_cproj (F : Fmt) (z : C) (hz : PatC F z) :
    (¬ InfC F z → cproj F z = z) ∧
    (InfC F z → (cproj F z).1 = F.inf ∧ Zero F (cproj F z).2 ∧ (negative F (cproj F z).2 ↔ negative F z.2)) ∧
    (∀ w, InfC F z → InfC F w → (negative F z.2 ↔ negative F w.2) → Pat F w.2 → cproj F z = cproj F w) := by
  have hc : ∀ v, F.copysign 0 v = F.pack (F.neg v) 0 := fun v => by unfold Fmt.copysign; rw [Fmt.abs_of_lt Fmt.signBit_pos]
  have hinf : ∀ {w : C}, InfC F w → cproj F w = (F.inf, F.pack (F.neg w.2) 0) := by
    intro w h
    unfold cproj
    rw [if_pos (h.imp isInf_iff.2 isInf_iff.2), hc]
  refine ⟨fun h => ?_, fun h => ?_, fun w h h' hs hw => ?_⟩
  · unfold cproj
    rw [if_neg (fun h' => h (h'.imp isInf_iff.1 isInf_iff.1))]
  · rw [hinf h]
    exact ⟨rfl, absOf_pack (Nat.zero_le _), by rw [negative_pack (Nat.zero_le _), negative_iff hz.2]⟩
  · rw [hinf h, hinf h']
    rw [negative_iff hz.2, negative_iff hw] at hs
    have : F.neg z.2 = F.neg w.2 := Bool.eq_iff_iff.2 hs
    rw [this]

/-- C131: `conj` negates the imaginary part, is its own inverse, and leaves infinities and zeros such. -/
theorem C131_conj (F : Fmt) (z : C) (hz : PatC F z) :
    conj F (conj F z) = z ∧ (conj F z).1 = z.1 ∧ value F (conj F z).2 = -value F z.2 ∧ (negative F (conj F z).2 ↔ ¬ negative F z.2) ∧
      (InfC F (conj F z) ↔ InfC F z) ∧ (ZeroC F (conj F z) ↔ ZeroC F z) := by
  have hp : Pat F (F.opp z.2) := Fmt.pack_lt (Fmt.abs_lt _)
  unfold conj
  refine ⟨?_, rfl, ?_, ?_, ?_, ?_⟩
  · apply Prod.ext
    · rfl
    · show F.opp (F.opp z.2) = z.2
      unfold Fmt.opp
      rw [Fmt.abs_pack (Fmt.abs_lt _), Fmt.neg_pack (Fmt.abs_lt _), Bool.not_not]
      exact Fmt.pack_self hz.2
  · show value F (F.opp z.2) = _
    rw [value_eq hp, value_eq hz.2, Fmt.val_opp]
  · show negative F (F.opp z.2) ↔ _
    rw [negative_iff hp, negative_iff hz.2, Fmt.neg_opp]; simp
  · unfold InfC Math.Spec.Infinite; simp only [absOf_eq, Fmt.abs_opp]
  · unfold ZeroC Math.Spec.Zero; simp only [absOf_eq, Fmt.abs_opp]

/-- `cproj(NaN - i∞)` is `∞ - i0`. -/
example : cproj b64 (b64.nan, b64.opp b64.inf) = (b64.inf, 0x8000000000000000) ∧ InfC b64 (b64.nan, b64.opp b64.inf) :=
  ⟨by decide +kernel, Or.inr (by unfold Math.Spec.Infinite absOf; decide +kernel)⟩

end Verif.Cplx
