import Verif.Int128.Shift
import Verif.Int128.Signed
import Verif.Int128.FloatConv

/-!
# Properties C17–C21: 128-bit integers
-/

namespace Verif.Int128

open Verif.Float

/-- C17: `__multi3` is multiplication modulo 2^128, which is what both signed and unsigned
`__int128` multiplication need. -/
theorem C17_multi3 (a b : Nat) (ha : a < 2 ^ 128) (hb : b < 2 ^ 128) : multi3 a b = (a * b) % 2 ^ 128 :=
  multi3_eq a b ha hb

/-- C17: the full 256-bit product used by long double multiplication is exact. -/
theorem C17_full_product (a b : Nat) (ha : a < 2 ^ 128) (hb : b < 2 ^ 128) :
    (umulti4 a b).2 * 2 ^ 128 + (umulti4 a b).1 = a * b ∧ (umulti4 a b).1 < 2 ^ 128 := by
  rw [umulti4_eq a b ha hb]
  refine ⟨?_, Nat.mod_lt _ (by decide)⟩
  simp only
  rw [Nat.mul_comm]; exact Nat.div_add_mod _ _

example : multi3 (2 ^ 127 + 3) (2 ^ 64 + 5) = ((2 ^ 127 + 3) * (2 ^ 64 + 5)) % 2 ^ 128 ∧
    (2 ^ 127 + 3 < 2 ^ 128) := by decide

/-- C18: unsigned division and remainder are the quotient and remainder of the naturals for every
dividend and every nonzero divisor. -/
theorem C18_udivmod (a b : Nat) (ha : a < 2 ^ 128) (hb : b < 2 ^ 128) (h0 : b ≠ 0) :
    ∃ q r, udivti3 a b = some q ∧ umodti3 a b = some r ∧ a = b * q + r ∧ r < b := by
  refine ⟨a / b, a % b, ?_, ?_, (Nat.div_add_mod a b).symm, Nat.mod_lt _ (by omega)⟩
  · unfold udivti3; rw [udivmodti4_eq a b ha hb h0]; rfl
  · unfold umodti3; rw [udivmodti4_eq a b ha hb h0]; rfl

/-- A quotient digit that needs both correction steps of Knuth's algorithm D. -/
example : udivti3 (2 ^ 127 - 1) (2 ^ 63 + 2 ^ 32 - 1) = some ((2 ^ 127 - 1) / (2 ^ 63 + 2 ^ 32 - 1)) ∧
    udivti3 (2 ^ 128 - 1) (2 ^ 64 + 1) = some ((2 ^ 128 - 1) / (2 ^ 64 + 1)) := by decide +kernel

/-- C19: signed division truncates toward zero and the remainder has the sign of the dividend,
for all operands except the most negative value (see below) and zero divisors. -/
theorem C19_divmod_partial (a b : Int) (ha : -2 ^ 127 < a) (ha' : a < 2 ^ 127) (hb : -2 ^ 127 < b)
    (hb' : b < 2 ^ 127) (h0 : b ≠ 0) :
    ∃ q r, divti3 a b = some q ∧ modti3 a b = some r ∧ a = b * q + r ∧ r.natAbs < b.natAbs ∧
      (0 ≤ a → 0 ≤ r) ∧ (a ≤ 0 → r ≤ 0) := by
  refine ⟨a.tdiv b, a.tmod b, divti3_eq a b ha ha' hb hb' h0, modti3_eq a b (by omega) ha' hb hb' h0,
    (Int.mul_tdiv_add_tmod a b).symm, ?_, ?_, ?_⟩
  · rw [Int.natAbs_tmod]; exact Nat.mod_lt _ (by omega)
  · intro h; exact Int.tmod_nonneg b h
  · intro h
    have := Int.tmod_nonneg b (show 0 ≤ -a by omega)
    rw [Int.neg_tmod] at this
    omega

example : divti3 (-7) 2 = some (-3) ∧ modti3 (-7) 2 = some (-1) ∧ divti3 7 (-2) = some (-3) ∧
    modti3 7 (-2) = some 1 := by decide +kernel

/-- C19, remainder: also right for the most negative dividend. -/
theorem C19_mod_min (b : Int) (hb : -2 ^ 127 < b) (hb' : b < 2 ^ 127) (h0 : b ≠ 0) :
    modti3 (-2 ^ 127) b = some ((-2 ^ 127 : Int).tmod b) :=
  modti3_eq _ b (by omega) (by omega) hb hb' h0

/-- C19 is violated in the letter of C: dividing the most negative value executes a signed
overflow (`a + signa`, divti3.c:10), although the quotient is representable. -/
theorem C19_min_is_undefined : divti3 (-2 ^ 127) 2 = none ∧ modti3 5 (-2 ^ 127) = none := by decide +kernel

/-- C20: shifts by 0..127 bits, on bit patterns: left shift modulo 2^128, logical right shift. -/
theorem C20_shl_shr (x s : Nat) (hx : x < 2 ^ 128) (hs : s < 128) :
    ashlti3 x s = (x * 2 ^ s) % 2 ^ 128 ∧ lshrti3 x s = x / 2 ^ s :=
  ⟨ashlti3_eq x s hx hs, lshrti3_eq x s hx hs⟩

/-- C20: arithmetic right shift is division by 2^s rounded down. -/
theorem C20_sar (x : Int) (s : Nat) (h1 : -2 ^ 127 ≤ x) (h2 : x < 2 ^ 127) (hs : s < 128) :
    toS (ashrti3 (toU x) s) = x / 2 ^ s := by
  rcases Int.le_total 0 x with h | h
  · obtain ⟨n, rfl⟩ := Int.eq_ofNat_of_zero_le h
    rw [toU_nat n (by omega), ashrti3_pos n s (by omega) hs, toS_small]
    · simp
    · have := Nat.div_le_self n (2 ^ s); omega
  · rcases Int.lt_or_eq_of_le h with h | h
    · obtain ⟨n, rfl⟩ : ∃ n : Nat, x = -(n : Int) - 1 := ⟨(-x - 1).toNat, by omega⟩
      have e : toU (-(n : Int) - 1) = 2 ^ 128 - 1 - n := by unfold toU; omega
      rw [e, ashrti3_neg _ s (by omega) (by omega) hs]
      rw [show 2 ^ 128 - 1 - (2 ^ 128 - 1 - n) = n by omega]
      have hle := Nat.div_le_self n (2 ^ s)
      have hfloor : (-(n : Int) - 1) / 2 ^ s = -((n / 2 ^ s : Nat) : Int) - 1 := by
        have hp := Nat.two_pow_pos s
        have hdm := Nat.div_add_mod n (2 ^ s)
        have hm : n % 2 ^ s < 2 ^ s := Nat.mod_lt _ hp
        have hc : ((2 : Int) ^ s) = ((2 ^ s : Nat) : Int) := by simp
        rw [hc]
        generalize 2 ^ s = P at *
        generalize n / P = q at *
        generalize n % P = r at *
        rw [Int.ediv_eq_iff_of_pos (by omega)]
        subst hdm
        clear e hle h1 h2 h hc
        rw [Int.sub_mul, Int.neg_mul]
        push_cast
        rw [Int.mul_comm (P : Int)]
        generalize (q : Int) * (P : Int) = z
        omega
      rw [hfloor]
      unfold toS
      generalize n / 2 ^ s = q at *
      rw [show (2 ^ 128 - 1 - q) % 2 ^ 128 = 2 ^ 128 - 1 - q by omega, if_neg (by omega)]
      omega
    · subst h
      have := ashrti3_pos 0 s (by decide) hs
      rw [show toU 0 = 0 from rfl, this]
      simp [toS]

example : toS (ashrti3 (toU (-5)) 1) = -3 ∧ toS (ashrti3 (toU (-2 ^ 127)) 127) = -1 ∧ ashlti3 3 126 = 3 * 2 ^ 126 := by
  decide +kernel

/-- C21: every unsigned 128-bit integer converts to float, double and long double with a single
rounding to nearest, ties to even (overflowing to infinity for float). -/
theorem C21_unsigned (a : Nat) (h : a < 2 ^ 128) :
    RoundsInt b32 a (floatuntisf a) ∧ RoundsInt b64 a (floatuntidf a) ∧ RoundsInt b128 a (floatuntitf a) := by
  have hnn : ¬ ((a : Int) < 0) := by omega
  unfold RoundsInt
  rw [if_neg hnn, if_neg hnn, if_neg hnn, Int.natAbs_natCast]
  by_cases h0 : a = 0
  · subst h0
    have hz : ∀ F : Fmt, Nearest F (0 * 2 ^ F.unit) 1 0 := fun F =>
      nearest_exact (by omega) (Nat.zero_le _) (by rw [F.mag_zero]; simp)
    exact ⟨⟨0, hz b32, rfl⟩, ⟨0, hz b64, rfl⟩, ⟨0, hz b128, rfl⟩⟩
  · rw [floatuntisf_eq a h0 h, floatuntidf_eq a h0 h, floatuntitf_eq a h0 h]
    exact ⟨⟨_, conv_nearest b32 (by decide) (by decide) (by decide) (by decide) (by decide) a h0 h, (Nat.zero_add _).symm⟩,
      ⟨_, conv_nearest b64 (by decide) (by decide) (by decide) (by decide) (by decide) a h0 h, (Nat.zero_add _).symm⟩,
      ⟨_, conv_nearest b128 (by decide) (by decide) (by decide) (by decide) (by decide) a h0 h, (Nat.zero_add _).symm⟩⟩

/-- C21, signed, for every value but the most negative one. -/
theorem C21_signed_partial (a : Int) (h1 : -2 ^ 127 < a) (h2 : a < 2 ^ 127) :
    ∃ f d q, floattisf a = some f ∧ floattidf a = some d ∧ floattitf a = some q ∧
      RoundsInt b32 a f ∧ RoundsInt b64 a d ∧ RoundsInt b128 a q := by
  unfold RoundsInt
  by_cases h0 : a = 0
  · subst h0
    have hz : ∀ F : Fmt, Nearest F ((0 : Int).natAbs * 2 ^ F.unit) 1 0 := fun F =>
      nearest_exact (by omega) (Nat.zero_le _) (by rw [F.mag_zero]; simp)
    exact ⟨0, 0, 0, rfl, rfl, rfl, ⟨0, hz b32, by simp⟩, ⟨0, hz b64, by simp⟩, ⟨0, hz b128, by simp⟩⟩
  · have hn0 : a.natAbs ≠ 0 := by omega
    have hn : a.natAbs < 2 ^ 128 := by omega
    refine ⟨_, _, _, floattisf_eq a h0 h1 h2, floattidf_eq a h0 h1 h2, floattitf_eq a h0 h1 h2, ?_, ?_, ?_⟩
    · exact ⟨_, conv_nearest b32 (by decide) (by decide) (by decide) (by decide) (by decide) _ hn0 hn, rfl⟩
    · exact ⟨_, conv_nearest b64 (by decide) (by decide) (by decide) (by decide) (by decide) _ hn0 hn, rfl⟩
    · exact ⟨_, conv_nearest b128 (by decide) (by decide) (by decide) (by decide) (by decide) _ hn0 hn, rfl⟩

/-- 2^53+1 is a tie and goes to the even neighbour; 2^128-1 overflows to float infinity. -/
example : floatuntidf (2 ^ 53 + 1) = 0x4340000000000000 ∧ floatuntidf (2 ^ 53 + 3) = 0x4340000000000002 ∧
    floatuntisf (2 ^ 128 - 1) = 0x7F800000 ∧ floattidf (-3) = some 0xC008000000000000 := by decide +kernel

/-- C21, most negative value: the code negates it, a signed overflow. -/
theorem C21_min_is_undefined : floattidf (-2 ^ 127) = none ∧ floattisf (-2 ^ 127) = none ∧
    floattitf (-2 ^ 127) = none := by decide +kernel

/-- C21: 64-bit integers convert to long double exactly. -/
theorem C21_di_to_long_double (a : Nat) (h : a < 2 ^ 64) : RoundsInt b128 a (floatunditf a) := by
  unfold RoundsInt
  rw [if_neg (by omega), Int.natAbs_natCast]
  by_cases h0 : a = 0
  · subst h0
    exact ⟨0, nearest_exact (by omega) (Nat.zero_le _) (by rw [Fmt.mag_zero]; simp), rfl⟩
  · refine ⟨_, (exact64 a h0 h).2, ?_⟩
    unfold floatunditf
    rw [if_neg h0, Nat.zero_add]

/-- C21: signed 64-bit integers (other than the most negative) convert to long double exactly. -/
theorem C21_signed_di_to_long_double (a : Int) (h1 : -2 ^ 63 < a) (h2 : a < 2 ^ 63) :
    ∃ r, floatditf a = some r ∧ RoundsInt b128 a r := by
  unfold RoundsInt
  by_cases h0 : a = 0
  · subst h0
    exact ⟨0, rfl, 0, nearest_exact (by omega) (Nat.zero_le _) (by rw [Fmt.mag_zero]; simp), by simp⟩
  · obtain ⟨e1, e2⟩ := exact64 a.natAbs (by omega) (by omega)
    have hm : (if a < 0 then chk64 (-a) else some a) = some (a.natAbs : Int) := by
      unfold chk64
      split
      · rw [if_pos (show IsI64 (-a) from ⟨by omega, by omega⟩)]; congr 1; omega
      · congr 1; omega
    have hu : u64 (a.natAbs : Int) = a.natAbs := by unfold u64; omega
    have hs : (u64 a &&& 0x8000000000000000) = if a < 0 then 2 ^ 63 else 0 := by
      rw [show (0x8000000000000000 : Nat) = 2 ^ 63 from rfl, and_two_pow]
      split
      · rw [if_pos (by unfold u64 at *; omega)]
      · rw [if_neg (by unfold u64 at *; omega)]
    refine ⟨_, by unfold floatditf; rw [if_neg h0, hm]; rfl, _, e2, ?_⟩
    simp only [hu, hs]
    split
    · rw [show ((2 ^ 63) <<< 64 % 2 ^ 128 : Nat) = 2 ^ 127 from by decide, or_sign _ _ e1]
      rfl
    · simp

example : floatditf (-1) = some (0xBFFF * 2 ^ 112) ∧ floatunditf 3 = 0x4000 * 2 ^ 112 + 2 ^ 111 := by decide +kernel

end Verif.Int128
