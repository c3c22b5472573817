import Verif.Int128.FloatLemmas

namespace Verif.Int128

open Verif.Float

theorem pack (f m e s : Nat) (hs : s < 2 ^ f) (he : e < 2 ^ m) :
    (s ||| (e <<< f) % 2 ^ (f + m)) = e * 2 ^ f + s := by
  rw [shl_mod, or_mul _ _ _ hs, Nat.mod_eq_of_lt he]

theorem or_sign (x k : Nat) (h : x < 2 ^ k) : (x ||| 2 ^ k) = 2 ^ k + x := by
  have := or_mul 1 x k h
  rwa [Nat.one_mul] at this

theorem toU_neg (a : Int) (h : a < 0) (h' : -2 ^ 127 ≤ a) : toU a = 2 ^ 128 - a.natAbs := by unfold toU; omega

theorem signbit (a : Int) (h1 : -2 ^ 127 ≤ a) (h2 : a < 2 ^ 127) (k : Nat) (hk : k ≤ 127) :
    (toU a >>> k &&& 2 ^ (127 - k)) = if a < 0 then 2 ^ (127 - k) else 0 := by
  rw [and_two_pow, Nat.shiftRight_eq_div_pow, Nat.div_div_eq_div_mul, ← Nat.pow_add, show k + (127 - k) = 127 by omega]
  split
  · rw [if_pos (by unfold toU at *; omega)]
  · rw [if_neg (by unfold toU at *; omega)]

theorem magnitude128_eq (a : Int) (h1 : -2 ^ 127 < a) (h2 : a < 2 ^ 127) : magnitude128 a = some a.natAbs := by
  unfold magnitude128 chk128
  split
  · rw [if_pos (show IsI128 (-a) from ⟨by omega, by omega⟩)]
    simp only [Option.map_some]
    congr 1
    unfold toU; omega
  · congr 1
    unfold toU; omega

theorem norm_shift (a : Nat) (h0 : a ≠ 0) (h : a < 2 ^ 128) :
    (a <<< clz128 a) % 2 ^ 128 = a * 2 ^ (127 - Nat.log2 a) := by
  rw [clz128_eq a h0 h, Nat.shiftLeft_eq, Nat.mod_eq_of_lt (norm_bounds a h0 h).2]

/-- The rounded pattern does not reach the sign bit. -/
theorem conv_lt (F : Fmt) (hf : 1 ≤ F.f) (hf' : F.f ≤ 112) (hw : F.bias + 129 ≤ 2 ^ F.w)
    (hu : 127 ≤ F.unit) (hb : 1 ≤ F.bias) (a : Nat) (h0 : a ≠ 0) (h : a < 2 ^ 128) :
    conv F a < 2 ^ (F.f + F.w) := by
  have := (conv_nearest F hf hf' hw hu hb a h0 h).le
  have h2 : F.inf < 2 ^ (F.f + F.w) := by
    unfold Fmt.inf
    rw [Nat.pow_add, Nat.mul_comm]
    exact Nat.mul_lt_mul_of_pos_left (by have := Nat.two_pow_pos F.w; omega) (Nat.two_pow_pos _)
  omega

theorem sig_eq (N k f : Nat) (hN1 : 2 ^ (k + f) ≤ N) (hN2 : N < 2 ^ (k + f + 1)) :
    (N >>> k &&& (2 ^ f - 1)) = N / 2 ^ k - 2 ^ f ∧ N / 2 ^ k - 2 ^ f < 2 ^ f := by
  rw [and_mask, Nat.shiftRight_eq_div_pow]
  have hp := Nat.two_pow_pos k
  have h1 : 2 ^ f ≤ N / 2 ^ k := by rw [Nat.le_div_iff_mul_le hp, ← Nat.pow_add, Nat.add_comm]; exact hN1
  have h2 : N / 2 ^ k < 2 * 2 ^ f := by
    rw [Nat.div_lt_iff_lt_mul hp, Nat.mul_assoc, ← Nat.pow_add, Nat.add_comm f, Nat.mul_comm, ← Nat.pow_succ]
    exact hN2
  refine ⟨?_, by omega⟩
  rw [Nat.mod_eq_sub_mod h1, Nat.mod_eq_of_lt (by omega)]

theorem both_le (a b c : Nat) : both a b c ≤ 1 := by unfold both; split <;> omega

theorem floatuntidf_eq (a : Nat) (h0 : a ≠ 0) (h : a < 2 ^ 128) : floatuntidf a = conv b64 a := by
  have hl := log2_lt h0 h
  have hlt := conv_lt b64 (by decide) (by decide) (by decide) (by decide) (by decide) a h0 h
  obtain ⟨n1, n2⟩ := norm_bounds a h0 h
  obtain ⟨s1, s2⟩ := sig_eq (a * 2 ^ (127 - Nat.log2 a)) 75 52 n1 n2
  unfold floatuntidf
  rw [if_neg h0]
  simp only [norm_shift a h0 h]
  rw [show (0x000FFFFFFFFFFFFF : Nat) = 2 ^ 52 - 1 from rfl, s1, clz128_eq a h0 h,
    show 1023 + 127 - (127 - Nat.log2 a) = 1023 + Nat.log2 a by omega]
  have := pack 52 12 (1023 + Nat.log2 a) _ s2 (by omega)
  rw [show (52 + 12 : Nat) = 64 from rfl] at this
  rw [this]
  exact Nat.mod_eq_of_lt (Nat.lt_of_lt_of_le hlt (by decide))

theorem floatuntisf_eq (a : Nat) (h0 : a ≠ 0) (h : a < 2 ^ 128) : floatuntisf a = conv b32 a := by
  have hl := log2_lt h0 h
  have hlt := conv_lt b32 (by decide) (by decide) (by decide) (by decide) (by decide) a h0 h
  obtain ⟨n1, n2⟩ := norm_bounds a h0 h
  obtain ⟨s1, s2⟩ := sig_eq (a * 2 ^ (127 - Nat.log2 a)) 104 23 n1 n2
  unfold floatuntisf
  rw [if_neg h0]
  simp only [norm_shift a h0 h]
  rw [show (0x7FFFFF : Nat) = 2 ^ 23 - 1 from rfl, s1, clz128_eq a h0 h,
    show 127 + 127 - (127 - Nat.log2 a) = 127 + Nat.log2 a by omega]
  have := pack 23 9 (127 + Nat.log2 a) _ s2 (by omega)
  rw [show (23 + 9 : Nat) = 32 from rfl] at this
  rw [this]
  exact Nat.mod_eq_of_lt (Nat.lt_of_lt_of_le hlt (by decide))

theorem floatuntitf_eq (a : Nat) (h0 : a ≠ 0) (h : a < 2 ^ 128) : floatuntitf a = conv b128 a := by
  have hl := log2_lt h0 h
  have hlt := conv_lt b128 (by decide) (by decide) (by decide) (by decide) (by decide) a h0 h
  obtain ⟨n1, n2⟩ := norm_bounds a h0 h
  obtain ⟨s1, s2⟩ := sig_eq (a * 2 ^ (127 - Nat.log2 a)) 15 112 n1 n2
  unfold floatuntitf
  rw [if_neg h0]
  simp only [norm_shift a h0 h]
  rw [show ((2 ^ 128 - 1) >>> 16 : Nat) = 2 ^ 112 - 1 from rfl, s1, clz128_eq a h0 h,
    show 0x3FFF + 127 - (127 - Nat.log2 a) = 16383 + Nat.log2 a by omega]
  have := pack 112 16 (16383 + Nat.log2 a) _ s2 (by omega)
  rw [show (112 + 16 : Nat) = 128 from rfl] at this
  rw [this]
  exact Nat.mod_eq_of_lt (Nat.lt_of_lt_of_le hlt (by decide))

theorem floattidf_eq (a : Int) (h0 : a ≠ 0) (h1 : -2 ^ 127 < a) (h2 : a < 2 ^ 127) :
    floattidf a = some ((if a < 0 then 2 ^ 63 else 0) + conv b64 a.natAbs) := by
  have hn0 : a.natAbs ≠ 0 := by omega
  have hn : a.natAbs < 2 ^ 128 := by omega
  have hl := log2_lt hn0 hn
  have hlt := conv_lt b64 (by decide) (by decide) (by decide) (by decide) (by decide) _ hn0 hn
  obtain ⟨n1, n2⟩ := norm_bounds _ hn0 hn
  obtain ⟨s1, s2⟩ := sig_eq (a.natAbs * 2 ^ (127 - Nat.log2 a.natAbs)) 75 52 n1 n2
  unfold floattidf
  rw [if_neg h0, magnitude128_eq a h1 h2]
  simp only [Option.map_some, norm_shift _ hn0 hn]
  apply congrArg some
  have sg := signbit a (by omega) h2 64 (by omega)
  rw [show (127 - 64 : Nat) = 63 from rfl] at sg
  rw [show (0x000FFFFFFFFFFFFF : Nat) = 2 ^ 52 - 1 from rfl, s1, clz128_eq _ hn0 hn,
    show 1023 + 127 - (127 - Nat.log2 a.natAbs) = 1023 + Nat.log2 a.natAbs by omega,
    show (0x8000000000000000 : Nat) = 2 ^ 63 from rfl, sg]
  have := pack 52 12 (1023 + Nat.log2 a.natAbs) _ s2 (by omega)
  rw [show (52 + 12 : Nat) = 64 from rfl] at this
  rw [this]
  have hlt' : conv b64 a.natAbs < 2 ^ 63 := hlt
  have hc : conv b64 a.natAbs = (1023 + Nat.log2 a.natAbs) * 2 ^ 52 +
      (a.natAbs * 2 ^ (127 - Nat.log2 a.natAbs) / 2 ^ 75 - 2 ^ 52) +
      both (a.natAbs * 2 ^ (127 - Nat.log2 a.natAbs)) (1 <<< 74) (3 * 1 <<< 74 - 1) := rfl
  split
  · rw [or_sign _ _ (by omega), Nat.add_assoc, ← hc]
    exact Nat.mod_eq_of_lt (by omega)
  · rw [Nat.or_zero, ← hc, Nat.zero_add]
    exact Nat.mod_eq_of_lt (by omega)

theorem floattisf_eq (a : Int) (h0 : a ≠ 0) (h1 : -2 ^ 127 < a) (h2 : a < 2 ^ 127) :
    floattisf a = some ((if a < 0 then 2 ^ 31 else 0) + conv b32 a.natAbs) := by
  have hn0 : a.natAbs ≠ 0 := by omega
  have hn : a.natAbs < 2 ^ 128 := by omega
  have hl := log2_lt hn0 hn
  have hlt := conv_lt b32 (by decide) (by decide) (by decide) (by decide) (by decide) _ hn0 hn
  obtain ⟨n1, n2⟩ := norm_bounds _ hn0 hn
  obtain ⟨s1, s2⟩ := sig_eq (a.natAbs * 2 ^ (127 - Nat.log2 a.natAbs)) 104 23 n1 n2
  unfold floattisf
  rw [if_neg h0, magnitude128_eq a h1 h2]
  simp only [Option.map_some, norm_shift _ hn0 hn]
  apply congrArg some
  have sg := signbit a (by omega) h2 96 (by omega)
  rw [show (127 - 96 : Nat) = 31 from rfl] at sg
  rw [show (0x7FFFFF : Nat) = 2 ^ 23 - 1 from rfl, s1, clz128_eq _ hn0 hn,
    show 127 + 127 - (127 - Nat.log2 a.natAbs) = 127 + Nat.log2 a.natAbs by omega,
    show (0x80000000 : Nat) = 2 ^ 31 from rfl, sg]
  have := pack 23 9 (127 + Nat.log2 a.natAbs) _ s2 (by omega)
  rw [show (23 + 9 : Nat) = 32 from rfl] at this
  rw [this]
  have hlt' : conv b32 a.natAbs < 2 ^ 31 := hlt
  have hc : conv b32 a.natAbs = (127 + Nat.log2 a.natAbs) * 2 ^ 23 +
      (a.natAbs * 2 ^ (127 - Nat.log2 a.natAbs) / 2 ^ 104 - 2 ^ 23) +
      both (a.natAbs * 2 ^ (127 - Nat.log2 a.natAbs)) (1 <<< 103) (3 * 1 <<< 103 - 1) := rfl
  split
  · rw [or_sign _ _ (by omega), Nat.add_assoc, ← hc]
    exact Nat.mod_eq_of_lt (by omega)
  · rw [Nat.or_zero, ← hc, Nat.zero_add]
    exact Nat.mod_eq_of_lt (by omega)

theorem floattitf_eq (a : Int) (h0 : a ≠ 0) (h1 : -2 ^ 127 < a) (h2 : a < 2 ^ 127) :
    floattitf a = some ((if a < 0 then 2 ^ 127 else 0) + conv b128 a.natAbs) := by
  have hn0 : a.natAbs ≠ 0 := by omega
  have hn : a.natAbs < 2 ^ 128 := by omega
  have hl := log2_lt hn0 hn
  have hlt := conv_lt b128 (by decide) (by decide) (by decide) (by decide) (by decide) _ hn0 hn
  obtain ⟨n1, n2⟩ := norm_bounds _ hn0 hn
  obtain ⟨s1, s2⟩ := sig_eq (a.natAbs * 2 ^ (127 - Nat.log2 a.natAbs)) 15 112 n1 n2
  unfold floattitf
  rw [if_neg h0, magnitude128_eq a h1 h2]
  simp only [Option.map_some, norm_shift _ hn0 hn]
  apply congrArg some
  have sg := signbit a (by omega) h2 0 (by omega)
  rw [show (127 - 0 : Nat) = 127 from rfl, Nat.shiftRight_zero] at sg
  rw [show ((2 ^ 128 - 1) >>> 16 : Nat) = 2 ^ 112 - 1 from rfl, s1, clz128_eq _ hn0 hn,
    show 0x3FFF + 127 - (127 - Nat.log2 a.natAbs) = 16383 + Nat.log2 a.natAbs by omega,
    show (1 <<< 127 : Nat) = 2 ^ 127 from rfl, sg]
  have := pack 112 16 (16383 + Nat.log2 a.natAbs) _ s2 (by omega)
  rw [show (112 + 16 : Nat) = 128 from rfl] at this
  rw [this]
  have hlt' : conv b128 a.natAbs < 2 ^ 127 := hlt
  have hc : conv b128 a.natAbs = (16383 + Nat.log2 a.natAbs) * 2 ^ 112 +
      (a.natAbs * 2 ^ (127 - Nat.log2 a.natAbs) / 2 ^ 15 - 2 ^ 112) +
      both (a.natAbs * 2 ^ (127 - Nat.log2 a.natAbs)) 0x4000 0xBFFF := rfl
  split
  · rw [or_sign _ _ (by omega), Nat.add_assoc, ← hc]
    exact Nat.mod_eq_of_lt (by omega)
  · rw [Nat.or_zero, ← hc, Nat.zero_add]
    exact Nat.mod_eq_of_lt (by omega)

/-- Pattern of a 64-bit integer in binary128: exact. -/
theorem exact64 (a : Nat) (h0 : a ≠ 0) (h : a < 2 ^ 64) :
    let sig := (((a <<< clz64 a) % 2 ^ 64) &&& 0x7FFFFFFFFFFFFFFF) <<< 49 % 2 ^ 128
    let p := sig ||| ((0x3FFF + 63 - clz64 a) <<< 112) % 2 ^ 128
    p < 2 ^ 127 ∧ Nearest b128 (a * 2 ^ b128.unit) 1 p := by
  obtain ⟨hc, hl, c1, c2⟩ := clz64_spec a h0 h
  simp only [Nat.shiftLeft_eq a, Nat.mod_eq_of_lt c2]
  have hA : (a * 2 ^ clz64 a &&& 0x7FFFFFFFFFFFFFFF) = a * 2 ^ clz64 a - 2 ^ 63 := by
    rw [show (0x7FFFFFFFFFFFFFFF : Nat) = 2 ^ 63 - 1 from rfl, and_mask]; omega
  rw [hA, Nat.shiftLeft_eq (_ - _)]
  generalize hN : a * 2 ^ clz64 a = N at *
  rw [Nat.mod_eq_of_lt (show (N - 2 ^ 63) * 2 ^ 49 < 2 ^ 128 by omega)]
  have hp := pack 112 16 (0x3FFF + 63 - clz64 a) ((N - 2 ^ 63) * 2 ^ 49) (by omega) (by omega)
  rw [show (112 + 16 : Nat) = 128 from rfl] at hp
  rw [hp]
  have hm := b128.mag_mk (0x3FFF + 63 - clz64 a) (N * 2 ^ 49) (by omega)
    (show 2 ^ 112 ≤ _ by omega) (show _ < 2 ^ 113 by omega)
  have e : N * 2 ^ 49 - 2 ^ b128.f = (N - 2 ^ 63) * 2 ^ 49 := by
    show N * 2 ^ 49 - 2 ^ 112 = _
    omega
  rw [e] at hm
  refine ⟨by omega, ?_⟩
  apply nearest_exact (by omega)
  · show _ ≤ 32767 * 2 ^ 112
    omega
  · rw [Nat.one_mul, show b128.f = 112 from rfl] at *
    rw [hm, ← hN, Nat.mul_assoc, Nat.mul_assoc, ← Nat.pow_add, ← Nat.pow_add]
    rw [show b128.unit = clz64 a + (49 + (0x3FFF + 63 - clz64 a - 1)) by
      rw [show b128.unit = 16494 from by decide]; omega]

end Verif.Int128
