import Verif.Printf.FloatText
import Verif.Math.Round

/-!
# Large numbers
-/

namespace Verif.Printf

open Spec Verif.Float Verif.Math.Spec

/-! ## Limbs to digits -/

theorem lval_digit (x : List Nat) (h : ∀ v ∈ x, v < B) (m : Nat) : lval x / B ^ m % B = x.getD m 0 := by
  induction x generalizing m with
  | nil => simp [lval]
  | cons a x ih =>
    have ha := h a (List.mem_cons_self ..)
    have ih := ih (fun v hv => h v (List.mem_cons_of_mem _ hv))
    cases m with
    | zero => simp only [lval, Nat.pow_zero, Nat.div_one, List.getD_cons_zero, Nat.add_mul_mod_self_left]; exact Nat.mod_eq_of_lt ha
    | succ m =>
      rw [List.getD_cons_succ, ← ih, lval, Nat.pow_succ, Nat.mul_comm (B ^ m), ← Nat.div_div_eq_div_mul,
        Nat.add_mul_div_left _ _ B_pos, Nat.div_eq_of_lt ha, Nat.zero_add]

theorem B_pow (k : Nat) : B ^ k = 10 ^ (9 * k) := by rw [Nat.pow_mul]; rfl

theorem dumpLimbs_eq (x : List Nat) (h : ∀ v ∈ x, v < B) (m k : Nat) :
    (dumpLimbs x m (m + k)).flatten = places 10 false (9 * k) (lval x / B ^ m) := by
  induction k with
  | zero => simp [dumpLimbs, places]
  | succ k ih =>
    have e : dumpLimbs x m (m + (k + 1)) = dumpLimb (x.getD (m + k) 0) :: dumpLimbs x m (m + k) := by
      unfold dumpLimbs
      rw [Nat.add_sub_cancel_left, Nat.add_sub_cancel_left, List.range_succ_eq_map, List.map_cons, List.map_map]
      rw [show m + (k + 1) - 1 - 0 = m + k by omega]
      congr 1
      apply List.map_congr_left
      intro i _
      simp only [Function.comp]
      rw [show m + (k + 1) - 1 - (i + 1) = m + k - 1 - i by omega]
    rw [e, List.flatten_cons, ih, show 9 * (k + 1) = 9 + 9 * k by omega, places_add 10 (by decide), dumpLimb_eq, ← lval_digit x h,
      Nat.div_div_eq_div_mul, ← B_pow, ← Nat.pow_add]
    congr 1
    exact places_mod 10 (by decide) false 9 _

/-- A number and the numeral of its leading limb. -/
theorem numeral_limbs (N k : Nat) (h : 0 < N / B ^ k) : numeral 10 false N = numeral 10 false (N / B ^ k) ++ places 10 false (9 * k) N := by
  have e := Nat.div_add_mod N (B ^ k)
  have hlt := Nat.mod_lt N (Nat.pow_pos (n := k) B_pos)
  rw [B_pow] at *
  conv => lhs; rw [← e, Nat.mul_comm, numeral_places 10 (by decide) false _ _ _ h hlt, places_mod 10 (by decide)]

theorem decimal_numeral (x : Nat) (h : 0 < x) : decimal x [] = numeral 10 false x := by
  rw [decimal_eq, List.append_nil, raw, if_neg (by omega)]

theorem decimal_length (x : Nat) (h : x < B) : (decimal x []).length ≤ 9 := by
  rw [decimal_eq, List.append_nil]
  exact (raw_length 10 false (by decide) 9 x (by decide)).2 (by rw [B_eq] at h; omega)

/-! ## The number -/

theorem ctz_spec (k x : Nat) (hx : 0 < x) (hk : x < 2 ^ k) : x / 2 ^ ctz k x * 2 ^ ctz k x = x ∧ ctz k x < k ∧ x / 2 ^ ctz k x % 2 = 1 := by
  induction k generalizing x with
  | zero => omega
  | succ k ih =>
    unfold ctz
    by_cases h : x % 2 = 1
    · rw [if_pos h]; simp; exact h
    · rw [if_neg h]
      obtain ⟨h1, h2, h3⟩ := ih (x / 2) (by omega) (by rw [Nat.pow_succ] at hk; omega)
      rw [Nat.pow_succ, Nat.mul_comm (2 ^ _) 2, ← Nat.div_div_eq_div_mul]
      refine ⟨?_, by omega, h3⟩
      rw [Nat.mul_left_comm, h1]; omega

theorem kernelIfrexp_spec (m : Nat) (h1 : 2 ^ 52 ≤ m) (h2 : m < b64.inf) :
    ∃ odd : Nat, ∃ shift : Int, kernelIfrexp m = (odd, shift) ∧ odd % 2 = 1 ∧ odd < 2 ^ 53 ∧ -1074 ≤ shift ∧
      shift ≤ (m / 2 ^ 52 : Nat) + 52 - 1075 ∧ odd * 2 ^ (shift + 1074).toNat = b64.mag m ∧
      ((m / 2 ^ 52 : Nat) : Int) - 1075 ≤ shift ∧ (2 ^ 52 ≤ odd * 2 ^ (shift - ((m / 2 ^ 52 : Nat) - 1075)).toNat) ∧
      odd * 2 ^ (shift - ((m / 2 ^ 52 : Nat) - 1075)).toNat < 2 ^ 53 := by
  have hor : m % 2 ^ 52 ||| 2 ^ 52 = m % 2 ^ 52 + 2 ^ 52 := by
    have := Nat.two_pow_add_eq_or_of_lt (i := 52) (b := m % 2 ^ 52) (Nat.mod_lt _ (by decide)) 1
    rw [Nat.mul_one] at this
    rw [Nat.or_comm, ← this, Nat.add_comm]
  have hl := Nat.mod_lt m (show 0 < 2 ^ 52 by decide)
  obtain ⟨c1, c2, c3⟩ := ctz_spec 64 (m % 2 ^ 52 + 2 ^ 52) (by omega) (by omega)
  generalize hc : ctz 64 (m % 2 ^ 52 + 2 ^ 52) = c at *
  have hc52 : c ≤ 52 := by
    by_cases h : c ≤ 52
    · exact h
    · have : 2 ^ 53 ≤ 2 ^ c := Nat.pow_le_pow_right (by decide) (by omega)
      rw [Nat.div_eq_of_lt (by omega)] at c3
      exact absurd c3 (by decide)
  refine ⟨(m % 2 ^ 52 + 2 ^ 52) / 2 ^ c, ((m / 2 ^ 52 : Nat) : Int) + c - 1075, ?_, c3, ?_, by omega, by omega, ?_, by omega, ?_⟩
  · unfold kernelIfrexp
    simp only [hor, hc, Nat.shiftRight_eq_div_pow]
  · exact Nat.lt_of_le_of_lt (Nat.div_le_self _ _) (by omega)
  · have hb : b64.mag m = (2 ^ 52 + m % 2 ^ 52) * 2 ^ (m / 2 ^ 52 - 1) := by
      exact b64.mag_normal (show 2 ^ 52 ≤ m by omega)
    rw [hb, show (((m / 2 ^ 52 : Nat) : Int) + c - 1075 + 1074).toNat = c + (m / 2 ^ 52 - 1) by omega, Nat.pow_add, ← Nat.mul_assoc, c1,
      Nat.add_comm]
  · rw [show ((m / 2 ^ 52 : Nat) : Int) + c - 1075 - ((m / 2 ^ 52 : Nat) - 1075) = (c : Nat) by omega, Int.toNat_natCast, c1]
    omega

theorem bits_limbs_all : ∀ b : Fin 1100, 2 ^ b.val ≤ B ^ bitsToLimbs b.val := by decide +kernel

theorem bits_limbs (b : Nat) (h : b < 1100) : 2 ^ b ≤ B ^ bitsToLimbs b := bits_limbs_all ⟨b, h⟩

/-- The large numbers as limbs. -/
theorem limbsLdexp_good (pcap : Nat) (odd shift : Nat) (ho : 0 < odd) (ho' : odd < 2 ^ 53) (hs : shift < 1100)
    (hcap : odd * 2 ^ shift < B ^ (pcap - 1)) :
    ∃ p n, limbsLdexp pcap (limbsSet18 odd) shift = (false, p, n) ∧ Good (p.take n) (odd * 2 ^ shift) ∧ (∀ v ∈ p, v < B) ∧
      lval p = odd * 2 ^ shift ∧ n ≤ p.length ∧ p.length ≤ n + 1 := by
  have g1 := limbsSet18_good odd ho ho'
  have g2 := limbsSet64_good (2 ^ (shift % 64)) (Nat.pow_pos (by decide)) (Nat.pow_lt_pow_right (by decide) (Nat.mod_lt _ (by decide)))
  obtain ⟨m1, m2, m3, m4, m5, m6⟩ := limbsMul_good g1 g2
  have gy : Good [294967296, 4] (2 ^ 32) := ⟨by decide, by decide, by decide, by decide⟩
  have hpow : (2 ^ 32 * 2 ^ 32) ^ (shift / 64) = 2 ^ (shift / 64 * 64) := by
    rw [← Nat.pow_add, ← Nat.pow_mul, Nat.mul_comm]
  have hN : odd * 2 ^ (shift % 64) * (2 ^ 32 * 2 ^ 32) ^ (shift / 64) = odd * 2 ^ shift := by
    rw [hpow, Nat.mul_assoc, ← Nat.pow_add]; congr 2; omega
  unfold limbsLdexp
  generalize limbsMul (limbsSet18 odd) (limbsSet64 (2 ^ (shift % 64))) = r at *
  obtain ⟨p, xn⟩ := r
  simp only at *
  obtain ⟨f, p', n, e, a1, a2, a3, a4, a5, a6⟩ := powLoop_good (bitsToLimbs (shift / 64 * 64) + 2) pcap (shift / 64) [294967296, 4] p xn
    (decide (pcap < p.length) || decide (bitsToLimbs (shift / 64 * 64) + 2 < 2)) _ _ gy m3 m2 m4 (by omega) (by omega)
  rw [hN] at a1 a3 a6
  refine ⟨p', n, ?_, a1, a2, a3, a4, a5⟩
  rw [e, a6 ?_ hcap]
  · congr 1
    rw [Bool.or_eq_false_iff]
    refine ⟨?_, by rw [decide_eq_false_iff_not]; omega⟩
    rw [decide_eq_false_iff_not]
    have hlt : B ^ ((p.take xn).length - 1) < B ^ (pcap - 1) := by
      refine Nat.lt_of_le_of_lt m3.top (Nat.lt_of_le_of_lt ?_ hcap)
      exact Nat.mul_le_mul_left _ (Nat.pow_le_pow_right (by decide) (Nat.mod_le _ _))
    have := (Nat.pow_lt_pow_iff_right (show 1 < B by decide)).1 hlt
    rw [List.length_take] at this
    have h1 := List.length_pos_iff.mpr m3.ne
    rw [List.length_take] at h1
    omega
  · rw [hpow]
    refine Nat.lt_of_le_of_lt (bits_limbs (shift / 64 * 64) (by omega)) ?_
    exact Nat.pow_lt_pow_right (by decide) (by omega)

theorem s32_small (n : Nat) (h : n < 2 ^ 31) : s32 (n % 2 ^ 32) = n := by
  unfold s32; rw [if_pos (by omega)]; omega

/-- Large numbers are printed exactly. -/
theorem fixedBigint_eq {sp : Opts} {d : Dir} {a : Ask} (h : Agrees sp d a) (p : Nat) (hp : sp.precision = (p : Int)) (x : Nat) (neg : Bool)
    (h1 : 0x43F0000000000000 ≤ b64.abs x) (h2 : b64.abs x < b64.inf) :
    ∃ N, N * 2 ^ b64.unit = b64.mag (b64.abs x) ∧
    let t := justifyF d a (signF d neg) (numeral 10 false N ++ point d p ++ List.replicate p 48)
    (t.length < 2 ^ 31 → ∃ o, fixedBigint sp (signchar neg sp.flags) (b64.abs x) = some o ∧ o.chunks.flatten = t ∧ o.ret = t.length ∧
      o.stores = [] ∧ o.fault = false) := by
  generalize b64.abs x = m at *
  have hinf : b64.inf = 9218868437227405312 := by decide +kernel
  obtain ⟨odd, shift, e, o1, o2, o3, o4, o5, o6, o7, o8⟩ := kernelIfrexp_spec m (by omega) h2
  generalize hE : m / 2 ^ 52 = E at *
  have hE1 : 1087 ≤ E ∧ E ≤ 2046 := by omega
  have hsh : shift = (shift.toNat : Int) := by omega
  generalize shift.toNat = sh at hsh
  subst hsh
  refine ⟨odd * 2 ^ sh, ?_, ?_⟩
  · rw [← o5, Verif.Math.u64, show ((sh : Int) + 1074).toNat = sh + 1074 by omega, Nat.pow_add, Nat.mul_assoc]
  have hN : odd * 2 ^ sh < 2 ^ (E - 1022) := by
    have : odd * 2 ^ sh = odd * 2 ^ ((sh : Int) - (E - 1075)).toNat * 2 ^ (E - 1075) := by
      have hx : ((sh : Int) - (E - 1075)).toNat + (E - 1075) = sh := by omega
      rw [Nat.mul_assoc, ← Nat.pow_add, hx]
    rw [this, show E - 1022 = 53 + (E - 1075) by omega, Nat.pow_add]
    exact Nat.mul_lt_mul_of_pos_right o8 (Nat.pow_pos (by decide))
  have hcap : odd * 2 ^ sh < B ^ (bitsToLimbs (E - 1022) + 1 - 1) := by
    rw [Nat.add_sub_cancel]
    exact Nat.lt_of_lt_of_le hN (bits_limbs (E - 1022) (by omega))
  obtain ⟨big, n, e2, g1, g2, g3, g4, g5⟩ := limbsLdexp_good (bitsToLimbs (E - 1022) + 1) odd sh (by omega) o2 (by omega) hcap
  generalize odd * 2 ^ sh = N at *
  intro t ht
  have hlen : (big.take n).length = n := by rw [List.length_take]; omega
  have hn : 0 < n := by rw [← hlen]; exact List.length_pos_iff.mpr g1.ne
  have htop : N / B ^ (n - 1) = big.getD (n - 1) 0 := by
    rw [← lval_digit big g2, g3]
    have hb := g1.below
    rw [hlen] at hb
    rw [Nat.mod_eq_of_lt]
    refine Nat.div_lt_of_lt_mul ?_
    rw [← Nat.pow_succ, show (n - 1).succ = n by omega]; exact hb
  have hpos : 0 < N / B ^ (n - 1) := by
    have := g1.top
    rw [hlen] at this
    exact Nat.div_pos this (Nat.pow_pos B_pos)
  have hbody : decimal (big.getD (n - 1) 0) [] ++ (dumpLimbs big 0 (n - 1)).flatten = numeral 10 false N := by
    rw [← htop, decimal_numeral _ hpos]
    have := dumpLimbs_eq big g2 0 (n - 1)
    rw [Nat.zero_add] at this
    rw [this, g3, Nat.pow_zero, Nat.div_one]
    exact (numeral_limbs N (n - 1) hpos).symm
  have hlen2 : (decimal (big.getD (n - 1) 0) []).length + 9 * (n - 1) = (numeral 10 false N).length := by
    rw [← hbody, List.length_append]
    have := dumpLimbs_eq big g2 0 (n - 1)
    rw [Nat.zero_add] at this
    rw [this, places_length]
  have htl : t.length = max a.width ((signF d neg).length + (numeral 10 false N ++ point d p ++ List.replicate p 48).length) :=
    justifyF_length ..
  simp only [List.length_append, List.length_replicate] at htl
  unfold fixedBigint
  rw [e]
  simp only
  rw [Nat.shiftRight_eq_div_pow, hE, Int.toNat_natCast, e2]
  simp only
  rw [pointed_eq h p hp, signchar_eq h, hp, Int.toNat_natCast, s32_small _ (by omega), show chk32 _ = some _ from if_pos (by rw [h.width]; unfold IsI32; omega)]
  simp only
  have hfl : ([decimal (big.getD (n - 1) 0) []] ++ dumpLimbs big 0 (n - 1) ++ put (point d p) ++ pad 48 p).flatten =
      numeral 10 false N ++ point d p ++ List.replicate p 48 := by
    rw [← hbody]; simp [put_flatten, pad_flatten]
  have harr := arrangeF_eq h (signF d neg) ([decimal (big.getD (n - 1) 0) []] ++ dumpLimbs big 0 (n - 1) ++ put (point d p) ++ pad 48 p)
    (((signF d neg).length + (decimal (big.getD (n - 1) 0) []).length + 9 * (n - 1) + (point d p).length + p : Nat) : Int) (by
      rw [hfl]; simp only [List.length_append, List.length_replicate]; omega)
  rw [hfl] at harr
  refine ⟨_, rfl, harr.1, harr.2, rfl, ?_⟩
  simp only [Bool.false_or, decide_eq_false_iff_not]
  have := decimal_length (big.getD (n - 1) 0) (getD_lt big g2 _)
  omega

end Verif.Printf
