import Verif.Math.Round

/-! # Conversions to integers -/

namespace Verif.Math
open Verif.Float

/-- A signed integer from sign and magnitude. -/
def sgnd (s : Bool) (n : Nat) : Int := if s then -(n : Int) else n

/-- What `saturate` needs of a format: the largest integer does not round down, the smallest is exact. -/
structure Sat (F : Fmt) (n : Nat) (P Q : Nat) : Prop where
  hi : F.ofInt (2 ^ (n - 1) - 1) = P
  fin : P < F.inf
  rnd : P = F.rnd ((2 ^ (n - 1) - 1) * 2 ^ F.unit) 1
  up : (2 ^ (n - 1) - 1) * 2 ^ F.unit ≤ F.mag P
  lo : F.ofInt (-2 ^ (n - 1)) = F.pack true Q
  qfin : Q < F.inf
  exact : F.mag Q = 2 ^ (n - 1) * 2 ^ F.unit
  wide : 2 ≤ 2 ^ (n - 1)

theorem saturate_eq {F : Fmt} {n P Q y : Nat} (s : Sat F n P Q) (hy : F.abs y ≤ F.inf) :
    saturate F n y = Spec.clamp n (sgnd (F.neg y) (F.whole y)) := by
  have hil := Fmt.inf_lt (F := F)
  have hc : (2 : Int) ^ (n - 1) = ((2 ^ (n - 1) : Nat) : Int) := by simp
  have hPi := s.fin
  have hQi := s.qfin
  have hm2 := s.up
  have hr := s.rnd
  have hq := s.exact
  have hPs : P < F.signBit := by omega
  have hQs : Q < F.signBit := by omega
  have hA := s.wide
  have hU := Nat.two_pow_pos F.unit
  have l1 := Fmt.le_iff (F := F) (x := P) (y := y) (by rw [Fmt.abs_of_lt hPs]; omega) hy
  have l2 := Fmt.lt_iff (F := F) (x := F.pack true Q) (y := y) (by rw [Fmt.abs_pack hQs]; omega) hy
  rw [Fmt.val_of_lt hPs] at l1
  rw [Fmt.val_pack hQs, if_pos rfl, hq] at l2
  unfold saturate Spec.clamp
  simp only
  rw [s.hi, s.lo, hc]
  unfold sgnd Fmt.whole
  have hmono : (2 ^ (n - 1) - 1) * 2 ^ F.unit ≤ F.mag (F.abs y) → F.mag P ≤ F.mag (F.abs y) := by
    intro h
    have := rnd_mono (F := F) Nat.one_pos h
    rw [← hr, rnd_mag hy] at this
    exact F.mag_mono this
  have hval : F.val y = if F.neg y then -(F.mag (F.abs y) : Int) else F.mag (F.abs y) := rfl
  have d1 := Nat.div_mul_le_self (F.mag (F.abs y)) (2 ^ F.unit)
  have d2 := Nat.lt_div_mul_add (a := F.mag (F.abs y)) hU
  generalize F.mag (F.abs y) = M at *
  generalize 2 ^ (n - 1) = A at *
  generalize 2 ^ F.unit = U at *
  generalize hw : M / U = w at *
  clear hr hw
  have hAU : 0 < A * U := Nat.mul_pos (by omega) hU
  have hAU1 : 0 < (A - 1) * U := Nat.mul_pos (by omega) hU
  cases hn : F.neg y
  · rw [hn] at hval
    simp only [Bool.false_eq_true, if_false] at hval ⊢
    rw [if_neg (show ¬ ((w : Int) < -(A : Int)) by omega)]
    by_cases hge : A - 1 ≤ w
    · have := Nat.mul_le_mul_right U hge
      have := hmono (by omega)
      rw [if_pos (l1.2 (by omega))]
      split <;> omega
    · have hlt : w + 1 ≤ A - 1 := by omega
      have := Nat.mul_le_mul_right U hlt
      rw [Nat.add_mul, Nat.one_mul] at this
      rw [if_neg (fun h => by have := l1.1 h; omega), if_pos (l2.2 (by rw [hval]; omega)), if_neg (by omega)]
  · rw [hn] at hval
    simp only [if_true] at hval ⊢
    rw [if_neg (show ¬ ((A : Int) - 1 < -(w : Int)) by omega)]
    rw [if_neg (fun h => by have := l1.1 h; omega)]
    by_cases hge : w < A
    · have := Nat.mul_le_mul_right U (show w + 1 ≤ A from hge)
      rw [Nat.add_mul, Nat.one_mul] at this
      rw [if_pos (l2.2 (by rw [hval]; omega)), if_neg (by omega)]
    · have := Nat.mul_le_mul_right U (show A ≤ w by omega)
      rw [if_neg (fun h => by have := l2.1 h; omega)]
      split <;> omega

theorem sat64_32 : Sat b64 32 0x41DFFFFFFFC00000 0x41E0000000000000 where
  hi := by decide +kernel
  fin := by decide +kernel
  rnd := by decide +kernel
  up := by decide +kernel
  lo := by decide +kernel
  qfin := by decide +kernel
  exact := by decide +kernel
  wide := by decide

theorem sat64_64 : Sat b64 64 0x43E0000000000000 0x43E0000000000000 where
  hi := by decide +kernel
  fin := by decide +kernel
  rnd := by decide +kernel
  up := by decide +kernel
  lo := by decide +kernel
  qfin := by decide +kernel
  exact := by decide +kernel
  wide := by decide

theorem sat32_32 : Sat b32 32 0x4F000000 0x4F000000 where
  hi := by decide +kernel
  fin := by decide +kernel
  rnd := by decide +kernel
  up := by decide +kernel
  lo := by decide +kernel
  qfin := by decide +kernel
  exact := by decide +kernel
  wide := by decide

theorem sat32_64 : Sat b32 64 0x5F000000 0x5F000000 where
  hi := by decide +kernel
  fin := by decide +kernel
  rnd := by decide +kernel
  up := by decide +kernel
  lo := by decide +kernel
  qfin := by decide +kernel
  exact := by decide +kernel
  wide := by decide

/-- NaN becomes the smallest integer. -/
theorem saturate_nan {F : Fmt} {n y : Nat} (hy : F.inf < F.abs y) : saturate F n y = -2 ^ (n - 1) := by
  have h := Fmt.isNaN_iff.2 hy
  unfold saturate Fmt.le Fmt.lt
  simp [h]

theorem sgnd_add (s : Bool) (a b : Nat) : sgnd s a + sgnd s b = sgnd s (a + b) := by
  cases s <;> simp [sgnd] <;> omega

theorem val_sgnd {F : Fmt} (x : Nat) : F.val x = sgnd (F.neg x) (F.mag (F.abs x)) := rfl

theorem rndInt_sgnd {F : Fmt} (z s : Bool) {S : Nat} (h : 0 < S) : F.rndInt z (sgnd s S) = F.pack s (F.rnd S 1) := by
  unfold Fmt.rndInt
  cases s
  · rw [show sgnd false S = (S : Int) from rfl, if_neg (by omega), decide_eq_false (by omega), Int.natAbs_natCast]
  · rw [show sgnd true S = -(S : Int) from rfl, if_neg (by omega), decide_eq_true (by omega), Int.natAbs_neg, Int.natAbs_natCast]

theorem mag_half : b64.mag 0x3FE0000000000000 = 2 ^ 1073 := by decide +kernel

/-- `x + copysign(0.5, x)`. -/
theorem add_half {x : Nat} (hx : b64.abs x < b64.inf) :
    b64.add x (b64.copysign 0x3FE0000000000000 x) = b64.pack (b64.neg x) (b64.rnd (b64.mag (b64.abs x) + 2 ^ 1073) 1) := by
  have ha : b64.abs (b64.copysign 0x3FE0000000000000 x) = 0x3FE0000000000000 := by
    unfold Fmt.copysign; exact Fmt.abs_pack (by decide)
  have hn : b64.neg (b64.copysign 0x3FE0000000000000 x) = b64.neg x := by
    unfold Fmt.copysign; exact Fmt.neg_pack (by decide)
  rw [Fmt.add_fin hx (by rw [ha]; decide), val_sgnd, val_sgnd, ha, hn, sgnd_add, mag_half]
  exact rndInt_sgnd _ _ (Nat.add_pos_right _ (Nat.two_pow_pos 1073))

theorem clamp_big {n a b : Nat} (s : Bool) (hn : 2 ≤ 2 ^ (n - 1)) (ha : 2 ^ (n - 1) ≤ a) (hb : 2 ^ (n - 1) ≤ b) :
    Spec.clamp n (sgnd s a) = Spec.clamp n (sgnd s b) := by
  have hc : (2 : Int) ^ (n - 1) = ((2 ^ (n - 1) : Nat) : Int) := by simp
  unfold Spec.clamp sgnd
  rw [hc]
  generalize 2 ^ (n - 1) = A at *
  cases s <;> simp <;> (repeat' split) <;> omega

/-- The integral part of the rounded sum. -/
theorem sum_ge {n : Nat} (hk : 2 ^ 52 ≤ away 1074 (b64.mag n)) :
    2 ^ 52 ≤ b64.mag (b64.rnd (b64.mag n + 2 ^ 1073) 1) / 2 ^ 1074 := by
  have e1 := away_half (u := 1073) (M := b64.mag n)
  rw [show 1073 + 1 = 1074 by rfl] at e1
  rw [e1, Nat.le_div_iff_mul_le (Nat.two_pow_pos _)] at hk
  rw [Nat.le_div_iff_mul_le (Nat.two_pow_pos _)]
  have hm : b64.mag 0x4330000000000000 = 2 ^ 52 * 2 ^ 1074 := by decide +kernel
  rw [← hm] at hk ⊢
  have := rnd_mono (F := b64) Nat.one_pos hk
  rw [rnd_mag (by decide)] at this
  exact b64.mag_mono this

theorem saturate_pack {n P Q r : Nat} {s : Bool} (h : Sat b64 n P Q) (hr : r ≤ b64.inf) :
    saturate b64 n (b64.pack s r) = Spec.clamp n (sgnd s (b64.mag r / 2 ^ 1074)) := by
  have hs : r < b64.signBit := Nat.lt_of_le_of_lt hr Fmt.inf_lt
  rw [saturate_eq h (by rwa [Fmt.abs_pack hs]), Fmt.neg_pack hs]
  unfold Fmt.whole
  rw [Fmt.abs_pack hs, u64]

/-- double/lround.c on all doubles but one pair. -/
theorem lround_eq {x : Nat} (hx : b64.abs x < b64.inf) (hbad : b64.abs x ≠ 0x3FDFFFFFFFFFFFFF) :
    lround x = Spec.clamp 32 (sgnd (b64.neg x) (away 1074 (b64.mag (b64.abs x)))) := by
  unfold lround
  rw [add_half hx, saturate_pack sat64_32 (rnd_le _ _ Nat.one_pos)]
  rcases Nat.lt_or_ge (away 1074 (b64.mag (b64.abs x))) (2 ^ 52) with h | h
  · rw [half_sum hx hbad h]
  · have := sum_ge h
    exact clamp_big _ (by decide) (Nat.le_trans (by decide) this) (Nat.le_trans (by decide) h)

/-- double/llround.c. -/
theorem llround_eq {x : Nat} (hx : b64.abs x < b64.inf) :
    llround x = Spec.clamp 64 (sgnd (b64.neg x) (away 1074 (b64.mag (b64.abs x)))) := by
  obtain ⟨k, h1, h2, h3⟩ := round_eq hx
  unfold llround
  rw [h1, saturate_pack sat64_64 h2, h3, u64, Nat.mul_div_cancel _ (Nat.two_pow_pos _)]

/-- A float as a double. -/
theorem conv_float {x : Nat} (hx : b32.abs x < b32.inf) :
    ∃ n, b32.conv b64 x = b64.pack (b32.neg x) n ∧ n < b64.inf ∧ b64.mag n = b32.mag (b32.abs x) * 2 ^ 925 :=
  Fmt.conv_exact ok32 ok64 (by decide) (by decide) hx

theorem u32 : b32.unit = 149 := rfl

theorem away_scale {u k M : Nat} : away (u + k) (M * 2 ^ k) = away u M := by
  unfold away
  rw [Nat.pow_add, ← Nat.mul_assoc, ← Nat.mul_assoc, ← Nat.add_mul, Nat.mul_div_mul_right _ _ (Nat.two_pow_pos _)]

/-- For floats the sum in `double` always has the right integral part. -/
theorem half_sum_float {a n : Nat} (ha : a < b32.inf) (hn : n < b64.inf) (hm : b64.mag n = b32.mag a * 2 ^ 925) :
    b64.mag (b64.rnd (b64.mag n + 2 ^ 1073) 1) / 2 ^ 1074 = away 1074 (b64.mag n) := by
  rcases Nat.lt_or_ge (away 1074 (b64.mag n)) (2 ^ 52) with h | h
  · refine half_sum hn ?_ h
    intro hb
    rw [hb, show b64.mag 0x3FDFFFFFFFFFFFFF = (2 ^ 53 - 1) * 2 ^ 95 * 2 ^ 925 by decide +kernel] at hm
    have hm2 := Nat.eq_of_mul_eq_mul_right (Nat.two_pow_pos 925) hm
    have h1 : b32.mag a < b32.mag 0x3F000000 := by rw [← hm2]; decide +kernel
    have h2 := b32.mag_mono (show a ≤ 0x3EFFFFFF by have := (Fmt.mag_lt_iff (F := b32)).1 h1; omega)
    rw [← hm2] at h2
    exact absurd h2 (by decide +kernel)
  · have e1 := away_half (u := 1073) (M := b64.mag n)
    rw [show 1073 + 1 = 1074 by rfl] at e1
    rw [e1, ge_iff_le, Nat.le_div_iff_mul_le (Nat.two_pow_pos _)] at h
    obtain ⟨m, e, m1, m2⟩ := Fmt.mag_pow_form (F := b32) a
    rw [m1, Nat.mul_assoc, ← Nat.pow_add] at hm
    rw [show b32.f + 1 = 24 by rfl] at m2
    have hUH : (2 : Nat) ^ 1074 = 2 * 2 ^ 1073 := by rw [← Nat.pow_succ']
    have h52 : (2 : Nat) ^ 52 * 2 ^ 1074 = 2 * 2 ^ 1125 := by rw [← Nat.pow_add, ← Nat.pow_succ']
    have hle : (2 : Nat) ^ 1073 ≤ 2 ^ 1102 := Nat.pow_le_pow_right (by omega) (by omega)
    have hle2 : (2 : Nat) ^ 1102 ≤ 2 ^ 1125 := Nat.pow_le_pow_right (by omega) (by omega)
    have hc : (2 : Nat) ^ 1125 = 2 ^ 1102 * 2 ^ 23 := by rw [← Nat.pow_add]
    have hb : 2 ^ 1125 ≤ b64.mag n := by
      generalize (2 : Nat) ^ 1125 = A at *
      generalize (2 : Nat) ^ 1102 = B at *
      generalize (2 : Nat) ^ 1074 = U at *
      generalize (2 : Nat) ^ 1073 = H at *
      omega
    have he : 1102 ≤ e + 925 := by
      rcases Nat.lt_or_ge (e + 925) 1102 with hlt | hge
      · exfalso
        have a1 := Nat.mul_lt_mul_of_pos_right m2 (Nat.two_pow_pos (e + 925))
        rw [← hm, ← Nat.pow_add] at a1
        have a2 := Nat.pow_le_pow_right (n := 2) (by omega) (show 24 + (e + 925) ≤ 1125 by omega)
        omega
      · exact hge
    have hd1 : 2 ^ 1102 ∣ b64.mag n := by rw [hm]; exact Nat.dvd_trans (Nat.pow_dvd_pow 2 he) ⟨m, Nat.mul_comm _ _⟩
    have hd2 : 2 ^ 1075 ∣ b64.mag n := Nat.dvd_trans (Nat.pow_dvd_pow 2 (by omega)) hd1
    have hd3 : 2 ^ 1074 ∣ b64.mag n := Nat.dvd_trans (Nat.pow_dvd_pow 2 (by omega)) hd1
    have hb2 : 2 ^ 1126 ≤ b64.mag n := by
      obtain ⟨q, hq⟩ := hd1
      rw [hq] at h ⊢
      rw [h52, hc] at h
      have h3 : 2 ^ 24 ≤ q := by
        rcases Nat.lt_or_ge q (2 ^ 24) with hlt | hge
        · exfalso
          have := Nat.mul_le_mul_left (2 ^ 1102) (show q + 1 ≤ 2 ^ 24 from hlt)
          rw [Nat.mul_add, Nat.mul_one] at this
          have hlt2 : (2 : Nat) ^ 1073 < 2 ^ 1102 := Nat.pow_lt_pow_right (by omega) (by omega)
          generalize (2 : Nat) ^ 1102 = B at *
          generalize (2 : Nat) ^ 1073 = H at *
          simp only [Nat.reducePow] at *
          omega
        · exact hge
      rw [show (2 : Nat) ^ 1126 = 2 ^ 1102 * 2 ^ 24 by rw [← Nat.pow_add]]
      exact Nat.mul_le_mul_left _ h3
    have hnorm : 2 ^ b64.f ≤ n := by
      refine (Fmt.mag_le_iff (F := b64)).1 ?_
      rw [Fmt.mag_two_pow_f]
      exact Nat.le_trans (Nat.pow_le_pow_right (by omega) (by decide)) hb2
    have hmn := b64.mag_normal hnorm
    have hfl := Nat.mod_lt n (Nat.two_pow_pos b64.f)
    have hE : 1074 ≤ n / 2 ^ b64.f - 1 := by
      rcases Nat.lt_or_ge (n / 2 ^ b64.f - 1) 1074 with hlt | hge
      · exfalso
        have a1 : b64.mag n < 2 ^ (b64.f + 1) * 2 ^ (n / 2 ^ b64.f - 1) := by
          rw [hmn]
          refine Nat.mul_lt_mul_of_pos_right ?_ (Nat.two_pow_pos _)
          rw [Nat.pow_succ]; omega
        rw [← Nat.pow_add] at a1
        have a2 := Nat.pow_le_pow_right (n := 2) (by omega) (show b64.f + 1 + (n / 2 ^ b64.f - 1) ≤ 1126 by
          rw [show b64.f = 52 by rfl] at *; omega)
        omega
      · exact hge
    have hs := b64.mag_succ n
    unfold Fmt.ulp at hs
    have hrn : b64.rnd (b64.mag n + 2 ^ 1073) 1 = n := by
      refine rnd_eq Nat.one_pos (nearest_lo (by omega) (by omega) ?_)
      rcases Nat.lt_or_ge 1074 (n / 2 ^ b64.f - 1) with hlt | hge
      · left
        have := Nat.pow_lt_pow_right (a := 2) (by omega) hlt
        rw [hs]
        generalize 2 ^ (n / 2 ^ b64.f - 1) = K at *
        generalize (2 : Nat) ^ 1074 = U at *
        generalize (2 : Nat) ^ 1073 = H at *
        omega
      · right
        have hE2 : n / 2 ^ b64.f - 1 = 1074 := by omega
        rw [hE2] at hs hmn
        refine ⟨?_, ?_⟩
        · rw [hs]
          generalize (2 : Nat) ^ 1074 = U at *
          generalize (2 : Nat) ^ 1073 = H at *
          omega
        · rw [hmn, show (2 : Nat) ^ 1075 = 2 * 2 ^ 1074 by rw [← Nat.pow_succ']] at hd2
          have := Nat.dvd_of_mul_dvd_mul_right (Nat.two_pow_pos 1074) hd2
          have e2 : 2 ^ b64.f % 2 = 0 := by decide
          have e3 : n % 2 ^ b64.f % 2 = n % 2 := Nat.mod_mod_of_dvd _ (Nat.dvd_of_mod_eq_zero e2)
          omega
    rw [hrn, away_eq (by omega), Nat.mod_eq_zero_of_dvd hd3, if_neg (by have := Nat.two_pow_pos 1074; omega)]

theorem add_half_float {x : Nat} (hx : b32.abs x < b32.inf) :
    ∃ r, b64.add (b32.conv b64 x) (b64.copysign 0x3FE0000000000000 (b32.conv b64 x)) = b64.pack (b32.neg x) r ∧ r ≤ b64.inf ∧
      b64.mag r / 2 ^ 1074 = away b32.unit (b32.mag (b32.abs x)) ∧ r < b64.inf := by
  obtain ⟨n, h1, h2, h3⟩ := conv_float hx
  have hs : n < b64.signBit := Nat.lt_trans h2 Fmt.inf_lt
  rw [h1, add_half (by rwa [Fmt.abs_pack hs]), Fmt.abs_pack hs, Fmt.neg_pack hs]
  refine ⟨_, rfl, rnd_le _ _ Nat.one_pos, ?_, ?_⟩
  · have e := away_scale (u := 149) (k := 925) (M := b32.mag (b32.abs x))
    rw [show 149 + 925 = 1074 by rfl] at e
    rw [half_sum_float hx h2 h3, h3, u32, e]
  · have hm : b64.mag n + 2 ^ 1073 ≤ b64.mag 0x47F0000000000000 := by
      have h4 := b32.mag_mono (Nat.le_sub_one_of_lt hx)
      have h5 := Nat.mul_le_mul_right (2 ^ 925) h4
      rw [← h3] at h5
      have h6 : b32.mag (b32.inf - 1) * 2 ^ 925 + 2 ^ 1073 ≤ b64.mag 0x47F0000000000000 := by decide +kernel
      exact Nat.le_trans (Nat.add_le_add_right h5 _) h6
    have := rnd_mono (F := b64) Nat.one_pos hm
    rw [rnd_mag (by decide)] at this
    exact Nat.lt_of_le_of_lt this (by decide)

/-- float/lroundf.c. -/
theorem lroundf_eq {x : Nat} (hx : b32.abs x < b32.inf) :
    lroundf x = Spec.clamp 32 (sgnd (b32.neg x) (away b32.unit (b32.mag (b32.abs x)))) := by
  obtain ⟨r, h1, h2, h3, _⟩ := add_half_float hx
  unfold lroundf
  simp only
  rw [h1, saturate_pack sat64_32 h2, h3]

/-- float/llroundf.c. -/
theorem llroundf_eq {x : Nat} (hx : b32.abs x < b32.inf) :
    llroundf x = Spec.clamp 64 (sgnd (b32.neg x) (away b32.unit (b32.mag (b32.abs x)))) := by
  obtain ⟨r, h1, h2, h3, _⟩ := add_half_float hx
  unfold llroundf
  simp only
  rw [h1, saturate_pack sat64_64 h2, h3]

/-- float/roundf.h. -/
theorem roundf_eq {x : Nat} (hx : b32.abs x < b32.inf) :
    ∃ k, roundf x = b32.pack (b32.neg x) k ∧ k ≤ b32.inf ∧ b32.mag k = away b32.unit (b32.mag (b32.abs x)) * 2 ^ b32.unit := by
  obtain ⟨r, h1, h2, h3, h4⟩ := add_half_float hx
  obtain ⟨k, k1, k2⟩ := rep_away ok32 hx
  refine ⟨k, ?_, k1, k2⟩
  have hs : r < b64.signBit := Nat.lt_trans h4 Fmt.inf_lt
  obtain ⟨t, t1, t2, t3⟩ := Fmt.trunc_fin (F := b64) (x := b64.pack (b32.neg x) r) (by rwa [Fmt.abs_pack hs])
  rw [Fmt.abs_pack hs] at t2 t3
  rw [Fmt.neg_pack hs] at t1
  rw [u64, h3] at t3
  have hti : t < b64.inf := by omega
  have hts : t < b64.signBit := Nat.lt_trans hti Fmt.inf_lt
  unfold roundf
  simp only
  rw [h1, t1]
  unfold Fmt.conv
  rw [Fmt.not_nan_of_fin (by rwa [Fmt.abs_pack hts]), Fmt.isFin_iff.2 (by rwa [Fmt.abs_pack hts]), Fmt.abs_pack hts, Fmt.neg_pack hts]
  simp only [Bool.false_eq_true, if_false, if_true]
  rw [t3, rnd_exact (n := k) (Nat.two_pow_pos _) k1 (by rw [k2, u64, Nat.mul_comm (2 ^ 1074), Nat.mul_right_comm])]

/-! ### Halves to even -/

theorem near_cases (M u : Nat) : Fmt.nearInt M u = M / 2 ^ u ∨ (Fmt.nearInt M u = M / 2 ^ u + 1 ∧ 0 < M % 2 ^ u) := by
  unfold Fmt.nearInt
  have := Nat.two_pow_pos u
  split
  · right; exact ⟨rfl, by omega⟩
  · left; rfl

theorem rint_eq {F : Fmt} (o : F.Ok) {x : Nat} (hx : F.abs x < F.inf) :
    ∃ k, F.rint x = F.pack (F.neg x) k ∧ k ≤ F.inf ∧ F.mag k = Fmt.nearInt (F.mag (F.abs x)) F.unit * 2 ^ F.unit := by
  obtain ⟨u1, u2⟩ := Fmt.unit_eq o
  have hof := o.f
  have hex : ∃ k, k ≤ F.inf ∧ F.mag k = Fmt.nearInt (F.mag (F.abs x)) F.unit * 2 ^ F.unit := by
    rcases near_cases (F.mag (F.abs x)) F.unit with h | ⟨h, h'⟩
    · rw [h]
      obtain ⟨k, h1, h2⟩ := Fmt.rep_trunc hx F.unit
      exact ⟨k, by omega, h2⟩
    · rw [h]
      exact Fmt.rep_succ o hx (by omega) h'
  obtain ⟨k, h1, h2⟩ := hex
  refine ⟨k, ?_, h1, h2⟩
  unfold Fmt.rint
  rw [Fmt.isFin_iff.2 hx, if_pos rfl, ← h2, rnd_mag h1]

theorem lrint_eq {F : Fmt} (o : F.Ok) {n P Q x : Nat} (s : Sat F n P Q) (hx : F.abs x < F.inf) :
    saturate F n (F.rint x) = Spec.clamp n (sgnd (F.neg x) (Fmt.nearInt (F.mag (F.abs x)) F.unit)) := by
  obtain ⟨k, h1, h2, h3⟩ := rint_eq o hx
  have hs : k < F.signBit := Nat.lt_of_le_of_lt h2 Fmt.inf_lt
  rw [h1, saturate_eq s (by rwa [Fmt.abs_pack hs]), Fmt.neg_pack hs]
  unfold Fmt.whole
  rw [Fmt.abs_pack hs, h3, Nat.mul_div_cancel _ (Nat.two_pow_pos _)]

end Verif.Math
