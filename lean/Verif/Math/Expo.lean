import Verif.Math.Rem

/-! # Exponents: `normalize_`, `frexp`, `scalbn`, `ilogb`, `logb` -/

namespace Verif.Float

theorem pow_shift {A B a b a' b' : Nat} (h : A * 2 ^ a = B * 2 ^ b) (e : a + b' = a' + b) : A * 2 ^ a' = B * 2 ^ b' := by
  apply Nat.eq_of_mul_eq_mul_right (Nat.two_pow_pos (a + b))
  calc A * 2 ^ a' * 2 ^ (a + b) = A * 2 ^ a * 2 ^ (a' + b) := by
        rw [Nat.pow_add, Nat.pow_add, Nat.mul_assoc, Nat.mul_assoc, Nat.mul_left_comm (2 ^ a')]
    _ = B * 2 ^ b * 2 ^ (a + b') := by rw [h, e]
    _ = B * 2 ^ b' * 2 ^ (a + b) := by
        rw [Nat.pow_add, Nat.pow_add, Nat.mul_assoc, Nat.mul_assoc, Nat.mul_left_comm (2 ^ b), Nat.mul_comm (2 ^ b) (2 ^ b'), Nat.mul_left_comm (2 ^ a)]

/-- `rnd` depends on the ratio only. -/
theorem rnd_congr {F : Fmt} {num den num' den' : Nat} (hd : 0 < den) (hd' : 0 < den') (h : num * den' = num' * den) :
    F.rnd num den = F.rnd num' den' := by
  rw [← rnd_scale num den den' hd', ← rnd_scale num' den' den hd, h, Nat.mul_comm den]

theorem rnd_tiny {F : Fmt} (o : F.Ok) {num den : Nat} (hd : 0 < den) (h : 2 * num ≤ den) : F.rnd num den = 0 := by
  have h1 : F.mag (0 + 1) = 1 := F.mag_small (by
    have := Nat.pow_lt_pow_right (a := 2) (by omega) (show 0 < F.f by have := o.f; omega)
    omega)
  refine rnd_eq hd (nearest_lo (by have := Fmt.inf_pos o; omega) (by rw [F.mag_zero]; omega) ?_)
  rw [F.mag_zero, h1]; omega

end Verif.Float

namespace Verif.Math
open Verif.Float
variable {L : Lit}

/-- normalize.h:21-28: the exponent field and the full significand. -/
theorem normalize_eq (g : L.Good) {i : Nat} (h0 : 0 < i) (hi : i < L.fmt.inf) :
    ∃ (E : Int) (m : Nat), normalize L i = some (E * ((2 ^ L.fmt.f : Nat) : Int) + ((m - 2 ^ L.fmt.f : Nat) : Int)) ∧ 2 ^ L.fmt.f ≤ m ∧ m < 2 ^ (L.fmt.f + 1) ∧
      1 - (L.fmt.f : Int) ≤ E ∧ E ≤ 2 * L.fmt.bias ∧ L.fmt.mag i * 2 ^ (1 - E).toNat = m * 2 ^ (E - 1).toNat := by
  have hp := Nat.two_pow_pos L.fmt.f
  obtain ⟨_, hb3⟩ := Fmt.unit_eq g.ok
  unfold normalize
  rw [g.min]
  by_cases h : i < 2 ^ L.fmt.f
  · rw [if_pos h, clz_eq h0, Option.bind_some]
    simp only
    rw [g.wd, g.pad, g.fb, L.fmt.mag_small h]
    obtain ⟨hb1, hb2⟩ := log2_bounds (show i ≠ 0 by omega)
    have hl := log2_lt (show i ≠ 0 by omega) h
    generalize Nat.log2 i = l at *
    have hw := g.ok.w
    generalize L.fmt.bias = bias at *
    generalize L.fmt.w = w at *
    generalize L.fmt.f = f at *
    have e1 : ((f + w + 1 - 1 - l : Nat) : Int) - (w : Int) = ((f - l : Nat) : Int) := by omega
    have hS1 : 2 ^ f ≤ i * 2 ^ (f - l) := by
      have := Nat.mul_le_mul_right (2 ^ (f - l)) hb1
      rw [← Nat.pow_add, show l + (f - l) = f by omega] at this
      exact this
    have hS2 : i * 2 ^ (f - l) < 2 ^ (f + 1) := by
      have := Nat.mul_lt_mul_of_pos_right hb2 (Nat.two_pow_pos (f - l))
      rw [← Nat.pow_add, show l + 1 + (f - l) = f + 1 by omega] at this
      exact this
    rw [e1, sshl_eq (f - l) rfl (by omega) (by
      have := Nat.pow_le_pow_right (n := 2) (by omega) (show f + 1 ≤ f + w + 1 - 1 by omega)
      omega), Option.bind_some]
    refine ⟨1 - ((f - l : Nat) : Int), i * 2 ^ (f - l), ?_, hS1, hS2, by omega, by omega, ?_⟩
    · rw [Int.sub_mul, Int.one_mul, show ((2 : Int) ^ f) = ((2 ^ f : Nat) : Int) by simp]
      congr 1; omega
    · have e2 : (1 - (1 - ((f - l : Nat) : Int))).toNat = f - l := by omega
      have e3 : (1 - ((f - l : Nat) : Int) - 1).toNat = 0 := by omega
      rw [e2, e3]; simp
  · rw [if_neg h]
    have hdm := Nat.div_add_mod i (2 ^ L.fmt.f)
    have hmod := Nat.mod_lt i hp
    have hE : 1 ≤ i / 2 ^ L.fmt.f := (Nat.le_div_iff_mul_le hp).2 (by omega)
    have hEi : i / 2 ^ L.fmt.f < 2 * L.fmt.bias + 1 := by
      rw [Fmt.inf_eq g.ok] at hi
      exact (Nat.div_lt_iff_lt_mul hp).2 hi
    refine ⟨(i / 2 ^ L.fmt.f : Nat), 2 ^ L.fmt.f + i % 2 ^ L.fmt.f, ?_, by omega, by rw [Nat.pow_succ]; omega, by omega, by omega, ?_⟩
    · rw [Nat.add_sub_cancel_left, ← Int.natCast_mul, ← Int.natCast_add, Nat.mul_comm, hdm]
    · rw [L.fmt.mag_normal (by omega)]
      have e2 : (1 - ((i / 2 ^ L.fmt.f : Nat) : Int)).toNat = 0 := by omega
      have e3 : (((i / 2 ^ L.fmt.f : Nat) : Int) - 1).toNat = i / 2 ^ L.fmt.f - 1 := by omega
      rw [e2, e3]; simp

theorem split_field {P r : Nat} (E : Int) (h : r < P) : (E * (P : Int) + (r : Int)) / P = E ∧ (E * (P : Int) + (r : Int)) % P = r := by
  have hp : (P : Int) ≠ 0 := by omega
  constructor
  · rw [Int.add_comm, Int.add_mul_ediv_right _ _ hp, Int.ediv_eq_zero_of_lt (by omega) (by omega)]; omega
  · rw [Int.add_comm, Int.add_mul_emod_self_right, Int.emod_eq_of_lt (by omega) (by omega)]

theorem frexp_eq (g : L.Good) {x : Nat} (h0 : 0 < L.fmt.abs x) (hi : L.fmt.abs x < L.fmt.inf) :
    ∃ r e, frexp L x = some (L.fmt.pack (L.fmt.neg x) r, e) ∧ r < L.fmt.inf ∧
      2 ^ (L.fmt.unit - 1) ≤ L.fmt.mag r ∧ L.fmt.mag r < 2 ^ L.fmt.unit ∧
      L.fmt.mag (L.fmt.abs x) * 2 ^ (-e).toNat = L.fmt.mag r * 2 ^ e.toNat := by
  obtain ⟨E, m, h1, h2, h3, h4, h5, h6⟩ := normalize_eq g h0 hi
  obtain ⟨hu, hb3⟩ := Fmt.unit_eq g.ok
  have he0 := g.e0
  have hp := Nat.two_pow_pos L.fmt.f
  have hlt : m - 2 ^ L.fmt.f < 2 ^ L.fmt.f := by rw [Nat.pow_succ] at h3; omega
  obtain ⟨k1, k2⟩ := split_field E hlt
  unfold frexp
  simp only
  rw [g.inf, if_neg (by omega), h1, Option.bind_some, g.min, g.fb, show ((2 : Int) ^ L.fmt.f) = ((2 ^ L.fmt.f : Nat) : Int) by simp, k1, k2,
    Int.toNat_natCast, g.half, or_mul _ _ _ hlt]
  have hmag := L.fmt.mag_mk L.e0 m (by omega) h2 h3
  have hr : L.e0 * 2 ^ L.fmt.f + (m - 2 ^ L.fmt.f) < L.fmt.inf := by
    have := Fmt.pow_lt_inf g.ok (E := L.e0 + 1) (by omega)
    rw [Nat.add_mul, Nat.one_mul] at this
    omega
  refine ⟨L.e0 * 2 ^ L.fmt.f + (m - 2 ^ L.fmt.f), E - (L.e0 : Int), ?_, hr, ?_, ?_, ?_⟩
  · unfold Fmt.copysign
    rw [Fmt.abs_of_lt (Nat.lt_trans hr Fmt.inf_lt)]
  · rw [hmag]
    have := Nat.mul_le_mul_right (2 ^ (L.e0 - 1)) h2
    rw [← Nat.pow_add, show L.fmt.f + (L.e0 - 1) = L.fmt.unit - 1 by omega] at this
    exact this
  · rw [hmag]
    have := Nat.mul_lt_mul_of_pos_right h3 (Nat.two_pow_pos (L.e0 - 1))
    rw [← Nat.pow_add, show L.fmt.f + 1 + (L.e0 - 1) = L.fmt.unit by omega] at this
    exact this
  · rw [hmag, Nat.mul_assoc, ← Nat.pow_add]
    refine pow_shift h6 ?_
    omega

/-- `ilogb` of a finite nonzero number. -/
theorem ilogb_eq (g : L.Good) {x : Nat} (h0 : 0 < L.fmt.abs x) (hi : L.fmt.abs x < L.fmt.inf) :
    ∃ k : Int, ilogb L x = some k ∧ logb L x = some (L.fmt.ofInt k) ∧ 0 ≤ k + L.fmt.unit ∧
      2 ^ (k + L.fmt.unit).toNat ≤ L.fmt.mag (L.fmt.abs x) ∧ L.fmt.mag (L.fmt.abs x) < 2 ^ (k + L.fmt.unit + 1).toNat ∧ k ≤ L.fmt.bias := by
  obtain ⟨hu, hb3⟩ := Fmt.unit_eq g.ok
  have hp := Nat.two_pow_pos L.fmt.f
  unfold ilogb logb
  simp only
  have hne : ¬ L.fmt.abs x = 0 := by omega
  rw [g.min, g.inf, g.fb, g.bias, if_neg hne, if_neg hne]
  generalize L.fmt.abs x = i at *
  by_cases h : i < 2 ^ L.fmt.f
  · rw [if_pos h, if_pos h, clz_eq h0, Option.bind_some, Option.bind_some, L.fmt.mag_small h]
    obtain ⟨hb1, hb2⟩ := log2_bounds (show i ≠ 0 by omega)
    have hl := log2_lt (show i ≠ 0 by omega) h
    have hs := g.sub
    have hw := g.wd
    have e : (-((L.sub + (L.wd - 1 - Nat.log2 i) : Nat) : Int)) + L.fmt.unit = Nat.log2 i := by omega
    refine ⟨_, rfl, rfl, by omega, ?_, ?_, by omega⟩
    · rw [e]; exact hb1
    · rw [e]; exact hb2
  · rw [if_neg h, if_neg h, if_pos hi, if_pos hi]
    have hmod := Nat.mod_lt i hp
    have hE : 1 ≤ i / 2 ^ L.fmt.f := (Nat.le_div_iff_mul_le hp).2 (by omega)
    have hEi : i / 2 ^ L.fmt.f < 2 * L.fmt.bias + 1 := by
      rw [Fmt.inf_eq g.ok] at hi
      exact (Nat.div_lt_iff_lt_mul hp).2 hi
    rw [L.fmt.mag_normal (by omega)]
    generalize i / 2 ^ L.fmt.f = E at *
    have e1 : ((E : Int) - (L.fmt.bias : Int) + (L.fmt.unit : Int)).toNat = L.fmt.f + (E - 1) := by omega
    have e2 : ((E : Int) - (L.fmt.bias : Int) + (L.fmt.unit : Int) + 1).toNat = L.fmt.f + 1 + (E - 1) := by omega
    refine ⟨_, rfl, rfl, by omega, ?_, ?_, by omega⟩
    · rw [e1, Nat.pow_add]
      exact Nat.mul_le_mul_right _ (by omega)
    · rw [e2, Nat.pow_add]
      exact Nat.mul_lt_mul_of_pos_right (by rw [Nat.pow_succ]; omega) (Nat.two_pow_pos _)

/-- `scalbn` of a finite nonzero number. -/
theorem scalbn_eq {x : Nat} (n : Int) (h0 : 0 < b64.abs x) (hi : b64.abs x < b64.inf) :
    scalbn x n = some (b64.pack (b64.neg x) (b64.rnd (b64.mag (b64.abs x) * 2 ^ n.toNat) (2 ^ (-n).toNat))) := by
  obtain ⟨E, m, h1, h2, h3, h4, h5, h6⟩ := normalize_eq good_dbl (i := b64.abs x) h0 hi
  have hf : dbl.fmt = b64 := rfl
  rw [hf] at h1 h2 h3 h4 h5 h6
  have hbf : b64.f = 52 := rfl
  have hbb : b64.bias = 1023 := rfl
  have hbu : b64.unit = 1074 := rfl
  have hinf : b64.inf = 0x7FF0000000000000 := by decide
  rw [hbf] at h2 h3 h4
  rw [hbb] at h5
  have hlt : m - 2 ^ 52 < 2 ^ 52 := by omega
  obtain ⟨k1, k2⟩ := split_field E hlt
  have hd := Nat.two_pow_pos (-n).toNat
  unfold scalbn
  simp only
  rw [if_neg (by rw [hinf] at hi; omega), h1, hbf, Option.bind_some]
  rw [show ((2 : Int) ^ 52) = ((2 ^ 52 : Nat) : Int) by rfl, show (0x0010000000000000 : Int) = ((2 ^ 52 : Nat) : Int) by rfl, k1, k2, Int.toNat_natCast]
  -- the exact value as a ratio
  have key : ∀ a b : Nat, n + E - 1 = (a : Int) - b → b64.mag (b64.abs x) * 2 ^ n.toNat * 2 ^ b = m * 2 ^ a * 2 ^ (-n).toNat := by
    intro a b hab
    rw [Nat.mul_assoc, Nat.mul_assoc, ← Nat.pow_add, ← Nat.pow_add]
    exact pow_shift h6 (by omega)
  by_cases hov : 0x7FF ≤ n + E ∨ n + E < -53
  · rw [if_pos hov]
    rcases hov with hov | hov
    · rw [if_neg (by omega)]
      have hmul : b64.mul x 0x7FF0000000000000 = b64.pack (b64.neg x) b64.inf := by
        unfold Fmt.mul
        have e1 : b64.isNaN 0x7FF0000000000000 = false := by decide
        have e2 : b64.isFin 0x7FF0000000000000 = false := by decide
        have e3 : b64.abs 0x7FF0000000000000 = 0x7FF0000000000000 := by decide
        have e4 : b64.neg 0x7FF0000000000000 = false := by decide
        rw [Fmt.not_nan_of_fin hi, e1, e2, e3, e4, if_neg (by simp), if_neg (by simp), if_neg (by omega)]
        simp
      rw [hmul, rnd_eq hd (nearest_inf hd ?_)]
      have hk := key (n + E - 1).toNat 0 (by omega)
      rw [Nat.pow_zero, Nat.mul_one] at hk
      rw [hk, Nat.mul_comm, Fmt.mag_inf ok64, hbf, hbb]
      refine Nat.mul_le_mul_right _ ?_
      have a1 := Nat.mul_le_mul_right (2 ^ (n + E - 1).toNat) h2
      rw [← Nat.pow_add] at a1
      exact Nat.le_trans (Nat.pow_le_pow_right (by omega) (by omega)) a1
    · rw [if_pos (by omega)]
      have hmul : b64.mul x 0 = b64.pack (b64.neg x) 0 := by
        have e1 : b64.abs 0 = 0 := by decide
        have e2 : b64.neg 0 = false := by decide
        rw [Fmt.mul_fin hi (by rw [e1]; exact Fmt.inf_pos ok64), e1, e2, b64.mag_zero, Nat.mul_zero, rnd_zero _ (Nat.two_pow_pos _)]
        simp
      rw [hmul, rnd_tiny ok64 hd ?_]
      have hk := key 0 (1 - n - E).toNat (by omega)
      have hlt2 : 2 * m ≤ 2 ^ (1 - n - E).toNat := by
        have := Nat.pow_le_pow_right (n := 2) (by omega) (show 54 ≤ (1 - n - E).toNat by omega)
        omega
      have hp := Nat.two_pow_pos (1 - n - E).toNat
      apply Nat.le_of_mul_le_mul_right (c := 2 ^ (1 - n - E).toNat) _ hp
      rw [Nat.mul_assoc, hk, Nat.pow_zero, Nat.mul_one, ← Nat.mul_assoc, Nat.mul_comm (2 ^ (-n).toNat)]
      exact Nat.mul_le_mul_right _ hlt2
  · rw [if_neg hov]
    by_cases hpos : 0 < n + E
    · rw [if_pos hpos, or_mul _ _ _ hlt]
      have hmag := b64.mag_mk (n + E).toNat m (by omega) h2 h3
      rw [hbf] at hmag
      have hr : (n + E).toNat * 2 ^ 52 + (m - 2 ^ 52) < b64.inf := by
        rw [hinf]; omega
      unfold Fmt.copysign
      rw [Fmt.abs_of_lt (Nat.lt_trans hr Fmt.inf_lt), rnd_exact hd (Nat.le_of_lt hr) ?_]
      have hk := key (n + E - 1).toNat 0 (by omega)
      rw [Nat.pow_zero, Nat.mul_one] at hk
      rw [hk, hmag, Nat.mul_comm, show (n + E).toNat - 1 = (n + E - 1).toNat by omega]
    · rw [if_neg hpos, or_mul _ _ _ hlt]
      have e1 : b64.mag 0x3CA0000000000000 = 2 ^ 1021 := by decide +kernel
      have e2 : (0x3CA0000000000000 : Nat) < b64.signBit := by decide
      have e3 : (0x3CA0000000000000 : Nat) < b64.inf := by decide
      have hp : (n + E + 53).toNat * 2 ^ 52 + (m - 2 ^ 52) < b64.inf := by rw [hinf]; omega
      have hp' := Nat.lt_trans hp Fmt.inf_lt
      have hcs : b64.copysign 0x3CA0000000000000 x = b64.pack (b64.neg x) 0x3CA0000000000000 := by
        unfold Fmt.copysign; rw [Fmt.abs_of_lt e2]
      rw [hcs, Fmt.mul_fin (by rw [Fmt.abs_pack e2]; exact e3) (by rwa [Fmt.abs_of_lt hp']), Fmt.abs_pack e2, Fmt.neg_pack e2, Fmt.neg_of_lt hp',
        Fmt.abs_of_lt hp', e1, hbu]
      rw [show (b64.neg x != false) = b64.neg x by simp]
      refine congrArg (fun r => some (b64.pack (b64.neg x) r)) ?_
      by_cases hz : n + E = -53
      · -- below half of the smallest subnormal
        have hfr : b64.mag ((n + E + 53).toNat * 2 ^ 52 + (m - 2 ^ 52)) = m - 2 ^ 52 := by
          rw [show (n + E + 53).toNat = 0 by omega, Nat.zero_mul, Nat.zero_add]
          exact b64.mag_small hlt
        rw [hfr]
        rw [rnd_tiny ok64 (Nat.two_pow_pos _) (by
          rw [show (2 : Nat) ^ 1074 = 2 ^ 1021 * 2 ^ 53 by rw [← Nat.pow_add], Nat.mul_left_comm]
          exact Nat.mul_le_mul_left _ (by omega)), rnd_tiny ok64 hd ?_]
        have hk := key 0 54 (by omega)
        apply Nat.le_of_mul_le_mul_right (c := 2 ^ 54) _ (Nat.two_pow_pos _)
        rw [Nat.mul_assoc, hk, Nat.pow_zero, Nat.mul_one, ← Nat.mul_assoc, Nat.mul_comm (2 ^ (-n).toNat)]
        exact Nat.mul_le_mul_right _ (by omega)
      · have hmag := b64.mag_mk (n + E + 53).toNat m (by omega) h2 h3
        rw [hbf] at hmag
        rw [hmag]
        refine rnd_congr (Nat.two_pow_pos _) hd ?_
        have hk := key ((n + E + 53).toNat - 1) 53 (by omega)
        have e : (2 : Nat) ^ 1074 = 2 ^ 1021 * 2 ^ 53 := by rw [← Nat.pow_add]
        rw [e, Nat.mul_left_comm _ (2 ^ 1021), hk, Nat.mul_assoc]

end Verif.Math
