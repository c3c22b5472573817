import Verif.Int128.FixModel
import Verif.Math.Bridge

/-! # The two limbs of a floating-point number -/

namespace Verif.Int128
open Verif.Float

variable {F : Fmt}

/-- What the constants are. -/
structure Consts (F : Fmt) (down up : Nat) : Prop where
  ok : F.Ok
  u : F.f + 66 ≤ F.unit
  b : F.unit + 128 ≤ F.f + 2 * F.bias
  dlt : down < F.inf
  d : F.mag down * 2 ^ 64 = 2 ^ F.unit
  ult : up < F.inf
  up : F.mag up = 2 ^ (F.unit + 64)

theorem toU64_some {x : Nat} (h : x < F.inf) (hw : F.mag x / 2 ^ F.unit < 2 ^ 64) : toU64 F x = some (F.mag x / 2 ^ F.unit) := by
  have h' := Nat.lt_trans h Fmt.inf_lt
  unfold toU64 Fmt.whole
  rw [Fmt.abs_of_lt h', if_pos ⟨Fmt.isFin_iff.2 (by rwa [Fmt.abs_of_lt h']), hw, Or.inl (Fmt.neg_of_lt h')⟩]

/-- Scaling down by `2^64` keeps the integral part. -/
theorem down_whole {down up r : Nat} (c : Consts F down up) (hr : r < F.inf) :
    ∃ k, F.mul down r = k ∧ k < F.inf ∧ F.mag k / 2 ^ F.unit = F.mag r / 2 ^ (F.unit + 64) := by
  have hr' := Nat.lt_trans hr Fmt.inf_lt
  have hd' := Nat.lt_trans c.dlt Fmt.inf_lt
  have hmi := F.mag_strictMono hr
  have e0 : F.mul down r = F.rnd (F.mag r) (2 ^ 64) := by
    rw [Fmt.mul_fin (by rw [Fmt.abs_of_lt hd']; exact c.dlt) (by rwa [Fmt.abs_of_lt hr']), Fmt.abs_of_lt hd', Fmt.abs_of_lt hr',
      Fmt.neg_of_lt hd', Fmt.neg_of_lt hr']
    have hdp : 0 < F.mag down := by
      have hd := c.d
      have hu := Nat.two_pow_pos F.unit
      rcases Nat.eq_zero_or_pos (F.mag down) with h | h
      · rw [h, Nat.zero_mul] at hd; omega
      · exact h
    rw [← c.d, Nat.mul_comm (F.mag down) (F.mag r), Nat.mul_comm (F.mag down) (2 ^ 64), rnd_scale _ _ _ hdp]
    unfold Fmt.pack; simp
  obtain ⟨m, hm, hml⟩ := Fmt.mag_form (F := F) r
  unfold Fmt.ulp at hm
  generalize hE : r / 2 ^ F.f - 1 = E at hm
  rcases Nat.lt_or_ge E 64 with hlt | hge
  · -- less than one
    have hb : F.mag r < 2 ^ (F.f + 1 + 64) := by
      rw [hm, Nat.pow_add]
      exact Nat.lt_of_lt_of_le (Nat.mul_lt_mul_of_pos_right hml (Nat.two_pow_pos _)) (Nat.mul_le_mul_left _ (Nat.pow_le_pow_right (by omega) (by omega)))
    obtain ⟨n, hn, hne⟩ := Fmt.representable (F := F) (m := 2 ^ (F.f + 1)) (e := 0) (Nat.le_refl _) (by
      rw [Fmt.mag_inf c.ok, ← Nat.pow_add]; apply Nat.pow_le_pow_right (by omega); have := c.b; have := c.u; omega)
    rw [Nat.pow_zero, Nat.mul_one] at hne
    have hle : F.rnd (F.mag r) (2 ^ 64) ≤ n := by
      have := rnd_mono (F := F) (a := F.mag r) (b := 2 ^ 64 * F.mag n) (den := 2 ^ 64) (by decide) (by
        rw [hne, Nat.mul_comm, ← Nat.pow_add]; omega)
      rwa [rnd_exact (Nat.two_pow_pos _) hn rfl] at this
    have hmk := F.mag_mono hle
    rw [hne] at hmk
    have hU : 2 ^ (F.f + 1) < 2 ^ F.unit := Nat.pow_lt_pow_right (by omega) (by have := c.u; omega)
    have hV : 2 ^ (F.f + 1 + 64) ≤ 2 ^ (F.unit + 64) := Nat.pow_le_pow_right (by omega) (by have := c.u; omega)
    refine ⟨_, e0, ?_, ?_⟩
    · refine (Fmt.mag_lt_iff (F := F)).1 (Nat.lt_of_le_of_lt hmk ?_)
      rw [Fmt.mag_inf c.ok]; apply Nat.pow_lt_pow_right (by omega); have := c.b; have := c.u; omega
    · rw [Nat.div_eq_of_lt (by omega), Nat.div_eq_of_lt (by omega)]
  · have e : F.mag r = 2 ^ 64 * (m * 2 ^ (E - 64)) := by
      rw [hm, Nat.mul_left_comm, ← Nat.pow_add]; congr 2; omega
    obtain ⟨n, hn, hne⟩ := Fmt.representable (F := F) (m := m) (e := E - 64) (by omega) (by omega)
    rw [← hne] at e
    refine ⟨n, by rw [e0]; exact rnd_exact (Nat.two_pow_pos _) hn e, ?_, ?_⟩
    · have h1 : F.mag n ≤ F.mag r := by omega
      have := (Fmt.mag_le_iff (F := F)).1 h1; omega
    · rw [e, Nat.pow_add, Nat.mul_comm (2 ^ F.unit), Nat.mul_div_mul_left _ _ (Nat.two_pow_pos 64)]

/-- The remainder of a magnitude by a power of two is a magnitude, and so is the rest. -/
theorem split_mag {r j : Nat} (hr : r < F.inf) :
    (∃ n, n < F.inf ∧ F.mag n = F.mag r % 2 ^ j) ∧ (∃ n, n < F.inf ∧ F.mag n = F.mag r / 2 ^ j * 2 ^ j) ∧
      F.mag r / 2 ^ j ≤ 2 ^ (F.f + 1) * 2 ^ (r / 2 ^ F.f - 1 - j) := by
  have hmi := F.mag_strictMono hr
  obtain ⟨m, hm, hml⟩ := Fmt.mag_form (F := F) r
  unfold Fmt.ulp at hm
  generalize r / 2 ^ F.f - 1 = E at hm ⊢
  have fin : ∀ {n t}, F.mag n = t → t ≤ F.mag r → n < F.inf := fun h1 h2 =>
    (Fmt.mag_lt_iff (F := F)).1 (by omega)
  have hq := Nat.div_mul_le_self (F.mag r) (2 ^ j)
  have hmod := Nat.mod_le (F.mag r) (2 ^ j)
  rcases Nat.lt_or_ge E j with h | h
  · obtain ⟨d, rfl⟩ : ∃ d, j = E + d := ⟨j - E, by omega⟩
    have e1 : F.mag r / 2 ^ (E + d) = m / 2 ^ d := by
      rw [hm, Nat.pow_add, Nat.mul_comm m, Nat.mul_div_mul_left _ _ (Nat.two_pow_pos E)]
    have e2 : F.mag r % 2 ^ (E + d) = m % 2 ^ d * 2 ^ E := by
      rw [hm, Nat.pow_add, Nat.mul_comm m, Nat.mul_mod_mul_left, Nat.mul_comm]
    have l1 := Nat.div_le_self m (2 ^ d)
    have l2 := Nat.mod_le m (2 ^ d)
    refine ⟨?_, ?_, ?_⟩
    · obtain ⟨n, _, h2⟩ := Fmt.representable (F := F) (m := m % 2 ^ d) (e := E) (by omega) (by omega)
      rw [← e2] at h2
      exact ⟨n, fin h2 hmod, h2⟩
    · rw [e1] at hq ⊢
      obtain ⟨n, _, h2⟩ := Fmt.representable (F := F) (m := m / 2 ^ d) (e := E + d) (by omega) (by omega)
      exact ⟨n, fin h2 hq, h2⟩
    · rw [e1, Nat.sub_eq_zero_of_le (by omega), Nat.pow_zero]; omega
  · obtain ⟨d, rfl⟩ : ∃ d, E = j + d := ⟨E - j, by omega⟩
    have e1 : F.mag r = m * 2 ^ d * 2 ^ j := by rw [hm, Nat.pow_add, Nat.mul_assoc, Nat.mul_comm (2 ^ j)]
    have e2 : F.mag r / 2 ^ j = m * 2 ^ d := by rw [e1, Nat.mul_div_cancel _ (Nat.two_pow_pos j)]
    refine ⟨⟨0, by have := (Fmt.mag_lt_iff (F := F)).1 hmi; omega, ?_⟩, ⟨r, hr, by rw [e2, e1]⟩, ?_⟩
    · rw [e1, Nat.mul_mod_left, F.mag_zero]
    · rw [e2, Nat.add_sub_cancel_left]
      exact Nat.mul_le_mul_right _ (by omega)

theorem ofInt_pos {n k : Nat} (hk : k ≤ F.inf) (h : F.mag k = n * 2 ^ F.unit) : F.ofInt n = k := by
  unfold Fmt.ofInt Fmt.rndInt
  have e : ((n : Int) * 2 ^ F.unit) = ((n * 2 ^ F.unit : Nat) : Int) := by simp
  rw [e]
  by_cases h0 : n * 2 ^ F.unit = 0
  · have : k = 0 := (Fmt.mag_eq_zero (F := F)).1 (by omega)
    rw [if_pos (by omega), this]; rfl
  · rw [if_neg (by omega), decide_eq_false (by omega), Int.natAbs_natCast, ← h, rnd_mag hk]
    unfold Fmt.pack; simp

/-- Both limbs, below `2^128`. -/
theorem limbs_eq {down up r : Nat} (c : Consts F down up) (hr : r < F.inf) (hs : F.mag r < 2 ^ (F.unit + 128)) :
    ∃ h l, limbs F down up r = some (h, l) ∧ h < 2 ^ 64 ∧ l < 2 ^ 64 ∧ h * 2 ^ 64 + l = F.mag r / 2 ^ F.unit := by
  obtain ⟨k, e1, hk, e2⟩ := down_whole c hr
  have hi : F.mag r / 2 ^ (F.unit + 64) < 2 ^ 64 := (Nat.div_lt_iff_lt_mul (Nat.two_pow_pos _)).2 (by
    rw [← Nat.pow_add]; rwa [show 64 + (F.unit + 64) = F.unit + 128 by omega])
  have t1 := toU64_some hk (by rwa [e2])
  rw [e2] at t1
  obtain ⟨⟨lo, hlo, elo⟩, ⟨top, htop, etop⟩, hfew⟩ := split_mag (F := F) (j := F.unit + 64) hr
  -- high as a floating-point number
  have hrep : ∃ y, y < F.inf ∧ F.mag y = F.mag r / 2 ^ (F.unit + 64) * 2 ^ F.unit := by
    obtain ⟨m, hm, hml⟩ := Fmt.mag_form (F := F) top
    unfold Fmt.ulp at hm
    generalize top / 2 ^ F.f - 1 = E at hm
    rw [etop] at hm
    rcases Nat.lt_or_ge E 64 with h | h
    · -- top < 2^(f+1+64) ≤ 2^(unit + 64), hence zero
      have : F.mag r / 2 ^ (F.unit + 64) = 0 := by
        rcases Nat.eq_zero_or_pos (F.mag r / 2 ^ (F.unit + 64)) with h0 | h0
        · exact h0
        · exfalso
          have a1 : 2 ^ (F.unit + 64) ≤ m * 2 ^ E := by rw [← hm]; exact Nat.le_mul_of_pos_left _ h0
          have a2 : m * 2 ^ E < 2 ^ (F.f + 1) * 2 ^ 64 :=
            Nat.lt_of_lt_of_le (Nat.mul_lt_mul_of_pos_right hml (Nat.two_pow_pos _)) (Nat.mul_le_mul_left _ (Nat.pow_le_pow_right (by omega) (by omega)))
          rw [← Nat.pow_add] at a2
          have a3 : 2 ^ (F.f + 1 + 64) ≤ 2 ^ (F.unit + 64) := Nat.pow_le_pow_right (by omega) (by have := c.u; omega)
          omega
      rw [this]
      exact ⟨0, Fmt.inf_pos c.ok, by rw [F.mag_zero, Nat.zero_mul]⟩
    · have e : F.mag r / 2 ^ (F.unit + 64) * 2 ^ F.unit = m * 2 ^ (E - 64) := by
        refine Nat.eq_of_mul_eq_mul_right (Nat.two_pow_pos 64) ?_
        rw [Nat.mul_assoc, Nat.mul_assoc, ← Nat.pow_add, ← Nat.pow_add, hm, show E - 64 + 64 = E by omega]
      have hle : F.mag r / 2 ^ (F.unit + 64) * 2 ^ F.unit ≤ F.mag top := by
        rw [etop]; exact Nat.mul_le_mul_left _ (Nat.pow_le_pow_right (by omega) (by omega))
      have := F.mag_strictMono htop
      obtain ⟨y, hy, hye⟩ := Fmt.representable (F := F) (m := m) (e := E - 64) (by omega) (by rw [← e]; omega)
      rw [← e] at hye
      exact ⟨y, (Fmt.mag_lt_iff (F := F)).1 (by omega), hye⟩
  obtain ⟨y, hy, hye⟩ := hrep
  have hy' := Nat.lt_trans hy Fmt.inf_lt
  have o := ofInt_pos (Nat.le_of_lt hy) hye
  obtain ⟨q, q1, q2, q3, _⟩ := Fmt.mul_pow (j := 64) c.ok c.ult c.up (y := y) (by rwa [Fmt.abs_of_lt hy'])
  rw [Fmt.abs_of_lt hy', hye, Fmt.neg_of_lt hy'] at *
  have ep : 2 ^ 64 * (F.mag r / 2 ^ (F.unit + 64) * 2 ^ F.unit) = F.mag r / 2 ^ (F.unit + 64) * 2 ^ (F.unit + 64) := by
    rw [Nat.mul_left_comm, ← Nat.pow_add, Nat.add_comm 64]
  rw [ep, ← etop] at q3
  have q4 := F.mag_inj (q3 (F.mag_strictMono htop))
  have hsub : F.sub r top = lo := Fmt.sub_pos hr htop ((Fmt.mag_le_iff (F := F)).1 (by
    rw [etop]; exact Nat.div_mul_le_self _ _)) (by
    rw [elo, etop]
    have := Nat.div_add_mod (F.mag r) (2 ^ (F.unit + 64))
    rw [Nat.mul_comm] at this; omega)
  have hl : F.mag lo / 2 ^ F.unit < 2 ^ 64 := (Nat.div_lt_iff_lt_mul (Nat.two_pow_pos _)).2 (by
    rw [elo, ← Nat.pow_add, Nat.add_comm 64]; exact Nat.mod_lt _ (Nat.two_pow_pos _))
  refine ⟨_, _, ?_, hi, hl, ?_⟩
  · unfold limbs
    rw [e1, t1]
    simp only [Option.bind_eq_bind, Option.bind_some]
    rw [o, q1, q4, show F.pack false top = top by unfold Fmt.pack; simp, hsub, toU64_some hlo hl]
    rfl
  · rw [elo]
    have a : F.mag r / 2 ^ (F.unit + 64) = F.mag r / 2 ^ F.unit / 2 ^ 64 := by rw [Nat.pow_add, Nat.div_div_eq_div_mul]
    have b : F.mag r % 2 ^ (F.unit + 64) / 2 ^ F.unit = F.mag r / 2 ^ F.unit % 2 ^ 64 := by
      rw [Nat.pow_add, Nat.mod_mul_right_div_self]
    rw [a, b, Nat.mul_comm]
    exact Nat.div_add_mod _ _

theorem c64 : Consts b64 0x3BF0000000000000 0x43F0000000000000 where
  ok := ok64
  u := by decide
  b := by decide
  dlt := by decide
  d := by decide +kernel
  ult := by decide
  up := by decide +kernel

theorem c32 : Consts b32 0x1F800000 0x5F800000 where
  ok := ok32
  u := by decide
  b := by decide
  dlt := by decide
  d := by decide +kernel
  ult := by decide
  up := by decide +kernel

end Verif.Int128
