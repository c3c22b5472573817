import Verif.Approx.PowMain
import Verif.Approx.SpecPow

/-! # The cases of `powf` -/

namespace Verif.Approx
open Verif.Float Verif.Approx.Spec
open Verif.Math.Spec (Pat absOf negative size value NaN Infinite)

/-! ### Integers -/

theorem nearInt_dvd {n u : Nat} : Fmt.nearInt n u * 2 ^ u = n ↔ 2 ^ u ∣ n := by
  have hp := Nat.two_pow_pos u
  constructor
  · exact fun h => ⟨_, by rw [← h, Nat.mul_comm]⟩
  · rintro ⟨c, rfl⟩
    unfold Fmt.nearInt
    rw [Nat.mul_mod_right, Nat.mul_div_cancel_left _ hp, if_neg (by omega), Nat.mul_comm]

theorem whole_iff {F : Fmt} {y : Nat} (hf : Math.Spec.Finite F y) : Whole F y ↔ 2 ^ F.unit ∣ size F y := by
  have hv : value F y = size F y ∨ value F y = -(size F y : Int) := by unfold value; split <;> simp
  constructor
  · rintro ⟨-, k, hk⟩
    refine ⟨k.natAbs, ?_⟩
    have h : (value F y).natAbs = size F y := by rcases hv with h | h <;> rw [h] <;> simp
    rw [← h, hk, Int.natAbs_mul, Int.natAbs_pow, Nat.mul_comm]
    rfl
  · rintro ⟨c, hc⟩
    refine ⟨hf, ?_⟩
    rcases hv with h | h
    · exact ⟨c, by rw [h, hc]; push_cast; ring⟩
    · exact ⟨-c, by rw [h, hc]; push_cast; ring⟩

theorem odd_iff {F : Fmt} {y : Nat} (hf : Math.Spec.Finite F y) : OddWhole F y ↔ ∃ c, size F y = (2 * c + 1) * 2 ^ F.unit := by
  have hv : value F y = size F y ∨ value F y = -(size F y : Int) := by unfold value; split <;> simp
  constructor
  · rintro ⟨-, k, hk⟩
    have h : (value F y).natAbs = size F y := by rcases hv with h | h <;> rw [h] <;> simp
    refine ⟨(2 * k + 1).natAbs / 2, ?_⟩
    rw [← h, hk, Int.natAbs_mul, Int.natAbs_pow, show 2 * ((2 * k + 1).natAbs / 2) + 1 = (2 * k + 1).natAbs by omega]
    rfl
  · rintro ⟨c, hc⟩
    refine ⟨hf, ?_⟩
    rcases hv with h | h
    · exact ⟨c, by rw [h, hc]; push_cast; ring⟩
    · exact ⟨-c - 1, by rw [h, hc]; push_cast; ring⟩

theorem rint_whole {F : Fmt} (o : F.Ok) {y : Nat} (hf : Math.Spec.Finite F y) : F.eq (F.rint y) y = true ↔ 2 ^ F.unit ∣ size F y := by
  obtain ⟨k, k1, k2, k3⟩ := Math.rint_eq o (x := y) hf
  have hk : k < F.signBit := Nat.lt_of_le_of_lt k2 Fmt.inf_lt
  rw [k1, Fmt.eq_iff (by rw [Fmt.abs_pack hk]; exact k2) (Nat.le_of_lt hf), Fmt.val_pack hk]
  have e : (if F.neg y = true then -(F.mag k : Int) else F.mag k) = F.val y ↔ F.mag k = F.mag (F.abs y) := by
    unfold Fmt.val
    cases F.neg y <;> simp
  rw [e, k3, nearInt_dvd]
  rfl

theorem half_pat {y : Nat} (hf : Math.Spec.Finite b32 y) (h : 2 ^ 24 ≤ b32.abs y) :
    Arith.fdiv b32 y 0x40000000 = b32.pack (b32.neg y) (b32.abs y - 2 ^ 23) ∧ 2 * b32.mag (b32.abs y - 2 ^ 23) = b32.mag (b32.abs y) := by
  have hf' : b32.abs y < b32.inf := hf
  obtain ⟨a, ha⟩ : ∃ a, b32.abs y = a + 2 ^ 23 := ⟨b32.abs y - 2 ^ 23, by omega⟩
  have h1 : b32.mag (a + 2 ^ 23) = b32.mag a * 2 := by
    have := mag_scale (F := b32) (y := a) (k := 1) (by change 2 ^ 23 ≤ a; omega)
    rw [show b32.f = 23 from rfl, one_mul, pow_one] at this
    exact this
  have e : b32.abs y - 2 ^ 23 = a := by omega
  refine ⟨?_, by rw [e, ha, h1]; ring⟩
  unfold Arith.fdiv
  rw [if_neg (by rw [Fmt.not_nan_of_fin hf']; decide), if_pos (Fmt.isFin_iff.2 hf'), if_pos (by decide), if_neg (by decide),
    show b32.neg 0x40000000 = false by decide, Bool.bne_false, e, ha, h1, show b32.mag (b32.abs 0x40000000) = 2 * 2 ^ b32.unit by decide +kernel]
  rw [rnd_exact (n := a) (by positivity) (by omega) (by ring)]

theorem half_whole {y : Nat} (hf : Math.Spec.Finite b32 y) (h0 : size b32 y ≠ 0) (hw : 2 ^ b32.unit ∣ size b32 y) :
    b32.eq (b32.rint (Arith.fdiv b32 y 0x40000000)) (Arith.fdiv b32 y 0x40000000) = true ↔ ¬ OddWhole b32 y := by
  have hp : 0 < 2 ^ b32.unit := Nat.two_pow_pos _
  have hl : 127 * 2 ^ 23 ≤ b32.abs y := by
    rw [← Fmt.mag_le_iff (F := b32), show b32.mag (127 * 2 ^ 23) = 2 ^ b32.unit by decide +kernel]
    exact Nat.le_of_dvd (Nat.pos_of_ne_zero h0) hw
  obtain ⟨h1, h2⟩ := half_pat hf (by omega)
  have hlt : b32.abs y - 2 ^ 23 < b32.inf := by have : b32.abs y < b32.inf := hf; omega
  have habs := Fmt.abs_pack (F := b32) (s := b32.neg y) (Nat.lt_trans hlt Fmt.inf_lt)
  rw [h1, rint_whole ok32 (by change b32.abs _ < b32.inf; rw [habs]; exact hlt), odd_iff hf]
  have e : size b32 (b32.pack (b32.neg y) (b32.abs y - 2 ^ 23)) = b32.mag (b32.abs y - 2 ^ 23) := by
    change b32.mag (b32.abs _) = _
    rw [habs]
  have e2 : size b32 y = 2 * b32.mag (b32.abs y - 2 ^ 23) := h2.symm
  rw [e, e2]
  rw [e2] at hw
  generalize b32.mag (b32.abs y - 2 ^ 23) = m at *
  generalize 2 ^ b32.unit = w at *
  constructor
  · rintro ⟨c, rfl⟩ ⟨d, hd⟩
    have : 2 * c = 2 * d + 1 := Nat.eq_of_mul_eq_mul_left hp (by linarith)
    omega
  · intro hn
    obtain ⟨c, hc⟩ := hw
    rcases Nat.even_or_odd' c with ⟨d, hd | hd⟩
    · exact ⟨d, by rw [hd] at hc; linarith⟩
    · exact absurd ⟨d, by rw [hc, hd]; ring⟩ hn

/-! ### Which branch is taken -/

theorem or_sign {m : Nat} (h : m < 2 ^ 31) : m ||| 0x80000000 = m + 0x80000000 := by
  have := Nat.two_pow_add_eq_or_of_lt h 1
  rw [Nat.mul_one] at this
  rw [Nat.or_comm, show (0x80000000 : Nat) = 2 ^ 31 from rfl, ← this, Nat.add_comm]

/-- The first test. -/
theorem powf_zero {x y : Nat} (h : b32.abs y = 0) : powf x y = some 0x3F800000 := by
  unfold powf
  rw [if_pos]
  rw [Fmt.eq_iff (by rw [h]; exact Nat.zero_le _) (by decide)]
  unfold Fmt.val
  rw [h, b32.mag_zero]
  simp [show b32.abs 0 = 0 by decide, b32.mag_zero]

theorem eq_zero {y : Nat} : b32.eq y 0 = true ↔ b32.abs y = 0 := by
  by_cases hn : b32.inf < b32.abs y
  · have : b32.isNaN y = true := Fmt.isNaN_iff.2 hn
    unfold Fmt.eq
    rw [this]
    simp
    omega
  · rw [Fmt.eq_iff (by omega) (by decide), show b32.val 0 = 0 by decide]
    unfold Fmt.val
    have := Fmt.mag_eq_zero (F := b32) (n := b32.abs y)
    split <;> simp [this]

theorem eq_nan {x y : Nat} (h : b32.inf < b32.abs y) : b32.eq x y = false := by
  unfold Fmt.eq
  rw [Fmt.isNaN_iff.2 h]
  simp

/-- A base with its sign bit clear, or an exponent that is not an integer. -/
theorem powf_plain {x y : Nat} (h0 : b32.abs y ≠ 0) (h : b32.neg x = false ∨ b32.eq (b32.rint y) y = false) : powf x y = powUnsigned x y := by
  unfold powf
  rw [if_neg (by rw [eq_zero]; exact h0)]
  dsimp only
  rw [if_neg (by rcases h with h | h <;> rw [h] <;> simp)]

theorem powf_neg {x y : Nat} (h0 : b32.abs y ≠ 0) (hx : b32.neg x = true) (h : b32.eq (b32.rint y) y = true) :
    powf x y = (powUnsigned (b32.opp x) y).map fun m =>
      m ||| (if b32.eq (b32.rint (Arith.fdiv b32 y 0x40000000)) (Arith.fdiv b32 y 0x40000000) then 0 else 0x80000000) := by
  unfold powf
  rw [if_neg (by rw [eq_zero]; exact h0)]
  dsimp only
  rw [if_pos ⟨hx, h⟩]

/-- Finite exponents: the sign is that of the base if the exponent is odd. -/
theorem powf_sign {x y m : Nat} (hx : b32.neg x = true) (hf : Math.Spec.Finite b32 y) (h0 : b32.abs y ≠ 0) (hw : Whole b32 y)
    (h : powUnsigned (b32.opp x) y = some m) (hm : m < 2 ^ 31) :
    (OddWhole b32 y → powf x y = some (m + 0x80000000)) ∧ (¬ OddWhole b32 y → powf x y = some m) := by
  have hs : size b32 y ≠ 0 := fun e => h0 (Fmt.mag_eq_zero.1 e)
  have hd := (whole_iff hf).1 hw
  rw [powf_neg h0 hx ((rint_whole ok32 hf).2 hd), h, Option.map_some]
  have k := half_whole hf hs hd
  refine ⟨fun ho => ?_, fun ho => ?_⟩
  · rw [if_neg (by rw [k]; exact not_not.2 ho), or_sign hm]
  · rw [if_pos (k.2 ho), Nat.or_zero]

theorem rint_inf {y : Nat} (h : b32.abs y = b32.inf) : b32.eq (b32.rint y) y = true := by
  unfold Fmt.rint
  rw [if_neg (by unfold Fmt.isFin; simp [h])]
  exact (Math.eq_self_iff y).2 h.le

theorem half_inf {y : Nat} (h : b32.abs y = b32.inf) : Arith.fdiv b32 y 0x40000000 = b32.pack (b32.neg y) b32.inf := by
  unfold Arith.fdiv
  rw [if_neg (by rw [Fmt.isNaN_false.2 h.le]; decide), if_neg (by unfold Fmt.isFin; simp [h]), if_pos (by decide), show b32.neg 0x40000000 = false by decide, Bool.bne_false]

theorem powf_neg_inf {x y : Nat} (hx : b32.neg x = true) (h : b32.abs y = b32.inf) : powf x y = powUnsigned (b32.opp x) y := by
  rw [powf_neg (by rw [h]; decide) hx (rint_inf h), half_inf h, if_pos (rint_inf (Fmt.abs_pack Fmt.inf_lt))]
  cases powUnsigned (b32.opp x) y <;> simp

/-- Infinite exponents: the sign of the base does not matter. -/
theorem powf_inf {x y : Nat} (hp : Pat b32 x) (h : b32.abs y = b32.inf) : powf x y = powUnsigned (b32.abs x) y := by
  have e := Fmt.pack_self (F := b32) hp
  cases hn : b32.neg x
  · rw [hn] at e
    rw [powf_plain (by rw [h]; decide) (Or.inl hn)]
    congr 1
    simpa [Fmt.pack] using e.symm
  · rw [powf_neg_inf hn h]
    unfold Fmt.opp
    rw [hn]
    simp [Fmt.pack]

end Verif.Approx
