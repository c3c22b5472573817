import Verif.Quad.Sum

/-! # Comparison of `long double` numbers; products of special values -/

namespace Verif.Quad
open Verif.Float Verif.Int128 Verif.Math Verif.Math.Spec Verif.Quad.Spec

theorem abs128 (x : Nat) : b128.abs x = x % 2 ^ 127 := rfl

theorem isnanl_iff (x : Nat) : isnanl x ↔ NaN b128 x := by
  show _ ↔ b128.inf < b128.abs x
  unfold isnanl
  rw [abs128, inf128]
  omega

theorem unordtf2_iff (x y : Nat) : unordtf2 x y ≠ 0 ↔ NaN b128 x ∨ NaN b128 y := by
  unfold unordtf2 bit
  rw [← isnanl_iff, ← isnanl_iff]
  split
  · next h => exact ⟨fun _ => h, fun _ => by omega⟩
  · next h => exact ⟨fun g => absurd rfl g, fun g => absurd g h⟩

theorem both_zero (x y : Nat) : (x ||| y) * 2 % 2 ^ 128 = 0 ↔ b128.abs x = 0 ∧ b128.abs y = 0 := by
  rw [show (2 ^ 128 : Nat) = 2 ^ 127 * 2 by decide, Nat.mul_mod_mul_right, Nat.or_mod_two_pow, abs128, abs128]
  have h1 : x % 2 ^ 127 ≤ (x % 2 ^ 127 ||| y % 2 ^ 127) := Nat.left_le_or
  have h2 : y % 2 ^ 127 ≤ (x % 2 ^ 127 ||| y % 2 ^ 127) := Nat.right_le_or
  constructor
  · intro h; omega
  · rintro ⟨e1, e2⟩; rw [e1, e2]; rfl

/-- The signed integer of a pattern. -/
theorem toS_pat {x : Nat} (h : Pat b128 x) : toS x = if b128.neg x then (b128.abs x : Int) - 2 ^ 127 else (b128.abs x : Int) := by
  have h' : x < 2 ^ 128 := h
  have hn := Fmt.neg_iff (F := b128) h
  rw [sign128] at hn
  rw [abs128]
  unfold toS
  rw [Nat.mod_eq_of_lt h']
  cases hb : b128.neg x
  · rw [hb] at hn; simp at hn
    rw [if_pos hn]; simp; omega
  · rw [hb] at hn; simp at hn
    rw [if_neg (by omega), if_pos rfl]; omega

theorem abs_lt (x : Nat) : b128.abs x < 2 ^ 127 := Nat.mod_lt _ (Nat.two_pow_pos 127)

theorem idx_eq {x y : Nat} (hx : Pat b128 x) (hy : Pat b128 y) : b128.idx x = b128.idx y ↔ x = y ∨ (b128.abs x = 0 ∧ b128.abs y = 0) := by
  have px := Fmt.pack_self (F := b128) hx
  have py := Fmt.pack_self (F := b128) hy
  constructor
  · intro h
    unfold Fmt.idx at h
    cases e1 : b128.neg x <;> cases e2 : b128.neg y <;> simp only [e1, e2, if_true, Bool.false_eq_true, if_false] at h
    · left; rw [← px, ← py, e1, e2]; congr 1; omega
    · right; omega
    · right; omega
    · left; rw [← px, ← py, e1, e2]; congr 1; omega
  · rintro (rfl | ⟨h1, h2⟩)
    · rfl
    · rw [(Fmt.idx_zero x).2 h1, (Fmt.idx_zero y).2 h2]

theorem eqtf2_iff {x y : Nat} (hx : Pat b128 x) (hy : Pat b128 y) : eqtf2 x y = 0 ↔ Same x y := by
  have h0 := both_zero x y
  have hi := idx_eq hx hy
  unfold Same
  rw [value_eq hx, value_eq hy, Fmt.val_eq_idx, hi]
  unfold eqtf2 bit
  have nx : NaN b128 x ↔ b128.inf < b128.abs x := Iff.rfl
  have ny : NaN b128 y ↔ b128.inf < b128.abs y := Iff.rfl
  have hp : 0 < b128.inf := by rw [inf128]; omega
  split
  · next h =>
    rw [isnanl_iff, Ne, Ne, h0] at h
    refine ⟨fun g => by omega, fun g => ?_⟩
    exfalso
    rcases g.2.2 with e | e
    · rcases h.1 with h1 | h1
      · exact h1 e
      · exact g.1 h1
    · exact h.2 e
  · next h =>
    rw [isnanl_iff, Ne, Ne, h0] at h
    refine ⟨fun _ => ?_, fun _ => rfl⟩
    by_cases hz : b128.abs x = 0 ∧ b128.abs y = 0
    · exact ⟨by rw [nx]; omega, by rw [ny]; omega, .inr hz⟩
    · have h1 : x = y ∧ ¬ NaN b128 x := by
        refine ⟨Decidable.byContradiction fun c => h ⟨.inl c, hz⟩, fun c => h ⟨.inr c, hz⟩⟩
      exact ⟨h1.2, h1.1 ▸ h1.2, .inl h1.1⟩

theorem cmptf2'_eq {x y : Nat} (hx : Pat b128 x) (hy : Pat b128 y) (u : Int) :
    (NaN b128 x ∨ NaN b128 y → cmptf2' x y u = u) ∧ (Less x y → cmptf2' x y u = -1) ∧ (Same x y → cmptf2' x y u = 0) ∧
      (Less y x → cmptf2' x y u = 1) := by
  have h0 := both_zero x y
  have hu := unordtf2_iff x y
  have nx : NaN b128 x ↔ b128.inf < b128.abs x := Iff.rfl
  have ny : NaN b128 y ↔ b128.inf < b128.abs y := Iff.rfl
  have ex := toS_pat hx
  have ey := toS_pat hy
  have lx := abs_lt x
  have ly := abs_lt y
  unfold Less Same cmptf2'
  simp only
  rw [value_eq hx, value_eq hy, Fmt.val_eq_idx, Fmt.val_lt_idx, Fmt.val_lt_idx]
  by_cases hz : (x ||| y) * 2 % 2 ^ 128 = 0
  · rw [if_pos hz]
    have hz' := h0.1 hz
    rw [(Fmt.idx_zero x).2 hz'.1, (Fmt.idx_zero y).2 hz'.2, nx, ny, hz'.1, hz'.2]
    simp
  rw [if_neg hz]
  rw [h0] at hz
  by_cases hn : unordtf2 x y ≠ 0
  · rw [if_pos hn]
    rw [hu] at hn
    refine ⟨fun _ => rfl, ?_, ?_, ?_⟩
    all_goals
      rintro ⟨h1, h2, _⟩
      rcases hn with hn | hn
      · first | exact absurd hn h1 | exact absurd hn h2
      · first | exact absurd hn h1 | exact absurd hn h2
  rw [if_neg hn]
  rw [hu] at hn
  refine ⟨fun h => absurd h hn, ?_⟩
  unfold xorSign bit Fmt.idx
  rw [ex, ey]
  clear hu h0 hn nx ny ex ey hx hy
  generalize b128.abs x = A at *
  generalize b128.abs y = B at *
  cases b128.neg x <;> cases b128.neg y <;> simp only [if_true, Bool.false_eq_true, if_false] <;>
    refine ⟨fun h => ?_, fun h => ?_, fun h => ?_⟩ <;> obtain ⟨-, -, h⟩ := h <;>
    repeat' split
  all_goals omega

/-! ### Products of special values -/

theorem multf3_of {x y m : Nat} (h : mulMagnitude (b128.abs x) (b128.abs y) = some m) (hm : m < 2 ^ 127) :
    multf3 x y = some (b128.pack (b128.neg x != b128.neg y) m) := by
  unfold multf3
  rw [← abs128, ← abs128, h, Option.bind_some, or_sign_xor hm]

theorem nan_pack {s : Bool} {m : Nat} (h1 : b128.inf < m) (h2 : m < 2 ^ 127) : NaN b128 (b128.pack s m) := by
  show b128.inf < b128.abs _
  rw [Fmt.abs_pack h2]; exact h1

theorem or_quiet {m : Nat} (h : b128.inf ≤ m) (h2 : m < 2 ^ 127) : b128.inf < (m ||| 2 ^ 111) ∧ (m ||| 2 ^ 111) < 2 ^ 127 := by
  have := or_nan (a := m) (by rw [abs128, Nat.mod_eq_of_lt h2]; exact h)
  have h3 : (m ||| 2 ^ 111) < 2 ^ 127 := Nat.or_lt_two_pow h2 (by decide)
  refine ⟨?_, h3⟩
  have e : b128.inf < b128.abs (m ||| 2 ^ 111) := this
  rw [abs128, Nat.mod_eq_of_lt h3] at e
  exact e

theorem or_bit_quiet {m : Nat} {p : Prop} [Decidable p] : (m ||| bit p * 2 ^ 111) = if p then m ||| 2 ^ 111 else m := by
  unfold bit
  split <;> simp

theorem multf3_nan {x y : Nat} (h : NaN b128 x ∨ NaN b128 y ∨ (Infinite b128 x ∧ Zero b128 y) ∨ (Zero b128 x ∧ Infinite b128 y)) :
    ∃ r, multf3 x y = some r ∧ NaN b128 r := by
  have h' : b128.inf < b128.abs x ∨ b128.inf < b128.abs y ∨ (b128.abs x = b128.inf ∧ b128.abs y = 0) ∨ (b128.abs x = 0 ∧ b128.abs y = b128.inf) := h
  have lx := abs_lt x
  have ly := abs_lt y
  have hp : 0 < b128.inf := by rw [inf128]; omega
  have : ∃ m, mulMagnitude (b128.abs x) (b128.abs y) = some m ∧ b128.inf < m ∧ m < 2 ^ 127 := by
    unfold mulMagnitude
    simp only
    rw [← inf128]
    by_cases c : b128.inf ≤ b128.abs x
    · rw [if_pos c, or_bit_quiet]
      refine ⟨_, rfl, ?_⟩
      obtain ⟨q1, q2⟩ := or_quiet c lx
      split
      · exact ⟨q1, q2⟩
      · next hc =>
        refine ⟨?_, lx⟩
        rw [inf128] at *
        omega
    · rw [if_neg c, if_pos (by omega), or_bit_quiet]
      refine ⟨_, rfl, ?_⟩
      obtain ⟨q1, q2⟩ := or_quiet (m := b128.abs y) (by omega) ly
      split
      · exact ⟨q1, q2⟩
      · exact ⟨by omega, ly⟩
  obtain ⟨m, h1, h2, h3⟩ := this
  exact ⟨_, multf3_of h1 h3, nan_pack h2 h3⟩

theorem multf3_inf {x y : Nat} (h : (Infinite b128 x ∧ ¬ NaN b128 y ∧ ¬ Zero b128 y) ∨ (Infinite b128 y ∧ ¬ NaN b128 x ∧ ¬ Zero b128 x)) :
    multf3 x y = some (b128.pack (b128.neg x != b128.neg y) b128.inf) := by
  have h' : (b128.abs x = b128.inf ∧ ¬ b128.inf < b128.abs y ∧ ¬ b128.abs y = 0) ∨ (b128.abs y = b128.inf ∧ ¬ b128.inf < b128.abs x ∧ ¬ b128.abs x = 0) := h
  refine multf3_of ?_ inf_lt_sign
  unfold mulMagnitude
  simp only
  rw [← inf128]
  have hi := inf128
  by_cases c : b128.inf ≤ b128.abs x
  · rw [if_pos c, or_bit_quiet, if_neg (by omega)]
    congr 1; omega
  · rw [if_neg c, if_pos (by omega), or_bit_quiet, if_neg (by omega)]
    congr 1; omega

end Verif.Quad
