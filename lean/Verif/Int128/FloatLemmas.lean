import Verif.Int128.Signed
import Verif.Int128.FloatModel
import Verif.Float.Lemmas

namespace Verif.Int128

open Verif.Float

theorem or64 (x : Nat) (h : x < 64) : 64 ||| x = 64 + x := by
  have := shl_or 1 x 6 h
  simpa using this

theorem clz128_eq (a : Nat) (h0 : a ≠ 0) (h : a < 2 ^ 128) : clz128 a = 127 - Nat.log2 a := by
  unfold clz128
  rw [Nat.shiftRight_eq_div_pow]
  obtain ⟨l1, l2⟩ := log2_bounds h0
  split
  · rename_i hz
    obtain ⟨m1, m2⟩ := log2_bounds hz
    have hl : Nat.log2 (a / 2 ^ 64) < 64 := log2_lt hz (by omega)
    have : Nat.log2 a = Nat.log2 (a / 2 ^ 64) + 64 := by
      apply log2_unique
      · rw [Nat.pow_add]; exact div_le_aux _ _ m1
      · rw [show Nat.log2 (a / 2 ^ 64) + 64 + 1 = (Nat.log2 (a / 2 ^ 64) + 1) + 64 by omega, Nat.pow_add]
        exact (Nat.div_lt_iff_lt_mul (by decide)).1 m2
    rw [this]; unfold clz64; omega
  · rename_i hz
    have hs : a < 2 ^ 64 := by omega
    rw [Nat.mod_eq_of_lt hs]
    have hl : Nat.log2 a < 64 := log2_lt h0 hs
    unfold clz64
    rw [or64 _ (by omega)]; omega

theorem both_eq (N k : Nat) :
    both N (2 ^ k) (2 ^ (k + 1) + 2 ^ k - 1) =
      if N % 2 ^ (k + 1) > 2 ^ k ∨ (N % 2 ^ (k + 1) = 2 ^ k ∧ N / 2 ^ (k + 1) % 2 = 1) then 1 else 0 := by
  unfold both
  have hp := Nat.two_pow_pos k
  have e1 : N &&& 2 ^ k = if N / 2 ^ k % 2 = 1 then 2 ^ k else 0 := and_two_pow N k
  have em : 2 ^ (k + 1) + 2 ^ k - 1 = 2 ^ (k + 1) ||| (2 ^ k - 1) := by
    have h := shl_or 1 (2 ^ k - 1) (k + 1) (by rw [Nat.pow_succ]; omega)
    rw [Nat.shiftLeft_eq, Nat.one_mul] at h
    rw [h]; omega
  have e2 : N &&& (2 ^ (k + 1) + 2 ^ k - 1) = (if N / 2 ^ (k + 1) % 2 = 1 then 2 ^ (k + 1) else 0) ||| N % 2 ^ k := by
    rw [em, Nat.and_or_distrib_left, and_mask, and_two_pow]
  have hor : ∀ a b : Nat, (a ||| b ≠ 0) ↔ (a ≠ 0 ∨ b ≠ 0) := by
    intro a b
    rw [Ne, Nat.or_eq_zero_iff]
    omega
  have hpp := Nat.two_pow_pos (k + 1)
  have c2 : (N &&& (2 ^ (k + 1) + 2 ^ k - 1)) ≠ 0 ↔ (N / 2 ^ (k + 1) % 2 = 1 ∨ N % 2 ^ k ≠ 0) := by
    rw [e2, hor]
    split <;> rename_i h
    · constructor
      · intro _; exact Or.inl h
      · intro _; left; omega
    · constructor
      · rintro (h | h)
        · exact absurd rfl h
        · exact Or.inr h
      · rintro (h' | h')
        · exact absurd h' h
        · exact Or.inr h'
  have c1 : (N &&& 2 ^ k) ≠ 0 ↔ N / 2 ^ k % 2 = 1 := by
    rw [e1]
    split <;> rename_i h
    · constructor
      · intro _; exact h
      · intro _; omega
    · constructor
      · intro h'; exact absurd rfl h'
      · intro h'; exact absurd h' h
  simp only [c1, c2]
  have d1 : N % 2 ^ (k + 1) = 2 ^ k * (N / 2 ^ k % 2) + N % 2 ^ k := by
    rw [Nat.pow_succ, Nat.mod_mul]; omega
  have hm : N % 2 ^ k < 2 ^ k := Nat.mod_lt _ hp
  rw [d1]
  have hq : N / 2 ^ k % 2 = 0 ∨ N / 2 ^ k % 2 = 1 := by omega
  generalize N % 2 ^ k = r at *
  generalize N / 2 ^ (k + 1) % 2 = t at *
  rcases hq with hq | hq <;> rw [hq]
  · rw [if_neg (by omega), if_neg (by omega)]
  · rw [Nat.mul_one]
    by_cases h : t = 1 ∨ r ≠ 0
    · rw [if_pos ⟨rfl, h⟩, if_pos (by omega)]
    · rw [if_neg (by omega), if_neg (by omega)]

/-- The common core of the conversions: pattern before the sign is added. -/
def conv (F : Fmt) (a : Nat) : Nat :=
  let N := a * 2 ^ (127 - Nat.log2 a)
  (F.bias + Nat.log2 a) * 2 ^ F.f + (N / 2 ^ (127 - F.f) - 2 ^ F.f) +
    both N (2 ^ (126 - F.f)) (2 ^ (127 - F.f) + 2 ^ (126 - F.f) - 1)

theorem norm_bounds (a : Nat) (h0 : a ≠ 0) (h : a < 2 ^ 128) :
    2 ^ 127 ≤ a * 2 ^ (127 - Nat.log2 a) ∧ a * 2 ^ (127 - Nat.log2 a) < 2 ^ 128 := by
  have hl := log2_lt h0 h
  obtain ⟨h1, h2⟩ := log2_bounds h0
  refine ⟨?_, ?_⟩
  · calc 2 ^ 127 = 2 ^ Nat.log2 a * 2 ^ (127 - Nat.log2 a) := by rw [← Nat.pow_add]; congr 1; omega
      _ ≤ _ := Nat.mul_le_mul_right _ h1
  · calc _ < 2 ^ (Nat.log2 a + 1) * 2 ^ (127 - Nat.log2 a) :=
          Nat.mul_lt_mul_of_pos_right h2 (Nat.two_pow_pos _)
      _ = 2 ^ 128 := by rw [← Nat.pow_add]; congr 1; omega

theorem conv_nearest (F : Fmt) (hf : 1 ≤ F.f) (hf' : F.f ≤ 112) (hw : F.bias + 129 ≤ 2 ^ F.w)
    (hu : 127 ≤ F.unit) (hb : 1 ≤ F.bias) (a : Nat) (h0 : a ≠ 0) (h : a < 2 ^ 128) :
    Nearest F (a * 2 ^ F.unit) 1 (conv F a) := by
  obtain ⟨n1, n2⟩ := norm_bounds a h0 h
  have hl := log2_lt h0 h
  unfold conv
  simp only
  generalize hlog : Nat.log2 a = l at *
  generalize hN : a * 2 ^ (127 - l) = N at *
  have hk : 127 - F.f = (126 - F.f) + 1 := by omega
  rw [hk, both_eq]
  have hP : 2 ^ (126 - F.f + 1) = 2 * 2 ^ (126 - F.f) := by rw [Nat.pow_succ]; omega
  have hpf : 2 ^ F.f * 2 ^ (126 - F.f + 1) = 2 ^ 127 := by rw [← Nat.pow_add]; congr 1; omega
  have hM1 : 2 ^ F.f ≤ N / 2 ^ (126 - F.f + 1) := by
    rw [Nat.le_div_iff_mul_le (Nat.two_pow_pos _), hpf]; exact n1
  have hM2 : N / 2 ^ (126 - F.f + 1) < 2 ^ (F.f + 1) := by
    rw [Nat.div_lt_iff_lt_mul (Nat.two_pow_pos _), Nat.pow_succ, Nat.mul_right_comm, hpf]; exact n2
  have hdm := Nat.div_add_mod N (2 ^ (126 - F.f + 1))
  have hrlt : N % 2 ^ (126 - F.f + 1) < 2 ^ (126 - F.f + 1) := Nat.mod_lt _ (Nat.two_pow_pos _)
  have hmag := F.mag_mk (F.bias + l) (N / 2 ^ (126 - F.f + 1)) (by omega) hM1 hM2
  have hsucc := F.mag_succ ((F.bias + l) * 2 ^ F.f + (N / 2 ^ (126 - F.f + 1) - 2 ^ F.f))
  have hfrac : N / 2 ^ (126 - F.f + 1) - 2 ^ F.f < 2 ^ F.f := by rw [Nat.pow_succ 2 F.f] at hM2; omega
  have hulp : F.ulp ((F.bias + l) * 2 ^ F.f + (N / 2 ^ (126 - F.f + 1) - 2 ^ F.f)) = 2 ^ (F.bias + l - 1) := by
    unfold Fmt.ulp
    rw [Nat.mul_comm (F.bias + l), Nat.mul_add_div (Nat.two_pow_pos _), Nat.div_eq_of_lt hfrac]
    simp
  rw [hmag, hulp] at hsucc
  have hexp : 2 ^ (F.bias + l - 1) = 2 * 2 ^ (126 - F.f) * 2 ^ (F.unit - (127 - l)) := by
    rw [← hP, ← Nat.pow_add]
    congr 1
    unfold Fmt.unit at *
    omega
  apply nearest_round (M := N / 2 ^ (126 - F.f + 1)) (c := 2 ^ (F.unit - (127 - l))) (by omega)
  · unfold Fmt.inf
    have : (F.bias + l) * 2 ^ F.f + 2 ^ F.f ≤ (2 ^ F.w - 1) * 2 ^ F.f := by
      rw [← Nat.succ_mul]
      apply Nat.mul_le_mul_right
      omega
    omega
  · rw [← hP]; exact hrlt
  · exact Nat.two_pow_pos _
  · rw [← hP, Nat.mul_comm (N / _), hdm, ← hN, Nat.mul_assoc, ← Nat.pow_add]
    congr 2; omega
  · rw [Nat.one_mul, hmag, hexp]
    simp only [Nat.mul_assoc]
  · rw [Nat.one_mul, hsucc, hexp, ← Nat.succ_mul]
    simp only [Nat.mul_assoc, Nat.succ_eq_add_one]
  · have hev : 2 ^ F.f % 2 = 0 := by
      rw [show F.f = (F.f - 1) + 1 by omega, Nat.pow_succ]; omega
    have hev2 : (F.bias + l) * 2 ^ F.f % 2 = 0 := by rw [Nat.mul_mod, hev]; simp
    omega

end Verif.Int128
