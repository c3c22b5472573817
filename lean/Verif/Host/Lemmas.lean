import Verif.Host.Spec
import Verif.Wasi.Props
import Verif.Math.Bridge
import Verif.Cplx.Lemmas

/-! # Lemmas on clocks, file attributes and time differences -/

namespace Verif.Host

open Verif.Float

theorem s64_small {n : Nat} (h : n < 2 ^ 63) : s64 n = n := by unfold s64; rw [if_pos (by omega)]; omega
theorem s32_small {n : Nat} (h : n < 2 ^ 31) : s32 n = n := by unfold s32; rw [if_pos (by omega)]; omega

theorem seconds_timespec (t : Nat) (h : t < 2 ^ 64) : Seconds t (s64 (t / 1000000000), s32 (t % 1000000000)) := by
  unfold Seconds
  rw [s64_small (by omega), s32_small (by omega)]
  simp only
  omega

theorem seterrno_errnoFor {e : Nat} (h0 : 0 < e) (he : e < Wasi.wasiNames.length) : ∃ n, Wasi.seterrno e = some n ∧ ErrnoFor e n := by
  obtain ⟨n, h1, _, h2⟩ := Wasi.C52_errno_partial e _ (List.getElem?_eq_getElem he)
  exact ⟨n, h1, _, List.getElem?_eq_getElem he, h2 (by omega)⟩

theorem diff_general {F : Fmt} (o : F.Ok) (a b : Int) (ha : a.natAbs ≤ 2 ^ (F.f + 1)) (hb : b.natAbs ≤ 2 ^ (F.f + 1))
    (hF : 2 ^ (F.f + 1) * 2 ^ F.unit < F.mag F.inf) : RoundsInt F (a - b) (F.sub (F.ofInt a) (F.ofInt b)) := by
  have key : ∀ k : Int, k.natAbs ≤ 2 ^ (F.f + 1) → F.abs (F.ofInt k) < F.inf ∧ F.val (F.ofInt k) = k * 2 ^ F.unit := by
    intro k hk
    have h0 : k.natAbs * 2 ^ F.unit ≤ 2 ^ (F.f + 1) * 2 ^ F.unit := Nat.mul_le_mul_right _ hk
    obtain ⟨h1, h2⟩ := Math.ofInt_exact o hk (by omega)
    rw [Math.value_eq h1] at h2
    refine ⟨?_, h2⟩
    apply Fmt.mag_lt_iff.1
    have h3 : F.mag (F.abs (F.ofInt k)) = (F.val (F.ofInt k)).natAbs := by unfold Fmt.val; split <;> omega
    rw [h3, h2, Int.natAbs_mul, Int.natAbs_pow]
    exact Nat.lt_of_le_of_lt h0 hF
  obtain ⟨a1, a2⟩ := key a ha
  obtain ⟨b1, b2⟩ := key b hb
  unfold Fmt.sub
  rw [Fmt.add_fin a1 (by rwa [Fmt.abs_opp]), Fmt.val_opp, Fmt.neg_opp, a2, b2, ← Int.sub_eq_add_neg, ← Int.sub_mul]
  unfold RoundsInt Fmt.rndInt
  have hU : (0 : Int) < 2 ^ F.unit := Int.pow_pos (by decide)
  by_cases h : a = b
  · subst h
    refine ⟨0, ?_, ?_⟩
    · rw [Int.sub_self]
      simp only [Int.natAbs_zero, Nat.zero_mul]
      have := rnd_nearest (F := F) 0 1 (by omega)
      rwa [rnd_zero 1 (by omega)] at this
    · rw [if_pos (by rw [Int.sub_self, Int.zero_mul]), Int.sub_self, Bool.and_not_self]
      rfl
  · refine ⟨F.rnd ((a - b).natAbs * 2 ^ F.unit) 1, rnd_nearest _ _ (by omega), ?_⟩
    rw [if_neg (Int.mul_ne_zero (by omega) (by omega)), Int.natAbs_mul, Int.natAbs_pow]
    unfold Fmt.pack
    congr 1
    have : (a - b) * 2 ^ F.unit < 0 ↔ a - b < 0 := by
      constructor
      · intro h'
        rcases Int.lt_or_le (a - b) 0 with hc | hc
        · exact hc
        · have := Int.mul_nonneg hc (Int.le_of_lt hU)
          omega
      · intro h'; exact Int.mul_neg_of_neg_of_pos h' hU
    simp only [this, decide_eq_true_eq]

theorem difftime_rounds (a b : Int) (ha : a.natAbs ≤ 2 ^ 53) (hb : b.natAbs ≤ 2 ^ 53) : RoundsInt b64 (a - b) (difftime a b) :=
  diff_general ok64 a b ha hb (by decide +kernel)

theorem one_not_zero {F : Fmt} (o : F.Ok) : ¬ RoundsInt F 1 0 := by
  rintro ⟨r, hr, h0⟩
  obtain ⟨k, _, hk, h1⟩ := Cplx.one_pat o
  rw [if_neg (by decide), Nat.zero_add] at h0
  subst h0
  have h2 := hr.best k (by omega)
  have h3 := Nat.two_pow_pos F.unit
  rw [h1, F.mag_zero] at h2
  simp only [dist, Int.natAbs_one] at h2
  omega

end Verif.Host
