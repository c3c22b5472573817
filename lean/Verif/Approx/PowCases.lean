import Verif.Approx.PropsLog
import Verif.Approx.PowSign

/-! # The special cases of `powf` -/

namespace Verif.Approx
open Verif.Float Verif.Approx.Spec
open Verif.Math.Spec (Pat absOf negative size value NaN Infinite)

theorem eq_one {x : Nat} (hp : Pat b32 x) : b32.eq x 0x3F800000 = true ↔ x = 0x3F800000 := by
  constructor
  · intro h
    have hn : b32.abs x ≤ b32.inf := by
      by_contra c
      unfold Fmt.eq at h
      rw [Fmt.isNaN_iff.2 (not_le.1 c)] at h
      simp at h
    rw [Fmt.eq_iff hn (by decide)] at h
    have e := Fmt.pack_self (F := b32) hp
    have h1 : b32.val 0x3F800000 = b32.mag 0x3F800000 := by decide +kernel
    have h2 : 0 < b32.mag 0x3F800000 := by decide +kernel
    rw [h1] at h
    unfold Fmt.val at h
    cases hs : b32.neg x
    · rw [hs] at e h
      simp only [Bool.false_eq_true, if_false] at h
      have : b32.abs x = 0x3F800000 := Fmt.mag_inj b32 (by exact_mod_cast h)
      rw [this] at e
      exact e.symm
    · rw [hs] at h
      simp only [if_true] at h
      exfalso
      omega
  · rintro rfl
    decide

theorem neg_of {x : Nat} (hp : Pat b32 x) : b32.neg x = true ↔ negative b32 x := Fmt.neg_iff hp

theorem neg_of' {x : Nat} (hp : Pat b32 x) : b32.neg x = false ↔ ¬ negative b32 x := by rw [← neg_of hp]; simp

theorem opp_of {x : Nat} (hp : Pat b32 x) (hn : negative b32 x) : b32.opp x = absOf b32 x := by
  unfold Fmt.opp
  rw [(neg_of hp).2 hn]
  simp [Fmt.pack, Fmt.abs, absOf]

theorem abs_of {x : Nat} (hn : ¬ negative b32 x) : absOf b32 x = x := by
  unfold negative at hn
  exact Nat.mod_eq_of_lt (not_le.1 hn)

theorem add_nan {x y : Nat} (h : b32.inf < b32.abs x ∨ b32.inf < b32.abs y) : b32.add x y = b32.nan := by
  unfold Fmt.add
  rw [if_pos]
  simpa [Fmt.isNaN] using h

theorem unsigned_nan {x y : Nat} (hp : Pat b32 x) (h1 : x ≠ 0x3F800000) (h : b32.inf < b32.abs x ∨ b32.inf < b32.abs y) : powUnsigned x y = some b32.nan := by
  unfold powUnsigned
  rw [if_neg (by rw [eq_one hp]; exact h1), if_pos (by simpa [Fmt.isNaN] using h), add_nan h]

theorem abs_pat {x : Nat} : Pat b32 (absOf b32 x) := by
  have : absOf b32 x < b32.signBit := Nat.mod_lt _ (by decide)
  unfold Pat
  omega

theorem not_nan_or {x y : Nat} (hx : b32.abs x ≤ b32.inf) (hy : b32.abs y ≤ b32.inf) : ¬ (b32.isNaN x = true ∨ b32.isNaN y = true) := by
  rw [Fmt.isNaN_iff, Fmt.isNaN_iff]; omega

theorem unsigned_zero {x y : Nat} (hx : b32.abs x = 0) (hy : b32.abs y ≤ b32.inf) : powUnsigned x y = some (if b32.neg y then b32.inf else 0) := by
  unfold powUnsigned
  have h1 : ¬ b32.eq x 0x3F800000 = true := by
    rw [Fmt.eq_iff (by rw [hx]; exact Nat.zero_le _) (by decide)]
    unfold Fmt.val
    rw [hx, b32.mag_zero]
    have : 0 < b32.mag (b32.abs 0x3F800000) := by decide +kernel
    rw [show b32.neg 0x3F800000 = false by decide]
    split <;> simp <;> omega
  rw [if_neg h1, if_neg (not_nan_or (by rw [hx]; exact Nat.zero_le _) hy), if_pos (eq_zero.2 hx)]

theorem unsigned_inf {x y : Nat} (hp : Pat b32 x) (hx : b32.abs x = b32.inf) (hy : b32.abs y ≤ b32.inf) :
    powUnsigned x y = some (if b32.neg y then 0 else b32.inf) := by
  unfold powUnsigned
  have h1 : ¬ b32.eq x 0x3F800000 = true := by
    rw [eq_one hp]; rintro rfl; revert hx; decide
  rw [if_neg h1, if_neg (not_nan_or hx.le hy), if_neg (by rw [eq_zero, hx]; decide), if_pos hx]

theorem unsigned_neg {x y : Nat} (hp : Pat b32 x) (hn : negative b32 x) (h0 : b32.abs x ≠ 0) (hx : b32.abs x < b32.inf) (hy : b32.abs y ≤ b32.inf) :
    powUnsigned x y = some b32.nan := by
  unfold powUnsigned
  have h1 : ¬ b32.eq x 0x3F800000 = true := by
    rw [eq_one hp]; rintro rfl; revert hn; decide
  rw [if_neg h1, if_neg (not_nan_or hx.le hy), if_neg (by rw [eq_zero]; exact h0), if_neg (by omega), if_pos ((neg_of hp).2 hn)]

theorem unsigned_core {x y : Nat} (h0 : 0 < x) (hx : x < b32.inf) (h1 : x ≠ 0x3F800000) (hy : b32.abs y ≤ b32.inf) : powUnsigned x y = powCore (wide x) (wide y) := by
  have hi : b32.inf < b32.signBit := by decide
  have ha : b32.abs x = x := Nat.mod_eq_of_lt (by omega)
  have hp : Pat b32 x := by unfold Pat; omega
  unfold powUnsigned
  rw [if_neg (by rw [eq_one hp]; exact h1), if_neg (not_nan_or (by omega) hy), if_neg (by rw [eq_zero]; omega), if_neg (by omega), if_neg]
  rw [neg_of hp]
  unfold negative
  omega

theorem unsigned_one {y : Nat} : powUnsigned 0x3F800000 y = some 0x3F800000 := by
  unfold powUnsigned
  rw [if_pos (by decide)]

/-- A positive float as a double. -/
theorem wide_pos {x : Nat} (h0 : 0 < x) (hx : x < b32.inf) : 2 ^ 52 ≤ wide x ∧ wide x < b64.inf ∧ R b64 (wide x) = R b32 x ∧ 0 < R b32 x := by
  obtain ⟨f1, f2⟩ := R_pos h0 hx
  obtain ⟨w1, w2, w3, -⟩ := wideR f1
  have hi := pos_pattern w1 w3 (by rw [w2]; exact f2)
  have h1 : R b32 1 = 1 / 2 ^ 149 := by
    rw [(R32_pat (by decide)).2, show b32.mag 1 = 1 by decide, show b32.unit = 149 from rfl, Nat.cast_one]
  have h2 := R32_mono (show 1 ≤ x from h0) hx
  have k := lit_pos (x := 0x36A0000000000000) (E := 874) (m := 2 ^ 52) (k := 201) (by norm_num) (by norm_num) (by norm_num) (by norm_num)
  have h3 : 0x36A0000000000000 ≤ wide x := le_pattern (by decide) hi (by
    rw [k.2, w2]
    refine le_trans ?_ h2
    rw [h1]
    norm_num)
  exact ⟨by omega, hi, w2, f2⟩

theorem not_whole_rint {y : Nat} (hf : Math.Spec.Finite b32 y) (h : ¬ Whole b32 y) : b32.eq (b32.rint y) y = false := by
  rw [← Bool.not_eq_true, rint_whole ok32 hf, ← whole_iff hf]
  exact h

theorem odd_whole {y : Nat} (h : OddWhole b32 y) : Whole b32 y := ⟨h.1, by obtain ⟨k, hk⟩ := h.2; exact ⟨2 * k + 1, hk⟩⟩

open Classical in
/-- The sign of results, for all bases whose magnitude is settled. -/
theorem powf_signed {x y m : Nat} (hp : Pat b32 x) (hy : ¬ NaN b32 y) (h0 : ¬ Math.Spec.Zero b32 y) (h : powUnsigned (absOf b32 x) y = some m)
    (h' : negative b32 x → ¬ Whole b32 y → powUnsigned x y = some m) (hm : m < 2 ^ 31) :
    powf x y = some (if negative b32 x ∧ OddWhole b32 y then m + 0x80000000 else m) := by
  have hz : b32.abs y ≠ 0 := h0
  by_cases hn : negative b32 x
  · by_cases hf : Math.Spec.Finite b32 y
    · by_cases hw : Whole b32 y
      · obtain ⟨k1, k2⟩ := powf_sign ((neg_of hp).2 hn) hf hz hw (by rw [opp_of hp hn]; exact h) hm
        by_cases ho : OddWhole b32 y
        · rw [if_pos ⟨hn, ho⟩]; exact k1 ho
        · rw [if_neg (fun c => ho c.2)]; exact k2 ho
      · rw [if_neg (fun c => hw (odd_whole c.2)), powf_plain hz (Or.inr (not_whole_rint hf hw))]
        exact h' hn hw
    · have hi : b32.abs y = b32.inf := by
        unfold Math.Spec.Finite at hf
        unfold NaN at hy
        change absOf b32 y = _
        omega
      rw [if_neg (fun c => hf c.2.1), powf_inf hp hi]
      exact h
  · rw [if_neg (fun c => hn c.1), powf_plain hz (Or.inl ((neg_of' hp).2 hn))]
    rwa [abs_of hn] at h

theorem zero_eq {x : Nat} (hp : Pat b32 x) (h : Math.Spec.Zero b32 x) : (negative b32 x ∧ x = 0x80000000) ∨ (¬ negative b32 x ∧ x = 0) := by
  have h1 : b32.signBit = 0x80000000 := rfl
  unfold Pat at hp
  unfold Math.Spec.Zero absOf at h
  unfold negative
  rw [h1] at hp h ⊢
  omega

theorem inf_eq {x : Nat} (hp : Pat b32 x) (h : Math.Spec.Infinite b32 x) : (negative b32 x ∧ x = 0xFF800000) ∨ (¬ negative b32 x ∧ x = 0x7F800000) := by
  have h1 : b32.signBit = 0x80000000 := rfl
  have h2 : b32.inf = 0x7F800000 := rfl
  unfold Pat at hp
  unfold Math.Spec.Infinite absOf at h
  unfold negative
  rw [h1] at hp h ⊢
  rw [h2] at h
  omega

/-! ### Infinite exponents -/

theorem wide_inf {y : Nat} (h : b32.abs y = b32.inf) : wide y = b64.pack (b32.neg y) b64.inf := by
  unfold wide Fmt.conv
  rw [if_neg (by rw [Fmt.isNaN_false.2 h.le]; decide), if_neg (by unfold Fmt.isFin; simp [h])]

theorem mul_inf {l : Nat} {s : Bool} (hl : Fin b64 l) (h0 : R b64 l ≠ 0) : b64.mul l (b64.pack s b64.inf) = b64.pack (b64.neg l != s) b64.inf := by
  have ha : b64.abs (b64.pack s b64.inf) = b64.inf := Fmt.abs_pack Fmt.inf_lt
  have hn : b64.neg (b64.pack s b64.inf) = s := Fmt.neg_pack Fmt.inf_lt
  have hz : b64.abs l ≠ 0 := fun e => h0 (R_abs0 e)
  unfold Fmt.mul
  rw [if_neg (by rw [Fmt.not_nan_of_fin hl, Fmt.isNaN_false.2 ha.le]; decide), if_neg (by unfold Fmt.isFin; simp [ha]),
    if_neg (by rw [ha]; simp only [not_or]; exact ⟨hz, by decide⟩), hn]

theorem sign_of {l : Nat} (h : 0 < R b64 l) : b64.neg l = false := by
  cases e : b64.neg l
  · rfl
  · exfalso
    rw [R_sign, e] at h
    simp at h
    linarith [abs_nonneg (R b64 l)]

theorem sign_of' {l : Nat} (h : R b64 l < 0) : b64.neg l = true := by
  cases e : b64.neg l
  · exfalso
    rw [R_sign, e] at h
    simp at h
    linarith [abs_nonneg (R b64 l)]
  · rfl

theorem core_inf {x l : Nat} {s : Bool} (h : log2Fast x = some l) (hl : Fin b64 l) (h0 : R b64 l ≠ 0) :
    powCore x (b64.pack s b64.inf) = some (if b64.neg l != s then 0 else b32.inf) := by
  unfold powCore
  rw [h, Option.bind_some, mul_inf hl h0]
  dsimp only
  cases (b64.neg l != s)
  · rw [if_pos (by decide +kernel)]; rfl
  · rw [if_neg (by decide +kernel), if_pos (by decide +kernel)]; rfl

/-- The sign of the logarithm. -/
theorem log_sign {l : Nat} {L : ℝ} (h : Rel l L (40 / 2 ^ 53)) : (0 < L → 0 < R b64 l) ∧ (L < 0 → R b64 l < 0) := by
  have e := h.err
  refine ⟨fun hL => ?_, fun hL => ?_⟩
  · rw [abs_of_pos hL] at e
    have := abs_le.1 e
    norm_num at *
    linarith
  · rw [abs_of_neg hL] at e
    have := abs_le.1 e
    norm_num at *
    linarith

end Verif.Approx
