import Verif.Cplx.SqrtLemmas

/-! # Signs, special values of the square root and division by powers of two -/

namespace Verif.Cplx
open Verif.Float Verif.Math
open Verif.Arith (fdiv)

variable {F : Fmt}

theorem opp_pack {s : Bool} {r : Nat} (h : r < F.signBit) : F.opp (F.pack s r) = F.pack (!s) r := by
  unfold Fmt.opp; rw [Fmt.abs_pack h, Fmt.neg_pack h]

/-- Equal up to the sign, or both NaNs. -/
def Opp (F : Fmt) (a b : Nat) : Prop := b = F.opp a ∨ (F.isNaN a = true ∧ F.isNaN b = true)

theorem isNaN_opp (x : Nat) : F.isNaN (F.opp x) = F.isNaN x := by unfold Fmt.isNaN; rw [Fmt.abs_opp]
theorem isFin_opp (x : Nat) : F.isFin (F.opp x) = F.isFin x := by unfold Fmt.isFin; rw [Fmt.abs_opp]
theorem isInf_opp (x : Nat) : isInf F (F.opp x) = isInf F x := by unfold isInf; rw [Fmt.abs_opp]

theorem mul_opp (o : F.Ok) (c y : Nat) : Opp F (F.mul c y) (F.mul c (F.opp y)) := by
  have hn := nan_of (nan_abs o)
  have hi := Fmt.inf_lt (F := F)
  unfold Opp Fmt.mul
  rw [isNaN_opp, isFin_opp, Fmt.abs_opp, Fmt.neg_opp]
  by_cases h1 : F.isNaN c = true ∨ F.isNaN y = true
  · simp only [if_pos h1]; exact Or.inr ⟨hn, hn⟩
  · simp only [if_neg h1]
    have e : (F.neg c != !F.neg y) = !(F.neg c != F.neg y) := by cases F.neg c <;> cases F.neg y <;> rfl
    by_cases h2 : F.isFin c = true ∧ F.isFin y = true
    · simp only [if_pos h2]
      have hr := rnd_le (F := F) (F.mag (F.abs c) * F.mag (F.abs y)) (2 ^ F.unit) (Nat.two_pow_pos _)
      rw [opp_pack (by omega), e]; exact Or.inl rfl
    · simp only [if_neg h2]
      by_cases h3 : F.abs c = 0 ∨ F.abs y = 0
      · simp only [if_pos h3]; exact Or.inr ⟨hn, hn⟩
      · simp only [if_neg h3]
        rw [opp_pack hi, e]; exact Or.inl rfl

theorem mul_opp_opp (y : Nat) : F.mul (F.opp y) (F.opp y) = F.mul y y := by
  unfold Fmt.mul
  rw [isNaN_opp, isFin_opp, Fmt.abs_opp, Fmt.neg_opp]
  simp

theorem fdiv_opp (o : F.Ok) {y y' s : Nat} (h : Opp F y y') : Opp F (fdiv F y s) (fdiv F y' s) := by
  have hn := nan_of (nan_abs o)
  have hi := Fmt.inf_lt (F := F)
  have hp := Fmt.inf_pos o
  rcases h with h | ⟨h1, h2⟩
  · subst h
    unfold Opp fdiv
    rw [isNaN_opp, isFin_opp, Fmt.abs_opp, Fmt.neg_opp]
    have e : ((!F.neg y) != F.neg s) = !(F.neg y != F.neg s) := by cases F.neg s <;> cases F.neg y <;> rfl
    by_cases h1 : F.isNaN y = true ∨ F.isNaN s = true
    · simp only [if_pos h1]; exact Or.inr ⟨hn, hn⟩
    · simp only [if_neg h1]
      by_cases h2 : F.isFin y = true
      · simp only [if_pos h2]
        by_cases h3 : F.isFin s = true
        · simp only [if_pos h3]
          by_cases h4 : F.abs s = 0
          · simp only [if_pos h4]
            by_cases h5 : F.abs y = 0
            · simp only [if_pos h5]; exact Or.inr ⟨hn, hn⟩
            · simp only [if_neg h5]; rw [opp_pack hi, e]; exact Or.inl rfl
          · simp only [if_neg h4]
            have hr := rnd_le (F := F) (F.mag (F.abs y) * 2 ^ F.unit) (F.mag (F.abs s)) (Fmt.mag_pos (Nat.pos_of_ne_zero h4))
            rw [opp_pack (by omega), e]; exact Or.inl rfl
        · simp only [if_neg h3]; rw [opp_pack Fmt.signBit_pos, e]; exact Or.inl rfl
      · simp only [if_neg h2]
        by_cases h3 : F.isFin s = true
        · simp only [if_pos h3]; rw [opp_pack hi, e]; exact Or.inl rfl
        · simp only [if_neg h3]; exact Or.inr ⟨hn, hn⟩
  · exact Or.inr ⟨div_nan o (Or.inr (Or.inl h1)), div_nan o (Or.inr (Or.inl h2))⟩

theorem opp_abs {a b : Nat} (h : Opp F a b) : F.abs b = F.abs a ∨ (F.isNaN a = true ∧ F.isNaN b = true) := by
  rcases h with h | h
  · left; rw [h, Fmt.abs_opp]
  · exact Or.inr h

theorem copysign_opp (x y : Nat) : F.copysign x (F.opp y) = F.opp (F.copysign x y) := by
  unfold Fmt.copysign
  rw [Fmt.neg_opp, opp_pack (Fmt.abs_lt _)]

theorem isNaN_abs (x : Nat) : F.isNaN (F.abs x) = F.isNaN x := by unfold Fmt.isNaN; rw [Fmt.abs_abs]

theorem eq_opp_zero (y : Nat) : F.eq (F.opp y) 0 = F.eq y 0 := by
  have e0 : F.abs 0 = 0 := Fmt.abs_of_lt Fmt.signBit_pos
  by_cases h : F.abs y ≤ F.inf
  · rw [Bool.eq_iff_iff, Fmt.eq_iff (by rwa [Fmt.abs_opp]) (by rw [e0]; omega), Fmt.eq_iff h (by rw [e0]; omega), Fmt.val_opp, val_zero_iff.2 e0]; omega
  · have hn : F.isNaN y = true := nan_of (by omega)
    unfold Fmt.eq; rw [isNaN_opp, hn]; simp

/-- Same number, or both NaNs. -/
def Same (F : Fmt) (a b : Nat) : Prop := a = b ∨ (F.isNaN a = true ∧ F.isNaN b = true)

theorem sub_self_opp (o : F.Ok) (y : Nat) : Same F (F.sub y y) (F.sub (F.opp y) (F.opp y)) := by
  have hn := nan_of (nan_abs o)
  by_cases h : F.abs y < F.inf
  · left
    unfold Fmt.sub
    have ho : F.abs (F.opp y) < F.inf := by rwa [Fmt.abs_opp]
    have hoo : F.abs (F.opp (F.opp y)) < F.inf := by rwa [Fmt.abs_opp]
    rw [Fmt.add_fin h ho, Fmt.add_fin ho hoo, Fmt.val_opp (F.opp y), Fmt.val_opp y, Fmt.neg_opp (F.opp y), Fmt.neg_opp y]
    have e1 : F.val y + -F.val y = 0 := by omega
    have e2 : -F.val y + - -F.val y = 0 := by omega
    rw [e1, e2]
    cases F.neg y <;> rfl
  · right
    have key : ∀ z, ¬ F.abs z < F.inf → F.isNaN (F.sub z z) = true := by
      intro z h
      unfold Fmt.sub Fmt.add
      rw [isNaN_opp, isFin_opp, Fmt.neg_opp]
      by_cases h1 : F.isNaN z = true
      · rw [if_pos (Or.inl h1)]; exact hn
      · rw [if_neg (by simpa using h1), if_neg (by rw [Fmt.isFin_iff]; exact h), if_neg]
        · exact hn
        · rw [Fmt.isFin_iff]; cases F.neg z <;> simp [h]
    exact ⟨key y h, key _ (by rwa [Fmt.abs_opp])⟩

/-- Square roots of conjugates. -/
theorem csqrt_conj (x y : Nat) : Same b64 (csqrt (x, y)).1 (csqrt (x, b64.opp y)).1 ∧ Opp b64 (csqrt (x, y)).2 (csqrt (x, b64.opp y)).2 := by
  unfold csqrt
  simp only [eq_opp_zero, isInf_opp]
  by_cases h1 : b64.eq x 0 = true ∧ b64.eq y 0 = true
  · simp only [if_pos h1]; exact ⟨Or.inl rfl, Or.inl rfl⟩
  simp only [if_neg h1]
  by_cases h2 : isInf b64 y = true
  · simp only [if_pos h2]; exact ⟨Or.inl rfl, Or.inl rfl⟩
  simp only [if_neg h2]
  by_cases h3 : b64.eq x b64.inf = true
  · simp only [if_pos h3]; exact ⟨Or.inl rfl, mul_opp ok64 _ _⟩
  simp only [if_neg h3]
  by_cases h4 : b64.eq x (b64.opp b64.inf) = true
  · simp only [if_pos h4]; exact ⟨sub_self_opp ok64 y, Or.inl (copysign_opp _ _)⟩
  simp only [if_neg h4]
  unfold csqrtFinite
  simp only [mul_opp_opp]
  generalize fsqrt b64 (b64.mul 0x3FE0000000000000 (b64.add (b64.abs x) (fsqrt b64 (b64.add (b64.mul x x) (b64.mul y y))))) = s
  have ht := fdiv_opp ok64 (s := s) (mul_opp ok64 0x3FE0000000000000 y)
  by_cases h5 : b64.neg x = true
  · simp only [if_pos h5]
    refine ⟨?_, Or.inl (copysign_opp _ _)⟩
    rcases opp_abs ht with h | ⟨h, h'⟩
    · exact Or.inl h.symm
    · exact Or.inr ⟨by rw [isNaN_abs]; exact h, by rw [isNaN_abs]; exact h'⟩
  · simp only [if_neg h5]; exact ⟨Or.inl rfl, ht⟩

theorem neg_nan (o : F.Ok) : F.neg F.nan = false := by
  apply Fmt.neg_of_lt
  unfold Fmt.nan
  have h1 := Fmt.inf_add (F := F)
  have h2 := o.f
  have : 2 ^ (F.f - 1) < 2 ^ F.f := Nat.pow_lt_pow_right (by omega) (by omega)
  omega

theorem neg_add (o : F.Ok) {x y : Nat} (hx : F.neg x = false) (hy : F.neg y = false) : F.neg (F.add x y) = false := by
  have hi := Fmt.inf_lt (F := F)
  unfold Fmt.add
  by_cases h1 : F.isNaN x = true ∨ F.isNaN y = true
  · rw [if_pos h1]; exact neg_nan o
  rw [if_neg h1]
  by_cases h2 : F.isFin x = true
  · rw [if_pos h2]
    by_cases h3 : F.isFin y = true
    · rw [if_pos h3, hx, hy]
      have v1 := Fmt.val_nonneg hx
      have v2 := Fmt.val_nonneg hy
      unfold Fmt.rndInt
      split
      · rw [Fmt.neg_pack Fmt.signBit_pos]; rfl
      · have hr := rnd_le (F := F) (F.val x + F.val y).natAbs 1 (by omega)
        rw [Fmt.neg_pack (by omega)]
        exact decide_eq_false (by omega)
    · rw [if_neg h3]; exact hy
  · rw [if_neg h2]
    split
    · exact hx
    · exact neg_nan o

theorem neg_mul (o : F.Ok) {x y : Nat} (h : F.neg x = F.neg y) : F.neg (F.mul x y) = false := by
  have hi := Fmt.inf_lt (F := F)
  unfold Fmt.mul
  have e : (F.neg x != F.neg y) = false := by rw [h]; simp
  rw [e]
  by_cases h1 : F.isNaN x = true ∨ F.isNaN y = true
  · rw [if_pos h1]; exact neg_nan o
  rw [if_neg h1]
  by_cases h2 : F.isFin x = true ∧ F.isFin y = true
  · rw [if_pos h2]
    have hr := rnd_le (F := F) (F.mag (F.abs x) * F.mag (F.abs y)) (2 ^ F.unit) (Nat.two_pow_pos _)
    exact Fmt.neg_pack (by omega)
  · rw [if_neg h2]
    split
    · exact neg_nan o
    · exact Fmt.neg_pack hi

theorem neg_fsqrt (o : F.Ok) (hw : F.f + 2 * F.bias + F.unit ≤ 2 ^ F.w + 2 ^ F.w) {x : Nat} (h : F.neg x = false) : F.neg (fsqrt F x) = false := by
  unfold fsqrt
  split
  · exact neg_nan o
  split
  · exact h
  split
  · exact neg_nan o
  split
  · rename_i h0 _ h4
    rw [Fmt.isFin_iff] at h4
    exact Fmt.neg_of_lt (Nat.lt_trans (rootPat_lt o hw h4 (Nat.pos_of_ne_zero h0)).2 Fmt.inf_lt)
  · exact h

/-- The real part of a square root is not negative. -/
theorem csqrt_half (x y : Nat) : b64.neg (csqrt (x, y)).1 = false ∨ b64.isNaN (csqrt (x, y)).1 = true := by
  unfold csqrt
  simp only
  split
  · left; rw [ofInt_zero]; exact Fmt.neg_of_lt Fmt.signBit_pos
  split
  · left; show b64.neg b64.inf = false; decide
  split
  · rename_i _ _ h
    by_cases hn : b64.isNaN x = true
    · exact Or.inr hn
    · left
      have hx : b64.abs x ≤ b64.inf := Fmt.isNaN_false.1 (by simpa using hn)
      have h' := (Fmt.eq_iff hx (by rw [inf_abs])).1 h
      rw [Fmt.val_of_lt Fmt.inf_lt] at h'
      have : 0 < b64.mag b64.inf := Fmt.mag_pos (Fmt.inf_pos ok64)
      by_contra hc
      have hneg : b64.neg x = true := by simpa using hc
      unfold Fmt.val at h'
      rw [if_pos hneg] at h'
      generalize b64.mag b64.inf = I at *
      generalize b64.mag (b64.abs x) = X at *
      omega
  split
  · by_cases h : b64.abs y < b64.inf
    · left
      unfold Fmt.sub
      rw [Fmt.add_fin h (by rwa [Fmt.abs_opp]), Fmt.val_opp, Fmt.neg_opp]
      have e1 : b64.val y + -b64.val y = 0 := by omega
      rw [e1]
      cases b64.neg y
      · show b64.neg (b64.rndInt (false && !false) 0) = false; decide
      · show b64.neg (b64.rndInt (true && !true) 0) = false; decide
    · have := sub_self_opp ok64 y
      right
      have hn := nan_of (nan_abs ok64)
      unfold Fmt.sub Fmt.add
      rw [isNaN_opp, isFin_opp, Fmt.neg_opp]
      by_cases h1 : b64.isNaN y = true
      · rw [if_pos (Or.inl h1)]; exact hn
      · rw [if_neg (by simpa using h1), if_neg (by rw [Fmt.isFin_iff]; exact h), if_neg]
        · exact hn
        · rw [Fmt.isFin_iff]; cases b64.neg y <;> simp [h]
  · left
    unfold csqrtFinite
    simp only
    split
    · exact Fmt.neg_abs _
    · exact neg_fsqrt ok64 (by decide) (neg_mul ok64 (by
        rw [neg_add ok64 (Fmt.neg_abs _) (neg_fsqrt ok64 (by decide) (neg_add ok64 (neg_mul ok64 rfl) (neg_mul ok64 rfl)))]; decide))

/-! ### NaNs -/

theorem add_nan (o : F.Ok) {x y : Nat} (h : F.isNaN x = true ∨ F.isNaN y = true) : F.isNaN (F.add x y) = true := by
  unfold Fmt.add; rw [if_pos h]; exact nan_of (nan_abs o)

theorem mul_nan (o : F.Ok) {x y : Nat} (h : F.isNaN x = true ∨ F.isNaN y = true) : F.isNaN (F.mul x y) = true := by
  unfold Fmt.mul; rw [if_pos h]; exact nan_of (nan_abs o)

theorem fsqrt_nan (o : F.Ok) {x : Nat} (h : F.isNaN x = true) : F.isNaN (fsqrt F x) = true := by
  unfold fsqrt; rw [if_pos h]; exact nan_of (nan_abs o)

theorem csqrt_nan {x y : Nat} (h : b64.isNaN x = true ∨ b64.isNaN y = true) (hx : b64.abs x ≠ b64.inf) (hy : b64.abs y ≠ b64.inf) :
    b64.isNaN (csqrt (x, y)).1 = true ∧ b64.isNaN (csqrt (x, y)).2 = true := by
  have e : ∀ v, b64.abs v = b64.inf → b64.eq x v = false := by
    intro v hv
    by_cases hn : b64.isNaN x = true
    · unfold Fmt.eq; rw [hn]; simp
    · rw [← Bool.not_eq_true, Fmt.eq_iff (Fmt.isNaN_false.1 (by simpa using hn)) (by omega)]
      intro hc
      have := congrArg Int.natAbs hc
      rw [Fmt.natAbs_val, Fmt.natAbs_val, hv] at this
      have h1 := (Fmt.mag_le_iff (F := b64)).1 (Nat.le_of_eq this)
      have h2 := (Fmt.mag_le_iff (F := b64)).1 (Nat.le_of_eq this.symm)
      omega
  unfold csqrt
  simp only
  rw [if_neg, if_neg (by rw [isInf_iff]; exact hy), e _ inf_abs, e _ (by rw [Fmt.abs_opp, inf_abs]), if_neg (by decide), if_neg (by decide)]
  · unfold csqrtFinite
    have hs : b64.isNaN (fsqrt b64 (b64.mul 0x3FE0000000000000 (b64.add (b64.abs x) (fsqrt b64 (b64.add (b64.mul x x) (b64.mul y y)))))) = true :=
      fsqrt_nan ok64 (mul_nan ok64 (Or.inr (add_nan ok64 (Or.inr (fsqrt_nan ok64 (add_nan ok64 (h.imp (fun h => mul_nan ok64 (Or.inl h)) (fun h => mul_nan ok64 (Or.inl h)))))))))
    simp only
    generalize fsqrt b64 (b64.mul 0x3FE0000000000000 (b64.add (b64.abs x) (fsqrt b64 (b64.add (b64.mul x x) (b64.mul y y))))) = s at *
    have ht := div_nan ok64 (x := b64.mul 0x3FE0000000000000 y) (Or.inr (Or.inr (Or.inl hs)))
    split
    · refine ⟨by rw [isNaN_abs]; exact ht, ?_⟩
      rw [Fmt.isNaN_iff] at hs ⊢
      rw [abs_copysign]; exact hs
    · exact ⟨hs, ht⟩
  · rintro ⟨h1, h2⟩
    rcases h with h | h
    · unfold Fmt.eq at h1; rw [h] at h1; simp at h1
    · unfold Fmt.eq at h2; rw [h] at h2; simp at h2

/-! ### Division by a power of two -/

theorem pow_split {k : Int} {u : Nat} (h : 0 ≤ k + u) : 2 ^ (k + u).toNat * 2 ^ (-k).toNat = 2 ^ (- -k).toNat * 2 ^ u := by
  rw [← Nat.pow_add, ← Nat.pow_add]; congr 1; omega

theorem exponent_unique {k k' : Int} {u M : Nat} (h : 0 ≤ k + u) (h' : 0 ≤ k' + u) (hM : M = 2 ^ (k + u).toNat) (h1 : 2 ^ (k' + u).toNat ≤ M) (h2 : M < 2 ^ (k' + u + 1).toNat) : k' = k := by
  rw [hM] at h1 h2
  rw [Nat.pow_le_pow_iff_right (by omega)] at h1
  rw [Nat.pow_lt_pow_iff_right (by omega)] at h2
  omega

theorem dec_neg {v : Int} (h : v ≠ 0) : decide (-v + 0 < 0) = (decide (v < 0) != true) := by
  rcases Int.lt_or_gt_of_ne h with h | h
  · rw [decide_eq_true h, decide_eq_false (by omega)]; rfl
  · rw [decide_eq_false (show ¬ v < 0 by omega), decide_eq_true (by omega)]; rfl

/-- A number times plus or minus one, plus a zero, divided by one and scaled. -/
theorem quotient_part {w a p q one : Nat} {n : Int} (hone : one < b64.inf) (hmag : b64.mag one = 2 ^ b64.unit) (ha : b64.abs a < b64.inf)
    (hp : b64.abs p < b64.inf) (hq : b64.abs q < b64.inf) (hv : b64.val p = if w = 0 then b64.val a else -b64.val a) (hz : b64.val q = 0) :
    ∃ x, scalbn (fdiv b64 (b64.add p q) one) n = some x ∧ x < 2 * b64.signBit ∧ b64.abs x = b64.rnd (b64.mag (b64.abs a) * 2 ^ n.toNat) (2 ^ (-n).toNat) ∧
      (b64.abs a ≠ 0 → b64.neg x = (b64.neg a != decide (w ≠ 0))) := by
  have hi := Fmt.inf_lt (F := b64)
  have hU := Nat.two_pow_pos b64.unit
  have hone0 : 0 < b64.mag one := by rw [hmag]; exact hU
  have hone1 : one ≠ 0 := fun h => by rw [h, Fmt.mag_zero] at hone0; exact absurd hone0 (Nat.lt_irrefl 0)
  have hna := Fmt.natAbs_val (F := b64) a
  have hk : b64.mag (b64.abs a) = (b64.val p + b64.val q).natAbs := by
    rw [hv, hz]; split <;> omega
  have hsum := Fmt.add_exact hp hq (Nat.le_of_lt ha) hk
  generalize hs : (if b64.val p + b64.val q = 0 then b64.neg p && b64.neg q else decide (b64.val p + b64.val q < 0)) = s at hsum
  have hdiv : fdiv b64 (b64.add p q) one = b64.pack s (b64.abs a) := by
    have ho := Fmt.abs_of_lt (Nat.lt_trans hone hi)
    have hpa : b64.abs (b64.pack s (b64.abs a)) = b64.abs a := Fmt.abs_pack (Fmt.abs_lt a)
    rw [hsum]
    unfold fdiv
    rw [if_neg (by rw [Fmt.isNaN_iff, Fmt.isNaN_iff, ho, hpa]; omega), if_pos (by rw [Fmt.isFin_iff, hpa]; exact ha), if_pos (by rw [Fmt.isFin_iff, ho]; exact hone),
      if_neg (by rw [ho]; exact hone1), hpa, ho, Fmt.neg_pack (Fmt.abs_lt a), Fmt.neg_of_lt (Nat.lt_trans hone hi), Bool.bne_false, hmag,
      rnd_exact hU (Nat.le_of_lt ha) (Nat.mul_comm _ _)]
  have hpa : b64.abs (b64.pack s (b64.abs a)) = b64.abs a := Fmt.abs_pack (Fmt.abs_lt a)
  rw [hdiv]
  by_cases h0 : b64.abs a = 0
  · obtain ⟨x, e1, -, e2⟩ := scalbn_total (b64.pack s (b64.abs a)) n
    have e2 := e2 (by rw [hpa, h0])
    refine ⟨x, e1, ?_, ?_, fun h => absurd h0 h⟩
    · rw [e2]; exact Fmt.pack_lt (Fmt.abs_lt a)
    · rw [e2, hpa, h0, Fmt.mag_zero, Nat.zero_mul, rnd_zero ok64 (Nat.two_pow_pos _)]
  · have e := scalbn_eq (x := b64.pack s (b64.abs a)) n (by rw [hpa]; exact Nat.pos_of_ne_zero h0) (by rw [hpa]; exact ha)
    rw [hpa, Fmt.neg_pack (Fmt.abs_lt a)] at e
    have hr := rnd_le (F := b64) (b64.mag (b64.abs a) * 2 ^ n.toNat) (2 ^ (-n).toNat) (Nat.two_pow_pos _)
    have hr' := Nat.lt_of_le_of_lt hr hi
    refine ⟨_, e, Fmt.pack_lt hr', Fmt.abs_pack hr', fun _ => ?_⟩
    rw [Fmt.neg_pack hr', ← hs]
    have hva : b64.val a ≠ 0 := fun h => h0 (val_zero_iff.1 h)
    have hsg : b64.neg a = decide (b64.val a < 0) := by
      have hm : 0 < b64.mag (b64.abs a) := Fmt.mag_pos (Nat.pos_of_ne_zero h0)
      unfold Fmt.val
      cases b64.neg a
      · simp
      · simp; exact hm
    rw [hv, hz, hsg]
    by_cases hw : w = 0
    · rw [if_pos hw, if_neg (by omega)]; simp [hw]
    · rw [if_neg hw, if_neg (by omega), dec_neg hva, decide_eq_true hw]

theorem divdc3_pow {a b c d : Nat} {k : Int} (ha : b64.abs a < b64.inf) (hb : b64.abs b < b64.inf) (hc : b64.abs c < b64.inf) (hd : b64.abs d = 0)
    (hk : 0 ≤ k + b64.unit) (hm : b64.mag (b64.abs c) = 2 ^ (k + b64.unit).toNat) :
    ∃ z, divdc3 a b c d = some z ∧
      (z.1 < 2 * b64.signBit ∧ b64.abs z.1 = b64.rnd (b64.mag (b64.abs a) * 2 ^ (-k).toNat) (2 ^ (- -k).toNat) ∧ (b64.abs a ≠ 0 → b64.neg z.1 = (b64.neg a != b64.neg c))) ∧
      z.2 < 2 * b64.signBit ∧ b64.abs z.2 = b64.rnd (b64.mag (b64.abs b) * 2 ^ (-k).toNat) (2 ^ (- -k).toNat) ∧ (b64.abs b ≠ 0 → b64.neg z.2 = (b64.neg b != b64.neg c)) := by
  have hi := Fmt.inf_lt (F := b64)
  have hp := Fmt.inf_pos ok64
  have hU := Nat.two_pow_pos b64.unit
  have hc0 : b64.abs c ≠ 0 := by
    intro h
    rw [h, Fmt.mag_zero] at hm
    exact absurd hm (Nat.ne_of_lt (Nat.two_pow_pos _))
  obtain ⟨k', c', d', l, e, hc', hd', ⟨x1, x2, x3⟩, -⟩ := div_finite a b hc (by rw [hd]; exact hp) (Or.inl hc0)
  have hmax : b64.abs (max (b64.abs c) (b64.abs d)) = b64.abs c := by rw [hd, Nat.max_zero, Fmt.abs_abs]
  rw [size_eq, hmax] at x2 x3
  have hkk := exponent_unique hk x1 hm x2 x3
  subst hkk
  obtain ⟨one, -, o1, o2⟩ := one_pat ok64
  have ec : c' = b64.pack (b64.neg c) one := by
    have e1 := scalbn_eq (-k') (Nat.pos_of_ne_zero hc0) hc
    rw [hc', hm, rnd_exact (n := one) (Nat.two_pow_pos _) (Nat.le_of_lt o1) (by rw [o2]; exact pow_split hk)] at e1
    exact Option.some.inj e1
  have ed : d' = d := by
    obtain ⟨r, h1, -, h2⟩ := scalbn_total d (-k')
    rw [hd'] at h1
    rw [Option.some.inj h1]; exact h2 hd
  subst ec ed
  have ho1 : one < b64.signBit := Nat.lt_trans o1 hi
  have hoabs : b64.abs (b64.pack (b64.neg c) one) = one := Fmt.abs_pack ho1
  have uc : Unit b64 (b64.pack (b64.neg c) one) := ⟨by rw [hoabs]; exact o1, Or.inr (by rw [hoabs]; exact o2)⟩
  have ud : Unit b64 d' := ⟨by rw [hd]; exact hp, Or.inl (by rw [hd]; exact Fmt.mag_zero b64)⟩
  have hone0 : 0 < one := by
    rcases Nat.eq_zero_or_pos one with h | h
    · rw [h, Fmt.mag_zero] at o2; exact absurd o2 (Nat.ne_of_lt hU)
    · exact h
  have hden : b64.add (b64.mul (b64.pack (b64.neg c) one) (b64.pack (b64.neg c) one)) (b64.mul d' d') = one := by
    have : b64.mul (b64.pack (b64.neg c) one) (b64.pack (b64.neg c) one) = one := by
      rw [Fmt.mul_fin uc.1 uc.1, hoabs, rnd_exact (n := one) hU (Nat.le_of_lt o1) (by rw [o2]), show (∀ t : Bool, (t != t) = false) from by decide, pack_false]
    rw [this, add_square_zero o1 hone0 hd]
  obtain ⟨⟨f1, f2, f3, f4⟩, v1, v2, v3, v4⟩ := four (F := b64) (Or.inr ⟨ha, hb, uc, ud⟩)
  have hU' : (0 : Int) < 2 ^ b64.unit := Int.pow_pos (by decide)
  have hvd : b64.val d' = 0 := val_zero_iff.2 hd
  rw [hvd, Int.mul_zero] at v2 v3
  have z2 : b64.val (b64.mul b d') = 0 := (Int.mul_eq_zero.1 v2).resolve_right (Int.ne_of_gt hU')
  have z3 : b64.val (b64.mul a d') = 0 := (Int.mul_eq_zero.1 v3).resolve_right (Int.ne_of_gt hU')
  have z3' : b64.val (b64.opp (b64.mul a d')) = 0 := by rw [Fmt.val_opp, z3]; rfl
  have hvc : b64.val (b64.pack (b64.neg c) one) = if b64.neg c = true then -(2 ^ b64.unit : Int) else 2 ^ b64.unit := by
    rw [Fmt.val_pack ho1, o2]; push_cast; rfl
  have part : ∀ {v : Nat}, b64.val (b64.mul v (b64.pack (b64.neg c) one)) * 2 ^ b64.unit = b64.val v * b64.val (b64.pack (b64.neg c) one) →
      b64.val (b64.mul v (b64.pack (b64.neg c) one)) = if (if b64.neg c = true then 1 else 0) = 0 then b64.val v else -b64.val v := by
    intro v hv
    rw [hvc] at hv
    apply Int.eq_of_mul_eq_mul_right (Int.ne_of_gt hU')
    rw [hv]
    cases b64.neg c <;> simp
  have dw : decide ((if b64.neg c = true then 1 else 0) ≠ 0) = b64.neg c := by cases b64.neg c <;> simp
  obtain ⟨x, ex, px, ax, sx⟩ := quotient_part (n := -k') o1 o2 ha f1 f2 (part v1) z2
  obtain ⟨y, ey, py, ay, sy⟩ := quotient_part (n := -k') o1 o2 hb f4 (by rw [Fmt.abs_opp]; exact f3) (part v4) z3'
  refine ⟨(x, y), ?_, ⟨px, ax, ?_⟩, py, ay, ?_⟩
  · rw [e]
    unfold divScaled
    simp only [hden]
    unfold numerator Fmt.sub
    simp only [ex, ey, Option.bind_eq_bind, Option.bind_some]
    unfold recover
    rw [if_neg]
    rintro ⟨h1, -⟩
    rw [Fmt.isNaN_iff, ax] at h1
    exact absurd h1 (Nat.not_lt.2 (rnd_le (F := b64) _ _ (Nat.two_pow_pos _)))
  · intro h; rw [sx h, dw]
  · intro h; rw [sy h, dw]

end Verif.Cplx
