import Verif.Cplx.Lemmas

/-! # Complex multiplication -/

namespace Verif.Cplx
open Verif.Float

variable {F : Fmt}

theorem left_iff {a b : Nat} : (isInf F a || isInf F b) = true ↔ F.abs a = F.inf ∨ F.abs b = F.inf := by
  rw [Bool.or_eq_true, isInf_iff, isInf_iff]

theorem scrub_inf (o : F.Ok) (x : Nat) : F.abs (scrub F x) = F.inf ↔ F.abs x = F.inf := by
  obtain ⟨h1, h2⟩ := scrub_class o x
  have hp := Fmt.inf_pos o
  rcases Nat.lt_or_ge F.inf (F.abs x) with h | h
  · rw [h1 h]; omega
  · rw [h2 h]

theorem box_nonzero (o : F.Ok) {a b : Nat} (h : F.abs a = F.inf ∨ F.abs b = F.inf) : F.abs (box F a) ≠ 0 ∨ F.abs (box F b) ≠ 0 :=
  h.imp (box_unit o a).2.1 (box_unit o b).2.1

theorem scrub_fin (o : F.Ok) {x : Nat} (h : F.abs x ≤ F.inf) : scrub F x = x := (scrub_class o x).2 h

theorem product_big (o : F.Ok) {a b c d : Nat} (h : (F.abs a = F.inf ∨ F.abs b = F.inf) ∨ F.abs c = F.inf ∨ F.abs d = F.inf) :
    Big F (product F a b c d).1 ∧ Big F (product F a b c d).2 := by
  have e : ∀ {x : Nat}, F.abs x = F.inf → Big F x := fun h => by unfold Big; omega
  unfold product
  rcases h with (h | h) | h | h
  · exact ⟨sub_big o (Or.inl (mul_big o (Or.inl (e h)))), add_big o (Or.inl (mul_big o (Or.inl (e h))))⟩
  · exact ⟨sub_big o (Or.inr (mul_big o (Or.inl (e h)))), add_big o (Or.inr (mul_big o (Or.inl (e h))))⟩
  · exact ⟨sub_big o (Or.inl (mul_big o (Or.inr (e h)))), add_big o (Or.inr (mul_big o (Or.inr (e h))))⟩
  · exact ⟨sub_big o (Or.inr (mul_big o (Or.inr (e h)))), add_big o (Or.inl (mul_big o (Or.inr (e h))))⟩

theorem inf_abs : F.abs F.inf = F.inf := Fmt.abs_of_lt Fmt.inf_lt

/-- Infinite or finite and not zero. -/
def Ample (F : Fmt) (a b : Nat) : Prop :=
  (F.abs a = F.inf ∨ F.abs b = F.inf) ∨ (F.abs a < F.inf ∧ F.abs b < F.inf ∧ (F.abs a ≠ 0 ∨ F.abs b ≠ 0))

theorem big_not_nan {x : Nat} (h : Big F x) (hn : ¬ F.isNaN x = true) : F.abs x = F.inf := by
  rw [Fmt.isNaN_iff] at hn; unfold Big at h; omega

theorem cmul_inf (o : F.Ok) {a b c d : Nat} (h1 : (F.abs a = F.inf ∨ F.abs b = F.inf) ∨ F.abs c = F.inf ∨ F.abs d = F.inf)
    (hab : Ample F a b) (hcd : Ample F c d) :
    F.abs (cmul F a b c d).1 = F.inf ∨ F.abs (cmul F a b c d).2 = F.inf := by
  obtain ⟨b1, b2⟩ := product_big o h1
  unfold cmul
  by_cases hn : F.isNaN (product F a b c d).1 ∧ F.isNaN (product F a b c d).2
  swap
  · simp only [if_neg hn]
    by_cases hx : F.isNaN (product F a b c d).1 = true
    · exact Or.inr (big_not_nan b2 (fun hy => hn ⟨hx, hy⟩))
    · exact Or.inl (big_not_nan b1 hx)
  simp only [if_pos hn]
  have ub := fun x => (box_unit o x).1
  have ubf : ∀ x, scrub F (box F x) = box F x := fun x => scrub_fin o (Nat.le_of_lt (ub x).1)
  by_cases hl : (isInf F a || isInf F b) = true
  · rw [hl]
    simp only [if_true, Bool.true_or]
    rw [left_iff] at hl
    by_cases hr : (isInf F (scrub F c) || isInf F (scrub F d)) = true
    · rw [hr]
      simp only [if_true, ubf]
      rw [left_iff] at hr
      exact scale_some o inf_abs (product_some o (Or.inl ⟨ub a, ub b, (ub _).1, (ub _).1⟩) (box_nonzero o hl) (box_nonzero o hr)).1
    · rw [Bool.not_eq_true] at hr
      rw [hr]
      simp only [Bool.false_eq_true, if_false]
      have hr' : ¬ (F.abs c = F.inf ∨ F.abs d = F.inf) := by
        intro h
        rw [← scrub_inf o c, ← scrub_inf o d, ← left_iff, hr] at h
        exact absurd h (by decide)
      rcases hcd with h | ⟨h1, h2, h3⟩
      · exact absurd h hr'
      · rw [scrub_fin o (Nat.le_of_lt h1), scrub_fin o (Nat.le_of_lt h2)]
        exact scale_some o inf_abs (product_some o (Or.inl ⟨ub a, ub b, h1, h2⟩) (box_nonzero o hl) h3).1
  · have hl' : ¬ (F.abs a = F.inf ∨ F.abs b = F.inf) := fun h => hl (left_iff.2 h)
    rw [Bool.not_eq_true] at hl
    rw [hl]
    simp only [Bool.false_eq_true, if_false, Bool.false_or]
    have hr : (isInf F c || isInf F d) = true := by rw [left_iff]; exact h1.resolve_left hl'
    rw [hr]
    simp only [if_true]
    rw [left_iff] at hr
    rcases hab with h | ⟨h1, h2, h3⟩
    · exact absurd h hl'
    · rw [scrub_fin o (Nat.le_of_lt h1), scrub_fin o (Nat.le_of_lt h2)]
      exact scale_some o inf_abs (product_some o (Or.inr ⟨h1, h2, ub c, ub d⟩) h3 (box_nonzero o hr)).1

end Verif.Cplx
