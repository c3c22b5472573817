import Verif.Math.Convert

/-!
# Operations on positive doubles and their errors
-/

namespace Verif.Printf

open Verif.Float Verif.Math

theorem dist_mul (a b c : Nat) : dist (a * c) (b * c) = dist a b * c := by
  unfold dist; rw [Nat.add_mul, Nat.sub_mul, Nat.sub_mul]

theorem dist_tri (a b c : Nat) : dist a c ≤ dist a b + dist b c := by unfold dist; omega

theorem dist_comm (a b : Nat) : dist a b = dist b a := by unfold dist; omega

/-- The absolute error of rounding a number below `2^j` units. -/
theorem rnd_close {F : Fmt} (num den j : Nat) (hd : 0 < den) (hj : F.f + 1 ≤ j) (hn : num ≤ den * 2 ^ j) (hi : 2 ^ j ≤ F.mag F.inf) :
    2 * dist num (den * F.mag (F.rnd num den)) ≤ den * 2 ^ (j - (F.f + 1)) := by
  have hJ : 2 ^ j = 2 ^ (F.f + 1) * 2 ^ (j - (F.f + 1)) := by rw [← Nat.pow_add]; congr 1; omega
  generalize hG : 2 ^ (j - (F.f + 1)) = G at *
  have hGp : 0 < G := by rw [← hG]; exact Nat.two_pow_pos _
  have hdG : 0 < den * G := Nat.mul_pos hd hGp
  have hc1 : (2 * num + den * G) / (2 * (den * G)) ≤ 2 ^ (F.f + 1) := by
    refine Nat.le_of_lt_succ ?_
    rw [Nat.div_lt_iff_lt_mul (by omega)]
    rw [hJ] at hn
    have : den * (2 ^ (F.f + 1) * G) = 2 ^ (F.f + 1) * (den * G) := by rw [Nat.mul_left_comm]
    rw [this] at hn
    rw [Nat.succ_mul (2 ^ (F.f + 1)), Nat.mul_left_comm (2 ^ (F.f + 1)) 2]
    generalize den * G = T at *
    generalize 2 ^ (F.f + 1) * T = S at *
    omega
  have hdm := Nat.div_add_mod (2 * num + den * G) (2 * (den * G))
  have hml := Nat.mod_lt (2 * num + den * G) (show 0 < 2 * (den * G) by omega)
  generalize (2 * num + den * G) / (2 * (den * G)) = c at *
  obtain ⟨s, s1, s2⟩ := Fmt.representable (F := F) (m := c) (e := j - (F.f + 1)) hc1 (by
    rw [hG]; exact Nat.le_trans (Nat.mul_le_mul_right G hc1) (by rw [← hJ]; exact hi))
  have hb := (rnd_nearest (F := F) num den hd).best s s1
  refine Nat.le_trans (Nat.mul_le_mul_left 2 hb) ?_
  rw [s2, hG]
  rw [show 2 * (den * G) * c = 2 * (den * (c * G)) by rw [Nat.mul_assoc, Nat.mul_assoc, Nat.mul_comm G c]] at hdm
  generalize den * (c * G) = Q at *
  generalize den * G = T at *
  generalize (2 * num + T) % (2 * T) = R at *
  unfold dist
  omega

/-- The relative error of rounding in the normal range. -/
theorem rnd_rel {F : Fmt} (num den : Nat) (hd : 0 < den) (hlo : den * 2 ^ F.f ≤ num) (hi : num ≤ den * F.mag F.inf) (o : F.Ok) :
    2 ^ (F.f + 1) * dist num (den * F.mag (F.rnd num den)) ≤ num := by
  -- the least power of two that is not below the number
  have hex : ∃ j, F.f + 1 ≤ j ∧ num ≤ den * 2 ^ j ∧ den * 2 ^ (j - 1) ≤ num ∧ 2 ^ j ≤ F.mag F.inf := by
    rw [Fmt.mag_inf o] at hi ⊢
    have hb := (Fmt.unit_eq o).2
    generalize hT : F.f + 2 * F.bias = T at *
    have key : ∀ t, F.f + t ≤ T → 1 ≤ t → num ≤ den * 2 ^ (F.f + t) → ∃ j, F.f + 1 ≤ j ∧ num ≤ den * 2 ^ j ∧ den * 2 ^ (j - 1) ≤ num ∧ 2 ^ j ≤ 2 ^ T := by
      intro t
      induction t with
      | zero => intro _ h; omega
      | succ t ih =>
        intro h1 _ h2
        by_cases h3 : num ≤ den * 2 ^ (F.f + t)
        · by_cases ht : t = 0
          · subst ht
            exact ⟨F.f + 1, Nat.le_refl _, h2, by simpa using hlo, Nat.pow_le_pow_right (by decide) (by omega)⟩
          · exact ih (by omega) (by omega) h3
        · exact ⟨F.f + (t + 1), by omega, h2, by
            rw [show F.f + (t + 1) - 1 = F.f + t by omega]; omega, Nat.pow_le_pow_right (by decide) (by omega)⟩
    exact key (2 * F.bias) (by omega) (by omega) (by rw [hT]; exact hi)
  obtain ⟨j, j1, j2, j3, j4⟩ := hex
  have h := rnd_close (F := F) num den j hd j1 j2 j4
  have e : den * 2 ^ (j - 1) * 2 = 2 ^ (F.f + 1) * (den * 2 ^ (j - (F.f + 1))) := by
    rw [Nat.mul_left_comm, ← Nat.pow_add, Nat.mul_assoc, ← Nat.pow_succ]; congr 2; omega
  have h2 := Nat.mul_le_mul_left (2 ^ (F.f + 1)) h
  rw [← e, Nat.mul_left_comm] at h2
  omega

theorem ofInt_nat (n : Nat) : b64.ofInt n = b64.rnd (n * 2 ^ b64.unit) 1 := by
  unfold Fmt.ofInt Fmt.rndInt
  have e : ((n : Int) * 2 ^ b64.unit) = ((n * 2 ^ b64.unit : Nat) : Int) := by simp
  rw [e]
  by_cases h : n * 2 ^ b64.unit = 0
  · rw [if_pos (by rw [h]; rfl), h, rnd_zero 1 (by decide)]; rfl
  · rw [if_neg (by omega), decide_eq_false (by omega), pack_false, Int.natAbs_natCast]

theorem ofInt_rep {n k : Nat} (hk : k ≤ b64.inf) (h : b64.mag k = n * 2 ^ b64.unit) : b64.ofInt n = k := by
  rw [ofInt_nat]; exact rnd_exact (by decide) hk (by rw [h, Nat.one_mul])

theorem whole_eq {x : Nat} (hx : x ≤ b64.inf) : b64.whole x = b64.mag x / 2 ^ b64.unit := by
  unfold Fmt.whole; rw [Fmt.abs_of_lt (Nat.lt_of_le_of_lt hx Fmt.inf_lt)]

theorem mul_eq {x y : Nat} (hx : x < b64.inf) (hy : y < b64.inf) : b64.mul x y = b64.rnd (b64.mag x * b64.mag y) (2 ^ b64.unit) := by
  have hx' := Nat.lt_trans hx Fmt.inf_lt
  have hy' := Nat.lt_trans hy Fmt.inf_lt
  have ax := Fmt.abs_of_lt hx'
  have ay := Fmt.abs_of_lt hy'
  unfold Fmt.mul
  rw [Fmt.not_nan_of_fin (by rwa [ax]), Fmt.not_nan_of_fin (by rwa [ay]), Fmt.isFin_iff.2 (by rwa [ax]), Fmt.isFin_iff.2 (by rwa [ay]),
    Fmt.neg_of_lt hx', Fmt.neg_of_lt hy', ax, ay]
  simp [pack_false]

theorem nearInt_spec (M u : Nat) : 2 * dist M (Fmt.nearInt M u * 2 ^ u) ≤ 2 ^ u ∧
    (2 * dist M (Fmt.nearInt M u * 2 ^ u) = 2 ^ u → Fmt.nearInt M u % 2 = 0) := by
  have hdm := Nat.div_add_mod M (2 ^ u)
  have hml := Nat.mod_lt M (Nat.two_pow_pos u)
  unfold Fmt.nearInt
  by_cases hc : 2 ^ u < 2 * (M % 2 ^ u) ∨ (2 ^ u = 2 * (M % 2 ^ u) ∧ M / 2 ^ u % 2 = 1)
  · rw [if_pos hc, Nat.add_mul, Nat.one_mul, Nat.mul_comm (M / 2 ^ u)]
    generalize hQ : 2 ^ u * (M / 2 ^ u) = Q at *
    generalize M / 2 ^ u = q at *
    generalize M % 2 ^ u = r at *
    generalize 2 ^ u = U at *
    unfold dist
    constructor <;> omega
  · rw [if_neg hc, Nat.mul_comm (M / 2 ^ u)]
    generalize hQ : 2 ^ u * (M / 2 ^ u) = Q at *
    generalize M / 2 ^ u = q at *
    generalize M % 2 ^ u = r at *
    generalize 2 ^ u = U at *
    unfold dist
    constructor <;> omega

theorem rint_whole {x : Nat} (hx : x < b64.inf) : b64.whole (b64.rint x) = Fmt.nearInt (b64.mag x) b64.unit := by
  have hx' := Nat.lt_trans hx Fmt.inf_lt
  obtain ⟨k, h1, h2, h3⟩ := rint_eq ok64 (x := x) (by rwa [Fmt.abs_of_lt hx'])
  rw [h1, Fmt.neg_of_lt hx', pack_false, whole_eq h2, h3, Fmt.abs_of_lt hx', Nat.mul_div_cancel _ (Nat.two_pow_pos _)]

/-- Exact subtraction. -/
theorem sub_pos {a b k : Nat} (ha : a < b64.inf) (hb : b < b64.inf) (hk : k ≤ b64.inf) (h : b64.mag k + b64.mag b = b64.mag a) :
    b64.sub a b = k := by
  have ha' := Nat.lt_trans ha Fmt.inf_lt
  have hb' := Nat.lt_trans hb Fmt.inf_lt
  unfold Fmt.sub
  rw [Fmt.add_exact (k := k) (by rwa [Fmt.abs_of_lt ha']) (by rwa [Fmt.abs_opp, Fmt.abs_of_lt hb']) hk
      (by rw [Fmt.val_opp, Fmt.val_of_lt ha', Fmt.val_of_lt hb']; omega),
    Fmt.val_opp, Fmt.val_of_lt ha', Fmt.val_of_lt hb', Fmt.neg_of_lt ha']
  split
  · exact pack_false k
  · rw [decide_eq_false (by omega)]; exact pack_false k

end Verif.Printf
