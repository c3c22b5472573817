import Verif.Math.Expo

/-! # Neighbours: `nextafter`, `nexttoward`; conversions; `scalbnf` -/

namespace Verif.Float.Fmt
variable {F : Fmt}

/-- The position of a pattern in the order of values. -/
def idx (F : Fmt) (x : Nat) : Int := if F.neg x then -(F.abs x : Int) else F.abs x

theorem val_lt_idx (x y : Nat) : F.val x < F.val y ↔ F.idx x < F.idx y := by
  unfold val idx
  have h1 := mag_lt_iff (F := F) (m := F.abs x) (n := F.abs y)
  have h2 := mag_lt_iff (F := F) (m := F.abs y) (n := F.abs x)
  have h3 := mag_eq_zero (F := F) (n := F.abs x)
  have h4 := mag_eq_zero (F := F) (n := F.abs y)
  cases F.neg x <;> cases F.neg y <;> simp <;> omega

theorem val_eq_idx (x y : Nat) : F.val x = F.val y ↔ F.idx x = F.idx y := by
  have h1 := val_lt_idx (F := F) x y
  have h2 := val_lt_idx (F := F) y x
  omega

theorem idx_zero (x : Nat) : F.idx x = 0 ↔ F.abs x = 0 := by unfold idx; split <;> omega

/-- Conversion to a format with more fraction bits and a wider exponent is exact. -/
theorem conv_exact {G : Fmt} (oF : F.Ok) (oG : G.Ok) (hf : F.f ≤ G.f) (hw : F.bias ≤ G.bias) {x : Nat} (hx : F.abs x < F.inf) :
    ∃ n, F.conv G x = G.pack (F.neg x) n ∧ n < G.inf ∧ G.mag n = F.mag (F.abs x) * 2 ^ (G.unit - F.unit) := by
  obtain ⟨m, hm, hml⟩ := mag_form (F := F) (F.abs x)
  obtain ⟨u1, _⟩ := unit_eq oF
  obtain ⟨u2, _⟩ := unit_eq oG
  have hlt : F.mag (F.abs x) * 2 ^ (G.unit - F.unit) < G.mag G.inf := by
    have h1 := F.mag_strictMono hx
    rw [mag_inf oF] at h1
    have h2 := Nat.mul_lt_mul_of_pos_right h1 (Nat.two_pow_pos (G.unit - F.unit))
    rw [← Nat.pow_add] at h2
    rw [mag_inf oG]
    exact Nat.lt_of_lt_of_le h2 (Nat.pow_le_pow_right (by omega) (by omega))
  unfold ulp at hm
  have e : F.mag (F.abs x) * 2 ^ (G.unit - F.unit) = m * 2 ^ (F.abs x / 2 ^ F.f - 1 + (G.unit - F.unit)) := by
    rw [hm, Nat.pow_add, Nat.mul_assoc]
  have hml2 : m ≤ 2 ^ (G.f + 1) := Nat.le_trans (Nat.le_of_lt hml) (Nat.pow_le_pow_right (by omega) (by omega))
  obtain ⟨n, hn, hne⟩ := representable (F := G) hml2 (by rw [← e]; omega)
  rw [← e] at hne
  refine ⟨n, ?_, (mag_lt_iff (F := G)).1 (by omega), hne⟩
  unfold conv
  rw [not_nan_of_fin hx, isFin_iff.2 hx]
  simp only [Bool.false_eq_true, if_false, if_true]
  rw [rnd_exact (Nat.two_pow_pos _) hn]
  rw [hne, Nat.mul_left_comm, ← Nat.pow_add]
  congr 2; omega

theorem conv_inf {G : Fmt} {x : Nat} (hx : F.abs x = F.inf) : F.conv G x = G.pack (F.neg x) G.inf := by
  unfold conv
  have h1 : F.isNaN x = false := isNaN_false.2 (by omega)
  have h2 : F.isFin x = false := by unfold isFin; simp; omega
  rw [h1, h2]; simp

theorem neg_testBit (x : Nat) : F.neg x = x.testBit (F.f + F.w) := by
  unfold neg signBit
  rw [Nat.testBit_eq_decide_div_mod_eq]

theorem xor_ge {x y : Nat} (hx : x < 2 * F.signBit) (hy : y < 2 * F.signBit) : F.signBit ≤ x ^^^ y ↔ F.neg x ≠ F.neg y := by
  have hlt : x ^^^ y < 2 * F.signBit := by
    unfold signBit at *
    rw [← Nat.pow_succ'] at *
    exact Nat.xor_lt_two_pow hx hy
  rw [← neg_iff hlt, neg_testBit, neg_testBit, neg_testBit, Nat.testBit_xor]
  cases x.testBit (F.f + F.w) <;> cases y.testBit (F.f + F.w) <;> simp

end Verif.Float.Fmt

namespace Verif.Math
open Verif.Float
variable {L : Lit}

theorem wd_sign (g : L.Good) : 2 ^ (L.wd - 1) = L.fmt.signBit ∧ (2 : Int) ^ (L.wd - 1) = (L.fmt.signBit : Int) ∧ (2 : Int) ^ L.wd = 2 * (L.fmt.signBit : Int) := by
  have e : 2 ^ (L.wd - 1) = L.fmt.signBit := by rw [g.wd]; unfold Fmt.signBit; rfl
  refine ⟨e, ?_, ?_⟩
  · rw [← e]; simp
  · rw [← e, g.wd, Nat.add_sub_cancel, Int.pow_succ, Int.mul_comm]; simp

theorem abs_neg_cases (F : Fmt) {x : Nat} (h : x < 2 * F.signBit) :
    (x < F.signBit ∧ F.abs x = x ∧ F.neg x = false) ∨ (F.signBit ≤ x ∧ F.abs x = x - F.signBit ∧ F.neg x = true) := by
  rcases Nat.lt_or_ge x F.signBit with h1 | h1
  · exact .inl ⟨h1, Fmt.abs_of_lt h1, Fmt.neg_of_lt h1⟩
  · refine .inr ⟨h1, ?_, (Fmt.neg_iff h).2 h1⟩
    unfold Fmt.abs
    rw [Nat.mod_eq_sub_mod h1, Nat.mod_eq_of_lt (by omega)]

theorem sgn_eq (g : L.Good) (x : Nat) : sgn L x = if x < L.fmt.signBit then (x : Int) else (x : Int) - 2 * (L.fmt.signBit : Int) := by
  obtain ⟨e1, e2, e3⟩ := wd_sign g
  unfold sgn; rw [e1, e3]

theorem unsgn_eq (g : L.Good) {i : Int} {r : Nat} (hr : r < 2 * L.fmt.signBit) (h : i = sgn L r) : unsgn L i = some r := by
  obtain ⟨e1, e2, e3⟩ := wd_sign g
  rw [sgn_eq g] at h
  unfold unsgn
  rw [e2, e3]
  by_cases hc : r < L.fmt.signBit
  · rw [if_pos hc] at h
    rw [if_pos (by omega), Int.emod_eq_of_lt (by omega) (by omega)]
    congr 1; omega
  · rw [if_neg hc] at h
    rw [if_pos (by omega), ← Int.add_emod_right, Int.emod_eq_of_lt (by omega) (by omega)]
    congr 1; omega

/-- One step up or down in the integer order of patterns. -/
theorem step_idx (g : L.Good) {x : Nat} (hx : x < 2 * L.fmt.signBit) (hxi : L.fmt.abs x ≤ L.fmt.inf) (h0 : 0 < L.fmt.abs x) :
    (∃ r, unsgn L (sgn L x - 1) = some r ∧ r < 2 * L.fmt.signBit ∧ L.fmt.abs r = L.fmt.abs x - 1 ∧ L.fmt.neg r = L.fmt.neg x) ∧
    (L.fmt.abs x < L.fmt.inf → ∃ r, unsgn L (sgn L x + 1) = some r ∧ r < 2 * L.fmt.signBit ∧ L.fmt.abs r = L.fmt.abs x + 1 ∧ L.fmt.neg r = L.fmt.neg x) := by
  have hil := Fmt.inf_lt (F := L.fmt)
  have hsx := sgn_eq g x
  rcases abs_neg_cases L.fmt hx with ⟨a, b, c⟩ | ⟨a, b, c⟩
  · rw [if_pos a] at hsx
    constructor
    · refine ⟨x - 1, unsgn_eq g (by omega) (by rw [hsx, sgn_eq g (x - 1), if_pos (by omega)]; omega), by omega, ?_, ?_⟩
      · rw [Fmt.abs_of_lt (by omega)]; omega
      · rw [c, Fmt.neg_of_lt (by omega)]
    · intro hlt
      refine ⟨x + 1, unsgn_eq g (by omega) (by rw [hsx, sgn_eq g (x + 1), if_pos (by omega)]; omega), by omega, ?_, ?_⟩
      · rw [Fmt.abs_of_lt (by omega)]; omega
      · rw [c, Fmt.neg_of_lt (by omega)]
  · rw [if_neg (by omega)] at hsx
    have pk : ∀ k, k < L.fmt.signBit → L.fmt.abs (L.fmt.signBit + k) = k ∧ L.fmt.neg (L.fmt.signBit + k) = true := fun k hk =>
      ⟨Fmt.abs_pack (s := true) hk, Fmt.neg_pack (s := true) hk⟩
    constructor
    · obtain ⟨p1, p2⟩ := pk (x - L.fmt.signBit - 1) (by omega)
      rw [show L.fmt.signBit + (x - L.fmt.signBit - 1) = x - 1 by omega] at p1 p2
      refine ⟨x - 1, unsgn_eq g (by omega) (by rw [hsx, sgn_eq g (x - 1), if_neg (by omega)]; omega), by omega, by omega, by rw [p2, c]⟩
    · intro hlt
      obtain ⟨p1, p2⟩ := pk (x - L.fmt.signBit + 1) (by omega)
      rw [show L.fmt.signBit + (x - L.fmt.signBit + 1) = x + 1 by omega] at p1 p2
      refine ⟨x + 1, unsgn_eq g (by omega) (by rw [hsx, sgn_eq g (x + 1), if_neg (by omega)]; omega), by omega, by omega, by rw [p2, c]⟩

theorem not_nan_le {F : Fmt} {x : Nat} (h : ¬ F.inf < F.abs x) : F.abs x ≤ F.inf := by omega

theorem eq_self_iff {F : Fmt} (x : Nat) : F.eq x x = true ↔ F.abs x ≤ F.inf := by
  unfold Fmt.eq
  simp only [decide_true, Bool.and_true]
  constructor
  · intro h
    simp at h
    exact Fmt.isNaN_false.1 h
  · intro h; rw [Fmt.isNaN_false.2 h]; rfl

/-- `nextafter` between different numbers moves one place towards the second. -/
theorem nextafter_idx (g : L.Good) {x y : Nat} (hx : x < 2 * L.fmt.signBit) (hy : y < 2 * L.fmt.signBit)
    (hxi : L.fmt.abs x ≤ L.fmt.inf) (hyi : L.fmt.abs y ≤ L.fmt.inf) (hne : L.fmt.val x ≠ L.fmt.val y) :
    ∃ r, nextafter L x y = some r ∧ r < 2 * L.fmt.signBit ∧ L.fmt.abs r ≤ L.fmt.inf ∧
      L.fmt.idx r = L.fmt.idx x + (if L.fmt.idx x < L.fmt.idx y then 1 else -1) := by
  have hil := Fmt.inf_lt (F := L.fmt)
  have hip := Fmt.inf_pos g.ok
  obtain ⟨e1, _, _⟩ := wd_sign g
  have hne' : L.fmt.idx x ≠ L.fmt.idx y := fun h => hne ((Fmt.val_eq_idx _ _).2 h)
  unfold nextafter
  rw [if_neg (by
    rintro (h | h)
    · exact hne ((Fmt.eq_iff hxi hyi).1 h)
    · exact h ((eq_self_iff y).2 hyi)), if_neg (by
    intro h; exact h ((eq_self_iff x).2 hxi))]
  have hz : L.fmt.eq x 0 = true ↔ L.fmt.abs x = 0 := by
    have h0 : L.fmt.abs 0 = 0 := Fmt.abs_of_lt Fmt.signBit_pos
    rw [Fmt.eq_iff hxi (by omega), Fmt.val_eq_idx, (Fmt.idx_zero 0).2 h0, Fmt.idx_zero]
  by_cases h0 : L.fmt.abs x = 0
  · rw [if_pos (hz.2 h0)]
    have h1 : 1 < L.fmt.signBit := by
      have := Fmt.inf_add (F := L.fmt)
      have := Nat.two_pow_pos L.fmt.f
      omega
    have hcs : L.fmt.copysign 1 y = L.fmt.pack (L.fmt.neg y) 1 := by unfold Fmt.copysign; rw [Fmt.abs_of_lt h1]
    refine ⟨_, rfl, by rw [hcs]; exact Fmt.pack_lt h1, by rw [hcs, Fmt.abs_pack h1]; omega, ?_⟩
    rw [hcs, (Fmt.idx_zero x).2 h0]
    unfold Fmt.idx
    rw [Fmt.abs_pack h1, Fmt.neg_pack h1]
    have hy0 : L.fmt.abs y ≠ 0 := fun h => hne' (by rw [(Fmt.idx_zero x).2 h0, (Fmt.idx_zero y).2 h])
    cases L.fmt.neg y <;> simp <;> omega
  · rw [if_neg (fun h => h0 (hz.1 h)), e1]
    obtain ⟨⟨r1, a1, a2, a3, a4⟩, hup⟩ := step_idx g hx hxi (by omega)
    have hxor := Fmt.xor_ge hx hy
    have sx := sgn_eq g x
    have sy := sgn_eq g y
    have i1 : L.fmt.idx r1 = if L.fmt.neg x then L.fmt.idx x + 1 else L.fmt.idx x - 1 := by
      clear hup; unfold Fmt.idx; rw [a3, a4]; cases L.fmt.neg x <;> simp <;> omega
    have up : L.fmt.abs x < L.fmt.inf → ∃ r, unsgn L (sgn L x + 1) = some r ∧ r < 2 * L.fmt.signBit ∧ L.fmt.abs r ≤ L.fmt.inf ∧
        L.fmt.idx r = if L.fmt.neg x then L.fmt.idx x - 1 else L.fmt.idx x + 1 := by
      intro h
      obtain ⟨r, b1, b2, b3, b4⟩ := hup h
      refine ⟨r, b1, b2, by omega, ?_⟩
      clear hup; unfold Fmt.idx; rw [b3, b4]; cases L.fmt.neg x <;> simp <;> omega
    rcases abs_neg_cases L.fmt hx with ⟨p1, p2, p3⟩ | ⟨p1, p2, p3⟩ <;>
      rcases abs_neg_cases L.fmt hy with ⟨q1, q2, q3⟩ | ⟨q1, q2, q3⟩ <;>
      rw [p3] at i1 up hxor <;> rw [q3] at hxor <;> clear hup
    · have iy : L.fmt.idx y = y := by unfold Fmt.idx; rw [q2, q3]; simp
      have ix : L.fmt.idx x = x := by unfold Fmt.idx; rw [p2, p3]; simp
      simp only [Bool.false_eq_true, if_false, if_true] at i1 up
      rw [if_pos p1] at sx; rw [if_pos q1] at sy
      by_cases hlt : y < x
      · rw [if_pos (.inl (by omega)), a1]
        exact ⟨r1, rfl, a2, by omega, by rw [i1, if_neg (by omega)]; omega⟩
      · rw [if_neg (by
          rintro (h | h)
          · omega
          · exact hxor.1 h rfl)]
        obtain ⟨r, b1, b2, b3, b4⟩ := up (by omega)
        exact ⟨r, b1, b2, b3, by rw [b4, if_pos (by omega)]⟩
    · have iy : L.fmt.idx y = -((y - L.fmt.signBit : Nat) : Int) := by unfold Fmt.idx; rw [q2, q3]; simp
      have ix : L.fmt.idx x = x := by unfold Fmt.idx; rw [p2, p3]; simp
      simp only [Bool.false_eq_true, if_false, if_true] at i1 up
      rw [if_pos (.inr (hxor.2 (by simp))), a1]
      exact ⟨r1, rfl, a2, by omega, by rw [i1, if_neg (by omega)]; omega⟩
    · have iy : L.fmt.idx y = y := by unfold Fmt.idx; rw [q2, q3]; simp
      have ix : L.fmt.idx x = -((x - L.fmt.signBit : Nat) : Int) := by unfold Fmt.idx; rw [p2, p3]; simp
      simp only [Bool.false_eq_true, if_false, if_true] at i1 up
      rw [if_pos (.inr (hxor.2 (by simp))), a1]
      exact ⟨r1, rfl, a2, by omega, by rw [i1, if_pos (by omega)]⟩
    · have iy : L.fmt.idx y = -((y - L.fmt.signBit : Nat) : Int) := by unfold Fmt.idx; rw [q2, q3]; simp
      have ix : L.fmt.idx x = -((x - L.fmt.signBit : Nat) : Int) := by unfold Fmt.idx; rw [p2, p3]; simp
      simp only [Bool.false_eq_true, if_false, if_true] at i1 up
      rw [if_neg (by omega)] at sx; rw [if_neg (by omega)] at sy
      by_cases hlt : y < x
      · rw [if_pos (.inl (by omega)), a1]
        exact ⟨r1, rfl, a2, by omega, by rw [i1, if_pos (by omega)]⟩
      · rw [if_neg (by
          rintro (h | h)
          · omega
          · exact hxor.1 h rfl)]
        obtain ⟨r, b1, b2, b3, b4⟩ := up (by omega)
        exact ⟨r, b1, b2, b3, by rw [b4, if_neg (by omega)]; omega⟩

end Verif.Math
