import Verif.Hyp.Core
import Verif.Math.Step

/-! # The exact decision near a midpoint -/

namespace Verif.Hyp
open Verif.Float Verif.Math
open Verif.Cplx
open Verif.Decimal (mid nearest_iff mid_form)

theorem half_ulp {F : Fmt} (o : F.Ok) {n : Nat} (h : 2 ≤ n) : 2 * F.ulp n ≤ F.mag n := by
  by_cases hs : n < 2 ^ F.f
  · rw [F.mag_small hs]; unfold Fmt.ulp; rw [Nat.div_eq_of_lt hs]; simpa using h
  · rw [F.mag_normal (by omega)]
    have h2 : 2 ≤ 2 ^ F.f := by
      have := o.f
      have := Nat.pow_le_pow_right (n := 2) (by omega) (show 1 ≤ F.f by omega)
      omega
    exact Nat.mul_le_mul_right _ (by omega)

/-- The neighbours of a pattern are at most a quarter away. -/
theorem neighbours {F : Fmt} (o : F.Ok) {n : Nat} (h : 2 ≤ n) : 2 * mid F n ≤ 5 * F.mag n ∧ 3 * F.mag n ≤ 2 * mid F (n - 1) := by
  have h1 := half_ulp o h
  have h2 := F.mag_succ n
  have h3 := F.mag_succ (n - 1)
  have h4 : F.ulp (n - 1) ≤ F.ulp n := Nat.le_of_dvd (F.ulp_pos n) (Fmt.ulp_dvd_ulp (by omega))
  unfold mid
  rw [Nat.sub_add_cancel (by omega)] at h3 ⊢
  omega

variable {F G : Fmt} {D k : Nat}

theorem Wide.root_lt (W : Wide F G D k) {S p : Nat} (hS : S ≤ 2 * (F.mag F.inf * F.mag F.inf)) (h : G.mag (rootOf G k S) < G.mag p) :
    G.mag (G.rnd (S * 2 ^ k) 1) * 2 ^ G.unit < G.mag p * G.mag p := by
  by_contra hc
  have := G.mag_mono (W.le_root hS (p := p) (by omega))
  omega

theorem Wide.lt_root (W : Wide F G D k) {S p : Nat} (hS : S ≤ 2 * (F.mag F.inf * F.mag F.inf)) (h : G.mag p < G.mag (rootOf G k S)) :
    G.mag p * G.mag p < G.mag (G.rnd (S * 2 ^ k) 1) * 2 ^ G.unit := by
  by_contra hc
  have := G.mag_mono (W.root_le hS (p := p) (by omega))
  omega

/-- A short multiple of a magnitude. -/
theorem Wide.multiple (W : Wide F G D k) {n c i : Nat} (hn : n < F.inf) (hc : c ≤ 32) (hi : 1 ≤ i) (hD : i ≤ D) (hci : c ≤ 16 * 2 ^ (i - 1)) :
    ∃ p, p < G.inf ∧ G.mag p = c * F.mag n * 2 ^ (D - i) := by
  obtain ⟨m, hm, hml⟩ := Fmt.mag_form (F := F) n
  unfold Fmt.ulp at hm
  have hlt := F.mag_strictMono hn
  have hr := W.room'
  have hb := W.more
  rw [show c * F.mag n * 2 ^ (D - i) = (c * m) * 2 ^ (n / 2 ^ F.f - 1 + (D - i)) by rw [hm, Nat.pow_add]; ring]
  refine rep_lt (F := G) ?_ ?_
  · refine Nat.le_trans (Nat.mul_le_mul hc (Nat.le_of_lt hml)) ?_
    rw [show (32 : Nat) = 2 ^ 5 from rfl, ← Nat.pow_add]
    exact Nat.pow_le_pow_right (by omega) (by omega)
  · rw [show c * m * 2 ^ (n / 2 ^ F.f - 1 + (D - i)) = c * 2 ^ (D - i) * F.mag n by rw [hm, Nat.pow_add]; ring]
    have hci2 : c * 2 ^ (D - i) ≤ 16 * 2 ^ D := by
      have := Nat.mul_le_mul_right (2 ^ (D - i)) hci
      have e : 2 ^ D = 2 * (2 ^ (i - 1) * 2 ^ (D - i)) := by
        rw [← Nat.pow_add, Nat.mul_comm 2, ← Nat.pow_succ]; congr 1; omega
      rw [Nat.mul_assoc] at this
      omega
    have hpos : 0 < 16 * 2 ^ D := by have := Nat.two_pow_pos D; omega
    calc c * 2 ^ (D - i) * F.mag n ≤ 16 * 2 ^ D * F.mag n := Nat.mul_le_mul_right _ hci2
      _ < 16 * 2 ^ D * F.mag F.inf := Nat.mul_lt_mul_of_pos_left hlt hpos
      _ = 16 * (F.mag F.inf * 2 ^ D) := by ring
      _ ≤ _ := hr

/-- The rounded sum is within a factor of two of the square of the rounded root. -/
theorem Wide.close (W : Wide F G D k) {S r : Nat} (hS : S ≤ 2 * (F.mag F.inf * F.mag F.inf)) (hr : r < F.inf) (h2 : 2 ≤ r)
    (hhi : G.mag (rootOf G k S) ≤ mid F r * 2 ^ (D - 1)) (hlo : mid F (r - 1) * 2 ^ (D - 1) ≤ G.mag (rootOf G k S)) :
    G.mag (G.rnd (S * 2 ^ k) 1) ≤ 2 * (F.mag r * F.mag r * 2 ^ k) ∧ F.mag r * F.mag r * 2 ^ k ≤ 2 * G.mag (G.rnd (S * 2 ^ k) 1) := by
  obtain ⟨n1, n2⟩ := neighbours W.of h2
  have hQ : 0 < F.mag r := Fmt.mag_pos (by omega)
  have h5 := W.four
  have hU := Nat.two_pow_pos G.unit
  have hsq := W.sq
  generalize hR2 : G.mag (G.rnd (S * 2 ^ k) 1) = R2 at *
  constructor
  · obtain ⟨p, hp, e⟩ := W.multiple hr (c := 11) (i := 3) (by omega) (by omega) (by omega) (by omega)
    have e1 : 2 ^ (D - 1) = 4 * 2 ^ (D - 3) := by rw [show (4 : Nat) = 2 ^ 2 from rfl, ← Nat.pow_add]; congr 1; omega
    have hlt : G.mag (rootOf G k S) < G.mag p := by
      rw [e]
      refine Nat.lt_of_le_of_lt hhi ?_
      rw [e1, ← Nat.mul_assoc]
      exact Nat.mul_lt_mul_of_pos_right (by omega) (Nat.two_pow_pos _)
    have key := W.root_lt hS hlt
    rw [hR2, e] at key
    have e2 : 64 * (2 ^ (D - 3) * 2 ^ (D - 3)) = 2 ^ k * 2 ^ G.unit := by
      rw [show (64 : Nat) = 2 ^ 6 from rfl, ← Nat.pow_add, ← Nat.pow_add, ← Nat.pow_add]; congr 1; omega
    have : 64 * R2 * 2 ^ G.unit < 121 * (F.mag r * F.mag r * 2 ^ k) * 2 ^ G.unit := by
      calc 64 * R2 * 2 ^ G.unit = 64 * (R2 * 2 ^ G.unit) := by ring
        _ < 64 * (11 * F.mag r * 2 ^ (D - 3) * (11 * F.mag r * 2 ^ (D - 3))) := Nat.mul_lt_mul_of_pos_left key (by omega)
        _ = 121 * (F.mag r * F.mag r) * (64 * (2 ^ (D - 3) * 2 ^ (D - 3))) := by ring
        _ = _ := by rw [e2]; ring
    have := Nat.lt_of_mul_lt_mul_right this
    omega
  · obtain ⟨p, hp, e⟩ := W.multiple hr (c := 23) (i := 5) (by omega) (by omega) (by omega) (by omega)
    have e1 : 2 ^ (D - 1) = 16 * 2 ^ (D - 5) := by rw [show (16 : Nat) = 2 ^ 4 from rfl, ← Nat.pow_add]; congr 1; omega
    have hlt : G.mag p < G.mag (rootOf G k S) := by
      rw [e]
      refine Nat.lt_of_lt_of_le ?_ hlo
      rw [e1, ← Nat.mul_assoc]
      exact Nat.mul_lt_mul_of_pos_right (by omega) (Nat.two_pow_pos _)
    have key := W.lt_root hS hlt
    rw [hR2, e] at key
    have e2 : 1024 * (2 ^ (D - 5) * 2 ^ (D - 5)) = 2 ^ k * 2 ^ G.unit := by
      rw [show (1024 : Nat) = 2 ^ 10 from rfl, ← Nat.pow_add, ← Nat.pow_add, ← Nat.pow_add]; congr 1; omega
    have : 529 * (F.mag r * F.mag r * 2 ^ k) * 2 ^ G.unit < 1024 * R2 * 2 ^ G.unit := by
      calc 529 * (F.mag r * F.mag r * 2 ^ k) * 2 ^ G.unit = 529 * (F.mag r * F.mag r) * (2 ^ k * 2 ^ G.unit) := by ring
        _ = 529 * (F.mag r * F.mag r) * (1024 * (2 ^ (D - 5) * 2 ^ (D - 5))) := by rw [e2]
        _ = 1024 * (23 * F.mag r * 2 ^ (D - 5) * (23 * F.mag r * 2 ^ (D - 5))) := by ring
        _ < 1024 * (R2 * 2 ^ G.unit) := Nat.mul_lt_mul_of_pos_left key (by omega)
        _ = _ := by ring
    have := Nat.lt_of_mul_lt_mul_right this
    omega

/-- The sign of the difference between the sum of squares and a square. -/
theorem Wide.residual (W : Wide F G D k) {S q e M : Nat} (hS : S ≤ 2 * (F.mag F.inf * F.mag F.inf)) (hq : q < G.inf)
    (hqm : G.mag q = M * M * 2 ^ (k - 2)) (he : G.abs e < G.inf) (hev : G.val e = (S * 2 ^ k : Nat) - (G.mag (G.rnd (S * 2 ^ k) 1) : Int))
    (h1 : G.mag (G.rnd (S * 2 ^ k) 1) ≤ 2 * G.mag q) (h2 : G.mag q ≤ 2 * G.mag (G.rnd (S * 2 ^ k) 1)) :
    G.abs (G.add (G.sub (G.rnd (S * 2 ^ k) 1) q) e) ≤ G.inf ∧
    (0 < G.val (G.add (G.sub (G.rnd (S * 2 ^ k) 1) q) e) ↔ M * M < 4 * S) ∧ (G.val (G.add (G.sub (G.rnd (S * 2 ^ k) 1) q) e) = 0 ↔ M * M = 4 * S) := by
  have hr := (W.sum_fin hS).2
  obtain ⟨f1, v1⟩ := sub_close (F := G) hr hq h1 h2
  obtain ⟨a1, a2, a3⟩ := val_add_sign W.og f1 he
  rw [v1, hev] at a2 a3
  have hP := Nat.two_pow_pos (k - 2)
  have e4 := W.four_k S
  refine ⟨a1, a2.trans ?_, a3.trans ?_⟩
  · rw [e4, hqm]
    constructor
    · intro h
      exact Nat.lt_of_mul_lt_mul_right (a := 2 ^ (k - 2)) (by omega)
    · intro h
      have := Nat.mul_lt_mul_of_pos_right h hP
      omega
  · rw [e4, hqm]
    constructor
    · intro h
      exact Nat.eq_of_mul_eq_mul_right hP (by omega)
    · intro h
      rw [h]; omega

end Verif.Hyp
