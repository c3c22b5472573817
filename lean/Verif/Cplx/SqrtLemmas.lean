import Verif.Cplx.DivLemmas
import Verif.Printf.FloatOps

/-! # Complex square roots -/

namespace Verif.Cplx
open Verif.Float Verif.Math
open Verif.Arith (fdiv)

variable {F : Fmt}

theorem rootGo_spec (n : Nat) : ∀ k lo, lo * lo ≤ n → n < (lo + 2 ^ k) * (lo + 2 ^ k) →
    Quad.rootGo n k lo * Quad.rootGo n k lo ≤ n ∧ n < (Quad.rootGo n k lo + 1) * (Quad.rootGo n k lo + 1) := by
  intro k
  induction k with
  | zero => intro lo h1 h2; exact ⟨h1, h2⟩
  | succ k ih =>
    intro lo h1 h2
    unfold Quad.rootGo
    split
    · rename_i h
      exact ih _ h (by rw [Nat.add_assoc, ← Nat.two_mul, Nat.mul_comm 2, ← Nat.pow_succ]; exact h2)
    · rename_i h
      exact ih _ h1 (by omega)

theorem sq_le {a b : Nat} (h : a ≤ b) : a * a ≤ b * b := Nat.mul_le_mul h h

theorem sq_lt {a b : Nat} : a * a < b * b ↔ a < b := by
  constructor
  · intro h; by_contra hc; exact absurd (sq_le (Nat.le_of_not_lt hc)) (Nat.not_le.2 h)
  · intro h; exact Nat.mul_lt_mul_of_lt_of_le h (Nat.le_of_lt h) (by omega)

theorem sq_two {a b c : Nat} (h : a ≤ b) (h2 : b ≤ c) : 4 * (a * a) ≤ (a + c) * (a + c) ∧ (a + b) * (a + b) ≤ 4 * (b * b) := by
  refine ⟨?_, ?_⟩
  · have := sq_le (show 2 * a ≤ a + c by omega)
    rw [show 2 * a * (2 * a) = 4 * (a * a) by ring] at this
    exact this
  · have := sq_le (show a + b ≤ 2 * b by omega)
    rw [show 2 * b * (2 * b) = 4 * (b * b) by ring] at this
    exact this

/-- The pattern below the root. -/
theorem root_floor {n : Nat} (hn : n < 2 ^ 2 ^ F.w * 2 ^ 2 ^ F.w) :
    ∃ p, p = F.floorPat (Quad.rootGo n (2 ^ F.w) 0) ∧ F.mag p * F.mag p ≤ n ∧ n < F.mag (p + 1) * F.mag (p + 1) := by
  obtain ⟨h1, h2⟩ := rootGo_spec n (2 ^ F.w) 0 (by omega) (by rwa [Nat.zero_add])
  obtain ⟨f1, f2⟩ := floorPat_le (F := F) (Quad.rootGo n (2 ^ F.w) 0)
  exact ⟨_, rfl, Nat.le_trans (sq_le f1) h1, Nat.lt_of_lt_of_le h2 (sq_le f2)⟩

theorem mag_le_succ (p : Nat) : F.mag p ≤ F.mag (p + 1) := Fmt.mag_le_iff.2 (by omega)

/-- The result is a neighbour of the root and the closer one. -/
theorem rootPat_spec {n : Nat} (hn : n < 2 ^ 2 ^ F.w * 2 ^ 2 ^ F.w) :
    (F.mag (rootPat F n - 1) + F.mag (rootPat F n)) * (F.mag (rootPat F n - 1) + F.mag (rootPat F n)) ≤ 4 * n ∧
    4 * n ≤ (F.mag (rootPat F n) + F.mag (rootPat F n + 1)) * (F.mag (rootPat F n) + F.mag (rootPat F n + 1)) := by
  obtain ⟨p, hp, h1, h2⟩ := root_floor (F := F) hn
  unfold rootPat
  rw [← hp]
  simp only
  split
  · rename_i h
    rw [Nat.add_sub_cancel]
    refine ⟨Nat.le_of_lt h, ?_⟩
    have := (sq_two (mag_le_succ (F := F) (p + 1)) (Nat.le_refl _)).1
    omega
  · rename_i h
    refine ⟨?_, by omega⟩
    have := (sq_two (a := F.mag (p - 1)) (b := F.mag p) (Fmt.mag_le_iff.2 (by omega)) (Nat.le_refl _)).2
    omega

theorem rootPat_unique {n k : Nat} (hn : n < 2 ^ 2 ^ F.w * 2 ^ 2 ^ F.w) (hk : 0 < k)
    (h1 : (F.mag (k - 1) + F.mag k) * (F.mag (k - 1) + F.mag k) < 4 * n) (h2 : 4 * n < (F.mag k + F.mag (k + 1)) * (F.mag k + F.mag (k + 1))) :
    rootPat F n = k := by
  obtain ⟨p, hp, p1, p2⟩ := root_floor (F := F) hn
  unfold rootPat
  rw [← hp]
  simp only
  have a1 : F.mag (k - 1) < F.mag k := Fmt.mag_lt_iff.2 (by omega)
  have a2 : F.mag k < F.mag (k + 1) := Fmt.mag_lt_iff.2 (by omega)
  have q1 : 4 * (F.mag (k - 1) * F.mag (k - 1)) < 4 * n := Nat.lt_of_le_of_lt (sq_two (Nat.le_of_lt a1) (Nat.le_refl _)).1 h1
  have q2 : 4 * n < 4 * (F.mag (k + 1) * F.mag (k + 1)) := Nat.lt_of_lt_of_le h2 (sq_two (Nat.le_of_lt a2) (Nat.le_refl _)).2
  have b1 : k - 1 < p + 1 := (Fmt.mag_lt_iff (F := F)).1 (sq_lt.1 (by omega))
  have b2 : p < k + 1 := (Fmt.mag_lt_iff (F := F)).1 (sq_lt.1 (by omega))
  by_cases h : p = k
  · subst h; rw [if_neg (by omega)]
  · have : p = k - 1 := by omega
    subst this
    rw [Nat.sub_add_cancel hk, if_pos h1]

/-- The arithmetic of the root of a rounded square. -/
theorem square_arith {m U G H E : Nat} (hG : 0 < G) (hU : U = m * G) (hm1 : H ≤ m) (hm2 : m < 2 * H) (hH : 0 < H)
    (he : 2 * H * dist (U * U) E ≤ U * U) :
    4 * E < (2 * U + G) * (2 * U + G) ∧ ((2 * U - G) * (2 * U - G) < 4 * E) := by
  subst hU
  have e : m * G * (m * G) = m * m * (G * G) := by ring
  have hx : dist (m * G * (m * G)) E * 2 ≤ m * (G * G) * 2 - G * G := by
    have h1 : 2 * H * (dist (m * G * (m * G)) E) ≤ (2 * H - 1) * (m * (G * G)) := by
      refine Nat.le_trans he ?_
      rw [e, Nat.mul_assoc]
      exact Nat.mul_le_mul_right _ (by omega)
    generalize dist (m * G * (m * G)) E = D at *
    have hGG : 0 < G * G := Nat.mul_pos hG hG
    have hmG : H * (G * G) ≤ m * (G * G) := Nat.mul_le_mul_right _ hm1
    generalize m * (G * G) = T at *
    generalize G * G = g at *
    by_contra hc
    have h2 : 2 * T - g < D * 2 := Nat.lt_of_not_le (by rwa [Nat.mul_comm T 2] at hc)
    have h3 : H * (2 * T - g + 1) ≤ H * (D * 2) := Nat.mul_le_mul_left _ h2
    have h4 : H * (D * 2) ≤ (2 * H - 1) * T := by
      rw [show H * (D * 2) = 2 * H * D by ring]; exact h1
    obtain ⟨H', rfl⟩ : ∃ h, H = h + 1 := ⟨H - 1, by omega⟩
    have hgT : g ≤ T := by
      refine Nat.le_trans ?_ hmG
      exact Nat.le_mul_of_pos_left _ (by omega)
    obtain ⟨r, rfl⟩ : ∃ r, T = g + r := ⟨T - g, by omega⟩
    rw [show 2 * (g + r) - g + 1 = g + 2 * r + 1 by omega] at h3
    rw [show 2 * (H' + 1) - 1 = 2 * H' + 1 by omega] at h4
    nlinarith
  have hGG : 0 < G * G := Nat.mul_pos hG hG
  have hle : G ≤ m * G := Nat.le_mul_of_pos_left _ (by omega)
  have hle2 : G * G ≤ m * (G * G) := Nat.le_mul_of_pos_left _ (by omega)
  obtain ⟨r, hr⟩ : ∃ r, 2 * (m * G) = G + r := ⟨2 * (m * G) - G, by omega⟩
  have e2 : (2 * (m * G) + G) * (2 * (m * G) + G) = 4 * (m * G * (m * G)) + 4 * (m * (G * G)) + G * G := by ring
  have e3 : (2 * (m * G) - G) * (2 * (m * G) - G) + 4 * (m * (G * G)) = 4 * (m * G * (m * G)) + G * G := by
    rw [hr, Nat.add_sub_cancel_left]
    have hr' : m * G * 2 = G + r := by omega
    have : 4 * (m * (G * G)) = 2 * (m * G * 2) * G := by ring
    rw [this, hr']
    have : 4 * (m * G * (m * G)) = (m * G * 2) * (m * G * 2) := by ring
    rw [this, hr']
    ring
  rw [e2]
  generalize m * (G * G) = T at *
  generalize m * G * (m * G) = Q at *
  generalize G * G = g at *
  unfold dist at hx
  constructor
  · omega
  · omega

theorem pred_div {n p : Nat} (hp : 0 < p) (h : n % p ≠ 0) : (n - 1) / p = n / p := by
  have hd := Nat.div_add_mod n p
  have hml := Nat.mod_lt n hp
  refine Nat.div_eq_of_lt_le ?_ ?_
  · rw [Nat.mul_comm]; omega
  · rw [Nat.add_mul, Nat.mul_comm, Nat.one_mul]; omega

/-- The root of the rounded square of a number is the number. -/
theorem root_square (o : F.Ok) (hw : F.f + 2 * F.bias + F.unit ≤ 2 ^ F.w + 2 ^ F.w) {n : Nat} (hn : 2 ^ F.f ≤ n)
    (hlo : 2 ^ F.unit * 2 ^ F.f ≤ F.mag n * F.mag n) (hhi : F.mag n * F.mag n < 2 ^ F.unit * F.mag F.inf) (hfin : F.rnd (F.mag n * F.mag n) (2 ^ F.unit) < F.inf) :
    rootPat F (F.mag (F.rnd (F.mag n * F.mag n) (2 ^ F.unit)) * 2 ^ F.unit) = n := by
  have hP := Nat.two_pow_pos F.unit
  have hf := Nat.two_pow_pos F.f
  have hrel := Printf.rnd_rel (F := F) (F.mag n * F.mag n) (2 ^ F.unit) hP hlo (Nat.le_of_lt hhi) o
  have hlt : F.mag (F.rnd (F.mag n * F.mag n) (2 ^ F.unit)) * 2 ^ F.unit < 2 ^ 2 ^ F.w * 2 ^ 2 ^ F.w := by
    rw [← Nat.pow_add]
    refine Nat.lt_of_lt_of_le (Nat.mul_lt_mul_of_pos_right (Fmt.mag_lt_iff.2 hfin) hP) ?_
    rw [Fmt.mag_inf o, ← Nat.pow_add]
    exact Nat.pow_le_pow_right (by omega) hw
  have hnorm := F.mag_normal hn
  have hs := F.mag_succ n
  have hgpos : 0 < F.ulp n := Nat.two_pow_pos _
  have hm : 2 ^ F.f + n % 2 ^ F.f < 2 * 2 ^ F.f := by have := Nat.mod_lt n hf; omega
  have hU : F.mag n = (2 ^ F.f + n % 2 ^ F.f) * F.ulp n := hnorm
  have key := square_arith (E := F.mag (F.rnd (F.mag n * F.mag n) (2 ^ F.unit)) * 2 ^ F.unit) hgpos hU (Nat.le_add_right _ _) hm hf
    (by rw [Nat.mul_comm 2, ← Nat.pow_succ, Nat.mul_comm _ (2 ^ F.unit)]; exact hrel)
  refine rootPat_unique hlt (by omega) ?_ (by rw [hs, ← Nat.add_assoc, ← Nat.two_mul]; exact key.1)
  by_cases hz : n % 2 ^ F.f = 0
  · -- a power of two: its square is exact
    have hex : F.mag (F.rnd (F.mag n * F.mag n) (2 ^ F.unit)) * 2 ^ F.unit = F.mag n * F.mag n := by
      rw [hz, Nat.add_zero, Fmt.ulp, ← Nat.pow_add] at hU
      have hsq : F.mag n * F.mag n = 2 ^ (F.f + (n / 2 ^ F.f - 1) + (F.f + (n / 2 ^ F.f - 1))) := by rw [hU, ← Nat.pow_add]
      have hge : F.unit ≤ F.f + (n / 2 ^ F.f - 1) + (F.f + (n / 2 ^ F.f - 1)) := by
        rw [hsq, ← Nat.pow_add, Nat.pow_le_pow_iff_right (by omega)] at hlo
        omega
      have hsplit : F.mag n * F.mag n = 2 ^ F.unit * (1 * 2 ^ (F.f + (n / 2 ^ F.f - 1) + (F.f + (n / 2 ^ F.f - 1)) - F.unit)) := by
        rw [hsq, Nat.one_mul, ← Nat.pow_add]; congr 1; omega
      obtain ⟨k, hk, e⟩ := Fmt.representable (F := F) (m := 1) (e := F.f + (n / 2 ^ F.f - 1) + (F.f + (n / 2 ^ F.f - 1)) - F.unit) Nat.one_le_two_pow
        (Nat.le_of_mul_le_mul_left (by rw [← hsplit]; exact Nat.le_of_lt hhi) hP)
      rw [← e] at hsplit
      rw [rnd_exact hP hk hsplit, hsplit, Nat.mul_comm]
    rw [hex]
    have h1 : F.mag (n - 1) < F.mag n := Fmt.mag_lt_iff.2 (by omega)
    have := sq_lt.2 (show F.mag (n - 1) + F.mag n < 2 * F.mag n by omega)
    rwa [show 2 * F.mag n * (2 * F.mag n) = 4 * (F.mag n * F.mag n) by ring] at this
  · have hpred : F.mag (n - 1) + F.ulp n = F.mag n := by
      have h1 := F.mag_succ (n - 1)
      rw [Nat.sub_add_cancel (by omega)] at h1
      rw [h1]
      congr 1
      unfold Fmt.ulp
      have := pred_div hf hz
      rw [this]
    have e : F.mag (n - 1) + F.mag n = 2 * F.mag n - F.ulp n := by omega
    rw [e]; exact key.2

theorem rnd_normal_pos (o : F.Ok) {num den : Nat} (hd : 0 < den) (hlo : den * 2 ^ F.f ≤ num) (hi : num ≤ den * F.mag F.inf) : 0 < F.rnd num den := by
  have hb := Printf.rnd_rel (F := F) num den hd hlo hi o
  have hpos : 0 < num := Nat.lt_of_lt_of_le (Nat.mul_pos hd (Nat.two_pow_pos F.f)) hlo
  rcases Nat.eq_zero_or_pos (F.rnd num den) with h | h
  · rw [h, F.mag_zero, Nat.mul_zero] at hb
    unfold dist at hb
    simp only [Nat.sub_zero, Nat.zero_sub, Nat.add_zero] at hb
    have h2 : 2 * num ≤ 2 ^ (F.f + 1) * num :=
      Nat.mul_le_mul_right _ (by rw [Nat.pow_succ]; have := Nat.two_pow_pos F.f; omega)
    omega
  · exact h

theorem fsqrt_fin {x : Nat} (h0 : 0 < x) (hx : x < F.inf) : fsqrt F x = rootPat F (F.mag x * 2 ^ F.unit) := by
  have ha := Fmt.abs_of_lt (Nat.lt_trans hx (Fmt.inf_lt (F := F)))
  unfold fsqrt
  rw [if_neg (by rw [Fmt.isNaN_iff, ha]; omega), if_neg (by rw [ha]; omega), if_neg (by rw [Fmt.neg_of_lt (Nat.lt_trans hx Fmt.inf_lt)]; simp),
    if_pos (by rw [Fmt.isFin_iff, ha]; exact hx), ha]

theorem square_pos {M P : Nat} (hP : 0 < P) (h : P ≤ M * M) : 0 < M := by
  rcases Nat.eq_zero_or_pos M with h0 | h0
  · rw [h0] at h; omega
  · exact h0

/-- The root of a finite number is finite. -/
theorem root_fin (o : F.Ok) (hw : F.f + 2 * F.bias + F.unit ≤ 2 ^ F.w + 2 ^ F.w) {x : Nat} (hx : x < F.inf) :
    F.mag x * 2 ^ F.unit < 2 ^ 2 ^ F.w * 2 ^ 2 ^ F.w := by
  rw [← Nat.pow_add]
  refine Nat.lt_of_lt_of_le (Nat.mul_lt_mul_of_pos_right (Fmt.mag_lt_iff.2 hx) (Nat.two_pow_pos _)) ?_
  rw [Fmt.mag_inf o, ← Nat.pow_add]
  exact Nat.pow_le_pow_right (by omega) hw

theorem rootPat_lt (o : F.Ok) (hw : F.f + 2 * F.bias + F.unit ≤ 2 ^ F.w + 2 ^ F.w) {x : Nat} (hx : x < F.inf) (h0 : 0 < x) :
    0 < rootPat F (F.mag x * 2 ^ F.unit) ∧ rootPat F (F.mag x * 2 ^ F.unit) < F.inf := by
  have hn := root_fin o hw hx
  obtain ⟨s1, s2⟩ := rootPat_spec (F := F) hn
  have hp := Fmt.inf_pos o
  have hu := Fmt.unit_eq o
  have hP := Nat.two_pow_pos F.unit
  have hmx : 0 < F.mag x := Fmt.mag_pos h0
  generalize rootPat F (F.mag x * 2 ^ F.unit) = r at *
  constructor
  · rcases Nat.eq_zero_or_pos r with h | h
    · subst h
      have h1 : F.mag 1 = 1 := Fmt.mag_tiny Nat.one_le_two_pow
      rw [F.mag_zero, h1] at s2
      have : 1 * 2 ^ F.unit ≤ F.mag x * 2 ^ F.unit := Nat.mul_le_mul_right _ hmx
      omega
    · exact h
  · by_contra hc
    -- the root would exceed the largest finite number
    have hr : F.mag F.inf ≤ F.mag (r - 1) + F.mag r := Nat.le_trans (Fmt.mag_le_iff.2 (by omega)) (Nat.le_add_left _ _)
    have h1 := Nat.le_trans (sq_le hr) s1
    have h2 : F.mag x * 2 ^ F.unit < F.mag F.inf * 2 ^ F.unit := Nat.mul_lt_mul_of_pos_right (Fmt.mag_lt_iff.2 hx) hP
    have h3 : F.mag F.inf * (4 * 2 ^ F.unit) ≤ F.mag F.inf * F.mag F.inf := by
      apply Nat.mul_le_mul_left
      rw [Fmt.mag_inf o, show 4 = 2 ^ 2 from rfl, ← Nat.pow_add]
      exact Nat.pow_le_pow_right (by omega) (by omega)
    rw [Nat.mul_left_comm] at h3
    omega

theorem fdiv_zero (o : F.Ok) {y s : Nat} (hy : F.abs y = 0) (hs0 : 0 < s) (hs : s < F.inf) : fdiv F y s = F.pack (F.neg y) 0 := by
  have hp := Fmt.inf_pos o
  have ha := Fmt.abs_of_lt (Nat.lt_trans hs (Fmt.inf_lt (F := F)))
  unfold fdiv
  rw [if_neg (by rw [Fmt.isNaN_iff, Fmt.isNaN_iff, ha]; omega), if_pos (by rw [Fmt.isFin_iff]; omega), if_pos (by rw [Fmt.isFin_iff, ha]; exact hs),
    if_neg (by rw [ha]; omega), hy, F.mag_zero, Nat.zero_mul, ha, rnd_zero o (Fmt.mag_pos hs0), Fmt.neg_of_lt (Nat.lt_trans hs Fmt.inf_lt), Bool.bne_false]

theorem pack_false (x : Nat) : F.pack false x = x := by unfold Fmt.pack; simp

theorem half_mag : b64.mag 0x3FE0000000000000 * 2 = 2 ^ b64.unit := by
  rw [Math.mag_half, ← Nat.pow_succ]; rfl

/-- `y * y` of a zero, added to a number. -/
theorem add_square_zero {w y : Nat} (hw : w < b64.inf) (hw0 : 0 < w) (hy : b64.abs y = 0) : b64.add w (b64.mul y y) = w := by
  have hp := Fmt.inf_pos ok64
  have ha := Fmt.abs_of_lt (Nat.lt_trans hw (Fmt.inf_lt (F := b64)))
  have e : b64.mul y y = b64.pack (b64.neg y != b64.neg y) 0 := by
    rw [Fmt.mul_fin (by omega) (by omega), hy, Fmt.mag_zero, Nat.zero_mul, rnd_zero ok64 (Nat.two_pow_pos _)]
  have a0 : b64.abs (b64.mul y y) = 0 := by rw [e, Fmt.abs_pack Fmt.signBit_pos]
  have hv : b64.val w = b64.mag w := Fmt.val_of_lt (Nat.lt_trans hw Fmt.inf_lt)
  have hm : 0 < b64.mag w := Fmt.mag_pos hw0
  rw [Fmt.add_exact (k := w) (by omega) (by omega) (Nat.le_of_lt hw) (by rw [val_zero_iff.2 a0, hv]; simp), val_zero_iff.2 a0, hv, if_neg (by omega),
    decide_eq_false (by omega), pack_false]

/-- Twice a positive number, halved. -/
theorem half_twice {n : Nat} (h0 : 0 < n) (h : 2 * b64.mag n < b64.mag b64.inf) : b64.mul 0x3FE0000000000000 (b64.add n n) = n := by
  have hi := Fmt.inf_lt (F := b64)
  obtain ⟨k, hk, e⟩ := Fmt.representable_double (F := b64) (a := n) (Nat.le_of_lt h)
  have hk' : k < b64.inf := (Fmt.mag_lt_iff (F := b64)).1 (by omega)
  have hn : n < b64.inf := (Fmt.mag_lt_iff (F := b64)).1 (by omega)
  have ha := Fmt.abs_of_lt (Nat.lt_trans hn hi)
  have hka := Fmt.abs_of_lt (Nat.lt_trans hk' hi)
  have hv : b64.val n = b64.mag n := Fmt.val_of_lt (Nat.lt_trans hn hi)
  have hm : 0 < b64.mag n := Fmt.mag_pos h0
  have hs : b64.add n n = k := by
    rw [Fmt.add_exact (k := k) (by omega) (by omega) hk (by rw [hv]; omega), hv, if_neg (by omega), decide_eq_false (by omega), pack_false]
  have hh : (0x3FE0000000000000 : Nat) < b64.inf := by decide
  rw [hs, Fmt.mul_fin (by decide) (by omega), hka, Fmt.neg_of_lt (Nat.lt_trans hk' hi), show b64.neg 0x3FE0000000000000 = false by decide,
    show b64.abs 0x3FE0000000000000 = 0x3FE0000000000000 by decide, e,
    rnd_exact (n := n) (Nat.two_pow_pos _) (Nat.le_of_lt hn) (by rw [← half_mag]; ring)]
  exact pack_false n

/-- On the real axis. -/
theorem csqrt_real {x y : Nat} (hlo : 2 ^ (b64.unit - 511) ≤ b64.mag (b64.abs x)) (hhi : b64.mag (b64.abs x) < 2 ^ (b64.unit + 511)) (hy : b64.abs y = 0) :
    ∃ s, s = rootPat b64 (b64.mag (b64.abs x) * 2 ^ b64.unit) ∧ 0 < s ∧ s < b64.inf ∧
      csqrtFinite x y = if b64.neg x then (0, b64.copysign s y) else (s, b64.pack (b64.neg y) 0) := by
  have hi := Fmt.inf_lt (F := b64)
  have hmi := Fmt.mag_inf ok64
  have hP := Nat.two_pow_pos b64.unit
  have hu : b64.unit = 1074 := rfl
  have hfb : b64.f + 2 * b64.bias = 2098 := rfl
  have hf : b64.f = 52 := rfl
  have hn : b64.abs x < b64.inf := (Fmt.mag_lt_iff (F := b64)).1 (by
    rw [hmi]; exact Nat.lt_trans hhi (Nat.pow_lt_pow_right (by decide) (by decide)))
  have h0 : 0 < b64.abs x := by
    rcases Nat.eq_zero_or_pos (b64.abs x) with h | h
    · rw [h, Fmt.mag_zero] at hlo
      exact absurd (Nat.two_pow_pos (b64.unit - 511)) (Nat.not_lt.2 hlo)
    · exact h
  have hnorm : 2 ^ b64.f ≤ b64.abs x := by
    apply (Fmt.mag_le_iff (F := b64)).1
    rw [Fmt.mag_two_pow_f]
    exact Nat.le_trans (Nat.pow_le_pow_right (by omega) (by omega)) hlo
  have q1 : 2 ^ b64.unit * 2 ^ b64.f ≤ b64.mag (b64.abs x) * b64.mag (b64.abs x) := by
    refine Nat.le_trans (Nat.le_of_eq ?_) (sq_le hlo)
    rw [← Nat.pow_add, ← Nat.pow_add]; rfl
  have q2 : b64.mag (b64.abs x) * b64.mag (b64.abs x) < 2 ^ b64.unit * 2 ^ (b64.unit + 1022) := by
    refine Nat.lt_of_lt_of_le (sq_lt.2 hhi) (Nat.le_of_eq ?_)
    rw [← Nat.pow_add, ← Nat.pow_add]; rfl
  have q3 : b64.mag (b64.rnd (b64.mag (b64.abs x) * b64.mag (b64.abs x)) (2 ^ b64.unit)) ≤ 2 ^ (b64.unit + 1022) :=
    mag_rnd_le ok64 hP (by rw [Nat.mul_comm (2 ^ (b64.unit + 1022))]; exact Nat.le_of_lt q2) (by decide)
  have hpl : 2 ^ (b64.unit + 1022) < b64.mag b64.inf := by rw [hmi]; exact Nat.pow_lt_pow_right (by decide) (by decide)
  have q4 : b64.rnd (b64.mag (b64.abs x) * b64.mag (b64.abs x)) (2 ^ b64.unit) < b64.inf := (Fmt.mag_lt_iff (F := b64)).1 (Nat.lt_of_le_of_lt q3 hpl)
  have hbig : b64.mag (b64.abs x) * b64.mag (b64.abs x) < 2 ^ b64.unit * b64.mag b64.inf := Nat.lt_trans q2 (Nat.mul_lt_mul_of_pos_left hpl hP)
  have hroot := root_square ok64 (by decide) hnorm q1 hbig q4
  have q5 : 0 < b64.rnd (b64.mag (b64.abs x) * b64.mag (b64.abs x)) (2 ^ b64.unit) := by
    exact rnd_normal_pos ok64 hP q1 (Nat.le_of_lt hbig)
  obtain ⟨s0, s1⟩ := rootPat_lt ok64 (by decide) hn h0
  refine ⟨_, rfl, s0, s1, ?_⟩
  have esq : b64.mul x x = b64.rnd (b64.mag (b64.abs x) * b64.mag (b64.abs x)) (2 ^ b64.unit) := by
    rw [Fmt.mul_fin hn hn, show (b64.neg x != b64.neg x) = false by simp, pack_false]
  have h2 : 2 * b64.mag (b64.abs x) < b64.mag b64.inf := by
    rw [hmi]
    refine Nat.lt_of_lt_of_le (Nat.mul_lt_mul_of_pos_left hhi (by decide)) ?_
    rw [Nat.mul_comm, ← Nat.pow_succ]
    exact Nat.pow_le_pow_right (by decide) (by decide)
  have es : fsqrt b64 (b64.mul 0x3FE0000000000000 (b64.add (b64.abs x) (fsqrt b64 (b64.add (b64.mul x x) (b64.mul y y))))) =
      rootPat b64 (b64.mag (b64.abs x) * 2 ^ b64.unit) := by
    rw [esq, add_square_zero q4 q5 hy, fsqrt_fin q5 q4, hroot, half_twice h0 h2, fsqrt_fin h0 hn]
  have ehy : b64.mul 0x3FE0000000000000 y = b64.pack (b64.neg y) 0 := by
    have hp := Fmt.inf_pos ok64
    rw [Fmt.mul_fin (by decide) (by omega), hy, Fmt.mag_zero, Nat.mul_zero, rnd_zero ok64 hP, show b64.neg 0x3FE0000000000000 = false by decide]
    simp
  have et : fdiv b64 (b64.mul 0x3FE0000000000000 y) (rootPat b64 (b64.mag (b64.abs x) * 2 ^ b64.unit)) = b64.pack (b64.neg y) 0 := by
    rw [ehy, fdiv_zero ok64 (Fmt.abs_pack Fmt.signBit_pos) s0 s1, Fmt.neg_pack Fmt.signBit_pos]
  unfold csqrtFinite
  simp only [es, et, Fmt.abs_pack Fmt.signBit_pos]

end Verif.Cplx
