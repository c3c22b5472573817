import Verif.Hyp.Model
import Verif.Cplx.SqrtLemmas

/-! # Exact operations -/

namespace Verif.Hyp
open Verif.Float Verif.Math
open Verif.Cplx

variable {F : Fmt}

theorem fin_lt (o : F.Ok) : F.inf < F.signBit := Fmt.inf_lt

theorem val_add_exact {x y : Nat} (hx : F.abs x < F.inf) (hy : F.abs y < F.inf) (h : ∃ k, k < F.inf ∧ F.mag k = (F.val x + F.val y).natAbs) :
    F.abs (F.add x y) < F.inf ∧ F.val (F.add x y) = F.val x + F.val y := by
  obtain ⟨k, hk, e⟩ := h
  have hl := Nat.lt_trans hk (Fmt.inf_lt (F := F))
  rw [Fmt.add_exact hx hy (Nat.le_of_lt hk) e, Fmt.abs_pack hl, Fmt.val_pack hl]
  refine ⟨hk, ?_⟩
  by_cases h0 : F.val x + F.val y = 0
  · rw [if_pos h0]
    have : F.mag k = 0 := by rw [e, h0]; rfl
    rw [this, h0]; simp
  · rw [if_neg h0, e]
    by_cases hn : F.val x + F.val y < 0
    · rw [decide_eq_true hn, if_pos rfl]; omega
    · rw [decide_eq_false hn, if_neg (by simp)]; omega

theorem val_sub_exact {x y : Nat} (hx : F.abs x < F.inf) (hy : F.abs y < F.inf) (h : ∃ k, k < F.inf ∧ F.mag k = (F.val x - F.val y).natAbs) :
    F.abs (F.sub x y) < F.inf ∧ F.val (F.sub x y) = F.val x - F.val y := by
  unfold Fmt.sub
  have := val_add_exact (F := F) (x := x) (y := F.opp y) hx (by rwa [Fmt.abs_opp]) (by rw [Fmt.val_opp]; exact h)
  rw [Fmt.val_opp] at this
  exact this

theorem rnd_pos_of_pos (o : F.Ok) {n : Nat} (h : 0 < n) : 0 < F.rnd n 1 := by
  have h1 : F.mag 1 = 1 := Fmt.mag_tiny (by have := Nat.two_pow_pos (F.f + 1); omega)
  have h2 := rnd_mono (F := F) (den := 1) (by omega) (show F.mag 1 ≤ n by omega)
  rw [rnd_mag (by have := Fmt.inf_pos o; omega)] at h2
  omega

theorem val_add_sign (o : F.Ok) {x y : Nat} (hx : F.abs x < F.inf) (hy : F.abs y < F.inf) :
    F.abs (F.add x y) ≤ F.inf ∧ (0 < F.val (F.add x y) ↔ 0 < F.val x + F.val y) ∧ (F.val (F.add x y) = 0 ↔ F.val x + F.val y = 0) := by
  rw [Fmt.add_fin hx hy]
  unfold Fmt.rndInt
  have hil := Fmt.inf_lt (F := F)
  by_cases h0 : F.val x + F.val y = 0
  · rw [if_pos h0, Fmt.abs_pack Fmt.signBit_pos, Fmt.val_pack Fmt.signBit_pos, F.mag_zero, h0]
    simp
  · rw [if_neg h0]
    have hp := rnd_pos_of_pos o (show 0 < (F.val x + F.val y).natAbs by omega)
    have hl := rnd_le (F := F) (F.val x + F.val y).natAbs 1 (by omega)
    have hlt := Nat.lt_of_le_of_lt hl hil
    have hm := Fmt.mag_pos (F := F) hp
    rw [Fmt.abs_pack hlt, Fmt.val_pack hlt]
    refine ⟨hl, ?_, ?_⟩
    all_goals
      by_cases hn : F.val x + F.val y < 0
      · rw [decide_eq_true hn, if_pos rfl]; omega
      · rw [decide_eq_false hn, if_neg (by simp)]; omega

theorem mul_exact {a b k : Nat} (ha : a < F.inf) (hb : b < F.inf) (hk : k < F.inf) (h : F.mag a * F.mag b = 2 ^ F.unit * F.mag k) : F.mul a b = k := by
  have la := Nat.lt_trans ha (Fmt.inf_lt (F := F))
  have lb := Nat.lt_trans hb (Fmt.inf_lt (F := F))
  rw [Fmt.mul_fin (by rwa [Fmt.abs_of_lt la]) (by rwa [Fmt.abs_of_lt lb]), Fmt.abs_of_lt la, Fmt.abs_of_lt lb, Fmt.neg_of_lt la, Fmt.neg_of_lt lb,
    rnd_exact (Nat.two_pow_pos _) (Nat.le_of_lt hk) h]
  exact Cplx.pack_false k

/-- A magnitude of at most `f + 1` bits below the overflow threshold is that of a finite pattern. -/
theorem rep_lt {m e : Nat} (hm : m ≤ 2 ^ (F.f + 1)) (h : m * 2 ^ e < F.mag F.inf) : ∃ k, k < F.inf ∧ F.mag k = m * 2 ^ e := by
  obtain ⟨k, hk, e⟩ := Fmt.representable (F := F) hm (Nat.le_of_lt h)
  exact ⟨k, Fmt.mag_lt_iff.1 (by rw [e]; exact h), e⟩

/-- The difference of two patterns within a factor of two is exact. -/
theorem sub_close {a b : Nat} (ha : a < F.inf) (hb : b < F.inf) (h1 : F.mag a ≤ 2 * F.mag b) (h2 : F.mag b ≤ 2 * F.mag a) :
    F.abs (F.sub a b) < F.inf ∧ F.val (F.sub a b) = (F.mag a : Int) - F.mag b := by
  have la := Nat.lt_trans ha (Fmt.inf_lt (F := F))
  have lb := Nat.lt_trans hb (Fmt.inf_lt (F := F))
  have key := val_sub_exact (F := F) (x := a) (y := b) (by rwa [Fmt.abs_of_lt la]) (by rwa [Fmt.abs_of_lt lb])
  rw [Fmt.val_of_lt la, Fmt.val_of_lt lb] at key
  apply key
  rcases Nat.le_total b a with h | h
  · obtain ⟨d, hd, e⟩ := Fmt.sterbenz (F := F) h h1 (Nat.le_of_lt ha)
    have := F.mag_mono h
    have l := F.mag_strictMono ha
    exact ⟨d, (Fmt.mag_lt_iff (F := F)).1 (by omega), by omega⟩
  · obtain ⟨d, hd, e⟩ := Fmt.sterbenz (F := F) h h2 (Nat.le_of_lt hb)
    have := F.mag_mono h
    have l := F.mag_strictMono hb
    exact ⟨d, (Fmt.mag_lt_iff (F := F)).1 (by omega), by omega⟩

/-- The root is monotone. -/
theorem root_le {n p : Nat} (hn : n < 2 ^ 2 ^ F.w * 2 ^ 2 ^ F.w) (h : n ≤ F.mag p * F.mag p) : rootPat F n ≤ p := by
  obtain ⟨h1, -⟩ := rootPat_spec (F := F) hn
  generalize rootPat F n = r at *
  rcases Nat.lt_or_ge p r with hc | hc
  · exfalso
    have a1 := F.mag_mono (show p ≤ r - 1 by omega)
    have a2 := F.mag_strictMono hc
    have := sq_lt.2 (show 2 * F.mag p < F.mag (r - 1) + F.mag r by omega)
    rw [show 2 * F.mag p * (2 * F.mag p) = 4 * (F.mag p * F.mag p) by ring] at this
    omega
  · exact hc

theorem le_root {n p : Nat} (hn : n < 2 ^ 2 ^ F.w * 2 ^ 2 ^ F.w) (h : F.mag p * F.mag p ≤ n) : p ≤ rootPat F n := by
  obtain ⟨-, h1⟩ := rootPat_spec (F := F) hn
  generalize rootPat F n = r at *
  rcases Nat.lt_or_ge r p with hc | hc
  · exfalso
    have a1 := F.mag_mono (show r + 1 ≤ p by omega)
    have a2 := F.mag_strictMono hc
    have := sq_lt.2 (show F.mag r + F.mag (r + 1) < 2 * F.mag p by omega)
    rw [show 2 * F.mag p * (2 * F.mag p) = 4 * (F.mag p * F.mag p) by ring] at this
    omega
  · exact hc

/-- The sum of two patterns, its rounding error and the operations that recover it (`Fast2Sum`). -/
theorem fast2sum (o : F.Ok) {a b : Nat} (hab : b ≤ a) (hs : F.mag a + F.mag b < F.mag F.inf) (hr : F.rnd (F.mag a + F.mag b) 1 < F.inf) :
    F.add a b = F.rnd (F.mag a + F.mag b) 1 ∧
    ∃ e, F.add (F.sub a (F.sub (F.add a b) (F.sub (F.add a b) a))) (F.sub b (F.sub (F.add a b) a)) = e ∧ F.abs e < F.inf ∧
      F.val e = (F.mag a : Int) + F.mag b - F.mag (F.rnd (F.mag a + F.mag b) 1) := by
  have hil := Fmt.inf_lt (F := F)
  have ha : a < F.inf := (Fmt.mag_lt_iff (F := F)).1 (by omega)
  have hb : b < F.inf := by omega
  have la := Nat.lt_trans ha hil
  have lb := Nat.lt_trans hb hil
  have fa : F.abs a < F.inf := by rwa [Fmt.abs_of_lt la]
  have fb : F.abs b < F.inf := by rwa [Fmt.abs_of_lt lb]
  have hadd : F.add a b = F.rnd (F.mag a + F.mag b) 1 := by
    rw [Fmt.add_fin fa fb, Fmt.val_of_lt la, Fmt.val_of_lt lb, Fmt.neg_of_lt la]
    unfold Fmt.rndInt
    by_cases h0 : ((F.mag a : Int) + F.mag b) = 0
    · rw [if_pos h0]
      have : F.mag a + F.mag b = 0 := by omega
      rw [this, rnd_zero 1 (by omega)]; rfl
    · rw [if_neg h0, decide_eq_false (by omega)]
      rw [show ((F.mag a : Int) + F.mag b).natAbs = F.mag a + F.mag b by omega]
      exact Cplx.pack_false _
  refine ⟨hadd, ?_⟩
  rw [hadd]
  generalize hrr : F.rnd (F.mag a + F.mag b) 1 = r at *
  have hn := rnd_nearest (F := F) (F.mag a + F.mag b) 1 (by omega)
  rw [hrr] at hn
  have lr := Nat.lt_trans hr hil
  have fr : F.abs r < F.inf := by rwa [Fmt.abs_of_lt lr]
  -- the sum is between `a` and `2 a`
  have har : a ≤ r := by
    have := rnd_mono (F := F) (den := 1) (by omega) (show F.mag a ≤ F.mag a + F.mag b by omega)
    rw [rnd_mag (Nat.le_of_lt ha), hrr] at this
    exact this
  have hmar := F.mag_mono har
  have hmba := F.mag_mono hab
  have hr2 : F.mag r ≤ 2 * F.mag a := by
    rcases Nat.lt_or_ge (F.mag F.inf) (2 * F.mag a) with h | h
    · have := F.mag_strictMono hr; omega
    · obtain ⟨d, hd, e⟩ := Fmt.representable_double (F := F) (a := a) h
      have := rnd_mono (F := F) (den := 1) (by omega) (show F.mag a + F.mag b ≤ F.mag d by omega)
      rw [rnd_mag hd, hrr] at this
      have := F.mag_mono this
      omega
  -- the error is at most `b`
  have herr : dist (F.mag a + F.mag b) (F.mag r) ≤ F.mag b := by
    have := hn.best a (by omega)
    unfold dist at *
    omega
  obtain ⟨f1, v1⟩ := sub_close (F := F) hr ha hr2 (by omega)
  -- `r - (r - a)` is `a`
  obtain ⟨f2, v2⟩ := val_sub_exact (F := F) (x := r) (y := F.sub r a) fr f1 ⟨a, ha, by rw [v1, Fmt.val_of_lt lr]; omega⟩
  rw [v1, Fmt.val_of_lt lr] at v2
  obtain ⟨f3, v3⟩ := val_sub_exact (F := F) (x := a) (y := F.sub r (F.sub r a)) fa f2 ⟨0, Fmt.inf_pos o, by rw [v2, Fmt.val_of_lt la, F.mag_zero]; omega⟩
  rw [v2, Fmt.val_of_lt la] at v3
  -- the error is representable
  have hrep : ∃ k, k < F.inf ∧ F.mag k = ((F.mag b : Int) - (F.mag r - F.mag a)).natAbs := by
    have d1 : F.ulp b ∣ F.mag b := Fmt.ulp_dvd_mag b
    have d2 : F.ulp b ∣ F.mag a := Nat.dvd_trans (Fmt.ulp_dvd_ulp hab) (Fmt.ulp_dvd_mag a)
    have d3 : F.ulp b ∣ F.mag r := Nat.dvd_trans (Fmt.ulp_dvd_ulp (by omega)) (Fmt.ulp_dvd_mag r)
    obtain ⟨m, hm, hml⟩ := Fmt.mag_form (F := F) b
    have hd : F.ulp b ∣ dist (F.mag a + F.mag b) (F.mag r) := by
      unfold dist
      rcases Nat.le_total (F.mag r) (F.mag a + F.mag b) with h | h
      · rw [Nat.sub_eq_zero_of_le h, Nat.add_zero]; exact Nat.dvd_sub (Nat.dvd_add d2 d1) d3
      · rw [Nat.sub_eq_zero_of_le h, Nat.zero_add]; exact Nat.dvd_sub d3 (Nat.dvd_add d2 d1)
    have hinf := F.mag_strictMono hb
    obtain ⟨k, hk, e⟩ := Fmt.representable_mul (F := F) (d := dist (F.mag a + F.mag b) (F.mag r)) (e := b / 2 ^ F.f - 1) hd
      (by
        refine Nat.le_trans herr ?_
        rw [hm]
        exact Nat.mul_le_mul_right _ (Nat.le_of_lt hml)) (by omega)
    refine ⟨k, (Fmt.mag_lt_iff (F := F)).1 (by omega), ?_⟩
    rw [e]; unfold dist; omega
  obtain ⟨f4, v4⟩ := val_sub_exact (F := F) (x := b) (y := F.sub r a) fb f1 (by rw [v1, Fmt.val_of_lt lb]; exact hrep)
  rw [v1, Fmt.val_of_lt lb] at v4
  obtain ⟨f5, v5⟩ := val_add_exact (F := F) f3 f4 (by rw [v3, v4]; obtain ⟨k, hk, e⟩ := hrep; exact ⟨k, hk, by rw [e]; omega⟩)
  exact ⟨_, rfl, f5, by rw [v5, v3, v4]; omega⟩

end Verif.Hyp
