import Verif.Math.Toward

/-! # Rounding to integers -/

namespace Verif.Float.Fmt
variable {F : Fmt}

theorem mag_pow_form (n : Nat) : ∃ m e, F.mag n = m * 2 ^ e ∧ m < 2 ^ (F.f + 1) := by
  obtain ⟨m, h1, h2⟩ := mag_form (F := F) n
  exact ⟨m, _, h1, h2⟩

/-- The integral part of a finite magnitude is a magnitude. -/
theorem rep_trunc {n : Nat} (hn : n < F.inf) (u : Nat) : ∃ k, k ≤ n ∧ F.mag k = F.mag n / 2 ^ u * 2 ^ u := by
  obtain ⟨m, e, h1, h2⟩ := mag_pow_form (F := F) n
  have hle := Nat.div_mul_le_self (F.mag n) (2 ^ u)
  have hlt := F.mag_strictMono hn
  have hex : ∃ k, k ≤ F.inf ∧ F.mag k = F.mag n / 2 ^ u * 2 ^ u := by
    rcases Nat.lt_or_ge e u with h | h
    · refine representable_mul (e := e) (Nat.dvd_trans (Nat.pow_dvd_pow 2 (Nat.le_of_lt h)) ⟨_, Nat.mul_comm _ _⟩) ?_ (by omega)
      have := Nat.mul_le_mul_right (2 ^ e) (Nat.le_of_lt h2)
      omega
    · refine ⟨n, Nat.le_of_lt hn, ?_⟩
      have hd : 2 ^ u ∣ F.mag n := by rw [h1]; exact Nat.dvd_trans (Nat.pow_dvd_pow 2 h) ⟨m, Nat.mul_comm _ _⟩
      rw [Nat.div_mul_cancel hd]
  obtain ⟨k, k1, k2⟩ := hex
  exact ⟨k, (mag_le_iff (F := F)).1 (by omega), k2⟩

/-- So is the next integer, if there is a fraction. -/
theorem rep_succ (o : F.Ok) {n u : Nat} (hn : n < F.inf) (hu : u ≤ F.f + 2 * F.bias) (hf : 0 < F.mag n % 2 ^ u) :
    ∃ k, k ≤ F.inf ∧ F.mag k = (F.mag n / 2 ^ u + 1) * 2 ^ u := by
  obtain ⟨m, e, h1, h2⟩ := mag_pow_form (F := F) n
  have hlt := F.mag_strictMono hn
  have hmi := mag_inf o
  have hpu := Nat.two_pow_pos u
  have heu : e < u := by
    rcases Nat.lt_or_ge e u with h | h
    · exact h
    · exfalso
      have hd : 2 ^ u ∣ F.mag n := by rw [h1]; exact Nat.dvd_trans (Nat.pow_dvd_pow 2 h) ⟨m, Nat.mul_comm _ _⟩
      have := Nat.mod_eq_zero_of_dvd hd
      omega
  have hM : F.mag n < 2 ^ (F.f + 1) * 2 ^ e := by rw [h1]; exact Nat.mul_lt_mul_of_pos_right h2 (Nat.two_pow_pos e)
  -- the next integer is not above a power of two above the number
  have key : ∀ p, F.mag n < 2 ^ p → u ≤ p → (F.mag n / 2 ^ u + 1) * 2 ^ u ≤ 2 ^ p := by
    intro p hp hup
    rw [show 2 ^ p = 2 ^ (p - u) * 2 ^ u by rw [← Nat.pow_add]; congr 1; omega] at hp ⊢
    exact Nat.mul_le_mul_right _ ((Nat.div_lt_iff_lt_mul hpu).2 hp)
  have hinf := key _ (by rw [← hmi]; exact hlt) hu
  rcases Nat.lt_or_ge (F.f + 1 + e) u with h | h
  · have h0 : F.mag n / 2 ^ u = 0 := Nat.div_eq_of_lt (by
      rw [← Nat.pow_add] at hM
      exact Nat.lt_trans hM (Nat.pow_lt_pow_right (by omega) h))
    rw [h0] at hinf ⊢
    exact representable (m := 0 + 1) (e := u) (Nat.one_le_two_pow) (by rw [hmi]; exact hinf)
  · refine representable_mul (e := e) (Nat.dvd_trans (Nat.pow_dvd_pow 2 (Nat.le_of_lt heu)) ⟨_, Nat.mul_comm _ _⟩) ?_ (by rw [hmi]; exact hinf)
    rw [← Nat.pow_add] at hM ⊢
    exact key _ hM h

theorem trunc_fin {x : Nat} (hx : F.abs x < F.inf) : ∃ k, F.trunc x = F.pack (F.neg x) k ∧ k ≤ F.abs x ∧ F.mag k = F.mag (F.abs x) / 2 ^ F.unit * 2 ^ F.unit := by
  obtain ⟨k, h1, h2⟩ := rep_trunc hx F.unit
  refine ⟨k, ?_, h1, h2⟩
  unfold trunc whole
  rw [isFin_iff.2 hx, if_pos rfl, ← h2, rnd_mag (by omega)]

end Verif.Float.Fmt

namespace Verif.Math
open Verif.Float

/-- Halves away from zero, on magnitudes: `floor (M / U + 1/2)`. -/
def away (u M : Nat) : Nat := (2 * M + 2 ^ u) / (2 * 2 ^ u)

theorem away_eq {u M : Nat} (_ : 0 < u) : away u M = if 2 ^ u ≤ 2 * (M % 2 ^ u) then M / 2 ^ u + 1 else M / 2 ^ u := by
  unfold away
  have hp := Nat.two_pow_pos u
  generalize 2 ^ u = U at *
  have hdm := Nat.div_add_mod M U
  have hml := Nat.mod_lt M hp
  generalize M / U = q at *
  generalize M % U = r at *
  subst hdm
  have e : 2 * (U * q + r) + U = 2 * r + U + 2 * U * q := by rw [Nat.mul_add, ← Nat.mul_assoc]; omega
  rw [e, Nat.add_mul_div_left _ _ (by omega)]
  split
  · have : (2 * r + U) / (2 * U) = 1 := Nat.div_eq_of_lt_le (by omega) (by omega)
    omega
  · rw [Nat.div_eq_of_lt (by omega)]; omega

theorem away_half {u M : Nat} : away (u + 1) M = (M + 2 ^ u) / 2 ^ (u + 1) := by
  unfold away
  rw [show 2 * M + 2 ^ (u + 1) = 2 * (M + 2 ^ u) by rw [Nat.pow_succ]; omega, Nat.mul_div_mul_left _ _ (by omega)]

/-- The rounded integer is representable. -/
theorem rep_away {F : Fmt} (o : F.Ok) {n : Nat} (hn : n < F.inf) : ∃ k, k ≤ F.inf ∧ F.mag k = away F.unit (F.mag n) * 2 ^ F.unit := by
  obtain ⟨u1, u2⟩ := Fmt.unit_eq o
  have hof := o.f
  rw [away_eq (by omega)]
  have hp := Nat.two_pow_pos F.unit
  split
  · exact Fmt.rep_succ o hn (by omega) (by omega)
  · obtain ⟨k, h1, h2⟩ := Fmt.rep_trunc hn F.unit
    exact ⟨k, by omega, h2⟩

theorem pack_false {F : Fmt} (r : Nat) : F.pack false r = r := by unfold Fmt.pack; simp

theorem add_pos {F : Fmt} {a b k : Nat} (ha : a < F.inf) (hb : b < F.inf) (hk : k ≤ F.inf) (h : F.mag k = F.mag a + F.mag b) : F.add a b = k := by
  have ha' := Nat.lt_trans ha Fmt.inf_lt
  have hb' := Nat.lt_trans hb Fmt.inf_lt
  rw [Fmt.add_exact (k := k) (by rwa [Fmt.abs_of_lt ha']) (by rwa [Fmt.abs_of_lt hb']) hk (by rw [Fmt.val_of_lt ha', Fmt.val_of_lt hb', h]; omega),
    Fmt.val_of_lt ha', Fmt.val_of_lt hb', Fmt.neg_of_lt ha']
  split
  · exact pack_false k
  · rw [decide_eq_false (by omega)]; exact pack_false k

theorem u64 : b64.unit = 1074 := rfl

/-- double/round.h on finite arguments. -/
theorem round_eq {x : Nat} (hx : b64.abs x < b64.inf) :
    ∃ k, round x = b64.pack (b64.neg x) k ∧ k ≤ b64.inf ∧ b64.mag k = away b64.unit (b64.mag (b64.abs x)) * 2 ^ b64.unit := by
  have hil := Fmt.inf_lt (F := b64)
  generalize hr : b64.abs x = r at *
  have hrs : r < b64.signBit := by omega
  obtain ⟨i, i1, i2, i3⟩ := Fmt.trunc_fin (F := b64) (x := r) (by rwa [Fmt.abs_of_lt hrs])
  rw [Fmt.abs_of_lt hrs] at i2 i3
  rw [Fmt.neg_of_lt hrs, pack_false] at i1
  have hdm := Nat.div_add_mod (b64.mag r) (2 ^ b64.unit)
  have hd : ∃ d, d ≤ b64.inf ∧ b64.mag d = b64.mag r - b64.mag i := by
    obtain ⟨m, e, h1, h2⟩ := Fmt.mag_pow_form (F := b64) r
    have hlt := b64.mag_strictMono hx
    rcases Nat.lt_or_ge e b64.unit with h | h
    · refine Fmt.representable_mul (e := e) ?_ ?_ (by omega)
      · rw [i3]
        exact Nat.dvd_sub ⟨m, by rw [h1, Nat.mul_comm]⟩ (Nat.dvd_trans (Nat.pow_dvd_pow 2 (Nat.le_of_lt h)) ⟨_, Nat.mul_comm _ _⟩)
      · have := Nat.mul_le_mul_right (2 ^ e) (Nat.le_of_lt h2)
        omega
    · refine ⟨0, by omega, ?_⟩
      have hdv : 2 ^ b64.unit ∣ b64.mag r := by rw [h1]; exact Nat.dvd_trans (Nat.pow_dvd_pow 2 h) ⟨m, Nat.mul_comm _ _⟩
      rw [i3, Nat.div_mul_cancel hdv, b64.mag_zero]; omega
  obtain ⟨d, d1, d2⟩ := hd
  have d3 : b64.mag d = b64.mag r % 2 ^ b64.unit := by rw [d2, i3, Nat.mul_comm]; omega
  have hsub : b64.sub r i = d := Fmt.sub_pos hx (by omega) i2 d2
  have hhalf : b64.mag 0x3FE0000000000000 = 2 ^ 1073 := by decide +kernel
  have hone : b64.mag 0x3FF0000000000000 = 2 ^ 1074 := by decide +kernel
  have hle : b64.le 0x3FE0000000000000 d = true ↔ 2 ^ b64.unit ≤ 2 * (b64.mag r % 2 ^ b64.unit) := by
    rw [Fmt.le_pos (by decide) d1, hhalf, d3, u64, show (2 : Nat) ^ 1074 = 2 * 2 ^ 1073 by rw [← Nat.pow_succ']]
    omega
  obtain ⟨k, k1, k2⟩ := rep_away ok64 hx
  refine ⟨k, ?_, k1, k2⟩
  have hadd : b64.add i (if b64.le 0x3FE0000000000000 d then 0x3FF0000000000000 else 0) = k := by
    rw [away_eq (by rw [u64]; omega)] at k2
    by_cases hc : 2 ^ b64.unit ≤ 2 * (b64.mag r % 2 ^ b64.unit)
    · rw [if_pos (hle.2 hc)]
      rw [if_pos hc] at k2
      refine add_pos (by omega) (by decide) k1 ?_
      rw [k2, hone, i3, Nat.add_mul, Nat.one_mul, ← u64]
    · rw [if_neg (fun h => hc (hle.1 h))]
      rw [if_neg hc] at k2
      refine add_pos (by omega) (by decide) k1 ?_
      rw [k2, b64.mag_zero, i3, Nat.add_zero]
  unfold round
  simp only
  rw [hr, i1, hsub, hadd]
  unfold Fmt.copysign
  rw [Fmt.abs_of_lt (by omega)]

/-- The sum `x + 0.5` is rounded, but its integral part is right, except just below one half. -/
theorem half_sum {n : Nat} (hn : n < b64.inf) (hbad : n ≠ 0x3FDFFFFFFFFFFFFF) (hk : away 1074 (b64.mag n) < 2 ^ 52) :
    b64.mag (b64.rnd (b64.mag n + 2 ^ 1073) 1) / 2 ^ 1074 = away 1074 (b64.mag n) := by
  have e1 := away_half (u := 1073) (M := b64.mag n)
  rw [show 1073 + 1 = 1074 by rfl] at e1
  have hi64 : b64.mag b64.inf = 2 ^ 2098 := Fmt.mag_inf ok64
  have hpU := Nat.two_pow_pos 1074
  have hUH : (2 : Nat) ^ 1074 = 2 * 2 ^ 1073 := by rw [← Nat.pow_succ']
  have hlo := Nat.div_mul_le_self (b64.mag n + 2 ^ 1073) (2 ^ 1074)
  have hhi := Nat.lt_div_mul_add (a := b64.mag n + 2 ^ 1073) hpU
  rw [← e1] at hlo hhi
  generalize hkk : away 1074 (b64.mag n) = k at *
  obtain ⟨p, p1, p2⟩ := Fmt.representable (F := b64) (m := k) (e := 1074) (Nat.le_trans (Nat.le_of_lt hk) (Nat.pow_le_pow_right (by omega) (by decide)))
    (by
      have := Nat.mul_le_mul_right (2 ^ 1074) (Nat.le_of_lt hk)
      rw [← Nat.pow_add] at this
      rw [hi64]
      exact Nat.le_trans this (Nat.pow_le_pow_right (by omega) (by omega)))
  have hge : k * 2 ^ 1074 ≤ b64.mag (b64.rnd (b64.mag n + 2 ^ 1073) 1) := by
    have := rnd_mono (F := b64) (Nat.one_pos) hlo
    rw [← p2, rnd_mag p1] at this
    rw [← p2]
    exact b64.mag_mono this
  -- an upper bound that is a double
  have hle : ∃ w, w ≤ b64.inf ∧ b64.mag n + 2 ^ 1073 ≤ b64.mag w ∧ b64.mag w < (k + 1) * 2 ^ 1074 := by
    rcases Nat.eq_zero_or_pos k with h0 | h0
    · subst h0
      have hM : b64.mag n < b64.mag 0x3FE0000000000000 := by
        rw [show b64.mag 0x3FE0000000000000 = 2 ^ 1073 by decide +kernel]
        omega
      have hn2 := (Fmt.mag_lt_iff (F := b64)).1 hM
      have hn3 := b64.mag_mono (show n ≤ 0x3FDFFFFFFFFFFFFE by omega)
      rw [show b64.mag 0x3FDFFFFFFFFFFFFE = 2 ^ 1073 - 2 ^ 1021 by decide +kernel] at hn3
      refine ⟨0x3FEFFFFFFFFFFFFF, by decide, ?_, ?_⟩
      · rw [show b64.mag 0x3FEFFFFFFFFFFFFF = 2 ^ 1074 - 2 ^ 1021 by decide +kernel]
        have : (2 : Nat) ^ 1021 ≤ 2 ^ 1073 := Nat.pow_le_pow_right (by omega) (by omega)
        omega
      · rw [show b64.mag 0x3FEFFFFFFFFFFFFF = 2 ^ 1074 - 2 ^ 1021 by decide +kernel]
        have := Nat.two_pow_pos 1021
        have : (2 : Nat) ^ 1021 ≤ 2 ^ 1074 := Nat.pow_le_pow_right (by omega) (by omega)
        omega
    · obtain ⟨j1, j2⟩ := log2_bounds (show k ≠ 0 by omega)
      have j3 : Nat.log2 k ≤ 51 := by have := log2_lt (show k ≠ 0 by omega) hk; omega
      generalize Nat.log2 k = j at *
      -- g is the distance of doubles just below k + 1
      have hg : 2 ^ (1022 + j) ≤ 2 ^ 1073 := Nat.pow_le_pow_right (by omega) (by omega)
      have hgU : 2 ^ (1022 + j) ∣ 2 ^ 1074 := Nat.pow_dvd_pow 2 (by omega)
      have hgH : 2 ^ (1022 + j) ∣ 2 ^ 1073 := Nat.pow_dvd_pow 2 (by omega)
      have hgp := Nat.two_pow_pos (1022 + j)
      have hgk : 2 ^ (1022 + j) ∣ (k + 1) * 2 ^ 1074 := Nat.dvd_trans hgU ⟨_, Nat.mul_comm _ _⟩
      have hkU : (k + 1) * 2 ^ 1074 = k * 2 ^ 1074 + 2 ^ 1074 := by rw [Nat.add_mul, Nat.one_mul]
      have hup : (k + 1) * 2 ^ 1074 ≤ 2 ^ (52 + 1) * 2 ^ (1022 + j) := by
        have := Nat.mul_le_mul_right (2 ^ 1074) (show k + 1 ≤ 2 ^ (j + 1) by omega)
        rw [← Nat.pow_add] at this
        rw [← Nat.pow_add, show 52 + 1 + (1022 + j) = j + 1 + 1074 by omega]
        exact this
      obtain ⟨w, w1, w2⟩ := Fmt.representable_mul (F := b64) (d := (k + 1) * 2 ^ 1074 - 2 ^ (1022 + j)) (e := 1022 + j)
        (Nat.dvd_sub hgk ⟨1, by omega⟩) (by rw [show b64.f = 52 by rfl]; omega) (by
          rw [hi64]
          refine Nat.le_trans (Nat.sub_le _ _) (Nat.le_trans hup ?_)
          rw [← Nat.pow_add]
          exact Nat.pow_le_pow_right (by omega) (by omega))
      refine ⟨w, w1, ?_, by omega⟩
      rw [w2]
      rcases Nat.lt_or_ge (b64.mag n) (2 ^ j * 2 ^ 1074) with h | h
      · have := Nat.mul_le_mul_right (2 ^ 1074) j1
        omega
      · obtain ⟨m, e, m1, m2⟩ := Fmt.mag_pow_form (F := b64) n
        have he : 1022 + j ≤ e := by
          rcases Nat.lt_or_ge e (1022 + j) with hlt | hge
          · exfalso
            have a1 := Nat.mul_lt_mul_of_pos_right m2 (Nat.two_pow_pos e)
            rw [← m1, ← Nat.pow_add] at a1
            rw [← Nat.pow_add] at h
            have a2 := Nat.pow_le_pow_right (n := 2) (by omega) (show b64.f + 1 + e ≤ j + 1074 by
              rw [show b64.f = 52 by rfl]; omega)
            omega
          · exact hge
        have hgn : 2 ^ (1022 + j) ∣ b64.mag n := by rw [m1]; exact Nat.dvd_trans (Nat.pow_dvd_pow 2 he) ⟨m, Nat.mul_comm _ _⟩
        obtain ⟨a, ha⟩ := Nat.dvd_add hgn hgH
        obtain ⟨b, hb⟩ := hgk
        have hab : a < b := by
          apply Nat.lt_of_mul_lt_mul_left (a := 2 ^ (1022 + j))
          rw [← ha, ← hb]
          omega
        rw [ha, hb]
        have : 2 ^ (1022 + j) * (a + 1) ≤ 2 ^ (1022 + j) * b := Nat.mul_le_mul_left _ hab
        rw [Nat.mul_add, Nat.mul_one] at this
        omega
  obtain ⟨w, w1, w2, w3⟩ := hle
  have hle2 : b64.mag (b64.rnd (b64.mag n + 2 ^ 1073) 1) < (k + 1) * 2 ^ 1074 := by
    have := rnd_mono (F := b64) (Nat.one_pos) w2
    rw [rnd_mag w1] at this
    have := b64.mag_mono this
    omega
  exact Nat.div_eq_of_lt_le hge hle2

end Verif.Math
