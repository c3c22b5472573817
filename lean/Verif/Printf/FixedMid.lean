import Verif.Printf.FixedLarge
import Verif.Printf.FloatOps

/-!
# Moderate numbers
-/

namespace Verif.Printf

open Spec Verif.Float Verif.Math.Spec Verif.Math

/-! ## Digits -/

theorem modfDigits_eq (k frac : Nat) (h : frac < 2 ^ 60) :
    modfDigits k frac = (places 10 false k (10 ^ k * frac / 2 ^ 60), 10 ^ k * frac % 2 ^ 60) := by
  induction k generalizing frac with
  | zero => simp only [modfDigits, places, Nat.pow_zero, Nat.one_mul, Nat.mod_eq_of_lt h]
  | succ k ih =>
    simp only [modfDigits]
    rw [Nat.mod_eq_of_lt (show frac * 10 < 2 ^ 64 by omega), ih _ (Nat.mod_lt _ (by decide)), Nat.shiftRight_eq_div_pow]
    have hdm := Nat.div_add_mod (frac * 10) (2 ^ 60)
    have hml := Nat.mod_lt (frac * 10) (show 0 < 2 ^ 60 by decide)
    have hd : frac * 10 / 2 ^ 60 < 10 := by omega
    generalize frac * 10 / 2 ^ 60 = d at *
    generalize frac * 10 % 2 ^ 60 = r at *
    have e : 10 ^ (k + 1) * frac = 2 ^ 60 * (10 ^ k * d) + 10 ^ k * r := by
      rw [Nat.pow_succ, Nat.mul_assoc, Nat.mul_comm 10, ← hdm, Nat.mul_add, Nat.mul_left_comm]
    have hlt : 10 ^ k * r / 2 ^ 60 < 10 ^ k := by
      rw [Nat.div_lt_iff_lt_mul (by decide)]
      exact Nat.mul_lt_mul_of_pos_left hml (Nat.pow_pos (by decide))
    rw [e, Nat.mul_add_mod, Nat.mul_add_div (by decide)]
    congr 1
    generalize 10 ^ k * r / 2 ^ 60 = V at *
    rw [Nat.add_comm k 1, places_add 10 (by decide), Nat.mul_add_div (Nat.pow_pos (by decide)), Nat.div_eq_of_lt hlt, Nat.add_zero,
      ← places_mod 10 (by decide) false k (10 ^ k * d + V), Nat.mul_add_mod, Nat.mod_eq_of_lt hlt]
    simp only [places, List.nil_append, List.cons_append, Nat.mod_eq_of_lt hd, digit, if_pos hd]

/-- Digits, the first of which may be ten. -/
def chars (n v : Nat) : List Nat := (48 + v / 10 ^ n) :: places 10 false n v

theorem chars_succ (n v t : Nat) (ht : t < 10) : chars (n + 1) (10 * v + t) = chars n v ++ [48 + t] := by
  unfold chars
  have h1 : (10 * v + t) / 10 ^ (n + 1) = v / 10 ^ n := by
    rw [Nat.pow_succ, Nat.mul_comm (10 ^ n), ← Nat.div_div_eq_div_mul]; congr 1; omega
  have h2 : (10 * v + t) / 10 = v := by omega
  have h3 : (10 * v + t) % 10 = t := by omega
  simp only [places, h1, h2, h3, digit, if_pos ht, List.cons_append]

theorem modfCarry_eq (n D last : Nat) (hD : D < 10 ^ n) (hl : last ≤ 10) :
    (modfCarry ((48 + last) :: (places 10 false n D).reverse)).reverse = chars n (10 * D + last) := by
  induction n generalizing D last with
  | zero =>
    have : D = 0 := by simpa using hD
    subst this
    simp [places, modfCarry, chars]
  | succ n ih =>
    have hlt : D / 10 < 10 ^ n := by rw [Nat.pow_succ] at hD; omega
    have hm : D % 10 < 10 := Nat.mod_lt _ (by decide)
    simp only [places, List.reverse_append, List.reverse_cons, List.reverse_nil, List.nil_append, List.cons_append, digit, if_pos hm]
    unfold modfCarry
    by_cases h : 57 < 48 + last
    · rw [if_pos h, List.reverse_cons, Nat.add_assoc, ih _ _ hlt (by omega)]
      have e : 10 * D + last = 10 * (10 * (D / 10) + (D % 10 + 1)) + 0 := by omega
      rw [e, chars_succ _ _ 0 (by decide)]
      congr 2; omega
    · rw [if_neg h, List.reverse_cons, ih _ _ hlt (by omega)]
      rw [chars_succ n D last (by omega)]
      congr 2; omega

theorem chars_lt (n v : Nat) (h : v < 10 ^ (n + 1)) : chars n v = places 10 false (n + 1) v := by
  unfold chars
  have hq : v / 10 ^ n < 10 := Nat.div_lt_of_lt_mul (by rw [← Nat.pow_succ]; exact h)
  rw [Nat.add_comm n 1, places_add 10 (by decide)]
  simp only [places, List.nil_append, List.cons_append, Nat.mod_eq_of_lt hq, digit, if_pos hq]

theorem chars_top (n : Nat) : chars n (10 ^ (n + 1)) = 58 :: places 10 false n 0 := by
  unfold chars
  rw [Nat.pow_succ, Nat.mul_div_cancel_left _ (Nat.pow_pos (by decide)), Nat.mul_comm, places_mul 10 (by decide), places_zero 10 (by decide)]

/-! ## The last digit -/

theorem pw (a b c : Nat) (h : a + b = c) : 2 ^ c = 2 ^ a * 2 ^ b := by rw [← h, Nat.pow_add]

theorem mag_tenth : b64.mag 0x3C64000000000000 = 10 * 2 ^ 1014 := by decide +kernel
theorem mag_shift : b64.mag 0x43B0000000000000 = 2 ^ 60 * 2 ^ 1074 := by decide +kernel
theorem mag_inf64 : b64.mag b64.inf = 2 ^ 2098 := by decide +kernel
theorem pow_le_inf (j : Nat) (h : j ≤ 2098) : 2 ^ j ≤ b64.mag b64.inf := by
  rw [mag_inf64]; exact Nat.pow_le_pow_right (by decide) h

theorem last_le {f last : Nat} (hf : f < 2 ^ 60) (h : dist (10 * f) (last * 2 ^ 60) ≤ 2 ^ 59 + 2 ^ 11) : last ≤ 10 := by
  unfold dist at h; omega

theorem last_zero {last : Nat} (h : dist (10 * 0) (last * 2 ^ 60) ≤ 2 ^ 59 + 2 ^ 11) : last = 0 := by
  unfold dist at h; omega

theorem tie_aux {f last E : Nat} (h : 2 * dist (10 * f) (last * (4 * E)) = 4 * E) : E ∣ 5 * f := by
  have e : last * (4 * E) = 4 * (E * last) := by rw [Nat.mul_left_comm, Nat.mul_comm last]
  rw [e] at h
  unfold dist at h
  have h3 : 5 * f = E * (2 * last + 1) ∨ 5 * f + E = E * (2 * last) := by
    rw [Nat.mul_add, Nat.mul_one, Nat.mul_left_comm]
    generalize E * last = L at *
    omega
  rcases h3 with h3 | h3
  · exact ⟨_, h3⟩
  · exact (Nat.dvd_add_left (Nat.dvd_refl E)).1 ⟨_, h3⟩

theorem last_tie {f last : Nat} (h : 2 * dist (10 * f) (last * 2 ^ 60) = 2 ^ 60) : f = 2 ^ 58 * (f / 2 ^ 58) := by
  have e : (2 : Nat) ^ 60 = 4 * 2 ^ 58 := by decide
  rw [e] at h
  have hd : 2 ^ 58 ∣ f := Nat.Coprime.dvd_of_dvd_mul_left (Nat.Coprime.pow_left 58 (by decide)) (tie_aux h)
  exact (Nat.mul_div_cancel' hd).symm

theorem scaled_close {f c R A C : Nat} (hT : 0 < C) (hA : A = 2 ^ 60 * C) (hc : 2 * dist (f * A) c ≤ 2 ^ 67 * C)
    (hm : 2 * dist (c * (10 * C)) (A * R) ≤ A * (2 ^ 11 * C)) : dist (10 * f * C) R ≤ 2 ^ 11 * C := by
  have a1 := dist_tri (10 * f * A) (10 * c) (2 ^ 60 * R)
  have a2 : dist (10 * f * A) (10 * c) = 10 * dist (f * A) c := by
    rw [Nat.mul_assoc, Nat.mul_comm 10 (f * A), Nat.mul_comm 10 c, dist_mul, Nat.mul_comm]
  have a3 : dist (c * (10 * C)) (A * R) = dist (10 * c) (2 ^ 60 * R) * C := by
    rw [← dist_mul, hA, Nat.mul_right_comm (2 ^ 60) C R, ← Nat.mul_assoc, Nat.mul_comm c]
  have a4 : dist (10 * f * A) (2 ^ 60 * R) = 2 ^ 60 * dist (10 * f * C) R := by
    rw [hA, Nat.mul_left_comm, Nat.mul_comm (2 ^ 60) (10 * f * C), Nat.mul_comm (2 ^ 60) R, dist_mul, Nat.mul_comm]
  rw [a3] at hm
  have hm2 : 2 * dist (10 * c) (2 ^ 60 * R) ≤ 2 ^ 60 * (2 ^ 11 * C) := by
    refine Nat.le_of_mul_le_mul_right ?_ hT
    rw [Nat.mul_assoc]
    refine Nat.le_trans hm (Nat.le_of_eq ?_)
    rw [hA, Nat.mul_right_comm]
  rw [a2, a4] at a1
  generalize dist (f * A) c = X at *
  generalize dist (10 * c) (2 ^ 60 * R) = Y at *
  generalize dist (10 * f * C) R = Z at *
  clear hA a2 a3 a4 hm
  omega

theorem scaled_round {f R last A C : Nat} (hT : 0 < C) (hA : A = 2 ^ 60 * C) (hk : dist (10 * f * C) R ≤ 2 ^ 11 * C)
    (hn : 2 * dist R (last * A) ≤ A) : dist (10 * f) (last * 2 ^ 60) ≤ 2 ^ 59 + 2 ^ 11 := by
  refine Nat.le_of_mul_le_mul_right ?_ hT
  rw [← dist_mul, Nat.mul_assoc last, ← hA]
  have := dist_tri (10 * f * C) R (last * A)
  generalize dist (10 * f * C) (last * A) = W at *
  generalize dist (10 * f * C) R = X at *
  generalize dist R (last * A) = Y at *
  omega

theorem scaled_tie {f R last A C : Nat} (hA : A = 2 ^ 60 * C) (hx : 2 ^ 60 * R = 10 * f * A)
    (he : 2 * dist (10 * f) (last * 2 ^ 60) = 2 ^ 60) : 2 * dist R (last * A) = A := by
  have hr : R = 10 * f * C := by
    rw [hA, Nat.mul_left_comm] at hx
    exact Nat.eq_of_mul_eq_mul_left (by decide) hx
  rw [hr, hA, ← Nat.mul_assoc, dist_mul, ← Nat.mul_assoc, he]

theorem p1074 : (2 : Nat) ^ 1074 = 2 ^ 60 * 2 ^ 1014 := pw 60 1014 1074 rfl

theorem ofInt_close (f : Nat) (hf : f < 2 ^ 60) : 2 * dist (f * 2 ^ 1074) (b64.mag (b64.ofInt f)) ≤ 2 ^ 67 * 2 ^ 1014 := by
  have hU : b64.unit = 1074 := Verif.Math.u64
  have hc := rnd_close (F := b64) (f * 2 ^ b64.unit) 1 1134 (by decide) (by decide) (by
    rw [hU, Nat.one_mul, pw 60 1074 1134 rfl]
    exact Nat.mul_le_mul_right _ (Nat.le_of_lt hf)) (pow_le_inf _ (by decide))
  rw [← ofInt_nat, Nat.one_mul, Nat.one_mul, hU, show 1134 - (b64.f + 1) = 1081 by decide, pw 67 1014 1081 rfl] at hc
  exact hc

theorem ofInt_bound (f : Nat) (hf : f < 2 ^ 60) : b64.mag (b64.ofInt f) ≤ 2 ^ 1134 := by
  have hU : b64.unit = 1074 := Verif.Math.u64
  obtain ⟨k, k1, k2⟩ := Fmt.representable (F := b64) (m := 1) (e := 1134) (by decide) (by rw [Nat.one_mul]; exact pow_le_inf _ (by decide))
  rw [Nat.one_mul] at k2
  rw [← k2]
  apply b64.mag_mono
  rw [ofInt_nat, ← rnd_mag k1]
  apply rnd_mono (by decide)
  rw [k2, hU, pw 60 1074 1134 rfl]
  exact Nat.mul_le_mul_right _ (Nat.le_of_lt hf)

theorem lt_inf_of_mag {x j : Nat} (h : b64.mag x ≤ 2 ^ j) (hj : j < 2098) : x < b64.inf := by
  rcases Nat.lt_or_ge x b64.inf with h' | h'
  · exact h'
  · have := b64.mag_mono h'
    have h2 := Nat.pow_lt_pow_right (show 1 < 2 by decide) hj
    rw [mag_inf64] at this
    exact absurd (Nat.lt_of_lt_of_le h2 (Nat.le_trans this h)) (Nat.lt_irrefl _)

theorem tenth_le (c A C : Nat) (hA : A = 2 ^ 60 * C) (hc : c ≤ 2 ^ 60 * A) : c * (10 * C) ≤ A * (2 ^ 4 * A) := by
  have := Nat.mul_le_mul hc (show 10 * C ≤ 16 * C by omega)
  refine Nat.le_trans this (Nat.le_of_eq ?_)
  rw [Nat.mul_comm (2 ^ 60) A, Nat.mul_assoc]
  congr 1
  rw [hA, Nat.mul_left_comm]

theorem tenth_close (c : Nat) (hc : c ≤ 2 ^ 1134) :
    2 * dist (c * (10 * 2 ^ 1014)) (2 ^ 1074 * b64.mag (b64.rnd (c * (10 * 2 ^ 1014)) (2 ^ 1074))) ≤ 2 ^ 1074 * (2 ^ 11 * 2 ^ 1014) := by
  have hm := rnd_close (F := b64) (c * (10 * 2 ^ 1014)) (2 ^ 1074) 1078 (Nat.two_pow_pos _) (by decide) (by
    rw [pw 4 1074 1078 rfl]
    rw [pw 60 1074 1134 rfl] at hc
    exact tenth_le _ _ _ p1074 hc) (pow_le_inf _ (by decide))
  rw [show 1078 - (b64.f + 1) = 1025 by decide, pw 11 1014 1025 rfl] at hm
  exact hm

theorem tenth_bound (c : Nat) (hc : c ≤ 2 ^ 1134) : b64.mag (b64.rnd (c * (10 * 2 ^ 1014)) (2 ^ 1074)) ≤ 2 ^ 1078 := by
  obtain ⟨k, k1, k2⟩ := Fmt.representable (F := b64) (m := 1) (e := 1078) (by decide) (by rw [Nat.one_mul]; exact pow_le_inf _ (by decide))
  rw [Nat.one_mul] at k2
  rw [← k2]
  apply b64.mag_mono
  have : b64.rnd (2 ^ 1074 * b64.mag k) (2 ^ 1074) = k := rnd_exact (Nat.two_pow_pos _) k1 rfl
  rw [← this]
  apply rnd_mono (Nat.two_pow_pos _)
  rw [k2, pw 4 1074 1078 rfl]
  rw [pw 60 1074 1134 rfl] at hc
  exact tenth_le _ _ _ p1074 hc

theorem tie_exact (f t : Nat) (hf : f < 2 ^ 60) (ht : f = 2 ^ 58 * t) :
    2 ^ 60 * b64.mag (b64.rnd (b64.mag (b64.ofInt f) * (10 * 2 ^ 1014)) (2 ^ 1074)) = 10 * f * 2 ^ 1074 := by
  have hU : b64.unit = 1074 := Verif.Math.u64
  have ht4 : t < 4 := by omega
  obtain ⟨k, k1, k2⟩ := Fmt.representable (F := b64) (m := t) (e := 1132) (by
    have : 4 ≤ 2 ^ (b64.f + 1) := by decide
    exact Nat.le_trans (Nat.le_of_lt ht4) this) (by
    refine Nat.le_trans (Nat.mul_le_mul_right _ (show t ≤ 2 ^ 2 from Nat.le_of_lt ht4)) ?_
    rw [← pw 2 1132 1134 rfl]
    exact pow_le_inf _ (by decide))
  have hk : b64.ofInt f = k := ofInt_rep k1 (by
    rw [k2, ht, hU, pw 58 1074 1132 rfl, ← Nat.mul_assoc, Nat.mul_comm t])
  obtain ⟨l, l1, l2⟩ := Fmt.representable (F := b64) (m := 10 * t) (e := 1072) (by
    have : 40 ≤ 2 ^ (b64.f + 1) := by decide
    exact Nat.le_trans (show 10 * t ≤ 40 by omega) this) (by
    refine Nat.le_trans (Nat.mul_le_mul_right _ (show 10 * t ≤ 2 ^ 6 by omega)) ?_
    rw [← pw 6 1072 1078 rfl]
    exact pow_le_inf _ (by decide))
  have hl : b64.rnd (b64.mag k * (10 * 2 ^ 1014)) (2 ^ 1074) = l := rnd_exact (Nat.two_pow_pos _) l1 (by
    rw [k2, l2, pw 58 1074 1132 rfl, pw 58 1014 1072 rfl]
    generalize (2 : Nat) ^ 1074 = A
    generalize (2 : Nat) ^ 1014 = C
    generalize (2 : Nat) ^ 58 = D
    simp only [Nat.mul_assoc, Nat.mul_left_comm, Nat.mul_comm])
  rw [hk, hl, l2, ht, p1074, pw 58 1014 1072 rfl]
  generalize (2 : Nat) ^ 1014 = C
  generalize (2 : Nat) ^ 58 = D
  generalize (2 : Nat) ^ 60 = E
  simp only [Nat.mul_assoc, Nat.mul_left_comm, Nat.mul_comm]

/-- The last digit: `10 f / 2^60` rounded, up to a small error. -/
theorem last_digit (f : Nat) (hf : f < 2 ^ 60) :
    ∃ last, b64.whole (b64.rint (b64.mul (b64.ofInt f) 0x3C64000000000000)) = last ∧ last ≤ 10 ∧
      dist (10 * f) (last * 2 ^ 60) ≤ 2 ^ 59 + 2 ^ 11 ∧ (2 * dist (10 * f) (last * 2 ^ 60) = 2 ^ 60 → last % 2 = 0) ∧ (f = 0 → last = 0) := by
  have hb := ofInt_bound f hf
  have hlt := lt_inf_of_mag hb (by decide)
  have hin : 0x3C64000000000000 < b64.inf := by decide +kernel
  have hr := lt_inf_of_mag (tenth_bound _ hb) (by decide)
  refine ⟨_, rfl, ?_⟩
  rw [mul_eq hlt hin, mag_tenth, Verif.Math.u64, rint_whole hr, Verif.Math.u64]
  obtain ⟨n1, n2⟩ := nearInt_spec (b64.mag (b64.rnd (b64.mag (b64.ofInt f) * (10 * 2 ^ 1014)) (2 ^ 1074))) 1074
  have hmain := scaled_round (Nat.two_pow_pos 1014) p1074
    (scaled_close (Nat.two_pow_pos 1014) p1074 (ofInt_close f hf) (tenth_close _ hb)) n1
  refine ⟨last_le hf hmain, hmain, ?_, ?_⟩
  · intro he
    exact n2 (scaled_tie p1074 (tie_exact f _ hf (last_tie he)) he)
  · intro h0
    rw [h0] at hmain
    rw [h0]
    exact last_zero hmain

/-! ## The integer and the fraction -/

theorem modf_arith {s g : Nat} (hs : s < 2 ^ 53) (hg : g ≤ 71) :
    ∃ i fr e i' fr', s * 2 ^ g = i * 2 ^ 60 + fr ∧ fr < 2 ^ 60 ∧ i ≤ 2 ^ 64 - 2048 ∧ i = i' * 2 ^ e ∧ i' ≤ 2 ^ 53 ∧ e ≤ 11 ∧ fr = fr' * 2 ^ g ∧ fr' ≤ 2 ^ 53 ∧
      i' * 2 ^ e * 2 ^ 60 ≤ s * 2 ^ g := by
  rcases Nat.lt_or_ge 60 g with h | h
  · refine ⟨s * 2 ^ (g - 60), 0, g - 60, s, 0, ?_, by decide, ?_, rfl, Nat.le_of_lt hs, by omega, by simp, by decide, ?_⟩
    · rw [Nat.add_zero, Nat.mul_assoc, ← Nat.pow_add, show g - 60 + 60 = g by omega]
    · have h1 : 2 ^ (g - 60) ≤ 2 ^ 11 := Nat.pow_le_pow_right (by decide) (by omega)
      have h2 := Nat.mul_le_mul (show s ≤ 2 ^ 53 - 1 by omega) h1
      refine Nat.le_trans h2 (by decide)
    · rw [Nat.mul_assoc, ← Nat.pow_add, show g - 60 + 60 = g by omega]; exact Nat.le_refl _
  · have hp : 2 ^ 60 = 2 ^ (60 - g) * 2 ^ g := pw _ _ _ (by omega)
    have hG := Nat.two_pow_pos g
    have hH := Nat.two_pow_pos (60 - g)
    have hdm := Nat.div_add_mod s (2 ^ (60 - g))
    have hml := Nat.mod_lt s hH
    have hle := Nat.div_le_self s (2 ^ (60 - g))
    have hmle := Nat.mod_le s (2 ^ (60 - g))
    have heq : s * 2 ^ g = s / 2 ^ (60 - g) * 2 ^ 60 + s % 2 ^ (60 - g) * 2 ^ g := by
      rw [hp, ← Nat.mul_assoc, ← Nat.add_mul, Nat.mul_comm (s / _), hdm]
    refine ⟨s / 2 ^ (60 - g), s % 2 ^ (60 - g) * 2 ^ g, 0, s / 2 ^ (60 - g), s % 2 ^ (60 - g), heq, ?_, ?_, by simp, by omega, by decide, rfl, by omega, ?_⟩
    · rw [hp]; exact Nat.mul_lt_mul_of_pos_right hml hG
    · have : (2 : Nat) ^ 53 ≤ 2 ^ 64 - 2048 := by decide
      omega
    · rw [Nat.pow_zero, Nat.mul_one, heq]; exact Nat.le_add_right _ _

theorem form64 (m : Nat) (h1 : 0x3F70000000000000 ≤ m) (h2 : m < 0x43F0000000000000) :
    ∃ s g, s < 2 ^ 53 ∧ g ≤ 71 ∧ b64.mag m = s * 2 ^ g * 2 ^ 1014 := by
  have hf : b64.f = 52 := rfl
  refine ⟨2 ^ 52 + m % 2 ^ 52, m / 2 ^ 52 - 1015, by omega, by omega, ?_⟩
  rw [b64.mag_normal (by rw [hf]; omega), hf, Nat.mul_assoc, ← Nat.pow_add]
  congr 2; omega

/-- The parts of a moderate number. -/
theorem modf_parts (m : Nat) (h1 : 0x3F70000000000000 ≤ m) (h2 : m < 0x43F0000000000000) :
    ∃ i fr, b64.mag m = i * 2 ^ 1074 + fr * 2 ^ 1014 ∧ fr < 2 ^ 60 ∧ i ≤ 2 ^ 64 - 2048 ∧ b64.whole m = i ∧
      b64.whole (b64.mul 0x43B0000000000000 (b64.sub m (b64.ofInt i))) = fr := by
  have hin : b64.inf = 0x7FF0000000000000 := by decide +kernel
  have hmlt : m < b64.inf := by rw [hin]; omega
  obtain ⟨s, g, hs, hg, hM⟩ := form64 m h1 h2
  obtain ⟨i, fr, e, i', fr', a1, a2, a3, a4, a5, a6, a7, a8, a9⟩ := modf_arith hs hg
  have hM2 : b64.mag m = i * 2 ^ 1074 + fr * 2 ^ 1014 := by
    rw [hM, a1, Nat.add_mul, Nat.mul_assoc, ← p1074]
  have hMi := Nat.le_of_lt (b64.mag_strictMono hmlt)
  -- the integer is a double
  obtain ⟨k, k1, k2⟩ := Fmt.representable (F := b64) (m := i') (e := e + 1074) a5 (by
    refine Nat.le_trans ?_ hMi
    rw [hM2, a4, Nat.pow_add, Nat.mul_assoc]
    exact Nat.le_add_right _ _)
  have hk : b64.mag k = i * 2 ^ 1074 := by rw [k2, a4, Nat.pow_add, Nat.mul_assoc]
  have hki : b64.ofInt i = k := ofInt_rep k1 (by rw [hk, Verif.Math.u64])
  have hklt : k < b64.inf := by
    rcases Nat.lt_or_ge k b64.inf with h | h
    · exact h
    · exfalso
      have hx := b64.mag_strictMono hmlt
      have hy := b64.mag_mono h
      have hz : b64.mag k ≤ b64.mag m := by rw [hk, hM2]; exact Nat.le_add_right _ _
      exact absurd (Nat.lt_of_le_of_lt hz hx) (Nat.not_lt.mpr hy)
  -- and so is the fraction
  obtain ⟨l, l1, l2⟩ := Fmt.representable (F := b64) (m := fr') (e := g + 1014) a8 (by
    refine Nat.le_trans ?_ hMi
    rw [hM2, a7, Nat.pow_add, Nat.mul_assoc]
    exact Nat.le_add_left _ _)
  have hl : b64.mag l = fr * 2 ^ 1014 := by rw [l2, a7, Nat.pow_add, Nat.mul_assoc]
  have hsub : b64.sub m k = l := sub_pos hmlt hklt l1 (by rw [hl, hk, hM2, Nat.add_comm])
  have hlb : b64.mag l ≤ 2 ^ 1074 := by
    rw [hl, p1074]; exact Nat.mul_le_mul_right _ (Nat.le_of_lt a2)
  have hllt := lt_inf_of_mag hlb (by decide)
  -- scaled, it is an integer
  obtain ⟨q, q1, q2⟩ := Fmt.representable (F := b64) (m := fr') (e := g + 1074) a8 (by
    refine Nat.le_trans ?_ (pow_le_inf 1134 (by decide))
    rw [Nat.pow_add, ← Nat.mul_assoc, ← a7, pw 60 1074 1134 rfl]
    exact Nat.mul_le_mul_right _ (Nat.le_of_lt a2))
  have hq : b64.mag q = fr * 2 ^ 1074 := by rw [q2, a7, Nat.pow_add, Nat.mul_assoc]
  have hmul : b64.mul 0x43B0000000000000 l = q := by
    rw [mul_eq (by rw [hin]; decide) hllt, mag_shift, Verif.Math.u64]
    refine rnd_exact (Nat.two_pow_pos _) q1 ?_
    rw [hl, hq, Nat.mul_comm (2 ^ 60) (2 ^ 1074), Nat.mul_assoc, Nat.mul_left_comm (2 ^ 60) fr, ← p1074]
  refine ⟨i, fr, hM2, a2, a3, ?_, ?_⟩
  · rw [whole_eq (Nat.le_of_lt hmlt), Verif.Math.u64, hM2, Nat.mul_comm i, Nat.mul_add_div (Nat.two_pow_pos _), Nat.div_eq_of_lt, Nat.add_zero]
    rw [p1074]; exact Nat.mul_lt_mul_of_pos_right a2 (Nat.two_pow_pos _)
  · rw [hki, hsub, hmul, whole_eq q1, hq, Verif.Math.u64, Nat.mul_div_cancel _ (Nat.two_pow_pos _)]

/-! ## The decimals -/

theorem dec_dist (i f D last T A C p : Nat) (fr : Nat) (hA : A = T * C) (hD : 10 ^ p * fr = T * D + f) :
    dist ((i * A + fr * C) * 10 ^ (p + 1)) ((i * 10 ^ (p + 1) + (10 * D + last)) * A) = dist (10 * f) (last * T) * C := by
  have e1 : (i * A + fr * C) * 10 ^ (p + 1) = i * 10 ^ (p + 1) * A + 10 * D * A + 10 * f * C := by
    have : fr * C * 10 ^ (p + 1) = 10 * D * A + 10 * f * C := by
      rw [Nat.pow_succ, ← Nat.mul_assoc, Nat.mul_right_comm fr C, Nat.mul_comm fr, hD, hA, Nat.add_mul, Nat.add_mul]
      congr 1
      · simp only [Nat.mul_assoc, Nat.mul_left_comm, Nat.mul_comm]
      · simp only [Nat.mul_assoc, Nat.mul_left_comm, Nat.mul_comm]
    rw [Nat.add_mul, this, Nat.mul_right_comm, Nat.add_assoc]
  have e2 : (i * 10 ^ (p + 1) + (10 * D + last)) * A = i * 10 ^ (p + 1) * A + 10 * D * A + last * T * C := by
    rw [Nat.add_mul, Nat.add_mul, Nat.add_assoc, Nat.mul_assoc last, hA]
  rw [e1, e2, ← dist_mul]
  unfold dist; omega

theorem within_arith (d C A : Nat) (hA : A = 2 ^ 60 * C) (h : d ≤ 2 ^ 59 + 2 ^ 11) : 2 ^ 49 * (d * C) ≤ (2 ^ 48 + 1) * A := by
  rw [hA, ← Nat.mul_assoc, ← Nat.mul_assoc]
  exact Nat.mul_le_mul_right _ (by omega)

theorem tie_arith (d C A : Nat) (hC : 0 < C) (hA : A = 2 ^ 60 * C) (h : 2 * (d * C) = A) : 2 * d = 2 ^ 60 := by
  rw [hA, ← Nat.mul_assoc] at h
  exact Nat.eq_of_mul_eq_mul_right hC h

/-- What `limbs_modf_` finds. -/
theorem limbsModf_eq (m p : Nat) (h1 : 0x3F70000000000000 ≤ m) (h2 : m < 0x43F0000000000000) :
    ∃ P, limbsModf m p = (P / 10 ^ p, places 10 false p P) ∧
      2 ^ 49 * dist (b64.mag m * 10 ^ p) (P * 2 ^ 1074) ≤ (2 ^ 48 + 1) * 2 ^ 1074 ∧
      (2 * dist (b64.mag m * 10 ^ p) (P * 2 ^ 1074) = 2 ^ 1074 → P % 2 = 0) ∧
      (p = 0 → 2 * dist (b64.mag m * 10 ^ p) (P * 2 ^ 1074) ≤ 2 ^ 1074) := by
  have hin : b64.inf = 0x7FF0000000000000 := by decide +kernel
  have hmlt : m < b64.inf := by rw [hin]; omega
  cases p with
  | zero =>
    obtain ⟨n1, n2⟩ := nearInt_spec (b64.mag m) 1074
    refine ⟨Fmt.nearInt (b64.mag m) 1074, ?_, ?_, ?_, ?_⟩
    · unfold limbsModf
      rw [if_pos rfl, rint_whole hmlt, Verif.Math.u64, Nat.pow_zero, Nat.div_one]
      rfl
    · rw [Nat.pow_zero, Nat.mul_one]
      generalize dist (b64.mag m) (Fmt.nearInt (b64.mag m) 1074 * 2 ^ 1074) = d at *
      generalize (2 : Nat) ^ 1074 = A at *
      omega
    · rw [Nat.pow_zero, Nat.mul_one]; exact n2
    · intro _; rw [Nat.pow_zero, Nat.mul_one]; exact n1
  | succ p =>
    obtain ⟨i, fr, c1, c2, c3, c4, c5⟩ := modf_parts m h1 h2
    have hf := Nat.mod_lt (10 ^ p * fr) (show 0 < 2 ^ 60 by decide)
    have hdm := Nat.div_add_mod (10 ^ p * fr) (2 ^ 60)
    have hD : 10 ^ p * fr / 2 ^ 60 < 10 ^ p := by
      rw [Nat.div_lt_iff_lt_mul (by decide)]
      exact Nat.mul_lt_mul_of_pos_left c2 (Nat.pow_pos (by decide))
    obtain ⟨last, d1, d2, d3, d4, d5⟩ := last_digit (10 ^ p * fr % 2 ^ 60) hf
    have hV : 10 * (10 ^ p * fr / 2 ^ 60) + last ≤ 10 ^ (p + 1) := by
      rw [Nat.pow_succ]
      generalize 10 ^ p * fr / 2 ^ 60 = D at *
      omega
    have hdd := dec_dist i (10 ^ p * fr % 2 ^ 60) (10 ^ p * fr / 2 ^ 60) last (2 ^ 60) (2 ^ 1074) (2 ^ 1014) p fr p1074 hdm.symm
    have hmc := modfCarry_eq p (10 ^ p * fr / 2 ^ 60) last hD d2
    refine ⟨i * 10 ^ (p + 1) + (10 * (10 ^ p * fr / 2 ^ 60) + last), ?_, ?_, ?_, ?_⟩
    · unfold limbsModf
      rw [if_neg (Nat.succ_ne_zero p)]
      simp only [c4, c5, Nat.add_sub_cancel, modfDigits_eq p fr c2, d1, hmc]
      generalize 10 * (10 ^ p * fr / 2 ^ 60) + last = V at *
      rw [Nat.mul_comm i, Nat.mul_add_div (Nat.pow_pos (by decide)), ← places_mod 10 (by decide) false (p + 1) (_ + V), Nat.mul_add_mod,
        places_mod 10 (by decide)]
      rcases Nat.lt_or_ge V (10 ^ (p + 1)) with h | h
      · have hq : V / 10 ^ p < 10 := Nat.div_lt_of_lt_mul (by rw [← Nat.pow_succ]; exact h)
        rw [← chars_lt p V h, Nat.div_eq_of_lt h]
        unfold chars
        simp only
        rw [if_neg (by omega), Nat.add_zero i]
      · have hVe : V = 10 ^ (p + 1) := Nat.le_antisymm hV h
        rw [hVe, chars_top, Nat.div_self (Nat.pow_pos (by decide))]
        simp only
        rw [if_pos (by decide), Nat.mod_eq_of_lt (by omega)]
        have := places_mul 10 (by decide) false (p + 1) 1
        rw [Nat.one_mul] at this
        rw [this, places_zero 10 (by decide)]
        rfl
    · rw [c1, hdd]; exact within_arith _ _ _ p1074 d3
    · rw [c1, hdd]
      intro he
      have := d4 (tie_arith _ _ _ (Nat.two_pow_pos _) p1074 he)
      rw [Nat.pow_succ]
      generalize 10 ^ p * fr / 2 ^ 60 = D
      rw [← Nat.mul_assoc]
      generalize i * 10 ^ p = J
      omega
    · intro h; omega

/-- Moderate numbers. -/
theorem fixedModerate_eq {sp : Opts} {d : Dir} {a : Ask} (h : Agrees sp d a) (p : Nat) (hp : sp.precision = (p : Int)) (x : Nat) (neg : Bool)
    (h1 : 0x3F70000000000000 ≤ b64.abs x) (h2 : b64.abs x < 0x43F0000000000000) :
    ∃ P, 2 ^ 49 * dist (b64.mag (b64.abs x) * 10 ^ p) (P * 2 ^ 1074) ≤ (2 ^ 48 + 1) * 2 ^ 1074 ∧
      (2 * dist (b64.mag (b64.abs x) * 10 ^ p) (P * 2 ^ 1074) = 2 ^ 1074 → P % 2 = 0) ∧
      (p = 0 → 2 * dist (b64.mag (b64.abs x) * 10 ^ p) (P * 2 ^ 1074) ≤ 2 ^ 1074) ∧
    let t := justifyF d a (signF d neg) (numeral 10 false (P / 10 ^ p) ++ point d p ++ places 10 false p P)
    (t.length < 2 ^ 31 → ∃ o, fixedModerate sp (signchar neg sp.flags) (b64.abs x) = some o ∧ o.chunks.flatten = t ∧ o.ret = t.length ∧
      o.stores = [] ∧ (o.fault = true ↔ 100 ≤ P / 10 ^ p)) := by
  obtain ⟨P, e, c1, c2, c3⟩ := limbsModf_eq (b64.abs x) p h1 h2
  refine ⟨P, c1, c2, c3, ?_⟩
  clear c1 c2 c3
  simp only
  generalize hI : P / 10 ^ p = I at *
  generalize ht' : justifyF d a (signF d neg) (numeral 10 false I ++ point d p ++ places 10 false p P) = t
  intro ht
  have hds : (if I = 0 then [48] else decimal I []) = numeral 10 false I := by
    by_cases h0 : I = 0
    · rw [if_pos h0, h0, numeral_small 10 false 0 (by decide)]; rfl
    · rw [if_neg h0, decimal_numeral _ (by omega)]
  have htl : t.length = max a.width ((signF d neg).length + (numeral 10 false I ++ point d p ++ places 10 false p P).length) := by
    rw [← ht']; exact justifyF_length ..
  simp only [List.length_append, places_length] at htl
  unfold fixedModerate
  rw [hp, Int.toNat_natCast, e]
  simp only
  rw [hds, pointed_eq h p hp, signchar_eq h, chk32_some _ (by omega) (by omega)]
  simp only
  have hfl : ([numeral 10 false I] ++ put (point d p) ++ [places 10 false p P]).flatten =
      numeral 10 false I ++ point d p ++ places 10 false p P := by
    simp [put_flatten]
  have harr := arrangeF_eq h (signF d neg) ([numeral 10 false I] ++ put (point d p) ++ [places 10 false p P])
    ((signF d neg).length + (numeral 10 false I).length + (point d p).length + (p : Int)) (by
      rw [hfl]; simp only [List.length_append, places_length]; omega)
  rw [hfl, ht'] at harr
  refine ⟨_, rfl, harr.1, harr.2, rfl, ?_⟩
  simp only [decide_eq_true_eq]
  have h2d : unsignedDigits = 2 := rfl
  have := numeral_length 10 false (by decide) 2 I (by decide)
  rw [h2d]
  omega

end Verif.Printf
