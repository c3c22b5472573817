import Verif.Hyp.Decide
import Verif.Hyp.Over

/-! # `hypotf` as a whole -/

namespace Verif.Hyp
open Verif.Float Verif.Math
open Verif.Cplx
open Verif.Decimal (mid nearest_iff mid_form)

theorem mid_max : mid b32 0x7F7FFFFF = (2 ^ 25 - 1) * 2 ^ 253 := by decide +kernel
theorem mag_mid_max : b64.mag 0x47EFFFFFF0000000 = mid b32 0x7F7FFFFF * 2 ^ (925 - 1) := by decide +kernel
theorem mag_max : b64.mag 0x47EFFFFFE0000000 = 2 * b32.mag 0x7F7FFFFF * 2 ^ (925 - 1) := by decide +kernel
theorem root_const : 4 * (b64.mag 0x4FEFFFFFE0000007 * 2 ^ b64.unit) <
    (b64.mag (0x47EFFFFFF0000000 - 1) + b64.mag 0x47EFFFFFF0000000) * (b64.mag (0x47EFFFFFF0000000 - 1) + b64.mag 0x47EFFFFFF0000000) := by decide +kernel
theorem sum_const : mid b64 0x4FEFFFFFE0000007 = 2 * (2 ^ 500 * (16 * ((2 ^ 25 - 1) * (2 ^ 25 - 1)) - 1) * 2 ^ 776) := by decide +kernel
theorem low_const : 2 * (b32.mag 0x7EFFFFFF * b32.mag 0x7EFFFFFF) < 2 ^ 500 * (16 * ((2 ^ 25 - 1) * (2 ^ 25 - 1)) - 1) := by decide +kernel
theorem sq_const : (2 ^ 25 - 1) * 2 ^ 253 * ((2 ^ 25 - 1) * 2 ^ 253) = 4 * (2 ^ 500 * (16 * ((2 ^ 25 - 1) * (2 ^ 25 - 1)))) := by decide +kernel
theorem pow_const : 2 ^ 253 * 2 ^ 253 = 64 * 2 ^ 500 := by decide +kernel

theorem big_const (B : Nat) : B * 2 ^ 253 * (B * 2 ^ 253) = 64 * (B * B) * 2 ^ 500 := by
  rw [show B * 2 ^ 253 * (B * 2 ^ 253) = B * B * (2 ^ 253 * 2 ^ 253) by ring, pow_const]; ring

theorem early_const {B t u : Nat} (hBg : 2 ^ 23 ≤ B) (htl : t < 2 ^ 24) (he : B * 2 ^ 253 * (2 ^ 24 - 1) ≤ t * 2 ^ u * 2 ^ 36) : 240 ≤ u := by
  by_contra hcon
  have p1 : 2 ^ u ≤ 2 ^ 239 := Nat.pow_le_pow_right (by omega) (by omega)
  have p2 : t * 2 ^ u < 2 ^ 24 * 2 ^ 239 := by
    calc t * 2 ^ u ≤ t * 2 ^ 239 := Nat.mul_le_mul_left _ p1
      _ < 2 ^ 24 * 2 ^ 239 := Nat.mul_lt_mul_of_pos_right htl (Nat.two_pow_pos _)
  have p3 : 2 ^ 23 * 2 ^ 253 * (2 ^ 24 - 1) ≤ B * 2 ^ 253 * (2 ^ 24 - 1) := Nat.mul_le_mul_right _ (Nat.mul_le_mul_right _ hBg)
  have p4 := Nat.mul_lt_mul_of_pos_right p2 (Nat.two_pow_pos 36)
  have p5 : 2 ^ 24 * 2 ^ 239 * 2 ^ 36 ≤ 2 ^ 23 * 2 ^ 253 * (2 ^ 24 - 1) := by decide +kernel
  exact absurd (Nat.le_trans p3 he) (Nat.not_le.2 (Nat.lt_of_lt_of_le p4 p5))

theorem small_const {t u : Nat} (htl : t < 2 ^ 24) (hu : 240 ≤ u) :
    ∃ j y, j ≤ 10 ∧ (j = 0 ∨ y < 2 ^ 24) ∧ t * 2 ^ u * (t * 2 ^ u) * 4 ^ j = y * y * 2 ^ 500 := by
  by_cases hc : 250 ≤ u
  · obtain ⟨i, rfl⟩ : ∃ i, u = 250 + i := ⟨u - 250, by omega⟩
    refine ⟨0, t * 2 ^ i, by omega, Or.inl rfl, ?_⟩
    rw [Nat.pow_zero, show (500 : Nat) = 250 + 250 from rfl, Nat.pow_add, Nat.pow_add]; ring
  · obtain ⟨j, hj⟩ : ∃ j, 250 = u + j := ⟨250 - u, by omega⟩
    refine ⟨j, t, by omega, Or.inr htl, ?_⟩
    rw [show (500 : Nat) = 250 + 250 from rfl, Nat.pow_add 2 250, hj, Nat.pow_add, show 4 ^ j = 2 ^ j * 2 ^ j by
      rw [show (4 : Nat) = 2 * 2 from rfl, Nat.mul_pow]]
    ring

/-- The gap below the square of the midpoint is empty. -/
theorem no_sum {a b c : Nat} (ha : a < b32.inf) (hba : b ≤ a) (he : b32.mag a * (2 ^ 24 - 1) ≤ b32.mag b * 2 ^ 36) (hc0 : 0 < c)
    (low : 2 * (b32.mag 0x7EFFFFFF * b32.mag 0x7EFFFFFF) < c * (16 * ((2 ^ 25 - 1) * (2 ^ 25 - 1)) - 1))
    (bc : ∀ B, B * 2 ^ 253 * (B * 2 ^ 253) = 64 * (B * B) * c)
    (sc : ∀ t u, t < 2 ^ 24 → 240 ≤ u → ∃ j y, j ≤ 10 ∧ (j = 0 ∨ y < 2 ^ 24) ∧ t * 2 ^ u * (t * 2 ^ u) * 4 ^ j = y * y * c)
    (r7 : c * (16 * ((2 ^ 25 - 1) * (2 ^ 25 - 1)) - 1) ≤ b32.mag a * b32.mag a + b32.mag b * b32.mag b)
    (hc : b32.mag a * b32.mag a + b32.mag b * b32.mag b < c * (16 * ((2 ^ 25 - 1) * (2 ^ 25 - 1)))) : False := by
  have hbm := b32.mag_mono hba
  have hbb := Nat.mul_le_mul hbm hbm
  have hbig : 0x7F000000 ≤ a := by
    by_contra hcon
    have h1 := b32.mag_mono (show a ≤ 0x7EFFFFFF by omega)
    have h2 := Nat.mul_le_mul h1 h1
    omega
  have hinf : b32.inf = 0x7F800000 := by decide +kernel
  have hB : b32.mag a = (2 ^ 23 + a % 2 ^ 23) * 2 ^ 253 := by
    have := b32.mag_normal (n := a) (by show 2 ^ 23 ≤ a; omega)
    change b32.mag a = (2 ^ 23 + a % 2 ^ 23) * 2 ^ (a / 2 ^ 23 - 1) at this
    rw [this, show a / 2 ^ 23 - 1 = 253 by omega]
  obtain ⟨t, ht, htl⟩ := Fmt.mag_form (F := b32) b
  unfold Fmt.ulp at ht
  change b32.mag b = t * 2 ^ (b / 2 ^ 23 - 1) at ht
  change t < 2 ^ 24 at htl
  generalize b / 2 ^ 23 - 1 = u at ht
  have hBl : 2 ^ 23 + a % 2 ^ 23 < 2 ^ 24 := by omega
  have hBg : 2 ^ 23 ≤ 2 ^ 23 + a % 2 ^ 23 := by omega
  generalize 2 ^ 23 + a % 2 ^ 23 = B at *
  rw [hB, ht] at he r7 hc
  rw [bc] at r7 hc
  obtain ⟨j, y, hj, hjy, hYY⟩ := sc t u htl (early_const hBg htl he)
  clear he hB ht bc sc low hbm hbb
  have hP : 0 < 4 ^ j := Nat.pow_pos (by omega)
  generalize t * 2 ^ u * (t * 2 ^ u) = Y2 at *
  have e2 : (64 * (B * B) * c + Y2) * 4 ^ j = (64 * (B * B) * 4 ^ j + y * y) * c := by
    rw [Nat.add_mul, hYY]; ring
  refine no_gap hBl hBg hjy hj ?_ ?_
  · refine Nat.le_of_mul_le_mul_right ?_ hc0
    have q := Nat.mul_le_mul_right (4 ^ j) r7
    have e1 : c * (16 * ((2 ^ 25 - 1) * (2 ^ 25 - 1)) - 1) * 4 ^ j + 4 ^ j * c = 16 * ((2 ^ 25 - 1) * (2 ^ 25 - 1)) * 4 ^ j * c := by
      norm_num; ring
    rw [e2] at q
    rw [← e1, Nat.add_mul (4 ^ j)]
    omega
  · refine Nat.lt_of_mul_lt_mul_right (a := c) ?_
    have q := Nat.mul_lt_mul_of_pos_right hc hP
    rw [e2] at q
    calc _ < _ := q
      _ = _ := by ring

/-- Below the square of the midpoint the rounded root stays below the midpoint. -/
theorem over {a b : Nat} (ha : a < b32.inf) (hba : b ≤ a) (he : b32.mag a * (2 ^ 24 - 1) ≤ b32.mag b * 2 ^ 36)
    (hS : b32.mag a * b32.mag a + b32.mag b * b32.mag b ≤ 2 * (b32.mag b32.inf * b32.mag b32.inf))
    (hR : rootOf b64 776 (b32.mag a * b32.mag a + b32.mag b * b32.mag b) = 0x47EFFFFFF0000000) :
    mid b32 0x7F7FFFFF * mid b32 0x7F7FFFFF ≤ 4 * (b32.mag a * b32.mag a + b32.mag b * b32.mag b) := by
  by_contra hc
  rw [mid_max, sq_const] at hc
  have W := wide
  have r1 := (rootPat_spec (F := b64) (root_fin W.og W.root (W.sum_fin hS).2)).1
  change (b64.mag (rootOf b64 776 _ - 1) + b64.mag (rootOf b64 776 _)) * (b64.mag (rootOf b64 776 _ - 1) + b64.mag (rootOf b64 776 _)) ≤ _ at r1
  rw [hR] at r1
  have r2 : 0x4FEFFFFFE0000007 < b64.rnd ((b32.mag a * b32.mag a + b32.mag b * b32.mag b) * 2 ^ 776) 1 := by
    by_contra hcon
    have h1 := b64.mag_mono (Nat.le_of_not_lt hcon)
    have h2 := Nat.mul_le_mul_left 4 (Nat.mul_le_mul_right (2 ^ b64.unit) h1)
    exact absurd (Nat.le_trans r1 h2) (Nat.not_le.2 root_const)
  have r3 := (nearest_iff (F := b64) (by omega)).1 (rnd_nearest (F := b64) ((b32.mag a * b32.mag a + b32.mag b * b32.mag b) * 2 ^ 776) 1 (by omega))
  generalize b64.rnd ((b32.mag a * b32.mag a + b32.mag b * b32.mag b) * 2 ^ 776) 1 = w at r2 r3
  have r4 := (r3.2.2 (w - 1) (by have := r3.1; clear r3 r1 hc; omega) (by clear r3 r1 hc; omega)).1
  have r5 : mid b64 0x4FEFFFFFE0000007 ≤ mid b64 (w - 1) := by
    unfold mid
    exact Nat.add_le_add (b64.mag_mono (by clear r4 r3 r1 hc; omega)) (b64.mag_mono (by clear r4 r3 r1 hc; omega))
  rw [Nat.one_mul] at r4
  have r6 := Nat.le_trans r5 r4
  rw [sum_const] at r6
  have r7 := Nat.le_of_mul_le_mul_right (Nat.le_of_mul_le_mul_left r6 (by decide)) (Nat.two_pow_pos 776)
  exact no_sum ha hba he (Nat.two_pow_pos 500) low_const big_const (fun t u => small_const) r7
    (Nat.lt_of_mul_lt_mul_left (Nat.lt_of_not_le hc))

/-! ### The early return -/

theorem early_near {a b : Nat} (ha : a < b32.inf) (h : b32.mag b * 2 ^ 36 < b32.mag a * (2 ^ 24 - 1)) :
    NearSq b32 (b32.mag a * b32.mag a + b32.mag b * b32.mag b) a := by
  obtain ⟨m, hm, hml⟩ := Fmt.mag_form (F := b32) a
  change m < 2 ^ 24 at hml
  have hs := b32.mag_succ a
  have hu := b32.ulp_pos a
  refine near_self (Nat.le_of_lt ha) (fun _ => ?_) (fun h0 => ?_)
  · have key : 4 * (b32.mag a * b32.mag a + b32.mag b * b32.mag b) < mid b32 a * mid b32 a := by
      unfold mid
      rw [hs]
      generalize b32.ulp a = u at *
      generalize b32.mag a = X at *
      generalize b32.mag b = Y at *
      have h1 : Y * 2 ^ 12 ≤ X := by omega
      have h2 := Nat.mul_le_mul h1 h1
      have h3 : X ≤ 2 ^ 24 * u := by rw [hm]; exact Nat.mul_le_mul_right _ (Nat.le_of_lt hml)
      have h4 := Nat.mul_le_mul_left X h3
      have e1 : Y * 2 ^ 12 * (Y * 2 ^ 12) = Y * Y * 2 ^ 24 := by ring
      have e2 : X * (2 ^ 24 * u) = X * u * 2 ^ 24 := by ring
      rw [e1] at h2
      rw [e2] at h4
      have h5 : Y * Y ≤ X * u := Nat.le_of_mul_le_mul_right (Nat.le_trans h2 h4) (by omega)
      have h6 := Nat.mul_pos hu hu
      have e3 : (X + (X + u)) * (X + (X + u)) = 4 * (X * X) + 4 * (X * u) + u * u := by ring
      omega
    exact ⟨Nat.le_of_lt key, fun e => by omega⟩
  · have b1 := mid_bounds (F := b32) (n := a - 1)
    rw [show a - 1 + 1 = a by omega] at b1
    have := sq_mono.1 b1.2
    have e : 2 * b32.mag a * (2 * b32.mag a) = 4 * (b32.mag a * b32.mag a) := by ring
    exact ⟨by omega, fun e => by omega⟩

theorem tiny_mag : b64.mag 0x3F2FFFFFE0000000 = (2 ^ 24 - 1) * 2 ^ 1038 ∧ b64.unit = 889 + 1038 - 853 := by decide +kernel

/-- The test before the early return. -/
theorem early_test {a b : Nat} (ha : a < b32.inf) (hb : b < b32.inf) :
    b64.lt (up b) (b64.mul (up a) 0x3F2FFFFFE0000000) = true ↔ b32.mag b * 2 ^ 36 < b32.mag a * (2 ^ 24 - 1) := by
  obtain ⟨a1, a2⟩ := up_mag wide ha
  obtain ⟨b1, b2⟩ := up_mag wide hb
  obtain ⟨m, hm, hml⟩ := Fmt.mag_form (F := b32) a
  have hr := wide.room'
  have hlt := b32.mag_strictMono ha
  have hf : b32.f = 23 ∧ b64.f = 52 := by decide
  rw [hf.1] at hml
  have hp925 : (2 : Nat) ^ 925 = 2 ^ 36 * 2 ^ 889 := by rw [← Nat.pow_add]
  obtain ⟨p, hp, ep⟩ := rep_lt (F := b64) (m := m * (2 ^ 24 - 1)) (e := a / 2 ^ b32.f - 1 + 889) (by
      rw [hf.2]
      refine Nat.le_trans (Nat.mul_le_mul (Nat.le_of_lt hml) (show 2 ^ 24 - 1 ≤ 2 ^ 24 by omega)) ?_
      decide) (by
      unfold Fmt.ulp at hm
      rw [show m * (2 ^ 24 - 1) * 2 ^ (a / 2 ^ b32.f - 1 + 889) = b32.mag a * ((2 ^ 24 - 1) * 2 ^ 889) by rw [hm, Nat.pow_add]; ring]
      refine Nat.lt_of_lt_of_le (Nat.mul_lt_mul_of_pos_right hlt (Nat.mul_pos (by decide) (Nat.two_pow_pos _))) (Nat.le_trans ?_ hr)
      rw [hp925]
      have := Nat.mul_le_mul_left (b32.mag b32.inf) (Nat.mul_le_mul_right (2 ^ 889) (show 2 ^ 24 - 1 ≤ 2 ^ 36 by decide))
      exact Nat.le_trans this (Nat.le_mul_of_pos_left _ (by decide)))
  have ep' : b64.mag p = b32.mag a * (2 ^ 24 - 1) * 2 ^ 889 := by
    unfold Fmt.ulp at hm
    rw [ep, hm, Nat.pow_add]; ring
  have hmul : b64.mul (up a) 0x3F2FFFFFE0000000 = p := by
    refine mul_exact a1 (by decide +kernel) hp ?_
    obtain ⟨t1, t2⟩ := tiny_mag
    rw [a2, t1, ep', t2, show 925 = 36 + 889 from rfl, show 889 + 1038 - 853 = 36 + 1038 from rfl, Nat.pow_add, Nat.pow_add]
    ring
  rw [hmul, Fmt.lt_pos (Nat.le_of_lt b1) (Nat.le_of_lt hp), b2, ep', hp925, ← Nat.mul_assoc]
  exact Nat.mul_lt_mul_right (Nat.two_pow_pos 889)

/-! ### The whole function on ordered magnitudes -/

/-- hypotf.c:19-67, after the larger and the smaller magnitude have been chosen. -/
def body (big small : Nat) : Option Nat :=
  let bd := up big
  let sd := up small
  let bb := b64.mul bd bd
  let ss := b64.mul sd sd
  if b64.lt sd (b64.mul bd 0x3F2FFFFFE0000000) then some big
  else
    let r2 := b64.add bb ss
    let r := fsqrt b64 r2
    let rf := down r
    if 0x47EFFFFFE0000000 < r then some rf
    else if 2 < (r + 1) % 2 ^ 28 then some rf
    else decide32 bb ss r2 rf

theorem down_nearest {r : Nat} (hr : r < b64.inf) : Nearest b32 (b64.mag r * 2 ^ b32.unit) (2 ^ b64.unit) (down r) := by
  have hl := Nat.lt_trans hr (Fmt.inf_lt (F := b64))
  have hn : b64.isNaN r = false := Fmt.isNaN_false.2 (by rw [Fmt.abs_of_lt hl]; omega)
  have hf : b64.isFin r = true := by unfold Fmt.isFin; simp [Fmt.abs_of_lt hl, hr]
  unfold down Fmt.conv
  rw [hn, hf, Fmt.abs_of_lt hl, Fmt.neg_of_lt hl]
  simp only [if_true, Bool.false_eq_true, if_false]
  rw [Cplx.pack_false]
  exact rnd_nearest _ _ (Nat.two_pow_pos _)

theorem mid_mono {F : Fmt} {m n : Nat} (h : m ≤ n) : mid F m ≤ mid F n := by
  unfold mid; exact Nat.add_le_add (F.mag_mono h) (F.mag_mono (by omega))

theorem Wide.scale {F G : Fmt} {D k : Nat} (W : Wide F G D k) : 2 ^ G.unit = 2 * (2 ^ F.unit * 2 ^ (D - 1)) := by
  have h4 := W.four
  rw [← Nat.pow_add, Nat.mul_comm 2, ← Nat.pow_succ, W.unit]; congr 1; omega

/-- The two exits that trust the rounding of the root. -/
theorem trust {D k : Nat} (W : Wide b32 b64 D k) {S r : Nat} (hS : S ≤ 2 * (b32.mag b32.inf * b32.mag b32.inf)) (hD : 53 ≤ D)
    (hn : Nearest b32 (b64.mag (rootOf b64 k S) * 2 ^ b32.unit) (2 ^ b64.unit) r) (h : 2 < (rootOf b64 k S + 1) % 2 ^ 28) : NearSq b32 S r := by
  have no : ∀ n, b64.mag (rootOf b64 k S) ≠ mid b32 n * 2 ^ (D - 1) := by
    intro n he
    have hm : 0 < mid b32 n := by have := mid_bounds (F := b32) (n := n); omega
    have h52 : 2 ^ b64.f ≤ rootOf b64 k S := by
      by_contra hc
      rw [b64.mag_small (by omega)] at he
      have h1 : 2 ^ b64.f ≤ 2 ^ (D - 1) := Nat.pow_le_pow_right (by omega) (by show 52 ≤ D - 1; omega)
      have h2 := Nat.mul_le_mul_right (2 ^ (D - 1)) hm
      omega
    have := trailing (F := b32) (G := b64) (j := 28) (by decide) h52 he
    omega
  exact W.finish hS hn (fun _ he => absurd he (no _)) (fun _ he => absurd he (no _))

theorem body_spec {a b : Nat} (ha : a < b32.inf) (hba : b ≤ a) :
    ∃ r, body a b = some r ∧ NearSq b32 (b32.mag a * b32.mag a + b32.mag b * b32.mag b) r := by
  have W := wide
  have hb : b < b32.inf := by omega
  rcases Nat.eq_zero_or_pos a with rfl | h0
  · obtain rfl : b = 0 := by omega
    refine ⟨0, by decide +kernel, ⟨by omega, fun _ => ⟨?_, fun _ => rfl⟩, fun h => absurd h (by omega)⟩⟩
    rw [b32.mag_zero]; omega
  unfold body
  by_cases ht : b64.lt (up b) (b64.mul (up a) 0x3F2FFFFFE0000000) = true
  · rw [if_pos ht]
    exact ⟨a, rfl, early_near ha ((early_test ha hb).1 ht)⟩
  simp only [if_neg ht]
  have he : b32.mag a * (2 ^ 24 - 1) ≤ b32.mag b * 2 ^ 36 := Nat.le_of_not_lt fun h => ht ((early_test ha hb).2 h)
  have hX : 0 < b32.mag a := Fmt.mag_pos h0
  have hY : 0 < b32.mag b := by
    rcases Nat.eq_zero_or_pos (b32.mag b) with h | h
    · rw [h] at he; omega
    · exact h
  have hXl := b32.mag_strictMono ha
  have hYX := b32.mag_mono hba
  have hov := fun hS => over ha hba he hS
  obtain ⟨q1, q2⟩ := square_up W ha
  obtain ⟨s1, s2⟩ := square_up W hb
  have hS : b32.mag a * b32.mag a + b32.mag b * b32.mag b ≤ 2 * (b32.mag b32.inf * b32.mag b32.inf) := by
    have h1 := Nat.mul_le_mul (Nat.le_of_lt hXl) (Nat.le_of_lt hXl)
    have h2 := Nat.mul_le_mul hYX hYX
    omega
  replace hov := hov hS
  have eS : b64.mag (b64.mul (up a) (up a)) + b64.mag (b64.mul (up b) (up b)) = (b32.mag a * b32.mag a + b32.mag b * b32.mag b) * 2 ^ 776 := by
    rw [q2, s2, Nat.add_mul]
  have hle : b64.mul (up b) (up b) ≤ b64.mul (up a) (up a) := Fmt.mag_le_iff.1 (by
    rw [q2, s2]; exact Nat.mul_le_mul_right _ (Nat.mul_le_mul hYX hYX))
  have hS1 : 1 ≤ b32.mag a * b32.mag a := Nat.mul_pos hX hX
  have hS2 : 1 ≤ b32.mag b * b32.mag b := Nat.mul_pos hY hY
  have hS5 : b32.mag a ≠ 1 → 4 ≤ b32.mag a * b32.mag a := fun h => Nat.mul_le_mul (show 2 ≤ _ by omega) (show 2 ≤ _ by omega)
  have hS3 : b32.mag a = 1 → b32.mag a * b32.mag a + b32.mag b * b32.mag b = 2 := by
    intro h
    have : b32.mag b = 1 := by omega
    rw [h, this]
  have hm := mag_mid_max
  have hmx := mag_max
  generalize b64.mul (up a) (up a) = bb at *
  generalize b64.mul (up b) (up b) = ss at *
  have hSpos : 1 ≤ b32.mag a * b32.mag a + b32.mag b * b32.mag b := by omega
  have hSone : b32.mag a * b32.mag a + b32.mag b * b32.mag b = 2 ∨ 4 ≤ b32.mag a * b32.mag a + b32.mag b * b32.mag b := by
    by_cases h : b32.mag a = 1
    · exact Or.inl (hS3 h)
    · have := hS5 h; omega
  generalize b32.mag a * b32.mag a + b32.mag b * b32.mag b = S at *
  clear hS1 hS2 hS3 hS5 q2 s2
  have hD53 : 53 ≤ 925 := by omega
  generalize 776 = k at *
  generalize 925 = D at *
  obtain ⟨hfin, hr2⟩ := W.sum_fin hS
  obtain ⟨hadd, -⟩ := fast2sum W.og hle (by rw [eS]; exact hfin) (by rw [eS]; exact hr2)
  rw [eS] at hadd
  have hr0 : 0 < b64.rnd (S * 2 ^ k) 1 := rnd_pos_of_pos W.og (Nat.mul_pos (by omega) (Nat.two_pow_pos _))
  have hroot : fsqrt b64 (b64.add bb ss) = rootOf b64 k S := by rw [hadd, fsqrt_fin hr0 hr2]; rfl
  rw [hroot]
  have hlt : rootOf b64 k S < b64.inf := (rootPat_lt W.og W.root hr2 hr0).2
  have hn := down_nearest hlt
  generalize down (rootOf b64 k S) = rf at *
  obtain ⟨m0, m1, m2⟩ := W.mids hn
  have hmaxlt : 0x7F7FFFFF < b32.inf := by decide +kernel
  have hmaxs : b32.inf = 0x7F7FFFFF + 1 := by decide +kernel
  have hP := Nat.two_pow_pos (D - 1)
  by_cases c1 : 0x47EFFFFFE0000000 < rootOf b64 k S
  · rw [if_pos c1]
    refine ⟨rf, rfl, W.finish hS hn ?_ ?_⟩
    · intro hr hR
      exfalso
      have g := b64.mag_strictMono c1
      rw [hmx, hR] at g
      have g1 := Nat.lt_of_mul_lt_mul_right g
      have g2 : ¬ rf < 0x7F7FFFFF := by
        intro h
        have := mid_bounds (F := b32) (n := rf)
        have := b32.mag_mono (show rf + 1 ≤ 0x7F7FFFFF by omega)
        omega
      have h3 := ((nearest_iff (Nat.two_pow_pos _)).1 hn).2.1 rf hr rfl
      have h4 := h3.2 (by
        rw [hR, W.scale]; ring)
      omega
    · intro hr hR
      have g := b64.mag_strictMono c1
      rw [hmx, hR] at g
      have g1 := Nat.lt_of_mul_lt_mul_right g
      have g2 : ¬ rf - 1 < 0x7F7FFFFF := by
        intro h
        have := mid_bounds (F := b32) (n := rf - 1)
        have := b32.mag_mono (show rf - 1 + 1 ≤ 0x7F7FFFFF by omega)
        omega
      have g3 : rf - 1 = 0x7F7FFFFF := by omega
      rw [g3] at hR ⊢
      refine hov ?_
      rw [← hm] at hR
      rcases Nat.lt_trichotomy (rootOf b64 k S) 0x47EFFFFFF0000000 with c | c | c
      · have := b64.mag_strictMono c; omega
      · exact c
      · have := b64.mag_strictMono c; omega
  rw [if_neg c1]
  by_cases c2 : 2 < (rootOf b64 k S + 1) % 2 ^ 28
  · rw [if_pos c2]
    exact ⟨rf, rfl, trust W hS hD53 hn c2⟩
  rw [if_neg c2]
  have one : b32.mag 1 = 1 := Fmt.mag_tiny (by have := Nat.two_pow_pos (b32.f + 1); omega)
  have two : b32.mag 2 = 2 := Fmt.mag_tiny (by decide)
  have hI2 : 4 ≤ 2 * b32.mag b32.inf := by
    have := b32.mag_strictMono (show 2 < b32.inf by omega)
    omega
  refine decide32_spec W hle eS hS hn ?_ ?_ ?_ hm
  · by_contra hc
    have e : rf - 1 = 0x7F7FFFFF := by omega
    have := m2 (by omega)
    rw [e] at this
    have g := b64.mag_mono (Nat.le_of_not_lt c1)
    rw [hmx] at g
    have := Nat.le_of_mul_le_mul_right (Nat.le_trans this g) hP
    have := mid_bounds (F := b32) (n := 0x7F7FFFFF)
    omega
  · by_contra hc
    obtain rfl : rf = 0 := by omega
    have h1 := m1 (by omega)
    have h2 := W.lower (m := 2) (e := 0) hS (by decide) (by omega) (by omega)
    have h3 : mid b32 0 = 1 := by unfold mid; rw [b32.mag_zero, one]
    rw [h3] at h1
    have := Nat.le_of_mul_le_mul_right (Nat.le_trans h2 h1) hP
    omega
  · rintro rfl
    rcases hSone with h | h
    · exact h
    exfalso
    have h1 := m1 (by omega)
    have h2 := W.lower (m := 4) (e := 0) hS (by decide) (by omega) (by omega)
    have h3 : mid b32 1 = 3 := by unfold mid; rw [one, two]
    rw [h3] at h1
    have := Nat.le_of_mul_le_mul_right (Nat.le_trans h2 h1) hP
    omega

theorem order {x y : Nat} (hx : x < b32.inf) (hy : y < b32.inf) :
    (y ≤ x ∧ fmax b32 x y = x ∧ fmin b32 x y = y) ∨ (x ≤ y ∧ fmax b32 x y = y ∧ fmin b32 x y = x) := by
  have hil := Fmt.inf_lt (F := b32)
  have e : b32.eq y y = true := (Fmt.eq_iff (by rw [Fmt.abs_of_lt (by omega)]; omega) (by rw [Fmt.abs_of_lt (by omega)]; omega)).2 rfl
  have l1 : b32.le y x = true ↔ y ≤ x := by rw [Fmt.le_pos (Nat.le_of_lt hy) (Nat.le_of_lt hx)]; exact Fmt.mag_le_iff
  have l2 : b32.le x y = true ↔ x ≤ y := by rw [Fmt.le_pos (Nat.le_of_lt hx) (Nat.le_of_lt hy)]; exact Fmt.mag_le_iff
  unfold fmax fmin
  by_cases h : y ≤ x
  · refine Or.inl ⟨h, if_pos (Or.inl (l1.2 h)), ?_⟩
    by_cases h2 : x ≤ y
    · rw [if_pos (Or.inl (l2.2 h2))]; omega
    · rw [if_neg]
      rintro (c | c)
      · exact h2 (l2.1 c)
      · exact c e
  · refine Or.inr ⟨by omega, ?_, if_pos (Or.inl (l2.2 (by omega)))⟩
    rw [if_neg]
    rintro (c | c)
    · exact h (l1.1 c)
    · exact c e

theorem hypotf_body {x y : Nat} (hx : b32.abs x < b32.inf) (hy : b32.abs y < b32.inf) :
    hypotf x y = body (fmax b32 (b32.abs x) (b32.abs y)) (fmin b32 (b32.abs x) (b32.abs y)) := by
  have hil := Fmt.inf_lt (F := b32)
  unfold hypotf
  have hf : ∀ z, z < b32.inf → b32.isFin z = true := fun z hz => by
    rw [Fmt.isFin_iff, Fmt.abs_of_lt (by omega)]; exact hz
  simp only [hf _ hx, hf _ hy, not_true, or_self, if_false]
  rfl

theorem hypotf_spec {x y : Nat} (hx : b32.abs x < b32.inf) (hy : b32.abs y < b32.inf) :
    ∃ r, hypotf x y = some r ∧ NearSq b32 (b32.mag (b32.abs x) * b32.mag (b32.abs x) + b32.mag (b32.abs y) * b32.mag (b32.abs y)) r := by
  rw [hypotf_body hx hy]
  rcases order hx hy with ⟨h, e1, e2⟩ | ⟨h, e1, e2⟩
  · rw [e1, e2]; exact body_spec hx h
  · rw [e1, e2, Nat.add_comm]; exact body_spec hy h

end Verif.Hyp
