import Verif.Approx.ModelCbrt
import Verif.Approx.InvHypf

/-! # Cube roots: a first guess from the pattern, then two steps of Halley's method -/

namespace Verif.Approx
open Verif.Float Verif.Approx.Spec
open Verif.Math.Spec (Pat)

theorem k_3half : Rel c3half (3 / 2) 0 := by
  have := lit_pos (x := c3half) (E := 1023) (m := 6755399441055744) (k := 52) (by decide) (by decide) (by decide) (by decide)
  exact Rel.exact this.1 (by rw [this.2]; norm_num)

/-- One step, rounding included. -/
theorem halley_rel {y x : Nat} {V Y : ℝ} (hx : Rel x V 0) (hy : Rel y Y 0) (hY : 1 / 2 ^ 52 ≤ Y) (hY' : Y ≤ 2 ^ 52) (hV : 1 / 2 ^ 150 ≤ V) (hV' : V ≤ 2 ^ 150)
    (hr : V ≤ 2 * Y ^ 3) (hr' : Y ^ 3 ≤ 2 * V) : Rel (halley y x) (Y * (1 / 2 + 3 / 2 * V / (2 * Y * (Y * Y) + V))) (1 / 2 ^ 48) := by
  have y0 : 0 < Y := lt_of_lt_of_le (by norm_num) hY
  have v0 : 0 < V := lt_of_lt_of_le (by norm_num) hV
  have s1 : Y * Y ≤ 2 ^ 52 * 2 ^ 52 := mul_le_mul hY' hY' y0.le (by norm_num)
  have s2 : 1 / 2 ^ 52 * (1 / 2 ^ 52) ≤ Y * Y := mul_le_mul hY hY (by norm_num) y0.le
  have s0 : 0 < Y * Y := mul_pos y0 y0
  have c1 : 2 * Y * (Y * Y) ≤ 2 * 2 ^ 52 * (2 ^ 52 * 2 ^ 52) := mul_le_mul (by linarith) s1 s0.le (by norm_num)
  have c2 : 2 * (1 / 2 ^ 52) * (1 / 2 ^ 52 * (1 / 2 ^ 52)) ≤ 2 * Y * (Y * Y) := mul_le_mul (by linarith) s2 (by norm_num) (by linarith)
  have a1 : Rel (b64.mul two y) (2 * Y) (2 / 2 ^ 53) :=
    rel_two.mul hy ⟨le_rfl, le_rfl⟩ (by rw [abs_of_pos (by linarith)]; exact le_Mx (by norm_num; linarith)) (by rw [abs_of_pos (by linarith)]; norm_num at hY ⊢; linarith) (by norm_num)
  have a2 : Rel (b64.mul y y) (Y * Y) (2 / 2 ^ 53) :=
    hy.mul hy ⟨le_rfl, le_rfl⟩ (by rw [abs_of_pos s0]; exact le_Mx (by norm_num at s1 ⊢; linarith)) (by rw [abs_of_pos s0]; norm_num at s2 ⊢; linarith) (by norm_num)
  have a3 : Rel (b64.mul (b64.mul two y) (b64.mul y y)) (2 * Y * (Y * Y)) (6 / 2 ^ 53) :=
    a1.mul a2 ⟨by norm_num, by norm_num⟩ (by rw [abs_of_pos (by positivity)]; exact le_Mx (by norm_num at c1 ⊢; linarith))
      (by rw [abs_of_pos (by positivity)]; norm_num at c2 ⊢; linarith) (by norm_num)
  have a4 : Rel (b64.add (b64.mul (b64.mul two y) (b64.mul y y)) x) (2 * Y * (Y * Y) + V) (8 / 2 ^ 53) :=
    a3.add (hx.mono (by norm_num)) (by positivity) v0.le (le_Mx (by norm_num at c1 hV' ⊢; linarith)) (by norm_num)
  have a5 : Rel (b64.mul c3half x) (3 / 2 * V) (2 / 2 ^ 53) :=
    k_3half.mul hx ⟨le_rfl, le_rfl⟩ (by rw [abs_of_pos (by linarith)]; exact le_Mx (by norm_num at hV' ⊢; linarith)) (by rw [abs_of_pos (by linarith)]; norm_num at hV ⊢; linarith) (by norm_num)
  have d0 : 0 < 2 * Y * (Y * Y) + V := by positivity
  have q0 : 0 < 3 / 2 * V / (2 * Y * (Y * Y) + V) := by positivity
  have q1 : 3 / 2 * V / (2 * Y * (Y * Y) + V) ≤ 3 / 2 := by
    rw [div_le_iff₀ d0]; nlinarith [mul_pos y0 s0]
  have q2 : 3 / 10 ≤ 3 / 2 * V / (2 * Y * (Y * Y) + V) := by
    rw [le_div_iff₀ d0]; nlinarith [mul_pos y0 s0]
  have a6 := a5.div (η := 14 / 2 ^ 53) (θ := 11 / 2 ^ 53) a4 ⟨by norm_num, by norm_num, by norm_num⟩ d0.ne' (by norm_num)
    (by rw [abs_of_pos q0]; exact le_Mx (by norm_num; linarith)) (by rw [abs_of_pos q0]; norm_num; linarith) (by norm_num)
  generalize 3 / 2 * V / (2 * Y * (Y * Y) + V) = q at *
  have a7 : Rel _ (1 / 2 + q) (16 / 2 ^ 53) := (rel_half.mono (by norm_num)).add a6 (by norm_num) q0.le (le_Mx (by norm_num; linarith)) (by norm_num)
  have p0 : 0 < Y * (1 / 2 + q) := by positivity
  exact hy.mul a7 ⟨le_rfl, by norm_num⟩ (by rw [abs_of_pos p0]; exact le_Mx (by norm_num at hY' ⊢; nlinarith)) (by rw [abs_of_pos p0]; norm_num at hY ⊢; nlinarith) (by norm_num)

/-- Halley's method for the cube root converges cubically. -/
theorem halley_step {c Y e : ℝ} (hc : 0 < c) (he : 0 ≤ e) (he' : e ≤ 1 / 30) (h : |Y - c| ≤ e * c) :
    |Y * (1 / 2 + 3 / 2 * c ^ 3 / (2 * Y * (Y * Y) + c ^ 3)) - c| ≤ 3 / 4 * e ^ 3 * c := by
  obtain ⟨h1, h2⟩ := abs_le.1 h
  have hY : 29 / 30 * c ≤ Y := by nlinarith
  have hY' : Y ≤ 31 / 30 * c := by nlinarith
  have y0 : 0 < Y := by nlinarith
  have d0 : 0 < 2 * Y * (Y * Y) + c ^ 3 := by positivity
  have e1 : Y * (1 / 2 + 3 / 2 * c ^ 3 / (2 * Y * (Y * Y) + c ^ 3)) - c = (Y - c) ^ 3 * ((Y + c) / (2 * Y * (Y * Y) + c ^ 3)) := by
    field_simp; ring
  rw [e1, abs_mul, abs_pow, abs_of_pos (show 0 < (Y + c) / (2 * Y * (Y * Y) + c ^ 3) by positivity)]
  have q : (Y + c) / (2 * Y * (Y * Y) + c ^ 3) ≤ 3 / 4 / c ^ 2 := by
    rw [div_le_div_iff₀ d0 (by positivity)]
    have t : (29 / 30 * c) ^ 3 ≤ Y ^ 3 := by gcongr
    have u : (Y + c) * c ^ 2 ≤ (31 / 30 * c + c) * c ^ 2 := by gcongr
    have : 0 < c ^ 3 := by positivity
    nlinarith
  calc |Y - c| ^ 3 * _ ≤ (e * c) ^ 3 * (3 / 4 / c ^ 2) := by gcongr
    _ = 3 / 4 * e ^ 3 * c := by field_simp

theorem cubic_range {m M : ℝ} (hm : 1 ≤ m ∧ m ≤ 2) (hM : 1 ≤ M ∧ M ≤ 2) {d : Int} (hd : d = -1 ∨ d = 0 ∨ d = 1 ∨ d = 2)
    (h1 : 3 * M ≤ m + 3.9026 - d) (h2 : m + 3.9025 - d ≤ 3 * M) : 0.905 * m ≤ M ^ 3 * 2 ^ (d - 2) ∧ M ^ 3 * 2 ^ (d - 2) ≤ 1.102 * m := by
  rcases hd with rfl | rfl | rfl | rfl <;> norm_num at h1 h2 ⊢
  · constructor
    · nlinarith [sq_nonneg (M - 2), mul_nonneg (show (0 : ℝ) ≤ M - 1 by linarith) (sq_nonneg (M - 2))]
    · nlinarith [mul_nonneg (show (0 : ℝ) ≤ M - 1.9 by linarith) (show (0 : ℝ) ≤ 2 - M by linarith), mul_nonneg (show (0 : ℝ) ≤ M by linarith) (mul_nonneg (show (0 : ℝ) ≤ M - 1.9 by linarith) (show (0 : ℝ) ≤ 2 - M by linarith))]
  · constructor
    · nlinarith [sq_nonneg (M - 1.65), mul_nonneg (show (0 : ℝ) ≤ M by linarith) (sq_nonneg (M - 1.65))]
    · nlinarith [mul_nonneg (show (0 : ℝ) ≤ M - 1.634 by linarith) (show (0 : ℝ) ≤ 1.968 - M by linarith), mul_nonneg (show (0 : ℝ) ≤ M by linarith) (mul_nonneg (show (0 : ℝ) ≤ M - 1.634 by linarith) (show (0 : ℝ) ≤ 1.968 - M by linarith))]
  · constructor
    · nlinarith [sq_nonneg (M - 1.4), mul_nonneg (show (0 : ℝ) ≤ M by linarith) (sq_nonneg (M - 1.4))]
    · nlinarith [mul_nonneg (show (0 : ℝ) ≤ M - 1.3 by linarith) (show (0 : ℝ) ≤ 1.635 - M by linarith), mul_nonneg (show (0 : ℝ) ≤ M by linarith) (mul_nonneg (show (0 : ℝ) ≤ M - 1.3 by linarith) (show (0 : ℝ) ≤ 1.635 - M by linarith))]
  · constructor
    · nlinarith [sq_nonneg (M - 1), mul_nonneg (show (0 : ℝ) ≤ M by linarith) (sq_nonneg (M - 1))]
    · nlinarith [mul_nonneg (show (0 : ℝ) ≤ M - 1 by linarith) (show (0 : ℝ) ≤ 1.301 - M by linarith), mul_nonneg (show (0 : ℝ) ≤ M by linarith) (mul_nonneg (show (0 : ℝ) ≤ M - 1 by linarith) (show (0 : ℝ) ≤ 1.301 - M by linarith))]


theorem two_zpow {a : Int} {k : Nat} (h : (k : Int) = a) : (2 : ℝ) ^ k = 2 ^ a := by rw [← h, zpow_natCast]

/-- A normalised float. -/
theorem normal_value {x : Nat} (h0 : 0 < x) (hx : x < b32.inf) :
    ∃ (E : Int) (m : Nat), Math.normalize Math.flt x = some (E * 2 ^ 23 + ((m : Int) - 2 ^ 23)) ∧ 2 ^ 23 ≤ m ∧ m < 2 ^ 24 ∧ -22 ≤ E ∧ E ≤ 254 ∧
      R b32 x = m * 2 ^ (E - 150) := by
  obtain ⟨E, m, n1, n2, n3, n4, n5, n6⟩ := Math.normalize_eq Math.good_flt h0 hx
  rw [show Math.flt.fmt = b32 from rfl] at n1 n2 n3 n4 n5 n6
  rw [show b32.f = 23 from rfl] at n1 n2 n3 n4
  rw [show b32.bias = 127 from rfl] at n5
  refine ⟨E, m, ?_, n2, n3, by omega, by omega, ?_⟩
  · rw [n1]; congr 1; push_cast [Nat.cast_sub n2]; rfl
  · have hn : (b32.mag x : ℝ) * 2 ^ (1 - E).toNat = m * 2 ^ (E - 1).toNat := by exact_mod_cast n6
    rw [(R32_pat hx).2, show b32.unit = 149 from rfl, div_eq_iff (by positivity), mul_assoc, two_zpow (show ((149 : Nat) : Int) = 149 from rfl), ← zpow_add₀ (by norm_num),
      show E - 150 + 149 = E - 1 by ring]
    rcases Int.le_total E 1 with h | h
    · rw [show (E - 1).toNat = 0 by omega, pow_zero, mul_one] at hn
      rw [← hn, two_zpow (show (((1 - E).toNat : Nat) : Int) = 1 - E by omega), mul_assoc, ← zpow_add₀ (by norm_num)]
      simp
    · rw [show (1 - E).toNat = 0 by omega, pow_zero, mul_one] at hn
      rw [hn, two_zpow (show (((E - 1).toNat : Nat) : Int) = E - 1 by omega)]

/-- The first guess. -/
theorem cbrt_guess {E : Int} {m : Nat} (hm : 2 ^ 23 ≤ m) (hm' : m < 2 ^ 24) (hE : -22 ≤ E) (hE' : E ≤ 254) :
    ∃ j, chk32 (0x2A512CE3 + (E * 2 ^ 23 + ((m : Int) - 2 ^ 23)).tdiv 3) = some j ∧ u32 j < b32.inf ∧ 1 / 2 ^ 52 ≤ R b32 (u32 j) ∧ R b32 (u32 j) ≤ 2 ^ 52 ∧
      0.905 * ((m : ℝ) * 2 ^ (E - 150)) ≤ R b32 (u32 j) ^ 3 ∧ R b32 (u32 j) ^ 3 ≤ 1.102 * ((m : ℝ) * 2 ^ (E - 150)) := by
  have hinf : b32.inf = 255 * 2 ^ 23 := rfl
  have t1 : 3 * (E * 2 ^ 23 + ((m : Int) - 2 ^ 23)).tdiv 3 ≤ (E * 2 ^ 23 + ((m : Int) - 2 ^ 23)) + 2 ∧
      (E * 2 ^ 23 + ((m : Int) - 2 ^ 23)) ≤ 3 * (E * 2 ^ 23 + ((m : Int) - 2 ^ 23)).tdiv 3 + 2 := by
    generalize (E * 2 ^ 23 + ((m : Int) - 2 ^ 23)) = i
    obtain ⟨n, rfl | rfl⟩ := i.eq_nat_or_neg
    · rw [show (n : Int).tdiv 3 = ((n / 3 : Nat) : Int) from rfl]; omega
    · rw [Int.neg_tdiv, show (n : Int).tdiv 3 = ((n / 3 : Nat) : Int) from rfl]; omega
  generalize (E * 2 ^ 23 + ((m : Int) - 2 ^ 23)).tdiv 3 = t at *
  refine ⟨0x2A512CE3 + t, ?_, ?_⟩
  · unfold chk32; rw [if_pos (by unfold IsI32; omega)]
  obtain ⟨p, hp⟩ : ∃ p : Nat, u32 (0x2A512CE3 + t) = p := ⟨_, rfl⟩
  have hpe : (p : Int) = 0x2A512CE3 + t := by rw [← hp]; unfold u32; omega
  rw [hp]
  obtain ⟨G, M, hG, hM, hM'⟩ : ∃ G M : Nat, p = G * 2 ^ 23 + (M - 2 ^ 23) ∧ 2 ^ 23 ≤ M ∧ M < 2 ^ 24 := ⟨p / 2 ^ 23, p % 2 ^ 23 + 2 ^ 23, by omega, by omega, by omega⟩
  have hGr : 77 ≤ G ∧ G ≤ 170 := by omega
  have hlt : p < b32.inf := by omega
  have hv : R b32 p = M * 2 ^ ((G : Int) - 150) := by
    rw [(R32_pat hlt).2, hG, show b32.mag (G * 2 ^ 23 + (M - 2 ^ 23)) = M * 2 ^ (G - 1) from b32.mag_mk G M (by omega) hM hM', show b32.unit = 149 from rfl, div_eq_iff (by positivity), mul_assoc,
      two_zpow (show ((149 : Nat) : Int) = 149 from rfl), ← zpow_add₀ (by norm_num), show (G : Int) - 150 + 149 = G - 1 by ring]
    push_cast
    rw [two_zpow (show ((G - 1 : Nat) : Int) = G - 1 by omega)]
  have hM0 : (2 : ℝ) ^ 23 ≤ M := by exact_mod_cast hM
  have hM1 : (M : ℝ) ≤ 2 ^ 24 := by exact_mod_cast hM'.le
  have hm0 : (2 : ℝ) ^ 23 ≤ m := by exact_mod_cast hm
  have hm1 : (m : ℝ) ≤ 2 ^ 24 := by exact_mod_cast hm'.le
  refine ⟨hlt, ?_, ?_, ?_⟩
  · rw [hv]
    have : (2 : ℝ) ^ (-75 : Int) ≤ 2 ^ ((G : Int) - 150) := zpow_le_zpow_right₀ (by norm_num) (by omega)
    refine le_trans ?_ (mul_le_mul hM0 this (by positivity) (Nat.cast_nonneg _))
    norm_num
  · rw [hv]
    have : (2 : ℝ) ^ ((G : Int) - 150) ≤ 2 ^ (20 : Int) := zpow_le_zpow_right₀ (by norm_num) (by omega)
    refine (mul_le_mul hM1 this (by positivity) (by positivity)).trans ?_
    rw [zpow_ofNat]
    norm_num
  · obtain ⟨d, hd⟩ : ∃ d : Int, 3 * (G : Int) - E = 252 + d := ⟨3 * G - E - 252, by ring⟩
    have hd' : d = -1 ∨ d = 0 ∨ d = 1 ∨ d = 2 := by omega
    have g1 : 3 * (M : Int) ≤ m + 15959721 + (2 - d) * 2 ^ 23 + 2 := by omega
    have g2 : (m : Int) + 15959721 + (2 - d) * 2 ^ 23 ≤ 3 * M + 2 := by omega
    have g1' : 3 * (M : ℝ) ≤ m + 15959721 + (2 - d) * 2 ^ 23 + 2 := by exact_mod_cast g1
    have g2' : (m : ℝ) + 15959721 + (2 - d) * 2 ^ 23 ≤ 3 * M + 2 := by exact_mod_cast g2
    obtain ⟨k1, k2⟩ := cubic_range (m := m / 2 ^ 23) (M := M / 2 ^ 23) ⟨by rw [le_div_iff₀ (by norm_num)]; linarith, by rw [div_le_iff₀ (by norm_num)]; linarith⟩
      ⟨by rw [le_div_iff₀ (by norm_num)]; linarith, by rw [div_le_iff₀ (by norm_num)]; linarith⟩ hd' (by norm_num at g1' ⊢; linarith) (by norm_num at g2' ⊢; linarith)
    have hz : (0 : ℝ) < 2 ^ (E - 150) := by positivity
    have e : (M * (2 : ℝ) ^ ((G : Int) - 150)) ^ 3 = ((M : ℝ) / 2 ^ 23) ^ 3 * 2 ^ (d - 2) * (2 ^ 23 * 2 ^ (E - 150)) := by
      rw [mul_pow, ← zpow_natCast ((2 : ℝ) ^ ((G : Int) - 150)) 3, ← zpow_mul, show ((G : Int) - 150) * ((3 : Nat) : Int) = (d - 2) + (E - 150) - 46 by push_cast; omega, zpow_sub₀ (by norm_num), zpow_add₀ (by norm_num)]
      norm_num
      ring
    rw [hv, e]
    constructor
    · calc _ = 0.905 * ((m : ℝ) / 2 ^ 23) * (2 ^ 23 * 2 ^ (E - 150)) := by field_simp
        _ ≤ _ := by gcongr
    · calc _ ≤ 1.102 * ((m : ℝ) / 2 ^ 23) * (2 ^ 23 * 2 ^ (E - 150)) := by gcongr
        _ = _ := by field_simp

theorem cube_root_near {c Y : ℝ} (hc : 0 < c) (hY : 0 < Y) (h1 : 0.905 * c ^ 3 ≤ Y ^ 3) (h2 : Y ^ 3 ≤ 1.102 * c ^ 3) : |Y - c| ≤ 1 / 30 * c := by
  have h3 : 0 < c ^ 3 := by positivity
  rw [abs_le]
  constructor
  · by_contra hc'
    have : Y ≤ 29 / 30 * c := by linarith
    have : Y ^ 3 ≤ (29 / 30 * c) ^ 3 := by gcongr
    nlinarith
  · by_contra hc'
    have : 31 / 30 * c ≤ Y := by linarith
    have : (31 / 30 * c) ^ 3 ≤ Y ^ 3 := by gcongr
    nlinarith

theorem cbrt_pos {x : Nat} (h0 : 0 < x) (hx : x < b32.inf) {c : ℝ} (hc : c ^ 3 = R b32 x) : ∃ r, cbrtKernel x = some r ∧ Accurate b32 (1 / 2 ^ 45) c r := by
  obtain ⟨E, m, n1, n2, n3, n4, n5, n6⟩ := normal_value h0 hx
  obtain ⟨j, j1, j2, j3, j4, j5, j6⟩ := cbrt_guess n2 n3 n4 n5
  obtain ⟨fx, px⟩ := R_pos h0 hx
  have hc0 : 0 < c := by
    by_contra h
    have : c ^ 3 ≤ 0 := by
      have : c * c ^ 2 ≤ 0 := mul_nonpos_of_nonpos_of_nonneg (by linarith) (by positivity)
      nlinarith
    linarith
  rw [← n6, ← hc] at j5 j6
  obtain ⟨w1, w2, -⟩ := wideR fx
  obtain ⟨fj, -⟩ := R32_pat j2
  obtain ⟨z1, z2, -⟩ := wideR fj
  have hj0 : 0 < R b32 (u32 j) := lt_of_lt_of_le (by norm_num) j3
  have near := cube_root_near hc0 hj0 j5 j6
  have V1 : 1 / 2 ^ 150 ≤ c ^ 3 := by
    rw [hc, n6]
    have : (2 : ℝ) ^ (-172 : Int) ≤ 2 ^ (E - 150) := zpow_le_zpow_right₀ (by norm_num) (by omega)
    have hm : (2 : ℝ) ^ 23 ≤ m := by exact_mod_cast n2
    calc (1 : ℝ) / 2 ^ 150 ≤ 2 ^ 23 * 2 ^ (-172 : Int) := by norm_num
      _ ≤ _ := by gcongr
  have V2 : c ^ 3 ≤ 2 ^ 150 := by
    rw [hc, n6]
    have : (2 : ℝ) ^ (E - 150) ≤ 2 ^ (104 : Int) := zpow_le_zpow_right₀ (by norm_num) (by omega)
    have hm : (m : ℝ) ≤ 2 ^ 24 := by exact_mod_cast n3.le
    calc _ ≤ (2 : ℝ) ^ 24 * 2 ^ (104 : Int) := by gcongr
      _ ≤ 2 ^ 150 := by norm_num
  have c3 : 0 < c ^ 3 := by positivity
  have rx : Rel (wide x) (c ^ 3) 0 := Rel.exact w1 (by rw [w2, hc])
  generalize R b32 (u32 j) = Y at *
  have r1 := halley_rel rx (Rel.exact z1 z2) j3 j4 V1 V2 (by linarith) (by linarith)
  have s1 := halley_step hc0 (by norm_num) le_rfl near
  have t1 : |R b64 (halley (wide (u32 j)) (wide x)) - c| ≤ 3 / 10 ^ 5 * c := by
    have a := r1.err
    have b := abs_le.1 s1
    generalize Y * (1 / 2 + 3 / 2 * c ^ 3 / (2 * Y * (Y * Y) + c ^ 3)) = w at *
    have : |w| ≤ 2 * c := abs_le.2 ⟨by nlinarith [b.1], by nlinarith [b.2]⟩
    refine (abs_sub_le _ w _).trans ?_
    nlinarith
  have r1f := r1.fin
  have t1' := abs_le.1 t1
  have hcl : 1 / 2 ^ 51 ≤ c := by
    by_contra h
    have : c ^ 3 < (1 / 2 ^ 51 : ℝ) ^ 3 := by gcongr; linarith
    norm_num at this V1; linarith
  have hcu : c ≤ 2 ^ 51 := by
    by_contra h
    have : (2 ^ 51 : ℝ) ^ 3 < c ^ 3 := by gcongr; linarith
    norm_num at this V2; linarith
  have g1 : (0.99 * c) ^ 3 ≤ R b64 (halley (wide (u32 j)) (wide x)) ^ 3 := by gcongr; nlinarith
  have g2 : R b64 (halley (wide (u32 j)) (wide x)) ^ 3 ≤ (1.01 * c) ^ 3 := by gcongr <;> nlinarith
  have r2 := halley_rel rx (Rel.exact r1f rfl) (by norm_num at hcl ⊢; nlinarith) (by norm_num at hcu ⊢; nlinarith) V1 V2 (by nlinarith) (by nlinarith)
  have s2 := halley_step hc0 (by norm_num) (by norm_num) t1
  have r3 : Rel (halley (halley (wide (u32 j)) (wide x)) (wide x)) c (1 / 2 ^ 45) :=
    r2.shift (δ := 3 / 4 * (3 / 10 ^ 5) ^ 3) (by rw [abs_of_pos hc0]; exact s2) (by norm_num) (by norm_num)
  refine ⟨_, ?_, r3.accurate⟩
  unfold cbrtKernel
  have hs : s32 x = x := by
    have : b32.inf = 0x7F800000 := rfl
    unfold s32; omega
  have hi : b32.inf = 0x7F800000 := rfl
  rw [hs, if_neg (by omega), n1]
  simp only [Option.bind_some, cbrtFinite, j1, Option.map_some]
  rfl

end Verif.Approx
