import Verif.Approx.Rel
import Verif.Approx.Exact
import Verif.Math.Misc

/-! # The error of `fma` without cancellation

`fma` is not correctly rounded (C60), and quite wrong when the product and the addend cancel.
If the product is at most three quarters of the addend the result is still within 8 units of rounding of the addend. -/

namespace Verif.Approx
open Verif.Float Verif.Approx.Spec Verif.Math
open Verif.Math.Spec (Pat)

theorem zpow_ratio {a b u : ℝ} {e : Int} (hu : u ≠ 0) (h : a * 2 ^ (-e).toNat = b * 2 ^ e.toNat) : a / u = b / u * 2 ^ e := by
  rcases Int.le_total 0 e with c | c
  · obtain ⟨k, rfl⟩ := Int.eq_ofNat_of_zero_le c
    rw [show (-(k : Int)).toNat = 0 by omega, pow_zero, mul_one, Int.toNat_natCast] at h
    rw [h, zpow_natCast]; ring
  · obtain ⟨k, hk⟩ := Int.eq_ofNat_of_zero_le (show 0 ≤ -e by omega)
    obtain rfl : e = -(k : Int) := by omega
    rw [show (-(k : Int)).toNat = 0 by omega, pow_zero, mul_one, show (-(-(k : Int))).toNat = k by omega] at h
    rw [← h, zpow_neg, zpow_natCast]
    field_simp

theorem frexp_R {x : Nat} (hx : Fin b64 x) (h0 : R b64 x ≠ 0) :
    ∃ s r e, frexp dbl x = some (b64.pack s r, e) ∧ r < b64.inf ∧ 1 / 2 ≤ (b64.mag r : ℝ) / 2 ^ b64.unit ∧ (b64.mag r : ℝ) / 2 ^ b64.unit < 1 ∧
      R b64 x = R b64 (b64.pack s r) * 2 ^ e := by
  have hn : 0 < b64.abs x := by
    refine Nat.pos_of_ne_zero fun e => h0 ?_
    rw [R_signed, e, b64.mag_zero]; simp
  obtain ⟨r, e, h1, h2, h3, h4, h5⟩ := frexp_eq good_dbl (x := x) hn hx
  change r < b64.inf at h2
  change 2 ^ (b64.unit - 1) ≤ b64.mag r at h3
  change b64.mag r < 2 ^ b64.unit at h4
  change b64.mag (b64.abs x) * 2 ^ (-e).toNat = b64.mag r * 2 ^ e.toNat at h5
  have hu : (0 : ℝ) < 2 ^ b64.unit := by positivity
  refine ⟨b64.neg x, r, e, h1, h2, ?_, ?_, ?_⟩
  · have h3' : 2 ^ b64.unit ≤ 2 * b64.mag r := by
      calc 2 ^ b64.unit = 2 * 2 ^ (b64.unit - 1) := by rw [← Nat.pow_succ']; rfl
        _ ≤ _ := Nat.mul_le_mul_left 2 h3
    have : (2 : ℝ) ^ b64.unit ≤ 2 * b64.mag r := by exact_mod_cast h3'
    rw [le_div_iff₀ hu]; linarith
  · rw [div_lt_one hu]; exact_mod_cast h4
  · rw [R_pack h2.le, R_signed]
    have : (b64.mag (b64.abs x) : ℝ) * 2 ^ (-e).toNat = b64.mag r * 2 ^ e.toNat := by exact_mod_cast h5
    rw [zpow_ratio hu.ne' this]; ring

theorem abs_pack_R {s : Bool} {r : Nat} (h : r ≤ b64.inf) : |R b64 (b64.pack s r)| = (b64.mag r : ℝ) / 2 ^ b64.unit := by
  rw [R_pack h, abs_div, abs_mul, abs_of_pos (show (0 : ℝ) < 2 ^ b64.unit by positivity), Nat.abs_cast]
  cases s <;> simp

theorem scalbn_R {x : Nat} {n : Int} (hx : Fin b64 x) (h0 : R b64 x ≠ 0) (h : |R b64 x * 2 ^ n| ≤ Mx) :
    ∃ r, scalbn x n = some r ∧ Fin b64 r ∧ |R b64 r - R b64 x * 2 ^ n| ≤ 1 / 2 ^ 53 * |R b64 x * 2 ^ n| + 1 / 2 ^ 250 ∧ Pat b64 r := by
  have hn : 0 < b64.abs x := by
    refine Nat.pos_of_ne_zero fun e => h0 ?_
    rw [R_signed, e, b64.mag_zero]; simp
  have hu : (2 : ℝ) ^ b64.unit ≠ 0 := by positivity
  have hd : (2 : ℝ) ^ (-n).toNat ≠ 0 := by positivity
  have e0 : ((b64.mag (b64.abs x) * 2 ^ n.toNat : Nat) : ℝ) / ((2 ^ (-n).toNat : Nat) : ℝ) / 2 ^ b64.unit = (b64.mag (b64.abs x) : ℝ) / 2 ^ b64.unit * 2 ^ n := by
    have := zpow_ratio (a := (b64.mag (b64.abs x) : ℝ) * 2 ^ n.toNat / 2 ^ (-n).toNat) (b := b64.mag (b64.abs x)) (e := n) hu (by field_simp)
    rw [← this]; push_cast; rfl
  have e1 : ((b64.mag (b64.abs x) * 2 ^ n.toNat : Nat) : ℝ) / ((2 ^ (-n).toNat : Nat) : ℝ) / 2 ^ b64.unit = |R b64 x * 2 ^ n| := by
    rw [e0, abs_mul, abs_R, abs_of_pos (zpow_pos two_pos n)]
  obtain ⟨k1, k2⟩ := pack_err (F := b64) top_big (num := b64.mag (b64.abs x) * 2 ^ n.toNat) (den := 2 ^ (-n).toNat) (b64.neg x) (Nat.two_pow_pos _) (by rw [e1]; exact h)
  refine ⟨_, scalbn_eq n hn hx, k1, ?_, Math.pat_pack (rnd_le _ _ (Nat.two_pow_pos _))⟩
  rw [e1, eps64, ← e1, e0, ← mul_assoc, ← R_signed] at k2
  rw [← e1, e0]
  refine k2.trans ?_
  have := eta64
  split <;> linarith [eta_pos (F := b64)]

theorem shiftExp_R {s : Bool} {r : Nat} {n : Int} (hr : r < b64.inf) (h1 : 1 / 2 ≤ (b64.mag r : ℝ) / 2 ^ b64.unit) (h2 : (b64.mag r : ℝ) / 2 ^ b64.unit < 1)
    (hn : -106 ≤ n ∧ n ≤ 53) : Fin b64 (shiftExp (b64.pack s r) n) ∧ R b64 (shiftExp (b64.pack s r) n) = R b64 (b64.pack s r) * 2 ^ n := by
  have hR := (R_small hr).2
  have hp : Pat b64 r := by unfold Pat; have : b64.inf = 2047 * 2 ^ 52 := rfl; have : b64.signBit = 2 ^ 63 := rfl; omega
  obtain ⟨-, -, a3, a4, a5⟩ := pat_range (k := 0) hp (by rw [hR]; exact h1) (by rw [hR, pow_zero]; exact h2)
  obtain ⟨z, z1, z2, z3, -⟩ := shift_R (y := r) (n := n) hp (by rw [hR]; exact h1) (by rw [hR]; linarith) (by omega)
  have hinf : b64.inf = 2047 * 2 ^ 52 := rfl
  have hz : z = ((r : Int) + n * 2 ^ 52).toNat := by
    have e1 : s64 r = r := by unfold s64; omega
    have e2 : s64 (u64 (n * 2 ^ 52)) = n * 2 ^ 52 := by unfold s64 u64; omega
    unfold shift chk64 at z1
    rw [e1, e2, if_pos (by unfold IsI64; omega), Option.map_some] at z1
    have := Option.some.inj z1
    rw [← this]; unfold u64; omega
  have hzi : z < b64.inf := by omega
  have e : shiftExp (b64.pack s r) n = b64.pack s z := by
    rw [hz]
    unfold shiftExp Fmt.pack
    rw [show b64.signBit = 2 ^ 63 from rfl]
    cases s <;> simp <;> omega
  rw [e]
  refine ⟨fin_pack hzi, ?_⟩
  rw [R_pack hzi.le, R_pack hr.le]
  rw [(R_small hzi).2, hR] at z3
  rw [mul_div_assoc, z3]; ring

/-! ### The product -/

theorem split_c : Fin b64 0x41A0000002000000 ∧ R b64 0x41A0000002000000 = 134217729 := by
  have h := lit_pos (x := 0x41A0000002000000) (E := 1050) (m := 134217729 * 2 ^ 25) (k := 25) (by decide) (by decide) (by decide) (by decide)
  exact ⟨h.1, by rw [h.2]; norm_num⟩

/-- The upper half. -/
theorem split_ap {x : Nat} (hx : Fin b64 x) (h : |R b64 x| ≤ 1) : Ap (split x) (R b64 x) (1 / 2 ^ 25) := by
  have a := Ap.exact hx
  have c := Ap.exact split_c.1
  rw [split_c.2] at c
  have m := c.mul a (V := 134217729) (W := 1) (by norm_num) h (by norm_num)
  have m0 := Ap.exact m.fin
  have mb := m.abs_le (V := 134217729) (by rw [abs_mul, abs_of_pos (show (0 : ℝ) < 134217729 by norm_num)]; linarith)
  unfold split
  simp only
  generalize b64.mul 0x41A0000002000000 x = s at *
  have hs : |R b64 s| ≤ 134217730 := mb.trans (by norm_num)
  have d := a.sub m0 (B := 134217731) ((abs_sub _ _).trans (by linarith)) (by norm_num)
  have t := m0.add d (B := 1) (by rw [add_sub_cancel]; exact h) (by norm_num)
  rw [add_sub_cancel] at t
  exact t.mono (by norm_num)

/-- The lower half. -/
theorem low_ap {x y : Nat} (hx : Fin b64 x) (hy : Ap y (R b64 x) (1 / 2 ^ 25)) : Ap (b64.sub x y) (R b64 x - R b64 y) (1 / 2 ^ 78) ∧ |R b64 x - R b64 y| ≤ 1 / 2 ^ 25 := by
  have b : |R b64 x - R b64 y| ≤ 1 / 2 ^ 25 := by rw [abs_sub_comm]; exact hy.err
  exact ⟨((Ap.exact hx).sub (Ap.exact hy.fin) (B := 1 / 2 ^ 25) b (by norm_num)).mono (by norm_num), b⟩

theorem fmaMul_R {a b : Nat} (ha : Fin b64 a) (hb : Fin b64 b) (a1 : |R b64 a| ≤ 1) (b1 : |R b64 b| ≤ 1) :
    Fin b64 (fmaMul a b).1 ∧ Fin b64 (fmaMul a b).2 ∧ |R b64 (fmaMul a b).1 + R b64 (fmaMul a b).2 - R b64 a * R b64 b| ≤ 1.01 / 2 ^ 53 ∧ |R b64 (fmaMul a b).2| ≤ 1 / 2 ^ 48 := by
  have sa := split_ap ha a1
  have sb := split_ap hb b1
  obtain ⟨la, la'⟩ := low_ap ha sa
  obtain ⟨lb, lb'⟩ := low_ap hb sb
  have a0 := sa.abs_le a1
  have b0 := sb.abs_le b1
  unfold fmaMul
  simp only
  have xa := Ap.exact sa.fin
  have xb := Ap.exact sb.fin
  generalize split a = A at *
  generalize split b = B at *
  generalize b64.sub a A = A' at *
  generalize b64.sub b B = B' at *
  have a0' : |R b64 A| ≤ 1 + 1 / 2 ^ 25 := a0
  have b0' : |R b64 B| ≤ 1 + 1 / 2 ^ 25 := b0
  have hAB : |R b64 A * R b64 B| ≤ 1 + 1 / 2 ^ 23 := by
    rw [abs_mul]
    calc _ ≤ (1 + 1 / 2 ^ 25 : ℝ) * (1 + 1 / 2 ^ 25) := mul_le_mul a0' b0' (abs_nonneg _) (by norm_num)
      _ ≤ _ := by norm_num
  have hA2 : |R b64 A * (R b64 b - R b64 B)| ≤ 1 / 2 ^ 24 := by
    rw [abs_mul]
    calc _ ≤ (1 + 1 / 2 ^ 25 : ℝ) * (1 / 2 ^ 25) := mul_le_mul a0' lb' (abs_nonneg _) (by norm_num)
      _ ≤ _ := by norm_num
  have hB2 : |(R b64 a - R b64 A) * R b64 B| ≤ 1 / 2 ^ 24 := by
    rw [abs_mul]
    calc _ ≤ (1 / 2 ^ 25 : ℝ) * (1 + 1 / 2 ^ 25) := mul_le_mul la' b0' (abs_nonneg _) (by norm_num)
      _ ≤ _ := by norm_num
  have hC2 : |(R b64 a - R b64 A) * (R b64 b - R b64 B)| ≤ 1 / 2 ^ 50 := by
    rw [abs_mul]
    calc _ ≤ (1 / 2 ^ 25 : ℝ) * (1 / 2 ^ 25) := mul_le_mul la' lb' (abs_nonneg _) (by norm_num)
      _ ≤ _ := by norm_num
  have u := (xa.mul xb a0' b0' (by norm_num)).mono (d := 1.001 / 2 ^ 53) (by norm_num)
  have v1 := (xa.mul lb a0' lb' (by norm_num)).mono (d := 1 / 2 ^ 76) (by norm_num)
  have v2 := (la.mul xb la' b0' (by norm_num)).mono (d := 1 / 2 ^ 76) (by norm_num)
  have w := (la.mul lb la' lb' (by norm_num)).mono (d := 1 / 2 ^ 100) (by norm_num)
  have v := (v1.add v2 (B := 1 / 2 ^ 23) ((abs_add_le _ _).trans (by norm_num at hA2 hB2 ⊢; linarith)) (by norm_num)).mono (d := 1 / 2 ^ 74) (by norm_num)
  generalize b64.mul A B = U at *
  generalize b64.mul A B' = V1 at *
  generalize b64.mul A' B = V2 at *
  generalize b64.mul A' B' = W at *
  generalize b64.add V1 V2 = V at *
  have u0 := Ap.exact u.fin
  have v0 := Ap.exact v.fin
  have uB : |R b64 U| ≤ 1 + 1 / 2 ^ 22 := (u.abs_le hAB).trans (by norm_num)
  have vB : |R b64 V| ≤ 1 / 2 ^ 22 := (v.abs_le ((abs_add_le _ _).trans (by norm_num at hA2 hB2 ⊢; linarith) : _ ≤ (1 / 2 ^ 23 : ℝ))).trans (by norm_num)
  have y := (u0.add v0 (B := 1 + 1 / 2 ^ 21) ((abs_add_le _ _).trans (by norm_num at uB vB ⊢; linarith)) (by norm_num)).mono (d := 1.001 / 2 ^ 53) (by norm_num)
  generalize b64.add U V = Y at *
  have y0 := Ap.exact y.fin
  have hUY : |R b64 U - R b64 Y + R b64 V| ≤ 1.001 / 2 ^ 53 := by
    rw [show R b64 U - R b64 Y + R b64 V = -(R b64 Y - (R b64 U + R b64 V)) by ring, abs_neg]; exact y.err
  have hUY2 : |R b64 U - R b64 Y| ≤ 1 / 2 ^ 21 := by
    have h1 := abs_le.1 hUY
    have h2 := abs_le.1 vB
    rw [abs_le]; constructor <;> norm_num at h1 h2 ⊢ <;> linarith
  have p := (u0.sub y0 (B := 1 / 2 ^ 21) hUY2 (by norm_num)).mono (d := 1 / 2 ^ 74) (by norm_num)
  have q := (p.add v0 (B := 1.001 / 2 ^ 53) hUY (by norm_num)).mono (d := 1 / 2 ^ 73) (by norm_num)
  have r := (q.add w (B := 1 / 2 ^ 49) ((abs_add_le _ _).trans (by norm_num at hUY hC2 ⊢; linarith)) (by norm_num)).mono (d := 1 / 2 ^ 72) (by norm_num)
  refine ⟨y.fin, r.fin, ?_, ?_⟩
  · have h1 := abs_le.1 r.err
    have h2 := abs_le.1 u.err
    have h3 := abs_le.1 v.err
    rw [abs_le]
    generalize R b64 a = xa at *
    generalize R b64 b = xb at *
    generalize R b64 A = xA at *
    generalize R b64 B = xB at *
    constructor <;> norm_num at h1 h2 h3 ⊢ <;> linarith
  · refine (r.abs_le ((abs_add_le _ _).trans (by norm_num at hUY hC2 ⊢; linarith) : _ ≤ (1 / 2 ^ 49 : ℝ))).trans (by norm_num)

/-! ### The sum -/

theorem add_abs {x y : Nat} {B : ℝ} (hx : Fin b64 x) (hy : Fin b64 y) (h : |R b64 x + R b64 y| ≤ B) (hB : B ≤ 2 ^ 64) :
    Fin b64 (b64.add x y) ∧ |R b64 (b64.add x y) - (R b64 x + R b64 y)| ≤ 1 / 2 ^ 53 * B := by
  obtain ⟨h1, h2⟩ := add_err ok64 big64.top hx hy (h.trans hB)
  rw [eps64] at h2
  exact ⟨h1, h2.trans (mul_le_mul_of_nonneg_left h (by norm_num))⟩

theorem sub_abs {x y : Nat} {B : ℝ} (hx : Fin b64 x) (hy : Fin b64 y) (h : |R b64 x - R b64 y| ≤ B) (hB : B ≤ 2 ^ 64) :
    Fin b64 (b64.sub x y) ∧ |R b64 (b64.sub x y) - (R b64 x - R b64 y)| ≤ 1 / 2 ^ 53 * B := by
  obtain ⟨h1, h2⟩ := sub_err ok64 big64.top hx hy (h.trans hB)
  rw [eps64] at h2
  exact ⟨h1, h2.trans (mul_le_mul_of_nonneg_left h (by norm_num))⟩

/-- The sum of a number and a larger one, `C` a bound of the larger. -/
theorem fmaAdd_R {y c : Nat} {C : ℝ} (hy : Fin b64 y) (hc : Fin b64 c) (h1 : |R b64 c| ≤ C) (h2 : |R b64 y| ≤ 0.8 * C) (hC : C ≤ 2 ^ 60) :
    Fin b64 (fmaAdd y c).1 ∧ Fin b64 (fmaAdd y c).2 ∧ |R b64 (fmaAdd y c).1 - (R b64 y + R b64 c)| ≤ 1.8 / 2 ^ 53 * C ∧
      |R b64 (fmaAdd y c).1 + R b64 (fmaAdd y c).2 - (R b64 y + R b64 c)| ≤ 0.81 / 2 ^ 53 * C ∧ |R b64 (fmaAdd y c).2| ≤ 4 / 2 ^ 53 * C := by
  have C0 : 0 ≤ C := (abs_nonneg _).trans h1
  have c1 := abs_le.1 h1
  have y1 := abs_le.1 h2
  unfold fmaAdd
  simp only
  obtain ⟨s1, s2⟩ := add_abs (B := 1.8 * C) hy hc (abs_le.2 (by constructor <;> norm_num at y1 c1 ⊢ <;> linarith)) (by norm_num at hC ⊢; linarith)
  generalize b64.add y c = s at *
  have s3 := abs_le.1 s2
  obtain ⟨d1, d2⟩ := sub_abs (B := 1.01 * C) s1 hy (abs_le.2 (by constructor <;> norm_num at y1 c1 s3 ⊢ <;> linarith)) (by norm_num at hC ⊢; linarith)
  generalize b64.sub s y = d at *
  have d3 := abs_le.1 d2
  obtain ⟨p1, p2⟩ := sub_abs (B := 0.801 * C) d1 s1 (abs_le.2 (by constructor <;> norm_num at y1 c1 s3 d3 ⊢ <;> linarith)) (by norm_num at hC ⊢; linarith)
  generalize b64.sub d s = p at *
  have p3 := abs_le.1 p2
  obtain ⟨q1, q2⟩ := add_abs (B := 2 / 2 ^ 53 * C) p1 hy (abs_le.2 (by constructor <;> norm_num at y1 c1 s3 d3 p3 ⊢ <;> linarith)) (by norm_num at hC ⊢; linarith)
  generalize b64.add p y = q at *
  have q3 := abs_le.1 q2
  obtain ⟨w1, w2⟩ := sub_abs (B := 3 / 2 ^ 53 * C) hc d1 (abs_le.2 (by constructor <;> norm_num at y1 c1 s3 d3 p3 ⊢ <;> linarith)) (by norm_num at hC ⊢; linarith)
  generalize b64.sub c d = w at *
  have w3 := abs_le.1 w2
  obtain ⟨e1, e2⟩ := add_abs (B := 3 / 2 ^ 53 * C) q1 w1 (abs_le.2 (by constructor <;> norm_num at y1 c1 s3 d3 p3 q3 w3 ⊢ <;> linarith)) (by norm_num at hC ⊢; linarith)
  generalize b64.add q w = e at *
  have e3 := abs_le.1 e2
  refine ⟨s1, e1, ?_, ?_, ?_⟩
  · refine s2.trans (le_of_eq ?_); ring
  · rw [abs_le]; constructor <;> norm_num at y1 c1 s3 d3 p3 q3 w3 e3 ⊢ <;> linarith
  · rw [abs_le]; constructor <;> norm_num at y1 c1 s3 d3 p3 q3 w3 e3 ⊢ <;> linarith

/-- A step in the last place. -/
theorem ulp_R (n : Nat) : (b64.ulp n : ℝ) ≤ b64.mag n / 2 ^ 52 + 1 := by
  by_cases h : n < 2 ^ 52
  · have : b64.ulp n = 1 := by unfold Fmt.ulp; rw [Nat.div_eq_of_lt (show n < 2 ^ b64.f from h)]
    rw [this]
    have : (0 : ℝ) ≤ b64.mag n / 2 ^ 52 := by positivity
    simpa using this
  · have hu := ulp_le (F := b64) (n := n) (Nat.le_of_not_lt h)
    have hu' : (2 : ℝ) ^ 52 * b64.ulp n ≤ b64.mag n := by exact_mod_cast hu
    rw [← sub_le_iff_le_add, le_div_iff₀ (by positivity)]
    norm_num at hu' ⊢
    linarith

theorem mag_near {m n : Nat} (h : m ≤ n + 1 ∧ n ≤ m + 2) : |(b64.mag m : ℝ) - b64.mag n| ≤ b64.mag n / 2 ^ 51 + 2 := by
  have M : ∀ {a b : Nat}, a ≤ b → (b64.mag a : ℝ) ≤ b64.mag b := fun h => by exact_mod_cast b64.mag_mono h
  have S : ∀ a, (b64.mag (a + 1) : ℝ) = b64.mag a + b64.ulp a := fun a => by rw [b64.mag_succ]; push_cast; rfl
  have h1 := M h.1
  have h2 := M h.2
  rw [S] at h1
  rw [show m + 2 = m + 1 + 1 from rfl, S, S] at h2
  have u1 := ulp_R n
  have n0 : (0 : ℝ) ≤ b64.mag n := Nat.cast_nonneg _
  have ulpM : ∀ {a b : Nat}, a ≤ b → (b64.ulp a : ℝ) ≤ b64.ulp b := fun {a b} h => by
    have : b64.ulp a ≤ b64.ulp b := Nat.pow_le_pow_right (by norm_num) (Nat.sub_le_sub_right (Nat.div_le_div_right h) 1)
    exact_mod_cast this
  rw [abs_le]
  rcases Nat.lt_or_ge n m with c | c
  · have := M c.le
    constructor <;> norm_num at u1 h1 ⊢ <;> linarith
  · have := M c
    rcases Nat.eq_or_lt_of_le c with e | c
    · subst e; constructor <;> norm_num <;> linarith
    · have v1 := ulpM (show m ≤ n by omega)
      have v2 := ulpM (show m + 1 ≤ n by omega)
      constructor <;> norm_num at u1 h1 h2 ⊢ <;> linarith

theorem unit_small {u : Nat} (h : 300 ≤ u) : (2 : ℝ) / 2 ^ u ≤ 1 / 2 ^ 250 := by
  have : (2 : ℝ) ^ 300 ≤ 2 ^ u := pow_le_pow_right₀ (by norm_num) h
  rw [div_le_div_iff₀ (by positivity) (by positivity), one_mul]
  refine le_trans ?_ this
  rw [← pow_succ']
  exact pow_le_pow_right₀ (by norm_num) (by norm_num)

/-- Moving the pattern by at most two. -/
theorem step_R {p j : Nat} (hp : Pat b64 p) (hf : b64.abs p + 1 < b64.inf) (h0 : 2 ≤ b64.abs p) (h : j ≤ p + 1 ∧ p ≤ j + 2) :
    Fin b64 j ∧ |R b64 j - R b64 p| ≤ |R b64 p| / 2 ^ 51 + 1 / 2 ^ 250 := by
  have hs : b64.signBit = 2 ^ 63 := rfl
  have hi : b64.inf = 2047 * 2 ^ 52 := rfl
  have es := Fmt.pack_self hp
  generalize hn : b64.abs p = n at *
  generalize hb : b64.neg p = s at *
  have hj : ∃ m, j = b64.pack s m ∧ m ≤ n + 1 ∧ n ≤ m + 2 := by
    unfold Fmt.pack at es ⊢
    rw [hs] at *
    cases s
    · simp at es ⊢; omega
    · simp at es ⊢; exact ⟨j - 2 ^ 63, by omega, by omega, by omega⟩
  obtain ⟨m, rfl, m1, m2⟩ := hj
  have hm : m < b64.inf := by omega
  have hn' : n < b64.inf := by omega
  refine ⟨fin_pack hm, ?_⟩
  rw [← es, R_pack hm.le, R_pack hn'.le]
  have hu : (0 : ℝ) < 2 ^ b64.unit := by positivity
  have key := mag_near ⟨m1, m2⟩
  have ee : (if s then -1 else 1) * (b64.mag m : ℝ) / 2 ^ b64.unit - (if s then -1 else 1) * (b64.mag n : ℝ) / 2 ^ b64.unit =
      (if s then -1 else 1) * (((b64.mag m : ℝ) - b64.mag n) / 2 ^ b64.unit) := by ring
  have sg : |(if s then (-1 : ℝ) else 1)| = 1 := by cases s <;> simp
  rw [ee, abs_mul, sg, one_mul, abs_div, abs_of_pos hu, abs_div, abs_of_pos hu, abs_mul, sg, one_mul, Nat.abs_cast]
  calc |(b64.mag m : ℝ) - b64.mag n| / 2 ^ b64.unit ≤ (b64.mag n / 2 ^ 51 + 2) / 2 ^ b64.unit := div_le_div_of_nonneg_right key hu.le
    _ = b64.mag n / 2 ^ b64.unit / 2 ^ 51 + 2 / 2 ^ b64.unit := by ring
    _ ≤ _ := add_le_add le_rfl (unit_small (by decide))

theorem pat_nan64 : Pat b64 b64.nan := show b64.nan < b64.signBit * 2 by decide

theorem pat_opp (x : Nat) : Pat b64 (b64.opp x) := Fmt.pack_lt (Nat.mod_lt _ (by decide))

theorem pat_add' {x y : Nat} (hx : Pat b64 x) (hy : Pat b64 y) : Pat b64 (b64.add x y) := by
  unfold Fmt.add
  split
  · exact pat_nan64
  · split
    · split
      · unfold Fmt.rndInt
        split
        · exact Math.pat_pack (Nat.zero_le _)
        · exact Math.pat_pack (rnd_le _ _ Nat.one_pos)
      · exact hy
    · split
      · exact hx
      · exact pat_nan64

theorem pat_sub' {x y : Nat} (hx : Pat b64 x) : Pat b64 (b64.sub x y) := pat_add' hx (pat_opp y)

theorem R_abs0 {x : Nat} (h : b64.abs x = 0) : R b64 x = 0 := by
  have := abs_R (F := b64) x
  rw [h, show b64.mag 0 = 0 by decide, Nat.cast_zero, zero_div, abs_eq_zero] at this
  exact this

/-- A sum that is a floating-point number. -/
theorem add_hit {x y z : Nat} (hx : Fin b64 x) (hy : Fin b64 y) (hz : Fin b64 z) (h : R b64 x + R b64 y = R b64 z) :
    Fin b64 (b64.add x y) ∧ R b64 (b64.add x y) = R b64 z := by
  have hv : b64.val x + b64.val y = b64.val z := by
    have hu : (2 : ℝ) ^ b64.unit ≠ 0 := by positivity
    unfold R at h
    rw [← add_div, div_left_inj' hu] at h
    exact_mod_cast h
  have hm : b64.mag (b64.abs z) = (b64.val x + b64.val y).natAbs := by rw [hv, Fmt.natAbs_val]
  have hk : b64.abs z ≤ b64.inf := Nat.le_of_lt hz
  rw [Fmt.add_exact hx hy hk hm, R_pack_int hk hm]
  refine ⟨fin_pack hz, ?_⟩
  rw [hv]; rfl

theorem sub_hit {x y z : Nat} (hx : Fin b64 x) (hy : Fin b64 y) (hz : Fin b64 z) (h : R b64 x - R b64 y = R b64 z) :
    Fin b64 (b64.sub x y) ∧ R b64 (b64.sub x y) = R b64 z :=
  add_hit hx (fin_opp hy) hz (by rw [R_opp, ← sub_eq_add_neg]; exact h)

theorem truth_R {x : Nat} (hx : Fin b64 x) : truth x = true ↔ R b64 x ≠ 0 := by
  have h := eq_R (F := b64) hx (y := 0) (show b64.abs 0 < b64.inf by decide)
  have h0 : R b64 0 = 0 := R_abs0 (by decide)
  rw [h0] at h
  unfold truth
  rw [Bool.not_eq_true', ← Bool.not_eq_true, h]

theorem small_abs {p : Nat} (h : |R b64 p| ≤ 2 ^ 50) : b64.abs p + 1 < b64.inf := by
  have h1 := lit_pos (x := 0x4330000000000000) (E := 1075) (m := 2 ^ 52) (k := 0) (by decide) (by decide) (by decide) (by decide)
  by_contra c
  have h2 : 0x4330000000000000 ≤ b64.abs p := by
    have : b64.inf = 2047 * 2 ^ 52 := rfl
    omega
  have h3 : (b64.mag 0x4330000000000000 : ℝ) ≤ b64.mag (b64.abs p) := by exact_mod_cast b64.mag_mono h2
  rw [abs_R] at h
  have h4 : (b64.mag 0x4330000000000000 : ℝ) / 2 ^ b64.unit ≤ 2 ^ 50 := le_trans (div_le_div_of_nonneg_right h3 (by positivity)) h
  have h5 := abs_R (F := b64) 0x4330000000000000
  rw [show b64.abs 0x4330000000000000 = 0x4330000000000000 by decide] at h5
  rw [← h5, h1.2] at h4
  norm_num at h4

/-- The sum of two small numbers, to the odd side. -/
theorem addOdd_R {r e : Nat} (pr : Pat b64 r) (pe : Pat b64 e) (hr : Fin b64 r) (he : Fin b64 e) (h : |R b64 r + R b64 e| ≤ 2 ^ 40) :
    Fin b64 (addOdd r e) ∧ |R b64 (addOdd r e) - (R b64 r + R b64 e)| ≤ 1 / 2 ^ 50 * |R b64 r + R b64 e| + 1 / 2 ^ 249 := by
  obtain ⟨s1, s2⟩ := add_err ok64 big64.top hr he (h.trans (by norm_num))
  rw [eps64] at s2
  have ps := pat_add hr he
  have S0 := abs_nonneg (R b64 r + R b64 e)
  have e1 : (fmaAdd r e).1 = b64.add r e := rfl
  have e2 : (fmaAdd r e).2 = b64.add (b64.add (b64.sub (b64.sub (b64.add r e) r) (b64.add r e)) r) (b64.sub e (b64.sub (b64.add r e) r)) := rfl
  unfold addOdd
  simp only
  rw [e1]
  have base : |R b64 (b64.add r e) - (R b64 r + R b64 e)| ≤ 1 / 2 ^ 50 * |R b64 r + R b64 e| + 1 / 2 ^ 249 := by
    refine s2.trans ?_
    norm_num
    linarith
  by_cases hz : R b64 r + R b64 e = 0
  · have t : ¬ truth (fmaAdd r e).2 = true := by
      have z : R b64 (b64.add r e) = 0 := by
        rw [hz, _root_.abs_zero, mul_zero] at s2
        have := abs_nonpos_iff.1 s2
        linarith
      rw [e2]
      generalize b64.add r e = S at *
      obtain ⟨d1, d2⟩ := sub_hit s1 hr he (by rw [z]; linarith)
      generalize b64.sub S r = D at *
      obtain ⟨p1, p2⟩ := sub_hit d1 s1 he (by rw [z, d2]; ring)
      generalize b64.sub D S = P at *
      obtain ⟨q1, q2⟩ := add_hit p1 hr s1 (by rw [z, p2]; linarith)
      generalize b64.add P r = Q at *
      obtain ⟨w1, w2⟩ := sub_hit he d1 s1 (by rw [z, d2]; ring)
      generalize b64.sub e D = W at *
      obtain ⟨v1, v2⟩ := add_hit q1 w1 s1 (by rw [w2, q2, z]; ring)
      rw [truth_R v1, v2, z]
      exact fun h => h rfl
    rw [if_neg (fun c => t c.1)]
    exact ⟨s1, base⟩
  · split
    · rename_i c
      generalize b64.add r e = S at *
      have hS : R b64 S ≠ 0 := fun h0 => by
        rw [h0, zero_sub, abs_neg] at s2
        have := abs_pos.2 hz
        norm_num at s2
        linarith
      have sb : |R b64 S| ≤ (1 + 1 / 2 ^ 53) * |R b64 r + R b64 e| := by
        have := abs_sub_abs_le_abs_sub (R b64 S) (R b64 r + R b64 e)
        linarith
      have a0 : b64.abs S ≠ 0 := fun h0 => hS (R_abs0 h0)
      have a1 : b64.abs S ≠ 1 := fun h1 => by
        have es := Fmt.pack_self ps
        unfold Fmt.pack at es
        rw [h1, show b64.signBit = 2 ^ 63 from rfl] at es
        have c2 := c.2
        clear c e2 base
        cases hb : b64.neg S <;> rw [hb] at es <;> simp only [Bool.false_eq_true, if_false, if_true] at es <;> omega
      have a2 : 2 ≤ b64.abs S := by omega
      have a3 : b64.abs S ≤ S := Nat.mod_le _ _
      have hS64 : S < 2 ^ 64 := ps
      have hx : S ^^^ (fmaAdd r e).2 < 2 ^ 64 := Nat.xor_lt_two_pow hS64 (by rw [e2]; exact pat_add' (pat_add' (pat_sub' (pat_sub' ps)) pr) (pat_sub' pe))
      have hq : (S ^^^ (fmaAdd r e).2) / 2 ^ 62 ≤ 3 := by omega
      generalize (S ^^^ (fmaAdd r e).2) / 2 ^ 62 = q at *
      obtain ⟨g1, g2⟩ := step_R (p := S) (j := (S + 1 + (2 ^ 64 - q)) % 2 ^ 64) ps (small_abs (sb.trans (by norm_num at h ⊢; linarith))) a2 (by omega)
      refine ⟨g1, ?_⟩
      have t := abs_sub_le (R b64 ((S + 1 + (2 ^ 64 - q)) % 2 ^ 64)) (R b64 S) (R b64 r + R b64 e)
      norm_num at t g2 s2 sb ⊢
      linarith
    · exact ⟨s1, base⟩

/-! ### The whole -/

theorem pat_mul' (x y : Nat) : Pat b64 (b64.mul x y) := by
  unfold Fmt.mul
  split
  · exact pat_nan64
  · split
    · exact Math.pat_pack (rnd_le _ _ (Nat.two_pow_pos _))
    · split
      · exact pat_nan64
      · exact Math.pat_pack le_rfl

/-- The significands: the product is at most 0.76 of the addend. -/
theorem fma_sig {a b c : Nat} (ha : Fin b64 a) (hb : Fin b64 b) (pc : Pat b64 c) (hc : Fin b64 c) (a1 : |R b64 a| ≤ 1) (b1 : |R b64 b| ≤ 1)
    (h : |R b64 a * R b64 b| ≤ 3 / 4 * |R b64 c|) (c1 : 1 / 3 ≤ |R b64 c|) (c2 : |R b64 c| ≤ 2 ^ 53) :
    let ab := fmaMul a b
    let s := fmaAdd ab.1 c
    Fin b64 s.1 ∧ 0.19 * |R b64 c| ≤ |R b64 s.1| ∧ Fin b64 (b64.add s.1 (addOdd ab.2 s.2)) ∧
      |R b64 (b64.add s.1 (addOdd ab.2 s.2)) - (R b64 a * R b64 b + R b64 c)| ≤ 6 / 2 ^ 53 * |R b64 c| := by
  intro ab s
  obtain ⟨m1, m2, m3, m4⟩ := fmaMul_R ha hb a1 b1
  change Fin b64 ab.1 at m1
  change Fin b64 ab.2 at m2
  change |R b64 ab.1 + R b64 ab.2 - R b64 a * R b64 b| ≤ _ at m3
  change |R b64 ab.2| ≤ _ at m4
  have p1 : Pat b64 ab.1 := pat_add' (pat_mul' _ _) (pat_add' (pat_mul' _ _) (pat_mul' _ _))
  have p2 : Pat b64 ab.2 := pat_add' (pat_add' (pat_sub' (pat_mul' _ _)) (pat_add' (pat_mul' _ _) (pat_mul' _ _))) (pat_mul' _ _)
  generalize R b64 a * R b64 b = P at *
  generalize ab.2 = r at *
  have hY : |R b64 ab.1| ≤ 0.8 * |R b64 c| := by
    have x1 := abs_le.1 h
    have x2 := abs_le.1 m3
    have x3 := abs_le.1 m4
    rw [abs_le]; constructor <;> norm_num at x1 x2 x3 ⊢ <;> linarith
  obtain ⟨s1, s2, s3, s4, s5⟩ := fmaAdd_R m1 hc le_rfl hY (c2.trans (by norm_num))
  change Fin b64 s.1 at s1
  change Fin b64 s.2 at s2
  change |R b64 s.1 - _| ≤ _ at s3
  change |R b64 s.1 + R b64 s.2 - _| ≤ _ at s4
  change |R b64 s.2| ≤ _ at s5
  have q1 : Pat b64 s.1 := pat_add' p1 pc
  have q2 : Pat b64 s.2 := pat_add' (pat_add' (pat_sub' (pat_sub' (pat_add' p1 pc))) p1) (pat_sub' pc)
  generalize s.1 = S at *
  generalize s.2 = e at *
  generalize ab.1 = y at *
  generalize hC : R b64 c = C at *
  have hre : |R b64 r + R b64 e| ≤ 1 / 2 ^ 48 + 4 / 2 ^ 53 * |C| := (abs_add_le _ _).trans (add_le_add m4 s5)
  obtain ⟨o1, o2⟩ := addOdd_R p2 q2 m2 s2 (hre.trans (by norm_num at c2 ⊢; linarith))
  generalize addOdd r e = o at *
  have o3 : |R b64 o - (R b64 r + R b64 e)| ≤ 1 / 2 ^ 90 * |C| := by
    refine o2.trans ?_
    norm_num at hre ⊢
    linarith
  have hs : |R b64 S| ≤ 1.801 * |C| := by
    have := abs_sub_abs_le_abs_sub (R b64 S) (R b64 y + C)
    have := abs_add_le (R b64 y) C
    norm_num at *
    linarith
  have hs' : 0.19 * |C| ≤ |R b64 S| := by
    have := abs_sub_abs_le_abs_sub (R b64 y + C) (R b64 S)
    have := abs_sub_abs_le_abs_sub C (-R b64 y)
    rw [abs_neg, sub_neg_eq_add, _root_.add_comm C] at this
    rw [abs_sub_comm] at s3
    norm_num at *
    linarith
  have ho : |R b64 o| ≤ 1 / 2 ^ 40 * |C| := by
    have := abs_sub_abs_le_abs_sub (R b64 o) (R b64 r + R b64 e)
    norm_num at *
    linarith
  have hso := (abs_add_le (R b64 S) (R b64 o)).trans (add_le_add hs ho)
  obtain ⟨t1, t2⟩ := add_abs (B := 1.81 * |C|) s1 o1 (hso.trans (by norm_num; linarith)) (by norm_num at c2 ⊢; linarith)
  refine ⟨s1, hs', t1, ?_⟩
  generalize b64.add S o = t at *
  have x2 := abs_le.1 m3
  have x4 := abs_le.1 s4
  have x5 := abs_le.1 o3
  have x6 := abs_le.1 t2
  rw [abs_le]
  constructor <;> norm_num at x2 x4 x5 x6 c1 ⊢ <;> linarith

theorem fma_last {t : Nat} {m : Int} {z C : ℝ} (hP : (0 : ℝ) < 2 ^ m) (hC : 0 < |C|) (c1 : 1 / 2 ^ 190 ≤ |C * 2 ^ m|) (c2 : |C * 2 ^ m| ≤ 2 ^ 200)
    (h1 : |z + C| ≤ 1.75 * |C|) (h2 : 0.25 * |C| ≤ |z + C|) (ht : Fin b64 t) (h3 : |R b64 t - (z + C)| ≤ 6 / 2 ^ 53 * |C|) :
    ∃ r, scalbn t m = some r ∧ Fin b64 r ∧ Pat b64 r ∧ |R b64 r - (z * 2 ^ m + C * 2 ^ m)| ≤ 8 / 2 ^ 53 * |C * 2 ^ m| := by
  have h4 := abs_sub_abs_le_abs_sub (R b64 t) (z + C)
  have h5 := abs_sub_abs_le_abs_sub (z + C) (R b64 t)
  rw [abs_sub_comm] at h5
  have t1 : |R b64 t| ≤ 1.76 * |C| := by norm_num at *; linarith
  have t0 : R b64 t ≠ 0 := abs_pos.1 (lt_of_lt_of_le (show 0 < 0.2 * |C| by linarith) (by norm_num at h2 h3 ⊢; linarith))
  have t2 : |R b64 t * 2 ^ m| ≤ 1.76 * |C * 2 ^ m| := by
    rw [abs_mul, abs_mul, abs_of_pos hP, ← mul_assoc]
    exact mul_le_mul_of_nonneg_right t1 hP.le
  obtain ⟨r, r1, r2, r3, r4⟩ := scalbn_R ht t0 (le_Mx (t2.trans (by norm_num at c2 ⊢; linarith)))
  refine ⟨r, r1, r2, r4, ?_⟩
  have h6 : |R b64 t * 2 ^ m - (z * 2 ^ m + C * 2 ^ m)| ≤ 6 / 2 ^ 53 * |C * 2 ^ m| := by
    rw [show R b64 t * 2 ^ m - (z * 2 ^ m + C * 2 ^ m) = (R b64 t - (z + C)) * 2 ^ m by ring, abs_mul, abs_mul C, abs_of_pos hP, ← mul_assoc]
    exact mul_le_mul_of_nonneg_right h3 hP.le
  have h7 := abs_sub_le (R b64 r) (R b64 t * 2 ^ m) (z * 2 ^ m + C * 2 ^ m)
  generalize |C * 2 ^ m| = w at *
  generalize |R b64 t * 2 ^ m| = v at *
  norm_num at *
  linarith

/-- `fma` adds a product of at most three quarters of the addend up to eight last places. -/
theorem fma_near {a b c : Nat} (ha : Fin b64 a) (hb : Fin b64 b) (hc : Fin b64 c) (pcc : Pat b64 c)
    (h : |R b64 a * R b64 b| ≤ 3 / 4 * |R b64 c|) (c1 : 1 / 2 ^ 190 ≤ |R b64 c|) (c2 : |R b64 c| ≤ 2 ^ 200) :
    ∃ r, fma a b c = some r ∧ Fin b64 r ∧ Pat b64 r ∧ |R b64 r - (R b64 a * R b64 b + R b64 c)| ≤ 8 / 2 ^ 53 * |R b64 c| := by
  have C0 : 0 < |R b64 c| := lt_of_lt_of_le (by norm_num) c1
  have c0 : R b64 c ≠ 0 := abs_pos.1 C0
  unfold fma
  rw [truth_self ha, truth_self hb, truth_self hc]
  by_cases z : R b64 a = 0 ∨ R b64 b = 0
  · have t : ¬ truth a = true ∨ ¬ truth b = true := z.imp (fun z c => (truth_R ha).1 c z) (fun z c => (truth_R hb).1 c z)
    have hz : R b64 a * R b64 b = 0 := mul_eq_zero.2 z
    rw [if_neg (by simp), if_neg (by simp), if_pos t]
    refine ⟨_, rfl, ?_⟩
    have hm : Fin b64 (b64.mul a b) ∧ R b64 (b64.mul a b) = 0 := by
      have e : b64.mag (b64.abs a) * b64.mag (b64.abs b) = 0 := by
        have : ∀ {x}, R b64 x = 0 → b64.mag (b64.abs x) = 0 := fun {x} e => by
          have := abs_R (F := b64) x
          rw [e, _root_.abs_zero, eq_comm, div_eq_zero_iff] at this
          rcases this with this | this
          · exact_mod_cast this
          · exact absurd this (by positivity)
        rcases z with z | z <;> rw [this z]
        · exact Nat.zero_mul _
        · exact Nat.mul_zero _
      rw [Fmt.mul_fin ha hb, rnd_exact (n := 0) (Nat.two_pow_pos _) (by decide) (by rw [e, b64.mag_zero, Nat.mul_zero])]
      refine ⟨fin_pack (by decide), ?_⟩
      rw [R_pack (by decide), b64.mag_zero]
      simp
    obtain ⟨k1, k2⟩ := add_err ok64 top_big hm.1 hc (by rw [hm.2, zero_add]; exact le_Mx (c2.trans (by norm_num)))
    refine ⟨k1, pat_add' (pat_mul' _ _) pcc, ?_⟩
    rw [hm.2, eps64] at k2
    rw [hz]
    refine k2.trans ?_
    rw [zero_add]
    norm_num; linarith
  obtain ⟨za, zb⟩ := not_or.1 z
  rw [if_neg (by simp), if_neg (by simp), if_neg (by rw [(truth_R ha).2 za, (truth_R hb).2 zb]; simp), if_neg (by rw [(truth_R hc).2 c0]; simp)]
  obtain ⟨sa, ra, ea, A1, A2, A3, A4, A5⟩ := frexp_R ha za
  obtain ⟨sb, rb, eb, B1, B2, B3, B4, B5⟩ := frexp_R hb zb
  obtain ⟨sc, rc, ec, C1, C2, C3, C4, C5⟩ := frexp_R hc c0
  rw [A1, B1, C1]
  simp only [Option.bind_some]
  have hP : (0 : ℝ) < 2 ^ (ea + eb) := zpow_pos two_pos _
  have hsplit : (2 : ℝ) ^ ec = 2 ^ (ec - (ea + eb)) * 2 ^ (ea + eb) := by rw [← zpow_add₀ (by norm_num)]; congr 1; ring
  have hprod : R b64 a * R b64 b = R b64 (b64.pack sa ra) * R b64 (b64.pack sb rb) * 2 ^ (ea + eb) := by
    rw [A5, B5, zpow_add₀ (by norm_num)]; ring
  have a1 := abs_pack_R (s := sa) A2.le
  have b1 := abs_pack_R (s := sb) B2.le
  have cc1 := abs_pack_R (s := sc) C2.le
  rw [← a1] at A3 A4
  rw [← b1] at B3 B4
  have fa : Fin b64 (b64.pack sa ra) := fin_pack A2
  have fb : Fin b64 (b64.pack sb rb) := fin_pack B2
  rw [hprod] at h ⊢
  rw [C5, hsplit, ← mul_assoc] at h c1 c2 ⊢
  generalize hn : ec - (ea + eb) = n at *
  generalize ea + eb = m at *
  generalize b64.pack sa ra = a' at *
  generalize b64.pack sb rb = b' at *
  have hP2 : (0 : ℝ) < 2 ^ n := zpow_pos two_pos _
  have AB : 1 / 4 ≤ |R b64 a' * R b64 b'| ∧ |R b64 a' * R b64 b'| ≤ 1 := by
    rw [abs_mul]
    constructor <;> nlinarith
  rw [abs_mul _ ((2 : ℝ) ^ m), abs_mul _ ((2 : ℝ) ^ m), abs_of_pos hP, ← mul_assoc, mul_le_mul_iff_left₀ hP] at h
  split
  · rename_i hs
    refine ⟨c, rfl, hc, pcc, ?_⟩
    have h54 : (2 : ℝ) ^ (54 : Int) ≤ 2 ^ n := zpow_le_zpow_right₀ (by norm_num) (by omega)
    rw [C5, hsplit, ← mul_assoc, abs_mul _ ((2 : ℝ) ^ m), abs_mul _ ((2 : ℝ) ^ n), cc1, abs_of_pos hP, abs_of_pos hP2, sub_add_cancel_right, abs_neg, abs_mul, abs_of_pos hP,
      ← mul_assoc]
    refine mul_le_mul_of_nonneg_right (AB.2.trans ?_) hP.le
    rw [← mul_assoc]
    norm_num at h54 ⊢
    nlinarith
  · rename_i hs
    have hn1 : -1 ≤ n := by
      by_contra hc
      have h2 : (2 : ℝ) ^ n ≤ 2 ^ (-2 : Int) := zpow_le_zpow_right₀ (by norm_num) (by omega)
      rw [abs_mul (R b64 (b64.pack sc rc)), abs_of_pos hP2, cc1] at h
      norm_num at h2
      have := AB.1
      nlinarith
    obtain ⟨f1, f2⟩ := shiftExp_R (s := sc) (n := n) C2 C3 C4 ⟨by omega, by omega⟩
    rw [if_pos (show -106 ≤ n by omega)]
    rw [← f2] at h c1 c2 ⊢
    have pc : Pat b64 (shiftExp (b64.pack sc rc) n) := by
      unfold Pat shiftExp
      rw [show b64.signBit = 2 ^ 63 from rfl]
      omega
    generalize shiftExp (b64.pack sc rc) n = c' at *
    have k1 : 1 / 3 ≤ |R b64 c'| := by linarith
    have k2 : |R b64 c'| ≤ 2 ^ 53 := by
      have h2 : (2 : ℝ) ^ n ≤ 2 ^ (53 : Int) := zpow_le_zpow_right₀ (by norm_num) (by omega)
      rw [f2, abs_mul, abs_of_pos hP2, cc1]
      norm_num at h2 ⊢
      nlinarith
    have key := fma_sig fa fb pc f1 A4.le B4.le h k1 k2
    simp only at key
    obtain ⟨g1, g2, g3, g4⟩ := key
    generalize (fmaMul a' b') = ab at *
    generalize (fmaAdd ab.1 c') = s at *
    have s0 : R b64 s.1 ≠ 0 := abs_pos.1 (by linarith)
    rw [if_neg (by rw [(truth_R g1).2 s0]; simp)]
    obtain ⟨l, l1, -, l2, l3, l4, l5⟩ := ilogb_eq good_dbl (x := s.1) (Nat.pos_of_ne_zero fun e => s0 (R_abs0 e)) g1
    rw [l1, Option.bind_some]
    have hl : -1023 < m + l := by
      change 0 ≤ l + (b64.unit : Int) at l2
      change b64.mag (b64.abs s.1) < 2 ^ (l + (b64.unit : Int) + 1).toNat at l4
      have hu : (0 : ℝ) < 2 ^ b64.unit := by positivity
      have l6 : |R b64 s.1| < 2 ^ (l + 1) := by
        rw [abs_R, div_lt_iff₀ hu]
        have l7 : (b64.mag (b64.abs s.1) : ℝ) < 2 ^ (l + (b64.unit : Int) + 1).toNat := by exact_mod_cast l4
        refine l7.trans_le (le_of_eq ?_)
        rw [← zpow_natCast, ← zpow_natCast, ← zpow_add₀ (by norm_num)]
        have : (((l + (b64.unit : Int) + 1).toNat : Nat) : Int) = l + 1 + (b64.unit : Int) := by omega
        rw [this]
      by_contra hc
      have h2 : (2 : ℝ) ^ (l + 1 + m) ≤ 2 ^ (-200 : Int) := zpow_le_zpow_right₀ (by norm_num) (by omega)
      rw [zpow_add₀ (by norm_num)] at h2
      rw [abs_mul, abs_of_pos hP] at c1
      have h3 : 0.19 * |R b64 c'| * 2 ^ m ≤ 2 ^ (l + 1) * 2 ^ m := mul_le_mul_of_nonneg_right (g2.trans l6.le) hP.le
      have h4 := h3.trans h2
      norm_num at h4 c1
      linarith
    rw [if_pos hl]
    generalize b64.add s.1 (addOdd ab.2 s.2) = t at *
    have hsum : |R b64 a' * R b64 b' + R b64 c'| ≤ 1.75 * |R b64 c'| := (abs_add_le _ _).trans (by norm_num at h ⊢; linarith)
    have hsum' : 0.25 * |R b64 c'| ≤ |R b64 a' * R b64 b' + R b64 c'| := by
      have := abs_sub_abs_le_abs_sub (R b64 c') (-(R b64 a' * R b64 b'))
      rw [abs_neg, sub_neg_eq_add, _root_.add_comm (R b64 c')] at this
      norm_num
      linarith
    exact fma_last hP (by linarith) c1 c2 hsum hsum' g3 g4

end Verif.Approx
