import Verif.Approx.Real
import Verif.Approx.Spec
import Verif.Math.Bridge

/-! # Tracking errors through a computation in `double` -/

namespace Verif.Approx
open Verif.Float Verif.Hyp.Spec Verif.Approx.Spec
open Verif.Math.Spec (Pat absOf negative value)

theorem R_eq {F : Fmt} {x : Nat} (h : Pat F x) : R F x = real F x := by unfold R real; rw [Math.value_eq h]

theorem eps64 : eps b64 = 1 / 2 ^ 53 := rfl

theorem eta_le {u : Nat} (h : 250 ≤ u) : (1 : ℝ) / 2 / 2 ^ u ≤ 1 / 2 ^ 250 := by
  have : (2 : ℝ) ^ 250 ≤ 2 ^ u := pow_le_pow_right₀ (by norm_num) h
  rw [div_div]
  apply one_div_le_one_div_of_le (by positivity)
  have : (0 : ℝ) < 2 ^ u := by positivity
  linarith

theorem eta64 : eta b64 ≤ 1 / 2 ^ 250 := eta_le (by decide)

/-- The finite double `x` is `v` up to an absolute error `e`. -/
structure Ap (x : Nat) (v e : ℝ) : Prop where
  fin : Fin b64 x
  err : |R b64 x - v| ≤ e

namespace Ap

theorem mono {x : Nat} {v e d : ℝ} (h : Ap x v e) (hd : e ≤ d) : Ap x v d := ⟨h.fin, h.err.trans hd⟩

theorem exact {x : Nat} (h : Fin b64 x) : Ap x (R b64 x) 0 := ⟨h, by simp⟩

theorem nonneg {x : Nat} {v e : ℝ} (h : Ap x v e) : 0 ≤ e := (abs_nonneg _).trans h.err

theorem abs_le {x : Nat} {v e V : ℝ} (h : Ap x v e) (hv : |v| ≤ V) : |R b64 x| ≤ V + e := by
  have h1 := _root_.abs_le.1 h.err
  have h2 := _root_.abs_le.1 hv
  exact _root_.abs_le.2 ⟨by linarith, by linarith⟩

theorem shift {x : Nat} {v w e d : ℝ} (h : Ap x v e) (hw : |v - w| ≤ d) : Ap x w (e + d) :=
  ⟨h.fin, (abs_sub_le _ v _).trans (add_le_add h.err hw)⟩

theorem add {x y : Nat} {v w e d B : ℝ} (hx : Ap x v e) (hy : Ap y w d) (hB : |v + w| ≤ B) (hs : B + e + d ≤ 2 ^ 64) :
    Ap (b64.add x y) (v + w) (e + d + (B + e + d) / 2 ^ 53) := by
  have h1 := _root_.abs_le.1 hx.err
  have h2 := _root_.abs_le.1 hy.err
  have h3 := _root_.abs_le.1 hB
  have hb : |R b64 x + R b64 y| ≤ B + e + d := _root_.abs_le.2 ⟨by linarith, by linarith⟩
  obtain ⟨k1, k2⟩ := add_err ok64 big64.top hx.fin hy.fin (hb.trans hs)
  refine ⟨k1, ?_⟩
  rw [eps64] at k2
  have k3 := _root_.abs_le.1 (k2.trans (mul_le_mul_of_nonneg_left hb (by norm_num)))
  refine _root_.abs_le.2 ⟨by linarith, by linarith⟩

theorem opp {x : Nat} {v e : ℝ} (hx : Ap x v e) : Ap (b64.opp x) (-v) e :=
  ⟨fin_opp hx.fin, by rw [R_opp, show -R b64 x - -v = -(R b64 x - v) by ring, abs_neg]; exact hx.err⟩

theorem sub {x y : Nat} {v w e d B : ℝ} (hx : Ap x v e) (hy : Ap y w d) (hB : |v - w| ≤ B) (hs : B + e + d ≤ 2 ^ 64) :
    Ap (b64.sub x y) (v - w) (e + d + (B + e + d) / 2 ^ 53) := by
  have := hx.add hy.opp (B := B) (by rwa [← sub_eq_add_neg]) hs
  rwa [← sub_eq_add_neg] at this

theorem mul {x y : Nat} {v w e d V W : ℝ} (hx : Ap x v e) (hy : Ap y w d) (hV : |v| ≤ V) (hW : |w| ≤ W) (hs : (V + e) * (W + d) ≤ 2 ^ 64) :
    Ap (b64.mul x y) (v * w) (e * W + d * (V + e) + (V + e) * (W + d) / 2 ^ 53 + 1 / 2 ^ 250) := by
  have ax := hx.abs_le hV
  have ay := hy.abs_le hW
  have hb : |R b64 x * R b64 y| ≤ (V + e) * (W + d) := by
    rw [abs_mul]; exact mul_le_mul ax ay (abs_nonneg _) ((abs_nonneg _).trans ax)
  obtain ⟨k1, k2⟩ := mul_err big64.top hx.fin hy.fin (hb.trans hs)
  refine ⟨k1, ?_⟩
  rw [eps64] at k2
  have k3 : |R b64 x * R b64 y - v * w| ≤ e * W + d * (V + e) := by
    rw [show R b64 x * R b64 y - v * w = (R b64 x - v) * w + (R b64 y - w) * R b64 x by ring]
    refine (abs_add_le _ _).trans (add_le_add ?_ ?_)
    · rw [abs_mul]; exact mul_le_mul hx.err hW (abs_nonneg _) hx.nonneg
    · rw [abs_mul]; exact mul_le_mul hy.err ax (abs_nonneg _) hy.nonneg
  have k4 := mul_le_mul_of_nonneg_left hb (show (0 : ℝ) ≤ 1 / 2 ^ 53 by norm_num)
  have k5 := eta64
  calc |R b64 (b64.mul x y) - v * w| ≤ |R b64 (b64.mul x y) - R b64 x * R b64 y| + |R b64 x * R b64 y - v * w| := abs_sub_le _ _ _
    _ ≤ _ := by linarith

end Ap

/-! ### Constants -/

theorem R_const {s : Bool} (E m : Nat) (hE : 1 ≤ E ∧ E < 2047) (hm : 2 ^ 52 ≤ m ∧ m < 2 ^ 53) :
    Fin b64 (b64.pack s (E * 2 ^ 52 + (m - 2 ^ 52))) ∧
      R b64 (b64.pack s (E * 2 ^ 52 + (m - 2 ^ 52))) = (if s then -1 else 1) * ((m : ℝ) * 2 ^ (E - 1) / 2 ^ b64.unit) := by
  have hl : E * 2 ^ 52 + (m - 2 ^ 52) < b64.inf := by
    have : b64.inf = 2047 * 2 ^ 52 := rfl
    omega
  refine ⟨fin_pack hl, ?_⟩
  rw [R_pack hl.le, show (b64.mag (E * 2 ^ 52 + (m - 2 ^ 52))) = m * 2 ^ (E - 1) from b64.mag_mk E m hE.1 hm.1 hm.2]
  push_cast
  ring

theorem pow_ratio {u k a : Nat} (h : a + k = u) (m : ℝ) : m * 2 ^ a / 2 ^ u = m / 2 ^ k := by
  subst h
  rw [pow_add]
  have : (2 : ℝ) ^ a ≠ 0 := by positivity
  field_simp

theorem pow_ratio' {u k a : Nat} (h : u + k = a) (m : ℝ) : m * 2 ^ a / 2 ^ u = m * 2 ^ k := by
  subst h
  rw [pow_add]
  have : (2 : ℝ) ^ u ≠ 0 := by positivity
  field_simp

/-- A positive constant below `2^53`: `m / 2^k`. -/
theorem const_pos (E m k : Nat) (hE : 1 ≤ E ∧ E < 2047) (hm : 2 ^ 52 ≤ m ∧ m < 2 ^ 53) (hk : E - 1 + k = 1074) :
    Fin b64 (E * 2 ^ 52 + (m - 2 ^ 52)) ∧ R b64 (E * 2 ^ 52 + (m - 2 ^ 52)) = (m : ℝ) / 2 ^ k := by
  have := R_const (s := false) E m hE hm
  rw [show b64.pack false (E * 2 ^ 52 + (m - 2 ^ 52)) = E * 2 ^ 52 + (m - 2 ^ 52) by unfold Fmt.pack; simp] at this
  refine ⟨this.1, ?_⟩
  rw [this.2, pow_ratio (u := b64.unit) (k := k) hk]; simp

/-- A negative constant. -/
theorem const_neg (E m k : Nat) (hE : 1 ≤ E ∧ E < 2047) (hm : 2 ^ 52 ≤ m ∧ m < 2 ^ 53) (hk : E - 1 + k = 1074) :
    Fin b64 (2 ^ 63 + (E * 2 ^ 52 + (m - 2 ^ 52))) ∧ R b64 (2 ^ 63 + (E * 2 ^ 52 + (m - 2 ^ 52))) = -((m : ℝ) / 2 ^ k) := by
  have := R_const (s := true) E m hE hm
  rw [show b64.pack true (E * 2 ^ 52 + (m - 2 ^ 52)) = 2 ^ 63 + (E * 2 ^ 52 + (m - 2 ^ 52)) by unfold Fmt.pack; rfl] at this
  refine ⟨this.1, ?_⟩
  rw [this.2, pow_ratio (u := b64.unit) (k := k) hk]; simp

/-- The same for a literal pattern. -/
theorem lit_pos {x E m k : Nat} (h : x = E * 2 ^ 52 + (m - 2 ^ 52)) (hE : 1 ≤ E ∧ E < 2047) (hm : 2 ^ 52 ≤ m ∧ m < 2 ^ 53) (hk : E - 1 + k = 1074) :
    Fin b64 x ∧ R b64 x = (m : ℝ) / 2 ^ k := h ▸ const_pos E m k hE hm hk

theorem lit_neg {x E m k : Nat} (h : x = 2 ^ 63 + (E * 2 ^ 52 + (m - 2 ^ 52))) (hE : 1 ≤ E ∧ E < 2047) (hm : 2 ^ 52 ≤ m ∧ m < 2 ^ 53) (hk : E - 1 + k = 1074) :
    Fin b64 x ∧ R b64 x = -((m : ℝ) / 2 ^ k) := h ▸ const_neg E m k hE hm hk

/-! ### Comparisons and conversions -/

theorem lt_R {F : Fmt} {x y : Nat} (hx : Fin F x) (hy : Fin F y) : F.lt x y = true ↔ R F x < R F y := by
  rw [Fmt.lt_iff (Nat.le_of_lt hx) (Nat.le_of_lt hy)]
  unfold R
  rw [div_lt_div_iff_of_pos_right (by positivity)]
  exact Int.cast_lt.symm

theorem le_R {F : Fmt} {x y : Nat} (hx : Fin F x) (hy : Fin F y) : F.le x y = true ↔ R F x ≤ R F y := by
  rw [Fmt.le_iff (Nat.le_of_lt hx) (Nat.le_of_lt hy)]
  unfold R
  rw [div_le_div_iff_of_pos_right (by positivity)]
  exact Int.cast_le.symm

theorem eq_R {F : Fmt} {x y : Nat} (hx : Fin F x) (hy : Fin F y) : F.eq x y = true ↔ R F x = R F y := by
  rw [Fmt.eq_iff (Nat.le_of_lt hx) (Nat.le_of_lt hy)]
  unfold R
  have : (0 : ℝ) < 2 ^ F.unit := by positivity
  rw [div_left_inj' this.ne']
  exact Int.cast_inj.symm

theorem conv_exact {u v k : Nat} (h : u + k = v) (m : ℝ) : m * 2 ^ k / 2 ^ v = m / 2 ^ u := by
  subst h
  rw [pow_add]
  have : (2 : ℝ) ^ k ≠ 0 := by positivity
  field_simp

/-- A float is the same number as a double. -/
theorem wide_R {x : Nat} (hx : Fin b32 x) : Fin b64 (b32.conv b64 x) ∧ R b64 (b32.conv b64 x) = R b32 x ∧ Pat b64 (b32.conv b64 x) ∧
    b64.neg (b32.conv b64 x) = b32.neg x := by
  obtain ⟨n, h1, h2, h3⟩ := Math.conv_float hx
  rw [h1]
  refine ⟨fin_pack h2, ?_, Math.pat_pack h2.le, Fmt.neg_pack (Nat.lt_trans h2 Fmt.inf_lt)⟩
  rw [R_pack h2.le, h3, R_signed]
  push_cast
  rw [mul_div_assoc, conv_exact (u := b32.unit) (v := b64.unit) (by rfl)]

theorem pat_add {F : Fmt} {x y : Nat} (hx : Fin F x) (hy : Fin F y) : Pat F (F.add x y) := by
  rw [Fmt.add_fin hx hy]
  unfold Fmt.rndInt
  split
  · exact Math.pat_pack (Nat.zero_le _)
  · exact Math.pat_pack (rnd_le _ _ Nat.one_pos)

theorem pat_mul {F : Fmt} {x y : Nat} (hx : Fin F x) (hy : Fin F y) : Pat F (F.mul x y) := by
  rw [Fmt.mul_fin hx hy]
  exact Math.pat_pack (rnd_le _ _ (Nat.two_pow_pos _))

/-- Conversion to a narrower format rounds. -/
theorem conv_rounded {F G : Fmt} {y : Nat} (hy : Fin F y) : Rounded G (R F y) (F.conv G y) := by
  unfold Fmt.conv
  rw [Fmt.not_nan_of_fin hy, Fmt.isFin_iff.2 hy]
  simp only [Bool.false_eq_true, if_false, if_true]
  have hp : (0 : ℝ) < 2 ^ F.unit := by positivity
  have hle := rnd_le (F := G) (F.mag (F.abs y) * 2 ^ G.unit) _ (Nat.two_pow_pos F.unit)
  have hs := R_signed (F := F) y
  have hm : (0 : ℝ) ≤ F.mag (F.abs y) / 2 ^ F.unit := by positivity
  refine ⟨Math.pat_pack hle, ?_, fun h => ?_, fun h => ?_⟩
  · rw [Math.absOf_pack hle, abs_R]
    have := nearestReal_rnd (F := G) (F.mag (F.abs y) * 2 ^ G.unit) (Nat.two_pow_pos F.unit)
    convert this using 1
    push_cast
    ring
  · rw [Math.negative_pack hle]
    intro e
    rw [hs, e] at h
    simp at h
    linarith
  · rw [Math.negative_pack hle]
    cases e : F.neg y
    · rw [hs, e] at h; simp at h; linarith
    · rfl

/-- `rint` of a number below `2^63`. -/
theorem rint_R {F : Fmt} (g : Big F) {x : Nat} (hx : Fin F x) (hb : |R F x| ≤ 2 ^ 63) :
    ∃ n : Int, Fin F (F.rint x) ∧ R F (F.rint x) = n ∧ |R F x - n| ≤ 1 / 2 ∧ Pat F (F.rint x) := by
  obtain ⟨k, h1, h2, h3⟩ := Math.rint_eq g.ok hx
  have hp : (0 : ℝ) < 2 ^ F.unit := by positivity
  have hP : (0 : Nat) < 2 ^ F.unit := Nat.two_pow_pos _
  have hnear : |((F.mag (F.abs x) : ℝ)) / 2 ^ F.unit - Fmt.nearInt (F.mag (F.abs x)) F.unit| ≤ 1 / 2 := by
    have hdm := Nat.div_add_mod (F.mag (F.abs x)) (2 ^ F.unit)
    have hml := Nat.mod_lt (F.mag (F.abs x)) hP
    unfold Fmt.nearInt
    generalize F.mag (F.abs x) / 2 ^ F.unit = q at *
    generalize F.mag (F.abs x) % 2 ^ F.unit = r at *
    rw [← hdm]
    have e : ((2 ^ F.unit * q + r : Nat) : ℝ) / 2 ^ F.unit = q + r / 2 ^ F.unit := by push_cast; field_simp
    rw [e]
    have r2 : (r : ℝ) / 2 ^ F.unit < 1 := by rw [div_lt_one hp]; exact_mod_cast hml
    have r0 : (0 : ℝ) ≤ (r : ℝ) / 2 ^ F.unit := by positivity
    split
    · rename_i hc
      have : 2 ^ F.unit ≤ 2 * r := by omega
      have : (2 : ℝ) ^ F.unit ≤ 2 * r := by exact_mod_cast this
      have : 1 / 2 ≤ (r : ℝ) / 2 ^ F.unit := by rw [le_div_iff₀ hp]; linarith
      push_cast
      refine abs_le.2 ⟨by linarith, by linarith⟩
    · rename_i hc
      have : 2 * r ≤ 2 ^ F.unit := by omega
      have : 2 * (r : ℝ) ≤ (2 : ℝ) ^ F.unit := by exact_mod_cast this
      have : (r : ℝ) / 2 ^ F.unit ≤ 1 / 2 := by rw [div_le_iff₀ hp]; linarith
      refine abs_le.2 ⟨by linarith, by linarith⟩
  have hkinf : k < F.inf := by
    rcases Nat.lt_or_ge k F.inf with h | h
    · exact h
    · exfalso
      have := F.mag_mono h
      rw [h3, Fmt.mag_inf g.ok] at this
      obtain ⟨u1, u2⟩ := Fmt.unit_eq g.ok
      have hb' := g.bias
      rw [show F.f + 2 * F.bias = (F.bias + 1) + F.unit by omega, pow_add] at this
      have hi := Nat.le_of_mul_le_mul_right this hP
      have h65 : 2 ^ 65 ≤ 2 ^ (F.bias + 1) := Nat.pow_le_pow_right (by omega) (by omega)
      have hi' : (2 : ℝ) ^ 65 ≤ Fmt.nearInt (F.mag (F.abs x)) F.unit := by exact_mod_cast h65.trans hi
      rw [abs_R] at hb
      have := abs_le.1 hnear
      have hn := this.1
      linarith
  have hR : R F (F.rint x) = (if F.neg x then -1 else 1) * (Fmt.nearInt (F.mag (F.abs x)) F.unit : ℝ) := by
    rw [h1, R_pack h2, h3]
    push_cast
    field_simp
  refine ⟨(if F.neg x then -1 else 1) * (Fmt.nearInt (F.mag (F.abs x)) F.unit : Int), ?_, ?_, ?_, ?_⟩
  · rw [h1]; exact fin_pack hkinf
  · rw [hR]; push_cast; rfl
  · rw [R_signed]
    push_cast
    rw [← mul_sub, abs_mul, show |(if F.neg x then (-1 : ℝ) else 1)| = 1 by cases F.neg x <;> simp, one_mul]
    exact hnear
  · rw [h1]; exact Math.pat_pack h2

end Verif.Approx
