import Verif.Approx.Log1p
import Verif.Hyp.Lemmas

/-! # The error of square roots in `double`; squares of floats are exact -/

namespace Verif.Approx
open Verif.Float Verif.Approx.Spec
open Verif.Math.Spec (Pat absOf negative value)

theorem sqrt_units {m U : ℝ} (hm : 0 ≤ m) (hU : 0 < U) : √(m / U) * U = √(m * U) := by
  rw [show m * U = m / U * U ^ 2 by field_simp, Real.sqrt_mul (by positivity), Real.sqrt_sq hU.le]

theorem sqrt_cast {a b c m P : Nat} {U : ℝ} (hU : U = (P : ℝ)) (h1 : (a + b) * (a + b) ≤ 4 * (m * P)) (h2 : 4 * (m * P) ≤ (b + c) * (b + c)) :
    (a : ℝ) + b ≤ 2 * √(m * U) ∧ 2 * √(m * U) ≤ b + c := by
  have h1' : ((a : ℝ) + b) * (a + b) ≤ 4 * (m * U) := by rw [hU]; exact_mod_cast h1
  have h2' : 4 * (m * U) ≤ ((b : ℝ) + c) * (b + c) := by rw [hU]; exact_mod_cast h2
  constructor
  · have := Real.le_sqrt_of_sq_le (show (((a : ℝ) + b) / 2) ^ 2 ≤ m * U by linarith)
    linarith
  · have := Real.sqrt_le_sqrt (show m * U ≤ (((b : ℝ) + c) / 2) ^ 2 by linarith)
    rw [Real.sqrt_sq (by positivity)] at this
    linarith

theorem abs_units {m s U : ℝ} (hU : 0 < U) : |m / U - s| = |m - s * U| / U := by
  rw [← abs_of_pos hU, ← abs_div, abs_of_pos hU, sub_div, mul_div_cancel_right₀ _ hU.ne']

theorem sqrt_err {x : Nat} (hp : Pat b64 x) (hf : Fin b64 x) (h : 1 / 2 ^ 200 < R b64 x) :
    Fin b64 (Cplx.fsqrt b64 x) ∧ Pat b64 (Cplx.fsqrt b64 x) ∧ |R b64 (Cplx.fsqrt b64 x) - √(R b64 x)| ≤ 1 / 2 ^ 52 * √(R b64 x) := by
  obtain ⟨n1, n2⟩ := pat_normal hp hf h
  have h0 : 0 < x := by omega
  rw [Cplx.fsqrt_fin h0 n2]
  obtain ⟨l1, l2⟩ := Cplx.rootPat_lt ok64 (by decide) n2 h0
  obtain ⟨s1, s2⟩ := Cplx.rootPat_spec (F := b64) (Cplx.root_fin ok64 (by decide) n2)
  have hX := (R_small n2).2
  generalize Cplx.rootPat b64 (b64.mag x * 2 ^ b64.unit) = r at *
  obtain ⟨r1, r2⟩ := R_small l2
  refine ⟨r1, Nat.lt_trans l2 (by decide), ?_⟩
  have hu : (0 : ℝ) < 2 ^ b64.unit := by positivity
  have hX0 : 0 ≤ R b64 x := le_trans (by norm_num) h.le
  have hs := sqrt_units (m := b64.mag x) (U := 2 ^ b64.unit) (Nat.cast_nonneg _) hu
  rw [← hX] at hs
  have t1 : ((b64.mag (r - 1) : ℝ) + b64.mag r) ≤ 2 * (√(R b64 x) * 2 ^ b64.unit) := by
    rw [hs]
    exact (sqrt_cast (P := 2 ^ b64.unit) (Nat.cast_pow 2 _).symm s1 s2).1
  have t2 : 2 * (√(R b64 x) * 2 ^ b64.unit) ≤ (b64.mag r : ℝ) + b64.mag (r + 1) := by
    rw [hs]
    exact (sqrt_cast (P := 2 ^ b64.unit) (Nat.cast_pow 2 _).symm s1 s2).2
  have hbig : 2 ^ 52 ≤ r - 1 := by
    by_contra hc
    have m1 : b64.mag r ≤ b64.mag (823 * 2 ^ 52) := b64.mag_mono (by omega)
    have m2 : b64.mag (r + 1) ≤ b64.mag (823 * 2 ^ 52) := b64.mag_mono (by omega)
    have m1' : (b64.mag r : ℝ) ≤ b64.mag (823 * 2 ^ 52) := by exact_mod_cast m1
    have m2' : (b64.mag (r + 1) : ℝ) ≤ b64.mag (823 * 2 ^ 52) := by exact_mod_cast m2
    have k := (lit_pos (x := 823 * 2 ^ 52) (E := 823) (m := 2 ^ 52) (k := 252) (by norm_num) (by norm_num) (by norm_num) (by norm_num)).2
    rw [(R_small (by decide)).2, div_eq_iff hu.ne'] at k
    rw [k] at m1' m2'
    have q : 1 / 2 ^ 100 < √(R b64 x) := Real.lt_sqrt_of_sq_lt (by refine lt_of_le_of_lt ?_ h; norm_num)
    have : √(R b64 x) * 2 ^ b64.unit ≤ ((2 ^ 52 : Nat) : ℝ) / 2 ^ 252 * 2 ^ b64.unit := by linarith
    have := le_of_mul_le_mul_right this hu
    have q2 : ((2 ^ 52 : Nat) : ℝ) / 2 ^ 252 ≤ 1 / 2 ^ 100 := by norm_num
    linarith
  have u1 := b64.mag_succ r
  have u2 := b64.mag_succ (r - 1)
  rw [show r - 1 + 1 = r by omega] at u2
  have v1 := ulp_le (F := b64) (n := r) (by show 2 ^ 52 ≤ r; omega)
  have v2 := ulp_le (F := b64) (n := r - 1) hbig
  rw [show b64.f = 52 from rfl] at v1 v2
  have u1' : (b64.mag (r + 1) : ℝ) = b64.mag r + b64.ulp r := by rw [u1]; push_cast; rfl
  have u2' : (b64.mag r : ℝ) = b64.mag (r - 1) + b64.ulp (r - 1) := by rw [u2]; push_cast; rfl
  have v1' : (2 : ℝ) ^ 52 * b64.ulp r ≤ b64.mag r := by exact_mod_cast v1
  have v2' : (2 : ℝ) ^ 52 * b64.ulp (r - 1) ≤ b64.mag (r - 1) := by exact_mod_cast v2
  have w0 : (0 : ℝ) ≤ b64.ulp (r - 1) := Nat.cast_nonneg _
  rw [r2, abs_units hu, div_le_iff₀ hu, mul_assoc]
  generalize √(R b64 x) * 2 ^ b64.unit = s at *
  generalize (b64.mag r : ℝ) = m at *
  generalize (b64.mag (r - 1) : ℝ) = m' at *
  generalize (b64.mag (r + 1) : ℝ) = m'' at *
  generalize (b64.ulp r : ℝ) = a at *
  generalize (b64.ulp (r - 1) : ℝ) = b at *
  clear hX hs s1 s2 u1 u2 v1 v2 r2
  norm_num at v1' v2' ⊢
  exact abs_le.2 ⟨by linarith, by linarith⟩

theorem Rel.sqrt {x : Nat} {V δ η : ℝ} (hp : Pat b64 x) (h : Rel x V δ) (hδ : 0 ≤ δ ∧ δ ≤ 1 / 2) (hV : 1 / 2 ^ 150 ≤ V) (hη : δ + (1 + δ) / 2 ^ 52 ≤ η) :
    Rel (Cplx.fsqrt b64 x) (√V) η := by
  have hV0 : 0 < V := lt_of_lt_of_le (by norm_num) hV
  have he := h.err
  rw [abs_of_pos hV0] at he
  have hlo : 1 / 2 ^ 200 < R b64 x := by
    have := (_root_.abs_le.1 he).1
    have : δ * V ≤ 1 / 2 * V := mul_le_mul_of_nonneg_right hδ.2 hV0.le
    norm_num at *
    linarith
  obtain ⟨s1, -, s3⟩ := sqrt_err hp h.fin hlo
  have hX0 : 0 ≤ R b64 x := le_trans (by norm_num) hlo.le
  have hr : 0 < √V := Real.sqrt_pos.2 hV0
  have d : |√(R b64 x) - √V| ≤ δ * √V := by
    have e : (√(R b64 x) - √V) * (√(R b64 x) + √V) = R b64 x - V := by
      have a := Real.mul_self_sqrt hX0
      have b := Real.mul_self_sqrt hV0.le
      linarith
    have a1 := Real.sqrt_nonneg (R b64 x)
    have p : 0 < √(R b64 x) + √V := by linarith
    have f : |√(R b64 x) - √V| * (√(R b64 x) + √V) ≤ δ * √V * (√(R b64 x) + √V) := by
      rw [← abs_of_pos p, ← abs_mul, e, abs_of_pos p]
      refine he.trans ?_
      have b := Real.mul_self_sqrt hV0.le
      have := mul_nonneg (mul_nonneg hδ.1 hr.le) a1
      calc δ * V = δ * √V * √V := by rw [mul_assoc, b]
        _ ≤ _ := by linarith
    exact le_of_mul_le_mul_right f p
  refine ⟨s1, ?_⟩
  rw [abs_of_pos hr]
  have d' := _root_.abs_le.1 d
  have t : √(R b64 x) ≤ (1 + δ) * √V := by linarith
  have := mul_le_mul_of_nonneg_right hη hr.le
  calc |R b64 (Cplx.fsqrt b64 x) - √V| ≤ |R b64 (Cplx.fsqrt b64 x) - √(R b64 x)| + |√(R b64 x) - √V| := abs_sub_le _ _ _
    _ ≤ 1 / 2 ^ 52 * ((1 + δ) * √V) + δ * √V := add_le_add (s3.trans (mul_le_mul_of_nonneg_left t (by norm_num))) d
    _ = (δ + (1 + δ) / 2 ^ 52) * √V := by ring
    _ ≤ _ := this

/-- The square of a float is exact in `double`. -/
theorem square_R {x : Nat} (hx : x < b32.inf) : Fin b64 (b64.mul (wide x) (wide x)) ∧ Pat b64 (b64.mul (wide x) (wide x)) ∧
    R b64 (b64.mul (wide x) (wide x)) = R b32 x ^ 2 := by
  obtain ⟨a, b⟩ := Hyp.square_up Hyp.wide hx
  have e : Cplx.up x = wide x := rfl
  rw [e] at a b
  obtain ⟨f1, f2⟩ := R_small a
  refine ⟨f1, Nat.lt_trans a (by decide), ?_⟩
  have e32 : b32.pack false x = x := by simp [Fmt.pack]
  have hR := R_pack (F := b32) (s := false) hx.le
  rw [e32, if_neg (by decide), one_mul] at hR
  rw [f2, b, hR, Nat.cast_mul, Nat.cast_mul, Nat.cast_pow, Nat.cast_ofNat]
  have hv : (2 : ℝ) ^ b64.unit = 2 ^ b32.unit * 2 ^ 925 := by rw [← pow_add]; rfl
  have p : (0 : ℝ) < 2 ^ b32.unit := by positivity
  have p' : (0 : ℝ) < 2 ^ 925 := by positivity
  have p'' : (0 : ℝ) < 2 ^ 776 := by positivity
  have hk : (2 : ℝ) ^ 776 * 2 ^ b32.unit = 2 ^ 925 := by rw [← pow_add]; rfl
  rw [hv]
  generalize (2 : ℝ) ^ b32.unit = u at *
  rw [← hk]
  clear hv
  generalize (2 : ℝ) ^ 776 = w at *
  field_simp

end Verif.Approx
