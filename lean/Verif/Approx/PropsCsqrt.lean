import Verif.Approx.PropsInv
import Verif.Approx.PowValue

/-! # C172: the fast path of `csqrtf`

Away from midpoints of floats the attempt in `double` is accepted, and its parts are those of the principal square root, rounded to nearest.
-/

namespace Verif.Approx
open Verif.Float Verif.Math.Spec Verif.Approx.Spec

theorem square_signed {x : Nat} (hx : Fin b32 x) : Fin b64 (b64.mul (wide x) (wide x)) ∧ Pat b64 (b64.mul (wide x) (wide x)) ∧
    R b64 (b64.mul (wide x) (wide x)) = R b32 x ^ 2 := by
  obtain ⟨w1, w2, -, -⟩ := wideR hx
  obtain ⟨a1, a2⟩ := fabs_R hx
  obtain ⟨v1, v2, -, -⟩ := wideR a1
  have e : b64.mag (b64.abs (wide x)) = b64.mag (b64.abs (wide (b32.abs x))) := by
    have : |R b64 (wide x)| = |R b64 (wide (b32.abs x))| := by rw [w2, v2, a2, abs_abs]
    rw [abs_R, abs_R, div_left_inj' (by positivity)] at this
    exact_mod_cast this
  obtain ⟨s1, s2, s3⟩ := square_R (x := b32.abs x) hx
  rw [Fmt.mul_fin v1 v1, bne_self_eq_false, ← e] at s1 s2 s3
  rw [Fmt.mul_fin w1 w1, bne_self_eq_false]
  exact ⟨s1, s2, by rw [s3, a2, sq_abs]⟩

theorem ziv_open {r : Nat} {V : ℝ} (hp : Pat b64 r) (h : Rel r V (1 / 2 ^ 46)) (lo : (1 + 1 / 2 ^ 38) / 2 ^ 126 ≤ V) (hi : V ≤ 2 ^ 126)
    (far : FarFromMidpoints b32 (1 / 2 ^ 38) V) : csqrtZiv r = true ∧ Rounded b32 V (narrow r) := by
  have hV : 0 < V := lt_of_lt_of_le (by norm_num) lo
  have e : |R b64 r - V| ≤ 1 / 2 ^ 40 * V := by
    have := h.err
    rw [abs_of_pos hV] at this
    refine this.trans (mul_le_mul_of_nonneg_right (by norm_num) hV.le)
  have far' : ∀ p, p + 1 < b32.inf → 1 / 2 ^ 38 * V < |V - ((b32.mag p : ℝ) + b32.mag (p + 1)) / 2 / 2 ^ b32.unit| :=
    fun p hp => by rw [← mid_real hp]; exact far p hp
  have c := abs_le.1 e
  have g := gate_open h.fin hp (by norm_num at *; linarith) (by norm_num at *; linarith) (fun q hq => by
    have f := far' q hq
    generalize ((b32.mag q : ℝ) + b32.mag (q + 1)) / 2 / 2 ^ b32.unit = M at *
    have t := abs_sub_le V (R b64 r) M
    rw [abs_sub_comm V (R b64 r)] at t
    exact gate_far hV f e t)
  have r0 : r < b64.inf := pos_pattern h.fin hp (by norm_num at *; linarith)
  have ea : b64.abs r = r := Nat.mod_eq_of_lt (Nat.lt_trans r0 Fmt.inf_lt)
  refine ⟨?_, pow_narrow h.fin hV (hi.trans (by norm_num)) e far'⟩
  unfold csqrtZiv
  simp only [ea, Bool.and_eq_true, decide_eq_true_eq]
  exact ⟨⟨g.1, g.2.1⟩, g.2.2⟩

/-- The attempt in `double`. -/
theorem csqrt_fast {x y : Nat} (hx : Fin b32 x) (hy : Fin b32 y) {N P Q : ℝ} (hN : N = √(R b32 x ^ 2 + R b32 y ^ 2)) (lo : 1 / 2 ^ 75 ≤ N)
    (hP : P = √(1 / 2 * (|R b32 x| + N))) (hQ : Q = 1 / 2 * |R b32 y| / P) (h1 : (1 + 1 / 2 ^ 38) / 2 ^ 126 ≤ Q)
    (f1 : FarFromMidpoints b32 (1 / 2 ^ 38) P) (f2 : FarFromMidpoints b32 (1 / 2 ^ 38) Q) :
    ∃ p q, Rounded b32 P p ∧ Rounded b32 Q q ∧ csqrtfFinite (wide x) (wide y) =
      some (if b32.neg x then (q, b32.copysign p y) else (p, b32.copysign q y)) := by
  obtain ⟨x1, x2, -, x4⟩ := wideR hx
  obtain ⟨y1, y2, -, y4⟩ := wideR hy
  obtain ⟨a1, a2⟩ := fabs_R x1
  obtain ⟨b1, b2⟩ := fabs_R y1
  rw [x2] at a2
  rw [y2] at b2
  obtain ⟨s1, s2, s3⟩ := square_signed hx
  obtain ⟨t1, t2, t3⟩ := square_signed hy
  have tx := R32_le hx
  have ty := R32_le hy
  have n1 := abs_nonneg (R b32 x)
  have n2 := abs_nonneg (R b32 y)
  have gx : R b32 x ^ 2 ≤ 2 ^ 256 := by rw [← sq_abs]; nlinarith
  have gy : R b32 y ^ 2 ≤ 2 ^ 256 := by rw [← sq_abs]; nlinarith
  have hN0 : 0 < N := lt_of_lt_of_le (by norm_num) lo
  have nn : N ^ 2 = R b32 x ^ 2 + R b32 y ^ 2 := by rw [hN, Real.sq_sqrt (by positivity)]
  have hNt : N ≤ 2 ^ 129 := by
    refine abs_le_of_sq_le_sq' ?_ (by positivity) |>.2
    rw [nn]
    norm_num at *
    linarith [abs_nonneg (R b32 x)]
  -- the norm
  have r1 : Rel (b64.add (b64.mul (wide x) (wide x)) (b64.mul (wide y) (wide y))) (R b32 x ^ 2 + R b32 y ^ 2) (1 / 2 ^ 52) :=
    Rel.add (Rel.exact s1 s3) (Rel.exact t1 t3) (sq_nonneg _) (sq_nonneg _)
      ((show (1 + 0) * (R b32 x ^ 2 + R b32 y ^ 2) ≤ 2 ^ 257 by rw [show (2 : ℝ) ^ 257 = 2 * 2 ^ 256 from pow_succ' 2 256]; linarith).trans (pow_le_Mx (by norm_num))) (by norm_num)
  have r2 : Rel (Cplx.fsqrt b64 (b64.add (b64.mul (wide x) (wide x)) (b64.mul (wide y) (wide y)))) N (1 / 2 ^ 50) := by
    rw [hN]
    refine Rel.sqrt (pat_add s1 t1) r1 (by norm_num) ?_ (by norm_num)
    rw [← nn]
    have := mul_le_mul lo lo (by positivity) hN0.le
    norm_num at *
    linarith [abs_nonneg (R b32 x)]
  unfold csqrtfFinite
  dsimp only
  generalize Cplx.fsqrt b64 (b64.add (b64.mul (wide x) (wide x)) (b64.mul (wide y) (wide y))) = m at *
  have r3 : Rel (b64.add (b64.abs (wide x)) m) (|R b32 x| + N) (1 / 2 ^ 49) :=
    Rel.add ((Rel.exact a1 a2).mono (by norm_num)) r2 n1 hN0.le
      ((show (1 + 1 / 2 ^ 50) * (|R b32 x| + N) ≤ 2 ^ 131 by norm_num at *; linarith [abs_nonneg (R b32 x)]).trans (pow_le_Mx (by norm_num))) (by norm_num)
  have hs : 0 ≤ 1 / 2 * (|R b32 x| + N) := by linarith
  have r4 : Rel (b64.mul half (b64.add (b64.abs (wide x)) m)) (1 / 2 * (|R b32 x| + N)) (1 / 2 ^ 48) := by
    refine Rel.mul rel_half r3 (by norm_num) ?_ ?_ (by norm_num) <;> rw [abs_of_nonneg hs]
    · exact (show _ ≤ (2 : ℝ) ^ 131 by norm_num at *; linarith [abs_nonneg (R b32 x)]).trans (pow_le_Mx (by norm_num))
    · norm_num at *; linarith [abs_nonneg (R b32 x)]
  have p4 := pat_mul k_half.1 r3.fin
  generalize b64.mul half (b64.add (b64.abs (wide x)) m) = h at *
  have r5 : Rel (Cplx.fsqrt b64 h) P (1 / 2 ^ 47) := by
    rw [hP]
    exact Rel.sqrt p4 r4 (by norm_num) (by norm_num at *; linarith [abs_nonneg (R b32 x)]) (by norm_num)
  have p5 : Pat b64 (Cplx.fsqrt b64 h) := by
    refine (sqrt_err p4 r4.fin ?_).2.1
    have := r4.err
    rw [abs_of_nonneg hs] at this
    have := (abs_le.1 this).1
    norm_num at *
    linarith [abs_nonneg (R b32 x)]
  generalize Cplx.fsqrt b64 h = big at *
  have pp : P ^ 2 = 1 / 2 * (|R b32 x| + N) := by rw [hP, Real.sq_sqrt hs]
  have hP0 : 0 ≤ P := by rw [hP]; positivity
  have hPl : 1 / 2 ^ 38 ≤ P := by
    refine abs_le_of_sq_le_sq' ?_ hP0 |>.2
    rw [pp]
    norm_num at *
    linarith [abs_nonneg (R b32 x)]
  have hPt : P ≤ 2 ^ 66 := by
    refine abs_le_of_sq_le_sq' ?_ (by positivity) |>.2
    rw [pp]
    norm_num at *
    linarith [abs_nonneg (R b32 x)]
  have hPp : 0 < P := lt_of_lt_of_le (by norm_num) hPl
  have hQP : Q * P = 1 / 2 * |R b32 y| := by rw [hQ]; field_simp
  have hQ0 : 0 < Q := lt_of_lt_of_le (by norm_num) h1
  have hyN : |R b32 y| ≤ 2 * P ^ 2 := by
    have : |R b32 y| ≤ N := abs_le_of_sq_le_sq' (by rw [sq_abs, nn]; nlinarith [sq_nonneg (R b32 x)]) hN0.le |>.2
    linarith
  have hQt : Q ≤ 2 ^ 66 := by
    have : Q ≤ P := by
      by_contra c
      rw [not_le] at c
      nlinarith
    linarith
  have hyl : 1 / 2 ^ 170 ≤ 1 / 2 * |R b32 y| := by
    rw [← hQP]
    refine le_trans ?_ (mul_le_mul h1 hPl (by positivity) hQ0.le)
    norm_num
  have r6 : Rel (b64.mul half (b64.abs (wide y))) (1 / 2 * |R b32 y|) (1 / 2 ^ 52) := by
    refine Rel.mul rel_half (Rel.exact b1 b2) (by norm_num) ?_ ?_ (by norm_num) <;> rw [abs_of_nonneg (by linarith)]
    · exact (show _ ≤ (2 : ℝ) ^ 131 by norm_num at *; linarith [abs_nonneg (R b32 x)]).trans (pow_le_Mx (by norm_num))
    · exact hyl
  have r7 : Rel (Arith.fdiv b64 (b64.mul half (b64.abs (wide y))) big) Q (1 / 2 ^ 46) := by
    have hq : |1 / 2 * |R b32 y| / P| = Q := by rw [← hQ, abs_of_pos hQ0]
    rw [hQ]
    refine Rel.div (θ := 1.1 / 2 ^ 47) r6 r5 (by norm_num) hPp.ne' (by norm_num) ?_ ?_ (by norm_num) <;> rw [hq]
    · exact (show _ ≤ (2 : ℝ) ^ 131 by norm_num at *; linarith [abs_nonneg (R b32 x)]).trans (pow_le_Mx (by norm_num))
    · norm_num at *; linarith [abs_nonneg (R b32 x)]
  have p7 : Pat b64 (Arith.fdiv b64 (b64.mul half (b64.abs (wide y))) big) := by
    refine pat_div r6.fin r5.fin ?_
    have := r5.le_abs
    rw [abs_of_pos hPp] at this
    exact abs_pos.1 (lt_of_lt_of_le (mul_pos (by norm_num) hPp) this)
  obtain ⟨z1, z2⟩ := ziv_open p5 (r5.mono (by norm_num)) (le_trans (by norm_num) hPl) (hPt.trans (by norm_num)) f1
  obtain ⟨z3, z4⟩ := ziv_open p7 r7 h1 (hQt.trans (by norm_num)) f2
  refine ⟨_, _, z2, z4, ?_⟩
  rw [z1, z3, x4]
  simp only [Bool.and_self, if_true, Option.map_some]
  have cs : ∀ r, b32.copysign r (narrow (wide y)) = b32.copysign r y := fun r => by unfold Fmt.copysign; rw [narrow_neg y1, y4]
  rw [cs, cs]

/-- C172: for finite numbers of norm at least `2⁻⁷⁵`, both parts of `csqrtf` are those of the principal square root rounded to nearest, if the exact
parts are not subnormal and are farther than `2⁻³⁸` from midpoints of floats.  Missing: the other numbers, at which the refinement of `csqrtf` is
wrong, see `C172_csqrtf_violated`. -/
theorem C172_csqrtf_partial {z : Nat × Nat} (hz : FiniteC z) {s : ℂ} (hs : s ^ 2 = complex z) (h0 : 0 < s.re) (hn : 1 / 2 ^ 75 ≤ ‖complex z‖)
    (h1 : (1 + 1 / 2 ^ 38) / 2 ^ 126 ≤ s.re) (h2 : (1 + 1 / 2 ^ 38) / 2 ^ 126 ≤ |s.im|)
    (f1 : FarFromMidpoints b32 (1 / 2 ^ 38) s.re) (f2 : FarFromMidpoints b32 (1 / 2 ^ 38) |s.im|) :
    ∃ w, csqrtf z = some w ∧ Rounded b32 s.re w.1 ∧ Rounded b32 s.im w.2 := by
  obtain ⟨x, y⟩ := z
  obtain ⟨⟨px, hx⟩, py, hy⟩ := hz
  dsimp only at px hx py hy
  have hxF : Fin b32 x := hx
  have hyF : Fin b32 y := hy
  have hx' : b32.abs x < b32.inf := hx
  have hy' : b32.abs y < b32.inf := hy
  have i0 : 0 < |s.im| := lt_of_lt_of_le (by norm_num) h2
  have ere : s.re ^ 2 - s.im ^ 2 = R b32 x := by
    have := congrArg Complex.re hs
    rw [sq, Complex.mul_re] at this
    rw [R_eq px]
    show _ = (complex (x, y)).re
    rw [← this]; ring
  have eim : 2 * s.re * s.im = R b32 y := by
    have := congrArg Complex.im hs
    rw [sq, Complex.mul_im] at this
    rw [R_eq py]
    show _ = (complex (x, y)).im
    rw [← this]; ring
  have eN : ‖complex (x, y)‖ = s.re ^ 2 + |s.im| ^ 2 := by
    rw [← hs, norm_pow, Complex.sq_norm, Complex.normSq_apply, sq_abs]; ring
  have eN' : s.re ^ 2 + |s.im| ^ 2 = √(R b32 x ^ 2 + R b32 y ^ 2) := by
    rw [← ere, ← eim, sq_abs, show (s.re ^ 2 - s.im ^ 2) ^ 2 + (2 * s.re * s.im) ^ 2 = (s.re ^ 2 + s.im ^ 2) ^ 2 by ring, Real.sqrt_sq (by positivity)]
  rw [eN] at hn
  have ey : |R b32 y| = 2 * s.re * |s.im| := by rw [← eim, abs_mul, abs_mul, abs_of_pos h0]; norm_num
  have hy0 : R b32 y ≠ 0 := by rw [← abs_pos, ey]; positivity
  have cs : csqrtf (x, y) = csqrtfFinite (wide x) (wide y) := by
    have m := b32.mag_strictMono hx'
    have e1 : b32.eq x b32.inf = false ∧ b32.eq x (b32.pack true b32.inf) = false := by
      constructor
      · rw [← Bool.not_eq_true, Fmt.eq_iff hx'.le (by decide)]
        unfold Fmt.val
        rw [show b32.neg b32.inf = false by decide, show b32.abs b32.inf = b32.inf by decide]
        split <;> simp <;> omega
      · rw [← Bool.not_eq_true, Fmt.eq_iff hx'.le (by decide)]
        unfold Fmt.val
        rw [show b32.neg (b32.pack true b32.inf) = true by decide, show b32.abs (b32.pack true b32.inf) = b32.inf by decide]
        split <;> simp <;> omega
    have z : ¬ (b32.eq x 0 = true ∧ b32.eq y 0 = true) := by
      rintro ⟨-, c⟩
      rw [eq_zero] at c
      apply hy0
      rw [← abs_eq_zero, abs_R, c, Fmt.mag_zero]
      simp
    unfold csqrtf
    simp only
    rw [if_neg z, if_neg (show ¬ b32.abs y = b32.inf from Nat.ne_of_lt hy'), e1.1, if_neg (by simp), e1.2, if_neg (by simp),
      if_neg (not_nan_or hx'.le hy'.le)]
  -- the sign of the imaginary part
  have sg : ∀ r, Rounded b32 |s.im| r → Rounded b32 s.im (b32.copysign r y) := fun r hr => by
    have k := rounded_sign hr i0 (b32.neg y)
    have e : (if b32.neg y = true then -1 else 1) * |s.im| = s.im := by
      have c := R_sign (F := b32) y
      rw [ey, ← eim] at c
      have : 2 * s.re ≠ 0 := by positivity
      refine mul_left_cancel₀ this ?_
      rw [c]; ring
    rw [e] at k
    exact k
  rw [cs]
  have hxs := R_sign (F := b32) x
  cases hnx : b32.neg x
  · rw [hnx] at hxs
    have hX : |R b32 x| = s.re ^ 2 - |s.im| ^ 2 := by rw [sq_abs, ere, hxs]; simp
    have eP : s.re = √(1 / 2 * (|R b32 x| + (s.re ^ 2 + |s.im| ^ 2))) := by
      rw [hX, show 1 / 2 * (s.re ^ 2 - |s.im| ^ 2 + (s.re ^ 2 + |s.im| ^ 2)) = s.re ^ 2 by ring, Real.sqrt_sq h0.le]
    have eQ : |s.im| = 1 / 2 * |R b32 y| / s.re := by rw [ey]; field_simp
    obtain ⟨p, q, k1, k2, k3⟩ := csqrt_fast hxF hyF eN' hn eP eQ h2 f1 f2
    rw [hnx] at k3
    exact ⟨_, k3, k1, sg q k2⟩
  · rw [hnx] at hxs
    have hX : |R b32 x| = |s.im| ^ 2 - s.re ^ 2 := by
      have : R b32 x = -|R b32 x| := by simpa using hxs
      rw [sq_abs]; linarith
    have eP : |s.im| = √(1 / 2 * (|R b32 x| + (s.re ^ 2 + |s.im| ^ 2))) := by
      rw [hX, show 1 / 2 * (|s.im| ^ 2 - s.re ^ 2 + (s.re ^ 2 + |s.im| ^ 2)) = |s.im| ^ 2 by ring, Real.sqrt_sq i0.le]
    have eQ : s.re = 1 / 2 * |R b32 y| / |s.im| := by rw [ey]; field_simp
    obtain ⟨p, q, k1, k2, k3⟩ := csqrt_fast hxF hyF eN' hn eP eQ h1 f2 f1
    rw [hnx] at k3
    exact ⟨_, k3, k2, sg p k1⟩

-- −3 − 4i has the square root 1 − 2i, and the theorem applies to it
example : csqrtf (0xC0400000, 0xC0800000) = some (0x3F800000, 0xC0000000) := by decide +kernel

example : ∃ w, csqrtf (0xC0400000, 0xC0800000) = some w ∧ Rounded b32 1 w.1 ∧ Rounded b32 (-2) w.2 := by
  have e1 : real b32 0x3F800000 = 1 := by rw [small_lit 0x3F800000 0 (by decide) 1 (by decide +kernel)]; norm_num
  have e2 : real b32 0x40000000 = 2 := by rw [small_lit 0x40000000 0 (by decide) 2 (by decide +kernel)]; norm_num
  have e3 : real b32 0xC0400000 = -3 := by
    rw [real_sign (show 0xC0400000 < 2 ^ 32 by decide) (show b32.abs 0xC0400000 < b32.inf by decide) (show 2 ^ 31 ≤ 0xC0400000 by decide), show absOf b32 0xC0400000 = 0x40400000 by decide, ← real_pat (by decide),
      small_lit 0x40400000 0 (by decide) 3 (by decide +kernel)]
    norm_num
  have e4 : real b32 0xC0800000 = -4 := by
    rw [real_sign (show 0xC0800000 < 2 ^ 32 by decide) (show b32.abs 0xC0800000 < b32.inf by decide) (show 2 ^ 31 ≤ 0xC0800000 by decide), show absOf b32 0xC0800000 = 0x40800000 by decide, ← real_pat (by decide),
      small_lit 0x40800000 0 (by decide) 4 (by decide +kernel)]
    norm_num
  have ec : complex (0xC0400000, 0xC0800000) = (⟨-3, -4⟩ : ℂ) := by unfold complex; rw [e3, e4]
  refine C172_csqrtf_partial (z := (0xC0400000, 0xC0800000)) (s := ⟨1, -2⟩) ⟨⟨show 0xC0400000 < 2 ^ 32 by decide, show b32.abs 0xC0400000 < b32.inf by decide⟩,
    show 0xC0800000 < 2 ^ 32 by decide, show b32.abs 0xC0800000 < b32.inf by decide⟩ ?_ (by norm_num) ?_ (by norm_num) (by norm_num) ?_ ?_
  · rw [ec, sq]; apply Complex.ext <;> norm_num
  · rw [ec, Complex.norm_def, Complex.normSq_mk]
    exact Real.le_sqrt_of_sq_le (by norm_num)
  · have := far_float (p := 0x3F800000) (by decide) (by decide)
    rwa [e1] at this
  · have := far_float (p := 0x40000000) (by decide) (by decide)
    rw [e2] at this
    norm_num at this ⊢
    exact this

end Verif.Approx
