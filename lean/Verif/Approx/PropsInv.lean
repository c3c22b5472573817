import Verif.Approx.PropsCplx
import Verif.Approx.PropsAtan2
import Verif.Approx.PowSign
import Verif.Approx.ModelInv

/-!
# C171 to C174: complex logarithm, square root and inverse functions in `float`
-/

namespace Verif.Approx
open Verif.Float Verif.Math.Spec Verif.Approx.Spec

/-! ### Comparisons of magnitudes -/

theorem eq_nn {p q : Nat} (hp : p ≤ b32.inf) (hq : q ≤ b32.inf) : b32.eq p q = true ↔ p = q := by
  have lp := lt_of_le_of_lt hp Fmt.inf_lt
  have lq := lt_of_le_of_lt hq Fmt.inf_lt
  rw [Fmt.eq_iff (by rwa [Fmt.abs_of_lt lp]) (by rwa [Fmt.abs_of_lt lq]), Fmt.val_of_lt lp, Fmt.val_of_lt lq]
  constructor
  · intro h
    have h' : b32.mag p = b32.mag q := by exact_mod_cast h
    by_contra hn
    rcases Nat.lt_or_gt_of_ne hn with c | c <;> have := b32.mag_strictMono c <;> omega
  · rintro rfl; rfl

theorem fin_ne_inf {p : Nat} (hp : p < b32.inf) : b32.eq p b32.inf = false := by
  rw [← Bool.not_eq_true, eq_nn hp.le (le_refl _)]; omega

theorem fin_eq_self {p : Nat} (hp : p ≤ b32.inf) : b32.eq p p = true := (eq_nn hp hp).2 rfl

theorem nan_abs {x : Nat} (h : NaN b32 x) : b32.isNaN (b32.abs x) = true := Fmt.isNaN_iff.2 (by rw [abs_abs']; exact h)

theorem nan_eq_abs {x : Nat} (h : NaN b32 x) (c : Nat) : b32.eq (b32.abs x) c = false := nan_eq32 (nan_abs h) c

theorem fin_not_nan {x : Nat} (h : Math.Spec.Finite b32 x) : b32.isNaN (b32.abs x) = false := by
  rw [← Bool.not_eq_true, Fmt.isNaN_iff, abs_abs']
  exact Nat.lt_asymm h

theorem copysign_withSign {p x : Nat} (hx : Pat b32 x) (hp : p < b32.signBit) : b32.copysign p x = withSign x p := by
  unfold Fmt.copysign
  rw [Fmt.abs_of_lt hp, withSign_pack hx]

theorem copysign_nan {p x : Nat} (h : NaN b32 p) : NaN b32 (b32.copysign p x) := by
  show b32.inf < b32.abs (b32.copysign p x)
  unfold Fmt.copysign
  rw [Fmt.abs_pack (Fmt.abs_lt p)]
  exact h

theorem copysign_self {x : Nat} (hx : Pat b32 x) : b32.copysign (b32.abs x) x = x := by
  unfold Fmt.copysign
  rw [abs_abs', Fmt.pack_self hx]

theorem withSign_zero {x : Nat} (hx : Pat b32 x) (h : Zero b32 x) : withSign x 0 = x := by
  rcases (special_cases hx).1 h with rfl | rfl <;> unfold withSign negative <;> decide

theorem mul_zero_fin {y : Nat} (h : b32.abs y < b32.inf) (hn : b32.neg y = false) : b32.mul 0 y = 0 := by
  rw [Fmt.mul_fin (by decide) h, show b32.abs 0 = 0 by decide, Fmt.mag_zero, Nat.zero_mul, show b32.rnd 0 (2 ^ b32.unit) = 0 by decide +kernel, hn]
  decide

theorem not_finite {x : Nat} (h : ¬ Math.Spec.Finite b32 x) : Infinite b32 x ∨ NaN b32 x := by
  unfold Math.Spec.Finite NaN Math.Spec.Infinite at *
  omega

theorem nan32 : NaN b32 b32.nan := by unfold NaN; decide

/-! ### C171: `clogf` -/

/-- C171: an infinite part gives an infinite real part, even beside a NaN; the imaginary part is a multiple of π/4, or NaN beside a NaN. -/
theorem C171_infinite {x y : Nat} (hx : Pat b32 x) (hy : Pat b32 y) (h : Infinite b32 x ∨ Infinite b32 y) :
    ∃ w, clogf (x, y) = some w ∧ w.1 = 0x7F800000 ∧
      (Infinite b32 y → Math.Spec.Finite b32 x → w.2 = withSign y 0x3FC90FDB) ∧
      (Math.Spec.Finite b32 y → Infinite b32 x → w.2 = withSign y (if negative b32 x then 0x40490FDB else 0)) ∧
      (Infinite b32 y → Infinite b32 x → w.2 = withSign y (if negative b32 x then 0x4016CBE4 else 0x3F490FDB)) ∧
      (NaN b32 x ∨ NaN b32 y → NaN b32 w.2) := by
  have hr : clogRe x y = some 0x7F800000 := by
    unfold clogRe
    simp only
    rw [if_pos]
    · rfl
    · rcases h with h | h
      · left; rw [(wide_infinite hx h).1]; decide +kernel
      · right; rw [(wide_infinite hy h).1]; decide +kernel
  obtain ⟨a1, a2, a3⟩ := C165_infinite hx hy
  have key : ∀ r, atan2f y x = some r → clogf (x, y) = some (0x7F800000, r) := fun r e => by unfold clogf; rw [hr, Option.bind_some, e]; rfl
  by_cases hn : NaN b32 x ∨ NaN b32 y
  · obtain ⟨r, e, hr⟩ := C165_nan hn
    refine ⟨_, key r e, rfl, fun u v => ?_, fun u v => ?_, fun u v => ?_, fun _ => hr⟩ <;> exfalso <;>
      unfold NaN Math.Spec.Finite Math.Spec.Infinite at * <;> omega
  · by_cases fx : Math.Spec.Finite b32 x
    · have iy : Infinite b32 y := h.resolve_left (fun c => by unfold Math.Spec.Finite Math.Spec.Infinite at *; omega)
      refine ⟨_, key _ (a1 iy fx), rfl, fun _ _ => rfl, fun u v => ?_, fun u v => ?_, fun c => absurd c hn⟩ <;> exfalso <;>
        unfold Math.Spec.Finite Math.Spec.Infinite at * <;> omega
    · have ix := (not_finite fx).resolve_right (fun c => hn (Or.inl c))
      by_cases fy : Math.Spec.Finite b32 y
      · refine ⟨_, key _ (a2 fy ix), rfl, fun u v => ?_, fun _ _ => rfl, fun u v => ?_, fun c => absurd c hn⟩ <;> exfalso <;>
          unfold Math.Spec.Finite Math.Spec.Infinite at * <;> omega
      · have iy := (not_finite fy).resolve_right (fun c => hn (Or.inr c))
        refine ⟨_, key _ (a3 iy ix), rfl, fun u v => ?_, fun u v => ?_, fun _ _ => rfl, fun c => absurd c hn⟩ <;> exfalso <;>
          unfold Math.Spec.Finite Math.Spec.Infinite at * <;> omega

example : clogf (0xFF800000, 0x80000000) = some (0x7F800000, 0xC0490FDB) ∧ clogf (0x7FC00000, 0x7F800000) = some (0x7F800000, 0x7FC00000) := by decide +kernel

/-- C171: zero gives minus infinity, and zero or π with the sign of the imaginary part. -/
theorem C171_zero {x y : Nat} (hx : Pat b32 x) (hy : Pat b32 y) (zx : Zero b32 x) (zy : Zero b32 y) :
    clogf (x, y) = some (0xFF800000, if negative b32 x then withSign y 0x40490FDB else y) := by
  have hn : ¬ NaN b32 x := by unfold NaN; rw [show absOf b32 x = 0 from zx]; decide
  have hr : clogRe x y = some 0xFF800000 := by
    rcases (special_cases hx).1 zx with rfl | rfl <;> rcases (special_cases hy).1 zy with rfl | rfl <;> decide +kernel
  unfold clogf
  rw [hr, Option.bind_some, C165_zero hx hy zy hn]
  rfl

example : clogf (0x80000000, 0x80000000) = some (0xFF800000, 0xC0490FDB) := by decide +kernel

/-- C171: a NaN without an infinity gives NaN in both parts. -/
theorem C171_nan {x y : Nat} (h : NaN b32 x ∨ NaN b32 y) (ix : ¬ Infinite b32 x) (iy : ¬ Infinite b32 y) :
    ∃ w, clogf (x, y) = some w ∧ NaN b32 w.1 ∧ NaN b32 w.2 := by
  obtain ⟨r, e, hr⟩ := C165_nan h
  have we : ∀ {u : Nat}, ¬ Infinite b32 u → b64.eq (b64.abs (wide u)) b64.inf = false := fun {u} iu => by
    by_cases fu : Math.Spec.Finite b32 u
    · have f := (wideR (show Fin b32 u from fu)).1
      have e := eq_abs (x := wide u) (y := b64.inf) f.le (by decide) (by rw [show b64.abs b64.inf = b64.inf by decide]; exact Nat.ne_of_lt f)
      rwa [show b64.abs b64.inf = b64.inf by decide] at e
    · rw [nan_wide (Fmt.isNaN_iff.2 ((not_finite fu).resolve_left iu))]; decide
  have hs : ∀ a b : Nat, b64.isNaN a = true ∨ b64.isNaN b = true → (ddSum (b64.mul a a) (b64.mul b b)).1 = b64.nan := fun a b hab => by
    show b64.add _ _ = _
    apply nan_add
    rcases hab with c | c
    · left; rw [nan_mul (Or.inl c)]; decide
    · right; rw [nan_mul (Or.inl c)]; decide
  refine ⟨(b32.nan, r), ?_, nan32, hr⟩
  unfold clogf clogRe
  simp only
  rw [we ix, we iy, if_neg (by simp), hs _ _ (by
    rcases h with h | h
    · left; rw [nan_wide (Fmt.isNaN_iff.2 h)]; decide
    · right; rw [nan_wide (Fmt.isNaN_iff.2 h)]; decide), if_neg (by decide), if_pos (by decide), Option.bind_some, e]
  rfl

example : clogf (0x7FC00000, 0x3F800000) = some (0x7FC00000, 0x7FC00000) := by decide +kernel

/-- C171: a defined result at a finite number off the real axis has an accurate imaginary part.  Missing: the real part, see
`C171_clogf_violated`. -/
theorem C171_arg_partial {x y : Nat} (hpx : Pat b32 x) (hpy : Pat b32 y) (hx : Math.Spec.Finite b32 x) (hy : Math.Spec.Finite b32 y) (h0 : ¬ Zero b32 y)
    {w : Nat × Nat} (h : clogf (x, y) = some w) : Accurate b32 (1 / 2 ^ 39) (Complex.log ⟨real b32 x, real b32 y⟩).im w.2 ∧
      Faithful b32 (Complex.log ⟨real b32 x, real b32 y⟩).im w.2 := by
  obtain ⟨r, e, h1, h2⟩ := C166_atan2f_partial hpx hpy hx hy h0
  unfold clogf at h
  rw [e] at h
  rcases hc : clogRe x y with _ | c
  · rw [hc] at h; exact absurd h (by simp)
  · rw [hc] at h
    have hw : w = (c, r) := by simpa using h.symm
    rw [hw, Complex.log_im]
    exact ⟨h1, h2⟩

example : (clogf (0x40400000, 0x40800000)).isSome ∧ (clogf (0x40400000, 0x40800000)).map Prod.snd = some 0x3F6D6338 := by decide +kernel

theorem small_lit (p k : Nat) (hp : p < b32.inf) (n : Nat) (h : b32.mag p * 2 ^ k = n * 2 ^ b32.unit) : real b32 p = (n : ℝ) / 2 ^ k := by
  rw [real_pat hp, (R32_pat hp).2, div_eq_div_iff (by positivity) (by positivity)]
  exact_mod_cast h

/-- C171: the real part at 1 + i is zero, though the logarithm of √2 exceeds 1/3: the exact product in the double-double logarithm hits the wrong
cancellation of `fma`, see `C60_fma_violated`.  At two the result is half the logarithm. -/
theorem C171_clogf_violated : (∃ w, clogf (0x3F800000, 0x3F800000) = some w ∧ complex (0x3F800000, 0x3F800000) = ⟨1, 1⟩ ∧ w.1 = 0 ∧
      1 / 3 < (Complex.log (complex (0x3F800000, 0x3F800000))).re) ∧
    ∃ w, clogf (0x40000000, 0) = some w ∧ complex (0x40000000, 0) = ⟨2, 0⟩ ∧ real b32 w.1 < 1 / 2 * (3 / 4) ∧ 2 / 3 < (Complex.log (complex (0x40000000, 0))).re := by
  have e1 : real b32 0x3F800000 = 1 := by rw [small_lit 0x3F800000 0 (by decide) 1 (by decide +kernel)]; norm_num
  have e2 : real b32 0x40000000 = 2 := by rw [small_lit 0x40000000 0 (by decide) 2 (by decide +kernel)]; norm_num
  have e0 : real b32 0 = 0 := by rw [small_lit 0 0 (by decide) 0 (by decide +kernel)]; norm_num
  have l2 := Real.log_two_gt_d9
  have c1 : complex (0x3F800000, 0x3F800000) = ⟨1, 1⟩ := by unfold complex; rw [e1]
  have c2 : complex (0x40000000, 0) = ⟨2, 0⟩ := by unfold complex; rw [e2, e0]
  constructor
  · refine ⟨(0, 0x3F490FDB), by decide +kernel, c1, rfl, ?_⟩
    have hn : ‖(⟨1, 1⟩ : ℂ)‖ = √2 := by rw [Complex.norm_def, Complex.normSq_mk]; norm_num
    rw [c1, Complex.log_re, hn, Real.log_sqrt (by norm_num)]
    linarith
  · refine ⟨(0x3EB17218, 0), by decide +kernel, c2, ?_, ?_⟩
    · show real b32 0x3EB17218 < _
      rw [small_lit 0x3EB17218 25 (by decide) 11629080 (by decide +kernel)]
      norm_num
    · have hn : ‖(⟨2, 0⟩ : ℂ)‖ = 2 := by rw [Complex.norm_def, Complex.normSq_mk, show (2 : ℝ) * 2 + 0 * 0 = 2 ^ 2 by norm_num]; exact Real.sqrt_sq (by norm_num)
      rw [c2, Complex.log_re, hn]
      linarith

/-! ### C172: `csqrtf` -/

/-- C172: infinities, NaN and zeros (Annex G.6.4.2).  An infinite imaginary part wins even over a NaN.  Missing: finite numbers, see
`C172_csqrtf_violated`. -/
theorem C172_special_partial {x y : Nat} (hx : Pat b32 x) (hy : Pat b32 y) :
    (Infinite b32 y → csqrtf (x, y) = some (0x7F800000, y)) ∧
    (x = 0x7F800000 → Math.Spec.Finite b32 y → csqrtf (x, y) = some (0x7F800000, withSign y 0)) ∧
    (x = 0xFF800000 → Math.Spec.Finite b32 y → csqrtf (x, y) = some (0, withSign y 0x7F800000)) ∧
    (x = 0x7F800000 → NaN b32 y → ∃ t, csqrtf (x, y) = some (0x7F800000, t) ∧ NaN b32 t) ∧
    (x = 0xFF800000 → NaN b32 y → ∃ s t, csqrtf (x, y) = some (s, t) ∧ NaN b32 s ∧ Infinite b32 t) ∧
    (Zero b32 x → Zero b32 y → csqrtf (x, y) = some (0, y)) ∧
    ((NaN b32 x ∧ ¬ Infinite b32 y) ∨ (Math.Spec.Finite b32 x ∧ NaN b32 y) → ∃ s t, csqrtf (x, y) = some (s, t) ∧ NaN b32 s ∧ NaN b32 t) := by
  have hii : b32.eq 0x7F800000 b32.inf = true := by decide +kernel
  have hmi : b32.eq 0xFF800000 b32.inf = false := by decide +kernel
  have hmm : b32.eq 0xFF800000 (b32.pack true b32.inf) = true := by decide +kernel
  refine ⟨fun h => ?_, fun h1 h2 => ?_, fun h1 h2 => ?_, fun h1 h2 => ?_, fun h1 h2 => ?_, fun h1 h2 => ?_, fun h => ?_⟩
  · unfold csqrtf
    simp only
    rw [if_neg, if_pos (show b32.abs y = b32.inf from h)]
    · rfl
    · rw [eq_zero (y := y), show b32.abs y = b32.inf from h]
      rintro ⟨-, c⟩
      exact absurd c (by decide)
  · subst h1
    unfold csqrtf
    simp only
    rw [if_neg (fun c => absurd c.1 (by decide +kernel)), if_neg (show ¬ b32.abs y = b32.inf from Nat.ne_of_lt h2), if_pos hii]
    congr 2
    rw [Fmt.mul_fin (by decide) h2, show b32.abs 0 = 0 by decide, Fmt.mag_zero, Nat.zero_mul, show b32.rnd 0 (2 ^ b32.unit) = 0 by decide +kernel,
      show b32.neg 0 = false by decide, Bool.false_bne, withSign_pack hy]
  · subst h1
    unfold csqrtf
    simp only
    rw [if_neg (fun c => absurd c.1 (by decide +kernel)), if_neg (show ¬ b32.abs y = b32.inf from Nat.ne_of_lt h2), hmi, if_neg (by simp), if_pos hmm]
    have e1 : b32.sub y y = 0 := by
      unfold Fmt.sub
      rw [Fmt.add_fin h2 (by rw [Fmt.abs_opp]; exact h2), Fmt.val_opp, Fmt.neg_opp, show b32.val y + -b32.val y = 0 by omega]
      cases b32.neg y <;> decide
    have e2 : b32.copysign 0xFF800000 y = withSign y 0x7F800000 := by
      unfold Fmt.copysign
      rw [show b32.abs 0xFF800000 = 0x7F800000 by decide, withSign_pack hy]
    rw [e1, e2]
  · subst h1
    unfold csqrtf
    simp only
    rw [if_neg (fun c => absurd c.1 (by decide +kernel)), if_neg (show ¬ b32.abs y = b32.inf from Nat.ne_of_gt h2), if_pos hii]
    refine ⟨_, rfl, ?_⟩
    unfold Fmt.mul
    rw [if_pos (Or.inr (Fmt.isNaN_iff.2 h2))]
    exact nan32
  · subst h1
    unfold csqrtf
    simp only
    rw [if_neg (fun c => absurd c.1 (by decide +kernel)), if_neg (show ¬ b32.abs y = b32.inf from Nat.ne_of_gt h2), hmi, if_neg (by simp), if_pos hmm]
    refine ⟨_, _, rfl, ?_, ?_⟩
    · unfold Fmt.sub Fmt.add
      rw [if_pos (Or.inl (Fmt.isNaN_iff.2 h2))]
      exact nan32
    · show b32.abs (b32.copysign 0xFF800000 y) = _
      unfold Fmt.copysign
      rw [show b32.abs 0xFF800000 = 0x7F800000 by decide, Fmt.abs_pack (by decide)]
      rfl
  · unfold csqrtf
    simp only
    rw [if_pos ⟨eq_zero.2 h1, eq_zero.2 h2⟩]
  · refine ⟨b32.nan, b32.nan, ?_, nan32, nan32⟩
    have iy : ¬ b32.abs y = b32.inf := by
      rcases h with ⟨-, h⟩ | ⟨-, h⟩
      · exact h
      · exact Nat.ne_of_gt h
    have z : ¬ (b32.eq x 0 = true ∧ b32.eq y 0 = true) := by
      rintro ⟨c1, c2⟩
      rw [eq_zero] at c1 c2
      rcases h with ⟨h, -⟩ | ⟨-, h⟩ <;> unfold NaN absOf at h <;> unfold Fmt.abs at c1 c2 <;> omega
    have hn : b32.isNaN x = true ∨ b32.isNaN y = true := by
      rcases h with ⟨h, -⟩ | ⟨-, h⟩
      · exact Or.inl (Fmt.isNaN_iff.2 h)
      · exact Or.inr (Fmt.isNaN_iff.2 h)
    have e1 : b32.eq x b32.inf = false ∧ b32.eq x (b32.pack true b32.inf) = false := by
      rcases h with ⟨h, -⟩ | ⟨h, -⟩
      · exact ⟨nan_eq32 (Fmt.isNaN_iff.2 h) _, nan_eq32 (Fmt.isNaN_iff.2 h) _⟩
      · have hx' : b32.abs x < b32.inf := h
        have m := b32.mag_strictMono hx'
        constructor
        · rw [← Bool.not_eq_true, Fmt.eq_iff hx'.le (by decide)]
          unfold Fmt.val
          rw [show b32.neg b32.inf = false by decide, show b32.abs b32.inf = b32.inf by decide]
          split <;> simp <;> omega
        · rw [← Bool.not_eq_true, Fmt.eq_iff hx'.le (by decide)]
          unfold Fmt.val
          rw [show b32.neg (b32.pack true b32.inf) = true by decide, show b32.abs (b32.pack true b32.inf) = b32.inf by decide]
          split <;> simp <;> omega
    unfold csqrtf
    simp only
    rw [if_neg z, if_neg iy, e1.1, if_neg (by simp), e1.2, if_neg (by simp), if_pos hn]

example : csqrtf (0x7FC00000, 0xFF800000) = some (0x7F800000, 0xFF800000) ∧ csqrtf (0xFF800000, 0x80000001) = some (0, 0xFF800000) ∧
    csqrtf (0x80000000, 0x80000000) = some (0, 0x80000000) := by decide +kernel

/-- C172: the square root of one is 1.159…, for the exact square in `dd_sqrt_` hits the wrong cancellation of `fma`. -/
theorem C172_csqrtf_violated : ∃ w, csqrtf (0x3F800000, 0) = some w ∧ complex (0x3F800000, 0) = 1 ∧ 8 / 7 < real b32 w.1 := by
  have e1 : real b32 0x3F800000 = 1 := by rw [small_lit 0x3F800000 0 (by decide) 1 (by decide +kernel)]; norm_num
  have e0 : real b32 0 = 0 := by rw [small_lit 0 0 (by decide) 0 (by decide +kernel)]; norm_num
  refine ⟨(1066692235, 0), by decide +kernel, by unfold complex; rw [e1, e0]; rfl, ?_⟩
  show _ < real b32 1066692235
  rw [small_lit 1066692235 23 (by decide) 9727627 (by decide +kernel)]
  norm_num

-- away from exact squares the result is the principal root
example : csqrtf (0x3F800000, 0x3F800000) = some (1066181038, 1055457674) ∧ csqrtf (0x40400000, 0x40800000) = some (0x40000000, 0x3F800000) := by decide +kernel

/-! ### C173: `catanf` and `catanhf` -/

/-- C173: `catanhf` is `catanf` with the parts exchanged, before and after. -/
theorem C173_swap (x y : Nat) : catanhf (y, x) = (catanf (x, y)).map Prod.swap := by
  unfold catanhf catanf
  rw [Option.map_map]
  rfl

theorem opp_copysign (p x : Nat) : b32.copysign p (b32.opp x) = b32.opp (b32.copysign p x) := by
  unfold Fmt.copysign
  rw [Fmt.neg_opp]
  unfold Fmt.opp
  rw [Fmt.neg_pack (Fmt.abs_lt p), Fmt.abs_pack (Fmt.abs_lt p)]

/-- C173: the function is odd in both parts, for zeros, infinities and NaN too. -/
theorem C173_symmetry (x y : Nat) : catanf (b32.opp x, y) = (catanf (x, y)).map (fun w => (b32.opp w.1, w.2)) ∧
    catanf (x, b32.opp y) = (catanf (x, y)).map fun w => (w.1, b32.opp w.2) := by
  unfold catanf
  rw [Option.map_map, Option.map_map]
  constructor <;> simp only [Fmt.abs_opp, opp_copysign] <;> rfl

example : catanf (0x3F800000, 0x3F800000) = some (1065497684, 1053688336) ∧ catanf (0xBF800000, 0xBF800000) = some (1065497684 + 2 ^ 31, 1053688336 + 2 ^ 31) := by decide +kernel

/-- C173: infinities give π/2 and a zero imaginary part. -/
theorem C173_infinite {x y : Nat} (hx : Pat b32 x) (hy : Pat b32 y) (h : Infinite b32 x ∨ Infinite b32 y ∧ ¬ NaN b32 x) :
    catanf (x, y) = some (withSign x 0x3FC90FDB, withSign y 0) := by
  have hf : catanFirst (b32.abs x) (b32.abs y) = some (0x3FC90FDB, 0) := by
    unfold catanFirst
    by_cases ix : Infinite b32 x
    · rw [if_pos (by rw [show b32.abs x = b32.inf from ix]; decide +kernel)]
    · obtain ⟨iy, nx⟩ := h.resolve_left ix
      have fx : b32.abs x < b32.inf := by unfold NaN Math.Spec.Infinite absOf at *; unfold Fmt.abs; omega
      rw [fin_ne_inf fx, if_neg (by simp), if_pos (by rw [show b32.abs y = b32.inf from iy]; decide +kernel), if_pos (fin_eq_self fx.le)]
  unfold catanf
  rw [hf, Option.map_some, copysign_withSign hx (by decide), copysign_withSign hy (by decide)]

example : catanf (0xFF800000, 0x7FC00000) = some (0xBFC90FDB, 0) ∧ catanhf (0x80000001, 0x7F800000) = some (0x80000000, 0x3FC90FDB) := by decide +kernel

/-- C173: the poles at ±i give an infinite imaginary part. -/
theorem C173_pole {x y : Nat} (hx : Pat b32 x) (hy : Pat b32 y) (zx : Zero b32 x) (h : absOf b32 y = 0x3F800000) :
    catanf (x, y) = some (x, withSign y 0x7F800000) := by
  have hf : catanFirst (b32.abs x) (b32.abs y) = some (0, 0x7F800000) := by
    rw [show b32.abs x = 0 from zx, show b32.abs y = 0x3F800000 from h]
    decide +kernel
  unfold catanf
  rw [hf, Option.map_some, copysign_withSign hx (by decide), copysign_withSign hy (by decide)]
  congr 2
  exact withSign_zero hx zx

example : catanhf (0xBF800000, 0x80000000) = some (0xFF800000, 0x80000000) := by decide +kernel

/-- C173: a NaN as the real part gives NaN; the imaginary part is zero beside an infinity and kept beside a zero, NaN otherwise.  A NaN as
the imaginary part gives NaN in both parts unless the real part is infinite. -/
theorem C173_nan {x y : Nat} (hy : Pat b32 y) :
    (NaN b32 x → Infinite b32 y → ∃ s, catanf (x, y) = some (s, withSign y 0) ∧ NaN b32 s) ∧
    (NaN b32 x → Zero b32 y → ∃ s, catanf (x, y) = some (s, y) ∧ NaN b32 s) ∧
    ((NaN b32 x ∧ Math.Spec.Finite b32 y ∧ ¬ Zero b32 y) ∨ (¬ Infinite b32 x ∧ NaN b32 y) → ∃ s t, catanf (x, y) = some (s, t) ∧ NaN b32 s ∧ NaN b32 t) := by
  have nn : ∀ {u}, NaN b32 u → NaN b32 (b32.abs u) := fun {u} h => by show b32.inf < b32.abs (b32.abs u); rw [abs_abs']; exact h
  have inf_self : b32.eq b32.inf b32.inf = true := by decide +kernel
  refine ⟨fun nx iy => ?_, fun nx zy => ?_, ?_⟩
  · have hf : catanFirst (b32.abs x) (b32.abs y) = some (b32.abs x, 0) := by
      unfold catanFirst
      rw [nan_eq_abs nx, if_neg (by simp), show b32.abs y = b32.inf from iy, if_pos inf_self, nan_eq_abs nx, if_neg (by simp)]
    refine ⟨_, by unfold catanf; rw [hf, Option.map_some]; dsimp only; rw [copysign_withSign hy (by decide)], copysign_nan (nn nx)⟩
  · have hf : catanFirst (b32.abs x) (b32.abs y) = some (b32.abs x, b32.abs y) := by
      unfold catanFirst
      rw [nan_eq_abs nx, if_neg (by simp), show b32.abs y = 0 from zy, if_neg (by decide +kernel), nan_eq_abs nx, if_neg (by simp), if_neg (by decide +kernel),
        nan_eq_abs nx, if_pos (by simp), if_neg (by decide +kernel)]
    refine ⟨_, by unfold catanf; rw [hf, Option.map_some]; dsimp only; rw [copysign_self hy], copysign_nan (nn nx)⟩
  · intro h
    suffices hf : ∃ s t, catanFirst (b32.abs x) (b32.abs y) = some (s, t) ∧ NaN b32 s ∧ NaN b32 t by
      obtain ⟨s, t, e, h1, h2⟩ := hf
      exact ⟨_, _, by unfold catanf; rw [e, Option.map_some], copysign_nan h1, copysign_nan h2⟩
    unfold catanFirst
    rcases h with ⟨nx, fy, zy⟩ | ⟨ix, ny⟩
    · have fy' : b32.abs y < b32.inf := fy
      rw [nan_eq_abs nx, if_neg (by simp), fin_ne_inf fy', if_neg (by simp), nan_eq_abs nx, if_neg (by simp), fin_eq_self fy'.le, if_neg (by simp),
        nan_eq_abs nx, if_pos (by simp), if_pos (by rw [eq_zero, abs_abs']; exact zy)]
      exact ⟨_, _, rfl, nn nx, nn nx⟩
    · have hx : b32.eq (b32.abs x) b32.inf = false := by
        by_cases fx : Math.Spec.Finite b32 x
        · exact fin_ne_inf fx
        · exact nan_eq_abs ((not_finite fx).resolve_left ix) _
      rw [hx, if_neg (by simp), nan_eq_abs ny, if_neg (by simp), nan_eq_abs ny, if_neg (by simp), nan_eq_abs ny, if_pos (by simp)]
      exact ⟨_, _, rfl, nn ny, nn ny⟩

example : catanf (0x7FC00000, 0xFF800000) = some (0x7FC00000, 0x80000000) ∧ catanhf (0x80000000, 0x7FC00000) = some (0x80000000, 0x7FC00000) ∧
    catanhf (0x7FC00000, 0) = some (0x7FC00000, 0x7FC00000) := by decide +kernel

/-! ### C174: `casinhf`, `casinf`, `cacoshf` and `cacosf` -/

/-- C174: `casinf` is `casinhf` with the parts exchanged, before and after. -/
theorem C174_asin_swap (x y : Nat) : casinf (y, x) = (casinhf (x, y)).swap := rfl

/-- C174: the function is odd in both parts, for zeros, infinities and NaN too. -/
theorem C174_asinh_symmetry (x y : Nat) : casinhf (b32.opp x, y) = (b32.opp (casinhf (x, y)).1, (casinhf (x, y)).2) ∧
    casinhf (x, b32.opp y) = ((casinhf (x, y)).1, b32.opp (casinhf (x, y)).2) := by
  unfold casinhf
  simp only [Fmt.abs_opp, opp_copysign, and_self]

example : casinhf (0x3F800000, 0x3F800000) = (1065867228, 1059753643) ∧ casinf (0x3F800000, 0xBF800000) = (1059753643, 1065867228 + 2 ^ 31) := by decide +kernel

theorem abs_sign (x : Nat) : b32.neg (b32.abs x) = false := Fmt.neg_of_lt (Fmt.abs_lt x)

/-- C174: infinities in `casinhf` (Annex G.6.2.2). -/
theorem C174_asinh_infinite {x y : Nat} (hx : Pat b32 x) (hy : Pat b32 y) :
    (Infinite b32 x → Infinite b32 y → casinhf (x, y) = (withSign x 0x7F800000, withSign y 0x3F490FDB)) ∧
    (Infinite b32 x → Math.Spec.Finite b32 y → casinhf (x, y) = (withSign x 0x7F800000, withSign y 0)) ∧
    (Math.Spec.Finite b32 x → Infinite b32 y → casinhf (x, y) = (withSign x 0x7F800000, withSign y 0x3FC90FDB)) ∧
    (Infinite b32 x → NaN b32 y → ∃ t, casinhf (x, y) = (withSign x 0x7F800000, t) ∧ NaN b32 t) ∧
    (NaN b32 x → Infinite b32 y → ∃ t, casinhf (x, y) = (withSign x 0x7F800000, t) ∧ NaN b32 t) := by
  have ii : b32.eq b32.inf b32.inf = true := by decide +kernel
  have ci : ∀ {u}, Pat b32 u → b32.copysign b32.inf u = withSign u 0x7F800000 := fun {u} hu => copysign_withSign hu (by decide)
  refine ⟨fun h1 h2 => ?_, fun h1 h2 => ?_, fun h1 h2 => ?_, fun h1 h2 => ?_, fun h1 h2 => ?_⟩ <;> unfold casinhf casinhFirst <;> simp only
  · rw [show b32.abs x = b32.inf from h1, show b32.abs y = b32.inf from h2, if_pos ii, if_pos ii, ci hx, show narrow quarterPi = 0x3F490FDB by decide +kernel,
      copysign_withSign hy (by decide)]
  · have h2' : b32.abs y < b32.inf := h2
    rw [show b32.abs x = b32.inf from h1, if_pos ii, fin_ne_inf h2', if_neg (by simp), mul_zero_fin (by rw [abs_abs']; exact h2) (abs_sign y)]
    dsimp only
    rw [ci hx, copysign_withSign hy (by decide)]
  · have h1' : b32.abs x < b32.inf := h1
    rw [fin_ne_inf h1', if_neg (by simp), show b32.abs y = b32.inf from h2, if_pos ii, fin_eq_self h1'.le, if_pos rfl]
    dsimp only
    rw [ci hx, show narrow pi2 = 0x3FC90FDB by decide +kernel, copysign_withSign hy (by decide)]
  · rw [show b32.abs x = b32.inf from h1, if_pos ii, nan_eq_abs h2, if_neg (by simp)]
    dsimp only
    rw [ci hx]
    refine ⟨_, rfl, copysign_nan ?_⟩
    unfold Fmt.mul
    rw [if_pos (Or.inr (nan_abs h2))]
    exact nan32
  · rw [nan_eq_abs h1, if_neg (by simp), show b32.abs y = b32.inf from h2, if_pos ii, nan_eq_abs h1, if_neg (by simp)]
    dsimp only
    rw [ci hx]
    exact ⟨_, rfl, copysign_nan (by show b32.inf < b32.abs (b32.abs x); rw [abs_abs']; exact h1)⟩

example : casinhf (0xFF800000, 0xFF800000) = (0xFF800000, 0xBF490FDB) ∧ casinhf (0x80000000, 0x7F800000) = (0xFF800000, 0x3FC90FDB) := by decide +kernel

/-- C174: a NaN without an infinity in `casinhf` gives NaN; only a zero imaginary part is kept. -/
theorem C174_asinh_nan {x y : Nat} (hy : Pat b32 y) :
    (NaN b32 x → Zero b32 y → ∃ s, casinhf (x, y) = (s, y) ∧ NaN b32 s) ∧
    ((NaN b32 x ∧ ¬ Zero b32 y ∧ ¬ Infinite b32 y) ∨ (NaN b32 y ∧ ¬ Infinite b32 x) → NaN b32 (casinhf (x, y)).1 ∧ NaN b32 (casinhf (x, y)).2) := by
  have ne : ∀ {u}, ¬ Infinite b32 u → b32.eq (b32.abs u) b32.inf = false := fun {u} hu => by
    by_cases fu : Math.Spec.Finite b32 u
    · exact fin_ne_inf fu
    · exact nan_eq_abs ((not_finite fu).resolve_left hu) _
  constructor
  · intro h1 h2
    unfold casinhf casinhFirst
    simp only
    rw [nan_eq_abs h1, if_neg (by simp), show b32.abs y = 0 from h2, if_neg (by decide +kernel), if_pos (Or.inl (nan_abs h1)), if_neg (by decide +kernel)]
    dsimp only
    exact ⟨_, by rw [copysign_withSign hy (by decide), withSign_zero hy h2], copysign_nan nan32⟩
  · intro h
    have ix : ¬ Infinite b32 x := by
      rcases h with ⟨h, -⟩ | ⟨-, h⟩
      · unfold NaN Math.Spec.Infinite at *; omega
      · exact h
    have iy : ¬ Infinite b32 y := by
      rcases h with ⟨-, -, h⟩ | ⟨h, -⟩
      · exact h
      · unfold NaN Math.Spec.Infinite at *; omega
    have hn : b32.isNaN (b32.abs x) = true ∨ b32.isNaN (b32.abs y) = true := by
      rcases h with ⟨h, -⟩ | ⟨h, -⟩
      · exact Or.inl (nan_abs h)
      · exact Or.inr (nan_abs h)
    have zy : ¬ b32.eq (b32.abs y) 0 = true := by
      rw [eq_zero, abs_abs']
      rcases h with ⟨-, h, -⟩ | ⟨h, -⟩
      · exact h
      · unfold NaN absOf at h; unfold Fmt.abs; omega
    unfold casinhf casinhFirst
    simp only
    rw [ne ix, if_neg (by simp), ne iy, if_neg (by simp), if_pos hn, if_pos zy]
    exact ⟨copysign_nan nan32, copysign_nan nan32⟩

example : casinhf (0x7FC00000, 0x80000000) = (0x7FC00000, 0x80000000) ∧ casinhf (0, 0x7FC00000) = (0x7FC00000, 0x7FC00000) := by decide +kernel

theorem abs_narrow (x : Nat) : narrow (b64.abs x) = b32.abs (narrow x) := by
  unfold narrow Fmt.conv
  have e1 : b64.isNaN (b64.abs x) = b64.isNaN x := by unfold Fmt.isNaN; rw [abs_abs']
  have e2 : b64.isFin (b64.abs x) = b64.isFin x := by unfold Fmt.isFin; rw [abs_abs']
  rw [e1, e2, abs_abs', Fmt.neg_of_lt (Fmt.abs_lt x)]
  split
  · decide
  · split
    · have hr : b32.rnd (b64.mag (b64.abs x) * 2 ^ b32.unit) (2 ^ b64.unit) < b32.signBit := lt_of_le_of_lt (rnd_le _ _ (Nat.two_pow_pos _)) Fmt.inf_lt
      rw [Fmt.abs_pack hr]
      simp [Fmt.pack]
    · rw [Fmt.abs_pack (by decide)]
      simp [Fmt.pack]

/-- C174: the angle in `cacosf` is the magnitude of that in `cacoshf`; the other part is the real part of `cacoshf` with the sign opposite to
that of the imaginary part of the argument. -/
theorem C174_acos (x y : Nat) : (cacosf (x, y)).1 = b32.abs (cacoshf (x, y)).2 ∧ (cacosf (x, y)).2 = b32.copysign (cacoshf (x, y)).1 (b32.opp y) := by
  unfold cacosf cacoshf
  dsimp only
  refine ⟨?_, rfl⟩
  rw [abs_narrow]
  unfold Fmt.copysign
  rw [Fmt.abs_pack (Fmt.abs_lt _)]

/-- C174: infinities in `cacoshf` (Annex G.6.2.1). -/
theorem C174_acosh_infinite {x y : Nat} (hx : Pat b32 x) (hy : Pat b32 y) :
    (Infinite b32 x → Infinite b32 y → cacoshf (x, y) = (0x7F800000, withSign y (if negative b32 x then 0x4016CBE4 else 0x3F490FDB))) ∧
    (Infinite b32 x → Math.Spec.Finite b32 y → cacoshf (x, y) = (0x7F800000, withSign y (if negative b32 x then 0x40490FDB else 0))) ∧
    (Math.Spec.Finite b32 x → Infinite b32 y → cacoshf (x, y) = (0x7F800000, withSign y 0x3FC90FDB)) ∧
    (Infinite b32 x → NaN b32 y → (cacoshf (x, y)).1 = 0x7F800000 ∧ NaN b32 (cacoshf (x, y)).2) ∧
    (NaN b32 x → Infinite b32 y → (cacoshf (x, y)).1 = 0x7F800000 ∧ NaN b32 (cacoshf (x, y)).2) := by
  have ii : b32.eq b32.inf b32.inf = true := by decide +kernel
  have ni : narrow b64.inf = 0x7F800000 := by decide +kernel
  have pk : ∀ a p, b32.abs a = p → b32.copysign a y = withSign y p := fun a p h => by unfold Fmt.copysign; rw [h, withSign_pack hy]
  have cn : ∀ u, narrow (cacosAngle b64.nan u) = b32.nan := fun u => by
    unfold cacosAngle
    rw [show b64.sub b64.nan (b64.mul (b64.ofInt (if b32.lt u 0 = true then 1 else 0)) pi1) = b64.nan by unfold Fmt.sub; exact nan_add (Or.inl (by decide))]
    decide
  refine ⟨fun h1 h2 => ?_, fun h1 h2 => ?_, fun h1 h2 => ?_, fun h1 h2 => ?_, fun h1 h2 => ?_⟩ <;> unfold cacoshf cacoshFirst <;> simp only
  · rw [show b32.abs x = b32.inf from h1, show b32.abs y = b32.inf from h2, if_pos ii, if_pos ii, ni]
    refine congrArg (Prod.mk 0x7F800000) ?_
    rcases (special_cases hx).2.1 h1 with rfl | rfl
    · exact pk _ _ (by decide +kernel)
    · exact pk _ _ (by decide +kernel)
  · have h2' : b32.abs y < b32.inf := h2
    rw [show b32.abs x = b32.inf from h1, if_pos ii, fin_ne_inf h2', if_neg (by simp), mul_zero_fin (by rw [abs_abs']; exact h2) (abs_sign y)]
    dsimp only
    rw [ni]
    refine congrArg (Prod.mk 0x7F800000) ?_
    rcases (special_cases hx).2.1 h1 with rfl | rfl
    · exact pk _ _ (by decide +kernel)
    · exact pk _ _ (by decide +kernel)
  · have h1' : b32.abs x < b32.inf := h1
    rw [fin_ne_inf h1', if_neg (by simp), show b32.abs y = b32.inf from h2, if_pos ii, fin_eq_self h1'.le, if_pos rfl]
    dsimp only
    rw [ni]
    refine congrArg (Prod.mk 0x7F800000) ?_
    refine pk _ _ ?_
    unfold cacosAngle
    cases b32.lt x 0 <;> decide +kernel
  · rw [show b32.abs x = b32.inf from h1, if_pos ii, nan_eq_abs h2, if_neg (by simp)]
    have e : wide (b32.mul 0 (b32.abs y)) = b64.nan := nan_wide (by unfold Fmt.mul; rw [if_pos (Or.inr (nan_abs h2))]; decide)
    dsimp only
    rw [e, cn]
    exact ⟨ni, copysign_nan nan32⟩
  · rw [nan_eq_abs h1, if_neg (by simp), show b32.abs y = b32.inf from h2, if_pos ii, nan_eq_abs h1, if_neg (by simp)]
    dsimp only
    rw [nan_wide (nan_abs h1), cn]
    exact ⟨ni, copysign_nan nan32⟩

example : cacoshf (0xFF800000, 0xFF800000) = (0x7F800000, 0xC016CBE4) ∧ cacosf (0xFF800000, 0x7F800000) = (0x4016CBE4, 0xFF800000) ∧
    cacosf (0xFF800000, 0x80000000) = (0x40490FDB, 0x7F800000) := by decide +kernel

/-- C174: a NaN without an infinity in `cacoshf` gives NaN; only beside a zero real part is the angle π/2. -/
theorem C174_acosh_nan {x y : Nat} :
    (Zero b32 x → NaN b32 y → NaN b32 (cacoshf (x, y)).1 ∧ absOf b32 (cacoshf (x, y)).2 = 0x3FC90FDB) ∧
    ((NaN b32 y ∧ ¬ Zero b32 x ∧ ¬ Infinite b32 x) ∨ (NaN b32 x ∧ ¬ Infinite b32 y) → NaN b32 (cacoshf (x, y)).1 ∧ NaN b32 (cacoshf (x, y)).2) := by
  have ne : ∀ {u}, ¬ Infinite b32 u → b32.eq (b32.abs u) b32.inf = false := fun {u} hu => by
    by_cases fu : Math.Spec.Finite b32 u
    · exact fin_ne_inf fu
    · exact nan_eq_abs ((not_finite fu).resolve_left hu) _
  have nn : narrow b64.nan = b32.nan := by decide
  constructor
  · intro h1 h2
    unfold cacoshf cacoshFirst
    simp only
    rw [show b32.abs x = 0 from h1, if_neg (by decide +kernel), nan_eq_abs h2, if_neg (by simp), if_pos (Or.inr (nan_abs h2)), if_neg (by decide +kernel)]
    dsimp only
    rw [nn]
    refine ⟨nan32, ?_⟩
    show b32.abs (b32.copysign _ y) = _
    unfold Fmt.copysign
    rw [Fmt.abs_pack (Fmt.abs_lt _)]
    unfold cacosAngle
    cases b32.lt x 0 <;> decide +kernel
  · intro h
    have ix : ¬ Infinite b32 x := by
      rcases h with ⟨-, -, h⟩ | ⟨h, -⟩
      · exact h
      · unfold NaN Math.Spec.Infinite at *; omega
    have iy : ¬ Infinite b32 y := by
      rcases h with ⟨h, -⟩ | ⟨-, h⟩
      · unfold NaN Math.Spec.Infinite at *; omega
      · exact h
    have hn : b32.isNaN (b32.abs x) = true ∨ b32.isNaN (b32.abs y) = true := by
      rcases h with ⟨h, -⟩ | ⟨h, -⟩
      · exact Or.inr (nan_abs h)
      · exact Or.inl (nan_abs h)
    have zx : ¬ b32.eq (b32.abs x) 0 = true := by
      rw [eq_zero, abs_abs']
      rcases h with ⟨-, h, -⟩ | ⟨h, -⟩
      · exact h
      · unfold NaN absOf at h; unfold Fmt.abs; omega
    unfold cacoshf cacoshFirst
    simp only
    rw [ne ix, if_neg (by simp), ne iy, if_neg (by simp), if_pos hn, if_pos zx]
    dsimp only
    rw [nn]
    refine ⟨nan32, copysign_nan ?_⟩
    unfold cacosAngle
    rw [show b64.sub b64.nan (b64.mul (b64.ofInt (if b32.lt x 0 = true then 1 else 0)) pi1) = b64.nan by unfold Fmt.sub; exact nan_add (Or.inl (by decide)), nn]
    exact nan32

example : cacoshf (0x80000000, 0x7FC00000) = (0x7FC00000, 0x3FC90FDB) ∧ cacosf (0, 0x7FC00000) = (0x3FC90FDB, 0xFFC00000) ∧
    cacoshf (0x3F800000, 0x7FC00000) = (0x7FC00000, 0x7FC00000) := by decide +kernel

/-- C174: zeros. -/
theorem C174_zero {x y : Nat} (hx : Pat b32 x) (hy : Pat b32 y) (zx : Zero b32 x) (zy : Zero b32 y) :
    casinhf (x, y) = (x, y) ∧ casinf (x, y) = (x, y) ∧ cacoshf (x, y) = (0, withSign y 0x3FC90FDB) ∧ cacosf (x, y) = (0x3FC90FDB, b32.opp y) := by
  rcases (special_cases hx).1 zx with rfl | rfl <;> rcases (special_cases hy).1 zy with rfl | rfl <;> decide +kernel

end Verif.Approx
