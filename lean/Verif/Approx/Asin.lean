import Verif.Approx.Atan
import Verif.Approx.SinTaylor

/-! # `asinf` and `acosf` -/

namespace Verif.Approx
open Verif.Float Verif.Approx.Spec
open Verif.Math.Spec (Pat)

/-- A double near a bounded number. -/
structure Bd (x : Nat) (v b e : ℝ) : Prop where
  ap : Ap x v (e / 2 ^ 53)
  le : |v| ≤ b

theorem Bd.mono {x : Nat} {v b e d : ℝ} (h : Bd x v b e) (hd : e ≤ d) : Bd x v b d := ⟨h.ap.mono (by gcongr), h.le⟩

/-- `a + b c` for numbers below 1 -/
theorem Bd.fma {a b c : Nat} {A B C α γ e d f η : ℝ} (ha : Bd a A α e) (hb : Bd b B 1 d) (hc : Bd c C γ f) (hs : α + γ ≤ 1) (he : e ≤ 2 ^ 12) (hd : d ≤ 2 ^ 12) (hf : f ≤ 2 ^ 12)
    (hη : e + d + f + 4 ≤ η) : Bd (b64.add a (b64.mul b c)) (A + B * C) (α + γ) η := by
  have hα : 0 ≤ α := (abs_nonneg _).trans ha.le
  have hγ : 0 ≤ γ := (abs_nonneg _).trans hc.le
  have e0 : 0 ≤ e := by have := ha.ap.nonneg; rwa [le_div_iff₀ (by norm_num), zero_mul] at this
  have d0 : 0 ≤ d := by have := hb.ap.nonneg; rwa [le_div_iff₀ (by norm_num), zero_mul] at this
  have f0 : 0 ≤ f := by have := hc.ap.nonneg; rwa [le_div_iff₀ (by norm_num), zero_mul] at this
  have m := hb.ap.mul hc.ap hb.le (hc.le.trans (show γ ≤ 1 by linarith)) (by
    have : (1 + d / 2 ^ 53) * (1 + f / 2 ^ 53) ≤ 2 * 2 := mul_le_mul (by norm_num; linarith) (by norm_num; linarith) (by positivity) (by norm_num)
    exact this.trans (by norm_num))
  have hBC : |B * C| ≤ γ := by
    rw [abs_mul]
    calc |B| * |C| ≤ 1 * γ := mul_le_mul hb.le hc.le (abs_nonneg _) (by norm_num)
      _ = γ := one_mul _
  have hl : |A + B * C| ≤ α + γ := (abs_add_le _ _).trans (add_le_add ha.le hBC)
  have m' := m.mono (d := (d + f + 2) / 2 ^ 53) (by
    have q : d * f ≤ 2 ^ 12 * 2 ^ 12 := mul_le_mul hd hf f0 (by norm_num)
    norm_num at *
    nlinarith)
  refine ⟨(ha.ap.add m' (hl.trans hs) (by norm_num at *; linarith)).mono ?_, hl⟩
  norm_num at *
  linarith

theorem Bd.sq {u : Nat} {U e η : ℝ} (h : Bd u U 1 e) (he : e ≤ 2 ^ 12) (hη : 2 * e + 2 ≤ η) : Bd (b64.mul u u) (U * U) 1 η := by
  have e0 : 0 ≤ e := by have := h.ap.nonneg; rwa [le_div_iff₀ (by norm_num), zero_mul] at this
  have q : e * e ≤ 2 ^ 12 * 2 ^ 12 := mul_le_mul he he e0 (by norm_num)
  refine ⟨(h.ap.mul h.ap h.le h.le ?_).mono ?_, ?_⟩
  · have : (1 + e / 2 ^ 53) * (1 + e / 2 ^ 53) ≤ 2 * 2 := mul_le_mul (by norm_num; linarith) (by norm_num; linarith) (by positivity) (by norm_num)
    exact this.trans (by norm_num)
  · norm_num at *
    nlinarith
  · rw [abs_mul]; nlinarith [h.le, abs_nonneg U]

/-- The coefficients in src/math/float/kernel/asin.h:22-34 -/
def asC : List Nat := [0x3FC55555555555C2, 0x3FB33333333004C3, 0x3FA6DB6DBAC8181C, 0x3F9F1C6FE544A91A, 0x3F96E8F53473F0A8, 0x3F91C0BA7D4115EE, 0x3F8CF7FC18E38CA0, 0x3F8507172F1B62BE,
  0x3F8FC979DA826000, 0xBF7C87CDF2909242, 0x3F9CA87A18BC0B31]

theorem as_link : link 62 asC asP = true := by decide +kernel

theorem as_const {c : Nat} {z : Int} {b : ℝ} (h1 : Fin b64 c) (h2 : R b64 c = z / 2 ^ 62) (hb : |(z : ℝ)| ≤ b * 2 ^ 62) : Bd c (z / 2 ^ 62) b 0 := by
  refine ⟨by rw [← h2, zero_div]; exact Ap.exact h1, ?_⟩
  rw [abs_div, abs_of_pos (show (0 : ℝ) < 2 ^ 62 by positivity), div_le_iff₀ (by positivity)]
  exact hb

/-- The polynomial of src/math/float/kernel/asin.h:36-47 -/
def asinPoly (u : Nat) : Nat :=
  let u2 := b64.mul u u
  let u4 := b64.mul u2 u2
  let u8 := b64.mul u4 u4
  let p01 := b64.add 0x3FC55555555555C2 (b64.mul u 0x3FB33333333004C3)
  let p23 := b64.add 0x3FA6DB6DBAC8181C (b64.mul u 0x3F9F1C6FE544A91A)
  let p45 := b64.add 0x3F96E8F53473F0A8 (b64.mul u 0x3F91C0BA7D4115EE)
  let p67 := b64.add 0x3F8CF7FC18E38CA0 (b64.mul u 0x3F8507172F1B62BE)
  let p89 := b64.add 0x3F8FC979DA826000 (b64.mul u 0xBF7C87CDF2909242)
  let p03 := b64.add p01 (b64.mul u2 p23)
  let p47 := b64.add p45 (b64.mul u2 p67)
  let p8a := b64.add p89 (b64.mul u2 0x3F9CA87A18BC0B31)
  b64.add (b64.add p03 (b64.mul u4 p47)) (b64.mul u8 p8a)

theorem kernelAsin_eq (t u : Nat) : kernelAsin t u = b64.add t (b64.mul (b64.mul t u) (asinPoly u)) := rfl

theorem asinPoly_ap {u : Nat} {U : ℝ} (bu : Bd u U 1 2) : Ap (asinPoly u) (ev U asP / 2 ^ 62) (118 / 2 ^ 53) := by
  have b2 := bu.sq (η := 6) (by norm_num) (by norm_num)
  have b4 := b2.sq (η := 14) (by norm_num) (by norm_num)
  have b8 := b4.sq (η := 30) (by norm_num) (by norm_num)
  obtain ⟨c0, c0', l⟩ := link_cons as_link
  obtain ⟨c1, c1', l⟩ := link_cons l
  obtain ⟨c2, c2', l⟩ := link_cons l
  obtain ⟨c3, c3', l⟩ := link_cons l
  obtain ⟨c4, c4', l⟩ := link_cons l
  obtain ⟨c5, c5', l⟩ := link_cons l
  obtain ⟨c6, c6', l⟩ := link_cons l
  obtain ⟨c7, c7', l⟩ := link_cons l
  obtain ⟨c8, c8', l⟩ := link_cons l
  obtain ⟨c9, c9', l⟩ := link_cons l
  obtain ⟨cA, cA', l⟩ := link_cons l
  have k0 := as_const (b := 0.17) c0 c0' (by norm_num)
  have k1 := as_const (b := 0.08) c1 c1' (by norm_num)
  have k2 := as_const (b := 0.05) c2 c2' (by norm_num)
  have k3 := as_const (b := 0.04) c3 c3' (by norm_num)
  have k4 := as_const (b := 0.03) c4 c4' (by norm_num)
  have k5 := as_const (b := 0.03) c5 c5' (by norm_num)
  have k6 := as_const (b := 0.03) c6 c6' (by norm_num)
  have k7 := as_const (b := 0.03) c7 c7' (by norm_num)
  have k8 := as_const (b := 0.03) c8 c8' (by norm_num)
  have k9 := as_const (b := 0.03) c9 c9' (by norm_num)
  have kA := as_const (b := 0.03) cA cA' (by norm_num)
  have p01 := k0.fma bu k1 (η := 6) (by norm_num) (by norm_num) (by norm_num) (by norm_num) (by norm_num)
  have p23 := k2.fma bu k3 (η := 6) (by norm_num) (by norm_num) (by norm_num) (by norm_num) (by norm_num)
  have p45 := k4.fma bu k5 (η := 6) (by norm_num) (by norm_num) (by norm_num) (by norm_num) (by norm_num)
  have p67 := k6.fma bu k7 (η := 6) (by norm_num) (by norm_num) (by norm_num) (by norm_num) (by norm_num)
  have p89 := k8.fma bu k9 (η := 6) (by norm_num) (by norm_num) (by norm_num) (by norm_num) (by norm_num)
  have p03 := p01.fma b2 p23 (η := 22) (by norm_num) (by norm_num) (by norm_num) (by norm_num) (by norm_num)
  have p47 := p45.fma b2 p67 (η := 22) (by norm_num) (by norm_num) (by norm_num) (by norm_num) (by norm_num)
  have p8a := p89.fma b2 kA (η := 22) (by norm_num) (by norm_num) (by norm_num) (by norm_num) (by norm_num)
  have p07 := p03.fma b4 p47 (η := 62) (by norm_num) (by norm_num) (by norm_num) (by norm_num) (by norm_num)
  have p := p07.fma b8 p8a (η := 118) (by norm_num) (by norm_num) (by norm_num) (by norm_num) (by norm_num)
  have q : Ap (asinPoly u) _ _ := p.ap
  convert q using 1
  simp only [asP, ev]
  push_cast
  ring

theorem asP_sum : psum asP ≤ 2 ^ 61 := by decide +kernel

theorem sin_arcsin_le {t : ℝ} (h0 : 0 ≤ t) (h1 : t ≤ 1) : t ≤ Real.arcsin t := by
  have := Real.sin_le (Real.arcsin_nonneg.2 h0)
  rwa [Real.sin_arcsin (by linarith) h1] at this

theorem abs_arcsin (t : ℝ) : |Real.arcsin t| = Real.arcsin |t| := by
  rcases le_total 0 t with h | h
  · rw [abs_of_nonneg h, abs_of_nonneg (Real.arcsin_nonneg.2 h)]
  · rw [abs_of_nonpos h, Real.arcsin_neg, abs_of_nonpos (Real.arcsin_nonpos.2 h)]

theorem asin_poly {t : ℝ} (h : |t| ≤ 1 / 2) : |t + t * t ^ 2 * (ev (t ^ 2) asP / 2 ^ 62) - Real.arcsin t| ≤ 1 / 2 ^ 40 * |Real.arcsin t| := by
  rcases le_total 0 t with h0 | h0
  · rw [abs_of_nonneg h0] at h
    have := asin_poly_pos h0 h
    rwa [abs_of_nonneg (Real.arcsin_nonneg.2 h0)]
  · rw [abs_of_nonpos h0] at h
    have := asin_poly_pos (t := -t) (by linarith) h
    rw [Real.arcsin_neg, neg_sq] at this
    rw [abs_of_nonpos (Real.arcsin_nonpos.2 h0), ← abs_neg]
    convert this using 2
    ring

theorem kernelAsin_rel {t u : Nat} {T : ℝ} (ht : Rel t T (8 / 2 ^ 53)) (hu : Ap u (T ^ 2) (2 / 2 ^ 53)) (h1 : |T| ≤ 1 / 2) (h0 : 1 / 2 ^ 160 ≤ |T|) :
    Rel (kernelAsin t u) (Real.arcsin T) (1 / 2 ^ 39) := by
  have hT : |T ^ 2| ≤ 1 / 4 := by rw [abs_pow]; nlinarith [abs_nonneg T]
  have p := asinPoly_ap ⟨hu, hT.trans (by norm_num)⟩
  have hP : |ev (T ^ 2) asP / 2 ^ 62| ≤ 1 / 2 := by
    rw [abs_div, abs_of_pos (show (0 : ℝ) < 2 ^ 62 by positivity), div_le_iff₀ (by positivity)]
    refine (ev_psum (hT.trans (by norm_num)) asP).trans ?_
    exact_mod_cast (show (psum asP : ℝ) ≤ 1 / 2 * 2 ^ 62 by have : (psum asP : ℝ) ≤ 2 ^ 61 := by exact_mod_cast asP_sum
                                                            norm_num at this ⊢; exact this)
  have fin := asin_poly h1
  rw [kernelAsin_eq]
  have hb : |T| ≤ |Real.arcsin T| := by rw [abs_arcsin]; exact sin_arcsin_le (abs_nonneg _) (h1.trans (by norm_num))
  generalize ev (T ^ 2) asP / 2 ^ 62 = P at *
  generalize asinPoly u = q at *
  have tA : Ap t T (8 / 2 ^ 53 * |T|) := ⟨ht.fin, ht.err⟩
  have hT0 : 0 ≤ |T| := abs_nonneg T
  have m1 := (tA.mul hu le_rfl hT (by norm_num; linarith)).mono (d := 8 / 2 ^ 53 * |T|) (by norm_num at *; linarith)
  have m2 : |T * T ^ 2| ≤ |T| / 4 := by rw [abs_mul]; nlinarith
  have m3 := (m1.mul p m2 hP (by norm_num at *; nlinarith)).mono (d := 40 / 2 ^ 53 * |T|) (by norm_num at *; linarith)
  have m4 : |T * T ^ 2 * P| ≤ |T| / 8 := by rw [abs_mul]; nlinarith [abs_nonneg P, abs_nonneg (T * T ^ 2)]
  have lo : 7 / 8 * |T| ≤ |T + T * T ^ 2 * P| := by
    have := abs_sub_abs_le_abs_sub T (-(T * T ^ 2 * P))
    rw [abs_neg, sub_neg_eq_add] at this
    linarith
  have hi : |T + T * T ^ 2 * P| ≤ 9 / 8 * |T| := (abs_add_le _ _).trans (by linarith)
  have a := Rel.add_abs (B := 2 * |T|) (η := 60 / 2 ^ 53) tA.fin m3.fin tA.err m3.err (by norm_num at *; linarith) (le_Mx (by linarith [show (1 : ℝ) ≤ 2 ^ 250 by norm_num])) (by norm_num at *; linarith)
  exact a.shift fin (by norm_num) (by norm_num)

theorem half_angle {A : ℝ} (h0 : 1 / 2 ≤ A) (h1 : A ≤ 1) : Real.arcsin A = Real.pi / 2 - 2 * Real.arcsin √((1 - A) / 2) ∧
    0 ≤ √((1 - A) / 2) ∧ √((1 - A) / 2) ≤ 1 / 2 ∧ 0 ≤ Real.arcsin √((1 - A) / 2) ∧ Real.arcsin √((1 - A) / 2) ≤ 0.53 := by
  have s0 := Real.sqrt_nonneg ((1 - A) / 2)
  have s1 : √((1 - A) / 2) ≤ 1 / 2 := Real.sqrt_le_iff.2 ⟨by norm_num, by norm_num; linarith⟩
  have s2 : √((1 - A) / 2) ^ 2 = (1 - A) / 2 := Real.sq_sqrt (by linarith)
  generalize √((1 - A) / 2) = T at *
  have a0 := Real.arcsin_nonneg.2 s0
  have a1 : Real.arcsin T ≤ Real.pi / 6 := by
    have : Real.arcsin T ≤ Real.arcsin (1 / 2) := Real.monotone_arcsin s1
    refine this.trans (le_of_eq ?_)
    rw [← Real.sin_pi_div_six, Real.arcsin_sin] <;> linarith [Real.pi_pos]
  have hpi := Real.pi_lt_d20
  refine ⟨Real.arcsin_eq_of_sin_eq ?_ ⟨by linarith [Real.pi_pos], by linarith⟩, s0, s1, a0, a1.trans (by norm_num at *; linarith)⟩
  rw [Real.sin_pi_div_two_sub, Real.cos_two_mul, Real.cos_sq', Real.sin_arcsin (by linarith) (by linarith), s2]
  ring

theorem asinTwo_rel {a : Nat} (ha : Fin b64 a) (h0 : 1 / 2 ≤ R b64 a) (h1 : R b64 a ≤ 1 - 1 / 2 ^ 24 ∨ a = one) :
    Rel (asinTwo a) (2 * Real.arcsin √((1 - R b64 a) / 2)) (1 / 2 ^ 38) := by
  have o1 : R b64 one = 1 := by rw [k_one.2]; norm_num
  rcases h1 with h1 | h1
  swap
  · rw [h1, o1, show asinTwo one = 0 from by decide +kernel]
    have z : Fin b64 0 := by show b64.abs 0 < b64.inf; decide
    have : R b64 0 = 0 := by rw [R_signed, show b64.abs 0 = 0 from by decide, b64.mag_zero]; simp
    exact ⟨z, by rw [this]; simp⟩
  unfold asinTwo
  obtain ⟨b1, b2⟩ := sub_err ok64 top_big k_one.1 ha (by rw [o1, abs_le]; constructor <;> [(have := le_Mx (x := 1) (by norm_num); linarith [show (0 : ℝ) < 1 / 2 ^ 24 by norm_num]); (have := le_Mx (x := 1) (by norm_num); linarith)])
  rw [o1, eps64] at b2
  obtain ⟨-, t0, t1, v0, v1⟩ := half_angle h0 (h1.trans (by norm_num))
  generalize R b64 a = A at *
  have rs : Rel (b64.sub one a) (1 - A) (1 / 2 ^ 53) := ⟨b1, b2⟩
  have hA : 1 / 2 ^ 24 ≤ 1 - A := by linarith
  have hA0 : 0 < 1 - A := lt_of_lt_of_le (by norm_num) hA
  have ab : |1 / 2 * (1 - A)| = (1 - A) / 2 := by rw [abs_of_pos (by linarith)]; ring
  have ru := rel_half.mul rs (η := 2.1 / 2 ^ 53) (by norm_num) (by rw [_root_.add_zero, one_mul]; exact rel_big (by rw [ab]; norm_num; linarith) (by norm_num))
    (by rw [ab]; norm_num at *; linarith) (by norm_num)
  have hp : Pat b64 (b64.mul half (b64.sub one a)) := pat_mul k_half.1 b1
  rw [show 1 / 2 * (1 - A) = (1 - A) / 2 by ring] at ru
  generalize b64.mul half (b64.sub one a) = u at *
  have rt := ru.sqrt hp (η := 8 / 2 ^ 53) (by norm_num) (by norm_num at *; linarith) (by norm_num)
  have lo : 1 / 2 ^ 13 ≤ √((1 - A) / 2) := Real.le_sqrt_of_sq_le (by norm_num at *; linarith)
  have sq : √((1 - A) / 2) ^ 2 = (1 - A) / 2 := Real.sq_sqrt (by linarith)
  have k := kernelAsin_rel rt ⟨ru.fin, by
    rw [sq]
    refine ru.err.trans ?_
    rw [abs_of_pos (by linarith)]
    norm_num at *
    linarith⟩ (by rw [abs_of_nonneg t0]; exact t1) (by rw [abs_of_nonneg t0]; exact le_trans (by norm_num) lo)
  have low : 1 / 2 ^ 13 ≤ Real.arcsin √((1 - A) / 2) := lo.trans (sin_arcsin_le t0 (t1.trans (by norm_num)))
  have a2 : |2 * Real.arcsin √((1 - A) / 2)| = 2 * Real.arcsin √((1 - A) / 2) := abs_of_nonneg (by linarith)
  refine (Rel.exact k_two.1 k_two.2).mul k (by norm_num) (by rw [_root_.add_zero, one_mul]; exact rel_big (by rw [a2]; norm_num at *; linarith) (by norm_num)) ?_ (by norm_num)
  rw [a2]
  norm_num at *
  linarith

end Verif.Approx
