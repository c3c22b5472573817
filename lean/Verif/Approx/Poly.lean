import Mathlib.Analysis.Calculus.Deriv.Mul
import Mathlib.Analysis.Calculus.Deriv.Inv
import Mathlib.Analysis.Calculus.Deriv.Pow
import Mathlib.Analysis.Calculus.Deriv.MeanValue
import Mathlib.Tactic.Linarith
import Mathlib.Tactic.Ring
import Mathlib.Tactic.FieldSimp
import Mathlib.Tactic.Positivity

/-!
# Polynomials with integer coefficients, and a checked proof that one is not negative on an interval

`tay` moves the centre of a small interval to zero; a polynomial whose constant term there exceeds the sum of the magnitudes of the others is
not negative on it.
-/

namespace Verif.Approx

/-- The value of a polynomial, the constant term first. -/
noncomputable def ev (t : ℝ) : List Int → ℝ
  | [] => 0
  | a :: q => a + t * ev t q

def padd : List Int → List Int → List Int
  | [], q => q
  | p, [] => p
  | a :: p, b :: q => (a + b) :: padd p q

def psm (k : Int) (p : List Int) : List Int := p.map (k * ·)

def pmul : List Int → List Int → List Int
  | [], _ => []
  | a :: p, q => padd (psm a q) (0 :: pmul p q)

def pder : List Int → List Int
  | [] => []
  | _ :: q => padd q (0 :: pder q)

theorem ev_padd (t : ℝ) : (p q : List Int) → ev t (padd p q) = ev t p + ev t q
  | [], q => by simp [padd, ev]
  | a :: p, [] => by simp [padd, ev]
  | a :: p, b :: q => by simp only [padd, ev, ev_padd t p q]; push_cast; ring

theorem ev_psm (t : ℝ) (k : Int) : (p : List Int) → ev t (psm k p) = k * ev t p
  | [] => by simp [psm, ev]
  | a :: p => by
    have := ev_psm t k p
    unfold psm at this ⊢
    simp only [List.map_cons, ev, this]; push_cast; ring

theorem ev_pmul (t : ℝ) : (p q : List Int) → ev t (pmul p q) = ev t p * ev t q
  | [], q => by simp [pmul, ev]
  | a :: p, q => by simp only [pmul, ev_padd, ev_psm, ev, ev_pmul t p q]; push_cast; ring

theorem ev_pder (t : ℝ) : (p : List Int) → HasDerivAt (fun t => ev t p) (ev t (pder p)) t
  | [] => by simpa [ev, pder] using hasDerivAt_const t (0 : ℝ)
  | a :: q => by
    have h : HasDerivAt (fun t : ℝ => (a : ℝ) + t * ev t q) (1 * ev t q + t * ev t (pder q)) t := ((hasDerivAt_id t).mul (ev_pder t q)).const_add (a : ℝ)
    refine h.congr_deriv ?_
    simp [ev, pder, ev_padd]

/-- `d^n p((c + t) / d)` as a polynomial in `t`, where `n` is the degree. -/
def tay (c d : Int) : List Int → List Int
  | [] => []
  | a :: q => padd [a * d ^ q.length] (padd (psm c (tay c d q)) (0 :: tay c d q))

theorem ev_tay (c d : Int) (hd : (d : ℝ) ≠ 0) (t : ℝ) : (p : List Int) → d * ev t (tay c d p) = d ^ p.length * ev ((c + t) / d) p
  | [] => by simp [tay, ev]
  | a :: q => by
    have h := ev_tay c d hd t q
    simp only [tay, ev_padd, ev_psm, ev, List.length_cons]
    push_cast
    rw [mul_zero, add_zero, mul_add, mul_add, show (d : ℝ) * (c * ev t (tay c d q)) = c * (d * ev t (tay c d q)) by ring, show (d : ℝ) * (0 + t * ev t (tay c d q)) = t * (d * ev t (tay c d q)) by ring, h]
    field_simp
    ring

/-- The sum of the magnitudes. -/
def psum : List Int → Int
  | [] => 0
  | a :: q => |a| + psum q

theorem ev_psum {t : ℝ} (ht : |t| ≤ 1) : (p : List Int) → |ev t p| ≤ psum p
  | [] => by simp [ev, psum]
  | a :: q => by
    have h := ev_psum ht q
    simp only [ev, psum]
    push_cast
    refine (abs_add_le _ _).trans (add_le_add le_rfl ?_)
    rw [abs_mul]
    calc |t| * |ev t q| ≤ 1 * |ev t q| := by gcongr
      _ ≤ _ := by rw [one_mul]; exact h

/-- The polynomial is not negative from `(c - 1) / d` to `(c + 1) / d`. -/
def posOn (p : List Int) (c d : Int) : Bool :=
  match tay c d p with
  | [] => true
  | b :: bs => decide (psum bs ≤ b)

theorem posOn_sound {p : List Int} {c d : Int} (hd : 0 < d) (h : posOn p c d = true) {t : ℝ} (ht : |t| ≤ 1) : 0 ≤ ev ((c + t) / d) p := by
  have hd' : (0 : ℝ) < d := by exact_mod_cast hd
  have e := ev_tay c d hd'.ne' t p
  have : 0 ≤ ev t (tay c d p) := by
    unfold posOn at h
    generalize tay c d p = q at h
    cases q with
    | nil => simp [ev]
    | cons b bs =>
      have h' : (psum bs : ℝ) ≤ b := by exact_mod_cast of_decide_eq_true h
      have k := (abs_le.1 (show |t * ev t bs| ≤ psum bs by
        rw [abs_mul]
        calc |t| * |ev t bs| ≤ 1 * |ev t bs| := by gcongr
          _ ≤ _ := by rw [one_mul]; exact ev_psum ht bs)).1
      simp only [ev]
      linarith
  have h2 : 0 ≤ (d : ℝ) ^ p.length * ev ((c + t) / d) p := by rw [← e]; positivity
  exact nonneg_of_mul_nonneg_right h2 (by positivity)

/-- The polynomial is not negative from 0 to `n / d`: all intervals of width `1 / d` are checked. -/
def posTo (p : List Int) (d : Int) : Nat → Bool
  | 0 => true
  | n + 1 => posOn p (2 * n + 1) (2 * d) && posTo p d n

theorem posTo_sound {p : List Int} {d : Int} (hd : 0 < d) : (n : Nat) → posTo p d n = true → ∀ {u : ℝ}, 0 ≤ u → u ≤ n / d → 0 < u ∨ 0 < n → 0 ≤ ev u p
  | 0, _, u, h1, h2, h3 => by simp at h2 h3; linarith
  | n + 1, h, u, h1, h2, h3 => by
    have hd' : (0 : ℝ) < d := by exact_mod_cast hd
    unfold posTo at h
    rw [Bool.and_eq_true] at h
    rcases le_total u (n / d) with hu | hu
    · rcases Nat.eq_zero_or_pos n with rfl | hn
      · have h0 : u = 0 := by simp at hu; linarith
        have := posOn_sound (by omega) h.1 (t := -1) (by simp)
        push_cast at this
        rw [h0]
        convert this using 2
        simp
      · exact posTo_sound hd n h.2 h1 hu (Or.inr hn)
    · have := posOn_sound (by omega) h.1 (t := u * (2 * d) - (2 * n + 1)) (by
        rw [div_le_iff₀ hd'] at hu
        rw [le_div_iff₀ hd'] at h2
        push_cast at h2
        rw [abs_le]
        constructor <;> linarith)
      push_cast at this
      convert this using 2
      field_simp
      ring

theorem pos_to {p : List Int} {d : Int} {n : Nat} (hd : 0 < d) (hn : 0 < n) (h : posTo p d n = true) {u : ℝ} (h1 : 0 ≤ u) (h2 : u ≤ n / d) : 0 ≤ ev u p :=
  posTo_sound hd n h h1 h2 (Or.inr hn)

/-- The derivative of `x N(x²) / D(x²)`, times `D²`. -/
def pquot (N D : List Int) : List Int := padd (pmul (padd N (psm 2 (0 :: pder N))) D) (psm (-2) (0 :: pmul N (pder D)))

theorem quot_deriv (N D : List Int) (x : ℝ) (h : ev (x ^ 2) D ≠ 0) :
    HasDerivAt (fun x => x * ev (x ^ 2) N / ev (x ^ 2) D) (ev (x ^ 2) (pquot N D) / ev (x ^ 2) D ^ 2) x := by
  have s : HasDerivAt (fun x : ℝ => x ^ 2) (2 * x) x := by simpa using hasDerivAt_pow 2 x
  have n := (ev_pder (x ^ 2) N).comp x s
  have d := (ev_pder (x ^ 2) D).comp x s
  have k := ((hasDerivAt_id x).mul n).div d h
  refine k.congr_deriv ?_
  simp only [pquot, ev_padd, ev_psm, ev_pmul, ev, Function.comp, id]
  congr 1
  push_cast
  simp only [Function.comp, Pi.mul_apply, id]
  ring

/-- A function that vanishes at zero and does not decrease is not negative. -/
theorem grows {f f' : ℝ → ℝ} {b : ℝ} (hf : ∀ x, 0 ≤ x → x ≤ b → HasDerivAt f (f' x) x) (h0 : f 0 = 0) (hp : ∀ x, 0 ≤ x → x ≤ b → 0 ≤ f' x) {x : ℝ} (h1 : 0 ≤ x) (h2 : x ≤ b) :
    0 ≤ f x := by
  have m : MonotoneOn f (Set.Icc 0 b) := by
    refine monotoneOn_of_deriv_nonneg (convex_Icc 0 b) (fun y hy => (hf y hy.1 hy.2).continuousAt.continuousWithinAt) (fun y hy => ?_) (fun y hy => ?_)
    · rw [interior_Icc] at hy
      exact (hf y hy.1.le hy.2.le).differentiableAt.differentiableWithinAt
    · rw [interior_Icc] at hy
      rw [(hf y hy.1.le hy.2.le).deriv]
      exact hp y hy.1.le hy.2.le
  have := m ⟨le_rfl, h1.trans h2⟩ ⟨h1, h2⟩ h1
  rwa [h0] at this

end Verif.Approx
