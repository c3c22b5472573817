import Verif.Approx.PowFast
import Verif.Approx.InvHyp

/-! # `powf` when the first attempt decides the rounding -/

namespace Verif.Approx
open Verif.Float Verif.Approx.Spec
open Verif.Math.Spec (Pat absOf negative)
open Verif.Hyp.Spec (NearestReal)

variable {F : Fmt}

/-! ### Midpoints -/

theorem nearest_mids {v : ℝ} {r : Nat} (h : NearestReal F v r) :
    (r < F.inf → 2 * v ≤ F.mag r + F.mag (r + 1)) ∧ (0 < r → (F.mag (r - 1) : ℝ) + F.mag r ≤ 2 * v) := by
  constructor
  · intro hr
    have h1 := h.best (r + 1) hr
    have h2 : (F.mag r : ℝ) < F.mag (r + 1) := by exact_mod_cast F.mag_strictMono (Nat.lt_succ_self r)
    by_contra c
    rw [not_le] at c
    rw [abs_of_pos (by linarith : 0 < v - F.mag r)] at h1
    rcases abs_cases (v - (F.mag (r + 1) : ℝ)) with ⟨e, -⟩ | ⟨e, -⟩ <;> rw [e] at h1 <;> linarith
  · intro hr
    have h1 := h.best (r - 1) (by have := h.le; omega)
    have h2 : (F.mag (r - 1) : ℝ) < F.mag r := by exact_mod_cast F.mag_strictMono (show r - 1 < r by omega)
    by_contra c
    rw [not_le] at c
    rw [abs_of_neg (by linarith : v - F.mag r < 0)] at h1
    rcases abs_cases (v - (F.mag (r - 1) : ℝ)) with ⟨e, -⟩ | ⟨e, -⟩ <;> rw [e] at h1 <;> linarith

/-- An accurate result is the correctly rounded one if the exact value is far from the midpoints. -/
theorem accurate_rounded {v ε : ℝ} {r : Nat} (hv : 0 < v) (h0 : ε < 1) (h : Accurate F ε v r)
    (far : ∀ p < F.inf, ε * v < |v - ((F.mag p : ℝ) + F.mag (p + 1)) / 2 / 2 ^ F.unit|) : Rounded F v r := by
  obtain ⟨z, z1, z2⟩ := h
  rw [abs_of_pos hv] at z1
  have z3 := abs_le.1 z1
  have z0 : 0 < z := by nlinarith
  have hu : (0 : ℝ) < 2 ^ F.unit := by positivity
  have near := z2.near
  obtain ⟨m1, m2⟩ := nearest_mids near
  rw [abs_of_pos z0] at m1 m2
  refine ⟨z2.pat, ?_, fun _ => z2.pos z0, fun h => by linarith⟩
  rw [abs_of_pos hv]
  have up : absOf F r < F.inf → 2 * (v * 2 ^ F.unit) < F.mag (absOf F r) + F.mag (absOf F r + 1) := fun hr => by
    have a := m1 hr
    have b := far _ hr
    generalize ((F.mag (absOf F r) : ℝ) + F.mag (absOf F r + 1)) = M at *
    have c : z ≤ M / 2 / 2 ^ F.unit := by rw [le_div_iff₀ hu]; linarith
    by_contra d
    rw [not_lt] at d
    have e : M / 2 / 2 ^ F.unit ≤ v := by rw [div_le_iff₀ hu]; linarith
    rw [abs_of_nonneg (by linarith)] at b
    linarith
  have dn : 0 < absOf F r → (F.mag (absOf F r - 1) : ℝ) + F.mag (absOf F r) < 2 * (v * 2 ^ F.unit) := fun hr => by
    have a := m2 hr
    have b := far (absOf F r - 1) (by have := near.le; omega)
    rw [show absOf F r - 1 + 1 = absOf F r by omega] at b
    generalize ((F.mag (absOf F r - 1) : ℝ) + F.mag (absOf F r)) = M at *
    have c : M / 2 / 2 ^ F.unit ≤ z := by rw [div_le_iff₀ hu]; linarith
    by_contra d
    rw [not_lt] at d
    have e : v ≤ M / 2 / 2 ^ F.unit := by rw [le_div_iff₀ hu]; linarith
    rw [abs_of_nonpos (by linarith)] at b
    linarith
  exact Hyp.nearestReal_of_mid near.le (fun h => ⟨(up h).le, fun e => absurd e (up h).ne⟩) (fun h => ⟨(dn h).le, fun e => absurd e (dn h).ne⟩)

theorem mag64_digits {E f : Nat} (hE : 1 ≤ E) (hf : f < 2 ^ 52) : b64.mag (E * 2 ^ 52 + f) = (2 ^ 52 + f) * 2 ^ (E - 1) := by
  have := b64.mag_mk E (2 ^ 52 + f) hE (by change 2 ^ 52 ≤ _; omega) (by change _ < 2 ^ 53; omega)
  rw [show b64.f = 52 from rfl, show 2 ^ 52 + f - 2 ^ 52 = f by omega] at this
  exact this

theorem mag32_digits {E f : Nat} (hE : 1 ≤ E) (hf : f < 2 ^ 23) : b32.mag (E * 2 ^ 23 + f) = (2 ^ 23 + f) * 2 ^ (E - 1) ∧ b32.ulp (E * 2 ^ 23 + f) = 2 ^ (E - 1) := by
  have := b32.mag_mk E (2 ^ 23 + f) hE (by change 2 ^ 23 ≤ _; omega) (by change _ < 2 ^ 24; omega)
  rw [show b32.f = 23 from rfl, show 2 ^ 23 + f - 2 ^ 23 = f by omega] at this
  refine ⟨this, ?_⟩
  unfold Fmt.ulp
  rw [show b32.f = 23 from rfl, show (E * 2 ^ 23 + f) / 2 ^ 23 = E by omega]

theorem scale64 {m k : Nat} : ((m * 2 ^ (896 + k) : Nat) : ℝ) / 2 ^ b64.unit = m * (2 ^ k / 2 ^ 178) := by
  rw [show b64.unit = 896 + 178 from rfl, pow_add, pow_add, Nat.cast_mul, Nat.cast_mul, Nat.cast_pow, Nat.cast_pow, Nat.cast_ofNat]
  have h896 : (2 : ℝ) ^ 896 ≠ 0 := by positivity
  generalize (2 : ℝ) ^ 896 = w at *
  field_simp

theorem gate_real {f g K : ℝ} (hf : 0 ≤ f) (hK : 0 ≤ K) (h : |f - g * 2 ^ 29 - 2 ^ 28| ≤ 8192) :
    |(2 ^ 52 + f) * K - (2 ^ 52 + g * 2 ^ 29 + 2 ^ 28) * K| ≤ 1 / 2 ^ 39 * ((2 ^ 52 + f) * K) := by
  rw [← sub_mul, abs_mul, abs_of_nonneg hK, ← mul_assoc, show (2 : ℝ) ^ 52 + f - (2 ^ 52 + g * 2 ^ 29 + 2 ^ 28) = f - g * 2 ^ 29 - 2 ^ 28 by ring]
  refine mul_le_mul_of_nonneg_right (h.trans ?_) hK
  norm_num
  linarith

theorem gate_double {k f r : Nat} (hr : r = (897 + k) * 2 ^ 52 + f) (hf : f < 2 ^ 52) (hE : k ≤ 252) :
    R b64 r = ((2 : ℝ) ^ 52 + f) * (2 ^ k / 2 ^ 178) := by
  have hinf : b64.inf = 2047 * 2 ^ 52 := rfl
  have h : b64.mag r = (2 ^ 52 + f) * 2 ^ (896 + k) := by
    rw [hr, mag64_digits (by omega) hf, show 897 + k - 1 = 896 + k by omega]
  rw [(R_small (by omega)).2, h, scale64, Nat.cast_add, Nat.cast_pow, Nat.cast_ofNat]

theorem gate_single {k g p : Nat} (hp : p = (1 + k) * 2 ^ 23 + g) (hg : g < 2 ^ 23) :
    ((b32.mag p : ℝ) + b32.mag (p + 1)) / 2 / 2 ^ b32.unit = ((2 : ℝ) ^ 52 + g * 2 ^ 29 + 2 ^ 28) * (2 ^ k / 2 ^ 178) := by
  obtain ⟨m2, m3⟩ := mag32_digits (E := 1 + k) (f := g) (by omega) hg
  rw [← hp, show 1 + k - 1 = k by omega] at m2 m3
  rw [b32.mag_succ, m3, m2, show b32.unit = 149 from rfl, Nat.cast_add, Nat.cast_mul, Nat.cast_add, Nat.cast_pow, Nat.cast_pow, Nat.cast_ofNat]
  generalize (g : ℝ) = g
  generalize (2 : ℝ) ^ k = w
  ring

theorem gate_int {f g d : Nat} (hg : g = f / 2 ^ 29) (hm : d = f % 2 ^ 29) (hd : ((d : Int) - 0x10000000).natAbs ≤ 0x2000) :
    |((f : ℝ) - g * 2 ^ 29 - 2 ^ 28)| ≤ 8192 := by
  have h : f = g * 2 ^ 29 + d := by omega
  have h1 : (d : ℝ) ≤ 2 ^ 28 + 8192 := by
    have : d ≤ 2 ^ 28 + 8192 := by omega
    exact_mod_cast this
  have h2 : (2 : ℝ) ^ 28 ≤ d + 8192 := by
    have : 2 ^ 28 ≤ d + 8192 := by omega
    exact_mod_cast this
  rw [h, Nat.cast_add, Nat.cast_mul, Nat.cast_pow, Nat.cast_ofNat, abs_le]
  constructor <;> linarith

/-- A double next to a midpoint of two floats, by its digits. -/
theorem gate_mid {k f d r : Nat} (hr : r = (897 + k) * 2 ^ 52 + f) (hf : f < 2 ^ 52) (hE : k ≤ 252) (hm : d = f % 2 ^ 29)
    (hd : ((d : Int) - 0x10000000).natAbs ≤ 0x2000) :
    ∃ p, p + 1 < b32.inf ∧ |R b64 r - ((b32.mag p : ℝ) + b32.mag (p + 1)) / 2 / 2 ^ b32.unit| ≤ 1 / 2 ^ 39 * R b64 r := by
  have hinf' : b32.inf = 255 * 2 ^ 23 := rfl
  obtain ⟨g, hg⟩ : ∃ g, g = f / 2 ^ 29 := ⟨_, rfl⟩
  have hg' : g < 2 ^ 23 := by omega
  obtain ⟨p, hp⟩ : ∃ p, p = (1 + k) * 2 ^ 23 + g := ⟨_, rfl⟩
  refine ⟨p, by omega, ?_⟩
  rw [gate_double hr hf hE, gate_single hp hg']
  exact gate_real (Nat.cast_nonneg f) (by positivity) (gate_int hg hm hd)

end Verif.Approx
