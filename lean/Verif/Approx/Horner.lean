import Verif.Approx.Model
import Verif.Approx.Ops

/-! # Evaluation of polynomials and scaling by powers of two -/

namespace Verif.Approx
open Verif.Float Verif.Hyp.Spec Verif.Approx.Spec
open Verif.Math.Spec (Pat absOf negative value)

/-- A polynomial, lowest coefficient first. -/
def poly (t : ℝ) : List ℝ → ℝ
  | [] => 0
  | c :: cs => poly t cs * t + c

theorem poly_abs {t T : ℝ} (h : |t| ≤ T) : (cs : List ℝ) → |poly t cs| ≤ poly T (cs.map abs)
  | [] => by simp [poly]
  | c :: cs => by
    have ih := poly_abs h cs
    simp only [poly, List.map_cons]
    refine (abs_add_le _ _).trans (add_le_add ?_ le_rfl)
    rw [abs_mul]
    exact mul_le_mul ih h (abs_nonneg _) ((abs_nonneg _).trans ih)

theorem poly_sub (t : ℝ) : (as bs : List ℝ) → as.length = bs.length → poly t as - poly t bs = poly t (List.zipWith (· - ·) as bs)
  | [], [], _ => by simp [poly]
  | a :: as, b :: bs, h => by
    have ih := poly_sub t as bs (by simpa using h)
    simp only [poly, List.zipWith_cons_cons]
    rw [← ih]; ring

/-- One step of Horner's scheme keeps the error. -/
theorem horner_step {p x c : Nat} {v : ℝ} (hp : Ap p v (8 / 2 ^ 53)) (hv : |v| ≤ 2) (hx : Fin b64 x) (ht : |R b64 x| ≤ 1 / 2)
    (hc : Fin b64 c) (hc1 : |R b64 c| ≤ 1) :
    Ap (b64.add (b64.mul p x) c) (v * R b64 x + R b64 c) (8 / 2 ^ 53) ∧ |v * R b64 x + R b64 c| ≤ 2 := by
  have hb : |v * R b64 x + R b64 c| ≤ 2 := by
    refine (abs_add_le _ _).trans ?_
    have : |v * R b64 x| ≤ 2 * (1 / 2) := by rw [abs_mul]; exact mul_le_mul hv ht (abs_nonneg _) (by norm_num)
    linarith
  have h1 := hp.mul (Ap.exact hx) hv ht (by norm_num)
  have h2 := h1.add (Ap.exact hc) hb (by norm_num)
  exact ⟨h2.mono (by norm_num), hb⟩

theorem horner_ap {x : Nat} (hx : Fin b64 x) (ht : |R b64 x| ≤ 1 / 2) : (cs : List Nat) → (∀ c ∈ cs, Fin b64 c) → (∀ c ∈ cs, |R b64 c| ≤ 1) → cs ≠ [] →
    Ap (horner x cs) (poly (R b64 x) (cs.map (R b64))) (8 / 2 ^ 53) ∧ |poly (R b64 x) (cs.map (R b64))| ≤ 2
  | [], _, _, h => absurd rfl h
  | [c], h1, h2, _ => by
    simp only [horner, List.map, poly, zero_mul, zero_add]
    exact ⟨(Ap.exact (h1 c (by simp))).mono (by norm_num), (h2 c (by simp)).trans (by norm_num)⟩
  | c :: d :: cs, h1, h2, _ => by
    obtain ⟨k1, k2⟩ := horner_ap hx ht (d :: cs) (fun c hc => h1 c (by simp [List.mem_cons.1 hc])) (fun c hc => h2 c (by simp [List.mem_cons.1 hc])) (by simp)
    exact horner_step k1 k2 hx ht (h1 c (by simp)) (h2 c (by simp))

theorem wideR {x : Nat} (hx : Fin b32 x) : Fin b64 (wide x) ∧ R b64 (wide x) = R b32 x ∧ Pat b64 (wide x) ∧ b64.neg (wide x) = b32.neg x :=
  wide_R hx

/-! ### Scaling -/

theorem mag_scale {F : Fmt} {y k : Nat} (h : 2 ^ F.f ≤ y) : F.mag (y + k * 2 ^ F.f) = F.mag y * 2 ^ k := by
  have hp := Nat.two_pow_pos F.f
  rw [F.mag_normal (by have := Nat.zero_le (k * 2 ^ F.f); omega), F.mag_normal h, Nat.add_mul_mod_self_right, Nat.add_mul_div_right _ _ hp]
  have : 1 ≤ y / 2 ^ F.f := (Nat.le_div_iff_mul_le hp).2 (by omega)
  rw [show y / 2 ^ F.f + k - 1 = y / 2 ^ F.f - 1 + k by omega, pow_add, Nat.mul_assoc]

theorem mag_scale64 {y k : Nat} (h : 2 ^ 52 ≤ y) : b64.mag (y + k * 2 ^ 52) = b64.mag y * 2 ^ k := mag_scale (F := b64) h

theorem mag_unit (k : Nat) : b64.mag ((1023 + k) * 2 ^ 52) = 2 ^ k * 2 ^ b64.unit := by
  have := Fmt.mag_pow (F := b64) (1023 + k) (by omega)
  rw [show b64.f + (1023 + k) - 1 = k + b64.unit by have : b64.f = 52 := rfl
                                                    have : b64.unit = 1074 := rfl
                                                    omega, pow_add] at this
  exact this

theorem mag_half : b64.mag (1022 * 2 ^ 52) * 2 = 2 ^ b64.unit := by
  have := Fmt.mag_pow (F := b64) 1022 (by omega)
  rw [show b64.f + 1022 - 1 = 1073 by rfl] at this
  rw [show b64.mag (1022 * 2 ^ 52) = 2 ^ 1073 from this, ← pow_succ]
  rfl

theorem pow_cast {u a b : Nat} (h : a * 2 ^ b = u) : (a : ℝ) * 2 ^ b = u := by exact_mod_cast h

/-- The pattern of a positive number not below one half and below `2^k`. -/
theorem pat_range {y k : Nat} (hp : Pat b64 y) (h1 : 1 / 2 ≤ R b64 y) (h2 : R b64 y < 2 ^ k) :
    b64.neg y = false ∧ b64.abs y = y ∧ 1022 * 2 ^ 52 ≤ y ∧ y < (1023 + k) * 2 ^ 52 ∧ R b64 y = b64.mag y / 2 ^ b64.unit := by
  have hu : (0 : ℝ) < 2 ^ b64.unit := by positivity
  have hn : b64.neg y = false := by
    cases e : b64.neg y
    · rfl
    · exfalso
      rw [R_signed, e] at h1
      have : (0 : ℝ) ≤ b64.mag (b64.abs y) / 2 ^ b64.unit := by positivity
      simp only [if_true] at h1
      linarith
  have ha : b64.abs y = y := by
    have := Fmt.pack_self hp
    rw [hn] at this
    simpa [Fmt.pack] using this
  have hR : R b64 y = b64.mag y / 2 ^ b64.unit := by rw [R_signed, hn, ha]; simp
  have hh := mag_half
  have hk := mag_unit k
  have hk' : (b64.mag ((1023 + k) * 2 ^ 52) : ℝ) = 2 ^ k * 2 ^ b64.unit := by rw [hk]; push_cast; rfl
  have hh' : (b64.mag (1022 * 2 ^ 52) : ℝ) * 2 = 2 ^ b64.unit := by exact_mod_cast hh
  rw [hR] at h1 h2
  rw [le_div_iff₀ hu] at h1
  rw [div_lt_iff₀ hu] at h2
  refine ⟨hn, ha, ?_, ?_, hR⟩
  · rw [← Fmt.mag_le_iff (F := b64)]
    have : (b64.mag (1022 * 2 ^ 52) : ℝ) ≤ b64.mag y := by linarith
    exact_mod_cast this
  · rw [← Fmt.mag_lt_iff (F := b64)]
    have : (b64.mag y : ℝ) < b64.mag ((1023 + k) * 2 ^ 52) := by linarith
    exact_mod_cast this

theorem R_small {y : Nat} (h : y < b64.inf) : Fin b64 y ∧ R b64 y = b64.mag y / 2 ^ b64.unit := by
  have := fin_pack (F := b64) (s := false) h
  have e : b64.pack false y = y := by simp [Fmt.pack]
  refine ⟨by rwa [e] at this, ?_⟩
  have := R_pack (F := b64) (s := false) h.le
  rw [e] at this
  rw [this]; simp

/-- Adding to the exponent of a number near one multiplies by a power of two. -/
theorem shift_R {y : Nat} {n : Int} (hp : Pat b64 y) (h1 : 1 / 2 ≤ R b64 y) (h2 : R b64 y < 4) (hn : -1000 ≤ n ∧ n < 1022) :
    ∃ z, shift y n = some z ∧ Fin b64 z ∧ R b64 z = R b64 y * 2 ^ n ∧ Pat b64 z := by
  obtain ⟨-, -, a3, a4, a5⟩ := pat_range (k := 2) hp h1 (by linarith)
  have hinf : b64.inf = 2047 * 2 ^ 52 := rfl
  have hsb : b64.signBit = 2 ^ 63 := rfl
  have hz : (0 : Int) ≤ (y : Int) + n * 2 ^ 52 ∧ (y : Int) + n * 2 ^ 52 < 2047 * 2 ^ 52 := by omega
  refine ⟨((y : Int) + n * 2 ^ 52).toNat, ?_, (R_small (by omega)).1, ?_, ?_⟩
  · have e1 : s64 y = y := by unfold s64; omega
    have e2 : s64 (u64 (n * 2 ^ 52)) = n * 2 ^ 52 := by unfold s64 u64; omega
    unfold shift
    rw [e1, e2]
    unfold chk64
    rw [if_pos (by unfold IsI64; omega), Option.map_some]
    congr 1
    unfold u64; omega
  · rw [(R_small (by omega)).2, a5]
    rcases Int.le_total 0 n with h | h
    · obtain ⟨k, rfl⟩ := Int.eq_ofNat_of_zero_le h
      rw [show Int.toNat ((y : Int) + (k : Int) * 2 ^ 52) = y + k * 2 ^ 52 by omega, mag_scale64 (by omega)]
      push_cast
      rw [zpow_natCast]; ring
    · obtain ⟨k, hk⟩ := Int.eq_ofNat_of_zero_le (show 0 ≤ -n by omega)
      obtain rfl : n = -(k : Int) := by omega
      have := mag_scale64 (y := ((y : Int) + -(k : Int) * 2 ^ 52).toNat) (k := k) (by omega)
      rw [show Int.toNat ((y : Int) + -(k : Int) * 2 ^ 52) + k * 2 ^ 52 = y by omega] at this
      rw [this]
      push_cast
      rw [zpow_neg, zpow_natCast]
      field_simp
  · unfold Pat; omega

/-- The conversion of an integral number. -/
theorem toInt_R {F : Fmt} {x : Nat} {n : Int} (hx : Fin F x) (hn : R F x = n) (hb : -2 ^ 62 ≤ n ∧ n ≤ 2 ^ 62) : toInt64 F x = some n := by
  unfold toInt64
  rw [if_pos (Fmt.isFin_iff.2 hx)]
  have hp : (0 : ℝ) < 2 ^ F.unit := by positivity
  have hP : (0 : Nat) < 2 ^ F.unit := Nat.two_pow_pos _
  have hm : F.mag (F.abs x) = n.natAbs * 2 ^ F.unit := by
    have := abs_R (F := F) x
    rw [hn, eq_div_iff hp.ne', ← Int.cast_abs] at this
    have e : ((n.natAbs * 2 ^ F.unit : Nat) : ℝ) = F.mag (F.abs x) := by rw [← this]; push_cast; rw [Nat.cast_natAbs, Int.cast_abs]
    exact_mod_cast e.symm
  have hw : F.whole x = n.natAbs := by unfold Fmt.whole; rw [hm, Nat.mul_div_cancel _ hP]
  rw [hw]
  have e : (if F.neg x then -(n.natAbs : Int) else n.natAbs) = n := by
    rw [R_signed, hm] at hn
    push_cast at hn
    rw [mul_div_assoc, div_self hp.ne', mul_one] at hn
    cases e : F.neg x
    · rw [e] at hn; simp at hn ⊢
      exact_mod_cast hn
    · rw [e] at hn; simp at hn ⊢
      have : -|n| = n := by exact_mod_cast hn
      exact this
  rw [e]
  unfold chk64
  rw [if_pos (by unfold IsI64; omega)]

end Verif.Approx
