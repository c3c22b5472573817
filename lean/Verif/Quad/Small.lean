import Verif.Quad.Ext
import Verif.Int128.FixLemmas

/-!
# Conversion of 32-bit integers to `long double`

`src/soft/float/{floatsitf,floatunsitf}.c`.
-/

namespace Verif.Quad

open Verif.Float Verif.Math

/-- `__floatunsitf`, src/soft/float/floatunsitf.c:4-12; the cast to `double` is an instruction. -/
def floatunsitf (a : Nat) : Nat :=
  if a = 0 then 0
  else (b64.ofInt a / 2 ^ 4 + 0x3C00000000000000) % 2 ^ 64 * 2 ^ 64

/-- `__floatsitf`, src/soft/float/floatsitf.c:5-14. The cast of `a` to `uint64_t` extends the sign. -/
def floatsitf (a : Int) : Nat :=
  if a = 0 then 0
  else
    let sign := u64 a &&& 0x8000000000000000
    let magnitude := (b64.abs (b64.ofInt a) / 2 ^ 4 + 0x3C00000000000000) % 2 ^ 64
    (sign ||| magnitude) * 2 ^ 64

/-- The `double` of a positive integer below 2^32. -/
theorem ofInt_small {m : Nat} (h0 : 0 < m) (h : m < 2 ^ 32) :
    ∃ n, b64.ofInt m = n ∧ 2 ^ 52 ≤ n ∧ n < b64.inf ∧ n % 2 ^ 4 = 0 ∧ b64.mag n = m * 2 ^ b64.unit := by
  obtain ⟨k, hk1, hk2⟩ : ∃ k, 2 ^ k ≤ m ∧ m < 2 ^ (k + 1) := ⟨m.log2, Nat.log2_self_le (by omega), Nat.lt_log2_self⟩
  have hk : k < 32 := by
    by_cases hc : k < 32
    · exact hc
    · have := Nat.pow_le_pow_right (n := 2) (by omega) (Nat.le_of_not_lt hc)
      omega
  obtain ⟨j, hj⟩ : ∃ j, j + k = 48 := ⟨48 - k, by omega⟩
  have s1 : 2 ^ 52 ≤ m * 2 ^ j * 2 ^ 4 := by
    have : 2 ^ 52 = 2 ^ k * 2 ^ j * 2 ^ 4 := by rw [← Nat.pow_add, ← Nat.pow_add]; congr 1; omega
    rw [this]
    exact Nat.mul_le_mul_right _ (Nat.mul_le_mul_right _ hk1)
  have s2 : m * 2 ^ j * 2 ^ 4 < 2 ^ 53 := by
    have : 2 ^ 53 = 2 ^ (k + 1) * 2 ^ j * 2 ^ 4 := by rw [← Nat.pow_add, ← Nat.pow_add]; congr 1; omega
    rw [this]
    exact Nat.mul_lt_mul_of_pos_right (Nat.mul_lt_mul_of_pos_right hk2 (Nat.two_pow_pos _)) (Nat.two_pow_pos _)
  have hm := b64.mag_mk (k + 1023) (m * 2 ^ j * 2 ^ 4) (by omega) s1 s2
  generalize hu : b64.unit = u
  have hu' : u = 1074 := by rw [← hu]; rfl
  have hm' : b64.mag ((k + 1023) * 2 ^ b64.f + (m * 2 ^ j * 2 ^ 4 - 2 ^ b64.f)) = m * 2 ^ u := by
    rw [hm, Nat.mul_assoc, Nat.mul_assoc, ← Nat.pow_add, ← Nat.pow_add]
    exact congrArg (m * ·) (pow_eq (by omega))
  have e : b64.f = 52 := rfl
  rw [e] at hm'
  have hi : b64.inf = 2047 * 2 ^ 52 := rfl
  refine ⟨(k + 1023) * 2 ^ 52 + (m * 2 ^ j * 2 ^ 4 - 2 ^ 52), ?_, by omega, by rw [hi]; omega, by omega, hm'⟩
  exact Int128.ofInt_pos (by rw [hi]; omega) (by rw [hu]; exact hm')

/-- The pattern built from it. -/
theorem small_pattern {m : Nat} (h0 : 0 < m) (h : m < 2 ^ 32) :
    ∃ q, (b64.ofInt m / 2 ^ 4 + 0x3C00000000000000) % 2 ^ 64 = q ∧ q < 2 ^ 63 ∧ Nearest b128 (m * 2 ^ b128.unit) 1 (q * 2 ^ 64) := by
  obtain ⟨n, h1, h2, h3, h4, h5⟩ := ofInt_small h0 h
  obtain ⟨g1, g2⟩ := ext_normal h2 h3
  have hi : b64.inf = 2047 * 2 ^ 52 := rfl
  rw [hi] at h3
  refine ⟨n / 2 ^ 4 + 0x3C00000000000000, by rw [h1]; omega, by omega, ?_⟩
  have e : (n / 2 ^ 4 + 0x3C00000000000000) * 2 ^ 64 = 0x3C * 2 ^ 120 + n * 2 ^ 60 := by omega
  rw [e]
  refine nearest_exact (by omega) (Nat.le_of_lt g1) ?_
  rw [h5] at g2
  generalize b64.unit = u at g2
  generalize b128.unit = v at g2 ⊢
  rw [Nat.one_mul]
  apply Nat.eq_of_mul_eq_mul_right (Nat.two_pow_pos u)
  rw [g2]
  ac_rfl

theorem floatunsitf_exact (a : Nat) (h : a < 2 ^ 32) : RoundsInt b128 a (floatunsitf a) := by
  have hnn : ¬ ((a : Int) < 0) := by omega
  unfold RoundsInt floatunsitf
  rw [if_neg hnn, Int.natAbs_natCast]
  by_cases h0 : a = 0
  · subst h0
    exact ⟨0, nearest_exact (by omega) (Nat.zero_le _) (by rw [Fmt.mag_zero]; simp), rfl⟩
  · obtain ⟨q, h1, h2, h3⟩ := small_pattern (by omega) h
    rw [if_neg h0, h1]
    exact ⟨_, h3, (Nat.zero_add _).symm⟩

theorem abs_ofInt (a : Int) (h : a.natAbs < 2 ^ 32) : b64.abs (b64.ofInt a) = b64.ofInt a.natAbs := by
  by_cases h0 : a = 0
  · subst h0
    have z : b64.ofInt 0 = 0 := by unfold Fmt.ofInt Fmt.rndInt Fmt.pack; simp
    show b64.abs (b64.ofInt 0) = b64.ofInt 0
    rw [z]
    rfl
  obtain ⟨n, h1, h2, h3, _⟩ := ofInt_small (m := a.natAbs) (by omega) h
  have e : b64.ofInt (a.natAbs : Int) = b64.rnd (a.natAbs * 2 ^ b64.unit) 1 := by
    unfold Fmt.ofInt Fmt.rndInt
    generalize b64.unit = u
    have hu : (0 : Int) < 2 ^ u := Int.pow_pos (by decide)
    have hp : (0 : Int) < (a.natAbs : Int) * 2 ^ u := Int.mul_pos (by omega) hu
    rw [if_neg (by omega), decide_eq_false (by omega), Int.natAbs_mul, Int.natAbs_pow, Int.natAbs_natCast]
    unfold Fmt.pack
    simp
  rw [h1] at e ⊢
  have e2 : b64.ofInt a = b64.pack (decide (a * 2 ^ b64.unit < 0)) n := by
    unfold Fmt.ofInt Fmt.rndInt
    rw [e]
    generalize b64.unit = u
    rw [if_neg (Int.mul_ne_zero h0 (by have : (0 : Int) < 2 ^ u := Int.pow_pos (by decide)
                                       omega)), Int.natAbs_mul, Int.natAbs_pow]
    rfl
  rw [e2]
  have hi : b64.inf = 2047 * 2 ^ 52 := rfl
  have hs : b64.signBit = 2 ^ 63 := rfl
  exact Fmt.abs_pack (by rw [hs]; rw [hi] at h3; omega)

theorem floatsitf_exact (a : Int) (h1 : -2 ^ 31 ≤ a) (h2 : a < 2 ^ 31) : RoundsInt b128 a (floatsitf a) := by
  unfold RoundsInt floatsitf
  by_cases h0 : a = 0
  · subst h0
    exact ⟨0, nearest_exact (by omega) (Nat.zero_le _) (by rw [Fmt.mag_zero]; simp), rfl⟩
  · obtain ⟨q, g1, g2, g3⟩ := small_pattern (m := a.natAbs) (by omega) (by omega)
    rw [if_neg h0]
    simp only
    rw [abs_ofInt a (by omega), g1]
    refine ⟨_, g3, ?_⟩
    have hs : u64 a &&& 0x8000000000000000 = if a < 0 then 2 ^ 63 else 0 := by
      have hx : ∀ x : Nat, x < 2 ^ 64 → x &&& 0x8000000000000000 = if 2 ^ 63 ≤ x then 2 ^ 63 else 0 := by
        intro x hx
        rw [show (0x8000000000000000 : Nat) = 2 ^ 63 from rfl, and_two_pow]
        by_cases hc : 2 ^ 63 ≤ x
        · rw [if_pos hc, if_pos (by omega)]
        · rw [if_neg hc, if_neg (by omega)]
      have hu : u64 a < 2 ^ 64 := by unfold u64; omega
      rw [hx _ hu]
      unfold u64
      split <;> split <;> omega
    rw [hs]
    have hb : b128.signBit = 2 ^ 127 := rfl
    rw [hb]
    split
    · rw [show (2 : Nat) ^ 63 ||| q = 2 ^ 63 * 1 ||| q by rw [Nat.mul_one], ← Nat.two_pow_add_eq_or_of_lt g2]
      omega
    · rw [Nat.zero_or]; omega

/-- A rounded integer that the format can represent is exact. -/
theorem exact_value {a : Int} {r : Nat} (h : a.natAbs < 2 ^ 33) (hr : RoundsInt b128 a r) :
    Spec.Pat b128 r ∧ Spec.value b128 r = a * 2 ^ b128.unit := by
  obtain ⟨n, h1, h2⟩ := Fmt.representable (F := b128) (m := a.natAbs) (e := b128.unit)
    (Nat.le_trans (Nat.le_of_lt h) (Nat.pow_le_pow_right (by omega) (by decide)))
    (by
      have hi : b128.mag b128.inf = 2 ^ (b128.f + 2 * b128.bias) := Fmt.mag_inf ok128
      rw [hi]
      have e : b128.f + 2 * b128.bias = 33 + (b128.unit + 16351) := rfl
      rw [e, Nat.pow_add]
      exact Nat.mul_le_mul (Nat.le_of_lt h) (Nat.pow_le_pow_right (by omega) (by omega)))
  obtain ⟨k, hk, e⟩ := hr
  have hk' : n = k := by
    have := rnd_eq (F := b128) (by omega) hk
    rw [← this, ← h2, rnd_mag h1]
  subst hk'
  have hp : r = b128.pack (decide (a < 0)) n := by
    rw [e]
    unfold Fmt.pack
    by_cases h : a < 0 <;> simp [h]
  have hlt : n < b128.signBit := Nat.lt_of_le_of_lt h1 (by decide +kernel)
  rw [hp]
  have hP : Spec.Pat b128 (b128.pack (decide (a < 0)) n) := Fmt.pack_lt hlt
  refine ⟨hP, ?_⟩
  rw [value_eq hP, Fmt.val_pack hlt, h2]
  generalize b128.unit = u
  by_cases h : a < 0
  · rw [decide_eq_true h]
    simp only [if_true]
    rw [Int.natCast_mul]
    have : ((a.natAbs : Nat) : Int) = -a := by omega
    rw [this]
    simp [Int.neg_mul]
  · rw [decide_eq_false h]
    have : ((a.natAbs : Nat) : Int) = a := by omega
    simp [this]

end Verif.Quad
