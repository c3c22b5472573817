import Verif.Math.Expo
import Verif.Quad.Model

/-! # Rounding a significand with a sticky bit -/

namespace Verif.Float

/-- Rounding when the exact value is `(M * K + ρ) / K` steps of the pattern `n`. -/
theorem nearest_core {F : Fmt} {num den n M K ρ a b : Nat} (hd : 0 < den) (ha : 0 < a) (hb : 0 < b) (hn : n + 1 ≤ F.inf)
    (hnum : num * a = (M * K + ρ) * b) (h0 : den * F.mag n * a = M * K * b)
    (h1 : den * F.mag (n + 1) * a = (M + 1) * K * b) (hρ : ρ < K) (hpar : n % 2 = M % 2) :
    Nearest F num den (n + if K < 2 * ρ ∨ (K = 2 * ρ ∧ M % 2 = 1) then 1 else 0) := by
  have lo : den * F.mag n ≤ num := by
    apply Nat.le_of_mul_le_mul_right (c := a) _ ha
    rw [hnum, h0]; exact Nat.mul_le_mul_right _ (by omega)
  have hi : num ≤ den * F.mag (n + 1) := by
    apply Nat.le_of_mul_le_mul_right (c := a) _ ha
    rw [hnum, h1]; exact Nat.mul_le_mul_right _ (by rw [Nat.add_mul]; omega)
  have hs : (den * F.mag n + den * F.mag (n + 1)) * a = (2 * (M * K) + K) * b := by
    rw [Nat.add_mul, h0, h1, ← Nat.add_mul]; congr 1; rw [Nat.add_mul]; omega
  have ht : 2 * num * a = (2 * (M * K) + 2 * ρ) * b := by
    rw [Nat.mul_assoc, hnum, ← Nat.mul_assoc]; congr 1; omega
  have cmp_lt : K < 2 * ρ → den * F.mag n + den * F.mag (n + 1) < 2 * num := by
    intro h
    apply Nat.lt_of_mul_lt_mul_right (a := a)
    rw [hs, ht]; exact Nat.mul_lt_mul_of_pos_right (by omega) hb
  have cmp_gt : 2 * ρ < K → 2 * num < den * F.mag n + den * F.mag (n + 1) := by
    intro h
    apply Nat.lt_of_mul_lt_mul_right (a := a)
    rw [hs, ht]; exact Nat.mul_lt_mul_of_pos_right (by omega) hb
  have cmp_eq : K = 2 * ρ → 2 * num = den * F.mag n + den * F.mag (n + 1) := by
    intro h
    apply Nat.eq_of_mul_eq_mul_right ha
    rw [hs, ht, ← h]
  by_cases hc : K < 2 * ρ ∨ (K = 2 * ρ ∧ M % 2 = 1)
  · rw [if_pos hc]
    refine nearest_hi hd hn hi ?_
    rcases hc with hc | hc
    · exact .inl (cmp_lt hc)
    · exact .inr ⟨cmp_eq hc.1, by omega⟩
  · rw [if_neg hc, Nat.add_zero]
    refine nearest_lo hn lo ?_
    rcases Nat.lt_trichotomy K (2 * ρ) with h | h | h
    · exact absurd (.inl h) hc
    · exact .inr ⟨cmp_eq h, by omega⟩
    · exact .inl (cmp_gt h)

theorem Nearest.of_eq {F : Fmt} {num den r s : Nat} (h : Nearest F num den r) (e : r = s) : Nearest F num den s := e ▸ h

/-- `Nearest` depends on the ratio only. -/
theorem Nearest.congr {F : Fmt} {num den num' den' r : Nat} (hd : 0 < den) (hd' : 0 < den') (h : num * den' = num' * den)
    (hr : Nearest F num den r) : Nearest F num' den' r := by
  have := rnd_eq hd hr
  rw [rnd_congr hd hd' h] at this
  rw [← this]
  exact rnd_nearest _ _ hd'

/-- Rounding the value `m * 2^k / 2^s`-like: the pattern with exponent `E` and significand `M`. -/
theorem nearest_normal {F : Fmt} {num den E M K ρ a b : Nat} (hd : 0 < den) (ha : 0 < a) (hb : 0 < b) (hf : 1 ≤ F.f)
    (hE : 1 ≤ E) (hE' : E + 1 < 2 ^ F.w) (hM1 : 2 ^ F.f ≤ M) (hM2 : M < 2 ^ (F.f + 1)) (hρ : ρ < K)
    (hnum : num * a = (M * K + ρ) * b) (hab : den * 2 ^ (E - 1) * a = K * b) :
    Nearest F num den (E * 2 ^ F.f + (M - 2 ^ F.f) + if K < 2 * ρ ∨ (K = 2 * ρ ∧ M % 2 = 1) then 1 else 0) := by
  have hp := Nat.two_pow_pos F.f
  rw [Nat.pow_succ] at hM2
  have hmag := F.mag_mk E M hE hM1 (by rw [Nat.pow_succ]; exact hM2)
  have hfrac : M - 2 ^ F.f < 2 ^ F.f := by omega
  have hulp : F.ulp (E * 2 ^ F.f + (M - 2 ^ F.f)) = 2 ^ (E - 1) := by
    unfold Fmt.ulp
    rw [Nat.mul_comm E, Nat.mul_add_div hp, Nat.div_eq_of_lt hfrac]
    simp
  refine nearest_core hd ha hb ?_ hnum ?_ ?_ hρ ?_
  · unfold Fmt.inf
    have : (E + 1) * 2 ^ F.f ≤ (2 ^ F.w - 1) * 2 ^ F.f := Nat.mul_le_mul_right _ (by omega)
    rw [Nat.add_mul] at this
    omega
  · rw [hmag, Nat.mul_left_comm, Nat.mul_assoc, hab, Nat.mul_assoc]
  · rw [F.mag_succ, hmag, hulp, ← Nat.succ_mul, Nat.mul_left_comm, Nat.mul_assoc, hab, Nat.mul_assoc]
  · have hev : 2 ^ F.f % 2 = 0 := by
      rw [show F.f = (F.f - 1) + 1 by omega, Nat.pow_succ]; omega
    have hev2 : E * 2 ^ F.f % 2 = 0 := by rw [Nat.mul_mod, hev]; simp
    omega

/-- Rounding to a subnormal pattern `M`. -/
theorem nearest_subnormal {F : Fmt} {num den M K ρ a b : Nat} (hd : 0 < den) (ha : 0 < a) (hb : 0 < b)
    (hw : 2 ≤ 2 ^ F.w) (hM : M < 2 ^ F.f) (hρ : ρ < K)
    (hnum : num * a = (M * K + ρ) * b) (hab : den * a = K * b) :
    Nearest F num den (M + if K < 2 * ρ ∨ (K = 2 * ρ ∧ M % 2 = 1) then 1 else 0) := by
  have hulp : F.ulp M = 1 := by unfold Fmt.ulp; rw [Nat.div_eq_of_lt hM]
  refine nearest_core hd ha hb ?_ hnum ?_ ?_ hρ rfl
  · unfold Fmt.inf
    have : 1 * 2 ^ F.f ≤ (2 ^ F.w - 1) * 2 ^ F.f := Nat.mul_le_mul_right _ (by omega)
    omega
  · rw [F.mag_small hM, Nat.mul_right_comm, hab, Nat.mul_right_comm, Nat.mul_comm K]
  · rw [F.mag_succ, hulp, F.mag_small hM, Nat.mul_right_comm, hab, Nat.mul_right_comm, Nat.mul_comm K]

/-- `x` is the significand `S` with sticky last bits, over `d`: no multiple of four separates them. -/
def Sticky (S x d : Nat) : Prop := ∀ n, n % 4 = 0 → (n * d < x ↔ n < S) ∧ (n * d = x ↔ n = S)

theorem Sticky.le {S x d n : Nat} (h : Sticky S x d) (hn : n % 4 = 0) (hS : n ≤ S) : n * d ≤ x := by
  obtain ⟨h1, h2⟩ := h n hn
  rcases Nat.lt_or_eq_of_le hS with e | e
  · have := h1.2 e; omega
  · have := h2.2 e; omega

theorem Sticky.lt {S x d n : Nat} (h : Sticky S x d) (hn : n % 4 = 0) (hS : S < n) : x < n * d := by
  obtain ⟨h1, h2⟩ := h n hn
  have e1 : ¬ n * d < x := fun e => by have := h1.1 e; omega
  have e2 : ¬ n * d = x := fun e => by have := h2.1 e; omega
  omega

/-- Splitting off `k ≥ 3` bits of a sticky significand. -/
theorem Sticky.split {S x d k : Nat} (h : Sticky S x d) (hk : 3 ≤ k) :
    ∃ ρ, ρ < 2 ^ k * d ∧ x = S / 2 ^ k * (2 ^ k * d) + ρ ∧
      (2 ^ k * d < 2 * ρ ↔ 2 ^ (k - 1) < S % 2 ^ k) ∧ (2 ^ k * d = 2 * ρ ↔ S % 2 ^ k = 2 ^ (k - 1)) := by
  have hk2 : 2 ^ k = 2 * 2 ^ (k - 1) := by rw [← Nat.pow_succ']; congr 1; omega
  have hk1 : 2 ^ (k - 1) = 4 * 2 ^ (k - 3) := by
    rw [show k - 1 = (k - 3) + 2 by omega, Nat.pow_add]; omega
  have hdm := Nat.div_add_mod S (2 ^ k)
  have hmod := Nat.mod_lt S (Nat.two_pow_pos k)
  generalize hq : S / 2 ^ k = q at *
  generalize hR : S % 2 ^ k = R at *
  rw [hk2] at hdm hmod ⊢
  generalize hH : 2 ^ (k - 1) = H at *
  generalize 2 ^ (k - 3) = P at *
  have f0 : (2 * H * q) % 4 = 0 := by rw [hk1, Nat.mul_comm 2, Nat.mul_assoc, Nat.mul_assoc]; omega
  have f1 : (2 * H * q + H) % 4 = 0 := by omega
  have f2 : (2 * H * q + 2 * H) % 4 = 0 := by omega
  have l0 := h.le f0 (by omega)
  have l2 := h.lt f2 (by omega)
  obtain ⟨m1, m2⟩ := h _ f1
  have e0 : 2 * H * q * d = q * (2 * H * d) := by ac_rfl
  have e1 : 2 * H * d = 2 * (H * d) := by ac_rfl
  rw [Nat.add_mul, e0, e1] at m1 m2 l2
  rw [e0, e1] at l0
  rw [e1]
  refine ⟨x - q * (2 * (H * d)), by omega, by omega, ?_, ?_⟩
  · constructor
    · intro h'
      have := m1.1 (by omega)
      omega
    · intro h'
      have := m1.2 (by omega)
      omega
  · constructor
    · intro h'
      have := m2.1 (by omega)
      omega
    · intro h'
      have := m2.2 (by omega)
      omega

end Verif.Float

namespace Verif.Quad
open Verif.Float

theorem or_one (h : Nat) : h ||| 1 = h / 2 * 2 + 1 := by
  have := mul_or (h / 2) 1 1 (by omega)
  rcases Nat.mod_two_eq_zero_or_one h with e | e
  · rw [← this]; congr 1; omega
  · have e2 : h = h / 2 * 2 + 1 := by omega
    rw [Nat.pow_one] at this
    calc h ||| 1 = (h / 2 * 2 ||| 1) ||| 1 := by rw [this]; congr 1
      _ = h / 2 * 2 ||| 1 := by rw [Nat.or_assoc, Nat.or_self]
      _ = _ := this

theorem or_bit (h : Nat) (p : Prop) [Decidable p] : h ||| bit p = if p then h / 2 * 2 + 1 else h := by
  unfold bit
  split
  · exact or_one h
  · simp

theorem or_mod_two (h b : Nat) : h ||| b % 2 = if b % 2 = 1 then h / 2 * 2 + 1 else h := by
  split
  · next h' => rw [h']; exact or_one h
  · rw [show b % 2 = 0 by omega]; simp

/-- The test of a 128-bit remainder against one half, in two words. -/
theorem half_test (r : Nat) (c : Prop) [Decidable c] (h : r < 2 ^ 128) :
    0x8000000000000000 < (r / 2 ^ 64 ||| bit (c ∨ r % 2 ^ 64 ≠ 0)) ↔ 2 ^ 127 < r ∨ (r = 2 ^ 127 ∧ c) := by
  rw [or_bit]
  split
  · next hc => 
    constructor
    · intro h'
      by_cases hr : 2 ^ 127 < r
      · exact .inl hr
      · refine .inr ⟨by omega, ?_⟩
        rcases hc with hc | hc
        · exact hc
        · omega
    · rintro (h' | h') <;> omega
  · next hc =>
    constructor
    · intro h'; omega
    · rintro (h' | h')
      · have : r % 2 ^ 64 = 0 := by omega
        omega
      · exact absurd (.inl h'.2) hc

theorem bit_congr {p q : Prop} [Decidable p] [Decidable q] (h : p ↔ q) : bit p = bit q := by
  unfold bit
  by_cases hp : p
  · rw [if_pos hp, if_pos (h.1 hp)]
  · rw [if_neg hp, if_neg (fun hq => hp (h.2 hq))]

theorem bounds_of_sticky {S x d : Nat} (hst : Sticky S x d) (h1 : 2 ^ 127 ≤ S) (h2 : S < 2 ^ 128) :
    2 ^ 127 * d ≤ x ∧ x < 2 ^ 128 * d := ⟨hst.le (by decide) h1, hst.lt (by decide) h2⟩

/-- The quotient by `D` with the remainder folded into the last bit. -/
theorem sticky_div (P D : Nat) (hD : 0 < D) {n : Nat} (hn : n % 2 = 0) :
    (n * D < P ↔ n < (P / D ||| bit (P % D ≠ 0))) ∧ (n * D = P ↔ n = (P / D ||| bit (P % D ≠ 0))) := by
  have hdm := Nat.div_add_mod P D
  have hmod := Nat.mod_lt P hD
  rw [or_bit]
  generalize P / D = q at *
  generalize P % D = r at *
  rw [Nat.mul_comm D] at hdm
  rcases Nat.lt_trichotomy n q with h | h | h
  · have := Nat.mul_le_mul_right D (show n + 1 ≤ q by omega)
    rw [Nat.add_mul] at this
    split <;> constructor <;> omega
  · subst h
    split <;> constructor <;> omega
  · have := Nat.mul_le_mul_right D (show q + 1 ≤ n by omega)
    rw [Nat.add_mul] at this
    split <;> constructor <;> omega

theorem sticky_or (P D : Nat) (hD : 0 < D) : Sticky (P / D ||| bit (P % D ≠ 0)) P D :=
  fun _ hn => sticky_div P D hD (by omega)

theorem sticky_or_two (P D : Nat) (hD : 0 < D) : Sticky (2 * (P / (2 * D) ||| bit (P % (2 * D) ≠ 0))) P D := by
  intro n hn
  obtain ⟨n', rfl⟩ : ∃ n', n = 2 * n' := ⟨n / 2, by omega⟩
  obtain ⟨h1, h2⟩ := sticky_div P (2 * D) (by omega) (n := n') (by omega)
  rw [show 2 * n' * D = n' * (2 * D) by ac_rfl, h1, h2]
  constructor <;> omega

theorem pow_le_split (A B t d : Nat) (h : A ≤ B + t) : 2 ^ A * d ≤ 2 ^ B * d * 2 ^ t := by
  rw [Nat.mul_right_comm, ← Nat.pow_add]
  exact Nat.mul_le_mul_right _ (Nat.pow_le_pow_right (by omega) h)

/-- compose/product.h rounds a sticky significand once: the exact value is `x / d * 2^(exp - 16)` units. -/
theorem compose_nearest {exp : Int} {S x d num den : Nat} (h1 : 2 ^ 127 ≤ S) (h2 : S < 2 ^ 128) (hd : 0 < d)
    (hst : Sticky S x d) (hden : 0 < den)
    (h : num * (d * 2 ^ (16 - exp).toNat) = den * x * 2 ^ (exp - 16).toNat) :
    ∃ r, composeProduct exp S = some r ∧ Nearest b128 num den r := by
  obtain ⟨b1, b2⟩ := bounds_of_sticky hst h1 h2
  have hf : b128.f = 112 := rfl
  have hw : b128.w = 15 := rfl
  have ha : 0 < d * 2 ^ (16 - exp).toNat := Nat.mul_pos hd (Nat.two_pow_pos _)
  have hb : 0 < den * 2 ^ (exp - 16).toNat := Nat.mul_pos hden (Nat.two_pow_pos _)
  unfold composeProduct
  by_cases c1 : 0x7FFF ≤ exp
  · rw [if_pos c1]
    refine ⟨_, rfl, ?_⟩
    have hi : b128.inf = 0x7FFF * 2 ^ 112 := by decide
    rw [← hi]
    refine nearest_inf hden ?_
    rw [show (16 - exp).toNat = 0 by omega, Nat.pow_zero, Nat.mul_one] at h
    apply Nat.le_of_mul_le_mul_right (c := d) _ hd
    rw [h, Nat.mul_assoc, Nat.mul_assoc]
    apply Nat.mul_le_mul_left
    obtain ⟨K, hK, hK'⟩ : ∃ K, b128.mag b128.inf = 2 ^ K ∧ K = 32878 := ⟨_, Fmt.mag_inf ok128, rfl⟩
    rw [hK]
    exact Nat.le_trans (pow_le_split _ _ _ _ (by omega)) (Nat.mul_le_mul_right _ b1)
  rw [if_neg c1]
  by_cases c2 : 0 < exp
  · rw [if_pos c2]
    obtain ⟨ρ, hρ, hx, hc, he⟩ := Sticky.split hst (show 3 ≤ 15 by omega)
    have hM1 : 2 ^ 112 ≤ S / 2 ^ 15 := by omega
    have hM2 : S / 2 ^ 15 < 2 ^ 113 := by omega
    have hdm := Nat.div_add_mod S (2 ^ 15)
    refine ⟨_, rfl, ?_⟩
    have := nearest_normal (F := b128) (num := num) (den := den) (E := exp.toNat) (M := S / 2 ^ 15) (K := 2 ^ 15 * d) (ρ := ρ) (a := d * 2 ^ (16 - exp).toNat)
      (b := den * 2 ^ (exp - 16).toNat) hden ha hb (by rw [hf]; omega) (by omega) (by rw [hw]; omega) (by rw [hf]; exact hM1) (by rw [hf]; exact hM2) hρ
      (by rw [h, ← hx]; ac_rfl) (by
        have : 2 ^ (exp.toNat - 1) * 2 ^ (16 - exp).toNat = 2 ^ 15 * 2 ^ (exp - 16).toNat := by
          rw [← Nat.pow_add, ← Nat.pow_add]; congr 1; omega
        calc den * 2 ^ (exp.toNat - 1) * (d * 2 ^ (16 - exp).toNat) = den * d * (2 ^ (exp.toNat - 1) * 2 ^ (16 - exp).toNat) := by ac_rfl
          _ = _ := by rw [this]; ac_rfl)
    rw [hf] at this
    refine this.of_eq ?_
    have t1 : S * 2 % 2 ^ 128 / 2 ^ 16 = S / 2 ^ 15 - 2 ^ 112 := by omega
    have t2 : S * 2 % 2 ^ 128 % 2 ^ 16 = 2 * (S % 2 ^ 15) := by omega
    rw [t1, t2, mul_or _ _ _ (by omega), or_mod_two]
    refine congrArg (exp.toNat * 2 ^ 112 + (S / 2 ^ 15 - 2 ^ 112) + ·) ?_
    unfold bit
    have hpar : (S / 2 ^ 15 - 2 ^ 112) % 2 = S / 2 ^ 15 % 2 := by omega
    rw [hpar]
    have hmod := Nat.mod_lt S (Nat.two_pow_pos 15)
    by_cases hcond : 2 ^ 15 * d < 2 * ρ ∨ 2 ^ 15 * d = 2 * ρ ∧ S / 2 ^ 15 % 2 = 1
    · rw [if_pos hcond, if_pos]
      rw [hc, he] at hcond
      simp only [Nat.reducePow, Nat.reduceSub] at hcond ⊢
      split <;> omega
    · rw [if_neg hcond, if_neg]
      rw [hc, he] at hcond
      simp only [Nat.reducePow, Nat.reduceSub] at hcond ⊢
      split <;> omega
  rw [if_neg c2]
  by_cases c3 : -112 ≤ exp
  · rw [if_pos c3]
    obtain ⟨k, hk⟩ : ∃ k : Nat, (k : Int) = 16 - exp := ⟨(16 - exp).toNat, by omega⟩
    have k1 : (-exp).toNat = k - 16 := by omega
    have k2 : (112 + exp).toNat = 128 - k := by omega
    have k3 : (16 - exp).toNat = k := by omega
    have k4 : (exp - 16).toNat = 0 := by omega
    rw [k1, k2]
    unfold shr shl
    rw [if_pos (by omega), if_pos (by omega), Option.bind_some, Option.bind_some]
    refine ⟨_, rfl, ?_⟩
    rw [k3, k4] at h
    rw [k3] at ha
    rw [k4] at hb
    obtain ⟨ρ, hρ, hx, hc, he⟩ := Sticky.split hst (show 3 ≤ k by omega)
    have hq : S / 2 ^ 16 / 2 ^ (k - 16) = S / 2 ^ k := by
      rw [Nat.div_div_eq_div_mul, ← Nat.pow_add]; congr 2; omega
    have hM : S / 2 ^ k < 2 ^ 112 := by
      rw [Nat.div_lt_iff_lt_mul (Nat.two_pow_pos _), ← Nat.pow_add]
      exact Nat.lt_of_lt_of_le h2 (Nat.pow_le_pow_right (by omega) (by omega))
    have hr : S * 2 ^ (128 - k) % 2 ^ 128 = S % 2 ^ k * 2 ^ (128 - k) := by
      have := Nat.mul_mod_mul_right (2 ^ (128 - k)) S (2 ^ k)
      rw [← Nat.pow_add, show k + (128 - k) = 128 by omega] at this
      exact this
    have := nearest_subnormal (F := b128) (num := num) (den := den) (M := S / 2 ^ k) (K := 2 ^ k * d) (ρ := ρ) (a := d * 2 ^ k)
      (b := den * 2 ^ 0) hden ha hb (by decide) hM hρ (by rw [h, ← hx]; ac_rfl) (by rw [Nat.pow_zero]; ac_rfl)
    refine this.of_eq ?_
    rw [hq]
    congr 1
    rw [bit_congr (half_test _ _ (Nat.mod_lt _ (by omega)))]
    unfold bit
    rw [hr]
    have hsp : 2 ^ 127 = 2 ^ (k - 1) * 2 ^ (128 - k) := by rw [← Nat.pow_add]; congr 1; omega
    have hp := Nat.two_pow_pos (128 - k)
    rw [hsp]
    have i1 : 2 ^ (k - 1) * 2 ^ (128 - k) < S % 2 ^ k * 2 ^ (128 - k) ↔ 2 ^ (k - 1) < S % 2 ^ k := Nat.mul_lt_mul_right hp
    have i2 : S % 2 ^ k * 2 ^ (128 - k) = 2 ^ (k - 1) * 2 ^ (128 - k) ↔ S % 2 ^ k = 2 ^ (k - 1) := Nat.mul_right_cancel_iff hp
    have i3 : S / 2 ^ k % 2 ≠ 0 ↔ S / 2 ^ k % 2 = 1 := by omega
    simp only [hc, he, i1, i2, i3]
  · rw [if_neg c3]
    refine ⟨0, rfl, ?_⟩
    have := rnd_tiny ok128 (num := num) (den := den) hden ?_
    · rw [← this]; exact rnd_nearest _ _ hden
    rw [show (exp - 16).toNat = 0 by omega, Nat.pow_zero, Nat.mul_one] at h
    apply Nat.le_of_mul_le_mul_right (c := d * 2 ^ (16 - exp).toNat) _ ha
    rw [Nat.mul_assoc, h]
    have hp := Nat.pow_le_pow_right (n := 2) (by omega) (show 129 ≤ (16 - exp).toNat by omega)
    calc 2 * (den * x) = den * (2 * x) := by ac_rfl
      _ ≤ den * (d * 2 ^ 129) := Nat.mul_le_mul_left _ (by omega)
      _ ≤ _ := Nat.mul_le_mul_left _ (Nat.mul_le_mul_left _ hp)

end Verif.Quad
