import Verif.Quad.Add

/-! # Subtraction of `long double` magnitudes -/

namespace Verif.Quad
open Verif.Float Verif.Int128 Verif.Math

/-- Rounding a sticky 128-bit significand to 113 bits at exponent `E`. -/
theorem round_pack {E S x d num den A B : Nat} (hE : 1 ≤ E) (hE' : E ≤ 0x7FFE) (h1 : 2 ^ 127 ≤ S) (h2 : S < 2 ^ 128)
    (hst : Sticky S x d) (hden : 0 < den) (hA : 0 < A) (hB : 0 < B)
    (h : num * A = den * x * B) (hAB : 2 ^ (E - 1) * A = 2 ^ 15 * d * B) :
    Nearest b128 num den (E * 2 ^ 112 + (S / 2 ^ 15 - 2 ^ 112) +
      if S % 2 ^ 15 > 2 ^ 14 ∨ (S % 2 ^ 15 = 2 ^ 14 ∧ S / 2 ^ 15 % 2 = 1) then 1 else 0) := by
  obtain ⟨ρ, hρ, hx, hc, he⟩ := Sticky.split hst (show 3 ≤ 15 by omega)
  have := nearest_normal (F := b128) (num := num) (den := den) (E := E) (M := S / 2 ^ 15) (K := 2 ^ 15 * d) (ρ := ρ) (a := A)
    (b := den * B) hden hA (Nat.mul_pos hden hB) (by decide) hE (by show E + 1 < 2 ^ 15; omega) (by show 2 ^ 112 ≤ _; omega)
    (by show _ < 2 ^ 113; omega) hρ (by rw [h, ← hx]; ac_rfl) (by rw [Nat.mul_assoc, hAB]; ac_rfl)
  refine this.of_eq ?_
  refine congrArg (E * 2 ^ 112 + (S / 2 ^ 15 - 2 ^ 112) + ·) ?_
  simp only [hc, he, gt_iff_lt, Nat.reduceSub]

/-- The subtrahend's lost bits folded into its last bit leave even thresholds in place. -/
theorem sub_sticky (A B D : Nat) (hD : 0 < D) (hBA : B < A * D) (hA : A % 2 = 0) {n : Nat} (hn : n % 2 = 0) :
    (n * D < A * D - B ↔ n < A - (B / D ||| bit (B % D ≠ 0))) ∧ (n * D = A * D - B ↔ n = A - (B / D ||| bit (B % D ≠ 0))) := by
  by_cases hle : n ≤ A
  · obtain ⟨k, rfl⟩ : ∃ k, A = n + k := ⟨A - n, by omega⟩
    obtain ⟨s1, s2⟩ := sticky_div B D hD (n := k) (by omega)
    obtain ⟨t1, t2⟩ := sticky_div B D hD (n := n + k) hA
    have ht : (B / D ||| bit (B % D ≠ 0)) ≤ n + k := by
      rcases Nat.lt_or_ge (n + k) (B / D ||| bit (B % D ≠ 0)) with h | h
      · have := t1.2 h; omega
      · exact h
    generalize (B / D ||| bit (B % D ≠ 0)) = t at *
    rw [Nat.add_mul] at *
    constructor
    · constructor
      · intro h
        have : ¬ k < t := fun c => by have := s1.2 c; omega
        have : ¬ k = t := fun c => by have := s2.2 c; omega
        omega
      · intro h
        have : ¬ k * D < B := fun c => by have := s1.1 c; omega
        have : ¬ k * D = B := fun c => by have := s2.1 c; omega
        omega
    · constructor
      · intro h
        have : k = t := s2.1 (by omega)
        omega
      · intro h
        have : k * D = B := s2.2 (by omega)
        omega
  · have := Nat.mul_lt_mul_of_pos_right (show A < n by omega) hD
    constructor <;> constructor <;> intro h <;> omega

theorem up_zero {N : Nat} (h : N % 2 ^ 15 = 0) : (if N % 2 ^ 15 > 2 ^ 14 ∨ (N % 2 ^ 15 = 2 ^ 14 ∧ N / 2 ^ 15 % 2 = 1) then 1 else 0) = 0 := by
  rw [h]; rfl

/-- Adding an exponent to the pattern of an integer. -/
theorem bits_eq (i E : Nat) (h0 : i ≠ 0) (h : i < 2 ^ 128) :
    ((floatuntitf i : Nat) : Int) + ((E : Int) - 0x407E) * 2 ^ 112 =
      ((E : Int) + Nat.log2 i - 127) * 2 ^ 112 + ((i * 2 ^ (127 - Nat.log2 i) / 2 ^ 15 - 2 ^ 112 : Nat) : Int) +
        ((if i * 2 ^ (127 - Nat.log2 i) % 2 ^ 15 > 2 ^ 14 ∨ (i * 2 ^ (127 - Nat.log2 i) % 2 ^ 15 = 2 ^ 14 ∧ i * 2 ^ (127 - Nat.log2 i) / 2 ^ 15 % 2 = 1) then 1 else 0 : Nat) : Int) := by
  rw [floatuntitf_eq i h0 h]
  unfold Int128.conv
  simp only
  have hb := both_eq (i * 2 ^ (127 - Nat.log2 i)) 14
  have e : both (i * 2 ^ (127 - Nat.log2 i)) (2 ^ (126 - b128.f)) (2 ^ (127 - b128.f) + 2 ^ (126 - b128.f) - 1) = _ := hb
  rw [e]
  show (((16383 + Nat.log2 i) * 2 ^ 112 + (i * 2 ^ (127 - Nat.log2 i) / 2 ^ 15 - 2 ^ 112) + _ : Nat) : Int) + _ = _
  rw [Int.natCast_add, Int.natCast_add, Int.natCast_mul, Int.natCast_add, Int.sub_mul, Int.sub_mul, Int.add_mul, Int.add_mul]
  generalize ((i * 2 ^ (127 - Nat.log2 i) / 2 ^ 15 - 2 ^ 112 : Nat) : Int) = p
  simp only [Nat.reduceAdd]
  generalize ((if i * 2 ^ (127 - Nat.log2 i) % 2 ^ 15 > 2 ^ 14 ∨ (i * 2 ^ (127 - Nat.log2 i) % 2 ^ 15 = 2 ^ 14 ∧ i * 2 ^ (127 - Nat.log2 i) / 2 ^ 15 % 2 = 1) then 1 else 0 : Nat) : Int) = q
  omega

/-- The significand moved to the top of the word. -/
theorem align (x : Nat) : x * 2 ^ 15 % 2 ^ 128 = x % 2 ^ 112 * 2 ^ 15 + x / 2 ^ 112 % 2 * 2 ^ 127 := by omega

theorem or_top {r c : Nat} (hr : r < 2 ^ 127) (hc : c ≤ 1) : (r + c * 2 ^ 127) ||| 2 ^ 127 = r + 2 ^ 127 := by
  rcases (show c = 0 ∨ c = 1 by omega) with rfl | rfl
  · rw [Nat.zero_mul, Nat.add_zero, or_sign _ _ hr, Nat.add_comm]
  · rw [Nat.one_mul, Nat.add_comm, ← or_sign _ _ hr, Nat.or_assoc, Nat.or_self]

theorem pow_eq {a b : Nat} (h : a = b) : 2 ^ a = 2 ^ b := by rw [h]

/-- The last steps of the subtraction: rounding, or an exact subnormal difference. -/
theorem sub_final {i E e s X l v r : Nat} (hE2 : 2 ≤ E) (hmax : E ≤ 0x7FFE) (he1 : 1 ≤ e) (hv : v = X * 2 ^ (e - 1)) (hEs : E = e + s)
    (hhi : i < 2 ^ (l + 1)) (hl : l < 128)
    (hst : Sticky (i * 2 ^ (127 - l)) (X * 2 ^ 15 * 2 ^ (127 - l)) (2 ^ s)) (hcase : i * 2 ^ s = X * 2 ^ 15 ∨ 126 ≤ l)
    (n1 : 2 ^ 127 ≤ i * 2 ^ (127 - l)) (n2 : i * 2 ^ (127 - l) < 2 ^ 128)
    (h : (let bits : Int := ((E : Int) + l - 127) * 2 ^ 112 + ((i * 2 ^ (127 - l) / 2 ^ 15 - 2 ^ 112 : Nat) : Int) +
        ((if i * 2 ^ (127 - l) % 2 ^ 15 > 2 ^ 14 ∨ (i * 2 ^ (127 - l) % 2 ^ 15 = 2 ^ 14 ∧ i * 2 ^ (127 - l) / 2 ^ 15 % 2 = 1) then 1 else 0 : Nat) : Int)
      if 2 ^ 112 ≤ bits then some (toU bits)
      else if E < 16 then shr i (16 - E)
      else shl i (E - 16)) = some r) : Nearest b128 v 1 r := by
  have hpe := Nat.two_pow_pos (e - 1)
  have hpl := Nat.two_pow_pos (127 - l)
  generalize hN : i * 2 ^ (127 - l) = N at h n1 n2 hst
  by_cases c3 : 127 < E + l
  · have := round_pack (E := E + l - 127) (S := N) (x := X * 2 ^ 15 * 2 ^ (127 - l)) (d := 2 ^ s) (num := v) (den := 1)
      (A := 2 ^ (15 + (127 - l))) (B := 2 ^ (e - 1)) (by omega) (by omega) n1 n2 hst (by omega) (Nat.two_pow_pos _) hpe
      (by rw [hv, Nat.one_mul, Nat.pow_add]; ac_rfl) (by
        rw [← Nat.pow_add, ← Nat.pow_add, ← Nat.pow_add]; exact pow_eq (by omega))
    refine this.of_eq ?_
    generalize hu : (if N % 2 ^ 15 > 2 ^ 14 ∨ (N % 2 ^ 15 = 2 ^ 14 ∧ N / 2 ^ 15 % 2 = 1) then 1 else 0 : Nat) = u at h ⊢
    have hu1 : u ≤ 1 := by rw [← hu]; split <;> omega
    obtain ⟨k, hk⟩ : ∃ k, E + l = 128 + k := ⟨E + l - 128, by omega⟩
    have e1 : ((E : Int) + l - 127) * 2 ^ 112 + ((N / 2 ^ 15 - 2 ^ 112 : Nat) : Int) + (u : Int) = (((k + 1) * 2 ^ 112 + (N / 2 ^ 15 - 2 ^ 112) + u : Nat) : Int) := by
      rw [show (E : Int) + l - 127 = ((k + 1 : Nat) : Int) by omega]
      simp only [Int.natCast_add, Int.natCast_mul]
      rfl
    simp only [e1] at h
    rw [if_pos (by omega), toU_nat _ (by omega)] at h
    rw [← Option.some.inj h]
    rw [show E + l - 127 = k + 1 by omega]
  · have hex : i * 2 ^ s = X * 2 ^ 15 := by
      rcases hcase with hc | hc
      · exact hc
      · omega
    have hiv : i * 2 ^ (E - 1) = v * 2 ^ 15 := by
      rw [hv, show E - 1 = s + (e - 1) by omega, Nat.pow_add, ← Nat.mul_assoc, hex]; ac_rfl
    have hN0 : N % 2 ^ 15 = 0 := by
      have hd : 2 ^ 15 ∣ N := by
        rw [← hN]
        rw [show 127 - l = (E - 1) + (128 - E - l) by omega, Nat.pow_add, ← Nat.mul_assoc, hiv]
        exact ⟨v * 2 ^ (128 - E - l), by ac_rfl⟩
      exact Nat.mod_eq_zero_of_dvd hd
    have hv112 : v < 2 ^ 112 := by
      apply Nat.lt_of_mul_lt_mul_right (a := 2 ^ 15)
      rw [← hiv, ← Nat.pow_add]
      refine Nat.lt_of_lt_of_le (Nat.mul_lt_mul_of_pos_right hhi (Nat.two_pow_pos _)) ?_
      rw [← Nat.pow_add]
      exact Nat.pow_le_pow_right (by omega) (by omega)
    simp only [up_zero hN0] at h
    obtain ⟨k, hk⟩ : ∃ k, E + l + k = 127 := ⟨127 - (E + l), by omega⟩
    rw [if_neg (by
      rw [show (E : Int) + l - 127 = -(k : Int) by omega, Int.neg_mul]
      have : (0 : Int) ≤ (k : Int) * 2 ^ 112 := Int.mul_nonneg (by omega) (by decide)
      omega)] at h
    have hrv : r = v := by
      unfold shr shl at h
      by_cases c4 : E < 16
      · rw [if_pos c4, if_pos (by omega)] at h
        rw [← Option.some.inj h]
        have : i = v * 2 ^ (16 - E) := by
          apply Nat.eq_of_mul_eq_mul_right (Nat.two_pow_pos (E - 1))
          rw [hiv, Nat.mul_assoc, ← Nat.pow_add]; congr 2; omega
        rw [this, Nat.mul_div_cancel _ (Nat.two_pow_pos _)]
      · rw [if_neg c4, if_pos (by omega)] at h
        rw [← Option.some.inj h]
        have : i * 2 ^ (E - 16) = v := by
          apply Nat.eq_of_mul_eq_mul_right (Nat.two_pow_pos 15)
          rw [← hiv, Nat.mul_assoc, ← Nat.pow_add]; congr 2; omega
        rw [this, Nat.mod_eq_of_lt (by omega)]
    rw [hrv]
    refine nearest_exact (by omega) (by rw [inf128]; omega) ?_
    rw [b128.mag_small hv112, Nat.one_mul]

/-- addtf3.c:34-53: the exact difference, rounded once, except next to a power of two that exceeds the subtrahend by 114 binades. -/
theorem subMagnitude_eq {sl : Nat → Nat → Option Nat} (hsl : Shifts sl) {a b r : Nat} (hba : b < a) (ha : a < b128.inf)
    (hgap : ¬ (expDiff a b = 114 ∧ a % 2 ^ 112 = 0 ∧ b / 2 ^ 112 ≠ 0 ∧ b % 2 ^ 112 ≠ 0))
    (h : subMagnitude sl a b = some r) : Nearest b128 (b128.mag a - b128.mag b) 1 r := by
  rw [inf128] at ha
  unfold subMagnitude at h
  simp only at h
  by_cases c1 : a < 2 * 2 ^ 112
  · rw [if_pos c1] at h
    rw [← Option.some.inj h]
    refine nearest_exact (by omega) (by rw [inf128]; omega) ?_
    rw [Fmt.mag_tiny (by show a ≤ 2 ^ 113; omega), Fmt.mag_tiny (by show b ≤ 2 ^ 113; omega), Fmt.mag_tiny (by show a - b ≤ 2 ^ 113; omega), Nat.one_mul]
  rw [if_neg c1] at h
  rw [expDiff_eq] at h hgap
  obtain ⟨m, E, hm, hE, hE1, hm2, hma, hm1⟩ := parts a
  obtain ⟨m', e, hm', he, he1, hm2', hmb, hm1'⟩ := parts b
  have hq : a / 2 ^ 112 ≠ 0 := by omega
  rw [if_neg hq] at hm hE
  have hm1 := hm1 hq
  rw [← he, ← hE] at h hgap
  have hE2 : 2 ≤ E := by omega
  have hle : e ≤ E := by
    have := Nat.div_le_div_right (c := 2 ^ 112) (Nat.le_of_lt hba)
    rw [he]; split <;> omega
  have haa : a * 2 ^ 15 % 2 ^ 128 ||| 2 ^ 127 = m * 2 ^ 15 := by
    rw [align, or_top (by omega) (by omega)]
    omega
  have hbb : b * 2 ^ 15 % 2 ^ 128 ||| bit (b / 2 ^ 112 ≠ 0) * 2 ^ 127 = m' * 2 ^ 15 := by
    rw [align]
    by_cases hz : b / 2 ^ 112 = 0
    · rw [if_pos hz] at hm'
      rw [bit_congr (q := False) (by simp [hz]), hz, hm']
      rw [show bit False = 0 from rfl, Nat.zero_mul, Nat.or_zero]
      generalize b % 2 ^ 112 = q
      rw [Nat.add_zero, Nat.add_zero]
    · rw [if_neg hz] at hm'
      rw [bit_congr (q := True) (by simp [hz]), show bit True = 1 from rfl, Nat.one_mul, or_top (by omega) (by omega), hm']
      omega
  rw [haa, hbb] at h
  generalize hs : E - e = s at h hgap
  have hEs : E = e + s := by omega
  have hmax : E ≤ 0x7FFE := by omega
  have hpe := Nat.two_pow_pos (e - 1)
  have hps := Nat.two_pow_pos s
  have hdiff : b128.mag a - b128.mag b = (m * 2 ^ s - m') * 2 ^ (e - 1) := by
    rw [hma, hmb, Nat.sub_mul, hEs, show e + s - 1 = s + (e - 1) by omega, Nat.pow_add, Nat.mul_assoc]
  have hlt : m' < m * 2 ^ s := by
    have := b128.mag_strictMono hba
    rw [hma, hmb, hEs, show e + s - 1 = s + (e - 1) by omega, Nat.pow_add, ← Nat.mul_assoc] at this
    exact Nat.lt_of_mul_lt_mul_right this
  by_cases c2 : 114 ≤ s
  · rw [if_pos c2] at h
    rw [← Option.some.inj h]
    have hsub : a = (a - 1) + 1 := by omega
    have hmag := b128.mag_succ (a - 1)
    rw [← hsub] at hmag
    rw [hsub]
    refine nearest_hi (by omega) (by rw [inf128]; omega) (by rw [← hsub]; omega) ?_
    rw [← hsub, Nat.one_mul, Nat.one_mul]
    have hb4 : b128.mag b < 2 ^ (113 + (e - 1)) := by
      rw [hmb, Nat.pow_add]; exact Nat.mul_lt_mul_of_pos_right hm2' hpe
    have hb4' := Nat.pow_le_pow_right (n := 2) (by omega) (show 113 + (e - 1) ≤ E - 2 by omega)
    have hE3 : 2 ^ (E - 1) = 2 * 2 ^ (E - 2) := by rw [← Nat.pow_succ']; congr 1; omega
    have hablo : b128.mag b < b128.mag a := b128.mag_strictMono hba
    by_cases hz : a % 2 ^ 112 = 0
    · have hulp : b128.ulp (a - 1) = 2 ^ (E - 2) := by
        unfold Fmt.ulp
        show 2 ^ ((a - 1) / 2 ^ 112 - 1) = _
        congr 1; omega
      rw [hulp] at hmag
      have hE4 : 2 ^ (E - 2) = 2 * 2 ^ (E - 3) := by rw [← Nat.pow_succ']; congr 1; omega
      by_cases hm4 : 2 ^ 112 < m'
      · have : s ≠ 114 := by
          intro hs4
          apply hgap
          refine ⟨hs4, hz, ?_, ?_⟩
          · intro c; rw [if_pos c] at hm'; omega
          · intro c
            by_cases hbz : b / 2 ^ 112 = 0
            · rw [if_pos hbz] at hm'; omega
            · rw [if_neg hbz] at hm'; omega
        have hb5 := Nat.pow_le_pow_right (n := 2) (by omega) (show 113 + (e - 1) ≤ E - 3 by omega)
        left
        omega
      · have hb5 : b128.mag b ≤ 2 ^ (112 + (e - 1)) := by
          rw [hmb, Nat.pow_add]; exact Nat.mul_le_mul_right _ (by omega)
        have hb6 := Nat.pow_le_pow_right (n := 2) (by omega) (show 112 + (e - 1) ≤ E - 3 by omega)
        rcases Nat.lt_or_ge (b128.mag b) (2 ^ (E - 3)) with hc | hc
        · left; omega
        · right
          refine ⟨by omega, by omega⟩
    · have hulp : b128.ulp (a - 1) = 2 ^ (E - 1) := by
        unfold Fmt.ulp
        show 2 ^ ((a - 1) / 2 ^ 112 - 1) = _
        congr 1; omega
      rw [hulp] at hmag
      left
      omega
  rw [if_neg c2] at h
  unfold shr at h
  rw [if_pos (by omega), Option.bind_some] at h
  cases hf : sl (m' * 2 ^ 15) (128 - s) with
  | none => rw [hf] at h; cases h
  | some rest =>
  have hfr := hsl _ _ _ hf
  rw [shifted_out _ _ (by omega)] at hfr
  rw [hf, Option.bind_some] at h
  have hrest : rest ≠ 0 ↔ m' * 2 ^ 15 % 2 ^ s ≠ 0 := by
    rw [hfr]
    have hp := Nat.two_pow_pos (128 - s)
    constructor
    · intro hh h0; rw [h0] at hh; simp at hh
    · intro hh h0
      rcases Nat.mul_eq_zero.1 h0 with h0 | h0 <;> omega
  rw [bit_congr hrest] at h
  have hBA : m' * 2 ^ 15 < m * 2 ^ 15 * 2 ^ s := by
    rw [Nat.mul_right_comm]; exact Nat.mul_lt_mul_of_pos_right hlt (by omega)
  have hss : ∀ n, n % 2 = 0 → _ := fun n hn => sub_sticky (m * 2 ^ 15) (m' * 2 ^ 15) (2 ^ s) hps hBA (by omega) (n := n) hn
  have hx : m * 2 ^ 15 * 2 ^ s - m' * 2 ^ 15 = (m * 2 ^ s - m') * 2 ^ 15 := by
    rw [Nat.sub_mul, Nat.mul_right_comm]
  rw [hx] at hss
  generalize htt : (m' * 2 ^ 15 / 2 ^ s ||| bit (m' * 2 ^ 15 % 2 ^ s ≠ 0)) = t at *
  have hipos : t < m * 2 ^ 15 := by
    have := (hss 0 rfl).1.1 (by rw [Nat.zero_mul]; exact Nat.mul_pos (by omega) (by omega))
    omega
  have hmod : (m * 2 ^ 15 + 2 ^ 128 - t) % 2 ^ 128 = m * 2 ^ 15 - t := by omega
  rw [hmod] at h
  generalize hi : m * 2 ^ 15 - t = i at h hss
  generalize hX : m * 2 ^ s - m' = X at hss hdiff
  have hi0 : i ≠ 0 := by omega
  have hi2 : i < 2 ^ 128 := by omega
  obtain ⟨n1, n2⟩ := norm_bounds i hi0 hi2
  have hl := log2_lt hi0 hi2
  rw [bits_eq i E hi0 hi2] at h
  -- either nothing is lost or there is little cancellation
  have hcase : (i * 2 ^ s = X * 2 ^ 15) ∨ 126 ≤ Nat.log2 i := by
    rcases Nat.lt_or_ge s 15 with hs15 | hs15
    · left
      have hd : 2 ^ s ∣ m' * 2 ^ 15 := Nat.dvd_trans (Nat.pow_dvd_pow 2 (by omega)) ⟨m', Nat.mul_comm _ _⟩
      have h0 := Nat.mod_eq_zero_of_dvd hd
      have ht : t * 2 ^ s = m' * 2 ^ 15 := by
        rw [← htt, h0, bit_congr (q := False) (by simp)]
        rw [show bit False = 0 from rfl, Nat.or_zero, Nat.div_mul_cancel hd]
      rw [← hi, Nat.sub_mul, ht, hx, hX]
    · right
      have hq : m' * 2 ^ 15 / 2 ^ s ≤ m' := by
        rw [Nat.div_le_iff_le_mul_add_pred hps]
        have := Nat.mul_le_mul_left m' (Nat.pow_le_pow_right (n := 2) (by omega) hs15)
        rw [Nat.mul_comm (2 ^ s)]
        omega
      have ht : t ≤ m' + 1 := by
        rw [← htt, or_bit]
        split <;> omega
      exact (Nat.le_log2 hi0).2 (by omega)
  have hsticky : Sticky (i * 2 ^ (127 - Nat.log2 i)) (X * 2 ^ 15 * 2 ^ (127 - Nat.log2 i)) (2 ^ s) := by
    intro n hn
    rcases hcase with hc | hc
    · rw [← hc, Nat.mul_right_comm]
      exact ⟨Nat.mul_lt_mul_right hps, Nat.mul_right_cancel_iff hps⟩
    · rcases (show Nat.log2 i = 127 ∨ Nat.log2 i = 126 by omega) with e | e
      · rw [e]
        show (n * 2 ^ s < X * 2 ^ 15 * 1 ↔ n < i * 1) ∧ (n * 2 ^ s = X * 2 ^ 15 * 1 ↔ n = i * 1)
        rw [Nat.mul_one, Nat.mul_one]
        exact hss n (by omega)
      · rw [e]
        show (n * 2 ^ s < X * 2 ^ 15 * 2 ↔ n < i * 2) ∧ (n * 2 ^ s = X * 2 ^ 15 * 2 ↔ n = i * 2)
        obtain ⟨k, rfl⟩ : ∃ k, n = k * 2 := ⟨n / 2, by omega⟩
        obtain ⟨k1, k2⟩ := hss k (by omega)
        rw [Nat.mul_right_comm]
        constructor
        · rw [Nat.mul_lt_mul_right (by omega), Nat.mul_lt_mul_right (by omega)]; exact k1
        · rw [Nat.mul_right_cancel_iff (by omega), Nat.mul_right_cancel_iff (by omega)]; exact k2
  have hlog := log2_bounds hi0
  exact sub_final hE2 hmax he1 hdiff hEs hlog.2 hl hsticky hcase n1 n2 h

end Verif.Quad
