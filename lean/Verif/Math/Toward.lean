import Verif.Math.Step

/-! # `nexttoward` and `scalbnf` -/

namespace Verif.Math
open Verif.Float
variable {L : Lit}

theorem abs_zero (F : Fmt) : F.abs 0 = 0 := Fmt.abs_of_lt Fmt.signBit_pos
theorem val_zero (F : Fmt) : F.val 0 = 0 := by rw [Fmt.val_of_lt Fmt.signBit_pos, F.mag_zero]; rfl

theorem idx_pos_neg (F : Fmt) (x : Nat) (h : 0 < F.abs x) : (F.neg x = false ↔ F.val 0 < F.val x) ∧ (F.neg x = true ↔ F.val x < F.val 0) := by
  rw [val_zero]
  unfold Fmt.val
  have := Fmt.mag_pos (F := F) h
  cases F.neg x <;> simp <;> omega

/-- The first argument of `nexttoward` converted to `long double`. -/
theorem conv_wide (g : L.Good) (hf : L.fmt.f ≤ b128.f) (hb : L.fmt.bias ≤ b128.bias) {x : Nat} (hxi : L.fmt.abs x ≤ L.fmt.inf) :
    ∃ n, L.fmt.conv b128 x = b128.pack (L.fmt.neg x) n ∧ n ≤ b128.inf ∧ (L.fmt.abs x = L.fmt.inf → n = b128.inf) ∧
      (L.fmt.abs x < L.fmt.inf → n < b128.inf ∧ b128.mag n = L.fmt.mag (L.fmt.abs x) * 2 ^ (b128.unit - L.fmt.unit)) := by
  rcases Nat.lt_or_ge (L.fmt.abs x) L.fmt.inf with h | h
  · obtain ⟨n, h1, h2, h3⟩ := Fmt.conv_exact g.ok ok128 hf hb h
    exact ⟨n, h1, by omega, by omega, fun _ => ⟨h2, h3⟩⟩
  · exact ⟨b128.inf, Fmt.conv_inf (by omega), Nat.le_refl _, fun _ => rfl, by omega⟩

theorem neg_conv {F G : Fmt} {y : Nat} (h : F.abs y ≤ F.inf) : F.conv G y < 2 * G.signBit ∧ G.abs (F.conv G y) ≤ G.inf ∧ G.neg (F.conv G y) = F.neg y := by
  have hd := Nat.two_pow_pos F.unit
  unfold Fmt.conv
  rw [Fmt.isNaN_false.2 h]
  simp only [Bool.false_eq_true, if_false]
  split
  · have hr := Nat.lt_of_le_of_lt (rnd_le (F := G) (F.mag (F.abs y) * 2 ^ G.unit) _ hd) Fmt.inf_lt
    exact ⟨Fmt.pack_lt hr, by rw [Fmt.abs_pack hr]; exact rnd_le _ _ hd, Fmt.neg_pack hr⟩
  · have hr := Fmt.inf_lt (F := G)
    exact ⟨Fmt.pack_lt hr, by rw [Fmt.abs_pack hr]; exact Nat.le_refl _, Fmt.neg_pack hr⟩

/-- `nexttoward` with different arguments moves one place towards the second. -/
theorem nexttoward_idx (g : L.Good) (hf : L.fmt.f ≤ b128.f) (hb : L.fmt.bias ≤ b128.bias) {x y : Nat} (hx : x < 2 * L.fmt.signBit)
    (hxi : L.fmt.abs x ≤ L.fmt.inf) (hyi : b128.abs y ≤ b128.inf) (hne : b128.val (L.fmt.conv b128 x) ≠ b128.val y) :
    ∃ r, nexttoward L x y = some r ∧ r < 2 * L.fmt.signBit ∧ L.fmt.abs r ≤ L.fmt.inf ∧
      L.fmt.idx r = L.fmt.idx x + (if b128.val (L.fmt.conv b128 x) < b128.val y then 1 else -1) := by
  have hil := Fmt.inf_lt (F := L.fmt)
  have hip := Fmt.inf_pos g.ok
  obtain ⟨c1, c2, c3⟩ := neg_conv (F := L.fmt) (G := b128) hxi
  obtain ⟨n, n1, n2, n3, n4⟩ := conv_wide g hf hb hxi
  have nl := Nat.lt_of_le_of_lt n2 (Fmt.inf_lt (F := b128))
  unfold nexttoward
  simp only
  rw [if_neg (fun h => h ((eq_self_iff y).2 hyi)), if_neg (fun h => h ((eq_self_iff x).2 hxi)),
    if_neg (fun h => hne ((Fmt.eq_iff c2 hyi).1 h))]
  have hz : L.fmt.eq x 0 = true ↔ L.fmt.abs x = 0 := by
    rw [Fmt.eq_iff hxi (by rw [abs_zero]; omega), Fmt.val_eq_idx, (Fmt.idx_zero 0).2 (abs_zero _), Fmt.idx_zero]
  by_cases h0 : L.fmt.abs x = 0
  · rw [if_pos (hz.2 h0)]
    have h1 : 1 < L.fmt.signBit := by
      have := Fmt.inf_add (F := L.fmt)
      have := Nat.two_pow_pos L.fmt.f
      omega
    have hcs : L.fmt.copysign 1 (b128.conv L.fmt y) = L.fmt.pack (b128.neg y) 1 := by
      unfold Fmt.copysign; rw [Fmt.abs_of_lt h1, (neg_conv (F := b128) (G := L.fmt) hyi).2.2]
    refine ⟨_, rfl, by rw [hcs]; exact Fmt.pack_lt h1, by rw [hcs, Fmt.abs_pack h1]; omega, ?_⟩
    have hn0 : n = 0 := Fmt.mag_eq_zero.1 (by rw [(n4 (by omega)).2, h0, L.fmt.mag_zero, Nat.zero_mul])
    have hl : b128.val (L.fmt.conv b128 x) = 0 := by
      rw [n1, hn0, Fmt.val_pack Fmt.signBit_pos, b128.mag_zero]; cases L.fmt.neg x <;> rfl
    rw [hl] at hne ⊢
    rw [hcs, (Fmt.idx_zero x).2 h0]
    unfold Fmt.idx
    rw [Fmt.abs_pack h1, Fmt.neg_pack h1]
    unfold Fmt.val at hne ⊢
    generalize b128.mag (b128.abs y) = M at *
    cases b128.neg y <;> simp at hne ⊢ <;> omega
  · rw [if_neg (fun h => h0 (hz.1 h))]
    obtain ⟨⟨r1, a1, a2, a3, a4⟩, hup⟩ := step_idx g hx hxi (by omega)
    obtain ⟨s1, s2⟩ := idx_pos_neg L.fmt x (by omega)
    have hz0 : L.fmt.abs 0 ≤ L.fmt.inf := by rw [abs_zero]; omega
    have t1 := Fmt.lt_iff (F := L.fmt) hz0 hxi
    have t2 := Fmt.lt_iff (F := L.fmt) hxi hz0
    have t3 := Fmt.lt_iff (F := b128) c2 hyi
    have t4 := Fmt.lt_iff (F := b128) hyi c2
    simp only [t1, t2, t3, t4]
    have i1 : L.fmt.idx r1 = if L.fmt.neg x then L.fmt.idx x + 1 else L.fmt.idx x - 1 := by
      clear hup; unfold Fmt.idx; rw [a3, a4]; cases L.fmt.neg x <;> simp <;> omega
    have up : L.fmt.abs x < L.fmt.inf → ∃ r, unsgn L (sgn L x + 1) = some r ∧ r < 2 * L.fmt.signBit ∧ L.fmt.abs r ≤ L.fmt.inf ∧
        L.fmt.idx r = if L.fmt.neg x then L.fmt.idx x - 1 else L.fmt.idx x + 1 := by
      intro h
      obtain ⟨r, b1, b2, b3, b4⟩ := hup h
      refine ⟨r, b1, b2, by omega, ?_⟩
      clear hup; unfold Fmt.idx; rw [b3, b4]; cases L.fmt.neg x <;> simp <;> omega
    clear hup
    -- an infinite first argument is not passed
    have bound : b128.val y ≤ b128.mag b128.inf ∧ -(b128.mag b128.inf : Int) ≤ b128.val y := by
      have := b128.mag_mono hyi
      unfold Fmt.val; split <;> omega
    have hl : b128.val (L.fmt.conv b128 x) = if L.fmt.neg x then -(b128.mag n : Int) else b128.mag n := by rw [n1, Fmt.val_pack nl]
    by_cases hc : (L.fmt.val 0 < L.fmt.val x ∧ b128.val y < b128.val (L.fmt.conv b128 x)) ∨
        (L.fmt.val x < L.fmt.val 0 ∧ b128.val (L.fmt.conv b128 x) < b128.val y)
    · rw [if_pos hc, a1]
      clear up
      refine ⟨r1, rfl, a2, by omega, ?_⟩
      rw [i1]
      rcases hc with ⟨p, q⟩ | ⟨p, q⟩
      · rw [s1.2 p, if_neg (by omega : ¬ b128.val (L.fmt.conv b128 x) < b128.val y)]; simp; omega
      · rw [s2.2 p, if_pos q]; simp
    · rw [if_neg hc]
      have hfin : L.fmt.abs x < L.fmt.inf := by
        rcases Nat.lt_or_ge (L.fmt.abs x) L.fmt.inf with h | h
        · exact h
        · exfalso
          clear up
          rw [n3 (by omega)] at hl
          cases hs : L.fmt.neg x
          · rw [hs] at hl; simp at hl
            exact hc (.inl ⟨s1.1 hs, by omega⟩)
          · rw [hs] at hl; simp at hl
            exact hc (.inr ⟨s2.1 hs, by omega⟩)
      obtain ⟨r, b1, b2, b3, b4⟩ := up hfin
      refine ⟨r, b1, b2, b3, ?_⟩
      rw [b4]
      cases hs : L.fmt.neg x
      · have := s1.1 hs
        rw [if_neg (by simp), if_pos (by
          rcases Int.lt_trichotomy (b128.val (L.fmt.conv b128 x)) (b128.val y) with h | h | h
          · exact h
          · exact absurd h hne
          · exact absurd (.inl ⟨this, h⟩) hc)]
      · have := s2.1 hs
        rw [if_pos rfl, if_neg (fun h => hc (.inr ⟨this, h⟩))]
        omega

/-- `nexttoward` with equal arguments. -/
theorem nexttoward_same (g : L.Good) (hf : L.fmt.f ≤ b128.f) (hb : L.fmt.bias ≤ b128.bias) {x y : Nat}
    (hxi : L.fmt.abs x ≤ L.fmt.inf) (hyi : b128.abs y ≤ b128.inf) (he : b128.val (L.fmt.conv b128 x) = b128.val y) :
    nexttoward L x y = some (L.fmt.pack (b128.neg y) (L.fmt.abs x)) := by
  obtain ⟨c1, c2, c3⟩ := neg_conv (F := L.fmt) (G := b128) hxi
  obtain ⟨n, n1, n2, n3, n4⟩ := conv_wide g hf hb hxi
  have nl := Nat.lt_of_le_of_lt n2 (Fmt.inf_lt (F := b128))
  unfold nexttoward
  simp only
  rw [if_neg (fun h => h ((eq_self_iff y).2 hyi)), if_neg (fun h => h ((eq_self_iff x).2 hxi)), if_pos ((Fmt.eq_iff c2 hyi).2 he)]
  have hn : b128.abs y = n := by
    have := Fmt.natAbs_val (F := b128) y
    rw [← he, Fmt.natAbs_val, n1, Fmt.abs_pack nl] at this
    exact (b128.mag_inj this).symm
  rcases Nat.lt_or_ge (L.fmt.abs x) L.fmt.inf with h | h
  · obtain ⟨m1, m2⟩ := n4 h
    unfold Fmt.conv
    rw [Fmt.not_nan_of_fin (by rw [hn]; exact m1), Fmt.isFin_iff.2 (by rw [hn]; exact m1), hn, m2]
    simp only [Bool.false_eq_true, if_false, if_true]
    rw [rnd_exact (Nat.two_pow_pos _) (Nat.le_of_lt h)]
    obtain ⟨u1, _⟩ := Fmt.unit_eq g.ok
    obtain ⟨u2, _⟩ := Fmt.unit_eq ok128
    rw [Nat.mul_assoc, ← Nat.pow_add, Nat.mul_comm]
    congr 2; omega
  · rw [Fmt.conv_inf (by rw [hn, n3 (by omega)]), show L.fmt.abs x = L.fmt.inf by omega]

/-- `scalbnf` of a finite number. -/
theorem scalbnf_eq {x : Nat} (n : Int) (hi : b32.abs x < b32.inf) :
    scalbnf x n = b32.pack (b32.neg x) (b32.rnd (b32.mag (b32.abs x) * 2 ^ n.toNat) (2 ^ (-n).toNat)) := by
  obtain ⟨d, d1, d2, d3⟩ := Fmt.conv_exact ok32 ok64 (by decide) (by decide) hi
  have u32 : b32.unit = 149 := rfl
  have u64 : b64.unit = 1074 := rfl
  rw [u32, u64, show 1074 - 149 = 925 by rfl] at d3
  have d2' := Nat.lt_trans d2 Fmt.inf_lt
  have hm : b32.mag (b32.abs x) < 2 ^ 277 := by
    have := b32.mag_strictMono hi
    rwa [Fmt.mag_inf ok32] at this
  have hi32 : b32.mag b32.inf = 2 ^ 277 := Fmt.mag_inf ok32
  have hi64 : b64.mag b64.inf = 2 ^ 2098 := Fmt.mag_inf ok64
  have hd := Nat.two_pow_pos (-n).toNat
  have hform : ∃ m' e', b32.mag (b32.abs x) = m' * 2 ^ e' ∧ m' < 2 ^ 24 := by
    obtain ⟨m', h1, h2⟩ := Fmt.mag_form (F := b32) (b32.abs x)
    exact ⟨m', _, h1, h2⟩
  generalize b32.mag (b32.abs x) = m at *
  generalize b32.neg x = s at *
  -- the coefficient is a positive finite double
  have hc : coeff n < b64.inf ∧ b64.mag (coeff n) = if 1024 ≤ n then 2 ^ 2098 - 2 ^ 2045 else if n < -1022 then 2 ^ 51 else 2 ^ (1074 + n).toNat := by
    unfold coeff
    have hinf : b64.inf = 0x7FF0000000000000 := by decide
    split
    · exact ⟨by decide, by decide +kernel⟩
    · split
      · exact ⟨by decide, by decide +kernel⟩
      · refine ⟨by rw [hinf]; omega, ?_⟩
        have := b64.mag_pow (1023 + n).toNat (by omega)
        rw [show b64.f = 52 by rfl] at this
        rw [this]
        exact congrArg (fun k => 2 ^ k) (by omega)
  obtain ⟨hc1, hc2⟩ := hc
  have hc1' := Nat.lt_trans hc1 Fmt.inf_lt
  have hmul : b64.mul (b32.conv b64 x) (coeff n) = b64.pack s (b64.rnd (m * 2 ^ 925 * b64.mag (coeff n)) (2 ^ 1074)) := by
    rw [d1, Fmt.mul_fin (by rwa [Fmt.abs_pack d2']) (by rwa [Fmt.abs_of_lt hc1']), Fmt.abs_pack d2', Fmt.neg_pack d2', Fmt.abs_of_lt hc1',
      Fmt.neg_of_lt hc1', d3, u64]
    cases s <;> rfl
  -- converting back
  have back : ∀ r, r ≤ b64.inf → b64.conv b32 (b64.pack s r) = b32.pack s (if r < b64.inf then b32.rnd (b64.mag r) (2 ^ 925) else b32.inf) := by
    intro r hr
    have hr' := Nat.lt_of_le_of_lt hr Fmt.inf_lt
    unfold Fmt.conv
    rw [Fmt.isNaN_false.2 (by rw [Fmt.abs_pack hr']; exact hr), Fmt.neg_pack hr']
    unfold Fmt.isFin
    rw [Fmt.abs_pack hr']
    simp only [Bool.false_eq_true, if_false, decide_eq_true_eq]
    by_cases h : r < b64.inf
    · rw [if_pos h, if_pos h, u32, u64]
      refine congrArg (b32.pack s) ?_
      refine rnd_congr (Nat.two_pow_pos _) (Nat.two_pow_pos _) ?_
      rw [Nat.mul_assoc, ← Nat.pow_add]
    · rw [if_neg h, if_neg h]
  have hrl := rnd_le (F := b64) (m * 2 ^ 925 * b64.mag (coeff n)) (2 ^ 1074) (Nat.two_pow_pos _)
  unfold scalbnf
  rw [hmul, back _ hrl]
  refine congrArg (b32.pack s) ?_
  have hr := rnd_nearest (F := b64) (m * 2 ^ 925 * b64.mag (coeff n)) (2 ^ 1074) (Nat.two_pow_pos _)
  rcases Nat.eq_zero_or_pos m with h0 | h0
  · rw [h0, Nat.zero_mul, Nat.zero_mul, Nat.zero_mul, rnd_zero _ (Nat.two_pow_pos _), rnd_zero _ hd, b64.mag_zero, rnd_zero _ (Nat.two_pow_pos _)]
    rfl
  -- large and small results
  have big : ∀ r, 2 ^ 1202 ≤ b64.mag r → (if r < b64.inf then b32.rnd (b64.mag r) (2 ^ 925) else b32.inf) = b32.inf := by
    intro r h
    split
    · refine rnd_eq (Nat.two_pow_pos _) (nearest_inf (Nat.two_pow_pos _) ?_)
      rw [hi32, ← Nat.pow_add]; exact h
    · rfl
  have small : ∀ r, b64.mag r ≤ 2 ^ 924 → (if r < b64.inf then b32.rnd (b64.mag r) (2 ^ 925) else b32.inf) = 0 := by
    intro r h
    have : r < b64.inf := (Fmt.mag_lt_iff (F := b64)).1 (by rw [hi64]; exact Nat.lt_of_le_of_lt h (Nat.pow_lt_pow_right (by omega) (by omega)))
    rw [if_pos this]
    refine rnd_tiny ok32 (Nat.two_pow_pos _) ?_
    rw [show (2 : Nat) ^ 925 = 2 * 2 ^ 924 by rw [← Nat.pow_succ']]
    exact Nat.mul_le_mul_left _ h
  -- powers of two are doubles
  have pw : ∀ k, k ≤ 2098 → ∃ p, p ≤ b64.inf ∧ b64.mag p = 2 ^ k := by
    intro k hk
    obtain ⟨p, h1, h2⟩ := Fmt.representable (F := b64) (m := 1) (e := k) (Nat.one_le_two_pow) (by
      rw [Nat.one_mul, hi64]; exact Nat.pow_le_pow_right (by omega) hk)
    exact ⟨p, h1, by rw [h2, Nat.one_mul]⟩
  have ge : ∀ num k, k ≤ 2098 → 2 ^ 1074 * 2 ^ k ≤ num → 2 ^ k ≤ b64.mag (b64.rnd num (2 ^ 1074)) := by
    intro num k hk h
    obtain ⟨p, h1, h2⟩ := pw k hk
    have := rnd_mono (F := b64) (Nat.two_pow_pos 1074) h
    rw [rnd_exact (Nat.two_pow_pos _) h1 (by rw [h2])] at this
    have := b64.mag_mono this
    omega
  have le : ∀ num k, k ≤ 2098 → num ≤ 2 ^ 1074 * 2 ^ k → b64.mag (b64.rnd num (2 ^ 1074)) ≤ 2 ^ k := by
    intro num k hk h
    obtain ⟨p, h1, h2⟩ := pw k hk
    have := rnd_mono (F := b64) (Nat.two_pow_pos 1074) h
    rw [rnd_exact (num := 2 ^ 1074 * 2 ^ k) (Nat.two_pow_pos _) h1 (by rw [h2])] at this
    have := b64.mag_mono this
    omega
  rw [hc2]
  by_cases hbig : 1024 ≤ n
  · rw [if_pos hbig, big _ (ge _ 1202 (by omega) ?_)]
    · symm
      refine rnd_eq hd (nearest_inf hd ?_)
      rw [show (-n).toNat = 0 by omega, hi32, Nat.pow_zero, Nat.one_mul]
      have := Nat.pow_le_pow_right (n := 2) (by omega) (show 277 ≤ n.toNat by omega)
      exact Nat.le_trans this (Nat.le_mul_of_pos_left _ h0)
    · rw [Nat.mul_assoc]
      refine Nat.le_trans ?_ (Nat.le_mul_of_pos_left _ h0)
      decide +kernel
  · rw [if_neg hbig]
    by_cases hsm : n < -1022
    · rw [if_pos hsm, small _ (le _ 924 (by omega) ?_)]
      · symm
        refine rnd_tiny ok32 hd ?_
        rw [show n.toNat = 0 by omega, Nat.pow_zero, Nat.mul_one]
        have := Nat.pow_le_pow_right (n := 2) (by omega) (show 278 ≤ (-n).toNat by omega)
        rw [Nat.pow_succ] at this
        omega
      · rw [Nat.mul_assoc]
        refine Nat.le_trans (Nat.mul_le_mul_right _ (Nat.le_of_lt hm)) ?_
        decide +kernel
    · rw [if_neg hsm]
      have hnum : m * 2 ^ 925 * 2 ^ (1074 + n).toNat = m * 2 ^ (1999 + n).toNat := by
        rw [Nat.mul_assoc, ← Nat.pow_add]; exact congrArg (fun k => m * 2 ^ k) (by omega)
      rw [hnum] at *
      by_cases hmid : n < -925
      · rw [small _ (le _ 924 (by omega) ?_)]
        · symm
          refine rnd_tiny ok32 hd ?_
          rw [show n.toNat = 0 by omega, Nat.pow_zero, Nat.mul_one]
          have := Nat.pow_le_pow_right (n := 2) (by omega) (show 278 ≤ (-n).toNat by omega)
          rw [Nat.pow_succ] at this
          omega
        · refine Nat.le_trans (Nat.mul_le_mul_right _ (Nat.le_of_lt hm)) ?_
          rw [← Nat.pow_add, ← Nat.pow_add]
          exact Nat.pow_le_pow_right (by omega) (by omega)
      · -- the product is an integer number of units
        have e : m * 2 ^ (1999 + n).toNat = m * 2 ^ (925 + n).toNat * 2 ^ 1074 := by
          rw [Nat.mul_assoc, ← Nat.pow_add]; exact congrArg (fun k => m * 2 ^ k) (by omega)
        have hrs := rnd_scale (F := b64) (m * 2 ^ (925 + n).toNat) 1 (2 ^ 1074) (Nat.two_pow_pos _)
        rw [Nat.one_mul] at hrs
        rw [e, hrs]
        rcases Nat.lt_or_ge (m * 2 ^ (925 + n).toNat) (2 ^ 2098) with hlt | hge
        · -- exact
          have hrep : ∃ r, r < b64.inf ∧ b64.mag r = m * 2 ^ (925 + n).toNat := by
            obtain ⟨m', e', hm', hml'⟩ := hform
            have e2 : m * 2 ^ (925 + n).toNat = m' * 2 ^ (e' + (925 + n).toNat) := by rw [hm', Nat.mul_assoc, ← Nat.pow_add]
            obtain ⟨r, r1, r2⟩ := Fmt.representable (F := b64) (m := m') (e := e' + (925 + n).toNat)
              (Nat.le_trans (Nat.le_of_lt hml') (Nat.pow_le_pow_right (by omega) (by decide))) (by rw [hi64, ← e2]; exact Nat.le_of_lt hlt)
            exact ⟨r, (Fmt.mag_lt_iff (F := b64)).1 (by rw [hi64, r2, ← e2]; exact hlt), by rw [r2, e2]⟩
          obtain ⟨r, r1, r2⟩ := hrep
          rw [← r2, rnd_mag (Nat.le_of_lt r1), if_pos r1, r2]
          refine rnd_congr (Nat.two_pow_pos _) hd ?_
          rw [Nat.mul_assoc, ← Nat.pow_add, Nat.mul_assoc, ← Nat.pow_add]
          exact congrArg (fun k => m * 2 ^ k) (by omega)
        · have hinf : b64.rnd (m * 2 ^ (925 + n).toNat) 1 = b64.inf := rnd_eq (by omega) (nearest_inf (by omega) (by rw [hi64]; omega))
          rw [hinf, if_neg (by omega)]
          symm
          refine rnd_eq hd (nearest_inf hd ?_)
          rw [hi32]
          have hn : 0 ≤ n := by
            rcases Int.lt_or_le n 0 with h | h
            · exfalso
              have a1 := Nat.mul_lt_mul_of_pos_right hm (Nat.two_pow_pos (925 + n).toNat)
              rw [← Nat.pow_add] at a1
              have a2 := Nat.pow_le_pow_right (n := 2) (by omega) (show 277 + (925 + n).toNat ≤ 2098 by omega)
              omega
            · exact h
          rw [show (-n).toNat = 0 by omega, Nat.pow_zero, Nat.one_mul]
          have a3 : m * 2 ^ (925 + n).toNat = m * 2 ^ n.toNat * 2 ^ 925 := by
            rw [Nat.mul_assoc, ← Nat.pow_add]; exact congrArg (fun k => m * 2 ^ k) (by omega)
          rw [a3] at hge
          refine Nat.le_of_mul_le_mul_right (c := 2 ^ 925) (Nat.le_trans ?_ hge) (Nat.two_pow_pos _)
          rw [← Nat.pow_add]
          exact Nat.pow_le_pow_right (by omega) (by omega)

end Verif.Math
