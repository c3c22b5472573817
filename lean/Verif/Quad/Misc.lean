import Verif.Quad.Fix
import Verif.Math.Props

/-! # Functions of `long double` -/

namespace Verif.Quad
open Verif.Float Verif.Int128 Verif.Math Verif.Math.Spec Verif.Quad.Spec

/-! ### truncl -/

theorem and_mask {x s : Nat} (hx : x < 2 ^ 128) (hs : s < 128) : (x &&& (2 ^ 128 - 1) * 2 ^ s % 2 ^ 128) = x / 2 ^ s * 2 ^ s := by
  apply Nat.eq_of_testBit_eq
  intro i
  rw [Nat.testBit_and, Nat.testBit_mod_two_pow, Nat.testBit_mul_two_pow, Nat.testBit_mul_two_pow, Nat.testBit_two_pow_sub_one,
    Nat.testBit_div_two_pow]
  by_cases h1 : s ≤ i
  · by_cases h2 : i < 128
    · simp [h1, h2, show i - s < 128 by omega, show i - s + s = i by omega]
    · have : x.testBit i = false := Nat.testBit_lt_two_pow (Nat.lt_of_lt_of_le hx (Nat.pow_le_pow_right (by omega) (by omega)))
      simp [h1, h2, this, show i - s + s = i by omega]
  · simp [h1]

theorem truncl_eq {x : Nat} (hx : Pat b128 x) :
    ∃ r, truncl x = some r ∧ (Finite b128 x → IntegralPart x r) ∧ (¬ Finite b128 x → r = x) := by
  have hx' : x < 2 ^ 128 := hx
  have hi := inf128
  have hl := abs_lt x
  obtain ⟨E, hE⟩ : ∃ E, E = b128.abs x / 2 ^ 112 := ⟨_, rfl⟩
  have hEx : x * 2 % 2 ^ 128 / 2 ^ 113 = E := by rw [hE, abs128]; omega
  unfold truncl
  rw [hEx]
  have hs : maskshift E < 128 := by unfold maskshift; split <;> omega
  unfold shl
  rw [if_pos hs, Option.bind_some, and_mask hx' hs]
  obtain ⟨s, hs'⟩ : ∃ s, s = maskshift E := ⟨_, rfl⟩
  rw [← hs'] at hs ⊢
  have hp := Fmt.pack_self (F := b128) hx
  have hS := Nat.two_pow_pos s
  -- the sign stays, the magnitude is cut
  have hcut : x / 2 ^ s * 2 ^ s = b128.pack (b128.neg x) (b128.abs x / 2 ^ s * 2 ^ s) := by
    conv => lhs; rw [← hp]
    unfold Fmt.pack
    cases b128.neg x
    · simp
    · simp only [if_true]
      rw [sign128, show (2 ^ 127 : Nat) = 2 ^ s * 2 ^ (127 - s) by rw [← Nat.pow_add]; exact pow_eq (by omega),
        Nat.mul_add_div hS, Nat.add_mul, Nat.mul_comm (2 ^ (127 - s))]
  have hle : b128.abs x / 2 ^ s * 2 ^ s ≤ b128.abs x := Nat.div_mul_le_self _ _
  refine ⟨_, rfl, fun hf => ?_, fun hf => ?_⟩
  · have hf' : b128.abs x < b128.inf := hf
    have hle' : b128.abs x / 2 ^ s * 2 ^ s ≤ b128.inf := by omega
    rw [hcut]
    refine ⟨pat_pack hle', by rw [negative_pack hle', negative_iff hx], ?_⟩
    rw [whole_eq]
    unfold size
    rw [absOf_pack hle']
    by_cases c : b128.abs x < 0x3FFF * 2 ^ 112
    · have e : s = 127 := by rw [hs']; unfold maskshift; rw [if_pos (by omega)]
      rw [whole_small c, e, Nat.div_eq_of_lt hl, Nat.zero_mul, Nat.zero_mul, b128.mag_zero]
    · have hc : 0x3FFF * 2 ^ 112 ≤ b128.abs x := Nat.le_of_not_lt c
      have e : s = 112 + 0x3FFF - E := by rw [hs']; unfold maskshift; rw [if_neg (by omega)]
      have hE1 : 0x3FFF ≤ E := by omega
      rw [whole_big hc, ← hE]
      generalize b128.abs x = P at *
      have hEP : P / 2 ^ s * 2 ^ s = E * 2 ^ 112 + ((2 ^ 112 + P % 2 ^ 112) / 2 ^ s * 2 ^ s - 2 ^ 112) ∧
          2 ^ 112 ≤ (2 ^ 112 + P % 2 ^ 112) / 2 ^ s * 2 ^ s ∧ (2 ^ 112 + P % 2 ^ 112) / 2 ^ s * 2 ^ s < 2 ^ 113 := by
        have e112 : 2 ^ 112 = 2 ^ s * 2 ^ (112 - s) := by rw [← Nat.pow_add]; exact pow_eq (by omega)
        have hPm : P = 2 ^ 112 * E + P % 2 ^ 112 := by rw [hE]; exact (Nat.div_add_mod _ _).symm
        have hr : P % 2 ^ 112 / 2 ^ s * 2 ^ s ≤ P % 2 ^ 112 := Nat.div_mul_le_self _ _
        have hlt := Nat.mod_lt P (Nat.two_pow_pos 112)
        have e1 : P / 2 ^ s * 2 ^ s = 2 ^ 112 * E + P % 2 ^ 112 / 2 ^ s * 2 ^ s := by
          conv => lhs; rw [hPm]
          rw [e112, Nat.mul_assoc, Nat.mul_add_div hS, Nat.add_mul, ← e112]
          congr 1
          ac_rfl
        have e2 : (2 ^ 112 + P % 2 ^ 112) / 2 ^ s * 2 ^ s = 2 ^ 112 + P % 2 ^ 112 / 2 ^ s * 2 ^ s := by
          conv => lhs; rw [e112]
          rw [Nat.mul_add_div hS, Nat.add_mul, ← e112]
          congr 1
          rw [Nat.mul_comm, ← e112]
        rw [e1, e2]
        generalize P % 2 ^ 112 / 2 ^ s * 2 ^ s = z at *
        generalize P % 2 ^ 112 = y at *
        omega
      obtain ⟨f1, f2, f3⟩ := hEP
      have hm := b128.mag_mk E ((2 ^ 112 + P % 2 ^ 112) / 2 ^ s * 2 ^ s) (by omega) f2 f3
      have hbf : b128.f = 112 := rfl
      rw [hbf, ← f1] at hm
      rw [hm]
      obtain ⟨w, hw, hw'⟩ : ∃ w, b128.unit = w ∧ w = 16494 := ⟨_, rfl, rfl⟩
      rw [hw]
      generalize 2 ^ 112 + P % 2 ^ 112 = M at *
      by_cases c1 : E ≤ 16495
      · rw [if_pos c1, Nat.mul_assoc, ← Nat.pow_add, show s = 16495 - E by omega]
        exact congrArg (M / 2 ^ (16495 - E) * ·) (pow_eq (by omega))
      · rw [if_neg c1, show s = 0 by omega, Nat.pow_zero, Nat.div_one, Nat.mul_one, Nat.mul_assoc, ← Nat.pow_add]
        exact congrArg (M * ·) (pow_eq (by omega))
  · have hf' : ¬ b128.abs x < b128.inf := hf
    have e : s = 0 := by rw [hs']; unfold maskshift; rw [if_neg (by omega)]; omega
    rw [e, Nat.pow_zero, Nat.div_one, Nat.mul_one]

/-! ### nexttowardl -/

theorem fmt_eq_iff {x y : Nat} (hx : Pat b128 x) (hy : Pat b128 y) : b128.eq x y = true ↔ Same x y := by
  unfold Fmt.eq Same
  rw [value_eq hx, value_eq hy]
  simp only [Bool.and_eq_true, decide_eq_true_eq, Bool.not_eq_true', Fmt.isNaN_false]
  have nx : NaN b128 x ↔ b128.inf < b128.abs x := Iff.rfl
  have ny : NaN b128 y ↔ b128.inf < b128.abs y := Iff.rfl
  rw [nx, ny]
  omega

theorem nexttowardl_eq {x y : Nat} (hx : Pat b128 x) (hy : Pat b128 y) : nexttowardl x y = nextafter ldbl x y := by
  have h0 : Pat b128 0 := Nat.two_pow_pos 128
  unfold nexttowardl nextafter
  have e1 : (ldbl.fmt.eq x y = true) = (eqtf2 x y = 0) := propext ((fmt_eq_iff hx hy).trans (eqtf2_iff hx hy).symm)
  have e2 : (ldbl.fmt.eq y y = true) = (eqtf2 y y = 0) := propext ((fmt_eq_iff hy hy).trans (eqtf2_iff hy hy).symm)
  have e3 : (ldbl.fmt.eq x x = true) = (eqtf2 x x = 0) := propext ((fmt_eq_iff hx hx).trans (eqtf2_iff hx hx).symm)
  have e4 : (ldbl.fmt.eq x 0 = true) = (eqtf2 x 0 = 0) := propext ((fmt_eq_iff hx h0).trans (eqtf2_iff hx h0).symm)
  simp only [e1, e2, e3, e4]
  have hs : ∀ z, Pat b128 z → sgn ldbl z = toS z := by
    intro z hz
    have hz' : z < 2 ^ 128 := hz
    unfold toS
    rw [Nat.mod_eq_of_lt hz']
    rfl
  have hu : ∀ i, (chk128 i).bind (fun i => some (toU i)) = unsgn ldbl i := by
    intro i
    unfold chk128 unsgn
    by_cases c : IsI128 i
    · rw [if_pos c]
      exact (if_pos c).symm
    · rw [if_neg c]
      exact (if_neg c).symm
  rw [hs x hx, hs y hy, ← hu]
  rfl

/-! ### ldexpl -/

theorem ldexpl_eq {x : Nat} (n : Int) (h0 : 0 < b128.abs x) (hi : b128.abs x < b128.inf) :
    ldexpl x n = some (b128.pack (b128.neg x) (b128.rnd (b128.mag (b128.abs x) * 2 ^ n.toNat) (2 ^ (-n).toNat))) := by
  obtain ⟨E, m, h1, h2, h3, h4, h5, h6⟩ := normalizel_eq h0 hi
  have hinf := inf128
  have hlt : m - 2 ^ 112 < 2 ^ 112 := by omega
  obtain ⟨k1, k2⟩ := split_field E hlt
  have hd := Nat.two_pow_pos (-n).toNat
  unfold ldexpl
  simp only
  rw [← abs128, if_neg (by omega), h1, Option.bind_some]
  rw [show ((2 : Int) ^ 112) = ((2 ^ 112 : Nat) : Int) by rfl, k1, k2, Int.toNat_natCast]
  have key : ∀ a b : Nat, n + E - 1 = (a : Int) - b → b128.mag (b128.abs x) * 2 ^ n.toNat * 2 ^ b = m * 2 ^ a * 2 ^ (-n).toNat := by
    intro a b hab
    rw [Nat.mul_assoc, Nat.mul_assoc, ← Nat.pow_add, ← Nat.pow_add]
    exact pow_shift h6 (by omega)
  by_cases hov : 0x7FFF ≤ n + E ∨ n + E < -113
  · rw [if_pos hov]
    rcases hov with hov | hov
    · rw [if_neg (by omega)]
      have hl : b128.inf < b128.signBit := Fmt.inf_lt
      have hmul : multf3 x (0x7FFF * 2 ^ 112) = some (b128.pack (b128.neg x) b128.inf) := by
        rw [← hinf]
        have := multf3_inf (x := x) (y := b128.inf) (.inr ⟨Fmt.abs_of_lt hl, Nat.not_lt_of_le (Nat.le_of_lt hi), Nat.ne_of_gt h0⟩)
        rw [this, Fmt.neg_of_lt hl]
        simp
      rw [hmul, rnd_eq hd (nearest_inf hd ?_)]
      have hk := key (n + E - 1).toNat 0 (by omega)
      rw [Nat.pow_zero, Nat.mul_one] at hk
      rw [hk, Nat.mul_comm, Fmt.mag_inf ok128]
      refine Nat.mul_le_mul_right _ ?_
      have a1 := Nat.mul_le_mul_right (2 ^ (n + E - 1).toNat) h2
      rw [← Nat.pow_add] at a1
      obtain ⟨w, hw, hw'⟩ : ∃ w, b128.f + 2 * b128.bias = w ∧ w = 32878 := ⟨_, rfl, rfl⟩
      rw [hw]
      exact Nat.le_trans (Nat.pow_le_pow_right (by omega) (by omega)) a1
    · rw [if_pos (by omega)]
      have e1 : b128.abs 0 = 0 := rfl
      have e2 : b128.neg 0 = false := by decide
      have hmul : b128.mul x 0 = b128.pack (b128.neg x) 0 := by
        rw [Fmt.mul_fin hi (by rw [e1]; exact Fmt.inf_pos ok128), e1, e2, b128.mag_zero, Nat.mul_zero, rnd_zero _ (Nat.two_pow_pos _)]
        simp
      rw [multf3_fin hi (by rw [e1]; exact Fmt.inf_pos ok128), hmul, rnd_tiny ok128 hd ?_]
      have hk := key 0 (1 - n - E).toNat (by omega)
      have hlt2 : 2 * m ≤ 2 ^ (1 - n - E).toNat := by
        have := Nat.pow_le_pow_right (n := 2) (by omega) (show 114 ≤ (1 - n - E).toNat by omega)
        omega
      have hp := Nat.two_pow_pos (1 - n - E).toNat
      apply Nat.le_of_mul_le_mul_right (c := 2 ^ (1 - n - E).toNat) _ hp
      rw [Nat.mul_assoc, hk, Nat.pow_zero, Nat.mul_one, ← Nat.mul_assoc, Nat.mul_comm (2 ^ (-n).toNat)]
      exact Nat.mul_le_mul_right _ hlt2
  · rw [if_neg hov]
    have hbf : b128.f = 112 := rfl
    by_cases hpos : 0 < n + E
    · rw [if_pos hpos, or_mul _ _ _ hlt]
      have hmag := b128.mag_mk (n + E).toNat m (by omega) h2 h3
      rw [hbf] at hmag
      have hr : (n + E).toNat * 2 ^ 112 + (m - 2 ^ 112) < b128.inf := by
        rw [hinf]; omega
      unfold Fmt.copysign
      rw [Fmt.abs_of_lt (Nat.lt_trans hr Fmt.inf_lt), rnd_exact hd (Nat.le_of_lt hr) ?_]
      have hk := key (n + E - 1).toNat 0 (by omega)
      rw [Nat.pow_zero, Nat.mul_one] at hk
      rw [hk, hmag, Nat.mul_comm, show (n + E).toNat - 1 = (n + E - 1).toNat by omega]
    · rw [if_neg hpos, or_mul _ _ _ hlt]
      obtain ⟨c, hc⟩ : ∃ c, c = 0x3F8E * 2 ^ 112 := ⟨_, rfl⟩
      obtain ⟨u, hu, hu'⟩ : ∃ u, b128.unit = u ∧ u = 16494 := ⟨_, rfl, rfl⟩
      have e1 : b128.mag c = 2 ^ (u - 113) := by
        obtain ⟨E', hE'⟩ : ∃ E', E' = 0x3F8E := ⟨_, rfl⟩
        have h := b128.mag_mk E' (2 ^ 112) (by omega) (Nat.le_refl _) (by decide)
        rw [← hE'] at hc
        rw [hbf, Nat.sub_self, Nat.add_zero, ← hc, ← Nat.pow_add] at h
        rw [h]; exact pow_eq (by omega)
      have e3 : c < b128.inf := by rw [hinf]; omega
      have e2 : c < b128.signBit := Nat.lt_trans e3 Fmt.inf_lt
      have hp : (n + E + 113).toNat * 2 ^ 112 + (m - 2 ^ 112) < b128.inf := by rw [hinf]; omega
      have hp' := Nat.lt_trans hp Fmt.inf_lt
      have hcs : b128.copysign c x = b128.pack (b128.neg x) c := by
        unfold Fmt.copysign; rw [Fmt.abs_of_lt e2]
      rw [← hc, hcs, multf3_fin (by rw [Fmt.abs_pack e2]; exact e3) (by rwa [Fmt.abs_of_lt hp']),
        Fmt.mul_fin (by rw [Fmt.abs_pack e2]; exact e3) (by rwa [Fmt.abs_of_lt hp']), Fmt.abs_pack e2, Fmt.neg_pack e2, Fmt.neg_of_lt hp',
        Fmt.abs_of_lt hp', e1, hu]
      rw [show (b128.neg x != false) = b128.neg x by simp]
      refine congrArg (fun r => some (b128.pack (b128.neg x) r)) ?_
      have e : 2 ^ u = 2 ^ (u - 113) * 2 ^ 113 := by rw [← Nat.pow_add]; exact pow_eq (by omega)
      by_cases hz : n + E = -113
      · -- below half of the smallest subnormal
        have hfr : b128.mag ((n + E + 113).toNat * 2 ^ 112 + (m - 2 ^ 112)) = m - 2 ^ 112 := by
          rw [show (n + E + 113).toNat = 0 by omega, Nat.zero_mul, Nat.zero_add]
          exact b128.mag_small hlt
        rw [hfr]
        rw [rnd_tiny ok128 (Nat.two_pow_pos _) (by
          rw [e, Nat.mul_left_comm]
          exact Nat.mul_le_mul_left _ (by omega)), rnd_tiny ok128 hd ?_]
        have hk := key 0 114 (by omega)
        apply Nat.le_of_mul_le_mul_right (c := 2 ^ 114) _ (Nat.two_pow_pos _)
        rw [Nat.mul_assoc, hk, Nat.pow_zero, Nat.mul_one, ← Nat.mul_assoc, Nat.mul_comm (2 ^ (-n).toNat)]
        exact Nat.mul_le_mul_right _ (by omega)
      · have hmag := b128.mag_mk (n + E + 113).toNat m (by omega) h2 h3
        rw [hbf] at hmag
        rw [hmag]
        refine rnd_congr (Nat.two_pow_pos _) hd ?_
        have hk := key ((n + E + 113).toNat - 1) 113 (by omega)
        rw [e, Nat.mul_left_comm _ (2 ^ (u - 113)), hk, Nat.mul_assoc]

/-! ### nearbyintl -/

/-- A number of type `double` comes back from the conversion to `double`. -/
theorem trunc_exact {x d : Nat} (hx : Pat b128 x) (hd : Pat b64 d) (hf : Finite b64 d) (h : SameNumber b64 b128 d x) : trunctfdf2 x = d := by
  obtain ⟨_, hs, hv, _⟩ := h
  obtain ⟨hfx, hm⟩ := hv hf
  have hn : ¬ NaN b128 x := fun h => by
    have h1 : b128.inf < b128.abs x := h
    have h2 : b128.abs x < b128.inf := hfx
    omega
  have hU := Nat.two_pow_pos b128.unit
  have hf' : b64.abs d < b64.inf := hf
  have hmis : ¬ Mistruncated x := by
    rintro (⟨n, _, _, _, h4⟩ | ⟨q, _, _, _, h4, h5⟩)
    · rw [hm] at h4
      unfold size at h4
      rw [absOf_eq] at h4
      -- no magnitude lies between two neighbours
      have l1 := b64.mag_strictMono (show n < n + 1 by omega)
      have g1 : b64.mag n < b64.mag (b64.abs d) := by
        apply Nat.lt_of_mul_lt_mul_left (a := 2 ^ b128.unit)
        have := Nat.mul_lt_mul_of_pos_left l1 hU
        rw [Nat.mul_comm (b64.mag (b64.abs d))] at h4
        generalize 2 ^ b128.unit * b64.mag (b64.abs d) = A at *
        omega
      have g2 : b64.mag (b64.abs d) < b64.mag (n + 1) := by
        apply Nat.lt_of_mul_lt_mul_left (a := 2 ^ b128.unit)
        have := Nat.mul_lt_mul_of_pos_left l1 hU
        rw [Nat.mul_comm (b64.mag (b64.abs d))] at h4
        generalize 2 ^ b128.unit * b64.mag (b64.abs d) = A at *
        omega
      rcases Nat.lt_or_ge n (b64.abs d) with c | c
      · have := b64.mag_mono (show n + 1 ≤ b64.abs d from c)
        omega
      · have := b64.mag_mono c
        omega
    · obtain ⟨v, hv, hv'⟩ : ∃ v, b64.unit = v ∧ v = 1074 := ⟨_, rfl, rfl⟩
      obtain ⟨w, hw, hw'⟩ : ∃ w, b128.unit = w ∧ w = 16494 := ⟨_, rfl, rfl⟩
      rw [hv, hw] at hm h4 h5
      have e : 2 ^ w = 2 * 2 ^ (w - v - 1) * 2 ^ v := by
        rw [← Nat.pow_succ', ← Nat.pow_add]; exact pow_eq (by omega)
      have e2 : size b128 x = 2 * size b64 d * 2 ^ (w - v - 1) := by
        apply Nat.mul_right_cancel (Nat.two_pow_pos v)
        rw [hm, e]
        ac_rfl
      rw [e2] at h4 h5
      have a1 := Nat.lt_of_mul_lt_mul_right h4
      have a2 := Nat.lt_of_mul_lt_mul_right h5
      omega
  obtain ⟨c1, c2, c3, _⟩ := (trunctfdf2_iff hx hn).2 (fun h => hmis h.2)
  have c3 := c3 hfx
  rw [hm] at c3
  have hne := nearest_exact (F := b64) (num := size b64 d * 2 ^ b128.unit) (n := absOf b64 d) hU (Nat.le_of_lt hf) (Nat.mul_comm _ _)
  have ha := c3.unique hU hne
  have hng : b64.neg (trunctfdf2 x) = b64.neg d := by
    rw [negative_iff c1] at c2
    rw [negative_iff hd] at hs
    have := c2.trans hs
    rwa [Bool.eq_iff_iff]
  rw [absOf_eq, absOf_eq] at ha
  rw [← Fmt.pack_self c1, ← Fmt.pack_self hd, hng, ha]

/-- A rounded finite number is finite. -/
theorem near_fin {D k : Nat} (hD : D < b64.inf) (hk : k ≤ b64.inf) (h : b64.mag k = Fmt.nearInt (b64.mag D) b64.unit * 2 ^ b64.unit) : k < b64.inf := by
  rcases Nat.lt_or_eq_of_le hk with c | c
  · exact c
  · exfalso
    have hi := inf64
    have hU := Nat.two_pow_pos b64.unit
    have hlt := b64.mag_strictMono hD
    rw [← c, h] at hlt
    have hdm := Nat.div_mul_le_self (b64.mag D) (2 ^ b64.unit)
    rcases near_cases (b64.mag D) b64.unit with e | ⟨e, e'⟩
    · rw [e] at hlt; omega
    · have hsm : D < 1075 * 2 ^ 52 := by
        rcases Nat.lt_or_ge D (1075 * 2 ^ 52) with g | g
        · exact g
        · exfalso
          have hm : b64.mag D = (2 ^ 52 + D % 2 ^ 52) * 2 ^ (D / 2 ^ 52 - 1) := b64.mag_normal (by show 2 ^ 52 ≤ D; omega)
          obtain ⟨v, hv, hv'⟩ : ∃ v, b64.unit = v ∧ v = 1074 := ⟨_, rfl, rfl⟩
          rw [hm, hv] at e'
          have hp : 2 ^ (D / 2 ^ 52 - 1) = 2 ^ (D / 2 ^ 52 - 1 - v) * 2 ^ v := by rw [← Nat.pow_add]; exact pow_eq (by omega)
          rw [hp, ← Nat.mul_assoc, Nat.mul_mod_left] at e'
          omega
      have hm2 := b64.mag_mk 1075 (2 ^ 52) (by decide) (Nat.le_refl _) (by decide)
      have hbf : b64.f = 52 := rfl
      rw [hbf, Nat.sub_self, Nat.add_zero] at hm2
      have h1 := b64.mag_strictMono hsm
      rw [hm2, show (2 : Nat) ^ (1075 - 1) = 2 ^ b64.unit from rfl] at h1
      have h2 : b64.mag D / 2 ^ b64.unit < 2 ^ 52 := (Nat.div_lt_iff_lt_mul hU).2 h1
      have h3 : b64.mag k ≤ b64.mag (1075 * 2 ^ 52) := by
        rw [h, hm2, show (2 : Nat) ^ (1075 - 1) = 2 ^ b64.unit from rfl, e]
        exact Nat.mul_le_mul_right _ h2
      have h4 := b64.mag_strictMono (show 1075 * 2 ^ 52 < k by omega)
      omega

theorem near_scale (M u k : Nat) : Fmt.nearInt (M * 2 ^ k) (u + k) = Fmt.nearInt M u := by
  unfold Fmt.nearInt
  have hk := Nat.two_pow_pos k
  rw [Nat.pow_add, Nat.mul_mod_mul_right, Nat.mul_div_mul_right _ _ hk, ← Nat.mul_assoc]
  simp only [Nat.mul_lt_mul_right hk, Nat.mul_right_cancel_iff hk]

theorem nearbyintl_eq {x : Nat} (hx : Pat b128 x) (h : IsDouble x) : ∃ r, nearbyintl x = some r ∧ NearestIntegral x r := by
  obtain ⟨d, hd, hf, hsame⟩ := h
  unfold nearbyintl
  rw [trunc_exact hx hd hf hsame]
  obtain ⟨k, h1, h2, h3⟩ := rint_eq ok64 (x := d) hf
  have hkf := near_fin hf h2 h3
  rw [h1]
  obtain ⟨r, r1, r2, _⟩ := extenddftf2_eq (x := b64.pack (b64.neg d) k) (pat_pack h2)
  have hkn : ¬ NaN b64 (b64.pack (b64.neg d) k) := by
    intro h
    have : b64.inf < absOf b64 (b64.pack (b64.neg d) k) := h
    rw [absOf_pack h2] at this
    omega
  obtain ⟨p1, p2, p3, _⟩ := r2 hkn
  have hfk : Finite b64 (b64.pack (b64.neg d) k) := by
    show absOf b64 _ < _
    rw [absOf_pack h2]; exact hkf
  obtain ⟨_, p4⟩ := p3 hfk
  obtain ⟨_, hs, hv, _⟩ := hsame
  obtain ⟨hfx, hm⟩ := hv hf
  rw [negative_pack h2] at p2
  refine ⟨r, r1, p1, ?_, _, round_even hx, ?_⟩
  · rw [p2, hs, negative_iff hd]
  · unfold size at p4 hm
    rw [absOf_pack h2, h3] at p4
    rw [absOf_eq] at p4 hm
    rw [absOf_eq] at hm
    have hn : b128.neg r = b128.neg x := by
      rw [negative_iff p1] at p2
      rw [negative_iff hx, negative_iff hd] at hs
      have := p2.trans hs.symm
      rwa [Bool.eq_iff_iff]
    rw [value_eq p1, val_sgnd, hn]
    have hUc : (2 : Int) ^ b128.unit = ((2 ^ b128.unit : Nat) : Int) := by simp
    have hmu := sgnd_mul (b128.neg x) false (Fmt.nearInt (b128.mag (b128.abs x)) b128.unit) (2 ^ b128.unit)
    rw [show sgnd false (2 ^ b128.unit) = ((2 ^ b128.unit : Nat) : Int) from rfl, Bool.bne_false] at hmu
    rw [hUc, hmu]
    refine congrArg (sgnd _) ?_
    obtain ⟨v, hv, hv'⟩ : ∃ v, b64.unit = v ∧ v = 1074 := ⟨_, rfl, rfl⟩
    obtain ⟨w, hw, hw'⟩ : ∃ w, b128.unit = w ∧ w = 16494 := ⟨_, rfl, rfl⟩
    rw [hv, hw] at hm p4
    rw [hw]
    have hV := Nat.two_pow_pos v
    have e : 2 ^ w = 2 ^ (w - v) * 2 ^ v := by rw [← Nat.pow_add]; exact pow_eq (by omega)
    have e2 : b128.mag (b128.abs x) = b64.mag (b64.abs d) * 2 ^ (w - v) := by
      apply Nat.mul_right_cancel hV
      rw [hm, e, Nat.mul_assoc]
    have e3 : b128.mag (b128.abs r) = Fmt.nearInt (b64.mag (b64.abs d)) v * 2 ^ w := by
      apply Nat.mul_right_cancel hV
      rw [p4, Nat.mul_assoc, Nat.mul_assoc, Nat.mul_comm (2 ^ v)]
    have e4 := near_scale (b64.mag (b64.abs d)) v (w - v)
    rw [show v + (w - v) = w by omega] at e4
    rw [e3, e2, e4]

end Verif.Quad
