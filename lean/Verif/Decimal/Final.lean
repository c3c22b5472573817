import Verif.Decimal.Whole
import Verif.Decimal.Convert
import Verif.Math.Step

/-! # Few digits: the results of `strtod` and `strtof` -/

namespace Verif.Decimal
open Verif.Strtol Verif.Float Spec

theorem unit64 : b64.unit = 1074 := rfl
theorem unit32 : b32.unit = 149 := rfl

theorem rounds64 {n : Nat} {t : Int} {m : Nat} : Rounds b64 n t m ↔ Nearest b64 (tenNum n t) (tenDen t) m := by
  unfold Rounds tenNum tenDen
  rw [unit64]

/-- Far out, the exact exponent does not matter. -/
theorem far {n : Nat} {t : Int} (hn : n < 10 ^ 38) : (309 < t → n ≠ 0 → Nearest b64 (tenNum n t) (tenDen t) b64.inf) ∧
    (t < -380 → Nearest b64 (tenNum n t) (tenDen t) 0) ∧ (n = 0 → Nearest b64 (tenNum n t) (tenDen t) 0) := by
  have hlt : n < 2 ^ 128 := Nat.lt_trans hn (by decide)
  refine ⟨fun h h0 => ?_, fun h => ?_, fun h => ?_⟩
  · refine nearest_inf (tenDen_pos _) ?_
    unfold tenNum tenDen
    rw [show (-t).toNat = 0 by omega, Nat.pow_zero, Nat.one_mul]
    refine Nat.le_trans ?_ (Nat.mul_le_mul_right _ (Nat.mul_le_mul (show 1 ≤ n by omega)
      (Nat.pow_le_pow_right (by omega) (show 310 ≤ t.toNat by omega))))
    decide +kernel
  · refine nearest_lo (by decide) (by rw [b64.mag_zero, Nat.mul_zero]; omega) (Or.inl ?_)
    rw [b64.mag_zero, show b64.mag (0 + 1) = 1 by decide, Nat.mul_zero, Nat.zero_add, Nat.mul_one]
    unfold tenNum tenDen
    rw [show t.toNat = 0 by omega, Nat.pow_zero, Nat.mul_one]
    have k1 : n * 2 ^ 1074 < 2 ^ 128 * 2 ^ 1074 := (Nat.mul_lt_mul_right (Nat.two_pow_pos _)).mpr hlt
    have k2 : 10 ^ 381 ≤ 10 ^ (-t).toNat := Nat.pow_le_pow_right (by omega) (by omega)
    have k3 : 2 * (2 ^ 128 * 2 ^ 1074) ≤ 10 ^ 381 := by decide +kernel
    generalize n * 2 ^ 1074 = A at *
    generalize 2 ^ 128 * 2 ^ 1074 = B at *
    generalize 10 ^ (-t).toNat = C at *
    generalize 10 ^ 381 = D at *
    omega
  · refine nearest_exact (tenDen_pos _) (Nat.zero_le _) ?_
    unfold tenNum
    rw [h, Nat.zero_mul, Nat.zero_mul, b64.mag_zero, Nat.mul_zero]

/-- Decimals with at most 20 digits, or 38 and a small exponent, also when the exponent was limited. -/
theorem convert_few {n places : Nat} {e : Int} (s : List Int) (l : Nat) (hp : places ≤ 31000)
    (hn : n < 10 ^ 20 ∨ n < 10 ^ 38 ∧ -54 ≤ e - places ∧ e - places ≤ 54) :
    ∃ r, decToDouble ⟨n, capped e - places, false, s, l⟩ = some r ∧ Nearest b64 (tenNum n (e - places)) (tenDen (e - places)) r := by
  have hn38 : n < 10 ^ 38 := by
    rcases hn with h | h
    · exact Nat.lt_trans h (by decide)
    · exact h.1
  have h67 : (10 : Nat) ^ 20 < 2 ^ 67 := by decide
  by_cases hc : capped e = e
  · rw [hc]
    refine convert_plain rfl (Nat.lt_trans hn38 (by decide)) ?_
    rcases hn with h | h
    · exact .inr (Nat.lt_trans h h67)
    · exact .inl (by show (e - places).natAbs ≤ 54; omega)
  · obtain ⟨r, hr, hnr⟩ := convert_plain (d := ⟨n, capped e - places, false, s, l⟩) rfl (Nat.lt_trans hn38 (by decide)) (by
      rcases hn with h | h
      · exact .inr (Nat.lt_trans h h67)
      · exfalso
        apply hc
        unfold capped
        split
        · omega
        · split
          · omega
          · rfl)
    refine ⟨r, hr, ?_⟩
    obtain ⟨f1, f2, f3⟩ := far (n := n) (t := e - places) hn38
    obtain ⟨g1, g2, g3⟩ := far (n := n) (t := capped e - places) hn38
    by_cases h0 : n = 0
    · rw [hnr.unique (tenDen_pos _) (g3 h0)]
      exact f3 h0
    · have : (e < -32000 ∧ capped e = -32000) ∨ (32000 < e ∧ capped e = 32000) := by
        unfold capped at hc ⊢
        split
        · exact .inl ⟨by assumption, rfl⟩
        · split
          · exact .inr ⟨by assumption, rfl⟩
          · rename_i a b
            rw [if_neg a, if_neg b] at hc
            exact absurd rfl hc
      rcases this with ⟨h1, h2⟩ | ⟨h1, h2⟩
      · rw [hnr.unique (tenDen_pos _) (g2 (by show capped e - _ < _; omega))]
        exact f2 (by omega)
      · rw [hnr.unique (tenDen_pos _) (g1 (by show 309 < capped e - _; omega) h0)]
        exact f1 (by omega) h0

/-! ### Double rounding -/

theorem scale_mid (a b m : Nat) : 2 ^ (1 + a + b) * m = 2 * 2 ^ a * (m * 2 ^ b) := by
  rw [Nat.pow_add, Nat.pow_add, Nat.pow_one]
  ac_rfl

theorem scale_two (a m : Nat) : 2 * (m * 2 ^ a) = m * 2 ^ (a + 1) := by
  rw [Nat.pow_succ]
  ac_rfl

theorem scale_cmp (a c J : Nat) {p : Nat} (hp : 0 < p) :
    (2 * (a * p) ≤ c * (2 * p * J) ↔ a ≤ c * J) ∧ (c * (2 * p * J) ≤ 2 * (a * p) ↔ c * J ≤ a) := by
  rw [show 2 * (a * p) = a * (2 * p) by ac_rfl, show c * (2 * p * J) = c * J * (2 * p) by ac_rfl]
  have h : 0 < 2 * p := by omega
  exact ⟨Nat.mul_le_mul_right_iff h, Nat.mul_le_mul_right_iff h⟩

/-- A number compares with a pattern as the pattern nearest to it does. -/
theorem nearest_cmp {F : Fmt} {num den y j : Nat} (hd : 0 < den) (hj : j ≤ F.inf) (hy : Nearest F num den y) (h : y = j → num = den * F.mag y) :
    (F.mag y ≤ F.mag j ↔ num ≤ den * F.mag j) ∧ (F.mag j ≤ F.mag y ↔ den * F.mag j ≤ num) := by
  have b := hy.best j hj
  unfold dist at b
  rcases Nat.lt_trichotomy y j with c | c | c
  · have m := F.mag_strictMono c
    have := Nat.mul_lt_mul_of_pos_left m hd
    omega
  · have := h c
    rw [← c]
    omega
  · have m := F.mag_strictMono c
    have := Nat.mul_lt_mul_of_pos_left m hd
    omega

theorem double_rounding {num den y r : Nat} (hd : 0 < den) (hy : Nearest b64 num den y)
    (hmid : ∀ k, k + 1 ≤ b32.inf → 2 * b64.mag y = mid b32 k * 2 ^ 925 → num = den * b64.mag y)
    (hr : b64.conv b32 y = r) : Nearest b32 (num * 2 ^ 149) (den * 2 ^ 1074) r := by
  have hd2 : 0 < den * 2 ^ 1074 := Nat.mul_pos hd (Nat.two_pow_pos _)
  have hys : y < b64.signBit := Nat.lt_of_le_of_lt hy.le Fmt.inf_lt
  have habs : b64.abs y = y := Nat.mod_eq_of_lt hys
  have hneg : b64.neg y = false := by
    unfold Fmt.neg
    rw [Nat.div_eq_of_lt hys]; rfl
  rcases Nat.lt_or_eq_of_le hy.le with hfin | hinf
  · have hr' : b32.rnd (b64.mag y * 2 ^ 149) (2 ^ 1074) = r := by
      unfold Fmt.conv at hr
      rw [Fmt.not_nan_of_fin (by rwa [habs]), Fmt.isFin_iff.2 (by rwa [habs]), habs, hneg, unit32, unit64] at hr
      rw [if_neg Bool.false_ne_true, if_pos rfl] at hr
      exact (show b32.pack false (b32.rnd (b64.mag y * 2 ^ 149) (2 ^ 1074)) = _ from Nat.zero_add _).symm.trans hr
    have hn := rnd_nearest (F := b32) (b64.mag y * 2 ^ 149) (2 ^ 1074) (Nat.two_pow_pos _)
    rw [hr'] at hn
    refine Same.nearest ?_ (Nat.two_pow_pos _) hd2 hn
    intro k hk
    -- the midpoint is a double
    obtain ⟨m, E, hm, m0, m1⟩ := mid_form b32 k
    have hle : m * 2 ^ (E + 924) ≤ b64.mag b64.inf := by
      have h1 : mid b32 k ≤ 2 * b32.mag b32.inf := by
        have := b32.mag_mono hk
        have := b32.mag_mono (show k ≤ b32.inf by omega)
        unfold mid
        omega
      rw [Nat.pow_add, ← Nat.mul_assoc, ← hm]
      exact Nat.le_trans (Nat.mul_le_mul_right _ h1) (by decide +kernel)
    obtain ⟨j, hj, hjm⟩ := Fmt.representable (F := b64) (m := m) (e := E + 924) (Nat.le_trans (Nat.le_of_lt m1) (by decide)) hle
    rw [Nat.pow_add, ← Nat.mul_assoc, ← hm] at hjm
    have hq := scale_mid 149 924 (mid b32 k)
    rw [show 1 + 149 + 924 = 1074 from rfl] at hq
    have hmid' : y = j → num = den * b64.mag y := by
      intro e
      refine hmid k hk ?_
      rw [e, hjm]
      exact scale_two 924 (mid b32 k)
    rw [← hjm] at hq
    have key := nearest_cmp hd hj hy hmid'
    obtain ⟨c1, c2⟩ := scale_cmp (b64.mag y) 1 (b64.mag j) (Nat.two_pow_pos 149)
    obtain ⟨c3, c4⟩ := scale_cmp num den (b64.mag j) (Nat.two_pow_pos 149)
    rw [Nat.one_mul, Nat.one_mul, ← hq] at c1 c2
    rw [← hq, ← Nat.mul_assoc den] at c3 c4
    exact ⟨c1.trans (key.1.trans c3.symm), c2.trans (key.2.trans c4.symm)⟩
  · have hri : r = b32.inf := by
      rw [Fmt.conv_inf (habs.trans hinf), hneg] at hr
      exact hr.symm
    rw [hri]
    refine nearest_inf hd2 ?_
    have h1 := ((nearest_iff hd).mp hy).2.2 (b64.inf - 1) (by decide) (by rw [hinf]; decide)
    have h2 : b32.mag b32.inf * 2 ^ 1074 * 2 ≤ mid b64 (b64.inf - 1) * 2 ^ 149 := by decide +kernel
    have h3 := Nat.mul_le_mul_right (2 ^ 149) h1.1
    have h4 := Nat.mul_le_mul_left den h2
    rw [Nat.mul_assoc] at h3
    have h5 := Nat.le_trans h4 h3
    rw [Nat.mul_assoc 2, Nat.mul_comm 2] at h5
    rw [Nat.mul_assoc den, Nat.mul_comm (2 ^ 1074)]
    rw [← Nat.mul_assoc] at h5
    exact Nat.le_of_mul_le_mul_right h5 (by decide)

/-! ### The strings -/

/-- Where the end pointer is short by one. -/
theorem dot_iff {sign ip point fp ex : List Int} {neg : Bool} {e : Int} (hs : Sign sign neg) (hi : Digits ip) (hf : Digits fp)
    (hp : point = [] ∧ fp = [] ∨ point = [46]) (he : Exponent ex e) :
    (value 10 ip = 0 ∧ point = [46] ∧ fp = [] ∧ ex = []) ↔
      value 10 (ip ++ fp) = 0 ∧ (sign ++ (ip ++ (point ++ (fp ++ ex)))).getLast? = some 46 := by
  have hds : ∀ ds : List Int, Digits ds → ds ≠ [] → ds.getLast? ≠ some 46 := by
    intro ds hd hne h
    have := (digit10 46).mp (hd 46 (List.mem_of_getLast? h))
    omega
  constructor
  · rintro ⟨h0, rfl, rfl, rfl⟩
    refine ⟨by rw [List.append_nil]; exact h0, ?_⟩
    simp
  · rintro ⟨h0, hl⟩
    have last : ∀ (a b : List Int), b ≠ [] → (a ++ b).getLast? = b.getLast? := by
      intro a b hb
      rw [List.getLast?_append]
      cases h : b.getLast? with
      | none => exact absurd (List.getLast?_eq_none_iff.mp h) hb
      | some x => rfl
    have hex : ex = [] := by
      cases he with
      | none => rfl
      | some c sg ds ng hc hsg hdn hd =>
        exfalso
        have e1 : sign ++ (ip ++ (point ++ (fp ++ c :: (sg ++ ds)))) = (sign ++ ip ++ point ++ fp ++ c :: sg) ++ ds := by simp
        rw [e1, last _ _ hdn] at hl
        exact hds ds hd hdn hl
    subst hex
    have hfp : fp = [] := by
      by_cases h : fp = []
      · exact h
      · exfalso
        have e1 : sign ++ (ip ++ (point ++ (fp ++ []))) = (sign ++ ip ++ point) ++ fp := by simp
        rw [e1, last _ _ h] at hl
        exact hds fp hf h hl
    subst hfp
    rw [List.append_nil] at h0
    refine ⟨h0, ?_, rfl, rfl⟩
    rcases hp with ⟨rfl, -⟩ | h
    · exfalso
      simp only [List.append_nil] at hl
      by_cases h : ip = []
      · subst h
        rcases hs with ⟨rfl, -⟩ | ⟨rfl, -⟩ | ⟨rfl, -⟩ <;> simp at hl
      · rw [last _ _ h] at hl
        exact hds ip hi h hl
    · exact h

/-- The offset of the end pointer, whatever the value. -/
theorem end_of (S : Scalar) {blank r w : List Int} {neg : Bool} {n : Nat} {t : Int} (hc : IsString (blank ++ r)) (hb : Blank blank)
    (hr : ∀ c ∈ r.head?, ¬ White c) (hL : Longest r w neg n t) (hx : ¬ Hex r) {res : Result} (h : parsefloat S (blank ++ r) = some res) :
    res.stop = blank.length + w.length - (if n = 0 ∧ w.getLast? = some 46 then 1 else 0) := by
  obtain ⟨sign, ip, point, fp, ex, e, s, rfl, hs, hi, hf, he, hp, rfl, rfl, -, heq⟩ := parse_subject S hc hb hr hL hx
  rw [heq] at h
  obtain ⟨y, -, hy⟩ := Option.bind_eq_some_iff.mp h
  rw [← Option.some.inj hy]
  simp only [dot_iff hs hi hf hp he]

theorem strtod_few {blank r w : List Int} {neg : Bool} {n : Nat} {t : Int} (hc : IsString (blank ++ r)) (hb : Blank blank)
    (hr : ∀ c ∈ r.head?, ¬ White c) (hL : Longest r w neg n t) (hx : ¬ Hex r) (hlen : w.length ≤ 31000)
    (hn : n < 10 ^ 20 ∨ n < 10 ^ 38 ∧ -54 ≤ t ∧ t ≤ 54) :
    ∃ m stop, Rounds b64 n t m ∧ strtod (blank ++ r) = some ⟨b64.pack neg m, stop, m = b64.inf⟩ := by
  obtain ⟨sign, ip, point, fp, ex, e, s, hw, hs, hi, hf, he, hp, hv, ht, -, heq⟩ := parse_subject double hc hb hr hL hx
  have hfl : fp.length ≤ 31000 := by
    rw [hw] at hlen
    simp only [List.length_append] at hlen
    omega
  have hd : Digits (ip ++ fp) := fun c h => (List.mem_append.mp h).elim (hi c) (hf c)
  have hn38 : n < 10 ^ 38 := by
    rcases hn with h | h
    · exact Nat.lt_trans h (by decide)
    · exact h.1
  rw [decOf_few hd (by rw [← hv]; exact hn38), ← hv] at heq
  obtain ⟨m, hm, hmn⟩ := convert_few (n := n) (e := e) s (sig (ip ++ fp)).length hfl (by rw [← ht]; exact hn)
  rw [← ht, ← rounds64] at hmn
  have hms : m < b64.signBit := Nat.lt_of_le_of_lt hmn.le Fmt.inf_lt
  refine ⟨m, blank.length + w.length - if value 10 ip = 0 ∧ point = [46] ∧ fp = [] ∧ ex = [] then 1 else 0, hmn, ?_⟩
  unfold strtod
  rw [heq]
  show (decToDouble _).bind _ = _
  rw [hm, Option.bind_some]
  show some _ = some _
  rw [show double.fmt = b64 from rfl, Fmt.abs_of_lt hms]

theorem strtof_few {blank r w : List Int} {neg : Bool} {n : Nat} {t : Int} (hc : IsString (blank ++ r)) (hb : Blank blank)
    (hr : ∀ c ∈ r.head?, ¬ White c) (hL : Longest r w neg n t) (hx : ¬ Hex r) (hlen : w.length ≤ 31000)
    (hn : n < 10 ^ 20 ∨ n < 10 ^ 38 ∧ -54 ≤ t ∧ t ≤ 54)
    (hmid : ∀ y k, Rounds b64 n t y → k + 1 ≤ b32.inf → 2 * b64.mag y = mid b32 k * 2 ^ 925 → tenNum n t = tenDen t * b64.mag y) :
    ∃ m stop, Rounds b32 n t m ∧ strtof (blank ++ r) = some ⟨b32.pack neg m, stop, m = b32.inf⟩ := by
  obtain ⟨sign, ip, point, fp, ex, e, s, hw, hs, hi, hf, he, hp, hv, ht, -, heq⟩ := parse_subject single hc hb hr hL hx
  have hfl : fp.length ≤ 31000 := by
    rw [hw] at hlen
    simp only [List.length_append] at hlen
    omega
  have hd : Digits (ip ++ fp) := fun c h => (List.mem_append.mp h).elim (hi c) (hf c)
  have hn38 : n < 10 ^ 38 := by
    rcases hn with h | h
    · exact Nat.lt_trans h (by decide)
    · exact h.1
  rw [decOf_few hd (by rw [← hv]; exact hn38), ← hv] at heq
  obtain ⟨y, hy, hyn⟩ := convert_few (n := n) (e := e) s (sig (ip ++ fp)).length hfl (by rw [← ht]; exact hn)
  rw [← ht] at hyn
  have hnear := double_rounding (tenDen_pos t) hyn (fun k => hmid y k (rounds64.mpr hyn)) rfl
  have hmn : Rounds b32 n t (b64.conv b32 y) := by
    refine (same_of_eq (Nat.mul_pos (tenDen_pos t) (Nat.two_pow_pos 1074)) (Nat.pow_pos (by omega)) ?_).nearest
      (Nat.mul_pos (tenDen_pos t) (Nat.two_pow_pos 1074)) (Nat.pow_pos (by omega)) hnear
    unfold tenNum tenDen
    rw [unit32]
    generalize 2 ^ 1074 = A
    generalize 2 ^ 149 = B
    ac_rfl
  have hms : b64.conv b32 y < b32.signBit := Nat.lt_of_le_of_lt hmn.le Fmt.inf_lt
  refine ⟨_, blank.length + w.length - if value 10 ip = 0 ∧ point = [46] ∧ fp = [] ∧ ex = [] then 1 else 0, hmn, ?_⟩
  unfold strtof
  rw [heq]
  show (decToFloat _).bind _ = _
  unfold decToFloat
  rw [hy, Option.bind_some, Option.bind_some]
  simp only [Bool.false_eq_true, and_false, if_false]
  rw [show single.fmt = b32 from rfl, Fmt.abs_of_lt hms]

end Verif.Decimal
