import Verif.Printf.HexLemmas

/-!
# The three forms of hexadecimal floating-point numbers
-/

namespace Verif.Printf

open Spec Verif.Float Verif.Math.Spec

theorem digit_hexChar (u : Bool) (q : Nat) (h : q < 16) : hexChar (q % 16) (low u) = digit u q := by
  rw [Nat.mod_eq_of_lt h, hexChar_eq u q h]

/-- Without precision: exact, with as few digits as possible. -/
theorem hexfloat_none {H : HexFmt} {D W k : Nat} (o : H.Ok D W k) {sp : Opts} {d : Dir} {a : Ask} (h : Agrees sp d a) (ha : a.prec = none)
    (u : Bool) (x : Nat) (hx : H.fmt.abs x < H.fmt.inf) :
    ∃ n V, n ≤ D ∧ V < 16 ^ n ∧ (n = 0 ∨ V % 16 ≠ 0) ∧ HexExact H.fmt x (hexLead H.fmt (H.fmt.abs x)) n V (hexExp H.fmt (H.fmt.abs x)) ∧
    ∃ r, hexfloat H sp (low u) x = some r ∧
      r.chunks.flatten = hexText d a u (H.fmt.neg x) (hexLead H.fmt (H.fmt.abs x)) n V (hexExp H.fmt (H.fmt.abs x)) ∧
      r.ret = (hexText d a u (H.fmt.neg x) (hexLead H.fmt (H.fmt.abs x)) n V (hexExp H.fmt (H.fmt.abs x))).length ∧
      r.stores = [] ∧ r.fault = false := by
  have hp := h.prec
  rw [ha] at hp
  simp only at hp
  rw [hexfloat_unfold H sp u x hx]
  simp only
  obtain ⟨x1, x2⟩ := hex_exact o (H.fmt.abs x)
  have hb := expText_length u _ k o.one (hexExp_bound o _ hx)
  have hsz : size H.fmt x = H.fmt.mag (H.fmt.abs x) := rfl
  unfold HexExact
  rw [hsz]
  generalize H.fmt.abs x = m at *
  generalize hexExp H.fmt m = e at *
  generalize hexLead H.fmt m = lead at *
  rw [if_pos hp]
  have hroom := o.room
  have hsize := o.size
  have hmant : m * 2 ^ (H.word - H.fmt.f) % 2 ^ H.word = m % 2 ^ H.fmt.f * 16 ^ (W - D) := by
    have : 2 ^ H.word = 2 ^ H.fmt.f * 2 ^ (H.word - H.fmt.f) := by
      rw [← Nat.pow_add]; congr 1; rw [o.f, o.word]; omega
    rw [this, Nat.mul_mod_mul_right, pow16, o.word, o.f, Nat.mul_sub]
  have hlt : m % 2 ^ H.fmt.f < 16 ^ D := by
    rw [pow16, ← o.f]; exact Nat.mod_lt _ (Nat.two_pow_pos _)
  have hW : 16 ^ W = 16 ^ D * 16 ^ (W - D) := by rw [← Nat.pow_add]; congr 1; omega
  have hPd := Nat.pow_pos (n := W - D) (show 0 < 16 by decide)
  rw [hmant]
  obtain ⟨n, n1, n2, n3, n4, n5⟩ := hexTop_eq u W W (m % 2 ^ H.fmt.f * 16 ^ (W - D)) (Nat.le_refl _)
    (by rw [hW]; exact Nat.mul_lt_mul_of_pos_right hlt hPd) (by rw [Nat.sub_self, Nat.pow_zero, Nat.mod_one])
  have hnD : n ≤ D := hexTop_short n1 n5 (by rw [Nat.mul_mod_left])
  generalize hV : m % 2 ^ H.fmt.f * 16 ^ (W - D) / 16 ^ (W - n) = V at *
  have hVn : V * 16 ^ (D - n) = m % 2 ^ H.fmt.f := by
    have e1 := Nat.div_mul_cancel (Nat.dvd_of_mod_eq_zero n3)
    rw [hV, show W - n = (D - n) + (W - D) by omega, Nat.pow_add, ← Nat.mul_assoc] at e1
    exact Nat.eq_of_mul_eq_mul_right hPd e1
  have hPn := Nat.pow_pos (n := D - n) (show 0 < 16 by decide)
  have hD : 16 ^ D = 16 ^ n * 16 ^ (D - n) := by rw [← Nat.pow_add]; congr 1; omega
  refine ⟨n, V, hnD, ?_, n5, ⟨x1, ?_⟩, ?_⟩
  · rw [← hVn, hD] at hlt
    exact Nat.lt_of_mul_lt_mul_right hlt
  · rw [← hVn, hD, ← Nat.mul_assoc, ← Nat.add_mul] at x2
    refine Nat.eq_of_mul_eq_mul_right hPn ?_
    rw [Nat.mul_right_comm, x2, Nat.mul_assoc]
  · have hpt : (if m % 2 ^ H.fmt.f * 16 ^ (W - D) ≠ 0 ∨ has sp.flags 35 = true then [46] else []) = point d n := by
      unfold point
      have : m % 2 ^ H.fmt.f * 16 ^ (W - D) ≠ 0 ↔ n ≠ 0 := not_congr n4.symm
      simp only [this, h.flag 35 (by decide), decide_eq_true_eq]
    rw [hpt, o.word, show 4 * W / 4 = W by omega, n2, signchar_eq h]
    have harr := arrangeA_eq h (signF d (H.fmt.neg x)) [48, if u then 88 else 120] (digit u lead :: (point d n ++ places 16 u n V))
      [expText u e] true (by simp) (((signF d (H.fmt.neg x)).length : Int) + (2 + (digit u lead :: (point d n ++ places 16 u n V)).length : Nat) +
        ((expText u e).length : Int)) (by simp; omega)
    rw [hexText_eq]
    simp only [List.flatten_cons, List.flatten_nil, List.append_nil, List.cons_append, List.append_assoc] at harr ⊢
    refine ⟨_, rfl, harr.1, harr.2, rfl, ?_⟩
    simp only [decide_eq_false_iff_not]
    have := point_length d n
    simp only [List.length_cons, List.length_append, places_length]
    omega

/-- With a precision that holds all digits: exact. -/
theorem hexfloat_wide {H : HexFmt} {D W k : Nat} (o : H.Ok D W k) {sp : Opts} {d : Dir} {a : Ask} (h : Agrees sp d a) (p : Nat)
    (ha : a.prec = some p) (hD : D ≤ p) (u : Bool) (x : Nat) (hx : H.fmt.abs x < H.fmt.inf) :
    ∃ V, V < 16 ^ p ∧ HexExact H.fmt x (hexLead H.fmt (H.fmt.abs x)) p V (hexExp H.fmt (H.fmt.abs x)) ∧
    ((hexText d a u (H.fmt.neg x) (hexLead H.fmt (H.fmt.abs x)) p V (hexExp H.fmt (H.fmt.abs x))).length < 2 ^ 31 →
    ∃ r, hexfloat H sp (low u) x = some r ∧
      r.chunks.flatten = hexText d a u (H.fmt.neg x) (hexLead H.fmt (H.fmt.abs x)) p V (hexExp H.fmt (H.fmt.abs x)) ∧
      r.ret = (hexText d a u (H.fmt.neg x) (hexLead H.fmt (H.fmt.abs x)) p V (hexExp H.fmt (H.fmt.abs x))).length ∧
      r.stores = [] ∧ r.fault = false) := by
  have hp := h.prec
  rw [ha] at hp
  simp only at hp
  rw [hexfloat_unfold H sp u x hx]
  simp only
  obtain ⟨x1, x2⟩ := hex_exact o (H.fmt.abs x)
  have hb := expText_length u _ k o.one (hexExp_bound o _ hx)
  have hsz : size H.fmt x = H.fmt.mag (H.fmt.abs x) := rfl
  unfold HexExact
  rw [hsz]
  generalize H.fmt.abs x = m at *
  generalize hexExp H.fmt m = e at *
  generalize hexLead H.fmt m = lead at *
  have hdig : H.digits = D := by unfold HexFmt.digits; rw [o.f]; omega
  rw [if_neg (by omega), if_neg (by rw [hdig]; omega), hdig, hp]
  have hlt : m % 2 ^ H.fmt.f < 16 ^ D := by
    rw [pow16, ← o.f]; exact Nat.mod_lt _ (Nat.two_pow_pos _)
  have hP : 16 ^ p = 16 ^ D * 16 ^ (p - D) := by rw [← Nat.pow_add]; congr 1; omega
  have hPd := Nat.pow_pos (n := p - D) (show 0 < 16 by decide)
  refine ⟨m % 2 ^ H.fmt.f * 16 ^ (p - D), by rw [hP]; exact Nat.mul_lt_mul_of_pos_right hlt hPd, ⟨x1, ?_⟩, ?_⟩
  · rw [hP, ← Nat.mul_assoc, ← Nat.add_mul, Nat.mul_right_comm, x2, Nat.mul_assoc]
  · have hpl : places 16 u p (m % 2 ^ H.fmt.f * 16 ^ (p - D)) = places 16 u D m ++ List.replicate (p - D) 48 := by
      have hs := places_add 16 (by decide) u D (p - D) (m % 2 ^ H.fmt.f * 16 ^ (p - D))
      rw [show D + (p - D) = p by omega, places_mul 16 (by decide), Nat.mul_div_cancel _ hPd, o.f, ← pow16, places_mod 16 (by decide)] at hs
      rw [o.f, ← pow16]
      exact hs
    have hpt : point d p = [46] := by
      unfold point; rw [if_pos (.inl (by have := o.some; omega))]
    have hsize := o.size
    rw [hexText_eq, hpl, hpt, signchar_eq h, hexFixed_eq]
    have harr := arrangeA_eq h (signF d (H.fmt.neg x)) [48, if u then 88 else 120] (digit u lead :: 46 :: places 16 u D m)
      (pad 48 (((p : Int) - (D : Int)).toNat) ++ [expText u e]) true (by simp)
      (((signF d (H.fmt.neg x)).length : Int) + (2 + (digit u lead :: 46 :: places 16 u D m).length : Nat) + ((p : Int) - D) +
        ((expText u e).length : Int)) (by
          simp only [List.flatten_append, List.flatten_cons, List.flatten_nil, pad_flatten, List.length_append, List.length_cons, List.length_nil, List.length_replicate, places_length]
          omega)
    have hz : ((p : Int) - (D : Int)).toNat = p - D := by omega
    rw [justifyF_length]
    intro hlen
    simp only [List.length_append, List.length_cons, List.length_nil, List.length_replicate, places_length] at hlen
    rw [chk32_some _ (by simp only [List.length_cons, places_length]; omega) (by simp only [List.length_cons, places_length]; omega)]
    simp only [List.flatten_append, pad_flatten, List.flatten_cons, List.flatten_nil, List.append_nil, List.nil_append, List.cons_append, List.append_assoc, hz] at harr ⊢
    refine ⟨_, rfl, harr.1, ?_, rfl, ?_⟩
    · rw [harr.2, justifyF_length]
    · simp only [decide_eq_false_iff_not]
      simp only [List.length_cons, places_length]
      omega

/-- The rounding of the short form. -/
theorem hex_round (s g t : Nat) (hg : 1 ≤ g) (ht : 1 ≤ t) :
    let low' := s * 2 ^ t % 2 ^ (g + t)
    let high := s >>> g
    let r := high + if 2 ^ (g + t - 1) < (high &&& 1 ||| low') then 1 else 0
    (2 * dist s (r * 2 ^ g) ≤ 2 ^ g ∧ (2 * dist s (r * 2 ^ g) = 2 ^ g → r % 2 = 0)) ∧ high ≤ r ∧ r ≤ high + 1 := by
  intro low' high r
  have hh : high = s / 2 ^ g := Nat.shiftRight_eq_div_pow s g
  have hl : low' = s % 2 ^ g * 2 ^ t := by
    show s * 2 ^ t % 2 ^ (g + t) = _
    rw [Nat.pow_add, Nat.mul_mod_mul_right]
  have hor : (high &&& 1 ||| low') = high % 2 + low' := by
    rw [Nat.and_one_is_mod, Nat.or_comm, hl, Nat.mul_comm (s % 2 ^ g), ← Nat.two_pow_add_eq_or_of_lt (i := t) (b := high % 2), Nat.add_comm]
    have := Nat.pow_le_pow_right (show 0 < 2 by decide) ht
    omega
  have hr : r = high + if 2 ^ (g + t - 1) < high % 2 + low' then 1 else 0 := by rw [← hor]
  have hG : 2 ^ (g + t - 1) = 2 ^ (g - 1) * 2 ^ t := by rw [← Nat.pow_add]; congr 1; omega
  have hg2 : 2 ^ g = 2 * 2 ^ (g - 1) := by rw [← Nat.pow_succ']; congr 1; omega
  have hT : 2 ≤ 2 ^ t := Nat.pow_le_pow_right (show 0 < 2 by decide) ht
  have hcond : 2 ^ (g + t - 1) < high % 2 + low' ↔ (2 ^ (g - 1) < s % 2 ^ g ∨ (2 ^ (g - 1) = s % 2 ^ g ∧ high % 2 = 1)) := by
    rw [hG, hl]
    have hm := Nat.mod_lt high (show 0 < 2 by decide)
    constructor
    · intro hc
      rcases Nat.lt_trichotomy (2 ^ (g - 1)) (s % 2 ^ g) with h | h | h
      · exact .inl h
      · rw [← h] at hc; exact .inr ⟨h, by omega⟩
      · exfalso
        have := Nat.mul_le_mul_right (2 ^ t) (show s % 2 ^ g + 1 ≤ 2 ^ (g - 1) from h)
        rw [Nat.add_mul, Nat.one_mul] at this
        omega
    · rintro (h | ⟨h, h'⟩)
      · have := Nat.mul_le_mul_right (2 ^ t) (show 2 ^ (g - 1) + 1 ≤ s % 2 ^ g from h)
        rw [Nat.add_mul, Nat.one_mul] at this
        omega
      · rw [← h, h']; omega
  have hdm := Nat.div_add_mod s (2 ^ g)
  have hml := Nat.mod_lt s (Nat.two_pow_pos g)
  rw [← hh] at hdm
  rw [hr]
  by_cases hc : 2 ^ (g + t - 1) < high % 2 + low'
  · rw [if_pos hc]
    have hc' := hcond.1 hc
    refine ⟨?_, by omega, by omega⟩
    rw [Nat.add_mul, Nat.one_mul, Nat.mul_comm high]
    generalize 2 ^ g * high = Q at *
    unfold dist
    rcases hc' with h | ⟨h, h'⟩
    · constructor
      · omega
      · intro; omega
    · constructor
      · omega
      · intro; omega
  · rw [if_neg hc]
    have hc' := mt hcond.2 hc
    refine ⟨?_, by omega, by omega⟩
    rw [Nat.add_zero, Nat.mul_comm high]
    generalize 2 ^ g * high = Q at *
    unfold dist
    constructor
    · omega
    · intro he
      by_cases h2 : high % 2 = 0
      · exact h2
      · exfalso; apply hc'; right; omega

/-- With fewer digits: correctly rounded, for normal numbers and without digits behind the point. -/
theorem hexfloat_short {H : HexFmt} {D W k : Nat} (o : H.Ok D W k) {sp : Opts} {d : Dir} {a : Ask} (h : Agrees sp d a) (p : Nat)
    (ha : a.prec = some p) (hD : p < D) (u : Bool) (x : Nat) (hx : H.fmt.abs x < H.fmt.inf) (hn : 2 ^ H.fmt.f ≤ H.fmt.abs x ∨ p = 0) :
    ∃ lead V, lead ≤ 2 ∧ (2 ^ H.fmt.f ≤ H.fmt.abs x → 1 ≤ lead) ∧ V < 16 ^ p ∧ HexNearest H.fmt x lead p V (hexExp H.fmt (H.fmt.abs x)) ∧
    ∃ r, hexfloat H sp (low u) x = some r ∧
      r.chunks.flatten = hexText d a u (H.fmt.neg x) lead p V (hexExp H.fmt (H.fmt.abs x)) ∧
      r.ret = (hexText d a u (H.fmt.neg x) lead p V (hexExp H.fmt (H.fmt.abs x))).length ∧
      r.stores = [] ∧ r.fault = false := by
  have hp := h.prec
  rw [ha] at hp
  simp only at hp
  rw [hexfloat_unfold H sp u x hx]
  simp only
  obtain ⟨x1, x2⟩ := hex_exact o (H.fmt.abs x)
  have hb := expText_length u _ k o.one (hexExp_bound o _ hx)
  have hsz : size H.fmt x = H.fmt.mag (H.fmt.abs x) := rfl
  unfold HexNearest
  rw [hsz]
  generalize H.fmt.abs x = m at *
  have hsig : (m % 2 ^ H.fmt.f ||| (if m / 2 ^ H.fmt.f ≠ 0 then 2 ^ H.fmt.f else 0)) = hexLead H.fmt m * 16 ^ D + m % 2 ^ H.fmt.f := by
    have hml := Nat.mod_lt m (Nat.two_pow_pos H.fmt.f)
    unfold hexLead
    by_cases hz : m / 2 ^ H.fmt.f ≠ 0
    · rw [if_pos hz, if_pos hz]
      have := Nat.two_pow_add_eq_or_of_lt hml 1
      rw [Nat.mul_one] at this
      rw [Nat.or_comm, ← this, Nat.one_mul, pow16, o.f]
    · rw [if_neg hz, if_neg hz]; simp
  have hlead : hexLead H.fmt m ≤ 1 := by unfold hexLead; split <;> omega
  have hlead1 : 2 ^ H.fmt.f ≤ m → hexLead H.fmt m = 1 := by
    intro hm
    unfold hexLead
    rw [if_pos (Nat.pos_iff_ne_zero.mp (Nat.div_pos hm (Nat.two_pow_pos _)))]
  rw [hsig]
  generalize hexExp H.fmt m = e at *
  generalize hexLead H.fmt m = lead at *
  have hdig : H.digits = D := by unfold HexFmt.digits; rw [o.f]; omega
  have hlt : m % 2 ^ H.fmt.f < 16 ^ D := by
    rw [pow16, ← o.f]; exact Nat.mod_lt _ (Nat.two_pow_pos _)
  rw [if_neg (by omega), if_pos (by rw [hdig]; omega), hp, Int.toNat_natCast]
  generalize hS : lead * 16 ^ D + m % 2 ^ H.fmt.f = S at *
  have hroom := o.room
  have hw : H.word = (4 * (D - p)) + (H.word - H.fmt.f + 4 * p) := by rw [o.word, o.f]; omega
  have hround := hex_round S (4 * (D - p)) (H.word - H.fmt.f + 4 * p) (by omega) (by rw [o.word, o.f]; omega)
  rw [← hw] at hround
  simp only at hround
  rw [show H.fmt.f - 4 * p = 4 * (D - p) by rw [o.f]; omega]
  generalize hR : S >>> (4 * (D - p)) + (if 2 ^ (H.word - 1) < (S >>> (4 * (D - p)) &&& 1 ||| S * 2 ^ (H.word - H.fmt.f + 4 * p) % 2 ^ H.word) then 1 else 0) = R at *
  obtain ⟨⟨r1, r2⟩, r3, r4⟩ := hround
  have hD16 : 16 ^ D = 16 ^ p * 16 ^ (D - p) := by rw [← Nat.pow_add]; congr 1; omega
  have hPd := Nat.pow_pos (n := D - p) (show 0 < 16 by decide)
  have hPp := Nat.pow_pos (n := p) (show 0 < 16 by decide)
  rw [← pow16] at r1 r2
  rw [Nat.shiftRight_eq_div_pow, ← pow16] at r3 r4
  have hup : S / 16 ^ (D - p) < 2 * 16 ^ p := by
    rw [Nat.div_lt_iff_lt_mul hPd, Nat.mul_assoc, ← hD16]
    have := Nat.mul_le_mul_right (16 ^ D) hlead
    rw [Nat.one_mul] at this
    omega
  have hR2 : R ≤ 2 * 16 ^ p := by omega
  have hRlo : 16 ^ p ≤ R ∨ p = 0 := by
    rcases hn with hn | hn
    · left
      refine Nat.le_trans ?_ r3
      rw [Nat.le_div_iff_mul_le hPd, ← hD16]
      rw [hlead1 hn] at hS; omega
    · exact .inr hn
  rw [hexLow_eq u p R _ hRlo (by rw [Nat.pow_succ]; omega)]
  have hq : R / 16 ^ p ≤ 2 := by
    have := Nat.div_le_div_right (c := 16 ^ p) hR2
    rwa [Nat.mul_div_cancel _ hPp] at this
  have hdm := Nat.div_add_mod R (16 ^ p)
  refine ⟨R / 16 ^ p, R % 16 ^ p, hq, ?_, Nat.mod_lt _ hPp, ?_, ?_⟩
  · intro hm
    rw [Nat.le_div_iff_mul_le hPp, Nat.one_mul]
    refine Nat.le_trans ?_ r3
    rw [Nat.le_div_iff_mul_le hPd, ← hD16]
    rw [hlead1 hm] at hS; omega
  · rw [Nat.mul_comm (R / 16 ^ p), hdm]
    refine ⟨x1, ?_⟩
    -- scale by `16^(D-p)`
    have hdist : ∀ a b c : Nat, dist (a * c) (b * c) = dist a b * c := by
      intro a b c; unfold dist; rw [Nat.add_mul, Nat.sub_mul, Nat.sub_mul]
    have hE := Nat.two_pow_pos (e + (H.fmt.unit : Int)).toNat
    generalize 2 ^ (e + (H.fmt.unit : Int)).toNat = E at *
    have key : dist (H.fmt.mag m * 16 ^ p) (R * E) * 16 ^ (D - p) = dist S (R * 16 ^ (D - p)) * E := by
      have e1 : H.fmt.mag m * 16 ^ p * 16 ^ (D - p) = S * E := by rw [Nat.mul_assoc, ← hD16, x2]
      rw [← hdist, ← hdist, e1, Nat.mul_right_comm R]
    generalize dist (H.fmt.mag m * 16 ^ p) (R * E) = A at *
    generalize dist S (R * 16 ^ (D - p)) = C at *
    constructor
    · refine Nat.le_of_mul_le_mul_right ?_ hPd
      rw [Nat.mul_assoc, key, ← Nat.mul_assoc, Nat.mul_comm E]
      exact Nat.mul_le_mul_right _ r1
    · intro hA
      apply r2
      have : 2 * C * E = 16 ^ (D - p) * E := by
        rw [Nat.mul_assoc, ← key, ← Nat.mul_assoc, hA, Nat.mul_comm]
      exact Nat.eq_of_mul_eq_mul_right hE this
  · have hpt := pointed_eq h p hp
    have hsize := o.size
    rw [hexText_eq, hpt, signchar_eq h]
    simp only
    rw [digit_hexChar u _ (by omega)]
    rw [places_mod 16 (by decide)]
    have harr := arrangeA_eq h (signF d (H.fmt.neg x)) [48, if u then 88 else 120] []
      [digit u (R / 16 ^ p) :: (point d p ++ (places 16 u p R ++ expText u e))] false (by simp)
      (((signF d (H.fmt.neg x)).length : Int) + 2 + ((digit u (R / 16 ^ p) :: (point d p ++ (places 16 u p R ++ expText u e))).length : Int)) (by
          simp)
    simp only [List.flatten_cons, List.flatten_nil, List.append_nil, List.nil_append, List.append_assoc] at harr ⊢
    refine ⟨_, rfl, harr.1, harr.2, rfl, ?_⟩
    simp only [decide_eq_false_iff_not]
    have := point_length d p
    simp only [List.length_cons, List.length_append, places_length]
    omega

end Verif.Printf
