import Verif.Decimal.Big
import Verif.Decimal.Final

/-! # Many digits -/

namespace Verif.Decimal
open Verif.Strtol Verif.Float Spec

/-- The exact comparison of bigint.h:128-166. -/
theorem halfway_eq {d : Dec} {D pt : List Int} {M : Nat} {q p : Int} (hpt : pt = [] ∨ pt = [46]) (hb : Body D pt d.digits) (ht : d.total = D.length)
    (hp : p = d.exp - (if 38 < d.total then (d.total : Int) - 38 else 0)) (hM : M < 2 ^ 128)
    (h1 : value 10 D * 5 ^ p.toNat * 2 ^ (p - q).toNat < 2 ^ 16384) (h2 : M * 5 ^ (-p).toNat * 2 ^ (q - p).toNat < 2 ^ 16384) :
    ∃ r, halfway d M q = some r ∧ Ordered r (value 10 D * 5 ^ p.toNat * 2 ^ (p - q).toNat) (M * 5 ^ (-p).toNat * 2 ^ (q - p).toNat) := by
  have h1' : value 10 D * 5 ^ p.toNat < 2 ^ 16384 := Nat.lt_of_le_of_lt (Nat.le_mul_of_pos_right _ (Nat.two_pow_pos _)) h1
  have h1'' : value 10 D < 2 ^ 16384 := Nat.lt_of_le_of_lt (Nat.le_mul_of_pos_right _ (Nat.pow_pos (by omega))) h1'
  have h2' : M * 5 ^ (-p).toNat < 2 ^ 16384 := Nat.lt_of_le_of_lt (Nat.le_mul_of_pos_right _ (Nat.two_pow_pos _)) h2
  obtain ⟨b0, e0, r0⟩ := (bigDigits_eq hpt hb).1 h1''
  obtain ⟨b1, e1, r1⟩ := bigMulPow5_eq r0 h1'
  obtain ⟨b2, e2, r2⟩ := bigMulPow5_eq (bigSet_rep hM) h2'
  obtain ⟨b3, e3, r3⟩ := bigShl_eq r1 h1
  obtain ⟨b4, e4, r4⟩ := bigShl_eq r2 h2
  unfold halfway
  rw [← hp, ht, e0, Option.bind_some]
  have s1 : ∃ b, (if 0 ≤ p then bigMulPow5 b0 p.toNat else some b0) = some b ∧ Rep b (value 10 D * 5 ^ p.toNat) := by
    by_cases c : 0 ≤ p
    · rw [if_pos c]; exact ⟨_, e1, r1⟩
    · rw [if_neg c, show p.toNat = 0 by omega, Nat.pow_zero, Nat.mul_one]; exact ⟨_, rfl, r0⟩
  have s2 : ∃ b, (if 0 ≤ p then some (bigSet M) else bigMulPow5 (bigSet M) (-p).toNat) = some b ∧ Rep b (M * 5 ^ (-p).toNat) := by
    by_cases c : 0 ≤ p
    · rw [if_pos c, show (-p).toNat = 0 by omega, Nat.pow_zero, Nat.mul_one]; exact ⟨_, rfl, bigSet_rep hM⟩
    · rw [if_neg c]; exact ⟨_, e2, r2⟩
  obtain ⟨c1, f1, t1⟩ := s1
  obtain ⟨c2, f2, t2⟩ := s2
  have s3 : ∃ b, (if 0 ≤ q - p then some c1 else bigShl c1 (-(q - p)).toNat) = some b ∧ Rep b (value 10 D * 5 ^ p.toNat * 2 ^ (p - q).toNat) := by
    by_cases c : 0 ≤ q - p
    · rw [if_pos c, show (p - q).toNat = 0 by omega, Nat.pow_zero, Nat.mul_one]; exact ⟨_, rfl, t1⟩
    · rw [if_neg c, show (-(q - p)).toNat = (p - q).toNat by omega]; exact bigShl_eq t1 h1
  have s4 : ∃ b, (if 0 ≤ q - p then bigShl c2 (q - p).toNat else some c2) = some b ∧ Rep b (M * 5 ^ (-p).toNat * 2 ^ (q - p).toNat) := by
    by_cases c : 0 ≤ q - p
    · rw [if_pos c]; exact bigShl_eq t2 h2
    · rw [if_neg c, show (q - p).toNat = 0 by omega, Nat.pow_zero, Nat.mul_one]; exact ⟨_, rfl, t2⟩
  obtain ⟨c3, f3, t3⟩ := s3
  obtain ⟨c4, f4, t4⟩ := s4
  rw [f1, Option.bind_some, f2, Option.bind_some]
  simp only
  rw [f3, Option.bind_some, f4, Option.bind_some]
  exact ⟨_, rfl, bigCmp_eq t3 t4⟩

theorem five10 : (10 : Nat) ^ 4000 < 2 ^ 13288 := by decide +kernel
theorem five342 : (5 : Nat) ^ 4342 < 2 ^ 10082 := by decide +kernel
theorem five309 : (5 : Nat) ^ 309 < 2 ^ 718 := by decide +kernel
theorem ten347 : (10 : Nat) ^ 347 < 2 ^ 1153 := by decide +kernel

theorem prod_lt {a b c : Nat} {i j k n : Nat} (ha : a < 2 ^ i) (hb : b ≤ 2 ^ j) (hc : c ≤ 2 ^ k) (h : i + j + k ≤ n) : a * b * c < 2 ^ n := by
  have h1 : a * b * c ≤ a * 2 ^ j * 2 ^ k := Nat.mul_le_mul (Nat.mul_le_mul_left _ hb) hc
  have h2 : a * 2 ^ j * 2 ^ k < 2 ^ i * 2 ^ j * 2 ^ k :=
    (Nat.mul_lt_mul_right (Nat.two_pow_pos _)).mpr ((Nat.mul_lt_mul_right (Nat.two_pow_pos _)).mpr ha)
  rw [← Nat.pow_add, ← Nat.pow_add] at h2
  exact Nat.lt_of_lt_of_le (Nat.lt_of_le_of_lt h1 h2) (Nat.pow_le_pow_right (by omega) h)

theorem two_le {a b : Nat} (h : a ≤ b) : 2 ^ a ≤ 2 ^ b := Nat.pow_le_pow_right (by omega) h

/-- Up to 4000 digits the comparison stays within the buffers. -/
theorem halfway_room {d : Dec} {D pt : List Int} {M l : Nat} {q : Int} (hpt : pt = [] ∨ pt = [46]) (hb : Body D pt d.digits)
    (ht : d.total = D.length) (hl : d.total = l + 38) (hl2 : l ≤ 3962) (e1 : -380 ≤ d.exp) (e2 : d.exp ≤ 309) (q1 : -1075 ≤ q) (q2 : q ≤ 1312)
    (hM : M < 2 ^ 54) :
    ∃ r, halfway d M q = some r ∧ Ordered r (value 10 D * 5 ^ (d.exp - l).toNat * 2 ^ ((d.exp - l) - q).toNat)
      (M * 5 ^ (-(d.exp - l)).toNat * 2 ^ (q - (d.exp - l)).toNat) := by
  obtain ⟨a, b, t, hD, -, hd⟩ := id hb
  have hv := value_lt hd
  rw [← ht, hl] at hv
  refine halfway_eq hpt hb ht (by split <;> omega) (Nat.lt_trans hM (by decide)) ?_ ?_
  · by_cases c : 0 ≤ d.exp - l
    · refine prod_lt (i := 1153) (j := 718) (k := 1384) (Nat.lt_of_lt_of_le hv ?_) ?_ (two_le (by omega)) (by decide)
      · exact Nat.le_trans (Nat.pow_le_pow_right (by omega) (show l + 38 ≤ 347 by omega)) (Nat.le_of_lt ten347)
      · exact Nat.le_trans (Nat.pow_le_pow_right (by omega) (show (d.exp - l).toNat ≤ 309 by omega)) (Nat.le_of_lt five309)
    · refine prod_lt (i := 13288) (j := 0) (k := 1384) (Nat.lt_of_lt_of_le hv ?_) ?_ (two_le (by omega)) (by decide)
      · exact Nat.le_trans (Nat.pow_le_pow_right (by omega) (show l + 38 ≤ 4000 by omega)) (Nat.le_of_lt five10)
      · rw [show (d.exp - l).toNat = 0 by omega]; exact Nat.le_refl _
  · refine prod_lt (i := 54) (j := 10082) (k := 5654) hM ?_ (two_le (by omega)) (by decide)
    exact Nat.le_trans (Nat.pow_le_pow_right (by omega) (show (-(d.exp - l)).toNat ≤ 4342 by omega)) (Nat.le_of_lt five342)

theorem Ordered.scale {r : Int} {x y x' y' a b : Nat} (h : Ordered r x y) (ha : 0 < a) (hb : 0 < b) (hx : x * a = x' * b) (hy : y * a = y' * b) :
    Ordered r x' y' := by
  have lt : ∀ u v : Nat, u < v ↔ u * a < v * a := fun u v => (Nat.mul_lt_mul_right ha).symm
  have lt' : ∀ u v : Nat, u < v ↔ u * b < v * b := fun u v => (Nat.mul_lt_mul_right hb).symm
  have eq : x = y ↔ x' = y' := by
    constructor
    · intro h; subst h; exact Nat.eq_of_mul_eq_mul_right hb (hx.symm.trans hy)
    · intro h; subst h; exact Nat.eq_of_mul_eq_mul_right ha (hx.trans hy.symm)
  unfold Ordered at *
  rw [lt x y, lt y x, hx, hy, ← lt', ← lt', eq] at h
  exact h

/-- The comparison in units of the smallest subnormal. -/
theorem ordered_ten {r : Int} {N M E : Nat} {p q : Int} (hE : (E : Int) = q + 1075)
    (h : Ordered r (N * 5 ^ p.toNat * 2 ^ (p - q).toNat) (M * 5 ^ (-p).toNat * 2 ^ (q - p).toNat)) :
    Ordered r (2 * tenNum N p) (tenDen p * (M * 2 ^ E)) := by
  refine h.scale (a := 2 ^ (p.toNat + 1075)) (b := 2 ^ (p - q).toNat) (Nat.two_pow_pos _) (Nat.two_pow_pos _) ?_ ?_
  · unfold tenNum
    rw [Nat.pow_add, show 1075 = 1074 + 1 from rfl, Nat.pow_add 2 1074 1, show (10 : Nat) = 5 * 2 from rfl, Nat.mul_pow, Nat.pow_one]
    generalize 2 ^ 1074 = A
    generalize 2 ^ p.toNat = B
    generalize 5 ^ p.toNat = C
    generalize 2 ^ (p - q).toNat = D
    rw [show N * C * D * (B * (A * 2)) = N * C * D * B * A * 2 by simp only [Nat.mul_assoc]]
    ac_rfl
  · unfold tenDen
    rw [show (10 : Nat) = 5 * 2 from rfl, Nat.mul_pow]
    have e : M * 5 ^ (-p).toNat * 2 ^ (q - p).toNat * 2 ^ (p.toNat + 1075) = M * 5 ^ (-p).toNat * 2 ^ ((q - p).toNat + (p.toNat + 1075)) := by
      rw [Nat.pow_add 2 (q - p).toNat]; simp only [Nat.mul_assoc]
    have e2 : 5 ^ (-p).toNat * 2 ^ (-p).toNat * (M * 2 ^ E) * 2 ^ (p - q).toNat = M * 5 ^ (-p).toNat * 2 ^ ((-p).toNat + E + (p - q).toNat) := by
      rw [Nat.pow_add, Nat.pow_add]; ac_rfl
    rw [e, e2, show (q - p).toNat + (p.toNat + 1075) = (-p).toNat + E + (p - q).toNat by omega]

/-- The exponent found is bounded. -/
theorem scale_bound {d : Dec} {p : Nat × Int} {M x y : Nat} {lost : Bool} (hm : d.mant < 2 ^ 128) (h1 : -380 ≤ d.exp) (h2 : d.exp ≤ 309)
    (hp : pow5 d.exp.natAbs = some p) (m1 : 2 ^ 127 ≤ M) (h : Bracket (numOf d.mant d.exp (scaled p)) (denOf d.exp (scaled p)) M x y lost) :
    (x : Int) - y < 2312 := by
  obtain ⟨p', hp', p1, p2, p3, p4⟩ := pow5_some (k := d.exp.natAbs) (by omega)
  rw [hp] at hp'
  cases hp'
  have hS : scaled p < 2 ^ 1055 := by
    unfold scaled
    have : p.1 * 2 ^ (p.2 + 127).toNat < 2 ^ 128 * 2 ^ (p.2 + 127).toNat := (Nat.mul_lt_mul_right (Nat.two_pow_pos _)).mpr p2
    rw [← Nat.pow_add] at this
    exact Nat.lt_of_lt_of_le this (two_le (by omega))
  have hn : numOf d.mant d.exp (scaled p) < 2 ^ 2439 := by
    unfold numOf
    split
    · exact prod_lt (i := 128) (j := 1055) (k := 1256) hm (Nat.le_of_lt hS) (two_le (by omega)) (by decide)
    · have := prod_lt (i := 128) (j := 1201) (k := 0) (n := 2439) hm (Nat.le_refl (2 ^ 1201)) (Nat.le_refl (2 ^ 0)) (by decide)
      rw [Nat.pow_zero, Nat.mul_one] at this
      exact this
  have hd : 1 ≤ denOf d.exp (scaled p) := by
    unfold denOf
    split
    · omega
    · exact Nat.mul_pos (Nat.mul_pos (by omega) (Nat.two_pow_pos _)) (Nat.two_pow_pos _)
  have k1 : 2 ^ 127 * 2 ^ x ≤ denOf d.exp (scaled p) * M * 2 ^ x :=
    Nat.mul_le_mul_right _ (Nat.le_trans m1 (Nat.le_mul_of_pos_left _ hd))
  have k2 : numOf d.mant d.exp (scaled p) * 2 ^ y < 2 ^ 2439 * 2 ^ y := (Nat.mul_lt_mul_right (Nat.two_pow_pos _)).mpr hn
  have k3 := Nat.lt_of_le_of_lt (Nat.le_trans k1 h.1) k2
  rw [← Nat.pow_add, ← Nat.pow_add] at k3
  have := (Nat.pow_lt_pow_iff_right (by omega)).mp k3
  omega

/-- Up to 4000 digits every store is within the buffers. -/
theorem convert_some {d : Dec} {D pt : List Int} {l : Nat} (hpt : pt = [] ∨ pt = [46]) (hb : Body D pt d.digits)
    (ht : d.total = D.length) (hl : d.truncated = true → d.total = l + 38) (hl2 : l ≤ 3962) (hm : d.mant < 2 ^ 128) : ∃ r, decToDouble d = some r := by
  unfold decToDouble
  by_cases h0 : d.mant = 0
  · rw [if_pos h0]; exact ⟨_, rfl⟩
  rw [if_neg h0]
  by_cases h2 : 309 < d.exp
  · rw [if_pos h2]; exact ⟨_, rfl⟩
  rw [if_neg h2]
  by_cases h1 : d.exp < -380
  · rw [if_pos h1]; exact ⟨_, rfl⟩
  rw [if_neg h1]
  obtain ⟨p, M, b, lost, x, y, hp, hs, m1, m2, hbr, hxy⟩ := scale_eq (d := d) (by omega) hm (by omega) (by omega)
  have hbnd := scale_bound hm (by omega) (by omega) hp m1 hbr
  rw [hs, Option.bind_some, assemble_eq d b _ m1 m2]
  have hlow := low_bound b m1 m2
  have hr : M / 2 ^ shiftOf b < 2 ^ 53 := by omega
  have hes := exp_shift b
  have hEs : (expOf b : Int) = (b + 1149).toNat := rfl
  unfold goUp
  split
  · split
    · rename_i htr
      obtain ⟨r, hr, -⟩ := halfway_room (d := d) (M := 2 * (M / 2 ^ shiftOf b) + 1) (q := shiftOf b + b - 1) hpt hb ht (hl htr) hl2
        (by omega) (by omega) (by omega) (by omega) (by omega)
      rw [hr]; exact ⟨_, rfl⟩
    · exact ⟨_, rfl⟩
  · exact ⟨_, rfl⟩

/-! ### Digits beyond the 38th -/

/-- The first 38 digits, made odd if anything but zeros follows. -/
def kept (n l : Nat) : Nat := if n % 10 ^ l = 0 then n / 10 ^ l else n / 10 ^ l ||| 1

/-- float.h:106-108. -/
theorem feed_more {ds : List Int} (hd : Digits ds) : ∀ (a : Acc), 38 ≤ a.consumed →
    (ds.foldl feed a).x = (if value 10 ds = 0 then a.x else a.x ||| 1) ∧
    (ds.foldl feed a).truncated = (a.truncated || decide (value 10 ds ≠ 0)) := by
  induction ds with
  | nil => intro a _; exact ⟨(if_pos rfl).symm, (Bool.or_false _).symm⟩
  | cons c s ih =>
    intro a h
    obtain ⟨h1, h2⟩ := digits_cons hd
    have hv : value 10 (c :: s) = 0 ↔ dig c = 0 ∧ value 10 s = 0 := by
      rw [value_cons, digitVal10 h1, ← dig_eq h1, Nat.add_eq_zero_iff, Nat.mul_eq_zero]
      have := Nat.pow_pos (n := s.length) (show 0 < 10 by omega)
      constructor
      · rintro ⟨g | g, k⟩
        · exact ⟨g, k⟩
        · omega
      · rintro ⟨g, k⟩; exact ⟨.inl g, k⟩
    rw [List.foldl_cons]
    by_cases z : dig c = 0
    · have e : feed a c = { a with consumed := a.consumed + 1 } := by
        unfold feed
        rw [if_neg (by omega), if_neg (fun h => h z)]
      obtain ⟨g1, g2⟩ := ih h2 { a with consumed := a.consumed + 1 } (by show 38 ≤ a.consumed + 1; omega)
      rw [e, g1, g2]
      simp only [hv, z, true_and, ne_eq, and_self]
    · have e : feed a c = { a with x := a.x ||| 1, truncated := true, consumed := a.consumed + 1 } := by
        unfold feed
        rw [if_neg (by omega), if_pos z]
      obtain ⟨g1, g2⟩ := ih h2 { a with x := a.x ||| 1, truncated := true, consumed := a.consumed + 1 } (by show 38 ≤ a.consumed + 1; omega)
      rw [e, g1, g2]
      have hne : ¬ value 10 (c :: s) = 0 := fun h => z (hv.mp h).1
      rw [if_neg hne, decide_eq_true hne, Bool.or_true, Bool.true_or]
      refine ⟨?_, rfl⟩
      split
      · rfl
      · show a.x ||| 1 ||| 1 = _
        rw [Nat.or_assoc, Nat.or_self]

/-- The decimal of a number with more than 38 significant digits. -/
theorem decOf_many {D : List Int} (hd : Digits D) {l : Nat} (h : D.length = l + 38) (places : Nat) (e : Int) (s : List Int) :
    decOf D places e s = ⟨kept (value 10 D) l, e - places + l, decide (value 10 D % 10 ^ l ≠ 0), s, l + 38⟩ := by
  obtain ⟨a, b, rfl, ha, hb⟩ : ∃ a b, D = a ++ b ∧ a.length = 38 ∧ b.length = l :=
    ⟨D.take 38, D.drop 38, (List.take_append_drop ..).symm, by rw [List.length_take]; omega, by rw [List.length_drop]; omega⟩
  obtain ⟨da, db⟩ := digits_append hd
  obtain ⟨f1, f2⟩ := feed_few da start (by show 0 + _ ≤ 38; omega) (by decide)
  obtain ⟨-, -, f3⟩ := fold_point a start
  obtain ⟨g1, g2⟩ := feed_more db (a.foldl feed start) (by rw [f3]; omega)
  have hx : (a.foldl feed start).x = value 10 a := f1.trans (by show 0 * _ + _ = _; omega)
  have hvb := value_lt db
  rw [hb] at hvb
  have hv : value 10 (a ++ b) = value 10 a * 10 ^ l + value 10 b := by rw [value_append, hb]
  have hpos := Nat.pow_pos (n := l) (show 0 < 10 by omega)
  have hmod : value 10 (a ++ b) % 10 ^ l = value 10 b := by
    rw [hv, Nat.mul_add_mod_self_right, Nat.mod_eq_of_lt hvb]
  have hdiv : value 10 (a ++ b) / 10 ^ l = value 10 a := by
    rw [hv, Nat.mul_comm, Nat.mul_add_div hpos, Nat.div_eq_of_lt hvb, Nat.add_zero]
  unfold decOf kept
  rw [List.foldl_append, g1, g2, hx, f2, hmod, hdiv, h]
  congr 1
  omega

/-! ### Rounding when digits were dropped -/

theorem cross_lt {a b c d m : Nat} (hb : 0 < b) (hd : 0 < d) (h : a * d = c * b) : a < b * m ↔ c < d * m := by
  have := cross_ge (m := m) hb hd h
  omega

theorem Bracket.cross {num den num' den' M x y : Nat} {lost : Bool} (hd : 0 < den) (hd' : 0 < den') (h : num * den' = num' * den)
    (hb : Bracket num den M x y lost) : Bracket num' den' M x y lost := by
  have e : num * 2 ^ y * den' = num' * 2 ^ y * den := by
    rw [show num * 2 ^ y * den' = num * den' * 2 ^ y by ac_rfl, h]; ac_rfl
  have c1 := cross_ge (m := M * 2 ^ x) hd hd' e
  have c2 := cross_lt (m := (M + 1) * 2 ^ x) hd hd' e
  have c3 := cross_le (m := M * 2 ^ x) hd hd' e
  simp only [← Nat.mul_assoc] at c1 c2 c3
  obtain ⟨h1, h2, h3⟩ := hb
  refine ⟨c1.mp h1, c2.mp h2, h3.trans ⟨fun q => ?_, fun q => ?_⟩⟩
  · exact Nat.le_antisymm (c3.mp (Nat.le_of_eq q)) (c1.mp (Nat.le_of_eq q.symm))
  · exact Nat.le_antisymm (c3.mpr (Nat.le_of_eq q)) (c1.mpr (Nat.le_of_eq q.symm))

theorem denOf_pos (e : Int) : 0 < denOf e (5 ^ e.natAbs * 2 ^ 127) := by
  unfold denOf
  split
  · omega
  · exact Nat.mul_pos (Nat.mul_pos (Nat.pow_pos (by omega)) (Nat.two_pow_pos _)) (Nat.two_pow_pos _)

theorem ten_eq (w : Nat) (e : Int) : numOf w e (5 ^ e.natAbs * 2 ^ 127) * tenDen e = tenNum w e * denOf e (5 ^ e.natAbs * 2 ^ 127) := by
  unfold numOf denOf tenNum tenDen
  by_cases c : 0 ≤ e
  · rw [if_pos c, if_pos c, show (-e).toNat = 0 by omega, Nat.pow_zero, Nat.mul_one, Nat.mul_one, show e.natAbs = e.toNat by omega]
    exact (ten_cross' w e.toNat 947 127 1074 rfl).symm
  · rw [if_neg c, if_neg c, show e.toNat = 0 by omega, Nat.pow_zero, Nat.mul_one, show e.natAbs = (-e).toNat by omega]
    exact ten_cross w (-e).toNat 1074 127 1201 rfl

/-- Dropping `l` digits. -/
theorem ten_drop (N l : Nat) (e : Int) : tenNum N (e - l) * (tenDen e * 10 ^ l) = N * (10 ^ e.toNat * 2 ^ 1074) * tenDen (e - l) := by
  unfold tenNum tenDen
  generalize 2 ^ 1074 = A
  have h : 10 ^ (e - l).toNat * (10 ^ (-e).toNat * 10 ^ l) = 10 ^ e.toNat * 10 ^ (-(e - l)).toNat := by
    rw [← Nat.pow_add, ← Nat.pow_add, ← Nat.pow_add]
    congr 1
    omega
  rw [show N * 10 ^ (e - l).toNat * A * (10 ^ (-e).toNat * 10 ^ l) = N * A * (10 ^ (e - l).toNat * (10 ^ (-e).toNat * 10 ^ l)) by ac_rfl, h]
  ac_rfl

theorem ulp_low {E r : Nat} (h : 1 ≤ E → 2 ^ 52 ≤ r) : 2 ^ E ≤ b64.ulp (E * 2 ^ 52 + r) := by
  unfold Fmt.ulp
  refine two_le ?_
  rw [show b64.f = 52 from rfl]
  omega

/-- Midpoints are far from patterns. -/
theorem mid_margin {n E k : Nat} (h1 : 2 ^ E ≤ b64.ulp n) (h2 : ∀ i, n = i + 1 → 2 ^ E ≤ 2 * b64.ulp i) :
    2 * mid b64 k + 2 ^ E ≤ 4 * b64.mag n ∨ 4 * b64.mag n + 2 ^ E ≤ 2 * mid b64 k := by
  rcases Nat.lt_or_ge k n with c | c
  · obtain ⟨i, rfl⟩ : ∃ i, n = i + 1 := ⟨n - 1, by omega⟩
    have := h2 i rfl
    have m1 := b64.mag_mono (show k ≤ i by omega)
    have m2 := b64.mag_mono (show k + 1 ≤ i + 1 by omega)
    have m3 := b64.mag_succ i
    unfold mid
    omega
  · have m1 := b64.mag_mono c
    have m2 := b64.mag_mono (show n + 1 ≤ k + 1 by omega)
    have m3 := b64.mag_succ n
    unfold mid
    omega

theorem margin_low {E r k : Nat} (h1 : 1 ≤ E → 2 ^ 52 ≤ r) (h2 : r ≤ 2 ^ 53) :
    2 * mid b64 k + 2 ^ E ≤ 4 * (r * 2 ^ E) ∨ 4 * (r * 2 ^ E) + 2 ^ E ≤ 2 * mid b64 k := by
  rw [← mag_low h1 h2]
  refine mid_margin (ulp_low h1) ?_
  intro i hi
  cases E with
  | zero =>
    have := Nat.two_pow_pos (i / 2 ^ b64.f - 1)
    show 1 ≤ 2 * 2 ^ (i / 2 ^ b64.f - 1)
    omega
  | succ E =>
    have := h1 (by omega)
    have : 2 ^ E ≤ b64.ulp i := by
      unfold Fmt.ulp
      refine two_le ?_
      rw [show b64.f = 52 from rfl]
      omega
    rw [Nat.pow_succ]
    omega

theorem or_one (x : Nat) : x ||| 1 = if x % 2 = 0 then x + 1 else x := by
  have h := or_low (a := x / 2) (b := 1) (k := 1) (by decide)
  have d : x = x / 2 * 2 ^ 1 + x % 2 := by omega
  rcases Nat.mod_two_eq_zero_or_one x with c | c
  · rw [if_pos c]
    rw [show x / 2 * 2 ^ 1 = x by omega] at h
    exact h
  · rw [if_neg (by omega)]
    have e : x / 2 * 2 ^ 1 ||| 1 = x := by rw [h]; omega
    conv => lhs; rw [← e]
    rw [Nat.or_assoc, Nat.or_self, e]

/-- Decisions about the number as in the interval between neighbours. -/
theorem clamp_nearest {V X den M unit : Nat} {b : Int} (up : Bool) (hd : 0 < den) (m1 : 2 ^ 127 ≤ M) (m2 : M < 2 ^ 128)
    (l1 : den * (M / 2 ^ shiftOf b * 2 ^ expOf b) ≤ X) (l2 : X ≤ den * ((M / 2 ^ shiftOf b + 1) * 2 ^ expOf b))
    (v1 : X < V + unit) (v2 : V < X + unit) (hu : 4 * unit ≤ den * 2 ^ expOf b)
    (u1 : up = false → 2 * V < den * ((2 * (M / 2 ^ shiftOf b) + 1) * 2 ^ expOf b) ∨
      2 * V = den * ((2 * (M / 2 ^ shiftOf b) + 1) * 2 ^ expOf b) ∧ M / 2 ^ shiftOf b % 2 = 0)
    (u2 : up = true → den * ((2 * (M / 2 ^ shiftOf b) + 1) * 2 ^ expOf b) < 2 * V ∨
      2 * V = den * ((2 * (M / 2 ^ shiftOf b) + 1) * 2 ^ expOf b) ∧ M / 2 ^ shiftOf b % 2 = 1) :
    Nearest b64 V den (min (low M b + bit (up = true)) b64.inf) := by
  have hb := low_bound b m1 m2
  have r1 : 1 ≤ expOf b → 2 ^ 52 ≤ M / 2 ^ shiftOf b := by unfold expOf; omega
  have r2 : M / 2 ^ shiftOf b < 2 ^ 53 := by omega
  have eU : ∀ z, den * (z * 2 ^ expOf b) = z * (den * 2 ^ expOf b) := by intro z; ac_rfl
  have hu0 : 0 < den * 2 ^ expOf b := Nat.mul_pos hd (Nat.two_pow_pos _)
  have e1 : (M / 2 ^ shiftOf b + 1) * (den * 2 ^ expOf b) = M / 2 ^ shiftOf b * (den * 2 ^ expOf b) + den * 2 ^ expOf b := by
    rw [Nat.add_mul, Nat.one_mul]
  have e2 : (2 * (M / 2 ^ shiftOf b) + 1) * (den * 2 ^ expOf b) = 2 * (M / 2 ^ shiftOf b * (den * 2 ^ expOf b)) + den * 2 ^ expOf b := by
    rw [Nat.add_mul, Nat.one_mul, Nat.mul_assoc]
  -- the number, moved between the neighbours
  have hW : ∃ W, W = max (M / 2 ^ shiftOf b * (den * 2 ^ expOf b)) (min V ((M / 2 ^ shiftOf b + 1) * (den * 2 ^ expOf b))) := ⟨_, rfl⟩
  obtain ⟨W, hW⟩ := hW
  have hn : Nearest b64 W den (min (low M b + bit (up = true)) b64.inf) := by
    refine nearest_low up hd m1 m2 ?_ ?_ ?_ ?_
    · rw [eU, hW]; exact Nat.le_max_left ..
    · rw [eU]; omega
    · intro h
      have := u1 h
      rw [eU, e2] at this ⊢
      omega
    · intro h
      have := u2 h
      rw [eU, e2] at this ⊢
      omega
  refine Same.nearest ?_ hd hd hn
  intro k _
  have g1 := margin_low (E := expOf b) (k := k) r1 (by omega)
  have g2 := margin_low (E := expOf b) (r := M / 2 ^ shiftOf b + 1) (k := k) (by omega) (by omega)
  have lift : ∀ z, (2 * mid b64 k + 2 ^ expOf b ≤ 4 * (z * 2 ^ expOf b) ∨ 4 * (z * 2 ^ expOf b) + 2 ^ expOf b ≤ 2 * mid b64 k) →
      2 * (den * mid b64 k) + den * 2 ^ expOf b ≤ 4 * (z * (den * 2 ^ expOf b)) ∨
      4 * (z * (den * 2 ^ expOf b)) + den * 2 ^ expOf b ≤ 2 * (den * mid b64 k) := by
    intro z h
    have s1 : den * (2 * mid b64 k + 2 ^ expOf b) = 2 * (den * mid b64 k) + den * 2 ^ expOf b := by rw [Nat.mul_add]; congr 1; ac_rfl
    have s2 : den * (4 * (z * 2 ^ expOf b)) = 4 * (z * (den * 2 ^ expOf b)) := by ac_rfl
    have s3 : den * (4 * (z * 2 ^ expOf b) + 2 ^ expOf b) = 4 * (z * (den * 2 ^ expOf b)) + den * 2 ^ expOf b := by rw [Nat.mul_add, s2]
    have s4 : den * (2 * mid b64 k) = 2 * (den * mid b64 k) := by ac_rfl
    rcases h with h | h
    · have := Nat.mul_le_mul_left den h
      rw [s1, s2] at this
      exact .inl this
    · have := Nat.mul_le_mul_left den h
      rw [s3, s4] at this
      exact .inr this
  have g1 := lift _ g1
  have g2 := lift _ g2
  rw [eU] at l1 l2
  rw [e1] at g2 l2 hW
  generalize M / 2 ^ shiftOf b * (den * 2 ^ expOf b) = A at *
  generalize den * 2 ^ expOf b = u at *
  generalize den * mid b64 k = μ at *
  omega

theorem unit_le {m r unit u : Nat} (hm : 10 ^ 37 ≤ m) (hr : r < 2 ^ 53) (h : m * unit ≤ (r + 1) * u) : 4 * unit ≤ u := by
  have h1 : 2 ^ 55 * unit ≤ m * unit := Nat.mul_le_mul_right _ (Nat.le_trans (by decide) hm)
  have h2 : (r + 1) * u ≤ 2 ^ 53 * u := Nat.mul_le_mul_right _ (by omega)
  omega

theorem exp_small {m r E : Nat} {e : Int} (hm : m < 2 ^ 128) (he : e ≤ 54) (hr : 1 ≤ E → 2 ^ 52 ≤ r)
    (h : tenDen e * (r * 2 ^ E) ≤ tenNum m e) : E < 1400 := by
  rcases Nat.eq_zero_or_pos E with c | c
  · omega
  have h1 : 2 ^ 52 * 2 ^ E ≤ tenDen e * (r * 2 ^ E) :=
    Nat.le_trans (Nat.mul_le_mul_right _ (hr c)) (Nat.le_mul_of_pos_left _ (tenDen_pos e))
  have h2 : tenNum m e < 2 ^ 1382 := by
    unfold tenNum
    refine prod_lt (i := 128) (j := 180) (k := 1074) hm ?_ (Nat.le_refl _) (by decide)
    exact Nat.le_trans (Nat.pow_le_pow_right (by omega) (show e.toNat ≤ 54 by omega)) (by decide)
  have h3 := Nat.lt_of_le_of_lt (Nat.le_trans h1 h) h2
  rw [← Nat.pow_add] at h3
  have := exp_lt h3
  omega

theorem swap3 (a b c : Nat) : a * (b * c) = a * c * b := by ac_rfl
theorem swap4 (a b c : Nat) : 2 * (a * c) * b = 2 * a * (b * c) := by ac_rfl

/-- More than 38 digits and a small exponent. -/
theorem convert_long {d : Dec} {D pt : List Int} {N l : Nat} (hpt : pt = [] ∨ pt = [46]) (hb : Body D pt d.digits)
    (ht : d.total = D.length) (hl : d.total = l + 38) (hl2 : l ≤ 3962) (hN : N = value 10 D) (htr : d.truncated = true)
    (hmod : N % 10 ^ l ≠ 0) (hm : d.mant = N / 10 ^ l ||| 1) (n1 : 10 ^ 37 ≤ N / 10 ^ l) (n2 : N / 10 ^ l < 10 ^ 38)
    (e1 : -54 ≤ d.exp) (e2 : d.exp ≤ 54) (hH : N / 10 ^ l % 2 = 0 ∨ Clear N l (d.exp - l)) :
    ∃ r, decToDouble d = some r ∧ Nearest b64 (tenNum N (d.exp - l)) (tenDen (d.exp - l)) r := by
  have hm' := or_one (N / 10 ^ l)
  rw [← hm] at hm'
  have hd1 : d.mant ≤ N / 10 ^ l + 1 ∧ N / 10 ^ l ≤ d.mant := by split at hm' <;> omega
  have hd2 : d.mant < 2 ^ 128 := Nat.lt_of_le_of_lt hd1.1 (Nat.lt_of_lt_of_le (Nat.succ_lt_succ n2) (by decide))
  unfold decToDouble
  rw [if_neg (by omega), if_neg (by omega), if_neg (by omega)]
  obtain ⟨p, M, b, lost, x, y, hp, hs, m1, m2, hbr, hxy⟩ := scale_eq (d := d) (by omega) hd2 (by omega) (by omega)
  have hbnd := scale_bound hd2 (by omega) (by omega) hp m1 hbr
  rw [pow5_exact (by omega) hp] at hbr
  rw [hs, Option.bind_some, assemble_eq d b _ m1 m2]
  -- everything over the denominator `tenDen e * 10 ^ l`
  have hL := Nat.pow_pos (n := l) (show 0 < 10 by omega)
  have hbr := (hbr.cross (denOf_pos _) (tenDen_pos _) (ten_eq d.mant d.exp))
  have hes := exp_shift b
  have hsh := hbr.shift (x' := expOf b) (y' := shiftOf b) (by omega)
  have hdp : 0 < tenDen d.exp * 10 ^ l := Nat.mul_pos (tenDen_pos _) hL
  have hE := fun g1 => exp_small (r := M / 2 ^ shiftOf b) (E := expOf b) hd2 e2 (by
    have := low_bound b m1 m2
    unfold expOf
    omega) g1
  have hE := hE (hsh.bounds (shift_pos b)).1
  have hsh := hsh.cross (num' := tenNum d.mant d.exp * 10 ^ l) (den' := tenDen d.exp * 10 ^ l) (tenDen_pos _) hdp (swap3 ..)
  obtain ⟨g1, g2, g3, -, -⟩ := hsh.bounds (shift_pos b)
  have hX : tenNum d.mant d.exp * 10 ^ l = d.mant * (10 ^ d.exp.toNat * 2 ^ 1074 * 10 ^ l) := by
    unfold tenNum
    generalize 2 ^ 1074 = A
    ac_rfl
  have hX0 : tenNum (N / 10 ^ l) d.exp * 10 ^ l = N / 10 ^ l * (10 ^ d.exp.toNat * 2 ^ 1074 * 10 ^ l) := by
    unfold tenNum
    generalize 2 ^ 1074 = A
    ac_rfl
  have hc0 : 0 < 10 ^ d.exp.toNat * 2 ^ 1074 := Nat.mul_pos (Nat.pow_pos (by omega)) (Nat.two_pow_pos _)
  have hdm := Nat.div_add_mod N (10 ^ l)
  have hlt := Nat.mod_lt N hL
  have hcross := ten_drop N l d.exp
  have hlow := low_bound b m1 m2
  have hr53 : M / 2 ^ shiftOf b < 2 ^ 53 := by omega
  have hr1 : 1 ≤ expOf b → 2 ^ 52 ≤ M / 2 ^ shiftOf b := by unfold expOf; omega
  have hEi : (expOf b : Int) = (b + 1149).toNat := rfl
  -- the number over the same denominator
  have hV0 : N / 10 ^ l * (10 ^ d.exp.toNat * 2 ^ 1074 * 10 ^ l) < N * (10 ^ d.exp.toNat * 2 ^ 1074) := by
    rw [show N / 10 ^ l * (10 ^ d.exp.toNat * 2 ^ 1074 * 10 ^ l) = 10 ^ l * (N / 10 ^ l) * (10 ^ d.exp.toNat * 2 ^ 1074) by
      generalize 10 ^ d.exp.toNat * 2 ^ 1074 = A; ac_rfl]
    exact (Nat.mul_lt_mul_right hc0).mpr (by omega)
  have hV1 : N * (10 ^ d.exp.toNat * 2 ^ 1074) < (N / 10 ^ l + 1) * (10 ^ d.exp.toNat * 2 ^ 1074 * 10 ^ l) := by
    rw [show (N / 10 ^ l + 1) * (10 ^ d.exp.toNat * 2 ^ 1074 * 10 ^ l) = 10 ^ l * (N / 10 ^ l + 1) * (10 ^ d.exp.toNat * 2 ^ 1074) by
      generalize 10 ^ d.exp.toNat * 2 ^ 1074 = A; ac_rfl]
    exact (Nat.mul_lt_mul_right hc0).mpr (by rw [Nat.mul_add]; omega)
  have hVeq : 2 * tenNum N (d.exp - l) * (tenDen d.exp * 10 ^ l) = 2 * (N * (10 ^ d.exp.toNat * 2 ^ 1074)) * tenDen (d.exp - l) := by
    rw [Nat.mul_assoc 2, hcross, ← Nat.mul_assoc 2]
  obtain ⟨up, hup, u1, u2⟩ : ∃ up, goUp d M b (d.truncated || lost) = some up ∧
      (up = false → 2 * (N * (10 ^ d.exp.toNat * 2 ^ 1074)) < tenDen d.exp * 10 ^ l * ((2 * (M / 2 ^ shiftOf b) + 1) * 2 ^ expOf b) ∨
        2 * (N * (10 ^ d.exp.toNat * 2 ^ 1074)) = tenDen d.exp * 10 ^ l * ((2 * (M / 2 ^ shiftOf b) + 1) * 2 ^ expOf b) ∧ M / 2 ^ shiftOf b % 2 = 0) ∧
      (up = true → tenDen d.exp * 10 ^ l * ((2 * (M / 2 ^ shiftOf b) + 1) * 2 ^ expOf b) < 2 * (N * (10 ^ d.exp.toNat * 2 ^ 1074)) ∨
        2 * (N * (10 ^ d.exp.toNat * 2 ^ 1074)) = tenDen d.exp * 10 ^ l * ((2 * (M / 2 ^ shiftOf b) + 1) * 2 ^ expOf b) ∧ M / 2 ^ shiftOf b % 2 = 1) := by
    unfold goUp
    by_cases c : M / 2 ^ (shiftOf b - 1) % 2 = 1
    · rw [if_pos c, if_pos htr]
      obtain ⟨r, hr, ho⟩ := halfway_room (d := d) (M := 2 * (M / 2 ^ shiftOf b) + 1) (q := shiftOf b + b - 1) hpt hb ht hl hl2
        (by omega) (by omega) (by omega) (by omega) (by omega)
      rw [← hN] at ho
      have ho := ordered_ten (E := expOf b) (by omega) ho
      have k1 := cross_le (m := (2 * (M / 2 ^ shiftOf b) + 1) * 2 ^ expOf b) (tenDen_pos _) hdp hVeq
      have k2 := cross_ge (m := (2 * (M / 2 ^ shiftOf b) + 1) * 2 ^ expOf b) (tenDen_pos _) hdp hVeq
      unfold Ordered at ho
      rw [hr, Option.bind_some]
      refine ⟨_, rfl, ?_, ?_⟩
      · intro h
        rw [Bool.or_eq_false_iff, decide_eq_false_iff_not, decide_eq_false_iff_not] at h
        omega
      · intro h
        rw [Bool.or_eq_true, decide_eq_true_eq, decide_eq_true_eq] at h
        omega
    · rw [if_neg c]
      refine ⟨false, rfl, fun _ => .inl ?_, fun h => nomatch h⟩
      have g3 := g3 (by omega)
      split at hm'
      · rename_i he
        rw [hX, hm'] at g3
        omega
      · rename_i ho
        have hC := hH.resolve_left ho
        have hmid : mid b64 (low M b) = (2 * (M / 2 ^ shiftOf b) + 1) * 2 ^ expOf b := by
          have a0 := mag_low (E := expOf b) hr1 (by omega)
          have a1 := mag_low (E := expOf b) (r := M / 2 ^ shiftOf b + 1) (by omega) (by omega)
          rw [← Nat.add_assoc] at a1
          unfold mid low
          rw [a0, a1, ← Nat.add_mul]
          congr 1
          omega
        have hC : ¬ (2 * tenNum (N / 10 ^ l) (d.exp - l + l) < tenDen (d.exp - l + l) * mid b64 (low M b) ∧
            tenDen (d.exp - l) * mid b64 (low M b) ≤ 2 * tenNum N (d.exp - l)) := hC (low M b) (by
          rw [show b64.inf = 2047 * 2 ^ 52 by decide]
          unfold low
          omega)
        rw [hmid, show d.exp - l + l = d.exp by omega] at hC
        have k2 := cross_ge (m := (2 * (M / 2 ^ shiftOf b) + 1) * 2 ^ expOf b) (tenDen_pos _) hdp hVeq
        have k3 : 2 * tenNum (N / 10 ^ l) d.exp < tenDen d.exp * ((2 * (M / 2 ^ shiftOf b) + 1) * 2 ^ expOf b) := by
          rw [hm'] at g3
          refine (cross_lt (a := 2 * (tenNum (N / 10 ^ l) d.exp * 10 ^ l)) hdp (tenDen_pos _) (swap4 ..)).mp g3
        omega
  rw [hup, Option.bind_some]
  refine ⟨_, rfl, ?_⟩
  have hn := clamp_nearest (V := N * (10 ^ d.exp.toNat * 2 ^ 1074)) (X := tenNum d.mant d.exp * 10 ^ l)
    (unit := 10 ^ d.exp.toNat * 2 ^ 1074 * 10 ^ l) up hdp m1 m2 g1 g2 ?_ ?_ ?_ u1 u2
  · exact (same_of_eq hdp (tenDen_pos _) hcross.symm).nearest hdp (tenDen_pos _) hn
  · rw [hX]
    refine Nat.lt_of_le_of_lt (Nat.mul_le_mul_right _ hd1.1) ?_
    rw [Nat.add_mul, Nat.one_mul]
    omega
  · rw [hX]
    refine Nat.lt_of_lt_of_le hV1 ?_
    rw [Nat.add_mul, Nat.one_mul]
    exact Nat.add_le_add_right (Nat.mul_le_mul_right _ hd1.2) _
  · rw [hX] at g2
    refine unit_le (m := d.mant) (Nat.le_trans n1 hd1.2) hr53 (Nat.le_trans g2 (Nat.le_of_eq ?_))
    ac_rfl

/-! ### The strings -/

theorem sig_many {ds : List Int} (hd : Digits ds) {l : Nat} (h1 : 10 ^ (l + 37) ≤ value 10 ds) (h2 : value 10 ds < 10 ^ (l + 38)) :
    (sig ds).length = l + 38 := by
  have g1 := sig_length hd h2
  have g2 := value_lt (sig_digits hd)
  rw [sig_value] at g2
  have := (Nat.pow_lt_pow_iff_right (by omega)).mp (Nat.lt_of_le_of_lt h1 g2)
  omega

theorem ten_zeros {n l : Nat} (t : Int) (h : n % 10 ^ l = 0) : tenNum (n / 10 ^ l) (t + l) * tenDen t = tenNum n t * tenDen (t + l) := by
  have hL := Nat.pow_pos (n := l) (show 0 < 10 by omega)
  have hd := ten_drop n l (t + l)
  rw [show t + l - l = t by omega] at hd
  have hn : n = n / 10 ^ l * 10 ^ l := by
    have := Nat.div_add_mod n (10 ^ l)
    rw [h, Nat.add_zero, Nat.mul_comm] at this
    exact this.symm
  apply Nat.eq_of_mul_eq_mul_right hL
  have e1 : tenNum n t * tenDen (t + l) * 10 ^ l = tenNum n t * (tenDen (t + l) * 10 ^ l) := Nat.mul_assoc ..
  rw [e1, hd]
  conv => rhs; rw [hn]
  unfold tenNum
  generalize 2 ^ 1074 = A
  ac_rfl

/-- What `decimal_to_double_` makes of the digits of a long number. -/
theorem decimal_long {ds pt s : List Int} {n l places : Nat} {e : Int} (hd : Digits ds) (hn : n = value 10 ds) (hpt : pt = [] ∨ pt = [46])
    (hb : Body (sig ds) pt s) (hp : places ≤ 31000) (hl : Long n l (e - places)) :
    ∃ r, decToDouble (decOf (sig ds) places (capped e) s) = some r ∧ Nearest b64 (tenNum n (e - places)) (tenDen (e - places)) r := by
  obtain ⟨l1, l2, l3, l4, l5, l6⟩ := hl
  have hlen := sig_many hd (by rw [← hn]; exact l2) (by rw [← hn]; exact l3)
  have hc : capped e = e := by
    unfold capped
    rw [if_neg (by omega), if_neg (by omega)]
  have hL := Nat.pow_pos (n := l) (show 0 < 10 by omega)
  have q1 : 10 ^ 37 ≤ n / 10 ^ l := by
    rw [Nat.le_div_iff_mul_le hL, ← Nat.pow_add, Nat.add_comm]
    exact l2
  have q2 : n / 10 ^ l < 10 ^ 38 := by
    rw [Nat.div_lt_iff_lt_mul hL, ← Nat.pow_add, Nat.add_comm 38]
    exact l3
  rw [decOf_many (sig_digits hd) hlen, sig_value, ← hn, hc]
  by_cases z : n % 10 ^ l = 0
  · rw [decide_eq_false (fun h => h z)]
    unfold kept
    rw [if_pos z]
    obtain ⟨r, hr, hnr⟩ := convert_plain (d := ⟨n / 10 ^ l, e - places + l, false, s, l + 38⟩) rfl (Nat.lt_trans q2 (by decide))
      (.inl (by show (e - places + l).natAbs ≤ 54; omega))
    exact ⟨r, hr, (same_of_eq (tenDen_pos _) (tenDen_pos _) (ten_zeros (e - places) z)).nearest (tenDen_pos _) (tenDen_pos _) hnr⟩
  · rw [decide_eq_true z]
    unfold kept
    rw [if_neg z]
    have key := convert_long (d := ⟨n / 10 ^ l ||| 1, e - places + l, true, s, l + 38⟩) (D := sig ds) (N := n) (l := l) hpt hb hlen.symm rfl l1
      (by rw [sig_value]; exact hn) rfl z rfl q1 q2 l4 l5
    rw [show e - (places : Int) + l - l = e - places by omega] at key
    exact key (l6.resolve_left z)

/-- Every store is within the buffers if there are at most 4000 digits. -/
theorem decimal_some {ds pt s : List Int} {n places : Nat} {e : Int} (hd : Digits ds) (hn : n = value 10 ds) (hpt : pt = [] ∨ pt = [46])
    (hb : Body (sig ds) pt s) (h : n < 10 ^ 4000) : ∃ r, decToDouble (decOf (sig ds) places e s) = some r := by
  rw [hn] at h
  have hlen := sig_length hd h
  rcases Nat.lt_or_ge (sig ds).length 39 with c | c
  · have hv : value 10 ds < 10 ^ 38 := by
      rw [← sig_value]
      exact Nat.lt_of_lt_of_le (value_lt (sig_digits hd)) (Nat.pow_le_pow_right (by omega) (by omega))
    rw [decOf_few hd hv]
    exact convert_some (l := 0) hpt hb rfl (fun h => nomatch h) (by omega) (Nat.lt_trans hv (by decide))
  · obtain ⟨l, hl⟩ : ∃ l, (sig ds).length = l + 38 := ⟨(sig ds).length - 38, by omega⟩
    rw [decOf_many (sig_digits hd) hl, sig_value]
    refine convert_some (l := l) hpt hb hl.symm (fun _ => rfl) (by omega) ?_
    have hx : value 10 ds / 10 ^ l < 10 ^ 38 := by
      rw [Nat.div_lt_iff_lt_mul (Nat.pow_pos (by omega)), ← Nat.pow_add, Nat.add_comm 38, ← hl, ← sig_value]
      exact value_lt (sig_digits hd)
    show kept _ _ < _
    unfold kept
    have h128 : (10 : Nat) ^ 38 + 1 < 2 ^ 128 := by decide
    split
    · omega
    · rw [or_one]
      split <;> omega

theorem strtod_many {blank r w : List Int} {neg : Bool} {n l : Nat} {t : Int} (hc : IsString (blank ++ r)) (hb : Blank blank)
    (hr : ∀ c ∈ r.head?, ¬ White c) (hL : Longest r w neg n t) (hx : ¬ Hex r) (hlen : w.length ≤ 31000) (hn : Long n l t) :
    ∃ m stop, Rounds b64 n t m ∧ strtod (blank ++ r) = some ⟨b64.pack neg m, stop, m = b64.inf⟩ := by
  obtain ⟨sign, ip, point, fp, ex, e, s, hw, hs, hi, hf, he, hp, hv, ht, ⟨pt, hpt, hbody⟩, heq⟩ := parse_subject double hc hb hr hL hx
  have hfl : fp.length ≤ 31000 := by
    rw [hw] at hlen
    simp only [List.length_append] at hlen
    omega
  have hd : Digits (ip ++ fp) := fun c h => (List.mem_append.mp h).elim (hi c) (hf c)
  obtain ⟨m, hm, hmn⟩ := decimal_long hd hv hpt hbody hfl (by rw [← ht]; exact hn)
  rw [← ht, ← rounds64] at hmn
  have hms : m < b64.signBit := Nat.lt_of_le_of_lt hmn.le Fmt.inf_lt
  refine ⟨m, blank.length + w.length - if value 10 ip = 0 ∧ point = [46] ∧ fp = [] ∧ ex = [] then 1 else 0, hmn, ?_⟩
  unfold strtod
  rw [heq]
  show (decToDouble _).bind _ = _
  rw [hm, Option.bind_some]
  show some _ = some _
  rw [show double.fmt = b64 from rfl, Fmt.abs_of_lt hms]

theorem strtof_many {blank r w : List Int} {neg : Bool} {n l : Nat} {t : Int} (hc : IsString (blank ++ r)) (hb : Blank blank)
    (hr : ∀ c ∈ r.head?, ¬ White c) (hL : Longest r w neg n t) (hx : ¬ Hex r) (hlen : w.length ≤ 31000) (hn : Long n l t)
    (hmid : ∀ y k, Rounds b64 n t y → k + 1 ≤ b32.inf → 2 * b64.mag y = mid b32 k * 2 ^ 925 → tenNum n t = tenDen t * b64.mag y)
    (hlow : ∀ y, Rounds b64 n t y → y % 2 ^ 29 ≠ 2 ^ 28) :
    ∃ m stop, Rounds b32 n t m ∧ strtof (blank ++ r) = some ⟨b32.pack neg m, stop, m = b32.inf⟩ := by
  obtain ⟨sign, ip, point, fp, ex, e, s, hw, hs, hi, hf, he, hp, hv, ht, ⟨pt, hpt, hbody⟩, heq⟩ := parse_subject single hc hb hr hL hx
  have hfl : fp.length ≤ 31000 := by
    rw [hw] at hlen
    simp only [List.length_append] at hlen
    omega
  have hd : Digits (ip ++ fp) := fun c h => (List.mem_append.mp h).elim (hi c) (hf c)
  obtain ⟨y, hy, hyn⟩ := decimal_long hd hv hpt hbody hfl (by rw [← ht]; exact hn)
  rw [← ht] at hyn
  have hnear := double_rounding (tenDen_pos t) hyn (fun k => hmid y k (rounds64.mpr hyn)) rfl
  have hmn : Rounds b32 n t (b64.conv b32 y) := by
    refine (same_of_eq (Nat.mul_pos (tenDen_pos t) (Nat.two_pow_pos 1074)) (Nat.pow_pos (by omega)) ?_).nearest
      (Nat.mul_pos (tenDen_pos t) (Nat.two_pow_pos 1074)) (Nat.pow_pos (by omega)) hnear
    unfold tenNum tenDen
    rw [unit32]
    generalize 2 ^ 1074 = A
    generalize 2 ^ 149 = B
    ac_rfl
  have hms : b64.conv b32 y < b32.signBit := Nat.lt_of_le_of_lt hmn.le Fmt.inf_lt
  refine ⟨_, blank.length + w.length - if value 10 ip = 0 ∧ point = [46] ∧ fp = [] ∧ ex = [] then 1 else 0, hmn, ?_⟩
  unfold strtof
  rw [heq]
  show (decToFloat _).bind _ = _
  unfold decToFloat
  rw [hy, Option.bind_some, Option.bind_some, if_neg fun h => hlow y (rounds64.mpr hyn) h.1]
  rw [show single.fmt = b32 from rfl, Fmt.abs_of_lt hms]

theorem defined {blank r w : List Int} {neg : Bool} {n : Nat} {t : Int} (hc : IsString (blank ++ r)) (hb : Blank blank)
    (hr : ∀ c ∈ r.head?, ¬ White c) (hL : Longest r w neg n t) (hx : ¬ Hex r) (hn : n < 10 ^ 4000) :
    (∃ a, strtod (blank ++ r) = some a) ∧ ∃ b, strtof (blank ++ r) = some b := by
  constructor
  · obtain ⟨sign, ip, point, fp, ex, e, s, hw, hs, hi, hf, he, hp, hv, ht, ⟨pt, hpt, hbody⟩, heq⟩ := parse_subject double hc hb hr hL hx
    have hd : Digits (ip ++ fp) := fun c h => (List.mem_append.mp h).elim (hi c) (hf c)
    obtain ⟨m, hm⟩ := decimal_some (places := fp.length) (e := capped e) hd hv hpt hbody hn
    unfold strtod
    rw [heq]
    show ∃ a, (decToDouble _).bind _ = _
    rw [hm]
    exact ⟨_, rfl⟩
  · obtain ⟨sign, ip, point, fp, ex, e, s, hw, hs, hi, hf, he, hp, hv, ht, ⟨pt, hpt, hbody⟩, heq⟩ := parse_subject single hc hb hr hL hx
    have hd : Digits (ip ++ fp) := fun c h => (List.mem_append.mp h).elim (hi c) (hf c)
    obtain ⟨m, hm⟩ := decimal_some (places := fp.length) (e := capped e) hd hv hpt hbody hn
    unfold strtof
    rw [heq]
    show ∃ a, (decToFloat _).bind _ = _
    unfold decToFloat
    rw [hm]
    exact ⟨_, rfl⟩

/-! ### Too many digits -/

theorem scale_digits (m : Nat) (e : Int) (tr : Bool) (s : List Int) (k : Nat) : scale ⟨m, e, tr, s, k⟩ = scale ⟨m, e, tr, [], 0⟩ := rfl

theorem overflow_double {D pt s : List Int} {m : Nat} {e : Int} {M : Nat} {b : Int} {lost : Bool} (hpt : pt = [] ∨ pt = [46]) (hb : Body D pt s)
    (hbig : 2 ^ 16384 ≤ value 10 D) (h0 : m ≠ 0) (e1 : -380 ≤ e) (e2 : e ≤ 309) (hs : scale ⟨m, e, true, [], 0⟩ = some (M, b, lost))
    (m1 : 2 ^ 127 ≤ M) (m2 : M < 2 ^ 128) (hr : M / 2 ^ (shiftOf b - 1) % 2 = 1) : decToDouble ⟨m, e, true, s, D.length⟩ = none := by
  unfold decToDouble
  rw [if_neg h0, if_neg (by show ¬ 309 < e; omega), if_neg (by show ¬ e < -380; omega), scale_digits, hs, Option.bind_some, assemble_eq _ b _ m1 m2]
  unfold goUp
  rw [if_pos hr, if_pos rfl]
  unfold halfway
  rw [(bigDigits_eq hpt hb).2 hbig]
  rfl

/-- 9007199254740993, 5000 zeros, 1. -/
def manyDigits : List Int := [57, 48, 48, 55, 49, 57, 57, 50, 53, 52, 55, 52, 48, 57, 57, 51] ++ (List.replicate 5000 48 ++ [49])

theorem manyDigits_digits : Digits manyDigits := by
  have d : ∀ {c : Int}, 48 ≤ c ∧ c ≤ 57 → IsDigit 10 c := fun h => (digit10 _).mpr h
  intro c hc
  rcases List.mem_append.mp hc with h | h
  · exact d (by simp only [List.mem_cons, List.not_mem_nil, or_false] at h; omega)
  · rcases List.mem_append.mp h with h | h
    · rw [(List.mem_replicate.mp h).2]; exact d (by omega)
    · rw [List.mem_singleton.mp h]; exact d (by omega)

theorem manyDigits_value : value 10 manyDigits = 9007199254740993 * 10 ^ 5001 + 1 := by
  unfold manyDigits
  rw [value_append, value_rep, List.length_append, List.length_replicate,
    show value 10 [57, 48, 48, 55, 49, 57, 57, 50, 53, 52, 55, 52, 48, 57, 57, 51] = 9007199254740993 by decide,
    show value 10 [49] = 1 by decide, List.length_singleton]

theorem many_scale : scale ⟨9007199254740993 * 10 ^ 22 ||| 1, -22, true, [], 0⟩ =
    some (170141183460469250621153235194464960513, -74, true) := by decide +kernel

/-- The number itself, times 10^-5001. -/
def manyString : List Int := manyDigits ++ [101, 45, 53, 48, 48, 49]

theorem manyString_longest : Longest manyString manyString false (9007199254740993 * 10 ^ 5001 + 1) (-5001) := by
  have d : ∀ {c : Int}, 48 ≤ c ∧ c ≤ 57 → IsDigit 10 c := fun h => (digit10 _).mpr h
  have S := Subject.mk [] manyDigits [] [] [101, 45, 53, 48, 48, 49] false _ (.inl ⟨rfl, rfl⟩) (.inl ⟨rfl, rfl⟩) manyDigits_digits
    (fun _ h => nomatch h) (fun h => nomatch h)
    (.some 101 [45] [53, 48, 48, 49] true (.inl rfl) (.inr (.inr ⟨rfl, rfl⟩)) (by decide)
      fun c h => d (by simp only [List.mem_cons, List.not_mem_nil, or_false] at h; omega))
  rw [List.append_nil, manyDigits_value, show (if true = true then -(value 10 [53, 48, 48, 49] : Int) else value 10 [53, 48, 48, 49]) -
    (([] : List Int).length : Nat) = -5001 by decide] at S
  exact ⟨List.prefix_refl _, S, fun _ _ _ _ h _ => h.length_le⟩

theorem manyString_cons : ∃ u, manyString = 57 :: 48 :: u := ⟨_, rfl⟩

theorem manyString_string : IsString ([] ++ manyString) ∧ ¬ Hex manyString ∧ ∀ c ∈ manyString.head?, ¬ White c := by
  refine ⟨?_, ?_, ?_⟩
  · intro c hc
    rw [List.nil_append] at hc
    rcases List.mem_append.mp hc with h | h
    · have := (digit10 c).mp (manyDigits_digits c h)
      omega
    · simp only [List.mem_cons, List.not_mem_nil, or_false] at h
      omega
  · rintro ⟨sign, neg, hs, h⟩
    obtain ⟨u, hu⟩ := manyString_cons
    rw [hu] at h
    rcases hs with ⟨rfl, -⟩ | ⟨rfl, -⟩ | ⟨rfl, -⟩ <;> simp at h
  · obtain ⟨u, hu⟩ := manyString_cons
    rw [hu]
    simp [White]

theorem overflow_dec {ds pt s : List Int} {places : Nat} {e : Int} (hd : Digits ds) (hv : value 10 ds = 9007199254740993 * 10 ^ 5001 + 1)
    (hpt : pt = [] ∨ pt = [46]) (hb : Body (sig ds) pt s) (ht : e - places = -5001) (hp : places ≤ 6000) :
    decToDouble (decOf (sig ds) places (capped e) s) = none := by
  have k1 : 10 ^ (4979 + 37) ≤ 9007199254740993 * 10 ^ 5001 + 1 := by decide +kernel
  have k2 : 9007199254740993 * 10 ^ 5001 + 1 < 10 ^ (4979 + 38) := by decide +kernel
  have k3 : (9007199254740993 * 10 ^ 5001 + 1) % 10 ^ 4979 ≠ 0 := by decide +kernel
  have k4 : (9007199254740993 * 10 ^ 5001 + 1) / 10 ^ 4979 = 9007199254740993 * 10 ^ 22 := by decide +kernel
  have k5 : 2 ^ 16384 ≤ 9007199254740993 * 10 ^ 5001 + 1 := by decide +kernel
  rw [← hv] at k1 k2 k3 k4 k5
  have hlen := sig_many hd k1 k2
  have hc : capped e = e := by
    unfold capped
    rw [if_neg (by omega), if_neg (by omega)]
  rw [← sig_value] at k5
  rw [decOf_many (sig_digits hd) hlen, sig_value, hc, ht, decide_eq_true k3]
  unfold kept
  rw [if_neg k3, k4, ← hlen, show (-5001 : Int) + (4979 : Nat) = -22 by decide]
  exact overflow_double hpt hb k5 (by decide) (by decide) (by decide) many_scale (by decide) (by decide) (by decide +kernel)

theorem overflow_strings : strtod manyString = none ∧ strtof manyString = none := by
  obtain ⟨g1, g2, g3⟩ := manyString_string
  have hlen : manyString.length ≤ 6000 := by
    unfold manyString manyDigits
    simp only [List.length_append, List.length_replicate, List.length_cons, List.length_nil]
    omega
  constructor
  · obtain ⟨sign, ip, point, fp, ex, e, s, hw, hs, hi, hf, he, hp, hv, ht, ⟨pt, hpt, hbody⟩, heq⟩ :=
      parse_subject double (blank := []) g1 (fun _ h => nomatch h) g3 manyString_longest g2
    have hd : Digits (ip ++ fp) := fun c h => (List.mem_append.mp h).elim (hi c) (hf c)
    have hfl : fp.length ≤ 6000 := by
      rw [hw] at hlen
      simp only [List.length_append] at hlen
      omega
    unfold strtod
    rw [List.nil_append] at heq
    rw [heq]
    show (decToDouble _).bind _ = _
    rw [overflow_dec hd hv.symm hpt hbody ht.symm hfl]
    rfl
  · obtain ⟨sign, ip, point, fp, ex, e, s, hw, hs, hi, hf, he, hp, hv, ht, ⟨pt, hpt, hbody⟩, heq⟩ :=
      parse_subject single (blank := []) g1 (fun _ h => nomatch h) g3 manyString_longest g2
    have hd : Digits (ip ++ fp) := fun c h => (List.mem_append.mp h).elim (hi c) (hf c)
    have hfl : fp.length ≤ 6000 := by
      rw [hw] at hlen
      simp only [List.length_append] at hlen
      omega
    unfold strtof
    rw [List.nil_append] at heq
    rw [heq]
    show (decToFloat _).bind _ = _
    unfold decToFloat
    rw [overflow_dec hd hv.symm hpt hbody ht.symm hfl]
    rfl

end Verif.Decimal
