import Verif.Decimal.HexRound
import Verif.Decimal.Final
import Verif.Math.Toward
import Verif.Decimal.LongModel
import Verif.Quad.Misc
import Verif.Int128.FloatConv
import Verif.Decimal.Names

/-! # Hexadecimal strings: results -/

namespace Verif.Decimal
open Verif.Strtol Verif.Float Spec

/-! ### The accumulated digits -/

theorem value16_lt {s : List Int} (h : HexDigits s) : value 16 s < 16 ^ s.length := by
  induction s with
  | nil => decide
  | cons c s ih =>
    rw [value_cons, List.length_cons, Nat.pow_succ]
    obtain ⟨h1, h2⟩ := hexdigits_cons h
    have := hexVal_lt h1
    unfold hexVal at this
    have k : (digitVal c).getD 0 * 16 ^ s.length ≤ 15 * 16 ^ s.length := Nat.mul_le_mul_right _ (by omega)
    have := ih h2
    omega

theorem or_digit {x d : Nat} (hd : d < 16) : (x ||| d) / 16 = x / 16 ∧ ((x ||| d) % 16 = 0 ↔ x % 16 = 0 ∧ d = 0) ∧ x ||| d = x / 16 * 16 + (x % 16 ||| d) := by
  have hv := Nat.mod_lt x (show 0 < 16 by omega)
  have ho : x % 16 ||| d < 2 ^ 4 := Nat.or_lt_two_pow hv hd
  have e : x ||| d = x / 16 * 16 + (x % 16 ||| d) := by
    have e1 : x = x / 16 * 2 ^ 4 ||| x % 16 := by rw [or_low (show x % 16 < 2 ^ 4 from hv)]; omega
    conv => lhs; rw [e1]
    rw [Nat.or_assoc, or_low ho]
  refine ⟨by omega, ?_, e⟩
  have : (x ||| d) % 16 = x % 16 ||| d := by omega
  rw [this, Nat.or_eq_zero_iff]

theorem hexFold_few {cap : Nat} {ds : List Int} (hd : HexDigits ds) : ∀ (a : Acc), a.consumed + ds.length ≤ cap → a.x < 16 ^ a.consumed →
    (ds.foldl (hexFeed cap) a).x = a.x * 16 ^ ds.length + value 16 ds := by
  induction ds with
  | nil => intro a _ _; simp [value]
  | cons c s ih =>
    intro a h hx
    obtain ⟨h1, h2⟩ := hexdigits_cons hd
    have hv := hexVal_lt h1
    rw [List.length_cons] at h
    have hx1 : a.x * 16 + 16 ≤ 16 ^ (a.consumed + 1) := by rw [Nat.pow_succ]; omega
    have hp : 16 ^ (a.consumed + 1) ≤ 16 ^ cap := Nat.pow_le_pow_right (by omega) (by omega)
    have e16 : 2 ^ (4 * cap) = 16 ^ cap := by rw [Nat.pow_mul]
    have e : hexFeed cap a c = { a with x := a.x * 16 + hexVal c, consumed := a.consumed + 1 } := by
      unfold hexFeed bit
      rw [if_pos (show a.consumed < cap by omega), digit_hex h1, e16]
      congr 1
      rw [show 2 ^ (4 * 1) = 16 from rfl, Nat.mod_eq_of_lt (by omega)]
      exact or_low (k := 4) hv
    rw [List.foldl_cons, e]
    have g1 := ih h2 { a with x := a.x * 16 + hexVal c, consumed := a.consumed + 1 } (by show a.consumed + 1 + s.length ≤ cap; omega)
      (by show a.x * 16 + hexVal c < 16 ^ (a.consumed + 1); omega)
    refine g1.trans ?_
    rw [value_cons, List.length_cons, Nat.pow_succ]
    show (a.x * 16 + hexVal c) * 16 ^ s.length + _ = _
    rw [Nat.add_mul]
    unfold hexVal
    have : a.x * 16 * 16 ^ s.length = a.x * (16 ^ s.length * 16) := by ac_rfl
    omega

theorem hexFold_many {cap : Nat} {ds : List Int} (hd : HexDigits ds) : ∀ (a : Acc), cap ≤ a.consumed → a.x < 2 ^ (4 * cap) → 1 ≤ cap →
    (ds.foldl (hexFeed cap) a).x / 16 = a.x / 16 ∧ ((ds.foldl (hexFeed cap) a).x % 16 = 0 ↔ a.x % 16 = 0 ∧ value 16 ds = 0) ∧
    (ds.foldl (hexFeed cap) a).x < 2 ^ (4 * cap) := by
  induction ds with
  | nil => intro a _ h _; exact ⟨rfl, by simp [value], h⟩
  | cons c s ih =>
    intro a h hx hcap
    obtain ⟨h1, h2⟩ := hexdigits_cons hd
    have hv := hexVal_lt h1
    have e : hexFeed cap a c = { a with x := a.x ||| hexVal c, consumed := a.consumed + 1 } := by
      unfold hexFeed bit
      rw [if_neg (show ¬ a.consumed < cap by omega), digit_hex h1, Nat.mul_zero, Nat.pow_zero, Nat.mul_one, Nat.mod_eq_of_lt hx]
    obtain ⟨o1, o2, o3⟩ := or_digit (x := a.x) hv
    have hv' : hexVal c < 2 ^ (4 * cap) := Nat.lt_of_lt_of_le hv (show 16 ≤ 2 ^ (4 * cap) from Nat.pow_le_pow_right (n := 2) (i := 4) (by omega) (by omega))
    rw [List.foldl_cons, e]
    obtain ⟨g1, g2, g3⟩ := ih h2 { a with x := a.x ||| hexVal c, consumed := a.consumed + 1 } (by show cap ≤ a.consumed + 1; omega)
      (Nat.or_lt_two_pow hx hv') hcap
    refine ⟨g1.trans o1, g2.trans ?_, g3⟩
    show (a.x ||| hexVal c) % 16 = 0 ∧ _ ↔ _
    rw [o2, value_cons, and_assoc]
    have hp : 0 < 16 ^ s.length := Nat.pow_pos (by omega)
    have : (digitVal c).getD 0 * 16 ^ s.length + value 16 s = 0 ↔ hexVal c = 0 ∧ value 16 s = 0 := by
      rw [Nat.add_eq_zero_iff, Nat.mul_eq_zero]
      unfold hexVal
      constructor
      · rintro ⟨h | h, h'⟩
        · exact ⟨h, h'⟩
        · omega
      · rintro ⟨h, h'⟩
        exact ⟨.inl h, h'⟩
    rw [this]

theorem sig_hexdigits {ds : List Int} (hd : HexDigits ds) : HexDigits (sig ds) := by
  obtain ⟨z, e, -⟩ := sig_split ds
  rw [e] at hd
  exact (hexdigits_append hd).2

/-- A digit string that does not begin with zero. -/
theorem lead_le {D : List Int} (hd : HexDigits D) (h0 : cur D ≠ 48) (hne : D ≠ []) : 16 ^ (D.length - 1) ≤ value 16 D := by
  cases D with
  | nil => exact absurd rfl hne
  | cons c s =>
    obtain ⟨h1, -⟩ := hexdigits_cons hd
    have h0 : c ≠ 48 := h0
    have hv : 1 ≤ (digitVal c).getD 0 := by
      unfold digitVal
      have := (hex16 c).mp h1
      split
      · show 1 ≤ (c - 48).toNat; omega
      · split
        · show 1 ≤ (c - 87).toNat; omega
        · split
          · show 1 ≤ (c - 55).toNat; omega
          · omega
    rw [value_cons, List.length_cons, show s.length + 1 - 1 = s.length by omega]
    have : 1 * 16 ^ s.length ≤ (digitVal c).getD 0 * 16 ^ s.length := Nat.mul_le_mul_right _ hv
    omega

theorem stands {f cap : Nat} {D : List Int} (hd : HexDigits D) (h0 : cur D ≠ 48) (hl : cap < D.length) (hf : f + 9 ≤ 4 * cap) :
    Stands f (value 16 D) (D.foldl (hexFeed cap) start).x (D.length - cap) ∧ (D.foldl (hexFeed cap) start).x < 2 ^ (4 * cap) := by
  have hsplit := List.take_append_drop cap D
  have hla : (D.take cap).length = cap := by rw [List.length_take]; omega
  have hlb : (D.drop cap).length = D.length - cap := List.length_drop ..
  have hA0 : cur (D.take cap) ≠ 48 := by
    rw [← hsplit, cur_append (by intro h; rw [h] at hla; simp at hla; omega)] at h0
    exact h0
  generalize D.take cap = A at *
  generalize D.drop cap = B at *
  subst hsplit
  obtain ⟨hA, hB⟩ := hexdigits_append hd
  have e16 : 2 ^ (4 * cap) = 16 ^ cap := by rw [Nat.pow_mul]
  have hVlt := value16_lt hA
  have hVge := lead_le hA hA0 (by intro h; rw [h] at hla; simp at hla; omega)
  have hb := value16_lt hB
  rw [hla] at hVlt hVge
  rw [hlb] at hb
  have few := hexFold_few (cap := cap) hA start (by show 0 + _ ≤ _; omega) (by decide)
  rw [show start.x = 0 from rfl, Nat.zero_mul, Nat.zero_add] at few
  have cons := (hexFold_point cap A start).2.2
  rw [show start.consumed = 0 from rfl, Nat.zero_add] at cons
  rw [List.foldl_append]
  obtain ⟨m1, m2, m3⟩ := hexFold_many (cap := cap) hB (A.foldl (hexFeed cap) start) (by omega) (by rw [few, e16]; exact hVlt) (by omega)
  rw [few] at m1 m2
  refine ⟨⟨?_, ?_, ?_⟩, m3⟩
  · rw [m1, value_append, hlb, Nat.pow_succ, ← Nat.div_div_eq_div_mul, Nat.mul_comm, Nat.mul_add_div (Nat.pow_pos (by omega)), Nat.div_eq_of_lt hb, Nat.add_zero]
  · rw [m2, value_append, hlb, Nat.pow_succ]
    generalize (A ++ B).length - cap = l at *
    have hV := Nat.div_add_mod (value 16 A) 16
    have hm := Nat.mod_lt (value 16 A) (show 0 < 16 by omega)
    generalize value 16 A / 16 = u at *
    generalize value 16 A % 16 = v at *
    have hP : 0 < 16 ^ l := Nat.pow_pos (by omega)
    have e : value 16 A * 16 ^ l + value 16 B = 16 ^ l * 16 * u + (v * 16 ^ l + value 16 B) := by
      rw [← hV, Nat.add_mul]
      have : 16 * u * 16 ^ l = 16 ^ l * 16 * u := by ac_rfl
      omega
    have hlt : v * 16 ^ l + value 16 B < 16 ^ l * 16 := by
      have : v * 16 ^ l ≤ 15 * 16 ^ l := Nat.mul_le_mul_right _ (by omega)
      omega
    rw [e, Nat.mul_add_mod, Nat.mod_eq_of_lt hlt, Nat.add_eq_zero_iff, Nat.mul_eq_zero]
    constructor
    · rintro ⟨a, b⟩; exact ⟨.inl a, b⟩
    · rintro ⟨a | a, b⟩
      · exact ⟨a, b⟩
      · omega
  · rw [m1]
    have e2 : 16 ^ (cap - 1) = 16 ^ (cap - 2) * 16 := by rw [← Nat.pow_succ]; congr 1; omega
    have k1 : 16 ^ (cap - 2) ≤ value 16 A / 16 := (Nat.le_div_iff_mul_le (by omega)).2 (by rw [← e2]; exact hVge)
    have k2 : 2 ^ (f + 5) ≤ 2 ^ (4 * (cap - 1)) := Nat.pow_le_pow_right (by omega) (by omega)
    rw [Nat.pow_mul, show 2 ^ 4 = 16 from rfl, e2] at k2
    have k3 := Nat.mul_le_mul_right 16 k1
    omega

/-! ### Conversion -/

/-- What the conversion relies on. -/
structure Scalar.HexOk (S : Scalar) : Prop where
  ok : S.fmt.Ok
  room : S.fmt.f + 9 ≤ 4 * S.capacity
  fits : 4 * S.capacity ≤ S.fmt.bias
  conv : ∀ X k, X < 2 ^ (4 * S.capacity) → S.ofHex X k =
    some (S.fmt.rnd (S.fmt.mag (S.fmt.rnd (X * 2 ^ S.fmt.unit) 1) * 2 ^ k.toNat) (2 ^ (-k).toNat))

/-- Digits and an exponent that was not limited. -/
theorem hex_conv {S : Scalar} (h : S.HexOk) {ds : List Int} (hd : HexDigits ds) (places : Nat) (e : Int)
    (hn : value 16 ds < 2 ^ (S.fmt.f + 1) ∨ AtLeastNormal S.fmt (value 16 ds) (e - 4 * places)) :
    ∃ m, S.ofHex (hexOf S.capacity (sig ds) places e).1 (hexOf S.capacity (sig ds) places e).2 = some m ∧
      RoundsBin S.fmt (value 16 ds) (e - 4 * places) m := by
  obtain ⟨z, -, hc0⟩ := sig_split ds
  have hds := sig_hexdigits hd
  rw [← sig_value16] at hn ⊢
  have hroom := h.room
  unfold hexOf
  simp only
  by_cases hl : (sig ds).length ≤ S.capacity
  · have few := hexFold_few (cap := S.capacity) hds start (by show 0 + _ ≤ _; omega) (by decide)
    rw [show start.x = 0 from rfl, Nat.zero_mul, Nat.zero_add] at few
    have hlt : value 16 (sig ds) < 2 ^ (4 * S.capacity) := by
      rw [Nat.pow_mul]
      exact Nat.lt_of_lt_of_le (value16_lt hds) (Nat.pow_le_pow_right (n := 16) (by omega) hl)
    rw [few, Nat.min_eq_right hl, show 4 * (((sig ds).length : Int) - places - ((sig ds).length : Nat)) + e = e - 4 * places by omega]
    exact ⟨_, h.conv _ _ hlt, twice h.ok hlt h.fits hn⟩
  · obtain ⟨st, hlt⟩ := stands hds hc0 (Nat.lt_of_not_le hl) hroom
    rw [Nat.min_eq_left (by omega), show 4 * (((sig ds).length : Int) - places - (S.capacity : Nat)) + e =
      (e - 4 * places) + 4 * (((sig ds).length - S.capacity : Nat) : Int) by omega]
    have hn' : AtLeastNormal S.fmt (value 16 (sig ds)) (e - 4 * places) := by
      refine hn.resolve_left fun hs => ?_
      have k1 := lead_le hds hc0 (by intro h; rw [h] at hl; simp at hl)
      have k2 : 2 ^ (S.fmt.f + 1) ≤ 2 ^ (4 * ((sig ds).length - 1)) := Nat.pow_le_pow_right (by omega) (by omega)
      rw [Nat.pow_mul, show 2 ^ 4 = 16 from rfl] at k2
      omega
    exact ⟨_, h.conv _ _ hlt, (st.same _).nearest (Nat.two_pow_pos _) (Nat.two_pow_pos _) (twice h.ok hlt h.fits (.inr (st.normal _ hn')))⟩

/-- Far out, the exact exponent does not matter. -/
theorem hex_far {F : Fmt} (o : F.Ok) {n : Nat} {t : Int} : (F.bias + 1 ≤ t → n ≠ 0 → RoundsBin F n t F.inf) ∧
    (∀ a : Nat, n < 2 ^ a → t + a + F.unit + 1 ≤ 0 → RoundsBin F n t 0) ∧ (n = 0 → RoundsBin F n t 0) := by
  unfold RoundsBin
  have hd := Nat.two_pow_pos (-t).toNat
  obtain ⟨hu, hb3⟩ := Fmt.unit_eq o
  refine ⟨fun h h0 => ?_, fun a ha h => ?_, fun h => ?_⟩
  · refine nearest_inf hd ?_
    rw [Fmt.mag_inf o, show (-t).toNat = 0 by omega, Nat.pow_zero, Nat.one_mul]
    have : 1 * 2 ^ t.toNat * 2 ^ F.unit ≤ n * 2 ^ t.toNat * 2 ^ F.unit := Nat.mul_le_mul_right _ (Nat.mul_le_mul_right _ (by omega))
    refine Nat.le_trans ?_ this
    rw [Nat.one_mul, ← Nat.pow_add]
    exact Nat.pow_le_pow_right (by omega) (by omega)
  · have : F.rnd (n * 2 ^ t.toNat * 2 ^ F.unit) (2 ^ (-t).toNat) = 0 := by
      refine rnd_tiny o hd ?_
      rw [show t.toNat = 0 by omega, Nat.pow_zero, Nat.mul_one]
      have k1 : n * 2 ^ F.unit ≤ 2 ^ a * 2 ^ F.unit := Nat.mul_le_mul_right _ (Nat.le_of_lt ha)
      have k2 : 2 * (2 ^ a * 2 ^ F.unit) ≤ 2 ^ (-t).toNat := by
        rw [← Nat.pow_add, ← Nat.pow_succ']
        exact Nat.pow_le_pow_right (by omega) (by omega)
      omega
    have h := rnd_nearest (F := F) (n * 2 ^ t.toNat * 2 ^ F.unit) (2 ^ (-t).toNat) hd
    rw [this] at h
    exact h
  · refine nearest_exact hd (Nat.zero_le _) ?_
    rw [h, Nat.zero_mul, Nat.zero_mul, F.mag_zero, Nat.mul_zero]

theorem capped_cases (e : Int) : capped e = e ∨ (e < -32000 ∧ capped e = -32000) ∨ (32000 < e ∧ capped e = 32000) := by
  unfold capped
  split
  · exact .inr (.inl ⟨by assumption, rfl⟩)
  · split
    · exact .inr (.inr ⟨by assumption, rfl⟩)
    · exact .inl rfl

theorem sig_len_le (ds : List Int) : (sig ds).length ≤ ds.length := by
  obtain ⟨z, e, -⟩ := sig_split ds
  conv => rhs; rw [e]
  rw [List.length_append]
  omega

theorem rnd_mag_lt {F : Fmt} (o : F.Ok) {X c : Nat} (hX : X < 2 ^ c) (hc : c ≤ F.bias) : F.mag (F.rnd (X * 2 ^ F.unit) 1) ≤ 2 ^ (c + F.unit) := by
  obtain ⟨hu, hb3⟩ := Fmt.unit_eq o
  obtain ⟨j, hj, hjm⟩ := Fmt.representable (F := F) (m := 1) (e := c + F.unit) (Nat.one_le_two_pow) (by
    rw [Nat.one_mul, Fmt.mag_inf o]
    exact Nat.pow_le_pow_right (by omega) (by omega))
  rw [Nat.one_mul] at hjm
  rw [← hjm]
  refine F.mag_mono ?_
  have h1 := rnd_mono (F := F) (den := 1) (by omega) (show X * 2 ^ F.unit ≤ F.mag j by
    rw [hjm, Nat.pow_add]
    exact Nat.mul_le_mul_right _ (Nat.le_of_lt hX))
  rw [rnd_mag hj] at h1
  exact h1

theorem hexOf_lt {cap f : Nat} {ds : List Int} (hd : HexDigits ds) (hroom : f + 9 ≤ 4 * cap) (places : Nat) (e : Int) :
    (hexOf cap (sig ds) places e).1 < 2 ^ (4 * cap) := by
  obtain ⟨z, -, hc0⟩ := sig_split ds
  have hds := sig_hexdigits hd
  unfold hexOf
  by_cases hl : (sig ds).length ≤ cap
  · have few := hexFold_few (cap := cap) hds start (by show 0 + _ ≤ _; omega) (by decide)
    rw [show start.x = 0 from rfl, Nat.zero_mul, Nat.zero_add] at few
    show (List.foldl (hexFeed cap) start (sig ds)).x < _
    rw [few, Nat.pow_mul]
    exact Nat.lt_of_lt_of_le (value16_lt hds) (Nat.pow_le_pow_right (n := 16) (by omega) hl)
  · exact (stands hds hc0 (Nat.lt_of_not_le hl) hroom).2

/-- Digits and an exponent. -/
theorem hex_conv_capped {S : Scalar} (h : S.HexOk) {ds : List Int} (hd : HexDigits ds) (places : Nat) (e : Int) (hp : places ≤ ds.length)
    (hlen : S.fmt.unit + 4 * S.capacity + 4 * ds.length + 8 ≤ 32000)
    (hn : value 16 ds < 2 ^ (S.fmt.f + 1) ∨ AtLeastNormal S.fmt (value 16 ds) (e - 4 * places)) :
    ∃ m, S.ofHex (hexOf S.capacity (sig ds) places (capped e)).1 (hexOf S.capacity (sig ds) places (capped e)).2 = some m ∧
      RoundsBin S.fmt (value 16 ds) (e - 4 * places) m := by
  obtain ⟨hu, hb3⟩ := Fmt.unit_eq h.ok
  have hf := h.ok.f
  rcases capped_cases e with hc | ⟨h1, hc⟩ | ⟨h1, hc⟩
  · rw [hc]
    exact hex_conv h hd places e hn
  · obtain ⟨f1, f2, f3⟩ := hex_far h.ok (n := value 16 ds) (t := e - 4 * places)
    have hv := value16_lt hd
    rw [show 16 = 2 ^ 4 from rfl, ← Nat.pow_mul] at hv
    refine ⟨0, ?_, f2 _ hv (by omega)⟩
    have hlt := hexOf_lt hd h.room places (capped e)
    rw [h.conv _ _ hlt]
    congr 1
    have hsl := sig_len_le ds
    have hk : (hexOf S.capacity (sig ds) places (capped e)).2 ≤ 4 * ds.length - 32000 := by
      unfold hexOf
      simp only
      omega
    generalize (hexOf S.capacity (sig ds) places (capped e)).2 = k at *
    have hm := rnd_mag_lt h.ok hlt h.fits
    refine rnd_tiny h.ok (Nat.two_pow_pos _) ?_
    rw [show k.toNat = 0 by omega, Nat.pow_zero, Nat.mul_one]
    refine Nat.le_trans (Nat.mul_le_mul_left 2 hm) ?_
    rw [← Nat.pow_succ']
    exact Nat.pow_le_pow_right (by omega) (by omega)
  · obtain ⟨f1, f2, f3⟩ := hex_far h.ok (n := value 16 ds) (t := e - 4 * places)
    obtain ⟨g1, g2, g3⟩ := hex_far h.ok (n := value 16 ds) (t := 32000 - 4 * places)
    by_cases h0 : value 16 ds = 0
    · obtain ⟨m, hm, hr⟩ := hex_conv h hd places (capped e) (.inl (by rw [h0]; exact Nat.two_pow_pos _))
      refine ⟨m, hm, ?_⟩
      rw [hc] at hr
      rw [hr.unique (Nat.two_pow_pos _) (g3 h0)]
      exact f3 h0
    · obtain ⟨m, hm, hr⟩ := hex_conv h hd places (capped e) (.inr (by
        unfold AtLeastNormal
        rw [hc, show (-(32000 - 4 * (places : Int))).toNat = 0 by omega, Nat.pow_zero, Nat.mul_one]
        have k1 : 1 * 1 * 2 ^ S.fmt.unit ≤ value 16 ds * 2 ^ (32000 - 4 * (places : Int)).toNat * 2 ^ S.fmt.unit :=
          Nat.mul_le_mul_right _ (Nat.mul_le_mul (by omega) (Nat.two_pow_pos _))
        have k2 : 2 ^ S.fmt.f ≤ 2 ^ S.fmt.unit := Nat.pow_le_pow_right (by omega) (by omega)
        omega))
      refine ⟨m, hm, ?_⟩
      rw [hc] at hr
      rw [hr.unique (Nat.two_pow_pos _) (g1 (by omega) h0)]
      exact f1 (by omega) h0

/-! ### The strings -/

/-- Where the end pointer is short by one. -/
theorem hexdot_iff {sign pre ip point fp ex : List Int} {e : Int} (hx : pre = [48, 120] ∨ pre = [48, 88]) (hi : HexDigits ip) (hf : HexDigits fp)
    (hp : point = [] ∧ fp = [] ∨ point = [46]) (he : Binary ex e) :
    (value 16 ip = 0 ∧ point = [46] ∧ fp = [] ∧ ex = []) ↔
      value 16 (ip ++ fp) = 0 ∧ (sign ++ (pre ++ (ip ++ (point ++ (fp ++ ex))))).getLast? = some 46 := by
  have hds : ∀ ds : List Int, HexDigits ds → ds ≠ [] → ds.getLast? ≠ some 46 := by
    intro ds hd hne h
    have := (hex16 46).mp (hd 46 (List.mem_of_getLast? h))
    omega
  constructor
  · rintro ⟨h0, rfl, rfl, rfl⟩
    refine ⟨by rw [List.append_nil]; exact h0, ?_⟩
    simp
  · rintro ⟨h0, hl⟩
    have last : ∀ (a b : List Int), b ≠ [] → (a ++ b).getLast? = b.getLast? := by
      intro a b hb
      rw [List.getLast?_append]
      cases h : b.getLast? with
      | none => exact absurd (List.getLast?_eq_none_iff.mp h) hb
      | some x => rfl
    have hex : ex = [] := by
      cases he with
      | none => rfl
      | some c sg ds ng hc hsg hdn hd =>
        exfalso
        have e1 : sign ++ (pre ++ (ip ++ (point ++ (fp ++ c :: (sg ++ ds))))) = (sign ++ pre ++ ip ++ point ++ fp ++ c :: sg) ++ ds := by simp
        rw [e1, last _ _ hdn] at hl
        have := (digit10 46).mp (hd 46 (List.mem_of_getLast? hl))
        omega
    subst hex
    have hfp : fp = [] := by
      by_cases h : fp = []
      · exact h
      · exfalso
        have e1 : sign ++ (pre ++ (ip ++ (point ++ (fp ++ [])))) = (sign ++ pre ++ ip ++ point) ++ fp := by simp
        rw [e1, last _ _ h] at hl
        exact hds fp hf h hl
    subst hfp
    rw [List.append_nil] at h0
    refine ⟨h0, ?_, rfl, rfl⟩
    rcases hp with ⟨rfl, -⟩ | h
    · exfalso
      simp only [List.append_nil] at hl
      by_cases h : ip = []
      · subst h
        rw [List.append_nil, last _ _ (by rcases hx with rfl | rfl <;> simp)] at hl
        rcases hx with rfl | rfl <;> simp at hl
      · rw [← List.append_assoc, last _ _ h] at hl
        exact hds ip hi h hl
    · exact h

theorem hex_strto {S : Scalar} (h : S.HexOk) {blank r w : List Int} {neg : Bool} {n : Nat} {t : Int} (hc : IsString (blank ++ r)) (hb : Blank blank)
    (hr : ∀ c ∈ r.head?, ¬ White c) (hL : HexLongest r w neg n t) (hlen : S.fmt.unit + 4 * S.capacity + 4 * w.length ≤ 32000)
    (hn : n < 2 ^ (S.fmt.f + 1) ∨ AtLeastNormal S.fmt n t) :
    ∃ m, RoundsBin S.fmt n t m ∧ parsefloat S (blank ++ r) =
      some ⟨S.fmt.pack neg m, blank.length + w.length - (if n = 0 ∧ w.getLast? = some 46 then 1 else 0), m = S.fmt.inf⟩ := by
  obtain ⟨sign, pre, ip, point, fp, ex, e, hw, hs, hx, hi, hf, he, hp, hv, ht, heq⟩ := parse_hex S hc hb hr hL
  have hd : HexDigits (ip ++ fp) := fun c h => (List.mem_append.mp h).elim (hi c) (hf c)
  have hwl : (ip ++ fp).length + 2 ≤ w.length := by
    rw [hw]
    have : pre.length = 2 := by rcases hx with rfl | rfl <;> rfl
    simp only [List.length_append]
    omega
  obtain ⟨m, hm, hmn⟩ := hex_conv_capped h hd fp.length e (by simp) (by omega) (by rw [← hv, ← ht]; exact hn)
  rw [← ht, ← hv] at hmn
  have hms : m < S.fmt.signBit := Nat.lt_of_le_of_lt hmn.le Fmt.inf_lt
  refine ⟨m, hmn, ?_⟩
  rw [heq, hm, Option.bind_some, Fmt.abs_of_lt hms]
  have := hexdot_iff (sign := sign) hx hi hf hp he
  rw [← hv, ← hw] at this
  simp only [this]

/-! ### The types -/

theorem pack_false {F : Fmt} (m : Nat) : F.pack false m = m := by unfold Fmt.pack; simp

theorem ofInt_eq {F : Fmt} (X : Nat) : F.ofInt (X : Int) = F.rnd (X * 2 ^ F.unit) 1 := by
  unfold Fmt.ofInt Fmt.rndInt
  have e : (X : Int) * 2 ^ F.unit = ((X * 2 ^ F.unit : Nat) : Int) := by simp
  rw [e]
  by_cases h : X = 0
  · subst h
    rw [if_pos (by simp), pack_false]
    simp only [Nat.zero_mul]
    rw [rnd_zero 1 (by omega)]
  · have hp := Nat.mul_pos (Nat.pos_of_ne_zero h) (Nat.two_pow_pos F.unit)
    generalize X * 2 ^ F.unit = A at *
    rw [if_neg (by omega), Int.natAbs_natCast, decide_eq_false (by omega), pack_false]

theorem rnd_fin {F : Fmt} (o : F.Ok) {X c : Nat} (hX : X < 2 ^ c) (hc : c ≤ F.bias) : F.rnd (X * 2 ^ F.unit) 1 < F.inf := by
  obtain ⟨hu, hb3⟩ := Fmt.unit_eq o
  have h := rnd_mag_lt o hX hc
  have h2 : 2 ^ (c + F.unit) < F.mag F.inf := by
    rw [Fmt.mag_inf o]
    exact Nat.pow_lt_pow_right (by omega) (by omega)
  rcases Nat.lt_or_ge (F.rnd (X * 2 ^ F.unit) 1) F.inf with hlt | hge
  · exact hlt
  · have := F.mag_mono hge
    omega

theorem double_hex (X : Nat) (k : Int) : double.ofHex X k = Math.scalbn (b64.ofInt X) k := by
  unfold double
  with_reducible rfl

theorem double_fmt : double.fmt = b64 := rfl

theorem hexOk_double : double.HexOk where
  ok := ok64
  room := by decide
  fits := by decide
  conv X k hX := by
    have hy := rnd_fin ok64 (X := X) (c := 4 * 16) hX (by decide)
    rw [double_hex, double_fmt]
    rw [ofInt_eq]
    generalize b64.rnd (X * 2 ^ b64.unit) 1 = y at *
    have hys := Nat.lt_trans hy Fmt.inf_lt
    by_cases h0 : y = 0
    · subst h0
      rw [b64.mag_zero, Nat.zero_mul, rnd_zero _ (Nat.two_pow_pos _)]
      unfold Math.scalbn
      simp only
      rw [if_pos (by left; decide)]
    · rw [Math.scalbn_eq k (by rw [Fmt.abs_of_lt hys]; omega) (by rw [Fmt.abs_of_lt hys]; exact hy), Fmt.abs_of_lt hys, Fmt.neg_of_lt hys, pack_false]

theorem hexOk_single : single.HexOk where
  ok := ok32
  room := by decide
  fits := by decide
  conv X k hX := by
    have hy := rnd_fin ok32 (X := X) (c := 4 * 8) hX (by decide)
    have e1 : single.ofHex X k = some (Math.scalbnf (b32.ofInt X) k) := rfl
    rw [e1, show single.fmt = b32 from rfl]
    rw [ofInt_eq]
    generalize b32.rnd (X * 2 ^ b32.unit) 1 = y at *
    have hys := Nat.lt_trans hy Fmt.inf_lt
    rw [Math.scalbnf_eq k (by rw [Fmt.abs_of_lt hys]; exact hy), Fmt.abs_of_lt hys, Fmt.neg_of_lt hys, pack_false]

theorem long_hex (dec : Dec → Option Nat) (X : Nat) (k : Int) : (long dec).ofHex X k = Quad.ldexpl (Int128.floatuntitf X) k := by
  unfold long
  with_reducible rfl

theorem long_fmt (dec : Dec → Option Nat) : (long dec).fmt = b128 := rfl

theorem floatuntitf_rnd {X : Nat} (h : X < 2 ^ 128) : Int128.floatuntitf X = b128.rnd (X * 2 ^ b128.unit) 1 := by
  by_cases h0 : X = 0
  · subst h0
    rw [Nat.zero_mul, rnd_zero _ (by omega)]
    rfl
  · rw [Int128.floatuntitf_eq X h0 h]
    exact (rnd_eq (by omega) (Int128.conv_nearest b128 (by decide) (by decide) (by decide) (by decide) (by decide) X h0 h)).symm

theorem hexOk_long (dec : Dec → Option Nat) : (long dec).HexOk where
  ok := ok128
  room := show b128.f + 9 ≤ 4 * 32 by decide
  fits := show 4 * 32 ≤ b128.bias by decide
  conv X k hX := by
    have hy := rnd_fin ok128 (X := X) (c := 4 * 32) hX (by decide)
    rw [long_hex, long_fmt]
    rw [floatuntitf_rnd hX]
    generalize b128.rnd (X * 2 ^ b128.unit) 1 = y at *
    have hys := Nat.lt_trans hy Fmt.inf_lt
    by_cases h0 : y = 0
    · subst h0
      rw [b128.mag_zero, Nat.zero_mul, rnd_zero _ (Nat.two_pow_pos _)]
      unfold Quad.ldexpl
      simp only
      rw [if_pos (by left; decide)]
    · rw [Quad.ldexpl_eq k (by rw [Fmt.abs_of_lt hys]; omega) (by rw [Fmt.abs_of_lt hys]; exact hy), Fmt.abs_of_lt hys, Fmt.neg_of_lt hys, pack_false]

/-! ### No digits -/

theorem hex_none {S : Scalar} (h : S.HexOk) {blank sign pre u : List Int} {neg : Bool} (hc : IsString (blank ++ (sign ++ (pre ++ u)))) (hb : Blank blank)
    (hs : Sign sign neg) (hx : pre = [48, 120] ∨ pre = [48, 88]) (hn : NoHex (sign ++ (pre ++ u))) (hst : ¬ StrayBinary (sign ++ (pre ++ u))) :
    parsefloat S (blank ++ (sign ++ (pre ++ u))) = some ⟨S.fmt.pack neg 0, blank.length + sign.length + 1, false⟩ := by
  have hch : Chars (blank ++ (sign ++ (pre ++ u))) := fun c h => ⟨(hc c h).1, (hc c h).2.1⟩
  have hcu : Chars u := fun c h => hch c (by simp [h])
  obtain ⟨x, rfl, hx'⟩ : ∃ x : Int, pre = [48, x] ∧ (x = 120 ∨ x = 88) := by
    rcases hx with rfl | rfl
    · exact ⟨_, rfl, .inl rfl⟩
    · exact ⟨_, rfl, .inr rfl⟩
  have hr : ∀ c ∈ (sign ++ ([48, x] ++ u)).head?, ¬ White c := by
    rcases hs with ⟨rfl, -⟩ | ⟨rfl, -⟩ | ⟨rfl, -⟩ <;>
      · intro c hc
        simp at hc
        subst hc
        unfold White
        decide
  have hsk := skip_eq blank _ hb hr hch
  have hst1 : HexStops u := by
    intro hd
    cases u with
    | nil => exact absurd hd (by rw [hex16]; decide)
    | cons c t =>
      exact hn _ _ _ _ ⟨t, by simp⟩ (HexSubject.mk sign [48, x] [c] [] [] [] neg 0 hs hx (.inl ⟨rfl, rfl⟩)
        (fun y hy => by rw [List.mem_singleton.mp hy]; exact hd) (fun _ h => nomatch h) (by simp) .none)
  have nobin : ∀ point t, (point = [] ∨ point = [46]) → u = point ++ t → parseexp 112 t = (0, 0) := by
    intro point t hp hu
    refine parsep_eq (rest := t) .none (fun c h => hcu c (by rw [hu]; simp [h])) ?_
    unfold NoMoreBin
    rw [if_pos rfl]
    rintro ⟨c, sg, d, ng, hc, hsg, hd, q, hq⟩
    exact hst ⟨sign, neg, [48, x], point, c :: (sg ++ [d]), _, hs, hx, hp, by simp, .some c sg [d] ng hc hsg (by simp)
      (fun x hx => by rw [List.mem_singleton.mp hx]; exact (digit10 d).mpr hd), q, by rw [hu, ← hq]; simp⟩
  have hzero : ∀ k, S.ofHex 0 k = some 0 := by
    intro k
    rw [h.conv 0 k (Nat.two_pow_pos _), Nat.zero_mul, rnd_zero _ (by omega), S.fmt.mag_zero, Nat.zero_mul, rnd_zero _ (Nat.two_pow_pos _)]
  have hph : parsehex S (48 :: x :: u) = (S.ofHex 0 (4 * ((0 : Int) - (min S.capacity 0 : Nat)) + 0), some 1) := by
    by_cases hp : cur u = 46
    · cases u with
      | nil => exact absurd hp (by decide)
      | cons c t =>
        have hp : c = 46 := hp
        subst hp
        have ht : Chars t := fun c h => hcu c (List.mem_cons_of_mem _ h)
        have hst2 : HexStops t := by
          intro hd
          cases t with
          | nil => exact absurd hd (by rw [hex16]; decide)
          | cons c t =>
            exact hn _ _ _ _ ⟨t, by simp⟩ (HexSubject.mk sign [48, x] [] [46] [c] [] neg 0 hs hx (.inr rfl) (fun _ h => nomatch h)
              (fun y hy => by rw [List.mem_singleton.mp hy]; exact hd) (by simp) .none)
        rw [parsehex_steps S (s := 48 :: x :: 46 :: t) (t := 46 :: t) (s1 := 46 :: t) (s2 := t) (s3 := t) (z1 := 0) (z2 := 0) (point := true)
          (r := (⟨0, 0, 0, true, false⟩, 0)) (e := (0, 0)) rfl
          (zeros_rep (x := 46 :: t) (by decide : (46 : Int) ≠ 48) 0) rfl (decide_eq_true rfl) rfl (zeros_rep (hexstops_zero hst2) 0) rfl
          (hexLoop_stop _ ht hst2 (by simp)) (nobin [46] t (.inr rfl) rfl)]
        rfl
    · rw [parsehex_steps S (s := 48 :: x :: u) (t := u) (s1 := u) (s2 := u) (s3 := u) (z1 := 0) (z2 := 0) (point := false)
        (r := (⟨0, 0, 0, false, false⟩, 0)) (e := (0, 0)) rfl
        (zeros_rep (hexstops_zero hst1) 0) rfl (decide_eq_false hp) rfl rfl rfl
        (hexLoop_stop _ hcu hst1 (fun _ => hp)) (nobin [] u (.inl rfl) rfl)]
      rfl
  rw [parsefloat_sign S (u := [48, x] ++ u) hs (fun _ => ⟨show (48 : Int) ≠ 43 by decide, show (48 : Int) ≠ 45 by decide⟩) hsk]
  show (magnitude S (48 :: x :: u) _).bind _ = _
  rw [magnitude_hex S u _ hx', hph, hzero, Option.bind_some, Option.bind_some]
  have hi : 0 ≠ S.fmt.inf := by
    have := Fmt.inf_pos h.ok
    omega
  have e0 : S.fmt.abs 0 = 0 := Nat.zero_mod _
  rw [e0, decide_eq_false hi]

end Verif.Decimal
