import Verif.Decimal.HexParse
import Verif.Decimal.Near
import Verif.Decimal.Round
import Verif.Math.Expo
import Verif.Math.Step

/-! # Hexadecimal strings: rounding -/

namespace Verif.Decimal
open Verif.Strtol Verif.Float Spec

/-! ### Patterns of numbers rounded twice -/

variable {F : Fmt}

theorem mag_mk_succ (E m : Nat) (hE : 1 ≤ E) (h1 : 2 ^ F.f ≤ m) (h2 : m < 2 ^ (F.f + 1)) :
    F.mag (E * 2 ^ F.f + (m - 2 ^ F.f) + 1) = (m + 1) * 2 ^ (E - 1) := by
  by_cases h : m + 1 < 2 ^ (F.f + 1)
  · have := F.mag_mk E (m + 1) hE (by omega) h
    rw [← this]
    congr 1
    omega
  · have e : m + 1 = 2 * 2 ^ F.f := by rw [Nat.pow_succ] at h h2; omega
    have := F.mag_mk (E + 1) (2 ^ F.f) (by omega) (Nat.le_refl _) (by rw [Nat.pow_succ]; have := Nat.two_pow_pos F.f; omega)
    have e2 : E * 2 ^ F.f + (m - 2 ^ F.f) + 1 = (E + 1) * 2 ^ F.f + (2 ^ F.f - 2 ^ F.f) := by
      rw [Nat.add_mul, Nat.one_mul]; omega
    rw [e2, this, e, show E + 1 - 1 = (E - 1) + 1 by omega, Nat.pow_succ]
    ac_rfl

theorem pow_split {a b c d : Nat} (h : a + b = c + d) (M : Nat) : M * 2 ^ a * 2 ^ b = 2 ^ c * (M * 2 ^ d) := by
  rw [Nat.mul_assoc, ← Nat.pow_add, h, Nat.pow_add]
  ac_rfl

/-- An integer is rounded and then scaled: the same as rounding once if the result is normal or the integer short. -/
theorem twice (o : F.Ok) {X c : Nat} {k : Int} (hX : X < 2 ^ c) (hc : c ≤ F.bias)
    (h : X < 2 ^ (F.f + 1) ∨ 2 ^ F.f * 2 ^ (-k).toNat ≤ X * 2 ^ k.toNat * 2 ^ F.unit) :
    Nearest F (X * 2 ^ k.toNat * 2 ^ F.unit) (2 ^ (-k).toNat) (F.rnd (F.mag (F.rnd (X * 2 ^ F.unit) 1) * 2 ^ k.toNat) (2 ^ (-k).toNat)) := by
  have hd := Nat.two_pow_pos (-k).toNat
  obtain ⟨hu, hb3⟩ := Fmt.unit_eq o
  by_cases hs : X < 2 ^ (F.f + 1)
  · obtain ⟨j, hj, hjm⟩ := Fmt.representable (F := F) (m := X) (e := F.unit) (Nat.le_of_lt hs) (by
      rw [Fmt.mag_inf o]
      refine Nat.le_trans (Nat.mul_le_mul_right _ (Nat.le_of_lt hX)) ?_
      rw [← Nat.pow_add]
      exact Nat.pow_le_pow_right (by omega) (by omega))
    have hj1 : F.rnd (X * 2 ^ F.unit) 1 = j := rnd_exact (by omega) hj (by rw [hjm, Nat.one_mul])
    rw [hj1, hjm, show X * 2 ^ F.unit * 2 ^ k.toNat = X * 2 ^ k.toNat * 2 ^ F.unit by ac_rfl]
    exact rnd_nearest _ _ hd
  · have h := h.resolve_left hs
    have hX0 : X ≠ 0 := by have := Nat.two_pow_pos (F.f + 1); omega
    obtain ⟨l1, l2⟩ := log2_bounds hX0
    have hl : F.f + 1 ≤ Nat.log2 X := by
      rcases Nat.lt_or_ge (Nat.log2 X) (F.f + 1) with hlt | hge
      · have := Nat.pow_le_pow_right (n := 2) (by omega) (show Nat.log2 X + 1 ≤ F.f + 1 by omega)
        omega
      · exact hge
    have hlc : Nat.log2 X < c := by
      rcases Nat.lt_or_ge (Nat.log2 X) c with hlt | hge
      · exact hlt
      · have := Nat.pow_le_pow_right (n := 2) (by omega) hge
        omega
    obtain ⟨d, hd1, hdl⟩ : ∃ d, 1 ≤ d ∧ Nat.log2 X = F.f + d := ⟨Nat.log2 X - F.f, by omega, by omega⟩
    rw [hdl] at l1 l2 hlc
    have hpd := Nat.two_pow_pos d
    have hm1 : 2 ^ F.f ≤ X / 2 ^ d := (Nat.le_div_iff_mul_le hpd).2 (by rw [← Nat.pow_add]; exact l1)
    have hm2 : X / 2 ^ d < 2 ^ (F.f + 1) := by
      rw [Nat.div_lt_iff_lt_mul hpd, ← Nat.pow_add, show F.f + 1 + d = F.f + d + 1 by omega]
      exact l2
    have hR := Nat.mod_lt X hpd
    have hdm := Nat.div_add_mod X (2 ^ d)
    have hK : 2 ^ d = 2 * 2 ^ (d - 1) := by rw [← Nat.pow_succ']; congr 1; omega
    generalize hMM : X / 2 ^ d = M at *
    generalize hRR : X % 2 ^ d = R at *
    have hX' : X = M * (2 * 2 ^ (d - 1)) + R := by rw [← hK, Nat.mul_comm]; exact hdm.symm
    have hpar : ∀ E, 1 ≤ E → (E * 2 ^ F.f + (M - 2 ^ F.f)) % 2 = M % 2 := by
      intro E hE
      have hf := o.f
      have e2 : 2 ^ F.f = 2 * 2 ^ (F.f - 1) := by rw [← Nat.pow_succ']; congr 1; omega
      have e3 : E * 2 ^ F.f + (M - 2 ^ F.f) = 2 * ((E - 1) * 2 ^ (F.f - 1)) + M := by
        have : E * 2 ^ F.f = (E - 1) * 2 ^ F.f + 2 ^ F.f := by rw [← Nat.succ_mul]; congr 1; omega
        have : 2 * ((E - 1) * 2 ^ (F.f - 1)) = (E - 1) * 2 ^ F.f := by rw [e2]; ac_rfl
        omega
      rw [e3]; omega
    have hinf : ∀ E, E < 2 * F.bias + 1 → E * 2 ^ F.f + (M - 2 ^ F.f) + 1 ≤ F.inf := by
      intro E hE
      rw [Fmt.inf_eq o]
      have : (E + 1) * 2 ^ F.f ≤ (2 * F.bias + 1) * 2 ^ F.f := Nat.mul_le_mul_right _ hE
      rw [Nat.add_mul, Nat.one_mul] at this
      rw [Nat.pow_succ] at hm2
      omega
    -- the first rounding
    generalize hbb : (if R > 2 ^ (d - 1) ∨ (R = 2 ^ (d - 1) ∧ M % 2 = 1) then 1 else 0) = b at *
    have hmagb : ∀ E, 1 ≤ E → F.mag (E * 2 ^ F.f + (M - 2 ^ F.f) + b) = (M + b) * 2 ^ (E - 1) := by
      intro E hE
      rw [← hbb]
      split
      · exact mag_mk_succ E M hE hm1 hm2
      · exact F.mag_mk E M hE hm1 hm2
    have hy : F.rnd (X * 2 ^ F.unit) 1 = (d + F.unit + 1) * 2 ^ F.f + (M - 2 ^ F.f) + b := by
      refine rnd_eq (by omega) ?_
      rw [← hbb]
      refine nearest_round (K := 2 ^ (d - 1)) (c := 2 ^ F.unit) (by omega) (hinf _ (by omega)) (by omega) (Nat.two_pow_pos _) (by rw [hX']) ?_ ?_ (hpar _ (by omega))
      · rw [F.mag_mk _ M (by omega) hm1 hm2, Nat.one_mul, ← hK, Nat.mul_assoc, ← Nat.pow_add]; rfl
      · rw [mag_mk_succ _ M (by omega) hm1 hm2, Nat.one_mul, ← hK, Nat.mul_assoc, ← Nat.pow_add]; rfl
    rw [hy, hmagb _ (by omega), show d + F.unit + 1 - 1 = d + F.unit by omega]
    -- the exponent of the result
    have hg : 0 ≤ (d : Int) + F.unit + k := by
      have h1 : 2 ^ (F.f + (-k).toNat) < 2 ^ (F.f + d + 1 + k.toNat + F.unit) := by
        rw [Nat.pow_add]
        refine Nat.lt_of_le_of_lt h ?_
        rw [Nat.pow_add 2 _ F.unit, Nat.pow_add 2 _ k.toNat]
        exact Nat.mul_lt_mul_of_pos_right (Nat.mul_lt_mul_of_pos_right l2 (Nat.two_pow_pos _)) (Nat.two_pow_pos _)
      have := (Nat.pow_lt_pow_iff_right (by omega)).mp h1
      omega
    obtain ⟨g, hg⟩ : ∃ g : Nat, (g : Int) = d + F.unit + k := ⟨_, Int.toNat_of_nonneg hg⟩
    have hgk : g + (-k).toNat = d + (k.toNat + F.unit) := by omega
    by_cases hov : g + 1 < 2 * F.bias + 1
    · have hr : F.rnd ((M + b) * 2 ^ (d + F.unit) * 2 ^ k.toNat) (2 ^ (-k).toNat) = (g + 1) * 2 ^ F.f + (M - 2 ^ F.f) + b := by
        refine rnd_exact hd ?_ ?_
        · have := hinf (g + 1) hov
          have : b ≤ 1 := by rw [← hbb]; split <;> omega
          omega
        · rw [hmagb _ (by omega), show g + 1 - 1 = g by omega]
          exact pow_split (by omega) _
      rw [hr, ← hbb]
      refine nearest_round (K := 2 ^ (d - 1)) (c := 2 ^ (k.toNat + F.unit)) hd (hinf _ hov) (by omega) (Nat.two_pow_pos _) (by rw [← hX', Nat.mul_assoc, ← Nat.pow_add]) ?_ ?_ (hpar _ (by omega))
      · rw [F.mag_mk _ M (by omega) hm1 hm2, ← hK, show g + 1 - 1 = g by omega]
        exact (pow_split (by omega) _).symm
      · rw [mag_mk_succ _ M (by omega) hm1 hm2, ← hK, show g + 1 - 1 = g by omega]
        exact (pow_split (by omega) _).symm
    · have hr : F.rnd ((M + b) * 2 ^ (d + F.unit) * 2 ^ k.toNat) (2 ^ (-k).toNat) = F.inf := by
        refine rnd_eq hd (nearest_inf hd ?_)
        rw [Fmt.mag_inf o]
        have : 2 ^ F.f ≤ M + b := by omega
        refine Nat.le_trans ?_ (Nat.mul_le_mul_right _ (Nat.mul_le_mul_right _ this))
        rw [← Nat.pow_add, ← Nat.pow_add, ← Nat.pow_add]
        exact Nat.pow_le_pow_right (by omega) (by omega)
      rw [hr]
      refine nearest_inf hd ?_
      rw [Fmt.mag_inf o]
      refine Nat.le_trans ?_ (Nat.mul_le_mul_right _ (Nat.mul_le_mul_right _ l1))
      rw [← Nat.pow_add, ← Nat.pow_add, ← Nat.pow_add]
      exact Nat.pow_le_pow_right (by omega) (by omega)

/-! ### Digits beyond the capacity -/

/-- `X` stands for `N / 16^l`: they agree but for the last digit, which is zero only if that is exact. -/
structure Stands (f N X l : Nat) : Prop where
  high : X / 16 = N / 16 ^ (l + 1)
  low : X % 16 = 0 ↔ N % 16 ^ (l + 1) = 0
  big : 2 ^ (f + 5) ≤ X / 16 * 16

theorem Stands.cmp {f N X l : Nat} (h : Stands f N X l) {m : Nat} (hm : m < 2 ^ (f + 2)) (p q : Nat) :
    (X * 16 ^ l * 2 ^ p ≤ m * 2 ^ q ↔ N * 2 ^ p ≤ m * 2 ^ q) ∧ (m * 2 ^ q ≤ X * 16 ^ l * 2 ^ p ↔ m * 2 ^ q ≤ N * 2 ^ p) := by
  obtain ⟨h1, h2, h3⟩ := h
  have hP := Nat.two_pow_pos p
  have hB : 0 < 16 ^ l := Nat.pow_pos (by omega)
  have hB1 : 16 ^ (l + 1) = 16 * 16 ^ l := by rw [Nat.pow_succ]; omega
  have hXd := Nat.div_add_mod X 16
  have hXm := Nat.mod_lt X (show 0 < 16 by omega)
  have hNd := Nat.div_add_mod N (16 ^ (l + 1))
  have hNm := Nat.mod_lt N (show 0 < 16 ^ (l + 1) by omega)
  rw [← h1] at hNd
  generalize X / 16 = u at *
  generalize X % 16 = x at *
  generalize N % 16 ^ (l + 1) = y at *
  have eX : X * 16 ^ l = 16 ^ (l + 1) * u + x * 16 ^ l := by
    rw [← hXd, Nat.add_mul, hB1]
    congr 1
    ac_rfl
  have hx : x * 16 ^ l < 16 ^ (l + 1) := by rw [hB1]; exact (Nat.mul_lt_mul_right hB).mpr hXm
  have hx0 : x * 16 ^ l = 0 ↔ x = 0 := by
    rw [Nat.mul_eq_zero]
    omega
  rw [eX, ← hNd]
  generalize x * 16 ^ l = x' at *
  have hlow : x' = 0 ↔ y = 0 := hx0.trans h2
  by_cases hq : p + 4 + 4 * l ≤ q
  · obtain ⟨j, rfl⟩ : ∃ j, q = p + 4 + 4 * l + j := ⟨q - (p + 4 + 4 * l), by omega⟩
    have e1 : m * 2 ^ (p + 4 + 4 * l + j) = m * 2 ^ j * 16 ^ (l + 1) * 2 ^ p := by
      rw [Nat.pow_add, Nat.pow_add, Nat.pow_add, hB1, Nat.pow_mul, show 2 ^ 4 = 16 from rfl]
      ac_rfl
    rw [e1, Nat.mul_le_mul_right_iff hP, Nat.mul_le_mul_right_iff hP, Nat.mul_le_mul_right_iff hP, Nat.mul_le_mul_right_iff hP]
    generalize m * 2 ^ j = v
    generalize 16 ^ (l + 1) = B at *
    rcases Nat.lt_or_ge u v with c | c
    · have : (u + 1) * B ≤ v * B := Nat.mul_le_mul_right _ c
      rw [Nat.add_mul, Nat.one_mul, Nat.mul_comm u] at this
      omega
    · have : v * B ≤ u * B := Nat.mul_le_mul_right _ c
      rw [Nat.mul_comm u] at this
      omega
  · have e1 : m * 2 ^ q < 16 ^ (l + 1) * u * 2 ^ p := by
      have k1 : m * 2 ^ q < 2 ^ (f + 2) * 2 ^ q := (Nat.mul_lt_mul_right (Nat.two_pow_pos q)).mpr hm
      have k2 : 2 ^ (f + 2) * 2 ^ q ≤ 2 ^ (f + 5 + (4 * l + p)) := by
        rw [← Nat.pow_add]
        exact Nat.pow_le_pow_right (by omega) (by omega)
      have k3 : 2 ^ (f + 5 + (4 * l + p)) ≤ u * 16 * (16 ^ l * 2 ^ p) := by
        rw [Nat.pow_add, Nat.pow_add 2 (4 * l), Nat.pow_mul]
        exact Nat.mul_le_mul_right _ h3
      have k4 : u * 16 * (16 ^ l * 2 ^ p) = 16 ^ (l + 1) * u * 2 ^ p := by rw [hB1]; ac_rfl
      omega
    have k5 : 16 ^ (l + 1) * u * 2 ^ p ≤ (16 ^ (l + 1) * u + x') * 2 ^ p := Nat.mul_le_mul_right _ (by omega)
    have k6 : 16 ^ (l + 1) * u * 2 ^ p ≤ (16 ^ (l + 1) * u + y) * 2 ^ p := Nat.mul_le_mul_right _ (by omega)
    omega

theorem Stands.same_aux {f N X l : Nat} (h : Stands f N X l) (t : Int) {m : Nat} (hm : m < 2 ^ (f + 2)) (w E : Nat) :
    (X * 2 ^ (t + 4 * l).toNat * 2 ^ w ≤ 2 ^ (-(t + 4 * l)).toNat * (m * 2 ^ E) ↔ N * 2 ^ t.toNat * 2 ^ w ≤ 2 ^ (-t).toNat * (m * 2 ^ E)) ∧
    (2 ^ (-(t + 4 * l)).toNat * (m * 2 ^ E) ≤ X * 2 ^ (t + 4 * l).toNat * 2 ^ w ↔ 2 ^ (-t).toNat * (m * 2 ^ E) ≤ N * 2 ^ t.toNat * 2 ^ w) := by
  generalize hs : t + 4 * (l : Int) = s
  have c := h.cmp hm (s.toNat + t.toNat + w) ((-t).toNat + s.toNat + E)
  have p1 := Nat.two_pow_pos (4 * l + t.toNat)
  have p2 := Nat.two_pow_pos s.toNat
  have e1 : X * 2 ^ s.toNat * 2 ^ w * 2 ^ (4 * l + t.toNat) = X * 16 ^ l * 2 ^ (s.toNat + t.toNat + w) := by
    rw [Nat.pow_add, Nat.pow_add, Nat.pow_add, Nat.pow_mul]
    ac_rfl
  have e2 : 2 ^ (-s).toNat * (m * 2 ^ E) * 2 ^ (4 * l + t.toNat) = m * 2 ^ ((-t).toNat + s.toNat + E) := by
    rw [show (-t).toNat + s.toNat + E = (-s).toNat + E + (4 * l + t.toNat) by omega]
    simp only [Nat.pow_add]
    ac_rfl
  have e3 : N * 2 ^ t.toNat * 2 ^ w * 2 ^ s.toNat = N * 2 ^ (s.toNat + t.toNat + w) := by
    rw [Nat.pow_add, Nat.pow_add]
    ac_rfl
  have e4 : 2 ^ (-t).toNat * (m * 2 ^ E) * 2 ^ s.toNat = m * 2 ^ ((-t).toNat + s.toNat + E) := by
    rw [Nat.pow_add, Nat.pow_add]
    ac_rfl
  rw [← e1, ← e2, ← e3, Nat.mul_le_mul_right_iff p1, Nat.mul_le_mul_right_iff p1, e2, ← e4, Nat.mul_le_mul_right_iff p2, Nat.mul_le_mul_right_iff p2] at c
  exact c

theorem Stands.same {N X l : Nat} (h : Stands F.f N X l) (t : Int) :
    Same F (X * 2 ^ (t + 4 * l).toNat * 2 ^ F.unit) (2 ^ (-(t + 4 * l)).toNat) (N * 2 ^ t.toNat * 2 ^ F.unit) (2 ^ (-t).toNat) := by
  intro n _
  obtain ⟨m, E, hE, -, hm⟩ := mid_form F n
  have := h.same_aux t hm (F.unit + 1) E
  rw [hE, show 2 * (X * 2 ^ (t + 4 * l).toNat * 2 ^ F.unit) = X * 2 ^ (t + 4 * l).toNat * 2 ^ (F.unit + 1) by rw [Nat.pow_succ 2 F.unit]; ac_rfl,
    show 2 * (N * 2 ^ t.toNat * 2 ^ F.unit) = N * 2 ^ t.toNat * 2 ^ (F.unit + 1) by rw [Nat.pow_succ 2 F.unit]; ac_rfl]
  exact this

theorem Stands.normal {N X l : Nat} (h : Stands F.f N X l) (t : Int) (hn : AtLeastNormal F N t) :
    2 ^ F.f * 2 ^ (-(t + 4 * l)).toNat ≤ X * 2 ^ (t + 4 * l).toNat * 2 ^ F.unit := by
  have := (h.same_aux t (m := 1) (Nat.one_lt_two_pow (by omega)) F.unit F.f).2
  rw [Nat.one_mul, Nat.mul_comm _ (2 ^ F.f), Nat.mul_comm _ (2 ^ F.f)] at this
  exact this.mpr hn

end Verif.Decimal
