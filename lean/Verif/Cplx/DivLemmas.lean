import Verif.Cplx.MulLemmas
import Verif.Math.Props

/-! # Complex division -/

namespace Verif.Cplx
open Verif.Float Verif.Math
open Verif.Arith (fdiv)

variable {F : Fmt}

theorem mag_rnd_le (o : F.Ok) {n den j : Nat} (hd : 0 < den) (h : n ≤ 2 ^ j * den) (hj : j ≤ F.f + 2 * F.bias) : F.mag (F.rnd n den) ≤ 2 ^ j := by
  have hinf : 1 * 2 ^ j ≤ F.mag F.inf := by
    rw [Fmt.mag_inf o, Nat.one_mul]; exact Nat.pow_le_pow_right (by omega) hj
  obtain ⟨k, hk, e⟩ := Fmt.representable (F := F) (m := 1) (e := j) Nat.one_le_two_pow hinf
  rw [Nat.one_mul] at e
  have := rnd_mono (F := F) (a := n) (b := den * F.mag k) (den := den) hd (by rw [e, Nat.mul_comm]; exact h)
  rw [rnd_exact hd hk rfl] at this
  rw [← e]; exact Fmt.mag_le_iff.2 this

theorem rnd_zero (o : F.Ok) {den : Nat} (hd : 0 < den) : F.rnd 0 den = 0 :=
  rnd_exact hd (Nat.zero_le _) (by rw [F.mag_zero]; omega)

theorem mag_mul_le (o : F.Ok) {x y i j : Nat} (hx : F.abs x < F.inf) (hy : F.abs y < F.inf) (h1 : F.mag (F.abs x) ≤ 2 ^ (F.unit + i)) (h2 : F.mag (F.abs y) ≤ 2 ^ (F.unit + j))
    (hb : F.unit + (i + j) < F.f + 2 * F.bias) : F.abs (F.mul x y) < F.inf ∧ F.mag (F.abs (F.mul x y)) ≤ 2 ^ (F.unit + (i + j)) := by
  have hU := Nat.two_pow_pos F.unit
  have hr := rnd_le (F := F) (F.mag (F.abs x) * F.mag (F.abs y)) (2 ^ F.unit) hU
  have hi := Fmt.inf_lt (F := F)
  rw [Fmt.mul_fin hx hy, Fmt.abs_pack (by omega)]
  have hm : F.mag (F.rnd (F.mag (F.abs x) * F.mag (F.abs y)) (2 ^ F.unit)) ≤ 2 ^ (F.unit + (i + j)) := by
    apply mag_rnd_le o hU _ (by omega)
    refine Nat.le_trans (Nat.mul_le_mul h1 h2) (Nat.le_of_eq ?_)
    rw [← Nat.pow_add, ← Nat.pow_add]; congr 1; omega
  refine ⟨(Fmt.mag_lt_iff (F := F)).1 ?_, hm⟩
  rw [Fmt.mag_inf o]
  exact Nat.lt_of_le_of_lt hm (Nat.pow_lt_pow_right (by omega) hb)

theorem abs_rndInt {z : Bool} {n : Int} : F.abs (F.rndInt z n) ≤ F.rnd n.natAbs 1 := by
  have hi := Fmt.inf_lt (F := F)
  have hr := rnd_le (F := F) n.natAbs 1 (by omega)
  unfold Fmt.rndInt
  split
  · rw [Fmt.abs_pack Fmt.signBit_pos]; omega
  · rw [Fmt.abs_pack (by omega)]

theorem add_bound {x y k : Nat} (hx : F.abs x < F.inf) (hy : F.abs y < F.inf) (hk : k < F.inf) (h : F.mag (F.abs x) + F.mag (F.abs y) ≤ F.mag k) :
    F.abs (F.add x y) ≤ k := by
  rw [Fmt.add_fin hx hy]
  refine Nat.le_trans abs_rndInt ?_
  have h1 := Fmt.natAbs_val (F := F) x
  have h2 := Fmt.natAbs_val (F := F) y
  have := rnd_mono (F := F) (a := (F.val x + F.val y).natAbs) (b := 1 * F.mag k) (den := 1) (by omega) (by omega)
  rwa [rnd_exact (by omega) (Nat.le_of_lt hk) rfl] at this

theorem den_fin (o : F.Ok) {c d j : Nat} (hc : F.abs c < F.inf) (hd : F.abs d < F.inf) (h1 : F.mag (F.abs c) ≤ 2 ^ (F.unit + j)) (h2 : F.mag (F.abs d) ≤ 2 ^ (F.unit + j))
    (hb : F.unit + (j + j) + 1 < F.f + 2 * F.bias) :
    F.abs (F.add (F.mul c c) (F.mul d d)) < F.inf ∧ (F.abs c = 0 → F.abs d = 0 → F.eq (F.add (F.mul c c) (F.mul d d)) 0 = true) := by
  obtain ⟨m1, m2⟩ := mag_mul_le o hc hc h1 h1 (by omega)
  obtain ⟨m3, m4⟩ := mag_mul_le o hd hd h2 h2 (by omega)
  have hinf : 1 * 2 ^ (F.unit + (j + j) + 1) ≤ F.mag F.inf := by
    rw [Fmt.mag_inf o, Nat.one_mul]; exact Nat.pow_le_pow_right (by omega) (by omega)
  obtain ⟨k, hk, e⟩ := Fmt.representable (F := F) (m := 1) (e := F.unit + (j + j) + 1) Nat.one_le_two_pow hinf
  rw [Nat.one_mul] at e
  have hk' : k < F.inf := (Fmt.mag_lt_iff (F := F)).1 (by rw [e, Fmt.mag_inf o]; exact Nat.pow_lt_pow_right (by omega) hb)
  have hs : F.abs (F.add (F.mul c c) (F.mul d d)) < F.inf :=
    Nat.lt_of_le_of_lt (add_bound m1 m3 hk' (by rw [e, Nat.pow_succ]; omega)) hk'
  refine ⟨hs, fun z1 z2 => ?_⟩
  have hp := Fmt.inf_pos o
  have e0 : F.abs 0 = 0 := Fmt.abs_of_lt Fmt.signBit_pos
  rw [Fmt.eq_iff (Nat.le_of_lt hs) (by rw [e0]; omega), val_zero_iff.2 e0, val_zero_iff]
  have hU := Nat.two_pow_pos F.unit
  have z : ∀ {x : Nat}, F.abs x < F.inf → F.abs x = 0 → F.val (F.mul x x) = 0 := by
    intro x hx h0
    rw [val_zero_iff, Fmt.mul_fin hx hx, h0, F.mag_zero, Nat.mul_zero, rnd_zero o hU, Fmt.abs_pack Fmt.signBit_pos]
  exact (add_fin_class o m1 m3).2.2 (by rw [z hc z1, z hd z2]; rfl)

theorem numerator_big (o : F.Ok) {a b c d : Nat} (h : (Big F a ∨ Big F b) ∨ Big F c ∨ Big F d) :
    Big F (numerator F a b c d).1 ∧ Big F (numerator F a b c d).2 := by
  unfold numerator
  rcases h with (h | h) | h | h
  · exact ⟨add_big o (Or.inl (mul_big o (Or.inl h))), sub_big o (Or.inr (mul_big o (Or.inl h)))⟩
  · exact ⟨add_big o (Or.inr (mul_big o (Or.inl h))), sub_big o (Or.inl (mul_big o (Or.inl h)))⟩
  · exact ⟨add_big o (Or.inl (mul_big o (Or.inr h))), sub_big o (Or.inl (mul_big o (Or.inr h)))⟩
  · exact ⟨add_big o (Or.inr (mul_big o (Or.inr h))), sub_big o (Or.inr (mul_big o (Or.inr h)))⟩

/-- Zero times anything, plus zero times anything: zero or a NaN. -/
def Small (F : Fmt) (x : Nat) : Prop := F.abs x = 0 ∨ F.isNaN x = true

theorem mul_small (o : F.Ok) {x y : Nat} (h : F.abs y = 0) : Small F (F.mul x y) := by
  have hp := Fmt.inf_pos o
  by_cases hx : F.abs x < F.inf
  · left
    rw [Fmt.mul_fin hx (by omega), h, F.mag_zero, Nat.mul_zero, rnd_zero o (Nat.two_pow_pos _), Fmt.abs_pack Fmt.signBit_pos]
  · right
    unfold Fmt.mul
    by_cases h1 : F.isNaN x = true ∨ F.isNaN y = true
    · rw [if_pos h1]; exact nan_of (nan_abs o)
    · rw [if_neg h1, if_neg (by rw [Fmt.isFin_iff]; omega), if_pos (Or.inr h)]; exact nan_of (nan_abs o)

theorem add_small (o : F.Ok) {x y : Nat} (hx : Small F x) (hy : Small F y) : Small F (F.add x y) := by
  have hp := Fmt.inf_pos o
  by_cases h1 : F.isNaN x = true ∨ F.isNaN y = true
  · right
    unfold Fmt.add
    rw [if_pos h1]; exact nan_of (nan_abs o)
  · rw [not_or] at h1
    have hx := hx.resolve_right h1.1
    have hy := hy.resolve_right h1.2
    left
    exact (add_fin_class o (by omega) (by omega)).2.2 (by rw [val_zero_iff.2 hx, val_zero_iff.2 hy]; rfl)

theorem small_opp {x : Nat} (h : Small F x) : Small F (F.opp x) := by
  unfold Small at *
  rw [Fmt.isNaN_iff] at *
  rwa [Fmt.abs_opp]

theorem numerator_small (o : F.Ok) {a b c d : Nat} (hc : F.abs c = 0) (hd : F.abs d = 0) :
    Small F (numerator F a b c d).1 ∧ Small F (numerator F a b c d).2 :=
  ⟨add_small o (mul_small o hc) (mul_small o hd), add_small o (mul_small o hc) (small_opp (mul_small o hd))⟩

theorem small_div (o : F.Ok) {x y : Nat} (h : Small F x) (hy : F.abs y = 0) : F.isNaN (fdiv F x y) = true := by
  rcases h with h | h
  · exact div_nan o (Or.inr (Or.inr (Or.inr ⟨h, hy⟩)))
  · exact div_nan o (Or.inr (Or.inl h))

/-! ### The recovery -/

/-- An infinite dividend. -/
theorem recover_inf (o : F.Ok) {a b c d : Nat} {zero inf : Bool} {z : C} (h : F.abs a = F.inf ∨ F.abs b = F.inf)
    (hc : F.abs c < F.inf) (hd : F.abs d < F.inf) (hz : zero = false → F.abs c ≠ 0 ∨ F.abs d ≠ 0) (b1 : Big F z.1) (b2 : Big F z.2) :
    F.abs (recover F a b c d zero inf z).1 = F.inf ∨ F.abs (recover F a b c d zero inf z).2 = F.inf := by
  have hp := Fmt.inf_pos o
  unfold recover
  by_cases hn : F.isNaN z.1 ∧ F.isNaN z.2
  swap
  · rw [if_neg hn]
    by_cases hx : F.isNaN z.1 = true
    · exact Or.inr (big_not_nan b2 (fun hy => hn ⟨hx, hy⟩))
    · exact Or.inl (big_not_nan b1 hx)
  rw [if_pos hn]
  by_cases h1 : zero ∧ (F.isNaN a = false ∨ F.isNaN b = false)
  · rw [if_pos h1]
    exact scale_some o (by rw [abs_copysign, inf_abs]) (h.imp (fun h => ⟨by show F.abs a ≤ _; omega, by show F.abs a ≠ 0; omega⟩)
      (fun h => ⟨by show F.abs b ≤ _; omega, by show F.abs b ≠ 0; omega⟩))
  · rw [if_neg h1, if_pos ⟨h.imp isInf_iff.2 isInf_iff.2, Fmt.isFin_iff.2 hc, Fmt.isFin_iff.2 hd⟩]
    have hz' : zero = false := by
      cases zero
      · rfl
      · exact absurd ⟨rfl, h.imp (fun h => Fmt.isNaN_false.2 (by omega)) (fun h => Fmt.isNaN_false.2 (by omega))⟩ h1
    exact scale_some o inf_abs (product_some o (Or.inl ⟨(box_unit o a).1, (box_unit o b).1, hc, hd⟩) (box_nonzero o h) (hz hz')).2

/-- A zero divisor. -/
theorem recover_zero (o : F.Ok) {a b c d : Nat} {inf : Bool} {z : C} (h : Ample F a b)
    (b1 : F.isNaN z.1 = true) (b2 : F.isNaN z.2 = true) :
    F.abs (recover F a b c d true inf z).1 = F.inf ∨ F.abs (recover F a b c d true inf z).2 = F.inf := by
  have hp := Fmt.inf_pos o
  have hs : (F.isNaN a = false ∨ F.isNaN b = false) ∧ Some1 F (a, b) := by
    unfold Some1
    simp only [Fmt.isNaN_false]
    unfold Ample at h
    omega
  unfold recover
  rw [if_pos ⟨b1, b2⟩, if_pos ⟨rfl, hs.1⟩]
  exact scale_some o (by rw [abs_copysign, inf_abs]) hs.2

theorem mag_mul_unit {a c : Nat} (hc : Unit F c) (ha : F.abs a < F.inf) : F.mag (F.abs (F.mul a c)) ≤ F.mag (F.abs a) := by
  have h := (mul_unit' hc ha).2
  have h' := congrArg Int.natAbs h
  rw [Int.natAbs_mul, Int.natAbs_mul, Fmt.natAbs_val, Fmt.natAbs_val, Fmt.natAbs_val, Int.natAbs_pow] at h'
  have hU := Nat.two_pow_pos F.unit
  rw [show Int.natAbs 2 = 2 from rfl] at h'
  rcases hc.2 with e | e
  · rw [e, Nat.mul_zero] at h'
    rcases Nat.mul_eq_zero.1 h' with h0 | h0 <;> omega
  · rw [e] at h'
    exact Nat.le_of_eq (Nat.eq_of_mul_eq_mul_right hU h')

/-- An infinite divisor. -/
theorem recover_divisor (o : F.Ok) {a b c d : Nat} {z : C} (ha : F.abs a < F.inf) (hb : F.abs b < F.inf)
    (hs : F.mag (F.abs a) + F.mag (F.abs b) ≤ F.mag (F.inf - 1)) (b1 : F.isNaN z.1 = true) (b2 : F.isNaN z.2 = true) :
    F.abs (recover F a b c d false true z).1 = 0 ∧ F.abs (recover F a b c d false true z).2 = 0 := by
  have hp := Fmt.inf_pos o
  have uc := (box_unit o c).1
  have ud := (box_unit o d).1
  unfold recover
  rw [if_pos ⟨b1, b2⟩, if_neg (by simp), if_neg (by rw [isInf_iff, isInf_iff]; omega), if_pos ⟨rfl, Fmt.isFin_iff.2 ha, Fmt.isFin_iff.2 hb⟩]
  obtain ⟨⟨f1, f2, f3, f4⟩, -⟩ := four (F := F) (Or.inr ⟨ha, hb, uc, ud⟩)
  have m1 := mag_mul_unit uc ha
  have m2 := mag_mul_unit ud hb
  have m3 := mag_mul_unit ud ha
  have m4 := mag_mul_unit uc hb
  have n1 : F.abs (numerator F a b (box F c) (box F d)).1 ≤ F.inf - 1 := add_bound f1 f2 (by omega) (by omega)
  have n2 : F.abs (numerator F a b (box F c) (box F d)).2 ≤ F.inf - 1 := add_bound f4 (by rw [Fmt.abs_opp]; exact f3) (by omega) (by rw [Fmt.abs_opp]; omega)
  have e0 : F.abs (F.ofInt 0) = 0 := by rw [ofInt_zero]; exact Fmt.abs_of_lt Fmt.signBit_pos
  have key : ∀ {x : Nat}, F.abs x ≤ F.inf - 1 → F.abs (F.mul (F.ofInt 0) x) = 0 := by
    intro x hx
    rw [Fmt.mul_fin (by omega) (by omega), e0, F.mag_zero, Nat.zero_mul, rnd_zero o (Nat.two_pow_pos _), Fmt.abs_pack Fmt.signBit_pos]
  exact ⟨key n1, key n2⟩

/-- The squares of the parts of an infinite divisor do not cancel. -/
theorem den_inf (o : F.Ok) {c d : Nat} (h : F.abs c = F.inf ∨ F.abs d = F.inf) : Big F (F.add (F.mul c c) (F.mul d d)) := by
  have e : ∀ {x : Nat}, F.abs x = F.inf → Big F x := fun h => by unfold Big; omega
  rcases h with h | h
  · exact add_big o (Or.inl (mul_big o (Or.inl (e h))))
  · exact add_big o (Or.inr (mul_big o (Or.inl (e h))))

theorem big_ne_zero (o : F.Ok) {x : Nat} (h : Big F x) : F.eq x 0 = false := by
  have hp := Fmt.inf_pos o
  have e0 : F.abs 0 = 0 := Fmt.abs_of_lt Fmt.signBit_pos
  unfold Big at h
  rcases Nat.lt_or_ge F.inf (F.abs x) with h1 | h1
  · unfold Fmt.eq; rw [nan_of h1]; simp
  · rw [← Bool.not_eq_true, Fmt.eq_iff h1 (by omega), val_zero_iff.2 e0, val_zero_iff]; omega

/-! ### Doubles -/

theorem scalbn_total (x : Nat) (n : Int) : ∃ r, scalbn x n = some r ∧ (Big b64 x → r = x) ∧ (b64.abs x = 0 → r = x) := by
  by_cases h : Math.Spec.Zero b64 x ∨ ¬ Math.Spec.Finite b64 x
  · exact ⟨x, C57_scalbn_special x n h, fun _ => rfl, fun _ => rfl⟩
  · rw [not_or, not_not] at h
    obtain ⟨h1, h2⟩ := h
    exact ⟨_, scalbn_eq n (Nat.pos_of_ne_zero h1) h2, fun h => absurd h2 (Nat.not_lt.2 h), fun h => absurd h h1⟩

theorem le_abs64 {c d : Nat} (hc : b64.abs c ≤ b64.inf) (hd : b64.abs d ≤ b64.inf) : b64.le (b64.abs d) (b64.abs c) = true ↔ b64.abs d ≤ b64.abs c := by
  rw [Fmt.le_pos hd hc, Fmt.mag_le_iff]

theorem eq_self {x : Nat} (h : F.abs x ≤ F.inf) : F.eq x x = true := (Fmt.eq_iff h h).2 rfl

theorem fmax_fin {c d : Nat} (hc : b64.abs c ≤ b64.inf) (hd : b64.abs d ≤ b64.inf) : fmax b64 (b64.abs c) (b64.abs d) = max (b64.abs c) (b64.abs d) := by
  unfold fmax
  rw [eq_self (by rw [Fmt.abs_abs]; exact hd)]
  simp only [le_abs64 hc hd, not_true_eq_false, or_false]
  split <;> omega

theorem fmax_inf {c d : Nat} (h : b64.abs c = b64.inf ∨ b64.abs d = b64.inf) : fmax b64 (b64.abs c) (b64.abs d) = b64.inf := by
  by_cases hc : b64.abs c ≤ b64.inf
  · by_cases hd : b64.abs d ≤ b64.inf
    · rw [fmax_fin hc hd]; omega
    · have hn : b64.isNaN (b64.abs d) = true := nan_of (by rw [Fmt.abs_abs]; omega)
      unfold fmax
      have he : b64.eq (b64.abs d) (b64.abs d) = false := by unfold Fmt.eq; rw [hn]; simp
      rw [if_pos (Or.inr (by rw [he]; simp))]
      omega
  · have hd : b64.abs d = b64.inf := by omega
    have hn : b64.isNaN (b64.abs c) = true := nan_of (by rw [Fmt.abs_abs]; omega)
    unfold fmax
    have hl : b64.le (b64.abs d) (b64.abs c) = false := by unfold Fmt.le; rw [hn]; simp
    rw [if_neg, hd]
    rw [hl, eq_self (by rw [Fmt.abs_abs, hd])]
    simp

theorem pow_bound {M N : Nat} {k : Int} (hk : 0 ≤ k + N) (h : M < 2 ^ (k + N + 1).toNat) : M * 2 ^ (-k).toNat ≤ 2 ^ (N + 1) * 2 ^ (- -k).toNat := by
  refine Nat.le_trans (Nat.mul_le_mul_right _ (Nat.le_of_lt h)) ?_
  rw [← Nat.pow_add, ← Nat.pow_add]
  exact Nat.pow_le_pow_right (by omega) (by omega)

theorem scaled_bound {c : Nat} {k : Int} (hc : b64.abs c < b64.inf) (hk : 0 ≤ k + b64.unit) (h : b64.mag (b64.abs c) < 2 ^ (k + b64.unit + 1).toNat) :
    ∃ r, scalbn c (-k) = some r ∧ b64.abs r < b64.inf ∧ b64.mag (b64.abs r) ≤ 2 ^ (b64.unit + 1) := by
  by_cases h0 : b64.abs c = 0
  · obtain ⟨r, e, -, e2⟩ := scalbn_total c (-k)
    refine ⟨r, e, ?_⟩
    rw [e2 h0, h0, Fmt.mag_zero]
    exact ⟨Fmt.inf_pos ok64, Nat.zero_le _⟩
  · refine ⟨_, scalbn_eq (-k) (Nat.pos_of_ne_zero h0) hc, ?_⟩
    have hr := rnd_le (F := b64) (b64.mag (b64.abs c) * 2 ^ (-k).toNat) (2 ^ (- -k).toNat) (Nat.two_pow_pos _)
    rw [Fmt.abs_pack (Nat.lt_of_le_of_lt hr Fmt.inf_lt)]
    have hm := mag_rnd_le ok64 (j := b64.unit + 1) (Nat.two_pow_pos _) (pow_bound hk h) (by decide)
    refine ⟨(Fmt.mag_lt_iff (F := b64)).1 ?_, hm⟩
    rw [Fmt.mag_inf ok64]
    exact Nat.lt_of_le_of_lt hm (Nat.pow_lt_pow_right (by omega) (by decide))

theorem toInt_value {r : Nat} {k : Int} (hr : Math.Spec.Pat F r) (h : Math.Spec.value F r = k * 2 ^ F.unit) : toInt F r = k := by
  rw [value_eq hr] at h
  have hU := Nat.two_pow_pos F.unit
  have ha := congrArg Int.natAbs h
  rw [Fmt.natAbs_val, Int.natAbs_mul, Int.natAbs_pow, show Int.natAbs 2 = 2 from rfl] at ha
  have hw : F.whole r = k.natAbs := by
    unfold Fmt.whole
    rw [ha]
    exact Nat.mul_div_cancel _ hU
  unfold toInt
  rw [hw]
  unfold Fmt.val at h
  have hP : (0 : Int) < 2 ^ F.unit := Int.pow_pos (by decide)
  by_cases hn : F.neg r = true
  · rw [if_pos hn] at h ⊢
    have : k ≤ 0 := by
      by_contra hc
      have : 0 < k * 2 ^ F.unit := Int.mul_pos (by omega) hP
      omega
    omega
  · rw [if_neg hn] at h ⊢
    have : 0 ≤ k := by
      by_contra hc
      have : k * 2 ^ F.unit < 0 := Int.mul_neg_of_neg_of_pos (by omega) hP
      omega
    omega

theorem big1074 {M P K : Nat} {k : Int} (hM : M = k.natAbs * P) (hk : k.natAbs ≤ 2048) (hK : 2 ^ 12 * P ≤ K) (hP : 0 < P) : M < K := by
  have : k.natAbs * P ≤ 2048 * P := Nat.mul_le_mul_right _ hk
  omega

/-- A divisor that is finite and not zero is scaled into `[-2, 2]`. -/
theorem div_finite (a b : Nat) {c d : Nat} (hc : b64.abs c < b64.inf) (hd : b64.abs d < b64.inf) (h0 : b64.abs c ≠ 0 ∨ b64.abs d ≠ 0) :
    ∃ k c' d' l, divdc3 a b c d = divScaled a b c' d' l (-k) ∧ scalbn c (-k) = some c' ∧ scalbn d (-k) = some d' ∧
      Math.Spec.Exponent b64 (max (b64.abs c) (b64.abs d)) k ∧
      (b64.abs c' < b64.inf ∧ b64.mag (b64.abs c') ≤ 2 ^ (b64.unit + 1)) ∧ b64.abs d' < b64.inf ∧ b64.mag (b64.abs d') ≤ 2 ^ (b64.unit + 1) := by
  have hm := fmax_fin (Nat.le_of_lt hc) (Nat.le_of_lt hd)
  have habs : b64.abs (max (b64.abs c) (b64.abs d)) = max (b64.abs c) (b64.abs d) :=
    Fmt.abs_of_lt (by have := Fmt.abs_lt (F := b64) c; have := Fmt.abs_lt (F := b64) d; omega)
  obtain ⟨k, r, -, hl, he, hp, hv⟩ := C58_logb (max (b64.abs c) (b64.abs d)) (by show b64.abs _ < _; rw [habs]; omega)
    (by show ¬ b64.abs _ = 0; rw [habs]; omega)
  have he' := he
  obtain ⟨e1, e2, e3⟩ := he
  rw [size_eq, habs] at e2 e3
  have hc3 : b64.mag (b64.abs c) < 2 ^ (k + b64.unit + 1).toNat := Nat.lt_of_le_of_lt ((Fmt.mag_le_iff (F := b64)).2 (Nat.le_max_left _ _)) e3
  have hd3 : b64.mag (b64.abs d) < 2 ^ (k + b64.unit + 1).toNat := Nat.lt_of_le_of_lt ((Fmt.mag_le_iff (F := b64)).2 (Nat.le_max_right _ _)) e3
  obtain ⟨c', c1, c2⟩ := scaled_bound hc e1 hc3
  obtain ⟨d', d1, d2⟩ := scaled_bound hd e1 hd3
  have hfin : b64.isFin r = true := by
    rw [Fmt.isFin_iff]
    apply (Fmt.mag_lt_iff (F := b64)).1
    rw [value_eq hp] at hv
    have ha := congrArg Int.natAbs hv
    rw [Fmt.natAbs_val, Int.natAbs_mul, Int.natAbs_pow, show Int.natAbs 2 = 2 from rfl] at ha
    have hup : (k + b64.unit).toNat < b64.f + 2 * b64.bias := by
      rw [← Nat.pow_lt_pow_iff_right (a := 2) (by omega), ← Fmt.mag_inf ok64]
      exact Nat.lt_of_le_of_lt e2 (Fmt.mag_lt_iff.2 (by omega))
    have hu : b64.unit = 1074 := rfl
    have hf : b64.f + 2 * b64.bias = 2098 := rfl
    refine big1074 ha (by omega) ?_ (Nat.two_pow_pos _)
    rw [Fmt.mag_inf ok64, ← Nat.pow_add]
    exact Nat.pow_le_pow_right (by omega) (by decide)
  refine ⟨k, c', d', r, ?_, c1, d1, he', c2, d2⟩
  unfold divdc3
  rw [hm, hl]
  simp only [Option.bind_eq_bind, Option.bind_some]
  rw [if_pos hfin, toInt_value hp hv, c1, d1]
  rfl

theorem div_zero {a b c d : Nat} (hc : b64.abs c = 0) (hd : b64.abs d = 0) : divdc3 a b c d = divScaled a b c d 0xFFF0000000000000 0 := by
  have hm : fmax b64 (b64.abs c) (b64.abs d) = 0 := by rw [hc, hd]; decide
  unfold divdc3
  rw [hm, (C58_logb_special 0).1 (by unfold Math.Spec.Zero Math.Spec.absOf; simp) |>.2]
  rfl

theorem div_infinite {a b c d : Nat} (h : b64.abs c = b64.inf ∨ b64.abs d = b64.inf) : divdc3 a b c d = divScaled a b c d b64.inf 0 := by
  unfold divdc3
  rw [fmax_inf h, (C58_logb_special b64.inf).2 inf_abs |>.2]
  rfl

theorem divScaled_eq (a b c d l : Nat) (s : Int) : ∃ x y, divScaled a b c d l s = some (recover b64 a b c d (b64.eq (b64.add (b64.mul c c) (b64.mul d d)) 0) (b64.eq l b64.inf) (x, y)) ∧
    (Big b64 (fdiv b64 (numerator b64 a b c d).1 (b64.add (b64.mul c c) (b64.mul d d))) → x = fdiv b64 (numerator b64 a b c d).1 (b64.add (b64.mul c c) (b64.mul d d))) ∧
    (Big b64 (fdiv b64 (numerator b64 a b c d).2 (b64.add (b64.mul c c) (b64.mul d d))) → y = fdiv b64 (numerator b64 a b c d).2 (b64.add (b64.mul c c) (b64.mul d d))) := by
  obtain ⟨x, hx, hx1, -⟩ := scalbn_total (fdiv b64 (numerator b64 a b c d).1 (b64.add (b64.mul c c) (b64.mul d d))) s
  obtain ⟨y, hy, hy1, -⟩ := scalbn_total (fdiv b64 (numerator b64 a b c d).2 (b64.add (b64.mul c c) (b64.mul d d))) s
  refine ⟨x, y, ?_, hx1, hy1⟩
  unfold divScaled
  simp only [hx, hy, Option.bind_eq_bind, Option.bind_some]

theorem nan_big {x : Nat} (h : F.isNaN x = true) : Big F x := by
  unfold Big; rw [Fmt.isNaN_iff] at h; omega

/-- An infinite dividend and a finite divisor. -/
theorem divdc3_inf {a b c d : Nat} (h : b64.abs a = b64.inf ∨ b64.abs b = b64.inf) (hc : b64.abs c < b64.inf) (hd : b64.abs d < b64.inf) :
    ∃ z, divdc3 a b c d = some z ∧ (b64.abs z.1 = b64.inf ∨ b64.abs z.2 = b64.inf) := by
  have hb : Big b64 a ∨ Big b64 b := by unfold Big; omega
  have key : ∀ c d l s, b64.abs c < b64.inf → b64.abs d < b64.inf → (b64.eq (b64.add (b64.mul c c) (b64.mul d d)) 0 = false → b64.abs c ≠ 0 ∨ b64.abs d ≠ 0) →
      ∃ z, divScaled a b c d l s = some z ∧ (b64.abs z.1 = b64.inf ∨ b64.abs z.2 = b64.inf) := by
    intro c d l s hc hd hz
    obtain ⟨x, y, e, ex, ey⟩ := divScaled_eq a b c d l s
    obtain ⟨n1, n2⟩ := numerator_big ok64 (c := c) (d := d) (Or.inl hb)
    have b1 := div_big ok64 (y := b64.add (b64.mul c c) (b64.mul d d)) n1
    have b2 := div_big ok64 (y := b64.add (b64.mul c c) (b64.mul d d)) n2
    refine ⟨_, e, recover_inf ok64 h hc hd hz ?_ ?_⟩
    · show Big b64 x; rw [ex b1]; exact b1
    · show Big b64 y; rw [ey b2]; exact b2
  by_cases h0 : b64.abs c ≠ 0 ∨ b64.abs d ≠ 0
  · obtain ⟨k, c', d', l, e, -, -, -, ⟨c1, c2⟩, d1, d2⟩ := div_finite a b hc hd h0
    rw [e]
    refine key _ _ _ _ c1 d1 (fun hz => ?_)
    by_contra hcon
    rw [not_or, not_not, not_not] at hcon
    rw [(den_fin ok64 c1 d1 c2 d2 (by decide)).2 hcon.1 hcon.2] at hz
    exact absurd hz (by decide)
  · rw [not_or, not_not, not_not] at h0
    rw [div_zero h0.1 h0.2]
    refine key _ _ _ _ hc hd (fun hz => ?_)
    rw [(den_fin ok64 (j := 0) hc hd (by rw [h0.1, Fmt.mag_zero]; exact Nat.zero_le _) (by rw [h0.2, Fmt.mag_zero]; exact Nat.zero_le _) (by decide)).2 h0.1 h0.2] at hz
    exact absurd hz (by decide)

/-- A zero divisor. -/
theorem divdc3_zero {a b c d : Nat} (h : Ample b64 a b) (hc : b64.abs c = 0) (hd : b64.abs d = 0) :
    ∃ z, divdc3 a b c d = some z ∧ (b64.abs z.1 = b64.inf ∨ b64.abs z.2 = b64.inf) := by
  have hp := Fmt.inf_pos ok64
  obtain ⟨q1, q2⟩ := den_fin ok64 (j := 0) (c := c) (d := d) (by omega) (by omega) (by rw [hc, Fmt.mag_zero]; exact Nat.zero_le _) (by rw [hd, Fmt.mag_zero]; exact Nat.zero_le _) (by decide)
  have q2 := q2 hc hd
  have e0 : b64.abs 0 = 0 := Fmt.abs_of_lt Fmt.signBit_pos
  have q3 : b64.abs (b64.add (b64.mul c c) (b64.mul d d)) = 0 := by
    rw [Fmt.eq_iff (Nat.le_of_lt q1) (by omega), val_zero_iff.2 e0, val_zero_iff] at q2
    exact q2
  rw [div_zero hc hd]
  obtain ⟨x, y, e, ex, ey⟩ := divScaled_eq a b c d 0xFFF0000000000000 0
  obtain ⟨n1, n2⟩ := numerator_small ok64 (a := a) (b := b) hc hd
  have b1 := small_div ok64 n1 q3
  have b2 := small_div ok64 n2 q3
  rw [q2] at e
  refine ⟨_, e, recover_zero ok64 h ?_ ?_⟩
  · show b64.isNaN x = true; rw [ex (nan_big b1)]; exact b1
  · show b64.isNaN y = true; rw [ey (nan_big b2)]; exact b2

/-- An infinite divisor. -/
theorem divdc3_divisor {a b c d : Nat} (ha : b64.abs a < b64.inf) (hb : b64.abs b < b64.inf) (hs : b64.mag (b64.abs a) + b64.mag (b64.abs b) ≤ b64.mag (b64.inf - 1))
    (h : b64.abs c = b64.inf ∨ b64.abs d = b64.inf) :
    ∃ z, divdc3 a b c d = some z ∧ b64.abs z.1 = 0 ∧ b64.abs z.2 = 0 := by
  rw [div_infinite h]
  have hcd : Big b64 c ∨ Big b64 d := by unfold Big; omega
  obtain ⟨x, y, e, ex, ey⟩ := divScaled_eq a b c d b64.inf 0
  obtain ⟨n1, n2⟩ := numerator_big ok64 (a := a) (b := b) (Or.inr hcd)
  have hden := den_inf ok64 h
  have b1 := div_nan ok64 (Or.inl ⟨n1, hden⟩)
  have b2 := div_nan ok64 (Or.inl ⟨n2, hden⟩)
  rw [big_ne_zero ok64 hden, eq_self (by rw [inf_abs])] at e
  refine ⟨_, e, recover_divisor ok64 ha hb hs ?_ ?_⟩
  · show b64.isNaN x = true; rw [ex (nan_big b1)]; exact b1
  · show b64.isNaN y = true; rw [ey (nan_big b2)]; exact b2

/-! ### Floats -/

theorem conv_big {G : Fmt} (oG : G.Ok) {x : Nat} (h : Big F x) : Big G (F.conv G x) := by
  unfold Big at *
  unfold Fmt.conv
  by_cases h1 : F.isNaN x = true
  · rw [if_pos h1]; have := nan_abs oG; omega
  · rw [if_neg h1, if_neg (by rw [Fmt.isFin_iff]; omega), Fmt.abs_pack Fmt.inf_lt]

theorem conv_nan {G : Fmt} (oG : G.Ok) {x : Nat} (h : F.isNaN x = true) : G.isNaN (F.conv G x) = true := by
  unfold Fmt.conv
  rw [if_pos h]; exact nan_of (nan_abs oG)

theorem conv_inf {G : Fmt} {x : Nat} (h : F.abs x = F.inf) : G.abs (F.conv G x) = G.inf := by
  unfold Fmt.conv
  rw [if_neg (by rw [Fmt.isNaN_iff]; omega), if_neg (by rw [Fmt.isFin_iff]; omega), Fmt.abs_pack Fmt.inf_lt]

theorem up_fin {x : Nat} (h : b32.abs x < b32.inf) :
    b64.abs (up x) < b64.inf ∧ b64.mag (b64.abs (up x)) ≤ 2 ^ (b64.unit + 128) ∧ (b32.abs x = 0 → b64.abs (up x) = 0) := by
  unfold up Fmt.conv
  have hr := rnd_le (F := b64) (b32.mag (b32.abs x) * 2 ^ b64.unit) (2 ^ b32.unit) (Nat.two_pow_pos _)
  rw [if_neg (by rw [Fmt.isNaN_iff]; omega), if_pos (Fmt.isFin_iff.2 h), Fmt.abs_pack (Nat.lt_of_le_of_lt hr Fmt.inf_lt)]
  have hx : b32.mag (b32.abs x) ≤ 2 ^ (b32.unit + 128) := by
    refine Nat.le_trans (Nat.le_of_lt ((Fmt.mag_lt_iff (F := b32)).2 h)) ?_
    rw [Fmt.mag_inf ok32]
    exact Nat.pow_le_pow_right (by omega) (by decide)
  have hm : b64.mag (b64.rnd (b32.mag (b32.abs x) * 2 ^ b64.unit) (2 ^ b32.unit)) ≤ 2 ^ (b64.unit + 128) := by
    apply mag_rnd_le ok64 (Nat.two_pow_pos _) _ (by decide)
    refine Nat.le_trans (Nat.mul_le_mul_right _ hx) (Nat.le_of_eq ?_)
    rw [← Nat.pow_add, ← Nat.pow_add]
    congr 1
  refine ⟨(Fmt.mag_lt_iff (F := b64)).1 ?_, hm, fun h0 => ?_⟩
  · rw [Fmt.mag_inf ok64]
    exact Nat.lt_of_le_of_lt hm (Nat.pow_lt_pow_right (by omega) (by decide))
  · rw [h0, Fmt.mag_zero, Nat.zero_mul]
    exact rnd_zero ok64 (Nat.two_pow_pos _)

theorem zero_flag {c d : Nat} (hc : b32.abs c ≤ b32.inf) (hd : b32.abs d ≤ b32.inf) :
    (b32.eq c 0 && b32.eq d 0) = true ↔ b32.abs c = 0 ∧ b32.abs d = 0 := by
  have e0 : b32.abs 0 = 0 := Fmt.abs_of_lt Fmt.signBit_pos
  rw [Bool.and_eq_true, Fmt.eq_iff hc (by rw [e0]; exact Nat.zero_le _), Fmt.eq_iff hd (by rw [e0]; exact Nat.zero_le _), val_zero_iff.2 e0, val_zero_iff, val_zero_iff]

theorem divsc3_inf {a b c d : Nat} (h : b32.abs a = b32.inf ∨ b32.abs b = b32.inf) (hc : b32.abs c < b32.inf) (hd : b32.abs d < b32.inf) :
    b32.abs (divsc3 a b c d).1 = b32.inf ∨ b32.abs (divsc3 a b c d).2 = b32.inf := by
  have hb : Big b64 (up a) ∨ Big b64 (up b) := h.imp (fun h => conv_big ok64 (by unfold Big; omega)) (fun h => conv_big ok64 (by unfold Big; omega))
  obtain ⟨n1, n2⟩ := numerator_big ok64 (c := up c) (d := up d) (Or.inl hb)
  unfold divsc3 kernel
  refine recover_inf ok32 h hc hd (fun hz => ?_) (conv_big ok32 (div_big ok64 n1)) (conv_big ok32 (div_big ok64 n2))
  by_contra hcon
  rw [not_or, not_not, not_not] at hcon
  rw [(zero_flag (Nat.le_of_lt hc) (Nat.le_of_lt hd)).2 hcon] at hz
  exact absurd hz (by decide)

theorem divsc3_zero {a b c d : Nat} (h : Ample b32 a b) (hc : b32.abs c = 0) (hd : b32.abs d = 0) :
    b32.abs (divsc3 a b c d).1 = b32.inf ∨ b32.abs (divsc3 a b c d).2 = b32.inf := by
  have hp := Fmt.inf_pos ok32
  obtain ⟨c1, c2, c3⟩ := up_fin (x := c) (by omega)
  obtain ⟨d1, d2, d3⟩ := up_fin (x := d) (by omega)
  have c3 := c3 hc
  have d3 := d3 hd
  obtain ⟨q1, q2⟩ := den_fin ok64 c1 d1 c2 d2 (by decide)
  have q2 := q2 c3 d3
  have e0 : b64.abs 0 = 0 := Fmt.abs_of_lt Fmt.signBit_pos
  have q3 : b64.abs (b64.add (b64.mul (up c) (up c)) (b64.mul (up d) (up d))) = 0 := by
    rw [Fmt.eq_iff (Nat.le_of_lt q1) (by rw [e0]; exact Nat.zero_le _), val_zero_iff.2 e0, val_zero_iff] at q2
    exact q2
  obtain ⟨n1, n2⟩ := numerator_small ok64 (a := up a) (b := up b) c3 d3
  unfold divsc3 kernel
  simp only
  rw [(zero_flag (by omega) (by omega)).2 ⟨hc, hd⟩]
  exact recover_zero ok32 h (conv_nan ok32 (small_div ok64 n1 q3)) (conv_nan ok32 (small_div ok64 n2 q3))

theorem divsc3_divisor {a b c d : Nat} (ha : b32.abs a < b32.inf) (hb : b32.abs b < b32.inf) (hs : b32.mag (b32.abs a) + b32.mag (b32.abs b) ≤ b32.mag (b32.inf - 1))
    (h : b32.abs c = b32.inf ∨ b32.abs d = b32.inf) :
    b32.abs (divsc3 a b c d).1 = 0 ∧ b32.abs (divsc3 a b c d).2 = 0 := by
  have hcd : Big b64 (up c) ∨ Big b64 (up d) := h.imp (fun h => conv_big ok64 (by unfold Big; omega)) (fun h => conv_big ok64 (by unfold Big; omega))
  obtain ⟨n1, n2⟩ := numerator_big ok64 (a := up a) (b := up b) (Or.inr hcd)
  have hden := den_inf ok64 (h.imp (conv_inf (G := b64)) (conv_inf (G := b64)))
  unfold divsc3 kernel
  simp only
  have hz : (b32.eq c 0 && b32.eq d 0) = false := by
    rcases h with h | h
    · rw [big_ne_zero ok32 (show Big b32 c by unfold Big; omega)]; rfl
    · rw [big_ne_zero ok32 (show Big b32 d by unfold Big; omega), Bool.and_false]
  rw [hz, left_iff.2 h]
  exact recover_divisor ok32 ha hb hs (conv_nan ok32 (div_nan ok64 (Or.inl ⟨n1, hden⟩))) (conv_nan ok32 (div_nan ok64 (Or.inl ⟨n2, hden⟩)))

end Verif.Cplx
