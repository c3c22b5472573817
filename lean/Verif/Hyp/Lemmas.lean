import Verif.Hyp.Slow
import Verif.Hyp.Model

/-! # The exact decision of `hypotf` is right -/

namespace Verif.Hyp
open Verif.Float Verif.Math
open Verif.Cplx
open Verif.Decimal (mid nearest_iff mid_form)

theorem wide : Wide b32 b64 925 776 where
  of := ok32
  og := ok64
  unit := by decide +kernel
  sq := by decide +kernel
  two := by omega
  four := by omega
  bits := by decide +kernel
  more := by decide +kernel
  room := by decide +kernel
  room' := by decide +kernel
  root := by decide +kernel

variable {D k : Nat}

theorem up_mag (W : Wide b32 b64 D k) {x : Nat} (hx : x < b32.inf) : up x < b64.inf ∧ b64.mag (up x) = b32.mag x * 2 ^ D := by
  have hl := Nat.lt_trans hx (Fmt.inf_lt (F := b32))
  obtain ⟨m, hm, hml⟩ := Fmt.mag_form (F := b32) x
  unfold Fmt.ulp at hm
  have hlt := b32.mag_strictMono hx
  have hD := W.four
  have e1 : 2 ^ D = 2 * 2 ^ (D - 1) := by rw [Nat.mul_comm, ← Nat.pow_succ]; congr 1; omega
  obtain ⟨p, hp, ep⟩ := W.pattern (m := 2 * m) (e := x / 2 ^ b32.f - 1) (by
      rw [show b32.f + 2 = b32.f + 1 + 1 from rfl, Nat.pow_succ _ (b32.f + 1)]; omega) (by
      rw [Nat.mul_assoc, ← hm]; omega)
  have ep' : b64.mag p = b32.mag x * 2 ^ D := by rw [ep, e1, Nat.mul_assoc 2, ← hm]; ring
  have hup : up x = p := by
    unfold up Fmt.conv
    have hn : b32.isNaN x = false := Fmt.isNaN_false.2 (by rw [Fmt.abs_of_lt hl]; omega)
    have hf : b32.isFin x = true := by unfold Fmt.isFin; simp [Fmt.abs_of_lt hl, hx]
    rw [hn, hf, Fmt.abs_of_lt hl, Fmt.neg_of_lt hl]
    simp only [if_true, Bool.false_eq_true, if_false]
    rw [rnd_exact (Nat.two_pow_pos _) (Nat.le_of_lt hp) (by rw [ep', W.unit, Nat.pow_add]; ring)]
    exact Cplx.pack_false p
  rw [hup]
  exact ⟨hp, ep'⟩

/-- The square of a short number held in `double`. -/
theorem square_mul (W : Wide b32 b64 D k) {m e a : Nat} (hm : m ≤ 2 ^ (b32.f + 2)) (hM : m * 2 ^ e ≤ 4 * b32.mag b32.inf)
    (ha : a < b64.inf) (e1 : b64.mag a = m * 2 ^ e * 2 ^ (D - 1)) :
    b64.mul a a < b64.inf ∧ b64.mag (b64.mul a a) = m * 2 ^ e * (m * 2 ^ e) * 2 ^ (k - 2) := by
  obtain ⟨q, hq, eq⟩ := W.square hm hM
  have : b64.mul a a = q := mul_exact ha ha hq (by rw [e1, W.exps, eq]; ring)
  rw [this]
  exact ⟨hq, eq⟩

theorem square_up (W : Wide b32 b64 D k) {x : Nat} (hx : x < b32.inf) :
    b64.mul (up x) (up x) < b64.inf ∧ b64.mag (b64.mul (up x) (up x)) = b32.mag x * b32.mag x * 2 ^ k := by
  obtain ⟨h1, h2⟩ := up_mag W hx
  obtain ⟨m, hm, hml⟩ := Fmt.mag_form (F := b32) x
  unfold Fmt.ulp at hm
  have hlt := b32.mag_strictMono hx
  have hD := W.four
  have e1 : 2 ^ D = 2 * 2 ^ (D - 1) := by rw [Nat.mul_comm, ← Nat.pow_succ]; congr 1; omega
  obtain ⟨a, b⟩ := square_mul W (m := 2 * m) (e := x / 2 ^ b32.f - 1) (a := up x) (by
      rw [show b32.f + 2 = b32.f + 1 + 1 from rfl, Nat.pow_succ _ (b32.f + 1)]; omega) (by
      rw [Nat.mul_assoc, ← hm]; omega) h1 (by rw [h2, e1, Nat.mul_assoc 2, ← hm]; ring)
  refine ⟨a, ?_⟩
  rw [b, W.four_k, Nat.mul_assoc 2, ← hm]; ring

/-- The midpoint of neighbours and its square. -/
theorem middle (W : Wide b32 b64 D k) {n a b : Nat} (hn : n + 1 < b32.inf) (h : a = n ∧ b = n + 1 ∨ a = n + 1 ∧ b = n) :
    let m := b64.mul 0x3FE0000000000000 (b64.add (up a) (up b))
    b64.mul m m < b64.inf ∧ b64.mag (b64.mul m m) = mid b32 n * mid b32 n * 2 ^ (k - 2) := by
  intro m
  have ha : a < b32.inf := by omega
  have hb : b < b32.inf := by omega
  have hsum : b32.mag a + b32.mag b = mid b32 n := by
    unfold mid
    rcases h with ⟨rfl, rfl⟩ | ⟨rfl, rfl⟩
    · rfl
    · exact Nat.add_comm _ _
  obtain ⟨a1, a2⟩ := up_mag W ha
  obtain ⟨b1, b2⟩ := up_mag W hb
  obtain ⟨μ, e, hm, -, hml⟩ := mid_form b32 n
  have hD := W.four
  have e1 : 2 ^ D = 2 * 2 ^ (D - 1) := by rw [Nat.mul_comm, ← Nat.pow_succ]; congr 1; omega
  have hI : mid b32 n ≤ 2 * b32.mag b32.inf := by
    have h1 := b32.mag_strictMono ha
    have h2 := b32.mag_strictMono hb
    omega
  rw [hm] at hI
  have ea : b64.abs (up a) < b64.inf := by rw [Fmt.abs_of_lt (Nat.lt_trans a1 Fmt.inf_lt)]; exact a1
  have eb : b64.abs (up b) < b64.inf := by rw [Fmt.abs_of_lt (Nat.lt_trans b1 Fmt.inf_lt)]; exact b1
  -- the sum
  obtain ⟨s, hs, es⟩ := W.pattern (m := μ) (e := e + 1) (Nat.le_of_lt hml) (by rw [Nat.pow_succ, ← Nat.mul_assoc]; omega)
  have es' : b64.mag s = mid b32 n * 2 ^ D := by rw [es, e1, hm, Nat.pow_succ]; ring
  have hadd : b64.add (up a) (up b) = s := by
    have hv : b64.val (up a) + b64.val (up b) = (b64.mag s : Int) := by
      rw [Fmt.val_of_lt (Nat.lt_trans a1 Fmt.inf_lt), Fmt.val_of_lt (Nat.lt_trans b1 Fmt.inf_lt), a2, b2, es', ← hsum, Nat.add_mul]
      push_cast; rfl
    rw [Fmt.add_exact ea eb (Nat.le_of_lt hs) (by rw [hv]; rfl)]
    have hs0 : 0 < b64.mag s := by
      rw [es']
      refine Nat.mul_pos ?_ (Nat.two_pow_pos _)
      have := b32.mag_strictMono (show n < n + 1 by omega)
      unfold mid; omega
    rw [if_neg (by omega), decide_eq_false (by omega)]
    exact Cplx.pack_false s
  obtain ⟨p, hp, ep⟩ := W.pattern (Nat.le_of_lt hml) (Nat.le_trans hI (by omega))
  have hm' : m = p := by
    show b64.mul _ (b64.add (up a) (up b)) = p
    rw [hadd]
    refine mul_exact (by decide +kernel) hs hp ?_
    have hh := half_mag
    rw [ep, es', ← hm, ← hh, e1]
    generalize b64.mag 0x3FE0000000000000 = z
    ring
  rw [hm']
  have := square_mul W (Nat.le_of_lt hml) (Nat.le_trans hI (by omega)) hp ep
  rw [← hm] at this
  exact this

theorem next_up {r : Nat} (h0 : 0 < r) (hr : r < b32.inf) : nextafter flt r b32.inf = some (r + 1) := by
  have hil := Fmt.inf_lt (F := b32)
  obtain ⟨s, e, h1, h2, h3⟩ := nextafter_idx good_flt (x := r) (y := b32.inf) (by show r < 2 * b32.signBit; omega) (by show b32.inf < 2 * b32.signBit; omega)
    (by show b32.abs r ≤ b32.inf; rw [Fmt.abs_of_lt (by omega)]; omega) (by show b32.abs b32.inf ≤ b32.inf; rw [Fmt.abs_of_lt hil])
    (by
      show b32.val r ≠ b32.val b32.inf
      rw [Fmt.val_of_lt (by omega), Fmt.val_of_lt hil]
      have := b32.mag_strictMono hr
      omega)
  rw [e]
  have i1 : b32.idx r = r := by unfold Fmt.idx; rw [Fmt.neg_of_lt (by omega), Fmt.abs_of_lt (by omega)]; rfl
  have i2 : b32.idx b32.inf = b32.inf := by unfold Fmt.idx; rw [Fmt.neg_of_lt hil, Fmt.abs_of_lt hil]; rfl
  change b32.idx s = b32.idx r + (if b32.idx r < b32.idx b32.inf then 1 else -1) at h3
  rw [i1, i2, if_pos (Int.ofNat_lt.2 hr)] at h3
  change s < 2 * b32.signBit at h1
  rcases abs_neg_cases b32 h1 with ⟨_, b, c⟩ | ⟨_, b, c⟩
  · unfold Fmt.idx at h3; rw [c, b] at h3; simp only [Bool.false_eq_true, if_false] at h3
    congr 1; omega
  · unfold Fmt.idx at h3; rw [c] at h3; simp only [if_true] at h3
    omega

theorem next_down {r : Nat} (h0 : 1 < r) (hr : r < b32.inf) : nextafter flt r (b32.opp b32.inf) = some (r - 1) := by
  have hil := Fmt.inf_lt (F := b32)
  have ho : b32.opp b32.inf < 2 * b32.signBit := by decide +kernel
  have hip : 0 < b32.inf := by omega
  obtain ⟨s, e, h1, h2, h3⟩ := nextafter_idx good_flt (x := r) (y := b32.opp b32.inf) (by show r < 2 * b32.signBit; omega) ho
    (by show b32.abs r ≤ b32.inf; rw [Fmt.abs_of_lt (by omega)]; omega) (by show b32.abs (b32.opp b32.inf) ≤ b32.inf; rw [Fmt.abs_opp, Fmt.abs_of_lt hil])
    (by
      show b32.val r ≠ b32.val (b32.opp b32.inf)
      rw [Fmt.val_opp, Fmt.val_of_lt (by omega), Fmt.val_of_lt hil]
      have := b32.mag_strictMono hr
      omega)
  rw [e]
  have i1 : b32.idx r = r := by unfold Fmt.idx; rw [Fmt.neg_of_lt (by omega), Fmt.abs_of_lt (by omega)]; rfl
  have i2 : b32.idx (b32.opp b32.inf) < 0 := by decide +kernel
  change b32.idx s = b32.idx r + (if b32.idx r < b32.idx (b32.opp b32.inf) then 1 else -1) at h3
  rw [i1, if_neg (by omega)] at h3
  change s < 2 * b32.signBit at h1
  rcases abs_neg_cases b32 h1 with ⟨_, b, c⟩ | ⟨_, b, c⟩
  · unfold Fmt.idx at h3; rw [c, b] at h3; simp only [Bool.false_eq_true, if_false] at h3
    congr 1; omega
  · unfold Fmt.idx at h3; rw [c] at h3; simp only [if_true] at h3
    omega

end Verif.Hyp
