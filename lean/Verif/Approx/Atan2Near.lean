import Verif.Approx.Atan
import Verif.Approx.InvHypf
import Verif.Approx.ModelAtan2
import Verif.Math.Bridge

/-! # `atan2f`: floats next to a result -/

namespace Verif.Approx
open Verif.Float Verif.Approx.Spec
open Verif.Math.Spec (Pat)

/-- The sign of a number with the sign bit `s`. -/
def sg (s : Bool) : ℝ := if s then -1 else 1

theorem sg_abs (s : Bool) : |sg s| = 1 := by cases s <;> simp [sg]
theorem sg_sq (s : Bool) : sg s * sg s = 1 := by cases s <;> simp [sg]

theorem mid_pick {a b c u v ε δ : ℝ} (hu : 0 < u) (ha : 0 ≤ a) (hab : a < b) (hbc : b < c) (hv : 0 < v) (hε : ε < δ) (h : |(a + b) / 2 / u - v| ≤ ε * v) :
    (∃ z, 0 < z ∧ |z - v| ≤ δ * v ∧ 2 * a < 2 * (z * u) ∧ 2 * (z * u) < a + b) ∧
    ∃ z, 0 < z ∧ |z - v| ≤ δ * v ∧ a + b < 2 * (z * u) ∧ 2 * (z * u) < b + c := by
  obtain ⟨t, t0, t1, t2⟩ : ∃ t, 0 < t ∧ t ≤ (δ - ε) * v ∧ t ≤ (b - a) / 4 / u :=
    ⟨min ((δ - ε) * v) ((b - a) / 4 / u), lt_min (mul_pos (by linarith) hv) (div_pos (by linarith) hu), min_le_left _ _, min_le_right _ _⟩
  have t3 : t * u ≤ (b - a) / 4 := by rwa [le_div_iff₀ hu] at t2
  have t4 : 0 < t * u := mul_pos t0 hu
  have e : (a + b) / 2 / u * u = (a + b) / 2 := by field_simp
  have h' := abs_le.1 h
  refine ⟨⟨(a + b) / 2 / u - t, ?_, abs_le.2 ⟨by nlinarith, by nlinarith⟩, ?_, ?_⟩, ⟨(a + b) / 2 / u + t, ?_, abs_le.2 ⟨by nlinarith, by nlinarith⟩, ?_, ?_⟩⟩
  · have : 0 < ((a + b) / 2 / u - t) * u := by rw [sub_mul, e]; linarith
    exact pos_of_mul_pos_left this hu.le
  · rw [sub_mul, e]; linarith
  · rw [sub_mul, e]; linarith
  · have : 0 < ((a + b) / 2 / u + t) * u := by rw [add_mul, e]; linarith
    exact pos_of_mul_pos_left this hu.le
  · rw [add_mul, e]; linarith
  · rw [add_mul, e]; linarith

theorem mid_rounded {p : Nat} (hp : p + 1 < b32.inf) {v ε δ : ℝ} (hv : 0 < v) (hε : ε < δ)
    (h : |((b32.mag p : ℝ) + b32.mag (p + 1)) / 2 / 2 ^ b32.unit - v| ≤ ε * v) : Accurate b32 δ v p ∧ Accurate b32 δ v (p + 1) := by
  have hu : (0 : ℝ) < 2 ^ b32.unit := by positivity
  have m1 : (b32.mag p : ℝ) < b32.mag (p + 1) := by exact_mod_cast b32.mag_strictMono (Nat.lt_succ_self p)
  have m2 : (b32.mag (p + 1) : ℝ) < b32.mag (p + 1 + 1) := by exact_mod_cast b32.mag_strictMono (Nat.lt_succ_self (p + 1))
  have m3 : (b32.mag (p - 1) : ℝ) ≤ b32.mag p := by exact_mod_cast b32.mag_mono (Nat.sub_le p 1)
  have hs : b32.inf < b32.signBit := Fmt.inf_lt
  obtain ⟨⟨z, z0, z1, z2, z3⟩, ⟨w, w0, w1, w2, w3⟩⟩ := mid_pick hu (Nat.cast_nonneg _) m1 m2 hv hε h
  refine ⟨⟨z, by rwa [abs_of_pos hv], by unfold Pat; omega, ?_, fun _ => by unfold Math.Spec.negative; omega, fun h => by linarith⟩,
    ⟨w, by rwa [abs_of_pos hv], by unfold Pat; omega, ?_, fun _ => by unfold Math.Spec.negative; omega, fun h => by linarith⟩⟩
  · rw [abs_of_pos z0, show Math.Spec.absOf b32 p = p from Nat.mod_eq_of_lt (by omega)]
    exact Hyp.nearestReal_of_mid (by omega) (fun _ => ⟨z3.le, fun e => absurd e z3.ne⟩) (fun _ => ⟨by linarith, fun e => by linarith⟩)
  · rw [abs_of_pos w0, show Math.Spec.absOf b32 (p + 1) = p + 1 from Nat.mod_eq_of_lt (by omega)]
    exact Hyp.nearestReal_of_mid (by omega) (fun _ => ⟨w3.le, fun e => absurd e w3.ne⟩) (fun _ => ⟨w2.le, fun e => absurd e w2.ne⟩)

/-- `q` is next to `p`. -/
def Next (p q : Nat) : Prop := q = p + 1 ∨ q + 1 = p

/-- The midpoint of `p` and `q` with the sign `s`. -/
noncomputable def midR (s : Bool) (p q : Nat) : ℝ := sg s * (((b32.mag p : ℝ) + b32.mag q) / 2 / 2 ^ b32.unit)

/-- If the midpoint of `p` and `q` is close to `v`, then `q` is an accurate result. -/
theorem mid_accurate {s : Bool} {p q : Nat} (hq : Next p q) (hp : p + 1 < b32.inf) {v ε δ : ℝ} (hv : 0 < |v|) (hs : v = sg s * |v|) (hε : ε < δ) (hδ : δ < 1)
    (h : |midR s p q - v| ≤ ε * |v|) : Accurate b32 δ v (b32.pack s q) := by
  have hq' : q < b32.signBit := by have : b32.inf < b32.signBit := Fmt.inf_lt; rcases hq with h | h <;> omega
  have h' : |((b32.mag p : ℝ) + b32.mag q) / 2 / 2 ^ b32.unit - abs v| ≤ ε * |v| := by
    have e : midR s p q - v = sg s * (((b32.mag p : ℝ) + b32.mag q) / 2 / 2 ^ b32.unit - abs v) := by rw [mul_sub, ← hs]; rfl
    rwa [e, abs_mul, sg_abs, one_mul] at h
  have a : Accurate b32 δ |v| q := by
    rcases hq with rfl | rfl
    · exact (mid_rounded hp hv hε h').2
    · exact (mid_rounded (by omega) hv hε (by rwa [_root_.add_comm (b32.mag (q + 1) : ℝ)] at h')).1
  have := accurate_sign a hv hδ s
  rw [show b32.abs q = q from Nat.mod_eq_of_lt hq'] at this
  rw [hs]
  exact this

theorem R_idx {r : Nat} {s : Bool} (h : b32.abs r = 0 ∨ b32.neg r = s) : R b32 r = sg s * (b32.mag (b32.abs r) / 2 ^ b32.unit) := by
  rw [R_signed]
  rcases h with h | h
  · rw [h, b32.mag_zero]; simp
  · rw [h]; rfl

/-- `nextafterf` towards one of the infinities. -/
theorem nextF_R {f : Nat} (hp : Pat b32 f) (hf : b32.abs f + 1 < b32.inf) (h0 : b32.abs f ≠ 0) (up : Bool) :
    ∃ r, Math.nextafter Math.flt f (if up then infUp else infDown) = some r ∧ Pat b32 r ∧ Next (b32.abs f) (b32.abs r) ∧
      R b32 r = sg (b32.neg f) * (b32.mag (b32.abs r) / 2 ^ b32.unit) ∧ (2 ≤ b32.abs f → b32.neg r = b32.neg f) ∧
      (b32.abs r = b32.abs f + 1 ↔ b32.neg f = !up) ∧ (if up then R b32 f < R b32 r else R b32 r < R b32 f) := by
  have i1 : b32.idx infUp = 2139095040 := by decide
  have i2 : b32.idx infDown = -2139095040 := by decide
  have hi : b32.inf = 2139095040 := rfl
  have hfi : -2139095040 < b32.idx f ∧ b32.idx f < 2139095040 := by unfold Fmt.idx; split <;> omega
  have hy : Pat b32 (if up then infUp else infDown) ∧ b32.abs (if up then infUp else infDown) ≤ b32.inf ∧
      b32.idx (if up then infUp else infDown) = if up then 2139095040 else -2139095040 := by cases up <;> (unfold Pat; decide)
  obtain ⟨y1, y2, y3⟩ := hy
  obtain ⟨r, r1, r2, r3, r4⟩ := Math.nextafter_idx Math.good_flt (x := f) (y := if up then infUp else infDown) hp y1 (show b32.abs f ≤ b32.inf by omega) y2
    (by intro e; have := (Fmt.val_eq_idx (F := b32) _ _).1 e; rw [y3] at this; cases up <;> simp at this <;> omega)
  change b32.idx r = b32.idx f + (if b32.idx f < b32.idx (if up then infUp else infDown) then 1 else -1) at r4
  have r5 : b32.idx r = b32.idx f + (if up then 1 else -1) := by
    rw [r4, y3]; cases up <;> simp <;> omega
  have key : Next (b32.abs f) (b32.abs r) ∧ (b32.abs r = 0 ∨ b32.neg r = b32.neg f) ∧ (b32.abs r = b32.abs f + 1 ↔ b32.neg f = !up) := by
    unfold Fmt.idx at r5
    unfold Next
    cases up <;> cases hn : b32.neg f <;> cases hm : b32.neg r <;> simp [hn, hm] at r5 ⊢ <;> omega
  obtain ⟨k1, k2, k3⟩ := key
  refine ⟨r, r1, r2, k1, R_idx k2, fun h => ?_, k3, ?_⟩
  · rcases k2 with h' | h'
    · rcases k1 with k1 | k1 <;> omega
    · exact h'
  · have hlt : ∀ a b : Nat, b32.idx a < b32.idx b → R b32 a < R b32 b := fun a b h => by
      unfold R
      exact div_lt_div_of_pos_right (by exact_mod_cast (Fmt.val_lt_idx (F := b32) a b).2 h) (by positivity)
    cases up
    · exact hlt _ _ (by rw [r5]; simp)
    · exact hlt _ _ (by rw [r5]; simp)

theorem pat_idx {p r : Nat} {k : Int} (hp : 0 < p) (h2 : r < 2 * b32.signBit) (h : b32.idx r = (p : Int) + k) (hk : -1 ≤ k) : r = ((p : Int) + k).toNat ∨ (p : Int) + k = 0 := by
  have rs := Fmt.pack_self h2
  rw [← rs]
  unfold Fmt.idx at h
  unfold Fmt.pack
  cases hn : b32.neg r
  · rw [hn] at h
    simp only [Bool.false_eq_true, if_false] at h ⊢
    left; omega
  · rw [hn] at h
    simp only [if_true] at h
    right; omega

theorem idx_pos {p : Nat} (hp : p < b32.signBit) : b32.idx p = p := by
  unfold Fmt.idx
  rw [show b32.neg p = false by unfold Fmt.neg; rw [Nat.div_eq_of_lt hp]; rfl, show b32.abs p = p from Nat.mod_eq_of_lt hp]
  rfl

/-- `nextafterf` of a magnitude. -/
theorem next_up {p : Nat} (hp : p + 1 < b32.inf) (h0 : 0 < p) : Math.nextafter Math.flt p infUp = some (p + 1) := by
  have hs : b32.inf < b32.signBit := Fmt.inf_lt
  have ip := idx_pos (show p < b32.signBit by omega)
  have iq : b32.idx infUp = (b32.inf : Nat) := by decide
  obtain ⟨r, r1, r2, -, r4⟩ := Math.nextafter_idx Math.good_flt (x := p) (y := infUp) (show p < 2 * b32.signBit by omega) (by decide)
    (show b32.abs p ≤ b32.inf by rw [show b32.abs p = p from Nat.mod_eq_of_lt (by omega)]; omega) (by decide)
    (by intro e; have := (Fmt.val_eq_idx (F := b32) _ _).1 e; rw [ip, iq] at this; omega)
  change b32.idx r = b32.idx p + (if b32.idx p < b32.idx infUp then 1 else -1) at r4
  rw [if_pos (by rw [ip, iq]; omega), ip] at r4
  rw [r1]
  rcases pat_idx h0 r2 r4 (by omega) with h | h
  · rw [h]; congr 1
  · omega

theorem next_down {p : Nat} (hp : p + 1 < b32.inf) (h0 : 0 < p) : ∃ r, Math.nextafter Math.flt p 0 = some r ∧ b32.abs r + 1 = p ∧ b32.idx r + 1 = p := by
  have hs : b32.inf < b32.signBit := Fmt.inf_lt
  have ip := idx_pos (show p < b32.signBit by omega)
  have iq : b32.idx 0 = 0 := by decide
  obtain ⟨r, r1, r2, -, r4⟩ := Math.nextafter_idx Math.good_flt (x := p) (y := 0) (show p < 2 * b32.signBit by omega) (by decide)
    (show b32.abs p ≤ b32.inf by rw [show b32.abs p = p from Nat.mod_eq_of_lt (by omega)]; omega) (by decide)
    (by intro e; have := (Fmt.val_eq_idx (F := b32) _ _).1 e; rw [ip, iq] at this; omega)
  change b32.idx r = b32.idx p + (if b32.idx p < b32.idx 0 then 1 else -1) at r4
  rw [if_neg (by rw [ip, iq]; omega), ip] at r4
  refine ⟨r, r1, ?_, by omega⟩
  unfold Fmt.idx at r4
  split at r4 <;> omega

end Verif.Approx
