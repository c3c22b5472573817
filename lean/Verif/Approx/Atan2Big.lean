import Verif.Approx.Dint

/-! # The choice between two neighbours in `atan2f` -/

namespace Verif.Approx
open Verif.Float Verif.Approx.Spec
open Verif.Math.Spec (Pat)

theorem lt_idx {a b : Nat} (ha : Fin b32 a) (hb : Fin b32 b) : b32.lt a b = decide (b32.idx a < b32.idx b) := by
  rw [Bool.eq_iff_iff, Fmt.lt_iff (Nat.le_of_lt ha) (Nat.le_of_lt hb), Fmt.val_lt_idx, decide_eq_true_eq]

theorem min_mag {p : Nat} (h : 0 < p) : (1 : ℝ) / 2 ^ 149 ≤ (b32.mag p : ℝ) / 2 ^ b32.unit := by
  rw [show b32.unit = 149 from rfl]
  apply div_le_div_of_nonneg_right _ (by positivity)
  have : b32.mag 0 < b32.mag p := b32.mag_strictMono h
  rw [b32.mag_zero] at this
  exact_mod_cast this

theorem mid_rel {a b : Nat} {s t : ℝ} (ha : Fin b32 a) (hb : Fin b32 b) (ra : R b32 a = s) (rb : R b32 b = t) (h1 : 1 / 2 ^ 149 ≤ s) (h2 : 0 ≤ t)
    (hM : s + t ≤ 2 ^ 100) : Rel (b64.mul half (b64.add (wide a) (wide b))) ((s + t) / 2) (1 / 2 ^ 51) := by
  obtain ⟨a1, a2, -, -⟩ := wideR ha
  obtain ⟨b1, b2, -, -⟩ := wideR hb
  have e1 : Rel (b64.add (wide a) (wide b)) (s + t) (1 / 2 ^ 53) :=
    Rel.add (ε := 0) (Rel.exact a1 (by rw [a2, ra])) (Rel.exact b1 (by rw [b2, rb])) ((by positivity : (0 : ℝ) ≤ 1 / 2 ^ 149).trans h1) h2 (le_Mx (by linarith [show (2 : ℝ) ^ 100 ≤ 2 ^ 250 by norm_num])) (by norm_num)
  have hp : 0 < s + t := by linarith [show (0 : ℝ) < 1 / 2 ^ 149 by positivity]
  have ab : |1 / 2 * (s + t)| = (s + t) / 2 := by rw [abs_of_pos (by positivity)]; ring
  have e2 := Rel.mul (Rel.exact k_half.1 k_half.2) e1 ⟨le_rfl, by positivity⟩ (le_Mx (by rw [ab]; linarith [show (2 : ℝ) ^ 101 ≤ 2 ^ 250 by norm_num, show (2 : ℝ) ^ 101 = 2 * 2 ^ 100 by norm_num])) (η := 1 / 2 ^ 51)
    (by rw [ab]; linarith [show (1 : ℝ) / 2 ^ 170 ≤ 1 / 2 ^ 149 / 2 by norm_num]) (by norm_num)
  rwa [show 1 / 2 * (s + t) = (s + t) / 2 by ring] at e2

theorem sign_pos {hi f : Nat} (n : Near hi f) (hh : R b64 hi ≠ 0) : b64.lt 0 hi = !b32.neg f := by
  rw [lt_zero64 n.fin]
  have := n.sign
  have hp := abs_pos.2 hh
  cases h : b32.neg f <;> simp only [h, sg] at this <;> norm_num at this <;> simp <;> [rw [this]; skip]
  · exact hp
  · linarith [neg_abs_le (R b64 hi)]

/-- `atan2f_accurate_` gives the nearest `float` to `hi` or its neighbour. -/
theorem accurate_choice {hi f d : Nat} (q : Nat × Nat) (negative : Bool) (base : Option Dint) (n : Near hi f) (hf : f = narrow hi) (hh : R b64 hi ≠ 0)
    (h0 : b32.abs f ≠ 0) : ∃ o c x, Next (b32.abs f) o ∧ (o = b32.abs f + 1 ↔ b32.neg f = !b64.lt 0 d) ∧
      atanAccurate q negative base hi d = some (b32.pack (b32.neg f) c) ∧
      Rel x (((b32.mag (b32.abs f) : ℝ) / 2 ^ b32.unit + b32.mag o / 2 ^ b32.unit) / 2) (1 / 2 ^ 51) ∧
      (c = b32.abs f ∨ c = o ∧ (base = none → if o = b32.abs f + 1 then 0 < (atanMagnitude q negative base).cmp (Dint.ofDouble x)
        else (atanMagnitude q negative base).cmp (Dint.ofDouble x) ≤ 0)) := by
  have ht := n.top
  have hs : b32.inf < b32.signBit := Fmt.inf_lt
  have hp1 : b32.abs f + 1 < b32.inf := by rw [show b32.inf = 2139095040 from rfl]; omega
  have sp := sign_pos n hh
  have aa : b32.abs (b32.abs f) = b32.abs f := Nat.mod_eq_of_lt (by omega)
  have fa : Fin b32 (b32.abs f) := by unfold Fin; rw [aa]; omega
  have ra : ∀ p < b32.inf, R b32 p = b32.mag p / 2 ^ b32.unit := fun p hp => by
    rw [R_idx (s := false) (r := p) (Or.inr (by unfold Fmt.neg; rw [Nat.div_eq_of_lt (by omega)]; rfl)), show b32.abs p = p from Nat.mod_eq_of_lt (by omega)]
    simp [sg]
  have rf := ra _ (show b32.abs f < b32.inf by omega)
  have big : ∀ p ≤ b32.abs f + 1, (b32.mag p : ℝ) / 2 ^ b32.unit ≤ 8 := fun p hp => by
    have h1 : b32.mag p ≤ b32.mag 0x41000000 := b32.mag_mono (by omega)
    have h2 : (b32.mag 0x41000000 : ℝ) = 8 * 2 ^ b32.unit := by
      rw [show b32.mag 0x41000000 = 8 * 2 ^ b32.unit by decide +kernel]; push_cast; rfl
    rw [div_le_iff₀ (by positivity), ← h2]
    exact_mod_cast h1
  have mn := min_mag (Nat.pos_of_ne_zero h0)
  have cs : ∀ v, b32.copysign v f = b32.pack (b32.neg f) (b32.abs v) := fun _ => rfl
  unfold atanAccurate
  simp only
  rw [← hf, sp]
  by_cases hdir : b64.lt 0 d = !b32.neg f
  · rw [if_pos hdir, next_up hp1 (by omega)]
    have ab : b32.abs (b32.abs f + 1) = b32.abs f + 1 := Nat.mod_eq_of_lt (by omega)
    have fb : Fin b32 (b32.abs f + 1) := by unfold Fin; rw [ab]; omega
    have rb := ra _ hp1
    have m := mid_rel fa fb rf rb mn (by positivity) (by linarith [big _ le_rfl, big _ (Nat.le_succ (b32.abs f)), show (16 : ℝ) ≤ 2 ^ 100 by norm_num])
    have l1 : b32.lt (b32.abs f) (b32.abs f + 1) = true := by
      rw [lt_idx fa fb, idx_pos (by omega), idx_pos (by omega)]; simp
    have l2 : b32.lt (b32.abs f + 1) (b32.abs f) = false := by
      rw [lt_idx fb fa, idx_pos (by omega), idx_pos (by omega)]; simp
    simp only [Option.map_some, l1, l2, if_true, Bool.false_eq_true, if_false]
    refine ⟨b32.abs f + 1, _, _, Or.inl rfl, ⟨fun _ => by rw [hdir, Bool.not_not], fun _ => rfl⟩, by rw [cs], m, ?_⟩
    split
    · right; exact ⟨ab, fun _ => by rw [if_pos rfl]; assumption⟩
    split
    · left; exact aa
    split
    · left; exact aa
    rename_i hb
    split
    · right; exact ⟨ab, fun h => absurd h hb⟩
    · left; exact aa
  · obtain ⟨r, r1, r2, r3⟩ := next_down hp1 (Nat.pos_of_ne_zero h0)
    rw [if_neg hdir, r1]
    have fr : Fin b32 r := by unfold Fin; omega
    have rr : R b32 r = b32.mag (b32.abs r) / 2 ^ b32.unit := by
      rw [R_idx (s := false) (r := r)]
      · simp [sg]
      · by_cases hz : b32.abs r = 0
        · exact Or.inl hz
        · right
          unfold Fmt.idx at r3
          split at r3
          · omega
          · simpa using ‹¬ b32.neg r = true›
    have m := mid_rel fa fr rf rr mn (by positivity) (by linarith [big _ (Nat.le_succ (b32.abs f)), big (b32.abs r) (by omega), show (16 : ℝ) ≤ 2 ^ 100 by norm_num])
    have l1 : b32.lt (b32.abs f) r = false := by
      rw [lt_idx fa fr, idx_pos (by omega)]; simp; omega
    have l2 : b32.lt r (b32.abs f) = true := by
      rw [lt_idx fr fa, idx_pos (show b32.abs f < b32.signBit by omega)]; simp; omega
    simp only [Option.map_some, l1, l2, if_true, Bool.false_eq_true, if_false]
    refine ⟨b32.abs r, _, _, Or.inr r2, ⟨fun h => by omega, fun h => absurd (by rw [h, Bool.not_not]) hdir⟩, by rw [cs], m, ?_⟩
    split
    · left; exact aa
    split
    · right; exact ⟨rfl, fun _ => by rw [if_neg (by omega)]; omega⟩
    split
    · right; exact ⟨rfl, fun _ => by rw [if_neg (by omega)]; omega⟩
    rename_i hb
    split
    · right; exact ⟨rfl, fun h => absurd h hb⟩
    · left; exact aa

theorem sg_same {s : Bool} {a v ε : ℝ} (ha : a = sg s * |a|) (h : |a - v| ≤ ε * |v|) (hε : ε < 1) (hv : v ≠ 0) : v = sg s * |v| := by
  have hp := abs_pos.2 hv
  have h1 := abs_le.1 h
  have h3 : ε * |v| < |v| := by nlinarith
  cases s
  · simp only [sg] at ha ⊢
    norm_num at ha ⊢
    have : 0 ≤ a := by rw [ha]; exact abs_nonneg _
    rcases lt_or_ge v 0 with h | h
    · rw [abs_of_neg h] at *; linarith
    · exact (abs_of_nonneg h).symm
  · simp only [sg] at ha ⊢
    norm_num at ha ⊢
    have : a ≤ 0 := by rw [ha]; linarith [abs_nonneg a]
    rcases lt_or_ge 0 v with h | h
    · rw [abs_of_pos h] at *; linarith
    · rw [abs_of_nonpos h]; ring

/-- The nearest `float`, or a neighbour when their midpoint is close, is accurate. -/
theorem pick_accurate {hi f r : Nat} {v ε : ℝ} (n : Near hi f) (hf : f = narrow hi) (hv : v ≠ 0) (hr : Rel hi v (1 / 2 ^ 40)) (hε : ε < 1 / 2 ^ 39)
    (h : r = f ∨ ∃ q, Next (b32.abs f) q ∧ r = b32.pack (b32.neg f) q ∧ |midR (b32.neg f) (b32.abs f) q - v| ≤ ε * |v|) : Accurate b32 (1 / 2 ^ 39) v r := by
  rcases h with rfl | ⟨q, h1, rfl, h3⟩
  · rw [hf]
    exact ⟨_, (hr.mono (by norm_num)).err, conv_rounded hr.fin⟩
  · have ht := n.top
    exact mid_accurate h1 (by rw [show b32.inf = 2139095040 from rfl]; omega) (abs_pos.2 hv) (sg_same n.sign hr.err (by norm_num) hv) hε (by norm_num) h3

theorem big_f {hi : Nat} (n : Near hi (narrow hi)) (h : 1 / 2 ^ 12 ≤ |R b64 hi|) : 2 ≤ b32.abs (narrow hi) := by
  by_contra hc
  have h1 := n.near 0x39000000 (by decide)
  rw [n.val, n.sign, ← mul_sub, ← mul_sub, abs_mul, abs_mul, sg_abs, one_mul, one_mul] at h1
  have e1 : (b32.mag 0x39000000 : ℝ) / 2 ^ b32.unit = 1 / 2 ^ 13 := by
    rw [show b32.mag 0x39000000 = 2 ^ 136 by decide +kernel, show b32.unit = 149 from rfl]; norm_num
  have e2 : (b32.mag (b32.abs (narrow hi)) : ℝ) / 2 ^ b32.unit ≤ 1 / 2 ^ 149 := by
    have : b32.mag (b32.abs (narrow hi)) ≤ b32.mag 1 := b32.mag_mono (by omega)
    rw [show b32.mag 1 = 1 by decide] at this
    rw [show b32.unit = 149 from rfl]
    apply div_le_div_of_nonneg_right _ (by positivity)
    exact_mod_cast this
  rw [e1] at h1
  have e3 : (0 : ℝ) ≤ (b32.mag (b32.abs (narrow hi)) : ℝ) / 2 ^ b32.unit := by positivity
  generalize (b32.mag (b32.abs (narrow hi)) : ℝ) / 2 ^ b32.unit = u at *
  generalize |R b64 hi| = w at *
  norm_num at *
  rw [abs_of_nonneg (by linarith), abs_of_nonneg (by linarith)] at h1
  linarith

/-- The branches with a constant. -/
theorem from_accurate {chi clo k num den : Nat} {base : Dint} {negative : Bool} {v : ℝ} (hr : Rel (b64.sub chi k) v (1 / 2 ^ 40))
    (hl : Fin b64 (b64.add (b64.sub (b64.sub chi (b64.sub chi k)) k) clo)) (l1 : |R b64 (b64.add (b64.sub (b64.sub chi (b64.sub chi k)) k) clo)| ≤ 1 / 2 ^ 46)
    (hv : 1 / 2 ≤ |v|) (hv3 : |v| ≤ 3.2) : ∃ r, atanFrom chi clo base k num den negative = some r ∧ Accurate b32 (1 / 2 ^ 39) v r := by
  unfold atanFrom
  simp only
  generalize b64.sub chi k = hi at *
  generalize b64.add (b64.sub (b64.sub chi hi) k) clo = lo at *
  have v0 : v ≠ 0 := by intro h; rw [h] at hv; norm_num at hv
  have hi1 := hr.le_abs
  have hi2 := hr.abs_le
  have hi3 : 0.49 ≤ |R b64 hi| := by norm_num at hi1 ⊢; linarith
  have hi4 : |R b64 hi| ≤ 4 := by norm_num at hi2 hv3; linarith
  have h0 : R b64 hi ≠ 0 := by intro h; rw [h] at hi3; norm_num at hi3
  have n := narrow_near hr.fin h0 hi4
  have f2 := big_f n (le_trans (by norm_num) hi3)
  obtain ⟨d1, d2, d3⟩ := residual_ap n (by omega) hl (l1.trans (by norm_num))
  have d2' : |R b64 (residual hi lo) - (R b64 hi - R b32 (narrow hi))| ≤ 1 / 2 ^ 45 := d2.trans (by norm_num at l1 ⊢; linarith)
  have mid : ∀ {s p q}, ∀ {e : ℝ}, |midR s p q - R b64 hi| ≤ e → e ≤ 1 / 2 ^ 44 → |midR s p q - v| ≤ 1.5 / 2 ^ 40 * |v| := fun {s p q e} h he => by
    refine (abs_sub_le _ _ _).trans ((add_le_add (h.trans he) hr.err).trans ?_)
    norm_num at hv ⊢
    linarith
  have dd : ∃ r, ddToFloat hi lo = some r ∧ Accurate b32 (1 / 2 ^ 39) v r := by
    obtain ⟨r, r1, r2⟩ := dd_near n rfl f2 d1 d2'
    refine ⟨r, r1, pick_accurate n rfl v0 hr (ε := 1.5 / 2 ^ 40) (by norm_num) ?_⟩
    rcases r2 with r2 | ⟨q, q1, q2, q3⟩
    · exact Or.inl r2
    · exact Or.inr ⟨q, q1, q2, mid q3 (by norm_num)⟩
  split
  · obtain ⟨g, g1, g2⟩ := gap_near n (by omega) d1 d3 d2'
    rw [g1, Option.bind_some]
    split
    · rename_i hg
      obtain ⟨q, q1, q2, q3⟩ := g2 hg
      obtain ⟨o, c, x, o1, o2, o3, -, o5⟩ := accurate_choice (d := residual hi lo) (exactQuot num den) negative (some base) n rfl h0 (by omega)
      refine ⟨_, o3, pick_accurate n rfl v0 hr (ε := 1.5 / 2 ^ 40) (by norm_num) ?_⟩
      have eo : o = q := by
        have := o2.trans q2.symm
        rcases o1 with h | h <;> rcases q1 with h' | h' <;> omega
      rcases o5 with rfl | ⟨rfl, -⟩
      · left; exact Fmt.pack_self n.pat
      · right; exact ⟨_, o1, rfl, by rw [eo]; exact mid q3 (by norm_num)⟩
    · exact dd
  · exact dd

/-- The branch without a constant, unless the angle is small. -/
theorem plain_big {k num den : Nat} {negative : Bool} {v : ℝ} (hr : Rel k v (1 / 2 ^ 41)) (hv : 1 / 2 ^ 10 ≤ |v|) (hv3 : |v| ≤ 3.2) :
    ∃ r, atanPlain k num den negative = some r ∧ Accurate b32 (1 / 2 ^ 39) v r := by
  have v0 : v ≠ 0 := by intro h; rw [h] at hv; norm_num at hv
  have hr' : Rel k v (1 / 2 ^ 40) := hr.mono (by norm_num)
  have hi1 := hr.le_abs
  have hi2 := hr.abs_le
  have hi3 : 1 / 2 ^ 12 ≤ |R b64 k| := by norm_num at hi1 hv ⊢; linarith
  have hi4 : |R b64 k| ≤ 4 := by norm_num at hi2 hv3; linarith
  have h0 : R b64 k ≠ 0 := by intro h; rw [h] at hi3; norm_num at hi3
  have n := narrow_near hr.fin h0 hi4
  have f2 := big_f n hi3
  have own : Accurate b32 (1 / 2 ^ 39) v (narrow k) := pick_accurate n rfl v0 hr' (ε := 0) (by norm_num) (Or.inl rfl)
  obtain ⟨w1, w2, -, -⟩ := wideR n.fin32
  have ds := n.dist (by omega)
  have d := (Ap.exact n.fin).sub (Ap.exact w1) (B := 1 / 2 ^ 20) (by rw [w2]; exact ds) (by norm_num)
  rw [w2] at d
  unfold atanPlain
  simp only
  split
  · obtain ⟨g, g1, g2⟩ := gap_near n (by omega) d.fin ((d.abs_le ds).trans (by norm_num)) (d.err.trans (show _ ≤ (1 : ℝ) / 2 ^ 73 by norm_num))
    rw [g1, Option.bind_some]
    split
    · rename_i hg
      obtain ⟨q, q1, q2, q3⟩ := g2 hg
      obtain ⟨o, c, x, o1, o2, o3, -, o5⟩ := accurate_choice (d := b64.sub k (wide (narrow k))) (exactQuot num den) negative none n rfl h0 (by omega)
      refine ⟨_, o3, pick_accurate n rfl v0 hr' (ε := 1.9 / 2 ^ 40) (by norm_num) ?_⟩
      have eo : o = q := by
        have := o2.trans q2.symm
        rcases o1 with h | h <;> rcases q1 with h' | h' <;> omega
      rcases o5 with rfl | ⟨rfl, -⟩
      · left; exact Fmt.pack_self n.pat
      · right
        refine ⟨_, o1, rfl, ?_⟩
        rw [eo]
        refine (abs_sub_le _ _ _).trans ((add_le_add q3 hr.err).trans ?_)
        norm_num at hv ⊢
        linarith
    · exact ⟨_, rfl, own⟩
  · exact ⟨_, rfl, own⟩

end Verif.Approx
