import Verif.Math.Convert

/-! # From the model's terms to those of the specification -/

namespace Verif.Math
open Verif.Float Spec

variable {F : Fmt} {L : Lit}

theorem absOf_eq (x : Nat) : absOf F x = F.abs x := rfl
theorem size_eq (x : Nat) : size F x = F.mag (F.abs x) := rfl

theorem neg_eq {x : Nat} (h : Pat F x) : F.neg x = decide (negative F x) := by
  have := Fmt.neg_iff h
  unfold negative
  cases hn : F.neg x
  · exact (decide_eq_false (by rw [← this, hn]; simp)).symm
  · exact (decide_eq_true (this.1 hn)).symm

theorem negative_iff {x : Nat} (h : Pat F x) : negative F x ↔ F.neg x = true := (Fmt.neg_iff h).symm

theorem value_eq {x : Nat} (h : Pat F x) : value F x = F.val x := by
  unfold value Fmt.val
  rw [neg_eq h, size_eq]
  by_cases hn : negative F x <;> simp [hn]

theorem pat_pack {s : Bool} {r : Nat} (h : r ≤ F.inf) : Pat F (F.pack s r) := Fmt.pack_lt (Nat.lt_of_le_of_lt h Fmt.inf_lt)

theorem absOf_pack {s : Bool} {r : Nat} (h : r ≤ F.inf) : absOf F (F.pack s r) = r := Fmt.abs_pack (Nat.lt_of_le_of_lt h Fmt.inf_lt)

theorem negative_pack {s : Bool} {r : Nat} (h : r ≤ F.inf) : negative F (F.pack s r) ↔ s = true := by
  rw [negative_iff (pat_pack h), Fmt.neg_pack (Nat.lt_of_le_of_lt h Fmt.inf_lt)]

theorem value_pack {s : Bool} {r : Nat} (h : r ≤ F.inf) : value F (F.pack s r) = sgnd s (F.mag r) := by
  rw [value_eq (pat_pack h), Fmt.val_pack (Nat.lt_of_le_of_lt h Fmt.inf_lt)]; rfl

theorem nan_nan (hf : 2 ≤ F.f) : NaN F F.nan := by
  unfold NaN absOf Fmt.nan
  have h1 := Fmt.inf_add (F := F)
  have h2 := Nat.two_pow_pos (F.f - 1)
  have h3 : 2 ^ F.f = 2 * 2 ^ (F.f - 1) := by rw [← Nat.pow_succ']; congr 1; omega
  rw [Nat.mod_eq_of_lt (by omega)]
  omega

/-! ### fmod -/

theorem fmod_spec (g : L.Good) {rs : Nat → Nat → Nat → Option Nat} (hrs : Rs L rs) {x y : Nat} (hx : Pat L.fmt x)
    (hxf : Finite L.fmt x) (hy0 : ¬ Zero L.fmt y) (hyf : Finite L.fmt y) :
    ∃ r, fmodG L rs x y = some r ∧ RemTrunc L.fmt x y r := by
  have hy0' : 0 < L.fmt.abs y := Nat.pos_of_ne_zero hy0
  obtain ⟨n, h1, h2, h3⟩ := fmodG_eq g hrs hx hxf hy0' hyf
  have hle : n ≤ L.fmt.inf := Nat.le_of_lt h3
  have hm := Fmt.mag_pos (F := L.fmt) hy0'
  refine ⟨_, h1, L.fmt.mag (L.fmt.abs x) / L.fmt.mag (L.fmt.abs y), ?_, ?_, ?_, pat_pack hle⟩
  · unfold size
    rw [absOf_pack hle, h2, Nat.mul_comm]
    exact (Nat.div_add_mod _ _).symm
  · unfold size
    rw [absOf_pack hle, h2]
    exact Nat.mod_lt _ hm
  · rw [negative_pack hle, negative_iff hx]

theorem fmod_inf (g : L.Good) {rs : Nat → Nat → Nat → Option Nat} {x y : Nat} (hx : Finite L.fmt x)
    (hy : Infinite L.fmt y) : fmodG L rs x y = some x := by
  have hx' : L.fmt.abs x < L.fmt.inf := hx
  have hy' : L.fmt.abs y = L.fmt.inf := hy
  have := Fmt.inf_pos g.ok
  unfold fmodG
  simp only
  rw [hy', g.inf, if_neg (by omega), if_pos (by omega)]

theorem fmod_nan (g : L.Good) {rs : Nat → Nat → Nat → Option Nat} {x y : Nat}
    (h : ¬ Finite L.fmt x ∨ Zero L.fmt y ∨ NaN L.fmt y) : fmodG L rs x y = some L.fmt.nan := by
  have h' : L.inf ≤ L.fmt.abs x ∨ L.inf < L.fmt.abs y ∨ L.fmt.abs y = 0 := by
    rw [g.inf]
    rcases h with h | h | h
    · left; exact Nat.le_of_not_lt h
    · right; right; exact h
    · right; left; exact h
  unfold fmodG
  simp only
  rw [if_pos h']

/-! ### Neighbours -/

theorem next_up {x r : Nat} (hx : Pat F x) (hr : Pat F r) (hri : F.abs r ≤ F.inf) (h : F.idx r = F.idx x + 1) : NextUp F x r := by
  refine ⟨hr, fun h => absurd (show F.inf < F.abs r from h) (by omega), ?_, ?_⟩
  · rw [value_eq hx, value_eq hr, Fmt.val_lt_idx]; omega
  · intro s hs _ hlt
    rw [value_eq hx, value_eq hs, Fmt.val_lt_idx] at hlt
    rw [value_eq hr, value_eq hs]
    have := Fmt.val_lt_idx (F := F) s r
    omega

theorem next_down {x r : Nat} (hx : Pat F x) (hr : Pat F r) (hri : F.abs r ≤ F.inf) (h : F.idx r = F.idx x - 1) : NextDown F x r := by
  refine ⟨hr, fun h => absurd (show F.inf < F.abs r from h) (by omega), ?_, ?_⟩
  · rw [value_eq hx, value_eq hr, Fmt.val_lt_idx]; omega
  · intro s hs _ hlt
    rw [value_eq hx, value_eq hs, Fmt.val_lt_idx] at hlt
    rw [value_eq hr, value_eq hs]
    have := Fmt.val_lt_idx (F := F) r s
    omega

theorem nextafter_spec (g : L.Good) {x y : Nat} (hx : Pat L.fmt x) (hy : Pat L.fmt y) (hxn : ¬ NaN L.fmt x) (hyn : ¬ NaN L.fmt y) :
    (value L.fmt x < value L.fmt y → ∃ r, nextafter L x y = some r ∧ NextUp L.fmt x r) ∧
    (value L.fmt y < value L.fmt x → ∃ r, nextafter L x y = some r ∧ NextDown L.fmt x r) ∧
    (value L.fmt x = value L.fmt y → nextafter L x y = some y) := by
  have hxi : L.fmt.abs x ≤ L.fmt.inf := Nat.le_of_not_lt hxn
  have hyi : L.fmt.abs y ≤ L.fmt.inf := Nat.le_of_not_lt hyn
  rw [value_eq hx, value_eq hy]
  refine ⟨fun h => ?_, fun h => ?_, fun h => ?_⟩
  · obtain ⟨r, h1, h2, h3, h4⟩ := nextafter_idx g hx hy hxi hyi (by omega)
    rw [if_pos ((Fmt.val_lt_idx _ _).1 h)] at h4
    exact ⟨r, h1, next_up hx h2 h3 h4⟩
  · obtain ⟨r, h1, h2, h3, h4⟩ := nextafter_idx g hx hy hxi hyi (by omega)
    rw [if_neg (by have := (Fmt.val_lt_idx _ _).1 h; omega)] at h4
    exact ⟨r, h1, next_down hx h2 h3 (by omega)⟩
  · unfold nextafter
    rw [if_pos (Or.inl ((Fmt.eq_iff hxi hyi).2 h))]

theorem nextafter_nan (g : L.Good) {x y : Nat} (h : NaN L.fmt x ∨ NaN L.fmt y) : ∃ r, nextafter L x y = some r ∧ NaN L.fmt r := by
  have hx := eq_self_iff (F := L.fmt) x
  have hy := eq_self_iff (F := L.fmt) y
  unfold nextafter
  by_cases hyn : NaN L.fmt y
  · have : ¬ L.fmt.eq y y = true := fun h => absurd (hy.1 h) (Nat.not_le_of_lt hyn)
    exact ⟨y, if_pos (Or.inr this), hyn⟩
  · have hxn : NaN L.fmt x := by rcases h with h | h; exact h; exact absurd h hyn
    have h1 : ¬ L.fmt.eq x x = true := fun h => absurd (hx.1 h) (Nat.not_le_of_lt hxn)
    have h2 : ¬ L.fmt.eq x y = true := by
      unfold Fmt.eq
      rw [Fmt.isNaN_iff.2 hxn]; simp
    refine ⟨x, ?_, hxn⟩
    rw [if_neg (by rintro (h | h); exact h2 h; exact h (hy.2 (Nat.le_of_not_lt hyn))), if_pos h1]

theorem wide_conv (g : L.Good) (hf : L.fmt.f ≤ b128.f) (hb : L.fmt.bias ≤ b128.bias) {x : Nat} (hx : Pat L.fmt x) (hxn : ¬ NaN L.fmt x) :
    b128.val (L.fmt.conv b128 x) = wide L.fmt x := by
  have hxi : L.fmt.abs x ≤ L.fmt.inf := Nat.le_of_not_lt hxn
  obtain ⟨n, n1, n2, n3, n4⟩ := conv_wide g hf hb hxi
  have nl := Nat.lt_of_le_of_lt n2 (Fmt.inf_lt (F := b128))
  rw [n1, Fmt.val_pack nl]
  unfold wide
  rw [absOf_eq]
  rcases Nat.lt_or_ge (L.fmt.abs x) L.fmt.inf with h | h
  · rw [if_pos h, (n4 h).2, value_eq hx]
    unfold Fmt.val
    cases L.fmt.neg x <;> simp [Int.neg_mul]
  · rw [if_neg (show ¬ L.fmt.abs x < L.fmt.inf by omega), n3 (by omega)]
    simp only [negative_iff hx]

theorem nexttoward_spec (g : L.Good) (hf : L.fmt.f ≤ b128.f) (hb : L.fmt.bias ≤ b128.bias) {x y : Nat} (hx : Pat L.fmt x) (hy : Pat b128 y)
    (hxn : ¬ NaN L.fmt x) (hyn : ¬ NaN b128 y) :
    (wide L.fmt x < value b128 y → ∃ r, nexttoward L x y = some r ∧ NextUp L.fmt x r) ∧
    (value b128 y < wide L.fmt x → ∃ r, nexttoward L x y = some r ∧ NextDown L.fmt x r) ∧
    (wide L.fmt x = value b128 y → ∃ r, nexttoward L x y = some r ∧ Pat L.fmt r ∧ absOf L.fmt r = absOf L.fmt x ∧
      (negative L.fmt r ↔ negative b128 y)) := by
  have hxi : L.fmt.abs x ≤ L.fmt.inf := Nat.le_of_not_lt hxn
  have hyi : b128.abs y ≤ b128.inf := Nat.le_of_not_lt hyn
  rw [value_eq hy, ← wide_conv g hf hb hx hxn]
  refine ⟨fun h => ?_, fun h => ?_, fun h => ?_⟩
  · obtain ⟨r, h1, h2, h3, h4⟩ := nexttoward_idx g hf hb hx hxi hyi (by omega)
    rw [if_pos h] at h4
    exact ⟨r, h1, next_up hx h2 h3 h4⟩
  · obtain ⟨r, h1, h2, h3, h4⟩ := nexttoward_idx g hf hb hx hxi hyi (by omega)
    rw [if_neg (by omega)] at h4
    exact ⟨r, h1, next_down hx h2 h3 (by omega)⟩
  · refine ⟨_, nexttoward_same g hf hb hxi hyi h, pat_pack hxi, absOf_pack hxi, ?_⟩
    rw [negative_pack hxi, negative_iff hy]

theorem nan_conv {G : Fmt} (hG : 2 ≤ G.f) {x : Nat} (h : NaN F x) : NaN G (F.conv G x) := by
  unfold Fmt.conv
  rw [if_pos (Fmt.isNaN_iff.2 h)]
  exact nan_nan hG

theorem nexttoward_nan (g : L.Good) {x y : Nat} (h : NaN L.fmt x ∨ NaN b128 y) : ∃ r, nexttoward L x y = some r ∧ NaN L.fmt r := by
  have hx := eq_self_iff (F := L.fmt) x
  have hy := eq_self_iff (F := b128) y
  unfold nexttoward
  by_cases hyn : NaN b128 y
  · have : ¬ b128.eq y y = true := fun h => absurd (hy.1 h) (Nat.not_le_of_lt hyn)
    exact ⟨_, if_pos this, nan_conv g.ok.f hyn⟩
  · have hxn : NaN L.fmt x := by rcases h with h | h; exact h; exact absurd h hyn
    have h1 : ¬ L.fmt.eq x x = true := fun h => absurd (hx.1 h) (Nat.not_le_of_lt hxn)
    refine ⟨x, ?_, hxn⟩
    rw [if_neg (fun h => h (hy.2 (Nat.le_of_not_lt hyn))), if_pos h1]

/-! ### remainder, remquo -/

theorem sgnd_mul (s t : Bool) (a b : Nat) : sgnd s a * sgnd t b = sgnd (s != t) (a * b) := by
  cases s <;> cases t <;> simp [sgnd, Int.neg_mul, Int.mul_neg]

theorem sgnd_abs (s : Bool) (a : Nat) : (sgnd s a).natAbs = a := by cases s <;> simp [sgnd]

/-- The last step of `remainder` gives the nearest multiple. -/
theorem rem_near {x y Q p : Nat} (hx : Pat F x) (hy : Pat F y) (hp : F.abs p ≤ F.inf)
    (hv : F.val p = (F.mag (F.abs x) : Int) - (Q : Int) * F.mag (F.abs y)) (hsm : 2 * F.mag (F.abs p) ≤ F.mag (F.abs y))
    (ht : 2 * F.mag (F.abs p) = F.mag (F.abs y) → Q % 2 = 0) (hz : F.abs p = 0 → F.neg p = false) :
    RemNear F x y (sgnd (F.neg x != F.neg y) Q) (F.pack (F.neg x != F.neg p) (F.abs p)) := by
  have key : value F x - sgnd (F.neg x != F.neg y) Q * value F y = sgnd (F.neg x != F.neg p) (F.mag (F.abs p)) := by
    rw [value_eq hx, value_eq hy, val_sgnd, val_sgnd, sgnd_mul]
    rw [val_sgnd] at hv
    have e : ((F.neg x != F.neg y) != F.neg y) = F.neg x := by cases F.neg x <;> cases F.neg y <;> rfl
    rw [e]
    rw [← Int.natCast_mul] at hv
    generalize Q * F.mag (F.abs y) = t at *
    generalize F.mag (F.abs p) = m at *
    unfold sgnd at hv ⊢
    cases h1 : F.neg x <;> cases h2 : F.neg p <;>
      simp only [h2, Bool.bne_true, Bool.bne_false, Bool.not_true, Bool.not_false, if_true, Bool.false_eq_true, if_false] at hv ⊢ <;> omega
  refine ⟨⟨?_, ?_⟩, ?_, ?_, pat_pack hp⟩
  · rw [key, sgnd_abs]; exact hsm
  · rw [key, sgnd_abs]
    intro h
    have := ht h
    cases (F.neg x != F.neg y) <;> simp [sgnd] <;> omega
  · rw [key, value_pack hp]
  · intro h
    have h0 : F.abs p = 0 := by
      have := absOf_pack (F := F) (s := F.neg x != F.neg p) hp
      rw [← this]; exact h
    rw [negative_pack hp, negative_iff hx, hz h0]
    simp

theorem remainder_spec (g : L.Good) {rs : Nat → Nat → Nat → Option Nat} (hrs : Rs L rs) {x y : Nat} (hx : Pat L.fmt x) (hy : Pat L.fmt y)
    (hxf : Finite L.fmt x) (hy0 : ¬ Zero L.fmt y) (hyf : Finite L.fmt y) :
    ∃ r q, remainderG L (fmodG L rs) x y = some r ∧ RemNear L.fmt x y q r := by
  obtain ⟨n, p, h1, h2, h3⟩ := remainderG_eq g hrs hxf (Nat.pos_of_ne_zero hy0) hyf
  have hdm := Nat.div_add_mod (L.fmt.mag (L.fmt.abs x)) (2 * L.fmt.mag (L.fmt.abs y))
  rw [← h2] at hdm
  refine ⟨_, _, h1, rem_near (Q := 2 * (L.fmt.mag (L.fmt.abs x) / (2 * L.fmt.mag (L.fmt.abs y))) + p.2) hx hy ?_ ?_ h3.small ?_ h3.zero⟩
  · have := h3.small
    have hyf' : L.fmt.abs y < L.fmt.inf := hyf
    have h4 := (Fmt.mag_le_iff (F := L.fmt) (m := L.fmt.abs p.1) (n := L.fmt.abs y)).1 (by omega)
    omega
  · rw [h3.val]
    generalize L.fmt.mag (L.fmt.abs x) / (2 * L.fmt.mag (L.fmt.abs y)) = t at *
    rw [← hdm, ← Int.natCast_mul, ← Int.natCast_mul, Nat.add_mul]
    rw [show 2 * t * L.fmt.mag (L.fmt.abs y) = 2 * L.fmt.mag (L.fmt.abs y) * t by rw [Nat.mul_right_comm]]
    omega
  · intro h
    have := h3.tie h
    omega

theorem remquo_spec (g : L.Good) {rs : Nat → Nat → Nat → Option Nat} (hrs : Rs L rs) {x y : Nat} (hx : Pat L.fmt x) (hy : Pat L.fmt y)
    (hxf : Finite L.fmt x) (hy0 : ¬ Zero L.fmt y) (hyf : Finite L.fmt y) :
    ∃ r k q, remquoG L (fmodG L rs) x y = some (r, k) ∧ RemNear L.fmt x y q r ∧ k.natAbs % 8 = q.natAbs % 8 ∧
      (negative L.fmt x → k ≤ 0) ∧ (¬ negative L.fmt x → 0 ≤ k) := by
  obtain ⟨n, q0, p, h1, h2, h4, h5, h3⟩ := remquoG_eq g hrs hxf (Nat.pos_of_ne_zero hy0) hyf
  have hdm := Nat.div_add_mod (L.fmt.mag (L.fmt.abs x)) (8 * L.fmt.mag (L.fmt.abs y))
  rw [h2] at hdm
  have e : (if L.fmt.neg x then -((q0 + p.2 : Nat) : Int) else ((q0 + p.2 : Nat) : Int)) = sgnd (L.fmt.neg x) (q0 + p.2) := rfl
  rw [e] at h1
  refine ⟨_, _, _, h1, rem_near (Q := 8 * (L.fmt.mag (L.fmt.abs x) / (8 * L.fmt.mag (L.fmt.abs y))) + q0 + p.2) hx hy ?_ ?_ h3.small ?_ h3.zero, ?_, ?_, ?_⟩
  · have := h3.small
    have hyf' : L.fmt.abs y < L.fmt.inf := hyf
    have h4 := (Fmt.mag_le_iff (F := L.fmt) (m := L.fmt.abs p.1) (n := L.fmt.abs y)).1 (by omega)
    omega
  · rw [h3.val]
    generalize L.fmt.mag (L.fmt.abs x) / (8 * L.fmt.mag (L.fmt.abs y)) = t at *
    rw [← hdm, ← Int.natCast_mul, ← Int.natCast_mul, Nat.add_mul, Nat.add_mul]
    rw [show 8 * t * L.fmt.mag (L.fmt.abs y) = 8 * L.fmt.mag (L.fmt.abs y) * t by rw [Nat.mul_right_comm]]
    omega
  · intro h
    have := h3.tie h
    omega
  · rw [sgnd_abs, sgnd_abs]; omega
  · rw [negative_iff hx]
    intro h; rw [h]; unfold sgnd; rw [if_pos rfl]; omega
  · rw [negative_iff hx]
    intro h
    have : L.fmt.neg x = false := by cases hh : L.fmt.neg x; rfl; exact absurd hh h
    rw [this]; unfold sgnd; rw [if_neg (by simp)]; omega

/-! ### Exponents -/

theorem ofInt_exact (o : F.Ok) {k : Int} (hk : k.natAbs ≤ 2 ^ (F.f + 1)) (hb : k.natAbs * 2 ^ F.unit ≤ F.mag F.inf) :
    Pat F (F.ofInt k) ∧ value F (F.ofInt k) = k * 2 ^ F.unit := by
  obtain ⟨n, h1, h2⟩ := Fmt.representable (F := F) (m := k.natAbs) (e := F.unit) hk hb
  have hU := Nat.two_pow_pos F.unit
  have hc : (2 : Int) ^ F.unit = ((2 ^ F.unit : Nat) : Int) := by simp
  have e : F.ofInt k = F.pack (decide (k < 0)) n := by
    unfold Fmt.ofInt Fmt.rndInt
    by_cases h0 : k = 0
    · subst h0
      rw [if_pos (by simp)]
      have : n = 0 := Fmt.mag_eq_zero.1 (by rw [h2]; simp)
      rw [this]; rfl
    · have hne : k * 2 ^ F.unit ≠ 0 := by
        rw [hc]; exact Int.mul_ne_zero h0 (by omega)
      rw [if_neg hne, Int.natAbs_mul, show ((2 : Int) ^ F.unit).natAbs = 2 ^ F.unit by rw [hc]; rfl, ← h2, rnd_mag h1]
      congr 1
      rw [decide_eq_decide, hc]
      constructor
      · intro h
        rcases Int.lt_or_le k 0 with h' | h'
        · exact h'
        · have := Int.mul_nonneg h' (Int.natCast_nonneg (2 ^ F.unit)); omega
      · intro h; exact Int.mul_neg_of_neg_of_pos h (by omega)
  rw [e]
  refine ⟨pat_pack h1, ?_⟩
  rw [value_pack h1, h2, hc]
  by_cases h : k < 0
  · rw [decide_eq_true h]
    simp only [sgnd, if_true]
    rw [Int.natCast_mul, ← Int.neg_mul]
    congr 1; omega
  · rw [decide_eq_false h]
    simp only [sgnd, Bool.false_eq_true, if_false]
    rw [Int.natCast_mul]
    congr 1; omega

end Verif.Math
