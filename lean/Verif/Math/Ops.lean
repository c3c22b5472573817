import Verif.Math.Fmod

/-! # Exact floating-point operations -/

namespace Verif.Float

theorem rnd_scale {F : Fmt} (num den k : Nat) (hk : 0 < k) : F.rnd (num * k) (den * k) = F.rnd num den := by
  unfold Fmt.rnd
  simp only
  rw [Nat.mul_div_mul_right _ _ hk]
  generalize F.floorPat (num / den) = n
  have e : ∀ c, den * k * c = den * c * k := fun c => by rw [Nat.mul_right_comm]
  have h1 : den * k * (F.mag n + F.mag (n + 1)) < 2 * (num * k) ↔ den * (F.mag n + F.mag (n + 1)) < 2 * num := by
    rw [e, ← Nat.mul_assoc, Nat.mul_lt_mul_right hk]
  have h2 : 2 * (num * k) = den * k * (F.mag n + F.mag (n + 1)) ↔ 2 * num = den * (F.mag n + F.mag (n + 1)) := by
    rw [e, ← Nat.mul_assoc]
    exact ⟨fun h => Nat.eq_of_mul_eq_mul_right hk h, fun h => by rw [h]⟩
  simp only [h1, h2]

namespace Fmt
variable {F : Fmt}

theorem unit_eq (o : F.Ok) : F.unit + 1 = F.f + F.bias ∧ 3 ≤ F.bias := by
  have := o.f
  have hw := o.w
  have h4 : 2 ^ 2 ≤ 2 ^ (F.w - 1) := Nat.pow_le_pow_right (by omega) (by omega)
  unfold unit bias
  omega

theorem inf_eq (o : F.Ok) : F.inf = (2 * F.bias + 1) * 2 ^ F.f := by
  unfold inf bias
  have := o.w
  have : 2 ^ F.w = 2 ^ (F.w - 1) * 2 := by rw [← Nat.pow_succ]; congr 1; omega
  rw [this]
  have := Nat.two_pow_pos (F.w - 1)
  congr 1; omega

/-- The pattern of `2^(E - bias)`. -/
theorem mag_pow (E : Nat) (hE : 1 ≤ E) : F.mag (E * 2 ^ F.f) = 2 ^ (F.f + E - 1) := by
  have := F.mag_mk E (2 ^ F.f) hE (Nat.le_refl _) (by rw [Nat.pow_succ]; have := Nat.two_pow_pos F.f; omega)
  rw [Nat.sub_self, Nat.add_zero] at this
  rw [this, ← Nat.pow_add]; congr 1; omega

theorem mag_inf (o : F.Ok) : F.mag F.inf = 2 ^ (F.f + 2 * F.bias) := by
  rw [inf_eq o, mag_pow _ (by omega)]; congr 1

theorem pow_lt_inf (o : F.Ok) {E : Nat} (h : E < 2 * F.bias + 1) : E * 2 ^ F.f < F.inf := by
  rw [inf_eq o]
  exact Nat.mul_lt_mul_of_pos_right h (Nat.two_pow_pos _)

theorem inf_pos (o : F.Ok) : 0 < F.inf := by
  have := pow_lt_inf o (E := 0) (by omega); omega

theorem add_fin {x y : Nat} (hx : F.abs x < F.inf) (hy : F.abs y < F.inf) : F.add x y = F.rndInt (F.neg x && F.neg y) (F.val x + F.val y) := by
  unfold add
  rw [not_nan_of_fin hx, not_nan_of_fin hy, isFin_iff.2 hx, isFin_iff.2 hy]
  simp

theorem abs_opp (x : Nat) : F.abs (F.opp x) = F.abs x := abs_pack (abs_lt x)
theorem neg_opp (x : Nat) : F.neg (F.opp x) = !F.neg x := neg_pack (abs_lt x)
theorem val_opp (x : Nat) : F.val (F.opp x) = -F.val x := by
  unfold val; rw [abs_opp, neg_opp]; cases F.neg x <;> simp

/-- Exact addition. -/
theorem add_exact {x y k : Nat} (hx : F.abs x < F.inf) (hy : F.abs y < F.inf) (hk : k ≤ F.inf) (he : F.mag k = (F.val x + F.val y).natAbs) :
    F.add x y = F.pack (if F.val x + F.val y = 0 then F.neg x && F.neg y else decide (F.val x + F.val y < 0)) k := by
  rw [add_fin hx hy]
  unfold rndInt
  by_cases h : F.val x + F.val y = 0
  · rw [if_pos h, if_pos h]
    have : k = 0 := mag_eq_zero.1 (by rw [he, h]; rfl)
    rw [this]
  · rw [if_neg h, if_neg h, ← he, rnd_mag hk]

theorem sub_pos {n d k : Nat} (hn : n < F.inf) (hd : d < F.inf) (h : d ≤ n) (hk : F.mag k = F.mag n - F.mag d) : F.sub n d = k := by
  have hn' := Nat.lt_trans hn inf_lt
  have hd' := Nat.lt_trans hd inf_lt
  have hm := F.mag_mono h
  have hm2 := F.mag_strictMono hn
  have hkl : k ≤ F.inf := (mag_le_iff (F := F)).1 (by omega)
  unfold sub
  rw [add_exact (k := k) (by rwa [abs_of_lt hn']) (by rwa [abs_opp, abs_of_lt hd']) hkl (by
    rw [val_opp, val_of_lt hn', val_of_lt hd', hk]; omega)]
  rw [val_opp, val_of_lt hn', val_of_lt hd', neg_of_lt hn']
  unfold pack
  by_cases h0 : (F.mag n : Int) + -(F.mag d : Int) = 0
  · simp [h0]
  · rw [if_neg h0, decide_eq_false (by omega)]; simp

theorem sub_neg {n d k : Nat} (hn : n < F.inf) (hd : d < F.inf) (h : n < d) (hk : F.mag k = F.mag d - F.mag n) : F.sub n d = F.pack true k := by
  have hn' := Nat.lt_trans hn inf_lt
  have hd' := Nat.lt_trans hd inf_lt
  have hm := F.mag_strictMono h
  have hm2 := F.mag_strictMono hd
  have hkl : k ≤ F.inf := (mag_le_iff (F := F)).1 (by omega)
  unfold sub
  rw [add_exact (k := k) (by rwa [abs_of_lt hn']) (by rwa [abs_opp, abs_of_lt hd']) hkl (by
    rw [val_opp, val_of_lt hn', val_of_lt hd', hk]; omega)]
  rw [val_opp, val_of_lt hn', val_of_lt hd', if_neg (by omega), decide_eq_true (by omega)]

theorem mul_fin {x y : Nat} (hx : F.abs x < F.inf) (hy : F.abs y < F.inf) :
    F.mul x y = F.pack (F.neg x != F.neg y) (F.rnd (F.mag (F.abs x) * F.mag (F.abs y)) (2 ^ F.unit)) := by
  unfold mul
  rw [not_nan_of_fin hx, not_nan_of_fin hy, isFin_iff.2 hx, isFin_iff.2 hy]
  simp

/-- Multiplication by a power of two that is not less than one. -/
theorem mul_pow (o : F.Ok) {c j y : Nat} (hc : c < F.inf) (hcm : F.mag c = 2 ^ (F.unit + j)) (hy : F.abs y < F.inf) :
    ∃ r, F.mul c y = F.pack (F.neg y) r ∧ r ≤ F.inf ∧
      (2 ^ j * F.mag (F.abs y) < F.mag F.inf → F.mag r = 2 ^ j * F.mag (F.abs y)) ∧ (F.mag F.inf ≤ 2 ^ j * F.mag (F.abs y) → r = F.inf) := by
  have hc' := Nat.lt_trans hc inf_lt
  refine ⟨F.rnd (2 ^ j * F.mag (F.abs y)) 1, ?_, rnd_le _ _ (by omega), ?_, ?_⟩
  · rw [mul_fin (by rwa [abs_of_lt hc']) hy, abs_of_lt hc', neg_of_lt hc', hcm]
    have e : 2 ^ (F.unit + j) * F.mag (F.abs y) = 2 ^ j * F.mag (F.abs y) * 2 ^ F.unit := by
      rw [Nat.pow_add, Nat.mul_assoc, Nat.mul_comm]
    have := rnd_scale (F := F) (2 ^ j * F.mag (F.abs y)) 1 (2 ^ F.unit) (Nat.two_pow_pos _)
    rw [Nat.one_mul] at this
    rw [e, this]
    cases F.neg y <;> rfl
  · intro h
    obtain ⟨m, hm, hml⟩ := mag_form (F := F) (F.abs y)
    unfold ulp at hm
    have e : 2 ^ j * F.mag (F.abs y) = m * 2 ^ (F.abs y / 2 ^ F.f - 1 + j) := by
      rw [hm, Nat.pow_add, Nat.mul_comm, Nat.mul_assoc]
    obtain ⟨n, hn, hne⟩ := representable (F := F) (m := m) (e := F.abs y / 2 ^ F.f - 1 + j) (by omega) (by rw [← e]; omega)
    rw [← e] at hne
    rw [← hne, rnd_mag hn]
  · intro h
    exact rnd_eq (by omega) (nearest_inf (by omega) (by omega))

/-- Multiplication of a normal number by one half. -/
theorem mul_half {c y : Nat} (hc : c < F.inf) (hcm : F.mag c * 2 = 2 ^ F.unit) (hy : y < F.inf) (hy2 : 2 ^ (F.f + 1) ≤ y) :
    ∃ r, F.mul c y = r ∧ r < F.inf ∧ 2 * F.mag r = F.mag y := by
  have hc' := Nat.lt_trans hc inf_lt
  have hy' := Nat.lt_trans hy inf_lt
  obtain ⟨m, hm, hml⟩ := mag_form (F := F) y
  unfold ulp at hm
  have hE : 2 ≤ y / 2 ^ F.f := (Nat.le_div_iff_mul_le (Nat.two_pow_pos _)).2 (by rw [Nat.pow_succ] at hy2; omega)
  have e : F.mag y = m * 2 ^ (y / 2 ^ F.f - 2) * 2 := by
    rw [hm, show y / 2 ^ F.f - 1 = y / 2 ^ F.f - 2 + 1 by omega, Nat.pow_succ, Nat.mul_assoc]
  have hlt := F.mag_strictMono hy
  obtain ⟨n, hn, hne⟩ := representable (F := F) (m := m) (e := y / 2 ^ F.f - 2) (by omega) (by omega)
  have hn2 : n < F.inf := (mag_lt_iff (F := F)).1 (by omega)
  refine ⟨n, ?_, hn2, by omega⟩
  rw [mul_fin (by rwa [abs_of_lt hc']) (by rwa [abs_of_lt hy']), abs_of_lt hc', abs_of_lt hy', neg_of_lt hc', neg_of_lt hy']
  have h2 : F.mag c * F.mag y = 2 ^ F.unit * F.mag n := by
    rw [e, ← hne, ← hcm, Nat.mul_comm (F.mag n) 2, ← Nat.mul_assoc]
  rw [rnd_exact (Nat.two_pow_pos _) hn h2]
  unfold pack; simp

theorem lt_iff {x y : Nat} (hx : F.abs x ≤ F.inf) (hy : F.abs y ≤ F.inf) : F.lt x y = true ↔ F.val x < F.val y := by
  unfold lt; rw [isNaN_false.2 hx, isNaN_false.2 hy]; simp

theorem le_iff {x y : Nat} (hx : F.abs x ≤ F.inf) (hy : F.abs y ≤ F.inf) : F.le x y = true ↔ F.val x ≤ F.val y := by
  unfold le; rw [isNaN_false.2 hx, isNaN_false.2 hy]; simp

theorem eq_iff {x y : Nat} (hx : F.abs x ≤ F.inf) (hy : F.abs y ≤ F.inf) : F.eq x y = true ↔ F.val x = F.val y := by
  unfold eq; rw [isNaN_false.2 hx, isNaN_false.2 hy]; simp

theorem lt_pos {x y : Nat} (hx : x ≤ F.inf) (hy : y ≤ F.inf) : F.lt x y = true ↔ F.mag x < F.mag y := by
  have hx' := Nat.lt_of_le_of_lt hx inf_lt
  have hy' := Nat.lt_of_le_of_lt hy inf_lt
  rw [lt_iff (by rwa [abs_of_lt hx']) (by rwa [abs_of_lt hy']), val_of_lt hx', val_of_lt hy']
  omega

theorem le_pos {x y : Nat} (hx : x ≤ F.inf) (hy : y ≤ F.inf) : F.le x y = true ↔ F.mag x ≤ F.mag y := by
  have hx' := Nat.lt_of_le_of_lt hx inf_lt
  have hy' := Nat.lt_of_le_of_lt hy inf_lt
  rw [le_iff (by rwa [abs_of_lt hx']) (by rwa [abs_of_lt hy']), val_of_lt hx', val_of_lt hy']
  omega

/-- Flipping the sign bit. -/
theorem xor_sign {r : Nat} (h : r < 2 * F.signBit) (s : Bool) :
    (if s then F.signBit else 0) ^^^ r = F.pack (s != F.neg r) (F.abs r) := by
  have base : ∀ n, n < F.signBit → F.signBit ^^^ n = F.signBit + n := by
    intro n hn
    unfold signBit at hn ⊢
    have h1 := Nat.two_pow_add_eq_or_of_lt hn 1
    rw [Nat.mul_one] at h1
    rw [h1]
    apply Nat.eq_of_testBit_eq
    intro i
    rw [Nat.testBit_xor, Nat.testBit_or, Nat.testBit_two_pow]
    by_cases hi : F.f + F.w = i
    · have : n.testBit i = false := Nat.testBit_lt_two_pow (by rw [← hi]; exact hn)
      rw [this]; simp
    · simp [hi]
  have ha := abs_lt (F := F) r
  conv => lhs; rw [← pack_self h]
  generalize F.abs r = a at *
  cases s
  · simp
  · cases F.neg r
    · unfold pack; simpa using base a ha
    · unfold pack
      simp only [if_true]
      rw [← base a ha, ← Nat.xor_assoc, Nat.xor_self]; simp

end Fmt
end Verif.Float
