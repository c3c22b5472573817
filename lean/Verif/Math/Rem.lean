import Verif.Math.Ops

/-! # `remainder` and `remquo` -/

namespace Verif.Math
open Verif.Float

variable {L : Lit}

theorem lit_two (g : L.Good) : L.two < L.fmt.inf ∧ L.fmt.mag L.two = 2 ^ (L.fmt.unit + 1) := by
  obtain ⟨h1, h2⟩ := Fmt.unit_eq g.ok
  rw [g.two, g.bias]
  exact ⟨Fmt.pow_lt_inf g.ok (by omega), by rw [Fmt.mag_pow _ (by omega)]; congr 1; omega⟩

theorem lit_four (g : L.Good) : L.four < L.fmt.inf ∧ L.fmt.mag L.four = 2 ^ (L.fmt.unit + 2) := by
  obtain ⟨h1, h2⟩ := Fmt.unit_eq g.ok
  rw [g.four, g.bias]
  exact ⟨Fmt.pow_lt_inf g.ok (by omega), by rw [Fmt.mag_pow _ (by omega)]; congr 1; omega⟩

theorem lit_eight (g : L.Good) : L.eight < L.fmt.inf ∧ L.fmt.mag L.eight = 2 ^ (L.fmt.unit + 3) := by
  obtain ⟨h1, h2⟩ := Fmt.unit_eq g.ok
  rw [g.eight, g.bias]
  exact ⟨Fmt.pow_lt_inf g.ok (by omega), by rw [Fmt.mag_pow _ (by omega)]; congr 1; omega⟩

theorem lit_half (g : L.Good) : L.half < L.fmt.inf ∧ L.fmt.mag L.half * 2 = 2 ^ L.fmt.unit := by
  obtain ⟨h1, h2⟩ := Fmt.unit_eq g.ok
  have := g.e0
  rw [g.half]
  exact ⟨Fmt.pow_lt_inf g.ok (by omega), by rw [Fmt.mag_pow _ (by omega), ← Nat.pow_succ]; congr 1; omega⟩

/-- The comparison and subtraction steps of `settle`, with the tests left open. -/
def step (F : Fmt) (t1 : Bool) (t2 : Nat → Bool) (n d : Nat) : Nat × Nat :=
  if t1 then
    if t2 (F.sub n d) then (F.sub (F.sub n d) d, 2) else (F.sub n d, 1)
  else (n, 0)

theorem settle_step (n d : Nat) : settle L n d =
    if L.fmt.lt d L.min2 then step L.fmt (L.fmt.lt d (L.fmt.mul L.two n)) (fun n => L.fmt.le d (L.fmt.mul L.two n)) n d
    else step L.fmt (L.fmt.lt (L.fmt.mul L.half d) n) (fun n => L.fmt.le (L.fmt.mul L.half d) n) n d := rfl

/-- What `settle` returns: the value `n - k * d` of smallest size. -/
structure Settled (F : Fmt) (n d : Nat) (p : Nat × Nat) : Prop where
  val : F.val p.1 = (F.mag n : Int) - p.2 * F.mag d
  small : 2 * F.mag (F.abs p.1) ≤ F.mag d
  tie : 2 * F.mag (F.abs p.1) = F.mag d → p.2 % 2 = 0
  zero : F.abs p.1 = 0 → F.neg p.1 = false
  pat : p.1 < 2 * F.signBit
  le : p.2 ≤ 2

theorem step_settled {F : Fmt} {t1 : Bool} {t2 : Nat → Bool} {n d : Nat} (hn : n < F.inf) (hd : d < F.inf) (hd0 : 0 < d)
    (h : F.mag n < 2 * F.mag d) (h1 : t1 = true ↔ F.mag d < 2 * F.mag n)
    (h2 : ∀ k, k < F.inf → F.mag k ≤ F.mag d → (t2 k = true ↔ F.mag d ≤ 2 * F.mag k))
    (h3 : ∀ k, 0 < k → k < F.inf → t2 (F.pack true k) = false) : Settled F n d (step F t1 t2 n d) := by
  have hn' := Nat.lt_trans hn Fmt.inf_lt
  have hd' := Nat.lt_trans hd Fmt.inf_lt
  have hm0 := Fmt.mag_pos (F := F) hd0
  unfold step
  by_cases ht : t1 = true
  · rw [if_pos ht]
    have hdn := h1.1 ht
    rcases Nat.lt_or_ge n d with hlt | hge
    · -- n < d: a negative result
      have hml := F.mag_strictMono hlt
      obtain ⟨k, hk, hke⟩ := Fmt.sterbenz (Nat.le_of_lt hlt) (by omega) (Nat.le_of_lt hd)
      have hk0 : 0 < k := (Fmt.mag_lt_iff (F := F)).1 (by rw [F.mag_zero]; omega)
      have hki : k < F.inf := (Fmt.mag_lt_iff (F := F)).1 (by have := F.mag_strictMono hd; omega)
      have hk' := Nat.lt_trans hki Fmt.inf_lt
      rw [Fmt.sub_neg hn hd hlt hke, if_neg (by rw [h3 k hk0 hki]; simp)]
      refine ⟨?_, ?_, ?_, ?_, Fmt.pack_lt hk', by simp⟩
      · rw [Fmt.val_pack hk']; simp; omega
      · simp only; rw [Fmt.abs_pack hk']; omega
      · simp only; rw [Fmt.abs_pack hk']; omega
      · simp only; rw [Fmt.abs_pack hk']; omega
    · have hml := F.mag_mono hge
      obtain ⟨k, hk, hke⟩ := Fmt.sterbenz hge (by omega) (Nat.le_of_lt hn)
      have hki : k < F.inf := (Fmt.mag_lt_iff (F := F)).1 (by have := F.mag_strictMono hd; omega)
      have hk' := Nat.lt_trans hki Fmt.inf_lt
      have hkd : k < d := (Fmt.mag_lt_iff (F := F)).1 (by omega)
      rw [Fmt.sub_pos hn hd hge hke]
      by_cases h4 : t2 k = true
      · rw [if_pos h4]
        have h5 := (h2 k hki (by omega)).1 h4
        obtain ⟨j, hj, hje⟩ := Fmt.sterbenz (Nat.le_of_lt hkd) (by omega) (Nat.le_of_lt hd)
        have hj0 : 0 < j := (Fmt.mag_lt_iff (F := F)).1 (by rw [F.mag_zero]; omega)
        have hji : j < F.inf := (Fmt.mag_lt_iff (F := F)).1 (by have := F.mag_strictMono hd; omega)
        have hj' := Nat.lt_trans hji Fmt.inf_lt
        rw [Fmt.sub_neg hki hd hkd hje]
        refine ⟨?_, ?_, ?_, ?_, Fmt.pack_lt hj', by simp⟩
        · rw [Fmt.val_pack hj']; simp; omega
        · simp only; rw [Fmt.abs_pack hj']; omega
        · simp
        · simp only; rw [Fmt.abs_pack hj']; omega
      · rw [if_neg h4]
        have h5 : ¬ F.mag d ≤ 2 * F.mag k := fun h => h4 ((h2 k hki (by omega)).2 h)
        refine ⟨?_, ?_, ?_, ?_, by simp only; omega, by simp⟩
        · rw [Fmt.val_of_lt hk']; simp; omega
        · simp only; rw [Fmt.abs_of_lt hk']; omega
        · simp only; rw [Fmt.abs_of_lt hk']; omega
        · intro _; exact Fmt.neg_of_lt hk'
  · rw [if_neg ht]
    have h5 : ¬ F.mag d < 2 * F.mag n := fun h => ht (h1.2 h)
    refine ⟨?_, ?_, ?_, ?_, by simp only; omega, by simp⟩
    · rw [Fmt.val_of_lt hn']; simp
    · simp only; rw [Fmt.abs_of_lt hn']; omega
    · simp
    · intro _; exact Fmt.neg_of_lt hn'

theorem settle_settled (g : L.Good) {n d : Nat} (hn : n < L.fmt.inf) (hd : d < L.fmt.inf) (hd0 : 0 < d)
    (h : L.fmt.mag n < 2 * L.fmt.mag d) : Settled L.fmt n d (settle L n d) := by
  rw [settle_step]
  have hd' := Nat.lt_trans hd Fmt.inf_lt
  have hm0 := Fmt.mag_pos (F := L.fmt) hd0
  obtain ⟨ht, htm⟩ := lit_two g
  obtain ⟨hh, hhm⟩ := lit_half g
  obtain ⟨_, hb3⟩ := Fmt.unit_eq g.ok
  have hmi : L.min2 < L.fmt.inf := by
    rw [g.min2, Nat.pow_succ, Nat.mul_comm]; exact Fmt.pow_lt_inf g.ok (by omega)
  have hmm : L.fmt.mag L.min2 = 2 ^ (L.fmt.f + 1) := by rw [Fmt.mag_tiny (by rw [g.min2]; omega), g.min2]
  by_cases h1 : L.fmt.lt d L.min2 = true
  · rw [if_pos h1]
    have hsm := (Fmt.lt_pos (by omega) (by omega)).1 h1
    rw [hmm] at hsm
    have hbig : 8 * 2 ^ (L.fmt.f + 1) < L.fmt.mag L.fmt.inf := by
      rw [Fmt.mag_inf g.ok]
      have e : 8 * 2 ^ (L.fmt.f + 1) = 2 ^ (L.fmt.f + 4) := by rw [Nat.pow_add, Nat.pow_add]; omega
      rw [e]
      exact Nat.pow_lt_pow_right (by omega) (by omega)
    have hdbl : ∀ k, k < L.fmt.inf → L.fmt.mag k ≤ 2 * L.fmt.mag d → ∃ r, L.fmt.mul L.two k = r ∧ r ≤ L.fmt.inf ∧ L.fmt.mag r = 2 * L.fmt.mag k := by
      intro k hk hkd
      have hk' := Nat.lt_trans hk Fmt.inf_lt
      obtain ⟨r, hr1, hr2, hr3, _⟩ := Fmt.mul_pow (y := k) g.ok ht htm (by rwa [Fmt.abs_of_lt hk'])
      rw [Fmt.abs_of_lt hk', Nat.pow_one] at hr3
      rw [Fmt.neg_of_lt hk'] at hr1
      exact ⟨r, by rw [hr1]; unfold Fmt.pack; simp, hr2, hr3 (by omega)⟩
    refine step_settled hn hd hd0 h ?_ ?_ ?_
    · obtain ⟨r, hr1, hr2, hr3⟩ := hdbl n hn (by omega)
      rw [hr1, Fmt.lt_pos (by omega) hr2, hr3]
    · intro k hk hkd
      obtain ⟨r, hr1, hr2, hr3⟩ := hdbl k hk (by omega)
      rw [hr1, Fmt.le_pos (by omega) hr2, hr3]
    · intro k hk0 hk
      have hk' := Nat.lt_trans hk Fmt.inf_lt
      obtain ⟨r, hr1, hr2, hr3, hr4⟩ := Fmt.mul_pow (y := L.fmt.pack true k) g.ok ht htm (by rwa [Fmt.abs_pack hk'])
      have hr' := Nat.lt_of_le_of_lt hr2 Fmt.inf_lt
      rw [Fmt.neg_pack hk'] at hr1
      rw [Bool.eq_false_iff]
      intro hc
      rw [hr1, Fmt.le_iff (by rw [Fmt.abs_of_lt hd']; omega) (by rw [Fmt.abs_pack hr']; omega), Fmt.val_of_lt hd', Fmt.val_pack hr'] at hc
      simp at hc; omega
  · rw [if_neg h1]
    have hge : 2 ^ (L.fmt.f + 1) ≤ d := by
      rw [Fmt.lt_pos (by omega) (by omega)] at h1
      rw [← g.min2]
      exact Nat.le_of_not_lt fun hc => h1 (L.fmt.mag_strictMono hc)
    obtain ⟨r, hr1, hr2, hr3⟩ := Fmt.mul_half hh hhm hd hge
    have hr' := Nat.lt_trans hr2 Fmt.inf_lt
    rw [hr1]
    refine step_settled hn hd hd0 h ?_ ?_ ?_
    · rw [Fmt.lt_pos (by omega) (by omega)]; omega
    · intro k hk hkd
      rw [Fmt.le_pos (by omega) (by omega)]; omega
    · intro k hk0 hk
      have hk' := Nat.lt_trans hk Fmt.inf_lt
      rw [Bool.eq_false_iff]
      intro hc
      rw [Fmt.le_iff (by rw [Fmt.abs_of_lt hr']; omega) (by rw [Fmt.abs_pack hk']; omega), Fmt.val_of_lt hr', Fmt.val_pack hk'] at hc
      simp at hc
      have := Fmt.mag_pos (F := L.fmt) hk0
      omega

/-- What `fmod` does, as used by `remainder` and `remquo`. -/
theorem fmod_scaled (g : L.Good) {rs : Nat → Nat → Nat → Option Nat} (hrs : Rs L rs) {x y c j : Nat}
    (hx : L.fmt.abs x < L.fmt.inf) (hy0 : 0 < L.fmt.abs y) (hy : L.fmt.abs y < L.fmt.inf)
    (hc : c < L.fmt.inf) (hcm : L.fmt.mag c = 2 ^ (L.fmt.unit + j)) :
    ∃ n, fmodG L rs (L.fmt.abs x) (L.fmt.mul c y) = some n ∧ n < L.fmt.inf ∧
      L.fmt.mag n = L.fmt.mag (L.fmt.abs x) % (2 ^ j * L.fmt.mag (L.fmt.abs y)) := by
  obtain ⟨r, hr1, hr2, hr3, hr4⟩ := Fmt.mul_pow (y := y) g.ok hc hcm hy
  have hr' := Nat.lt_of_le_of_lt hr2 Fmt.inf_lt
  have hm0 := Fmt.mag_pos (F := L.fmt) hy0
  have hax := Fmt.abs_lt (F := L.fmt) x
  have hpp : 0 < 2 ^ j * L.fmt.mag (L.fmt.abs y) := Nat.mul_pos (Nat.two_pow_pos j) hm0
  rcases Nat.lt_or_ge (2 ^ j * L.fmt.mag (L.fmt.abs y)) (L.fmt.mag L.fmt.inf) with hlt | hge
  · have hrm := hr3 hlt
    have hr0 : 0 < r := (Fmt.mag_lt_iff (F := L.fmt)).1 (by rw [L.fmt.mag_zero]; omega)
    have hri : r < L.fmt.inf := (Fmt.mag_lt_iff (F := L.fmt)).1 (by omega)
    obtain ⟨n, h1, h2, h3⟩ := fmodG_eq g hrs (x := L.fmt.abs x) (y := L.fmt.mul c y) (by omega)
      (by rwa [Fmt.abs_abs]) (by rw [hr1, Fmt.abs_pack hr']; exact hr0) (by rw [hr1, Fmt.abs_pack hr']; exact hri)
    rw [Fmt.neg_abs] at h1
    refine ⟨n, by rw [h1]; unfold Fmt.pack; simp, h3, ?_⟩
    rw [h2, hr1, Fmt.abs_abs, Fmt.abs_pack hr', hrm]
  · have hri := hr4 hge
    refine ⟨L.fmt.abs x, ?_, hx, ?_⟩
    · unfold fmodG
      simp only
      rw [hr1, Fmt.abs_abs, Fmt.abs_pack hr', hri, g.inf, if_neg (by omega), if_pos hx]
    · have := L.fmt.mag_strictMono hx
      rw [Nat.mod_eq_of_lt (by omega)]

/-- `remainder` in terms of magnitudes. -/
theorem remainderG_eq (g : L.Good) {rs : Nat → Nat → Nat → Option Nat} (hrs : Rs L rs) {x y : Nat}
    (hx : L.fmt.abs x < L.fmt.inf) (hy0 : 0 < L.fmt.abs y) (hy : L.fmt.abs y < L.fmt.inf) :
    ∃ n p, remainderG L (fmodG L rs) x y = some (L.fmt.pack (L.fmt.neg x != L.fmt.neg p.1) (L.fmt.abs p.1)) ∧
      L.fmt.mag n = L.fmt.mag (L.fmt.abs x) % (2 * L.fmt.mag (L.fmt.abs y)) ∧ Settled L.fmt n (L.fmt.abs y) p := by
  obtain ⟨ht, htm⟩ := lit_two g
  obtain ⟨n, h1, h2, h3⟩ := fmod_scaled g hrs hx hy0 hy ht htm
  have hm0 := Fmt.mag_pos (F := L.fmt) hy0
  rw [Nat.pow_one] at h3
  have hs := settle_settled g h2 hy hy0 (by rw [h3]; exact Nat.mod_lt _ (by omega))
  refine ⟨n, settle L n (L.fmt.abs y), ?_, h3, hs⟩
  unfold remainderG
  simp only
  rw [h1, Option.bind_some, Fmt.xor_sign hs.pat]

/-- Conditional subtraction of `2^j * d` in `remquo`. -/
theorem reduce (g : L.Good) {n d c j : Nat} (hn : n < L.fmt.inf) (hd : d < L.fmt.inf) (hc : c < L.fmt.inf)
    (hcm : L.fmt.mag c = 2 ^ (L.fmt.unit + j)) (h : L.fmt.mag n < 2 * (2 ^ j * L.fmt.mag d)) :
    (L.fmt.le (L.fmt.mul c d) n = true → 2 ^ j * L.fmt.mag d ≤ L.fmt.mag n ∧ L.fmt.sub n (L.fmt.mul c d) < L.fmt.inf ∧
        L.fmt.mag (L.fmt.sub n (L.fmt.mul c d)) = L.fmt.mag n - 2 ^ j * L.fmt.mag d) ∧
      (L.fmt.le (L.fmt.mul c d) n = false → L.fmt.mag n < 2 ^ j * L.fmt.mag d) := by
  have hd' := Nat.lt_trans hd Fmt.inf_lt
  have hn' := Nat.lt_trans hn Fmt.inf_lt
  obtain ⟨r, hr1, hr2, hr3, hr4⟩ := Fmt.mul_pow (y := d) g.ok hc hcm (by rwa [Fmt.abs_of_lt hd'])
  rw [Fmt.abs_of_lt hd'] at hr3 hr4
  rw [Fmt.neg_of_lt hd'] at hr1
  have hr1 : L.fmt.mul c d = r := by rw [hr1]; unfold Fmt.pack; simp
  have hni := L.fmt.mag_strictMono hn
  rw [hr1, Bool.eq_false_iff, Ne, Fmt.le_pos hr2 (by omega)]
  rcases Nat.lt_or_ge (2 ^ j * L.fmt.mag d) (L.fmt.mag L.fmt.inf) with hlt | hge
  · have hrm := hr3 hlt
    rw [hrm]
    refine ⟨fun hle => ?_, fun hc => by omega⟩
    obtain ⟨k, hk, hke⟩ := Fmt.sterbenz (F := L.fmt) (a := n) (b := r) (Fmt.mag_le_iff.1 (by rw [hrm]; exact hle)) (by omega) (by omega)
    have hri : r < L.fmt.inf := (Fmt.mag_lt_iff (F := L.fmt)).1 (by omega)
    rw [Fmt.sub_pos hn hri (Fmt.mag_le_iff.1 (by rw [hrm]; exact hle)) hke]
    exact ⟨hle, (Fmt.mag_lt_iff (F := L.fmt)).1 (by omega), by omega⟩
  · have hri := hr4 hge
    rw [hri]
    exact ⟨fun hle => by omega, fun _ => by omega⟩

/-- `remquo` in terms of magnitudes. -/
theorem remquoG_eq (g : L.Good) {rs : Nat → Nat → Nat → Option Nat} (hrs : Rs L rs) {x y : Nat}
    (hx : L.fmt.abs x < L.fmt.inf) (hy0 : 0 < L.fmt.abs y) (hy : L.fmt.abs y < L.fmt.inf) :
    ∃ n q0 p, remquoG L (fmodG L rs) x y = some (L.fmt.pack (L.fmt.neg x != L.fmt.neg p.1) (L.fmt.abs p.1),
        if L.fmt.neg x then -((q0 + p.2 : Nat) : Int) else ((q0 + p.2 : Nat) : Int)) ∧
      L.fmt.mag (L.fmt.abs x) % (8 * L.fmt.mag (L.fmt.abs y)) = L.fmt.mag n + q0 * L.fmt.mag (L.fmt.abs y) ∧ q0 % 2 = 0 ∧ q0 ≤ 6 ∧
      Settled L.fmt n (L.fmt.abs y) p := by
  obtain ⟨h8, h8m⟩ := lit_eight g
  obtain ⟨h4, h4m⟩ := lit_four g
  obtain ⟨h2, h2m⟩ := lit_two g
  obtain ⟨n, e1, e2, e3⟩ := fmod_scaled g hrs hx hy0 hy h8 h8m
  have hm0 := Fmt.mag_pos (F := L.fmt) hy0
  rw [show 2 ^ 3 = 8 by rfl] at e3
  have hlt : L.fmt.mag n < 8 * L.fmt.mag (L.fmt.abs y) := by rw [e3]; exact Nat.mod_lt _ (by omega)
  unfold remquoG
  simp only
  rw [e1, Option.bind_some, ← e3]
  -- first step
  have s4 := reduce g e2 hy h4 h4m (by rw [show 2 ^ 2 = 4 by rfl]; omega)
  rw [show 2 ^ 2 = 4 by rfl] at s4
  have k4 : ∃ n4 q4, (if L.fmt.le (L.fmt.mul L.four (L.fmt.abs y)) n then (L.fmt.sub n (L.fmt.mul L.four (L.fmt.abs y)), 4) else (n, 0)) = (n4, q4) ∧
      n4 < L.fmt.inf ∧ L.fmt.mag n = L.fmt.mag n4 + q4 * L.fmt.mag (L.fmt.abs y) ∧ L.fmt.mag n4 < 4 * L.fmt.mag (L.fmt.abs y) ∧ (q4 = 0 ∨ q4 = 4) := by
    by_cases hc : L.fmt.le (L.fmt.mul L.four (L.fmt.abs y)) n = true
    · obtain ⟨a, b, c⟩ := s4.1 hc
      rw [if_pos hc]
      exact ⟨_, _, rfl, b, by omega, by omega, .inr rfl⟩
    · have := s4.2 (by simpa using hc)
      rw [if_neg hc]
      exact ⟨_, _, rfl, e2, by omega, this, .inl rfl⟩
  obtain ⟨n4, q4, f1, f2, f3, f4, f5⟩ := k4
  rw [f1]
  simp only
  have s2 := reduce g f2 hy h2 h2m (by rw [Nat.pow_one]; omega)
  rw [Nat.pow_one] at s2
  have k2 : ∃ n2 q2, (if L.fmt.le (L.fmt.mul L.two (L.fmt.abs y)) n4 then (L.fmt.sub n4 (L.fmt.mul L.two (L.fmt.abs y)), q4 ||| 2) else (n4, q4)) = (n2, q2) ∧
      n2 < L.fmt.inf ∧ L.fmt.mag n = L.fmt.mag n2 + q2 * L.fmt.mag (L.fmt.abs y) ∧ L.fmt.mag n2 < 2 * L.fmt.mag (L.fmt.abs y) ∧ q2 % 2 = 0 ∧ q2 ≤ 6 := by
    by_cases hc : L.fmt.le (L.fmt.mul L.two (L.fmt.abs y)) n4 = true
    · obtain ⟨a, b, c⟩ := s2.1 hc
      rw [if_pos hc]
      have e : q4 ||| 2 = q4 + 2 := by rcases f5 with rfl | rfl <;> rfl
      rw [e]
      refine ⟨_, _, rfl, b, ?_, by omega, by omega, by omega⟩
      rw [Nat.add_mul]; omega
    · have := s2.2 (by simpa using hc)
      rw [if_neg hc]
      exact ⟨_, _, rfl, f2, by omega, by omega, by omega, by omega⟩
  obtain ⟨n2, q2, g1, g2, g3, g4, g5, g6⟩ := k2
  rw [g1]
  simp only
  have hs := settle_settled g g2 hy hy0 g4
  refine ⟨n2, q2, settle L n2 (L.fmt.abs y), ?_, g3, g5, g6, hs⟩
  rw [Fmt.xor_sign hs.pat]

end Verif.Math
