import Verif.Find.Split
import Verif.Find.Spec

/-!
# The search loops
-/

namespace Verif.Find

theorem occurs_iff (y x : List Nat) (j : Nat) :
    OccursAt y x j ↔ j + x.length ≤ y.length ∧ ∀ t, t < x.length → letter x t = letter y (j + t) := by
  unfold OccursAt
  refine and_congr_right fun h => forall_congr' fun t => forall_congr' fun ht => ?_
  rw [letter_get x t ht, letter_get y (j + t) (by omega)]
  simp only [Option.some.injEq]
  exact eq_comm

theorem matchUp_spec (x y : List Nat) (j : Nat) (hj : j + x.length ≤ y.length) (i0 : Nat) (h0 : i0 ≤ x.length) :
    ∃ i, matchUp x y j i0 = some i ∧ i0 ≤ i ∧ i ≤ x.length ∧ (∀ t, i0 ≤ t → t < i → letter x t = letter y (j + t)) ∧
      (i < x.length → letter x i ≠ letter y (j + i)) := by
  generalize hd : x.length - i0 = d
  induction d generalizing i0 with
  | zero =>
    unfold matchUp
    rw [if_neg (by omega)]
    exact ⟨i0, rfl, by omega, h0, fun t h1 h2 => by omega, fun h => by omega⟩
  | succ d ih =>
    unfold matchUp
    rw [if_pos (by omega), letter_get x i0 (by omega), letter_get y (i0 + j) (by omega)]
    simp only [Option.bind_eq_bind, Option.bind_some]
    by_cases he : letter x i0 = letter y (i0 + j)
    · rw [if_pos he]
      obtain ⟨i, e, h1, h2, h3, h4⟩ := ih (i0 + 1) (by omega) (by omega)
      refine ⟨i, e, by omega, h2, fun t ht1 ht2 => ?_, h4⟩
      by_cases h : t = i0
      · subst h; rw [he, Nat.add_comm]
      · exact h3 t (by omega) ht2
    · rw [if_neg he]
      exact ⟨i0, rfl, by omega, h0, fun t h1 h2 => by omega, fun _ h => he (by rw [h, Nat.add_comm])⟩

theorem matchDown_spec (x y : List Nat) (j : Nat) (hj : j + x.length ≤ y.length) (mem d : Nat) (hd : d ≤ x.length) :
    ∃ i, matchDown x y j mem d = some i ∧ i ≤ d ∧ (∀ t, i ≤ t → t < d → letter x t = letter y (j + t)) ∧
      (mem < i → ∃ t, t < x.length ∧ letter x t ≠ letter y (j + t)) := by
  induction d with
  | zero => exact ⟨0, rfl, by omega, fun t h1 h2 => by omega, fun h => by omega⟩
  | succ d ih =>
    unfold matchDown
    by_cases hm : d ≥ mem
    · rw [if_pos hm, letter_get x d (by omega), letter_get y (d + j) (by omega)]
      simp only [Option.bind_eq_bind, Option.bind_some]
      by_cases he : letter x d = letter y (d + j)
      · rw [if_pos he]
        obtain ⟨i, e, h1, h2, h3⟩ := ih (by omega)
        refine ⟨i, e, by omega, fun t ht1 ht2 => ?_, h3⟩
        by_cases h : t = d
        · subst h; rw [he, Nat.add_comm]
        · exact h2 t ht1 (by omega)
      · rw [if_neg he]
        exact ⟨d + 1, rfl, by omega, fun t h1 h2 => by omega, fun _ => ⟨d, by omega, fun h => he (by rw [h, Nat.add_comm])⟩⟩
    · rw [if_neg hm]
      exact ⟨d + 1, rfl, by omega, fun t h1 h2 => by omega, fun h => by omega⟩

/-- `s` is critical and no period of the word is below `p`. -/
structure Crit (x : Nat → Nat) (n s p : Nat) : Prop where
  loc : ∀ r, 0 < r → LocalPeriod x n s r → Period x n r
  least : ∀ r, 0 < r → r < p → ¬ Period x n r

theorem skip_mismatch (x y : List Nat) (s p j i : Nat) (hc : Crit (letter x) x.length s p) (hi : i < x.length)
    (hm : ∀ t, s ≤ t → t < i → letter x t = letter y (j + t)) (hne : letter x i ≠ letter y (j + i)) (q : Nat) (hq1 : 0 < q)
    (hq2 : s + q ≤ i) : ¬ OccursAt y x (j + q) := by
  intro ho
  rw [occurs_iff] at ho
  have hloc : LocalPeriod (letter x) x.length s q := by
    intro t h1 h2 h3
    rw [hm (t + q) h2 (by omega), ho.2 t (by omega)]
    congr 1; omega
  have := hc.loc q hq1 hloc (i - q) (by omega)
  rw [Nat.sub_add_cancel (by omega), ho.2 (i - q) (by omega)] at this
  exact hne (by rw [← this]; congr 1; omega)

theorem skip_period (x y : List Nat) (s p j : Nat) (hc : Crit (letter x) x.length s p)
    (hm : ∀ t, s ≤ t → t < x.length → letter x t = letter y (j + t)) (q : Nat) (hq1 : 0 < q) (hq2 : q < p) : ¬ OccursAt y x (j + q) := by
  intro ho
  rw [occurs_iff] at ho
  refine hc.least q hq1 hq2 (hc.loc q hq1 fun t h1 h2 h3 => ?_)
  rw [hm (t + q) h2 h3, ho.2 t (by omega)]
  congr 1; omega

theorem index_succ (s : Nat) (h : s < W) : (usub s 1 + 1) % W = s := by unfold usub W at *; omega

theorem index_sub (s i : Nat) (h : s ≤ i) (hi : i + 1 < W) : usub i (usub s 1) = i - s + 1 := by unfold usub W at *; omega

theorem index_le (a b : Nat) (ha : a < W) (hb : b < W) (h : a ≠ 0 ↔ b ≠ 0) (hc : usub a 1 ≥ usub b 1) : b ≤ a := by
  unfold usub W at *; omega

theorem index_zero (a b : Nat) (ha : a < W) (h : ¬ (a ≠ 0 ↔ b ≠ 0)) (hc : usub a 1 ≥ usub b 1) :
    a = 0 := by
  unfold usub W at *; omega

/-- What a search returns. -/
def Good (x y : List Nat) (c : Prop) (r : Option Nat) : Prop := (∀ j, r = some j → OccursAt y x j) ∧ (c → First y x r)

theorem nonperiodic_spec (x y : List Nat) (s p : Nat) (hxy : x.length ≤ y.length) (hW : y.length + 1 < W) (hs : s ≤ x.length)
    (hp : 0 < p) (hpn : p ≤ x.length) (fuel j : Nat) (hf : 1 ≤ fuel ∧ y.length - x.length + 1 < fuel + j)
    (hno : Crit (letter x) x.length s p → ∀ i, i < j → ¬ OccursAt y x i) :
    ∃ r, nonperiodic x y (y.length - x.length) (usub s 1) p fuel j = some r ∧ Good x y (Crit (letter x) x.length s p) r := by
  induction fuel generalizing j with
  | zero => exact absurd hf.1 (by omega)
  | succ fuel ih =>
    rw [nonperiodic.eq_2]
    by_cases hj : j ≤ y.length - x.length
    · rw [if_pos hj, index_succ s (by omega)]
      obtain ⟨i, e, h1, h2, h3, h4⟩ := matchUp_spec x y j (by omega) s hs
      rw [e]
      simp only [Option.bind_eq_bind, Option.bind_some]
      by_cases hi : i < x.length
      · rw [if_pos hi, index_sub s i h1 (by omega), Nat.mod_eq_of_lt (a := j + (i - s + 1)) (by omega)]
        refine ih _ (by omega) fun hc t ht => ?_
        by_cases htj : t < j
        · exact hno hc t htj
        · by_cases ht2 : t = j
          · subst ht2
            intro ho
            exact h4 hi (((occurs_iff y x t).mp ho).2 i hi)
          · have := skip_mismatch x y s p j i hc hi h3 (h4 hi) (t - j) (by omega) (by omega)
            rwa [Nat.add_sub_cancel' (by omega)] at this
      · rw [if_neg hi]
        obtain rfl : i = x.length := by omega
        obtain ⟨d, e, d1, d2, d3⟩ := matchDown_spec x y j (by omega) 0 s hs
        rw [e]
        simp only [Option.bind_some]
        by_cases hd : d = 0
        · rw [if_pos hd]
          have ho : OccursAt y x j := by
            rw [occurs_iff]
            refine ⟨by omega, fun t ht => ?_⟩
            by_cases hts : t < s
            · exact d2 t (by omega) hts
            · exact h3 t (by omega) ht
          exact ⟨some j, rfl, fun j' h => by injection h with h; exact h ▸ ho, fun hc => ⟨ho, hno hc⟩⟩
        · rw [if_neg hd, Nat.mod_eq_of_lt (a := j + p) (by omega)]
          refine ih _ (by omega) fun hc t ht => ?_
          by_cases htj : t < j
          · exact hno hc t htj
          · by_cases ht2 : t = j
            · subst ht2
              intro ho
              obtain ⟨u, hu1, hu2⟩ := d3 (by omega)
              exact hu2 (((occurs_iff y x t).mp ho).2 u hu1)
            · have := skip_period x y s p j hc h3 (t - j) (by omega) (by omega)
              rwa [Nat.add_sub_cancel' (by omega)] at this
    · rw [if_neg hj]
      refine ⟨none, rfl, by simp, fun hc i ho => ?_⟩
      have := ho.1
      exact hno hc i (by omega) ho

theorem periodic_spec (x y : List Nat) (s p : Nat) (hxy : x.length ≤ y.length) (hW : y.length + 1 < W) (hs : s ≤ x.length)
    (hp : 0 < p) (hpn : p ≤ x.length) (hper : Period (letter x) x.length p) (hsp : s ≤ p) (fuel j mem : Nat)
    (hf : 1 ≤ fuel ∧ y.length - x.length + 1 < fuel + j) (hmem : mem ≤ x.length) (hmm : ∀ t, t < mem → letter x t = letter y (j + t))
    (hno : Crit (letter x) x.length s p → ∀ i, i < j → ¬ OccursAt y x i) :
    ∃ r, periodic x y (y.length - x.length) (usub s 1) p fuel j mem = some r ∧ Good x y (Crit (letter x) x.length s p) r := by
  induction fuel generalizing j mem with
  | zero => exact absurd hf.1 (by omega)
  | succ fuel ih =>
    rw [periodic.eq_2]
    by_cases hj : j ≤ y.length - x.length
    · rw [if_pos hj, index_succ s (by omega)]
      obtain ⟨i, e, h1, h2, h3, h4⟩ := matchUp_spec x y j (by omega) (max s mem) (by omega)
      rw [e]
      simp only [Option.bind_eq_bind, Option.bind_some]
      have hright : ∀ t, s ≤ t → t < i → letter x t = letter y (j + t) := by
        intro t ht1 ht2
        by_cases htm : t < mem
        · exact hmm t htm
        · exact h3 t (by omega) ht2
      by_cases hi : i < x.length
      · rw [if_pos hi, index_sub s i (by omega) (by omega), Nat.mod_eq_of_lt (a := j + (i - s + 1)) (by omega)]
        refine ih _ 0 (by omega) (by omega) (fun t ht => by omega) fun hc t ht => ?_
        by_cases htj : t < j
        · exact hno hc t htj
        · by_cases ht2 : t = j
          · subst ht2
            intro ho
            exact h4 hi (((occurs_iff y x t).mp ho).2 i hi)
          · have := skip_mismatch x y s p j i hc hi hright (h4 hi) (t - j) (by omega) (by omega)
            rwa [Nat.add_sub_cancel' (by omega)] at this
      · rw [if_neg hi]
        obtain rfl : i = x.length := by omega
        obtain ⟨d, e, d1, d2, d3⟩ := matchDown_spec x y j (by omega) mem s hs
        rw [e]
        simp only [Option.bind_some]
        by_cases hd : d < mem + 1
        · rw [if_pos hd]
          have ho : OccursAt y x j := by
            rw [occurs_iff]
            refine ⟨by omega, fun t ht => ?_⟩
            by_cases htm : t < mem
            · exact hmm t htm
            · by_cases hts : t < s
              · exact d2 t (by omega) hts
              · exact h3 t (by omega) ht
          exact ⟨some j, rfl, fun j' h => by injection h with h; exact h ▸ ho, fun hc => ⟨ho, hno hc⟩⟩
        · rw [if_neg hd, Nat.mod_eq_of_lt (a := j + p) (by omega)]
          refine ih _ _ (by omega) (by omega) (fun t ht => ?_) fun hc t ht => ?_
          · rw [hper t (by omega), hright (t + p) (by omega) (by omega)]
            congr 1; omega
          · by_cases htj : t < j
            · exact hno hc t htj
            · by_cases ht2 : t = j
              · subst ht2
                intro ho
                obtain ⟨u, hu1, hu2⟩ := d3 (by omega)
                exact hu2 (((occurs_iff y x t).mp ho).2 u hu1)
              · have := skip_period x y s p j hc hright (t - j) (by omega) (by omega)
                rwa [Nat.add_sub_cancel' (by omega)] at this
    · rw [if_neg hj]
      refine ⟨none, rfl, by simp, fun hc i ho => ?_⟩
      have := ho.1
      exact hno hc i (by omega) ho

theorem repeats_spec (x : List Nat) (p k i : Nat) (h : i + k + p ≤ x.length) :
    ∃ b, repeats x p k i = some b ∧ (b = true → ∀ t, i ≤ t → t < i + k → letter x t = letter x (t + p)) := by
  induction k generalizing i with
  | zero => exact ⟨true, rfl, fun _ t h1 h2 => by omega⟩
  | succ k ih =>
    unfold repeats
    rw [letter_get x i (by omega), letter_get x (i + p) (by omega)]
    simp only [Option.bind_eq_bind, Option.bind_some]
    by_cases he : letter x i = letter x (i + p)
    · rw [if_pos he]
      obtain ⟨b, e, hb⟩ := ih (i + 1) (by omega)
      refine ⟨b, e, fun h1 t ht1 ht2 => ?_⟩
      by_cases h : t = i
      · subst h; exact he
      · exact hb h1 t (by omega) (by omega)
    · rw [if_neg he]
      exact ⟨false, rfl, by simp⟩

theorem search_spec (x y : List Nat) (s p index : Nat) (hix : index = usub s 1) (hxy : x.length ≤ y.length) (hW : y.length + 1 < W)
    (hp : 0 < p) (hfit : s + p ≤ x.length) (hper : ∀ t, s ≤ t → t + p < x.length → letter x t = letter x (t + p))
    (hsp : Period (letter x) x.length p → s ≤ p) :
    ∃ r, search x y (y.length - x.length) index p = some r ∧ Good x y (Crit (letter x) x.length s p) r := by
  unfold search
  have h1 : (index + 1) % W = s := by rw [hix]; exact index_succ s (by omega)
  rw [h1]
  obtain ⟨b, e, hb⟩ := repeats_spec x p s 0 (by omega)
  generalize hfu : y.length - x.length + 2 = fuel
  rw [e]
  cases b with
  | true =>
    simp only
    rw [hix]
    have hP : Period (letter x) x.length p := by
      intro t ht
      by_cases hts : t < s
      · exact hb rfl t (by omega) (by omega)
      · exact hper t (by omega) ht
    exact periodic_spec x y s p hxy hW (by omega) hp (by omega) hP (hsp hP) _ 0 0 (by omega) (by omega) (fun t ht => by omega)
      (fun _ i hi => by omega)
  | false =>
    simp only
    rw [hix]
    exact nonperiodic_spec x y s p hxy hW (by omega) hp (by omega) _ 0 (by omega) (fun _ i hi => by omega)

theorem hasLarger_iff (x : List Nat) (s p : Nat) (h : MaxSuffix (· < ·) (letter x) x.length s p) : HasLarger x ↔ s ≠ 0 := by
  have hl : ∀ (i : Nat) (hi : i < x.length), x[i] = letter x i := by
    intro i hi
    have := letter_get x i hi
    rw [List.getElem?_eq_getElem hi] at this
    exact Option.some.inj this
  constructor
  · rintro ⟨t, l, h1, h2, h3⟩ rfl
    have hd : Differs (· < ·) (letter x) x.length 0 t := by
      refine ⟨l, by omega, by omega, fun i hi => ?_, ?_⟩
      · have := h2 i hi
        rw [hl, hl] at this
        rw [this]; congr 1; omega
      · rw [hl, hl] at h3
        rw [Nat.zero_add]; exact h3
    by_cases ht : t = 0
    · subst ht; exact differs_asymm strict_lt hd hd
    · rcases h.maximal t (by omega) ht with h4 | h4
      · exact differs_asymm strict_lt hd h4
      · obtain ⟨l', a1, a2, a3, a4⟩ := hd
        have := h4.2 l' a2
        omega
  · intro hs
    have := h.lt_n
    rcases h.maximal 0 (by omega) (by omega) with h4 | h4
    · obtain ⟨l, a1, a2, a3, a4⟩ := h4
      refine ⟨s, l, a2, fun i hi => ?_, ?_⟩
      · rw [hl, hl, ← a3 i hi]; congr 1; omega
      · rw [hl, hl]; rw [Nat.zero_add] at a4; exact a4
    · exact absurd h4.1 (by omega)

theorem hasSmaller_iff (x : List Nat) (s p : Nat) (h : MaxSuffix (· > ·) (letter x) x.length s p) : HasSmaller x ↔ s ≠ 0 := by
  have hl : ∀ (i : Nat) (hi : i < x.length), x[i] = letter x i := by
    intro i hi
    have := letter_get x i hi
    rw [List.getElem?_eq_getElem hi] at this
    exact Option.some.inj this
  constructor
  · rintro ⟨t, l, h1, h2, h3⟩ rfl
    have hd : Differs (· > ·) (letter x) x.length 0 t := by
      refine ⟨l, by omega, by omega, fun i hi => ?_, ?_⟩
      · have := h2 i hi
        rw [hl, hl] at this
        rw [this]; congr 1; omega
      · rw [hl, hl] at h3
        rw [Nat.zero_add]; exact h3
    by_cases ht : t = 0
    · subst ht; exact differs_asymm strict_gt hd hd
    · rcases h.maximal t (by omega) ht with h4 | h4
      · exact differs_asymm strict_gt hd h4
      · obtain ⟨l', a1, a2, a3, a4⟩ := hd
        have := h4.2 l' a2
        omega
  · intro hs
    have := h.lt_n
    rcases h.maximal 0 (by omega) (by omega) with h4 | h4
    · obtain ⟨l, a1, a2, a3, a4⟩ := h4
      refine ⟨s, l, a2, fun i hi => ?_, ?_⟩
      · rw [hl, hl, ← a3 i hi]; congr 1; omega
      · rw [hl, hl]; rw [Nat.zero_add] at a4; exact a4
    · exact absurd h4.1 (by omega)

theorem crit_of {x : Nat → Nat} {n s s' p p' : Nat} {lt gt : Nat → Nat → Prop} (hl : Strict lt) (hg : ∀ a b, gt a b ↔ lt b a)
    (h : MaxSuffix lt x n s p) (h' : MaxSuffix gt x n s' p') (hle : s' ≤ s) : Crit x n s p := by
  refine ⟨fun r hr hloc => critical hl hg h.maximal h'.maximal hle h.lt_n hr hloc, fun r h1 h2 hper => ?_⟩
  obtain ⟨t, a1, a2, a3⟩ := h.least r h1 h2
  exact a3 (hper t a2)

theorem period_long {x : Nat → Nat} {n s p : Nat} {lt : Nat → Nat → Prop} (hl : Strict lt)
    (h : MaxSuffix lt x n s p) (hper : Period x n p) : s ≤ p :=
  Nat.le_of_lt (local_long hl h.maximal h.lt_n h.pos fun t _ _ h3 => hper t h3)

/-- The index chosen, in all cases. -/
theorem factorize_spec (x : List Nat) (hW : x.length + 1 < W) (hne : 0 < x.length) :
    ∃ s p, factorize x = some (usub s 1, p) ∧ 0 < p ∧ s + p ≤ x.length ∧
      (∀ t, s ≤ t → t + p < x.length → letter x t = letter x (t + p)) ∧
      (Period (letter x) x.length p → s ≤ p) ∧
      ((HasLarger x ↔ HasSmaller x) → Crit (letter x) x.length s p) ∧
      (¬ (HasLarger x ↔ HasSmaller x) → s = 0) := by
  obtain ⟨s1, p1, e1, m1⟩ := split_spec strict_lt ltB (fun a b => by simp [ltB]) x hW hne
  obtain ⟨s2, p2, e2, m2⟩ := split_spec strict_gt gtB (fun a b => by simp [gtB]) x hW hne
  have hL := hasLarger_iff x s1 p1 m1
  have hS := hasSmaller_iff x s2 p2 m2
  have l1 := m1.lt_n
  have l2 := m2.lt_n
  unfold factorize
  rw [e1, e2]
  simp only
  by_cases hc : usub s1 1 ≥ usub s2 1
  · rw [if_pos hc]
    refine ⟨s1, p1, rfl, m1.pos, m1.fits, m1.per, period_long strict_lt m1, fun hb => ?_, fun hb => ?_⟩
    · rw [hL, hS] at hb
      exact crit_of strict_lt (fun a b => Iff.rfl) m1 m2 (index_le s1 s2 (by omega) (by omega) hb hc)
    · rw [hL, hS] at hb
      exact index_zero s1 s2 (by omega) hb hc
  · rw [if_neg hc]
    refine ⟨s2, p2, rfl, m2.pos, m2.fits, m2.per, period_long strict_gt m2, fun hb => ?_, fun hb => ?_⟩
    · rw [hL, hS] at hb
      exact crit_of strict_gt (fun a b => Iff.rfl) m2 m1 (index_le s2 s1 (by omega) (by omega) (by omega) (by omega))
    · rw [hL, hS] at hb
      exact index_zero s2 s1 (by omega) (by omega) (by omega)

theorem memmem_spec (y x : List Nat) (hW : y.length + 1 < W) :
    ∃ r, memmem y x = some r ∧ Good x y (HasLarger x ↔ HasSmaller x) r := by
  unfold memmem
  by_cases hlen : y.length < x.length
  · rw [if_pos hlen]
    exact ⟨none, rfl, by simp, fun _ i ho => by have := ho.1; omega⟩
  · rw [if_neg hlen]
    by_cases h0 : x = []
    · subst h0
      have ho : OccursAt y [] 0 := ⟨by simp, fun t ht => by simp at ht⟩
      refine ⟨some 0, ?_, fun j h => by injection h with h; exact h ▸ ho, fun _ => ⟨ho, fun i hi => by omega⟩⟩
      have : factorize [] = some (W - 1, 1) := rfl
      rw [this]
      simp only
      unfold search
      have h1 : (W - 1 + 1) % W = 0 := rfl
      rw [h1]
      simp only [repeats]
      rw [periodic.eq_2, if_pos (by omega)]
      have h2 : matchUp [] y 0 (max ((W - 1 + 1) % W) 0) = some 0 := by rw [h1]; unfold matchUp; rfl
      rw [h2]
      simp only [Option.bind_eq_bind, Option.bind_some, h1, matchDown]
      rfl
    · obtain ⟨s, p, e, h1, h2, h3, h4, h5, h6⟩ := factorize_spec x (by omega) (List.length_pos_iff.mpr h0)
      rw [e]
      simp only
      obtain ⟨r, e', g1, g2⟩ := search_spec x y s p _ rfl (by omega) hW h1 h2 h3 h4
      exact ⟨r, e', g1, fun hb => g2 (h5 hb)⟩

/-- The needle for which a haystack defeats the search. -/
theorem memmem_fails (x : List Nat) (hW : x.length + x.length + 1 < W) (hb : ¬ (HasLarger x ↔ HasSmaller x)) :
    ∃ y j, y.length < x.length + x.length ∧ OccursAt y x j ∧ memmem y x = some none := by
  have hpos : 0 < x.length := by
    rcases Nat.eq_zero_or_pos x.length with h | h
    · exfalso
      apply hb
      constructor <;> (rintro ⟨t, l, h', _⟩; omega)
    · exact h
  obtain ⟨s, p, e, h1, h2, h3, h4, h5, h6⟩ := factorize_spec x (by omega) hpos
  have hs : s = 0 := h6 hb
  subst hs
  have hex : ∃ i, i < x.length ∧ letter x i ≠ letter x 0 := by
    apply Classical.byContradiction
    intro hno
    have hall : ∀ i, i < x.length → letter x i = letter x 0 := fun i hi =>
      Classical.byContradiction fun h => hno ⟨i, hi, h⟩
    have hl : ∀ (i : Nat) (hi : i < x.length), x[i] = letter x 0 := by
      intro i hi
      have := letter_get x i hi
      rw [List.getElem?_eq_getElem hi, hall i hi] at this
      exact Option.some.inj this
    apply hb
    constructor
    · rintro ⟨t, l, h', _, h''⟩; rw [hl, hl] at h''; omega
    · rintro ⟨t, l, h', _, h''⟩; rw [hl, hl] at h''; omega
  -- the first such index
  have hmin : ∃ i, (i < x.length ∧ letter x i ≠ letter x 0) ∧ ∀ t, t < i → letter x t = letter x 0 := by
    obtain ⟨i, hi⟩ := hex
    induction i using Nat.strongRecOn with
    | ind i ih =>
      by_cases h : ∃ t, t < i ∧ letter x t ≠ letter x 0
      · obtain ⟨t, ht1, ht2⟩ := h
        exact ih t ht1 ⟨by omega, ht2⟩
      · exact ⟨i, hi, fun t ht => Classical.byContradiction fun h' => h ⟨t, ht, h'⟩⟩
  obtain ⟨i, ⟨hi, hine⟩, hmin⟩ := hmin
  have hylen : (x.take i ++ x).length = i + x.length := by rw [List.length_append, List.length_take]; omega
  have hyl : ∀ t, t < i → letter (x.take i ++ x) t = letter x t := by
    intro t ht
    unfold letter
    rw [List.getD_eq_getElem?_getD, List.getD_eq_getElem?_getD, List.getElem?_append_left (by rw [List.length_take]; omega),
      List.getElem?_take_of_lt ht]
  have hyr : ∀ t, letter (x.take i ++ x) (i + t) = letter x t := by
    intro t
    unfold letter
    rw [List.getD_eq_getElem?_getD, List.getD_eq_getElem?_getD, List.getElem?_append_right (by rw [List.length_take]; omega)]
    congr 2
    rw [List.length_take]; omega
  refine ⟨x.take i ++ x, i, by omega, ?_, ?_⟩
  · rw [occurs_iff]
    exact ⟨by omega, fun t _ => (hyr t).symm⟩
  · unfold memmem
    rw [if_neg (by omega)]
    rw [e]
    simp only
    unfold search
    rw [index_succ 0 (by decide)]
    simp only [repeats]
    have hex : (x.take i ++ x).length - x.length = i := by omega
    rw [hex, periodic.eq_2, if_pos (by omega), index_succ 0 (by decide)]
    obtain ⟨i', e', a1, a2, a3, a4⟩ := matchUp_spec x (x.take i ++ x) 0 (by omega) (max 0 0) (by omega)
    have hii : i' = i := by
      rcases Nat.lt_trichotomy i' i with h | h | h
      · exfalso
        apply a4 (by omega)
        rw [Nat.zero_add, hyl i' h]
      · exact h
      · exfalso
        have := a3 i (by omega) h
        rw [Nat.zero_add] at this
        have h0 := hyr 0
        rw [Nat.add_zero] at h0
        rw [h0] at this
        exact hine this
    rw [e', hii]
    simp only [Option.bind_eq_bind, Option.bind_some]
    rw [if_pos hi, index_sub 0 i (by omega) (by omega), Nat.mod_eq_of_lt (a := 0 + (i - 0 + 1)) (by omega), periodic.eq_2, if_neg (by omega)]

end Verif.Find
