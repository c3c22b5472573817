import Verif.Find.Word
import Verif.Find.Model

/-!
# `split_` finds the maximal suffix and its period
-/

namespace Verif.Find

/-- The state of the loop: the candidate starts at `s`, `e` is a multiple of the period `p`, the letters up to
`s + e + k - 1` have been compared. -/
structure Inv (lt : Nat → Nat → Prop) (x : Nat → Nat) (n s e k p : Nat) : Prop where
  dvd : e % p = 0
  ep : p ≤ e
  hk : 1 ≤ k
  kp : k ≤ p
  hm : s + e + k ≤ n + 1
  best : ∀ t, t < s → Differs lt x n t s
  per : ∀ t, s ≤ t → t + p + 1 < s + e + k → x t = x (t + p)
  lyn : ∀ r, 0 < r → r < p → ∃ l, r + l < p ∧ (∀ i, i < l → x (s + r + i) = x (s + i)) ∧ lt (x (s + r + l)) (x (s + l))

theorem Inv.permod {lt : Nat → Nat → Prop} {x : Nat → Nat} {n s e k p : Nat} (h : Inv lt x n s e k p) (d : Nat)
    (hd : s + d + 1 < s + e + k) : x (s + d) = x (s + d % p) := by
  have := h.hk; have := h.kp
  induction d using Nat.strongRecOn with
  | ind d ih =>
    by_cases hdp : d < p
    · rw [Nat.mod_eq_of_lt hdp]
    · have h1 := h.per (s + (d - p)) (by omega) (by omega)
      rw [show s + (d - p) + p = s + d by omega] at h1
      rw [← h1, ih (d - p) (by omega) (by omega), Nat.mod_eq_sub_mod (a := d) (by omega)]

theorem mod_add_of (r i p : Nat) (h : r % p + i < p) : (r + i) % p = r % p + i := by
  have : r = p * (r / p) + r % p := by rw [Nat.div_add_mod]
  generalize r % p = ρ at *
  rw [this, Nat.add_assoc, Nat.mul_add_mod, Nat.mod_eq_of_lt h]

theorem mod_dvd_add (r i p : Nat) (h : r % p = 0) : (r + i) % p = i % p := by
  obtain ⟨q, rfl⟩ := Nat.dvd_of_mod_eq_zero h
  rw [Nat.mul_add_mod]

/-- Between consecutive multiples of `p`. -/
theorem mult_gap (a e p : Nat) (ha : a % p = 0) (he : e % p = 0) (h1 : e < a + p) (h2 : a < e + p) : a = e := by
  obtain ⟨q, rfl⟩ := Nat.dvd_of_mod_eq_zero ha
  obtain ⟨q', rfl⟩ := Nat.dvd_of_mod_eq_zero he
  have h3 : q' < q + 1 := Nat.lt_of_mul_lt_mul_left (a := p) (by rw [Nat.mul_add]; omega)
  have h4 : q < q' + 1 := Nat.lt_of_mul_lt_mul_left (a := p) (by rw [Nat.mul_add]; omega)
  rw [show q = q' by omega]

theorem sub_mod_dvd (r p : Nat) : (r - r % p) % p = 0 := by
  have : r - r % p = p * (r / p) := by have := Nat.div_add_mod r p; omega
  rw [this, Nat.mul_mod_right]

/-- The letter is smaller than expected: the whole word read becomes the period. -/
theorem Inv.less {lt : Nat → Nat → Prop} (hs : Strict lt) {x : Nat → Nat} {n s e k p : Nat} (h : Inv lt x n s e k p)
    (hn : s + e + k ≤ n) (hlt : lt (x (s + e + k - 1)) (x (s + k - 1))) : Inv lt x n s (e + k) 1 (e + k) := by
  have := h.hk; have := h.kp; have := h.ep
  refine ⟨Nat.mod_self _, Nat.le_refl _, Nat.le_refl _, by omega, by omega, h.best, fun t h1 h2 => by omega, ?_⟩
  intro r hr1 hr2
  by_cases hρ : r % p = 0
  · have hrp : p ≤ r := by
      rcases Nat.lt_or_ge r p with h' | h'
      · rw [Nat.mod_eq_of_lt h'] at hρ; omega
      · exact h'
    refine ⟨e + k - 1 - r, by omega, fun i hi => ?_, ?_⟩
    · rw [Nat.add_assoc, h.permod (r + i) (by omega), h.permod i (by omega), mod_dvd_add r i p hρ]
    · have h1 : (e + k - 1 - r) % p = k - 1 := by
        have := mod_dvd_add r (e + k - 1 - r) p hρ
        rw [← this, show r + (e + k - 1 - r) = e + (k - 1) by omega, mod_dvd_add e (k - 1) p h.dvd,
          Nat.mod_eq_of_lt (by omega)]
      rw [show s + r + (e + k - 1 - r) = s + e + k - 1 by omega, h.permod (e + k - 1 - r) (by omega), h1,
        show s + (k - 1) = s + k - 1 by omega]
      exact hlt
  · have hρp : r % p < p := Nat.mod_lt _ (by omega)
    have hρr : r % p ≤ r := Nat.mod_le _ _
    obtain ⟨l0, a1, a2, a3⟩ := h.lyn (r % p) (by omega) hρp
    have heq : ∀ i, i < l0 → r + i + 1 < e + k → x (s + r + i) = x (s + i) := by
      intro i hi hb
      rw [Nat.add_assoc, h.permod (r + i) (by omega), mod_add_of r i p (by omega), ← Nat.add_assoc, a2 i hi]
    by_cases hin : r + l0 + 1 < e + k
    · refine ⟨l0, by omega, fun i hi => heq i hi (by omega), ?_⟩
      rw [Nat.add_assoc, h.permod (r + l0) (by omega), mod_add_of r l0 p (by omega), ← Nat.add_assoc]
      exact a3
    · have hmul := sub_mod_dvd r p
      have hre : r - r % p = e := mult_gap _ _ _ hmul h.dvd (by omega) (by omega)
      refine ⟨e + k - 1 - r, by omega, fun i hi => heq i (by omega) (by omega), ?_⟩
      rw [show s + r + (e + k - 1 - r) = s + e + k - 1 by omega]
      by_cases hl : e + k - 1 - r < l0
      · have := a2 (e + k - 1 - r) hl
        rw [← this, show s + r % p + (e + k - 1 - r) = s + k - 1 by omega]
        exact hlt
      · rw [show e + k - 1 - r = l0 by omega]
        rw [show s + r % p + l0 = s + k - 1 by omega] at a3
        exact hs.trans _ _ _ hlt a3

/-- The letter is the expected one. -/
theorem Inv.same {lt : Nat → Nat → Prop} {x : Nat → Nat} {n s e k p : Nat} (h : Inv lt x n s e k p)
    (heq : x (s + e + k - 1) = x (s + k - 1)) (t : Nat) (h1 : s ≤ t) (h2 : t + p + 1 < s + e + k + 1) : x t = x (t + p) := by
  have := h.hk; have := h.kp; have := h.ep
  by_cases h3 : t + p + 1 < s + e + k
  · exact h.per t h1 h3
  · have h4 : (e + k - 1 - p) % p = k - 1 := by
      have := mod_dvd_add p (e + k - 1 - p) p (Nat.mod_self p)
      rw [← this, show p + (e + k - 1 - p) = e + (k - 1) by omega, mod_dvd_add e (k - 1) p h.dvd, Nat.mod_eq_of_lt (by omega)]
    rw [show t + p = s + e + k - 1 by omega, heq, show t = s + (e + k - 1 - p) by omega, h.permod _ (by omega), h4]
    congr 1; omega

theorem Inv.next {lt : Nat → Nat → Prop} {x : Nat → Nat} {n s e k p : Nat} (h : Inv lt x n s e k p)
    (hn : s + e + k ≤ n) (heq : x (s + e + k - 1) = x (s + k - 1)) (hkp : k ≠ p) : Inv lt x n s e (k + 1) p := by
  have := h.kp
  exact ⟨h.dvd, h.ep, by omega, by omega, by omega, h.best, fun t h1 h2 => h.same heq t h1 (by omega), h.lyn⟩

theorem Inv.wrap {lt : Nat → Nat → Prop} {x : Nat → Nat} {n s e p : Nat} (h : Inv lt x n s e p p)
    (hn : s + e + p ≤ n) (heq : x (s + e + p - 1) = x (s + p - 1)) : Inv lt x n s (e + p) 1 p := by
  have := h.hk
  refine ⟨?_, by omega, by omega, by omega, by omega, h.best, fun t h1 h2 => h.same heq t h1 (by omega), h.lyn⟩
  rw [Nat.add_mod_right]; exact h.dvd

/-- The letter is larger than expected: the candidate moves. -/
theorem Inv.more {lt : Nat → Nat → Prop} (hs : Strict lt) {x : Nat → Nat} {n s e k p : Nat} (h : Inv lt x n s e k p)
    (hn : s + e + k ≤ n) (hlt : lt (x (s + k - 1)) (x (s + e + k - 1))) : Inv lt x n (s + e) 1 1 1 := by
  have := h.hk; have := h.kp; have := h.ep
  refine ⟨rfl, by omega, by omega, by omega, by omega, ?_, fun t h1 h2 => by omega, fun r h1 h2 => by omega⟩
  have key : ∀ r, r < e → r % p = 0 → Differs lt x n (s + r) (s + e) := by
    intro r hr hρ
    have hrp : r + p ≤ e := by
      rcases Nat.lt_or_ge e (r + p) with h' | h'
      · have := mult_gap r e p hρ h.dvd h' (by omega); omega
      · exact h'
    refine ⟨k - 1, by omega, by omega, fun i hi => ?_, ?_⟩
    · rw [Nat.add_assoc, Nat.add_assoc, h.permod (r + i) (by omega), h.permod (e + i) (by omega), mod_dvd_add r i p hρ,
        mod_dvd_add e i p h.dvd]
    · rw [show s + e + (k - 1) = s + e + k - 1 by omega, Nat.add_assoc, h.permod (r + (k - 1)) (by omega),
        mod_dvd_add r (k - 1) p hρ, Nat.mod_eq_of_lt (by omega), show s + (k - 1) = s + k - 1 by omega]
      exact hlt
  have hse : Differs lt x n s (s + e) := key 0 (by omega) (Nat.zero_mod _)
  intro t ht
  by_cases hts : t < s
  · exact differs_trans hs (h.best t hts) hse
  · obtain ⟨r, rfl⟩ : ∃ r, t = s + r := ⟨t - s, by omega⟩
    by_cases hρ : r % p = 0
    · exact key r (by omega) hρ
    · have hρp : r % p < p := Nat.mod_lt _ (by omega)
      have hρr : r % p ≤ r := Nat.mod_le _ _
      obtain ⟨l0, a1, a2, a3⟩ := h.lyn (r % p) (by omega) hρp
      have hmul := sub_mod_dvd r p
      have hle : r - r % p + p ≤ e := by
        rcases Nat.lt_or_ge e (r - r % p + p) with h' | h'
        · have := mult_gap _ e p hmul h.dvd h' (by omega); omega
        · exact h'
      refine differs_trans hs ⟨l0, by omega, by omega, fun i hi => ?_, ?_⟩ hse
      · rw [Nat.add_assoc, h.permod (r + i) (by omega), mod_add_of r i p (by omega), ← Nat.add_assoc, a2 i hi]
      · rw [Nat.add_assoc, h.permod (r + l0) (by omega), mod_add_of r l0 p (by omega), ← Nat.add_assoc]
        exact a3

/-- What `split_` returns: the start of the maximal suffix and its least period. -/
structure MaxSuffix (lt : Nat → Nat → Prop) (x : Nat → Nat) (n s p : Nat) : Prop where
  lt_n : s < n
  maximal : Maximal lt x n s
  pos : 0 < p
  fits : s + p ≤ n
  per : ∀ t, s ≤ t → t + p < n → x t = x (t + p)
  least : ∀ r, 0 < r → r < p → ∃ t, s ≤ t ∧ t + r < n ∧ x t ≠ x (t + r)

theorem Inv.done {lt : Nat → Nat → Prop} (hs : Strict lt) {x : Nat → Nat} {n s e k p : Nat} (h : Inv lt x n s e k p)
    (hn : s + e + k = n + 1) : MaxSuffix lt x n s p := by
  have := h.hk; have := h.kp; have := h.ep
  refine ⟨by omega, ?_, by omega, by omega, fun t h1 h2 => h.per t h1 (by omega), fun r h1 h2 => ?_⟩
  · intro t ht hne
    by_cases hts : t < s
    · exact .inl (h.best t hts)
    · obtain ⟨r, rfl⟩ : ∃ r, t = s + r := ⟨t - s, by omega⟩
      by_cases hρ : r % p = 0
      · refine .inr ⟨by omega, fun l hl => ?_⟩
        rw [Nat.add_assoc, h.permod (r + l) (by omega), h.permod l (by omega), mod_dvd_add r l p hρ]
      · have hρp : r % p < p := Nat.mod_lt _ (by omega)
        obtain ⟨l0, a1, a2, a3⟩ := h.lyn (r % p) (by omega) hρp
        have heq : ∀ i, i < l0 → s + r + i < n → x (s + r + i) = x (s + i) := by
          intro i hi hb
          rw [Nat.add_assoc, h.permod (r + i) (by omega), mod_add_of r i p (by omega), ← Nat.add_assoc, a2 i hi]
        by_cases hin : s + r + l0 < n
        · refine .inl ⟨l0, hin, by omega, fun i hi => heq i hi (by omega), ?_⟩
          rw [Nat.add_assoc, h.permod (r + l0) (by omega), mod_add_of r l0 p (by omega), ← Nat.add_assoc]
          exact a3
        · exact .inr ⟨by omega, fun l hl => heq l (by omega) hl⟩
  · obtain ⟨l, a1, a2, a3⟩ := h.lyn r h1 h2
    refine ⟨s + l, by omega, by omega, fun heq => ?_⟩
    rw [heq, show s + l + r = s + r + l by omega] at a3
    exact hs.irrefl _ a3

/-- The letters of a list. -/
def letter (xs : List Nat) (i : Nat) : Nat := xs.getD i 0

theorem letter_get (xs : List Nat) (i : Nat) (h : i < xs.length) : xs[i]? = some (letter xs i) := by
  unfold letter; rw [List.getD_eq_getElem?_getD, List.getElem?_eq_getElem h]; rfl

theorem splitLoop_spec {lt : Nat → Nat → Prop} (hs : Strict lt) (comp : Nat → Nat → Bool) (hcomp : ∀ a b, comp a b = true ↔ lt a b)
    (xs : List Nat) (hW : xs.length + 1 < W) (fuel s e k p i j : Nat) (h : Inv lt (letter xs) xs.length s e k p)
    (hi : i = usub s 1) (hj : j = s + e - 1)
    (hf : (xs.length + 1 - s) * (xs.length + 2) + (xs.length + 1 - (s + e + k - 1)) < fuel) :
    ∃ s' p', splitLoop comp xs fuel i j k p = some (usub s' 1, p') ∧ MaxSuffix lt (letter xs) xs.length s' p' := by
  induction fuel generalizing s e k p i j with
  | zero => omega
  | succ fuel ih =>
    have := h.hk; have := h.kp; have := h.ep; have := h.hm
    rw [splitLoop.eq_2]
    rw [hi, hj]
    clear hi hj
    unfold usub W at *
    rw [Nat.mod_eq_of_lt (a := s + e - 1 + k) (by omega)]
    have hik : ((s + (4294967296 - 1)) % 4294967296 + k) % 4294967296 = s + k - 1 := by omega
    rw [hik]
    by_cases hlt : s + e - 1 + k < xs.length
    · rw [if_pos hlt]
      rw [letter_get xs _ hlt, letter_get xs (s + k - 1) (by omega)]
      simp only [Option.bind_eq_bind, Option.bind_some]
      have e1 : s + e - 1 + k = s + e + k - 1 := by omega
      rw [e1]
      by_cases h1 : lt (letter xs (s + e + k - 1)) (letter xs (s + k - 1))
      · rw [if_pos ((hcomp _ _).mpr h1)]
        have hp' : (s + e + k - 1 + (4294967296 - (s + (4294967296 - 1)) % 4294967296)) % 4294967296 = e + k := by omega
        rw [hp']
        exact ih s (e + k) 1 (e + k) _ _ (h.less hs (by omega) h1) rfl (by omega) (by omega)
      · rw [if_neg (fun hc => h1 ((hcomp _ _).mp hc))]
        by_cases h2 : letter xs (s + e + k - 1) = letter xs (s + k - 1)
        · rw [if_pos h2]
          by_cases h3 : k = p
          · subst h3
            rw [if_pos rfl, Nat.mod_eq_of_lt (a := s + e - 1 + k) (by omega)]
            exact ih s (e + k) 1 k _ _ (h.wrap (by omega) h2) rfl (by omega) (by omega)
          · rw [if_neg h3, Nat.mod_eq_of_lt (a := k + 1) (by omega)]
            exact ih s e (k + 1) p _ _ (h.next (by omega) h2 h3) rfl rfl (by omega)
        · rw [if_neg h2]
          have h3 : lt (letter xs (s + k - 1)) (letter xs (s + e + k - 1)) := by
            rcases hs.total (letter xs (s + e + k - 1)) (letter xs (s + k - 1)) with h' | h' | h'
            · exact absurd h' h1
            · exact absurd h' h2
            · exact h'
          rw [Nat.mod_eq_of_lt (a := s + e - 1 + 1) (by omega)]
          refine ih (s + e) 1 1 1 _ _ (h.more hs (by omega) h3) (by omega) (by omega) ?_
          have : (xs.length + 1 - (s + e) + 1) * (xs.length + 2) ≤ (xs.length + 1 - s) * (xs.length + 2) :=
            Nat.mul_le_mul_right _ (by omega)
          rw [Nat.add_mul, Nat.one_mul] at this
          omega
    · rw [if_neg hlt]
      exact ⟨s, p, rfl, h.done hs (by omega)⟩

theorem split_spec {lt : Nat → Nat → Prop} (hs : Strict lt) (comp : Nat → Nat → Bool) (hcomp : ∀ a b, comp a b = true ↔ lt a b)
    (xs : List Nat) (hW : xs.length + 1 < W) (hne : 0 < xs.length) :
    ∃ s p, split comp xs = some (usub s 1, p) ∧ MaxSuffix lt (letter xs) xs.length s p := by
  refine splitLoop_spec hs comp hcomp xs hW _ 0 1 1 1 _ _ ?_ (by decide) rfl ?_
  · exact ⟨rfl, by omega, by omega, by omega, by omega, fun t ht => by omega, fun t h1 h2 => by omega, fun r h1 h2 => by omega⟩
  · have : (xs.length + 2) * (xs.length + 2) = (xs.length + 1) * (xs.length + 2) + (xs.length + 2) := by
      rw [show (xs.length + 2) * (xs.length + 2) = (xs.length + 1 + 1) * (xs.length + 2) by rfl, Nat.add_mul, Nat.one_mul]
    rw [this, Nat.sub_zero]
    omega

theorem split_nil (comp : Nat → Nat → Bool) : split comp [] = some (W - 1, 1) := rfl

end Verif.Find
