import Verif.Base

/-!
# Maximal suffixes and critical positions

A word is a function `x` with a length `n`.
-/

namespace Verif.Find

/-- The suffix at `t` first differs from the one at `s` in a letter that is `lt`. -/
def Differs (lt : Nat → Nat → Prop) (x : Nat → Nat) (n t s : Nat) : Prop :=
  ∃ l, t + l < n ∧ s + l < n ∧ (∀ i, i < l → x (t + i) = x (s + i)) ∧ lt (x (t + l)) (x (s + l))

/-- The suffix at `t` is a prefix of the one at `s`. -/
def Prefixes (x : Nat → Nat) (n t s : Nat) : Prop := s < t ∧ ∀ l, t + l < n → x (t + l) = x (s + l)

/-- The suffix at `s` is the largest. -/
def Maximal (lt : Nat → Nat → Prop) (x : Nat → Nat) (n s : Nat) : Prop :=
  ∀ t, t < n → t ≠ s → Differs lt x n t s ∨ Prefixes x n t s

/-- A strict order without ties. -/
structure Strict (lt : Nat → Nat → Prop) : Prop where
  irrefl : ∀ a, ¬ lt a a
  trans : ∀ a b c, lt a b → lt b c → lt a c
  total : ∀ a b, lt a b ∨ a = b ∨ lt b a

theorem strict_lt : Strict (· < ·) := ⟨fun a h => by omega, fun a b c h1 h2 => by omega, fun a b => by omega⟩

theorem strict_gt : Strict (· > ·) := ⟨fun a h => by omega, fun a b c h1 h2 => by omega, fun a b => by omega⟩

theorem Strict.asymm {lt : Nat → Nat → Prop} (h : Strict lt) (a b : Nat) (h1 : lt a b) (h2 : lt b a) : False :=
  h.irrefl a (h.trans a b a h1 h2)

/-- `r` is a period of the word. -/
def Period (x : Nat → Nat) (n r : Nat) : Prop := ∀ t, t + r < n → x t = x (t + r)

/-- `r` is a period around the position `s`. -/
def LocalPeriod (x : Nat → Nat) (n s r : Nat) : Prop := ∀ t, t < s → s ≤ t + r → t + r < n → x t = x (t + r)

theorem differs_asymm {lt : Nat → Nat → Prop} (hs : Strict lt) {x : Nat → Nat} {n t s : Nat} (h1 : Differs lt x n t s)
    (h2 : Differs lt x n s t) : False := by
  obtain ⟨l, a1, a2, a3, a4⟩ := h1
  obtain ⟨l', b1, b2, b3, b4⟩ := h2
  rcases Nat.lt_trichotomy l l' with h | h | h
  · rw [b3 l h] at a4; exact hs.irrefl _ a4
  · subst h; exact hs.asymm _ _ a4 b4
  · rw [a3 l' h] at b4; exact hs.irrefl _ b4

theorem differs_trans {lt : Nat → Nat → Prop} (hs : Strict lt) {x : Nat → Nat} {n t s u : Nat} (h1 : Differs lt x n t s)
    (h2 : Differs lt x n s u) : Differs lt x n t u := by
  obtain ⟨l, a1, a2, a3, a4⟩ := h1
  obtain ⟨l', b1, b2, b3, b4⟩ := h2
  rcases Nat.lt_trichotomy l l' with h | h | h
  · refine ⟨l, a1, by omega, fun i hi => by rw [a3 i hi, b3 i (by omega)], ?_⟩
    rw [← b3 l h]; exact a4
  · subst h
    exact ⟨l, a1, b2, fun i hi => by rw [a3 i hi, b3 i hi], hs.trans _ _ _ a4 b4⟩
  · refine ⟨l', by omega, b2, fun i hi => by rw [a3 i (by omega), b3 i hi], ?_⟩
    rw [a3 l' h]; exact b4

/-- A local period at the maximal suffix reaches before the beginning of the word. -/
theorem local_long {lt : Nat → Nat → Prop} (hs : Strict lt) {x : Nat → Nat} {n s r : Nat} (hmax : Maximal lt x n s) (hsn : s < n)
    (hr : 0 < r) (hloc : LocalPeriod x n s r) : s < r := by
  rcases Nat.lt_or_ge s r with h | h
  · exact h
  exfalso
  rcases hmax (s - r) (by omega) (by omega) with hd | hp
  · obtain ⟨l, a1, a2, a3, a4⟩ := hd
    by_cases hl : l < r
    · have := hloc (s - r + l) (by omega) (by omega) (by omega)
      rw [show s - r + l + r = s + l by omega] at this
      rw [this] at a4
      exact hs.irrefl _ a4
    · have hd2 : Differs lt x n s (s + r) := by
        refine ⟨l - r, by omega, by omega, fun i hi => ?_, ?_⟩
        · have := a3 (i + r) (by omega)
          rw [show s - r + (i + r) = s + i by omega] at this
          rw [this]; congr 1; omega
        · rw [show s - r + l = s + (l - r) by omega, show s + l = s + r + (l - r) by omega] at a4
          exact a4
      rcases hmax (s + r) (by omega) (by omega) with h3 | h3
      · exact differs_asymm hs h3 hd2
      · obtain ⟨l', b1, b2, b3, b4⟩ := hd2
        rw [h3.2 l' b2] at b4
        exact hs.irrefl _ b4
  · exact absurd hp.1 (by omega)

/-- The critical factorization: a local period at the later of the two maximal suffixes is a period of the
word. -/
theorem critical {x : Nat → Nat} {n s s' : Nat} {lt gt : Nat → Nat → Prop} (hl : Strict lt) (hg : ∀ a b, gt a b ↔ lt b a)
    (hmax : Maximal lt x n s) (hmax' : Maximal gt x n s') (hle : s' ≤ s) (hsn : s < n) {r : Nat}
    (hr : 0 < r) (hloc : LocalPeriod x n s r) : Period x n r := by
  have hlong := local_long hl hmax hsn hr hloc
  by_cases hin : s + r < n
  · rcases hmax (s + r) hin (by omega) with hd | hp
    · exfalso
      obtain ⟨l, a1, a2, a3, a4⟩ := hd
      have hne : x (s + r + l) ≠ x (s + l) := fun e => by rw [e] at a4; exact hl.irrefl _ a4
      have e1 : s' + r + (s - s' + l) = s + r + l := by omega
      have e2 : s' + (s - s' + l) = s + l := by omega
      have heq : ∀ i, i < s - s' + l → x (s' + r + i) = x (s' + i) := by
        intro i hi
        by_cases h : i < s - s'
        · have := hloc (s' + i) (by omega) (by omega) (by omega)
          rw [this]; congr 1; omega
        · have := a3 (i - (s - s')) (by omega)
          rw [show s' + r + i = s + r + (i - (s - s')) by omega, this]; congr 1; omega
      rcases hmax' (s' + r) (by omega) (by omega) with hd' | hp'
      · obtain ⟨l', b1, b2, b3, b4⟩ := hd'
        rcases Nat.lt_trichotomy l' (s - s' + l) with h | h | h
        · rw [heq l' h, hg] at b4; exact hl.irrefl _ b4
        · subst h
          rw [e1, e2, hg] at b4
          exact hl.asymm _ _ a4 b4
        · have := b3 _ h
          rw [e1, e2] at this
          exact hne this
      · have := hp'.2 (s - s' + l) (by omega)
        rw [e1, e2] at this
        exact hne this
    · intro t ht
      by_cases hts : t < s
      · exact hloc t hts (by omega) ht
      · have := hp.2 (t - s) (by omega)
        rw [show s + r + (t - s) = t + r by omega, show s + (t - s) = t by omega] at this
        exact this.symm
  · intro t ht
    exact hloc t (by omega) (by omega) ht

end Verif.Find
