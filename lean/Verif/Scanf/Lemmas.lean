import Verif.Scanf.Spec
import Verif.Strtol.Props
import Verif.Ctype.Lemmas

/-!
# The scanner as a view of the text left
-/

namespace Verif.Scanf

open Verif.Strtol (White Blank Subject IsDigit denoted value digitVal)

/-- The scanner has the text `t` left, has read `n` characters and holds at most `k` of the text in
its push-back array. -/
structure At (s : Scanner) (t : List Int) (n k : Nat) : Prop where
  view : s.peek ++ s.input = t
  fin : s.eof = true → s.input = []
  pos : s.count = n % 4294967296
  room : s.peek.length ≤ k

/-- The character `c` has been read from the text `r`, which began at position `n`. -/
def Held (s : Scanner) (c : Int) (r : List Int) (n : Nat) : Prop :=
  (r = [] ∧ c = -1 ∧ At s [] n 0) ∨ (∃ r', r = c :: r' ∧ c ≠ -1 ∧ At s r' (n + 1) 0)

theorem At.mono {s t n k k'} (h : At s t n k) (hk : k ≤ k') : At s t n k' :=
  ⟨h.view, h.fin, h.pos, Nat.le_trans h.room hk⟩

theorem At.cast {s t n m k} (h : At s t n k) (e : n = m) : At s t m k := e ▸ h

theorem sgetc_at {s t n} (hb : Bytes t) (h : At s t n 1) : ∃ c s', sgetc s = (c, s') ∧ Held s' c t n := by
  obtain ⟨input, count, peek, eof⟩ := s
  obtain ⟨hv, hf, hp, hr⟩ := h
  simp only at hv hf hp hr
  cases peek with
  | cons c rest =>
    have hrest : rest = [] := by
      cases rest with
      | nil => rfl
      | cons _ _ => simp at hr
    subst hrest
    subst hv
    refine ⟨_, _, rfl, .inr ⟨input, rfl, ?_, rfl, hf, ?_, Nat.le_refl _⟩⟩
    · have := hb c (by simp); omega
    · simp only [hp]; omega
  | nil =>
    simp only [List.nil_append] at hv
    subst hv
    cases eof with
    | true =>
      have hi := hf rfl
      subst hi
      exact ⟨_, _, rfl, .inl ⟨rfl, rfl, rfl, fun _ => rfl, hp, Nat.le_refl _⟩⟩
    | false =>
      cases input with
      | nil => exact ⟨_, _, rfl, .inl ⟨rfl, rfl, rfl, fun _ => rfl, hp, Nat.le_refl _⟩⟩
      | cons c rest =>
        refine ⟨_, _, rfl, .inr ⟨rest, rfl, ?_, rfl, (fun h => nomatch h), ?_, Nat.le_refl _⟩⟩
        · have := hb c (by simp); omega
        · simp only [hp]; omega

theorem sungetc_held {s c r n} (h : Held s c r n) : ∃ s', sungetc s c = some s' ∧ At s' r n 1 := by
  rcases h with ⟨rfl, rfl, h⟩ | ⟨r', rfl, hc, h⟩
  · exact ⟨s, by simp [sungetc], h.mono (by omega)⟩
  · have h0 : s.peek.length ≤ 0 := h.room
    refine ⟨{ s with peek := c :: s.peek, count := (s.count + 4294967295) % 4294967296 }, ?_, ?_, ?_, ?_, ?_⟩
    · unfold sungetc
      rw [if_neg hc, if_pos (by omega)]
    · simp only [List.cons_append, h.view]
    · exact h.fin
    · simp only [h.pos]; omega
    · simp only [List.length_cons]; omega

/-- Reading on. -/
theorem held_next {s c r x n} (hb : Bytes (x :: r)) (h : Held s c (x :: r) n) :
    c = x ∧ ∃ c' s', sgetc s = (c', s') ∧ Held s' c' r (n + 1) := by
  rcases h with ⟨h, _⟩ | ⟨r', hr, hc, h⟩
  · exact absurd h (by simp)
  · obtain ⟨rfl, rfl⟩ := List.cons.inj hr
    exact ⟨rfl, sgetc_at (fun y hy => hb y (by simp [hy])) (h.mono (by omega))⟩

theorem held_nil {s c n} (h : Held s c [] n) : c = -1 ∧ At s [] n 0 := by
  rcases h with ⟨_, h⟩ | ⟨_, h, _⟩
  · exact h
  · exact absurd h (by simp)

theorem held_cons {s c x r n} (h : Held s c (x :: r) n) : c = x ∧ c ≠ -1 ∧ At s r (n + 1) 0 := by
  rcases h with ⟨h, _⟩ | ⟨r', hr, hc, h⟩
  · exact absurd h (by simp)
  · obtain ⟨rfl, rfl⟩ := List.cons.inj hr
    exact ⟨rfl, hc, h⟩

theorem held_steps {s c r n} (h : Held s c r n) : r.length ≤ steps s := by
  rcases h with ⟨rfl, -, -⟩ | ⟨r', rfl, -, h⟩
  · simp
  · rw [← h.view]
    simp only [steps, List.length_cons, List.length_append]
    omega

theorem at_steps {s t n k} (h : At s t n k) : t.length + 1 = steps s := by
  rw [← h.view]
  simp only [steps, List.length_append]

theorem space_eq (c : Int) (h : -1 ≤ c ∧ c ≤ 255) : space c = true ↔ White c := by
  unfold space
  rw [Ctype.isspace_eq c ⟨by omega, by omega⟩]
  by_cases hw : c = 32 ∨ (9 ≤ c ∧ c < 14)
  · simp only [if_pos hw]
    unfold White
    simp only [ne_eq, Int.reduceEq, not_false_eq_true, decide_true, true_iff]
    omega
  · simp only [if_neg hw]
    unfold White
    simp only [ne_eq, not_true_eq_false, decide_false, Bool.false_eq_true, false_iff]
    omega

theorem Bytes.left {a b : List Int} (h : Bytes (a ++ b)) : Bytes a := fun c hc => h c (by simp [hc])
theorem Bytes.right {a b : List Int} (h : Bytes (a ++ b)) : Bytes b := fun c hc => h c (by simp [hc])
theorem Bytes.tail {c : Int} {t : List Int} (h : Bytes (c :: t)) : Bytes t := fun x hx => h x (by simp [hx])

theorem skipLoop_eq (b : List Int) : ∀ {k s t n}, Bytes (b ++ t) → At s (b ++ t) n 1 → Blank b →
    (∀ x ∈ t.head?, ¬ White x) → b.length < k →
    ∃ c s', skipLoop k s = some (c, s') ∧ Held s' c t (n + b.length) := by
  induction b with
  | nil =>
    intro k s t n hb h _ ht hk
    obtain ⟨k, rfl⟩ : ∃ j, k = j + 1 := ⟨k - 1, by simp at hk; omega⟩
    obtain ⟨c, s', e, hh⟩ := sgetc_at hb h
    refine ⟨c, s', ?_, by simpa using hh⟩
    unfold skipLoop
    rw [e]
    simp only
    rw [if_neg]
    rintro ⟨h1, h2⟩
    rcases hh with ⟨-, h3, -⟩ | ⟨r', h3, -, -⟩
    · exact h1 h3
    · simp only [List.nil_append] at h3
      subst h3
      have hc := hb c (by simp)
      exact ht c (by simp) ((space_eq c ⟨by omega, by omega⟩).mp h2)
  | cons x b ih =>
    intro k s t n hb h hbl ht hk
    obtain ⟨k, rfl⟩ : ∃ j, k = j + 1 := ⟨k - 1, by simp at hk; omega⟩
    obtain ⟨c, s', e, hh⟩ := sgetc_at hb h
    obtain ⟨rfl, hc, h'⟩ := held_cons hh
    have hx := hb c (by simp)
    obtain ⟨c', s'', e', hh'⟩ := ih (k := k) (n := n + 1) hb.tail (h'.mono (by omega)) (fun y hy => hbl y (by simp [hy])) ht
      (by simp at hk; omega)
    refine ⟨c', s'', ?_, by simpa [Nat.add_assoc, Nat.add_comm 1] using hh'⟩
    unfold skipLoop
    rw [e]
    simp only
    rw [if_pos ⟨hc, (space_eq c ⟨by omega, by omega⟩).mpr (hbl c (by simp))⟩]
    exact e'

theorem skipWs_eq {b s t n} (hb : Bytes (b ++ t)) (h : At s (b ++ t) n 1) (hbl : Blank b)
    (ht : ∀ x ∈ t.head?, ¬ White x) : ∃ s', skipWs s = some s' ∧ At s' t (n + b.length) 1 := by
  have hk : b.length < steps s := by
    rw [← at_steps h]; simp only [List.length_append]; omega
  obtain ⟨c, s', e, hh⟩ := skipLoop_eq b hb h hbl ht hk
  obtain ⟨s'', e', h'⟩ := sungetc_held hh
  exact ⟨s'', by unfold skipWs; rw [e]; exact e', h'⟩

/-- A loop takes the characters `l`: they satisfy the predicate, fit in the width, and then the width
is used up, the text ends, or the next character does not satisfy it. -/
theorem run_eq (p : Int → Bool) (l : List Int) : ∀ {k w c s r n}, Bytes (l ++ r) → Held s c (l ++ r) n →
    (∀ x ∈ l, p x = true) → (l.length : Int) ≤ w → ((l.length : Int) = w ∨ ∀ x ∈ r.head?, p x = false) → l.length < k →
    ∃ c' s', run p k w c s = some (l, w - l.length, c', s') ∧ Held s' c' r (n + l.length) := by
  induction l with
  | nil =>
    intro k w c s r n hb h _ hw hstop hk
    obtain ⟨k, rfl⟩ : ∃ j, k = j + 1 := ⟨k - 1, by simp at hk; omega⟩
    refine ⟨c, s, ?_, by simpa using h⟩
    unfold run
    rw [if_neg]
    · simp
    · rintro ⟨h1, h2, h3⟩
      rcases hstop with hz | hz
      · simp at hz; omega
      · rcases h with ⟨-, h4, -⟩ | ⟨r', h4, -, -⟩
        · exact h2 h4
        · simp only [List.nil_append] at h4
          subst h4
          rw [hz c (by simp)] at h3
          exact absurd h3 (by simp)
  | cons x l ih =>
    intro k w c s r n hb h hp hw hstop hk
    obtain ⟨k, rfl⟩ : ∃ j, k = j + 1 := ⟨k - 1, by simp at hk; omega⟩
    have hne := (held_cons h).2.1
    obtain ⟨rfl, c1, s1, e1, h1⟩ := held_next hb h
    simp only [List.length_cons, Int.natCast_add, Int.natCast_one] at hw hstop
    obtain ⟨c', s', e, h'⟩ := ih (k := k) (w := w - 1) (n := n + 1) hb.tail h1 (fun y hy => hp y (by simp [hy])) (by omega)
      (hstop.imp (fun h => by omega) id) (by simp at hk; omega)
    refine ⟨c', s', ?_, by simpa [Nat.add_assoc, Nat.add_comm 1] using h'⟩
    unfold run
    rw [if_pos ⟨by omega, hne, hp c (by simp)⟩, e1]
    simp only
    rw [e]
    simp only [Option.map_some, List.length_cons, Int.natCast_add, Int.natCast_one]
    rw [show w - 1 - (l.length : Int) = w - (l.length + 1) by omega]

theorem below_iff (b : Nat) (c : Int) : below b c = true ↔ IsDigit b c := by
  unfold below IsDigit digitVal
  split
  · rename_i h
    rw [decide_eq_true_iff]
    constructor
    · intro h1; exact ⟨_, rfl, by omega⟩
    · rintro ⟨d, h1, h2⟩
      have := Option.some.inj h1
      omega
  · split
    · rw [decide_eq_true_iff]
      constructor
      · intro h1; exact ⟨_, rfl, by omega⟩
      · rintro ⟨d, h1, h2⟩
        have := Option.some.inj h1
        omega
    · split
      · rw [decide_eq_true_iff]
        constructor
        · intro h1; exact ⟨_, rfl, by omega⟩
        · rintro ⟨d, h1, h2⟩
          have := Option.some.inj h1
          omega
      · constructor
        · intro h; exact absurd h (by simp)
        · rintro ⟨d, h1, -⟩; exact absurd h1 (by simp)

theorem digit_ascii {b : Nat} {c : Int} (h : IsDigit b c) : 48 ≤ c ∧ c ≤ 122 := by
  obtain ⟨d, h, -⟩ := h
  unfold digitVal at h
  split at h
  · omega
  · split at h
    · omega
    · split at h
      · omega
      · exact absurd h (by simp)

theorem fill_eq (a l : List Int) (hl : ∀ c ∈ l, c < 128) (hn : a.length + l.length ≤ 127) : fill a l = a ++ l := by
  unfold fill
  have : l.map toChar = l := by
    conv => rhs; rw [← List.map_id l]
    apply List.map_congr_left
    intro c hc
    unfold toChar
    rw [if_pos (hl c hc)]
    rfl
  rw [this, List.take_of_length_le (by simp; omega)]

end Verif.Scanf
