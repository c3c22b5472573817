import Verif.Base

/-!
# Specification of the wide string functions

Memory is a function from positions to wide characters, which are integers in the range of `wchar_t`.
-/

namespace Verif.Wide

/-- The characters of `ws` lie at `s`. -/
def Holds (m : Nat → Int) (s : Nat) (ws : List Int) : Prop := ∀ i (h : i < ws.length), m (s + i) = ws[i]

/-- A wide string with contents `ws` lies at `s`. -/
def WStr (m : Nat → Int) (s : Nat) (ws : List Int) : Prop := (∀ w ∈ ws, w ≠ 0) ∧ Holds m s (ws ++ [0])

/-- `ws` are the characters of an array of at least `n` at `s` before its first null character, or all of the first
`n` if there is none among them. Nothing after these has to be readable. -/
def Upto (m : Nat → Int) (s n : Nat) (ws : List Int) : Prop :=
  (∀ w ∈ ws, w ≠ 0) ∧ (ws.length = n ∧ Holds m s ws ∨ ws.length < n ∧ Holds m s (ws ++ [0]))

/-- `m'` is `m` with `ws` written at `d` and nothing else changed. -/
def Written (m m' : Nat → Int) (d : Nat) (ws : List Int) : Prop :=
  Holds m' d ws ∧ ∀ a, ¬ (d ≤ a ∧ a < d + ws.length) → m' a = m a

/-- The sign of `r` orders `x` against `y` lexicographically. -/
def Orders (r : Int) (x y : List Int) : Prop :=
  (r < 0 ↔ x < y) ∧ (r = 0 ↔ x = y) ∧ (r > 0 ↔ y < x)

/-- The first place of `ws` where `c` stands, if any, `s` further on. -/
def FirstAt (ws : List Int) (c : Int) (s : Nat) : Option Nat → Prop
  | none => c ∉ ws
  | some p => ∃ i, ∃ h : i < ws.length, p = s + i ∧ ws[i] = c ∧ ∀ j (_ : j < i), ws[j] ≠ c

/-- The last place of `ws` where `c` stands, if any, `s` further on. -/
def LastAt (ws : List Int) (c : Int) (s : Nat) : Option Nat → Prop
  | none => c ∉ ws
  | some p => ∃ i, ∃ h : i < ws.length, p = s + i ∧ ws[i] = c ∧ ∀ j (_ : i < j) (_ : j < ws.length), ws[j] ≠ c

/-- The first place where `x` occurs in `y`, if any, `s` further on. -/
def FirstOccurrence (y x : List Int) (s : Nat) : Option Nat → Prop
  | none => ∀ i, ¬ x <+: y.drop i
  | some p => ∃ i, p = s + i ∧ i ≤ y.length ∧ x <+: y.drop i ∧ ∀ j, j < i → ¬ x <+: y.drop j

/-- The wide character in the 4 bytes at `a`. -/
def wideAt (m : Nat → Nat) (a : Nat) : Int :=
  let u : Nat := m a + 2 ^ 8 * m (a + 1) + 2 ^ 16 * m (a + 2) + 2 ^ 24 * m (a + 3)
  if u < 2 ^ 31 then (u : Int) else u - 2 ^ 32

/-- The maximal runs of characters that are not separators. -/
def tokens (seps : List Int) (ws : List Int) : List (List Int) :=
  match h : ws.dropWhile (· ∈ seps) with
  | [] => []
  | c :: r => (c :: r.takeWhile (· ∉ seps)) :: tokens seps (r.dropWhile (· ∉ seps))
termination_by ws.length
decreasing_by
  have h1 := congrArg List.length h
  have h2 := (List.dropWhile_suffix (p := (fun x => decide (x ∈ seps))) (l := ws)).length_le
  have h3 := (List.dropWhile_suffix (p := (fun x => decide (x ∉ seps))) (l := r)).length_le
  simp only [List.length_cons] at h1
  omega

end Verif.Wide
