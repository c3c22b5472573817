import Verif.Base

/-!
# Specification of the string functions

Memory is a function from addresses to bytes.
-/

namespace Verif.Str

/-- The bytes of `bs` lie at `s`. -/
def Holds (m : Nat → Nat) (s : Nat) (bs : List Nat) : Prop :=
  ∀ i (h : i < bs.length), m (s + i) = bs[i]

/-- A C string with contents `bs` lies at `s`. -/
def CStr (m : Nat → Nat) (s : Nat) (bs : List Nat) : Prop :=
  (∀ b ∈ bs, b ≠ 0) ∧ Holds m s (bs ++ [0])

/-- `m'` is `m` with the bytes `bs` written at `d` and nothing else changed. -/
def Written (m m' : Nat → Nat) (d : Nat) (bs : List Nat) : Prop :=
  Holds m' d bs ∧ ∀ a, ¬ (d ≤ a ∧ a < d + bs.length) → m' a = m a

/-- The sign of `r` orders `x` against `y` lexicographically. -/
def Orders (r : Int) (x y : List Nat) : Prop :=
  (r < 0 ↔ x < y) ∧ (r = 0 ↔ x = y) ∧ (r > 0 ↔ y < x)

/-- The value of `int` converted to `unsigned char`. -/
def byteOf (c : Int) : Nat := (c % 256).toNat

/-- The maximal runs of characters that are not separators. -/
def tokens (seps : List Nat) (bs : List Nat) : List (List Nat) :=
  match h : bs.dropWhile (· ∈ seps) with
  | [] => []
  | c :: r => (c :: r.takeWhile (· ∉ seps)) :: tokens seps (r.dropWhile (· ∉ seps))
termination_by bs.length
decreasing_by
  have h1 := congrArg List.length h
  have h2 := (List.dropWhile_suffix (p := (fun x => decide (x ∈ seps))) (l := bs)).length_le
  have h3 := (List.dropWhile_suffix (p := (fun x => decide (x ∉ seps))) (l := r)).length_le
  simp only [List.length_cons] at h1
  omega

end Verif.Str
