import Verif.Printf.FloatSpec
import Verif.Printf.Lemmas
import Verif.Decimal.Parse

/-! # Digits written and read -/

namespace Verif.Trip
open Verif.Strtol Verif.Printf.Spec

/-- Characters as the values of `char`. -/
def ints (s : List Nat) : List Int := s.map Int.ofNat

theorem ints_append (s t : List Nat) : ints (s ++ t) = ints s ++ ints t := List.map_append

theorem ints_cons (c : Nat) (s : List Nat) : ints (c :: s) = (c : Int) :: ints s := rfl

theorem ints_rep (n c : Nat) : ints (List.replicate n c) = List.replicate n (c : Int) := List.map_replicate

theorem ints_length (s : List Nat) : (ints s).length = s.length := List.length_map _

theorem digit_val (u : Bool) {d : Nat} (h : d < 16) : digitVal ((digit u d : Nat) : Int) = some d := by
  revert u d
  have : ∀ u : Bool, ∀ d < 16, digitVal ((digit u d : Nat) : Int) = some d := by decide
  exact fun u _ h => this u _ h

theorem digit_is (b : Nat) (hb : b ≤ 16) (u : Bool) {d : Nat} (h : d < b) : IsDigit b ((digit u d : Nat) : Int) :=
  ⟨d, digit_val u (by omega), h⟩

theorem value_snoc (b : Nat) (s : List Int) (c : Int) : Strtol.value b (s ++ [c]) = Strtol.value b s * b + (digitVal c).getD 0 := by
  unfold Strtol.value
  rw [List.foldl_append]
  rfl

theorem places_is (b : Nat) (hb : b ≤ 16) (h0 : 0 < b) (u : Bool) (n v : Nat) : ∀ c ∈ ints (places b u n v), IsDigit b c := by
  induction n generalizing v with
  | zero => intro c hc; cases hc
  | succ n ih =>
    intro c hc
    unfold places at hc
    rw [ints_append, List.mem_append] at hc
    rcases hc with hc | hc
    · exact ih _ c hc
    · rw [List.mem_singleton.mp hc]
      exact digit_is b hb u (Nat.mod_lt _ h0)

theorem places_value (b : Nat) (hb : b ≤ 16) (h0 : 0 < b) (u : Bool) (n v : Nat) : Strtol.value b (ints (places b u n v)) = v % b ^ n := by
  induction n generalizing v with
  | zero => rw [Nat.pow_zero, Nat.mod_one]; rfl
  | succ n ih =>
    unfold places
    have : v % b < b := Nat.mod_lt _ h0
    rw [ints_append, show ints [digit u (v % b)] = [((digit u (v % b) : Nat) : Int)] from rfl, value_snoc, ih, digit_val u (by omega), Nat.pow_succ,
      Nat.mul_comm (b ^ n), Nat.mod_mul, Option.getD_some, Nat.mul_comm]
    omega

theorem numeral_is (b : Nat) (hb : b ≤ 16) (h0 : 2 ≤ b) (u : Bool) (n : Nat) : ∀ c ∈ ints (numeral b u n), IsDigit b c := by
  induction n using Nat.strongRecOn with
  | ind n ih =>
    intro c hc
    by_cases h : n < b
    · rw [Printf.numeral_small b u n h] at hc
      rw [List.mem_singleton.mp hc]
      exact digit_is b hb u h
    · rw [Printf.numeral_big b u n h0 (by omega), ints_append, List.mem_append] at hc
      rcases hc with hc | hc
      · exact ih _ (Nat.div_lt_self (by omega) (by omega)) c hc
      · rw [List.mem_singleton.mp hc]
        exact digit_is b hb u (Nat.mod_lt _ (by omega))

theorem numeral_value (b : Nat) (hb : b ≤ 16) (h0 : 2 ≤ b) (u : Bool) (n : Nat) : Strtol.value b (ints (numeral b u n)) = n := by
  induction n using Nat.strongRecOn with
  | ind n ih =>
    by_cases h : n < b
    · rw [Printf.numeral_small b u n h]
      show 0 * b + (digitVal ((digit u n : Nat) : Int)).getD 0 = n
      rw [digit_val u (by omega), Option.getD_some]
      omega
    · have : n % b < b := Nat.mod_lt _ (by omega)
      rw [Printf.numeral_big b u n h0 (by omega), ints_append, show ints [digit u (n % b)] = [((digit u (n % b) : Nat) : Int)] from rfl, value_snoc,
        ih _ (Nat.div_lt_self (by omega) (by omega)), digit_val u (by omega), Option.getD_some, Nat.mul_comm]
      exact Nat.div_add_mod n b

end Verif.Trip
