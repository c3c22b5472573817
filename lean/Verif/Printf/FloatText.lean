import Verif.Printf.Lemmas
import Verif.Printf.FloatSpec
import Verif.Printf.Limbs

/-!
# Layout of the floating-point conversions
-/

namespace Verif.Printf

open Spec

theorem places_length (b : Nat) (u : Bool) (n v : Nat) : (places b u n v).length = n := by
  induction n generalizing v with
  | zero => rfl
  | succ n ih => simp [places, ih]

theorem places_mod (b : Nat) (hb : 0 < b) (u : Bool) (n v : Nat) : places b u n (v % b ^ n) = places b u n v := by
  induction n generalizing v with
  | zero => rfl
  | succ n ih =>
    simp only [places]
    have h1 : v % b ^ (n + 1) / b = v / b % b ^ n := by
      rw [Nat.pow_succ, Nat.mul_comm, Nat.mod_mul_right_div_self]
    have h2 : v % b ^ (n + 1) % b = v % b := by
      rw [Nat.pow_succ]; exact Nat.mod_mod_of_dvd _ (Nat.dvd_mul_left _ _)
    rw [h1, h2, ih]

/-- A numeral continued by fixed digits. -/
theorem numeral_places (b : Nat) (hb : 2 ≤ b) (u : Bool) (q n r : Nat) (hq : 0 < q) (hr : r < b ^ n) :
    numeral b u (q * b ^ n + r) = numeral b u q ++ places b u n r := by
  induction n generalizing r with
  | zero => simp [places]; congr 1; simp at hr; omega
  | succ n ih =>
    have hge : b ≤ q * b ^ (n + 1) + r := by
      have : b ≤ b ^ (n + 1) := Nat.le_self_pow (by omega) _
      have := Nat.le_mul_of_pos_left (b ^ (n + 1)) hq
      omega
    rw [numeral_big b u _ hb hge]
    have e1 : (q * b ^ (n + 1) + r) / b = q * b ^ n + r / b := by
      rw [Nat.pow_succ, ← Nat.mul_assoc, Nat.mul_comm _ b, Nat.mul_add_div (by omega)]
    have e2 : (q * b ^ (n + 1) + r) % b = r % b := by
      rw [Nat.pow_succ, ← Nat.mul_assoc, Nat.mul_comm _ b, Nat.mul_add_mod]
    rw [e1, e2, ih (r / b) (Nat.div_lt_of_lt_mul (by rw [Nat.mul_comm, ← Nat.pow_succ]; exact hr)), places]
    simp [List.append_assoc]

theorem places_add (b : Nat) (hb : 0 < b) (u : Bool) (m n v : Nat) :
    places b u (m + n) v = places b u m (v / b ^ n) ++ places b u n v := by
  induction n generalizing v with
  | zero => simp [places]
  | succ n ih =>
    rw [← Nat.add_assoc]
    simp only [places]
    rw [ih, List.append_assoc, Nat.div_div_eq_div_mul, Nat.pow_succ, Nat.mul_comm b]

theorem places_zero (b : Nat) (hb : 0 < b) (u : Bool) (n : Nat) : places b u n 0 = List.replicate n 48 := by
  induction n with
  | zero => rfl
  | succ n ih =>
    simp only [places, Nat.zero_div, ih, Nat.zero_mod]
    rw [List.replicate_succ']; rfl

theorem places_mul (b : Nat) (hb : 0 < b) (u : Bool) (n v : Nat) : places b u n (v * b ^ n) = List.replicate n 48 := by
  rw [← places_mod b hb, Nat.mul_mod_left, places_zero b hb]

theorem dumpLimb_eq (x : Nat) : dumpLimb x = places 10 false 9 x := by
  simp only [dumpLimb, places, List.nil_append, List.cons_append, Nat.div_div_eq_div_mul]
  have : ∀ k, digit false (k % 10) = k % 10 + 48 := by
    intro k; unfold digit; rw [if_pos (by omega)]; omega
  simp only [this]

theorem put_flatten (cs : List Nat) : (put cs).flatten = cs := by
  unfold put; rw [← List.flatMap_def]; simp

theorem signchar_eq {sp : Opts} {d : Dir} {a : Ask} (h : Agrees sp d a) (neg : Bool) : signchar neg sp.flags = signF d neg := by
  unfold signchar signF
  simp only [h.flag 43 (by decide), h.flag 32 (by decide), decide_eq_true_eq]

theorem signF_length (d : Dir) (neg : Bool) : (signF d neg).length ≤ 1 := by
  unfold signF; repeat' split
  all_goals simp

theorem point_length (d : Dir) (n : Nat) : (point d n).length ≤ 1 := by
  unfold point; split <;> simp

theorem padding_eq {sp : Opts} {d : Dir} {a : Ask} (h : Agrees sp d a) (length : Int) (n : Nat) (hl : length = n) :
    padding sp length = ((a.width - n : Nat) : Int) := by
  unfold padding; rw [h.width, hl]; split <;> omega

theorem justifyF_length (d : Dir) (a : Ask) (pre body : List Nat) :
    (justifyF d a pre body).length = max a.width (pre.length + body.length) := by
  unfold justifyF
  simp only
  repeat' split
  all_goals simp only [List.length_append, List.length_replicate]; omega

theorem padText_len (a : Ask) (t : List Nat) : (padText a t).length = max a.width t.length := by
  unfold padText
  split
  all_goals simp only [List.length_append, List.length_replicate]; omega

/-- The floating specification has the same flags and width. -/
theorem Agrees.float {sp : Opts} {d : Dir} {a : Ask} (h : Agrees sp d a) :
    Agrees (floatspec sp) d { a with prec := some (decimals a) } ∧ (floatspec sp).precision = (decimals a : Int) := by
  have hp := h.prec
  unfold decimals
  unfold floatspec
  cases e : a.prec with
  | none =>
    rw [e] at hp; simp only at hp
    rw [if_pos hp]
    exact ⟨⟨h.minus, h.flag, h.width, rfl⟩, rfl⟩
  | some k =>
    rw [e] at hp; simp only at hp
    rw [if_neg (by omega)]
    exact ⟨⟨h.minus, h.flag, h.width, by simpa using hp⟩, hp⟩

theorem arrangeF_eq {sp : Opts} {d : Dir} {a : Ask} (h : Agrees sp d a) (sign : List Nat) (body : List (List Nat)) (length : Int)
    (hl : length = (sign.length + body.flatten.length : Nat)) :
    (arrangeF sp sign (padding sp length) body).flatten = justifyF d a sign body.flatten ∧
    length + padding sp length = (justifyF d a sign body.flatten).length := by
  rw [padding_eq h length _ hl]
  constructor
  · unfold arrangeF justifyF
    simp only [h.minus, h.flag 48 (by decide), decide_eq_true_eq, List.length_append, Int.toNat_natCast]
    by_cases h1 : a.minus = true
    · rw [if_pos h1, if_pos h1]; simp [pad_flatten, put_flatten]
    · rw [if_neg h1, if_neg h1]
      by_cases h2 : 48 ∈ d.flags
      · rw [if_pos h2, if_pos h2]; simp [pad_flatten, put_flatten]
      · rw [if_neg h2, if_neg h2]; simp [pad_flatten, put_flatten]
  · rw [justifyF_length, hl]; omega

theorem nonfinite_eq {sp : Opts} {d : Dir} {a : Ask} (h : Agrees sp d a) (lower : Nat) (neg : Bool) (s : List Nat) (hs : s.length = 3) :
    let o := nonfinite sp lower (signchar neg sp.flags) s
    o.chunks.flatten = nameText d a neg (s.map (· ||| lower)) ∧ o.ret = (nameText d a neg (s.map (· ||| lower))).length ∧
      o.stores = [] ∧ o.fault = false := by
  simp only [nonfinite, signchar_eq h]
  have hl : (3 : Int) + ((signF d neg).length : Int) = ((signF d neg ++ s.map (· ||| lower)).length : Nat) := by
    rw [List.length_append, List.length_map, hs]; omega
  rw [padding_eq h _ _ hl]
  refine ⟨?_, ?_, trivial, trivial⟩
  · unfold nameText padText
    simp only [h.minus, Int.toNat_natCast]
    by_cases h1 : a.minus = true
    · rw [if_pos h1, if_pos h1, if_pos h1]; simp [pad_flatten, put_flatten]
    · rw [if_neg h1, if_neg h1, if_neg h1]; simp [pad_flatten, put_flatten]
  · unfold nameText
    rw [padText_len, hl]; omega

theorem pointed_eq {sp : Opts} {d : Dir} {a : Ask} (h : Agrees sp d a) (p : Nat) (hp : sp.precision = (p : Int)) :
    (if pointed sp = true then [46] else []) = point d p := by
  unfold pointed point
  rw [h.flag 35 (by decide), hp]
  simp

/-- `justifyF` does not look at the precision. -/
theorem justifyF_prec (d : Dir) (a : Ask) (q : Option Nat) (pre body : List Nat) :
    justifyF d { a with prec := q } pre body = justifyF d a pre body := rfl

theorem nameText_prec (d : Dir) (a : Ask) (q : Option Nat) (neg : Bool) (s : List Nat) :
    nameText d { a with prec := q } neg s = nameText d a neg s := rfl

end Verif.Printf
