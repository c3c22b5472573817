import Verif.Printf.Model
import Verif.Printf.Spec

/-!
# Integer conversions
-/

namespace Verif.Printf

open Spec

/-! ## Digits -/

theorem numeral_small (b : Nat) (u : Bool) (n : Nat) (h : n < b) : numeral b u n = [digit u n] := by
  unfold numeral
  rw [dif_pos (.inl h)]

theorem numeral_big (b : Nat) (u : Bool) (n : Nat) (hb : 2 ≤ b) (h : b ≤ n) :
    numeral b u n = numeral b u (n / b) ++ [digit u (n % b)] := by
  rw [numeral, dif_neg (by omega)]

theorem numeral_ne_nil (b : Nat) (u : Bool) (n : Nat) : numeral b u n ≠ [] := by
  unfold numeral
  split <;> simp

theorem numeral_length_pos (b : Nat) (u : Bool) (n : Nat) : 1 ≤ (numeral b u n).length :=
  List.length_pos_iff.mpr (numeral_ne_nil b u n)

/-- The digits that the loops produce: none for zero. -/
def raw (b : Nat) (u : Bool) (n : Nat) : List Nat := if n = 0 then [] else numeral b u n

theorem raw_step (b : Nat) (u : Bool) (n : Nat) (hb : 2 ≤ b) (hn : n ≠ 0) (s : List Nat) :
    raw b u (n / b) ++ digit u (n % b) :: s = raw b u n ++ s := by
  unfold raw
  rw [if_neg hn]
  by_cases h : n < b
  · rw [if_pos (Nat.div_eq_of_lt h), numeral_small b u n h, Nat.mod_eq_of_lt h]; rfl
  · rw [if_neg (by have := Nat.div_pos (by omega : b ≤ n) (by omega); omega), numeral_big b u n hb (by omega)]
    simp

theorem octal_eq (x : Nat) (s : List Nat) : octal x s = raw 8 false x ++ s := by
  induction x using Nat.strongRecOn generalizing s with
  | ind x ih =>
    unfold octal
    by_cases h : x = 0
    · rw [dif_pos h, h]; rfl
    · rw [dif_neg h, ih (x >>> 3) (by rw [Nat.shiftRight_eq_div_pow]; omega), ← raw_step 8 false x (by omega) h s,
        Nat.shiftRight_eq_div_pow, show x &&& 7 = x % 8 from Nat.and_two_pow_sub_one_eq_mod x 3]
      congr 2
      unfold digit
      rw [if_pos (by omega), Nat.add_comm]

theorem decimalLow_eq (x : Nat) (s : List Nat) : decimalLow x s = raw 10 false x ++ s := by
  induction x using Nat.strongRecOn generalizing s with
  | ind x ih =>
    unfold decimalLow
    by_cases h : x = 0
    · rw [dif_pos h, h]; rfl
    · rw [dif_neg h, ih (x / 10) (by omega), ← raw_step 10 false x (by omega) h s]
      congr 2
      unfold digit
      rw [if_pos (by omega), Nat.add_comm]

theorem decimal_eq (x : Nat) (s : List Nat) : decimal x s = raw 10 false x ++ s := by
  induction x using Nat.strongRecOn generalizing s with
  | ind x ih =>
    unfold decimal
    by_cases h : x > 4294967295
    · rw [dif_pos h, ih (x / 10) (by omega), ← raw_step 10 false x (by omega) (by omega) s]
      congr 2
      unfold digit
      rw [if_pos (by omega), Nat.add_comm]
    · rw [dif_neg h, decimalLow_eq]

theorem hex_digit : ∀ d : Fin 16,
    ([48, 49, 50, 51, 52, 53, 54, 55, 56, 57, 65, 66, 67, 68, 69, 70].getD d.val 0 ||| 0) = digit true d.val ∧
    ([48, 49, 50, 51, 52, 53, 54, 55, 56, 57, 65, 66, 67, 68, 69, 70].getD d.val 0 ||| 32) = digit false d.val := by
  decide

theorem hexadecimal_eq (u : Bool) (x : Nat) (s : List Nat) :
    hexadecimal x s (if u then 0 else 32) = raw 16 u x ++ s := by
  induction x using Nat.strongRecOn generalizing s with
  | ind x ih =>
    unfold hexadecimal
    by_cases h : x = 0
    · rw [dif_pos h, h]; rfl
    · rw [dif_neg h, ih (x >>> 4) (by rw [Nat.shiftRight_eq_div_pow]; omega), ← raw_step 16 u x (by omega) h s,
        Nat.shiftRight_eq_div_pow, show x &&& 0xF = x % 16 from Nat.and_two_pow_sub_one_eq_mod x 4]
      congr 2
      have := hex_digit ⟨x % 16, by omega⟩
      cases u
      · exact this.2
      · exact this.1

/-- A numeral of a positive number does not begin with a zero. -/
theorem numeral_head (b : Nat) (u : Bool) (hb : 2 ≤ b) (n : Nat) (hn : n ≠ 0) : (numeral b u n).head? ≠ some 48 := by
  induction n using Nat.strongRecOn with
  | ind n ih =>
    by_cases h : n < b
    · rw [numeral_small b u n h]
      unfold digit
      simp only [List.head?_cons, ne_eq, Option.some.injEq]
      split
      · omega
      · split <;> omega
    · rw [numeral_big b u n hb (by omega), List.head?_append]
      have h1 := Nat.div_pos (by omega : b ≤ n) (by omega)
      have h2 := ih (n / b) (Nat.div_lt_self (by omega) (by omega)) (by omega)
      cases e : (numeral b u (n / b)).head? with
      | none => exact absurd (List.head?_eq_none_iff.mp e) (numeral_ne_nil _ _ _)
      | some c => rw [e] at h2; exact h2

/-- How many digits: fewer than `k + 1` exactly below `b ^ k`. -/
theorem numeral_length (b : Nat) (u : Bool) (hb : 2 ≤ b) (k n : Nat) (hk : 1 ≤ k) :
    (numeral b u n).length ≤ k ↔ n < b ^ k := by
  induction k generalizing n with
  | zero => omega
  | succ k ih =>
    by_cases h : n < b
    · rw [numeral_small b u n h]
      have := Nat.pow_le_pow_right (n := b) (by omega) hk
      simp at this ⊢; omega
    · rw [numeral_big b u n hb (by omega), List.length_append, List.length_singleton]
      by_cases hk' : k = 0
      · have := numeral_length_pos b u (n / b)
        subst hk'
        rw [show 0 + 1 = 1 from rfl, Nat.pow_one]; omega
      · rw [Nat.pow_succ, ← Nat.div_lt_iff_lt_mul (by omega), ← ih _ (by omega)]
        omega

theorem raw_length (b : Nat) (u : Bool) (hb : 2 ≤ b) (k n : Nat) (hk : 1 ≤ k) : (raw b u n).length ≤ k ↔ n < b ^ k := by
  unfold raw
  split
  · have := Nat.pow_pos (n := k) (by omega : 0 < b)
    simp; omega
  · exact numeral_length b u hb k n hk

/-! ## Layout -/

theorem pad_flatten (c n : Nat) : (pad c n).flatten = List.replicate n c := by
  unfold pad
  rw [List.flatten_append, List.flatten_singleton]
  have : (List.replicate (n / 8) (List.replicate 8 c)).flatten = List.replicate (n / 8 * 8) c := by
    rw [List.flatten_replicate_replicate]
  rw [this, List.replicate_append_replicate]
  congr 1
  omega

/-- The zeros that make up for the precision. -/
theorem digits_eq (P : Option Nat) (b : Nat) (u : Bool) (n : Nat) (hb : 1 ≤ b) :
    List.replicate (P.getD 1 - (raw b u n).length) 48 ++ raw b u n = Spec.digits P b u n := by
  unfold raw Spec.digits
  by_cases hn : n = 0
  · subst hn
    rw [if_pos rfl, numeral_small b u 0 (by omega)]
    have : digit u 0 = 48 := by unfold digit; rfl
    rw [this]
    cases P with
    | none => simp
    | some k =>
      cases k with
      | zero => simp
      | succ k => simp [List.replicate_succ']
  · rw [if_neg hn, if_neg (fun h => hn h.1)]

/-- The zeros of octal conversions with the flag `#`. -/
theorem altOctal_eq (P : Option Nat) (n : Nat) :
    List.replicate (if (raw 8 false n).length < P.getD 1 then P.getD 1 - (raw 8 false n).length else 1) 48 ++ raw 8 false n =
      altOctal (Spec.digits P 8 false n) := by
  rw [← digits_eq P 8 false n (by omega)]
  by_cases h : (raw 8 false n).length < P.getD 1
  · rw [if_pos h]
    obtain ⟨k, hk⟩ : ∃ k, P.getD 1 - (raw 8 false n).length = k + 1 := ⟨P.getD 1 - (raw 8 false n).length - 1, by omega⟩
    rw [hk, List.replicate_succ]
    unfold altOctal
    rw [if_pos (by rfl)]
  · rw [if_neg h, show P.getD 1 - (raw 8 false n).length = 0 by omega]
    unfold altOctal
    rw [if_neg]
    · rfl
    · unfold raw
      split
      · simp
      · next hn => exact numeral_head 8 false (by omega) n hn

/-- The parsed specification agrees with the directive. -/
structure Agrees (sp : Opts) (d : Dir) (a : Ask) : Prop where
  minus : has sp.flags 45 = a.minus
  flag : ∀ c ∈ [43, 32, 35, 48], has sp.flags c = decide (c ∈ d.flags)
  width : sp.width = a.width
  prec : match a.prec with | none => sp.precision < 0 | some k => sp.precision = (k : Int)

theorem Agrees.precision {sp : Opts} {d : Dir} {a : Ask} (h : Agrees sp d a) :
    (if sp.precision < 0 then (1 : Int) else sp.precision) = (a.prec.getD 1 : Nat) := by
  have := h.prec
  cases e : a.prec with
  | none => rw [e] at this; simp only at this; rw [if_pos this]; rfl
  | some k => rw [e] at this; simp only at this; rw [if_neg (by omega), this]; rfl

theorem Agrees.prec_none {sp : Opts} {d : Dir} {a : Ask} (h : Agrees sp d a) : sp.precision < 0 ↔ a.prec = none := by
  have := h.prec
  cases e : a.prec with
  | none => rw [e] at this; simp only at this; simp [this]
  | some k => rw [e] at this; simp only at this; simp; omega

theorem justify_length (d : Dir) (a : Ask) (pre body : List Nat) :
    (justify d a pre body).length = max a.width (pre.length + body.length) := by
  unfold justify
  simp only
  repeat' split
  all_goals simp only [List.length_append, List.length_replicate]; omega

/-- The parts are put together as the standard says. -/
theorem arrange_eq {sp : Opts} {d : Dir} {a : Ask} (h : Agrees sp d a) (pre : List (List Nat)) (z : Nat) (ds body : List Nat)
    (hbody : List.replicate z 48 ++ ds = body) (length : Int) (hl : length = (pre.flatten.length + body.length : Nat)) :
    (arrange sp pre z (if sp.width > length then sp.width - length else 0) ds).flatten = justify d a pre.flatten body ∧
    length + (if sp.width > length then sp.width - length else 0) = (justify d a pre.flatten body).length := by
  have hp : (if sp.width > length then sp.width - length else 0) = ((a.width - (pre.flatten.length + body.length) : Nat) : Int) := by
    rw [h.width, hl]; split <;> omega
  rw [hp]
  constructor
  · unfold arrange justify
    simp only [List.length_append, h.minus, h.flag 48 (by decide), h.prec_none, decide_eq_true_eq]
    rw [← hbody]
    by_cases h1 : a.minus = true
    · rw [if_pos h1, if_pos h1]
      simp [pad_flatten]
    · rw [if_neg h1, if_neg h1]
      by_cases h2 : 48 ∈ d.flags ∧ a.prec = none
      · rw [if_pos h2, if_pos h2]
        generalize a.width - _ = k
        rw [show ((z : Int) + (k : Int)).toNat = k + z by omega]
        simp only [List.flatten_append, pad_flatten, List.flatten_singleton, ← List.replicate_append_replicate, List.append_assoc]
      · rw [if_neg h2, if_neg h2]
        simp [pad_flatten]
  · rw [justify_length, hl]; omega

theorem chk32_some (x : Int) (h0 : 0 ≤ x) (h : x < 2 ^ 31) : chk32 x = some x := by
  have : IsI32 x := by unfold IsI32; omega
  unfold chk32
  rw [if_pos this]

theorem zeros_cast (P n : Nat) (k : Int) (k' : Nat) (hk : k = k') :
    (if (P : Int) > n then (P : Int) - n else k) = ((if n < P then P - n else k' : Nat) : Int) := by
  subst hk
  by_cases h : n < P
  · rw [if_pos (by omega), if_pos h]; omega
  · rw [if_neg (by omega), if_neg h]

theorem if_sub (P n : Nat) : (if n < P then P - n else 0) = P - n := by split <;> omega

/-! ## The conversions -/

theorem convertI_eq {sp : Opts} {d : Dir} {a : Ask} (h : Agrees sp d a) (x : Int) (hx : -2 ^ 63 < x) (hx' : x < 2 ^ 63)
    (hl : (justify d a (sign d x) (Spec.digits a.prec 10 false x.natAbs)).length < 2 ^ 31) :
    ∃ o, convertI sp x = some o ∧ o.chunks.flatten = justify d a (sign d x) (Spec.digits a.prec 10 false x.natAbs) ∧
      o.ret = (justify d a (sign d x) (Spec.digits a.prec 10 false x.natAbs)).length ∧ o.stores = [] ∧
      (o.fault = true ↔ 10 ≤ x.natAbs) := by
  have hneg : (if x < 0 then chk64 (-x) else some x) = some (x.natAbs : Int) := by
    split
    · have : IsI64 (-x) := by unfold IsI64; omega
      unfold chk64
      rw [if_pos this]; congr 1; omega
    · congr 1; omega
  have hs : signchar (decide (x < 0)) sp.flags = sign d x := by
    unfold signchar sign
    simp only [h.flag 43 (by decide), h.flag 32 (by decide), decide_eq_true_eq]
  have hpre : ((sign d x).map ([·])).flatten = sign d x := by simp [← List.flatMap_def]
  unfold convertI
  rw [hneg]
  simp only [h.precision, hs, decimal_eq, List.append_nil, Int.toNat_natCast]
  rw [zeros_cast _ _ 0 0 rfl, if_sub]
  have hd := digits_eq a.prec 10 false x.natAbs (by omega)
  have hlen : ((raw 10 false x.natAbs).length : Int) + ((a.prec.getD 1 - (raw 10 false x.natAbs).length : Nat) : Int) +
      ((sign d x).length : Int) = (((sign d x).map ([·])).flatten.length + (Spec.digits a.prec 10 false x.natAbs).length : Nat) := by
    rw [hpre, ← hd, List.length_append, List.length_replicate]; omega
  have hb := justify_length d a (sign d x) (Spec.digits a.prec 10 false x.natAbs)
  rw [hlen, chk32_some _ (by omega) (by rw [hpre]; omega)]
  simp only
  have := arrange_eq h ((sign d x).map ([·])) _ _ _ hd _ rfl
  rw [hpre] at this
  refine ⟨_, rfl, ?_, ?_, rfl, ?_⟩
  · rw [hpre]; exact this.1
  · rw [hpre]; exact this.2
  · simp only [decide_eq_true_eq]
    have := raw_length 10 false (by omega) 1 x.natAbs (by omega)
    unfold signedDigits
    omega

theorem convertU_eq {sp : Opts} {d : Dir} {a : Ask} (h : Agrees sp d a) (x : Nat)
    (hl : (justify d a [] (Spec.digits a.prec 10 false x)).length < 2 ^ 31) :
    ∃ o, convertU sp x = some o ∧ o.chunks.flatten = justify d a [] (Spec.digits a.prec 10 false x) ∧
      o.ret = (justify d a [] (Spec.digits a.prec 10 false x)).length ∧ o.stores = [] ∧ (o.fault = true ↔ 100 ≤ x) := by
  unfold convertU
  simp only [h.precision, decimal_eq, List.append_nil]
  rw [zeros_cast _ _ 0 0 rfl, if_sub]
  have hd := digits_eq a.prec 10 false x (by omega)
  have hlen : ((raw 10 false x).length : Int) + ((a.prec.getD 1 - (raw 10 false x).length : Nat) : Int) =
      (([] : List (List Nat)).flatten.length + (Spec.digits a.prec 10 false x).length : Nat) := by
    rw [← hd, List.length_append, List.length_replicate]; simp only [List.flatten_nil, List.length_nil]; omega
  have hb := justify_length d a [] (Spec.digits a.prec 10 false x)
  simp only [List.length_nil] at hb
  rw [hlen, chk32_some _ (by omega) (by simp only [List.flatten_nil, List.length_nil]; omega)]
  simp only
  have := arrange_eq h [] _ _ _ hd _ rfl
  refine ⟨_, rfl, this.1, this.2, rfl, ?_⟩
  simp only [decide_eq_true_eq]
  have := raw_length 10 false (by omega) 2 x (by omega)
  unfold unsignedDigits
  omega

theorem convertO_eq {sp : Opts} {d : Dir} {a : Ask} (h : Agrees sp d a) (x : Nat) (hx : x < 2 ^ 64) (body : List Nat)
    (hbody : body = if 35 ∈ d.flags then altOctal (Spec.digits a.prec 8 false x) else Spec.digits a.prec 8 false x)
    (hl : (justify d a [] body).length < 2 ^ 31) :
    ∃ o, convertO sp x = some o ∧ o.chunks.flatten = justify d a [] body ∧
      o.ret = (justify d a [] body).length ∧ o.stores = [] ∧ o.fault = false := by
  unfold convertO
  simp only [h.precision, octal_eq, List.append_nil, h.flag 35 (by decide), decide_eq_true_eq]
  rw [zeros_cast _ _ _ (if 35 ∈ d.flags then 1 else 0) (by split <;> rfl)]
  generalize hz : (if (raw 8 false x).length < a.prec.getD 1 then a.prec.getD 1 - (raw 8 false x).length else
      if 35 ∈ d.flags then 1 else 0) = z
  have hd : List.replicate z 48 ++ raw 8 false x = body := by
    rw [hbody, ← hz]
    by_cases h35 : 35 ∈ d.flags
    · simp only [if_pos h35]; exact altOctal_eq a.prec x
    · simp only [if_neg h35]; rw [if_sub]; exact digits_eq a.prec 8 false x (by omega)
  have hlen : ((raw 8 false x).length : Int) + (z : Int) = (([] : List (List Nat)).flatten.length + body.length : Nat) := by
    rw [← hd, List.length_append, List.length_replicate]; simp only [List.flatten_nil, List.length_nil]; omega
  have hb := justify_length d a [] body
  simp only [List.length_nil] at hb
  rw [hlen, chk32_some _ (by omega) (by simp only [List.flatten_nil, List.length_nil]; omega)]
  simp only
  have := arrange_eq h [] _ _ _ hd _ rfl
  refine ⟨_, rfl, this.1, this.2, rfl, ?_⟩
  simp only [decide_eq_false_iff_not]
  have := raw_length 8 false (by omega) 22 x (by omega)
  omega

theorem convertX_eq {sp : Opts} {d : Dir} {a : Ask} (h : Agrees sp d a) (x : Nat) (hx : x < 2 ^ 64) (c : Nat)
    (hc : c = 120 ∨ c = 88) (pre : List Nat) (hpre : pre = if 35 ∈ d.flags ∧ x ≠ 0 then [48, c] else [])
    (hl : (justify d a pre (Spec.digits a.prec 16 (c = 88) x)).length < 2 ^ 31) :
    ∃ o, convertX sp c x = some o ∧ o.chunks.flatten = justify d a pre (Spec.digits a.prec 16 (c = 88) x) ∧
      o.ret = (justify d a pre (Spec.digits a.prec 16 (c = 88) x)).length ∧ o.stores = [] ∧ o.fault = false := by
  have hlow : hexadecimal x [] (c &&& 0x20) = raw 16 (c = 88) x := by
    have : c &&& 0x20 = if decide (c = 88) then 0 else 32 := by
      rcases hc with rfl | rfl <;> rfl
    rw [this, hexadecimal_eq, List.append_nil]
  unfold convertX
  simp only [h.precision, hlow, h.flag 35 (by decide), decide_eq_true_eq]
  rw [zeros_cast _ _ 0 0 rfl, if_sub, ← hpre]
  have hd := digits_eq a.prec 16 (c = 88) x (by omega)
  have hlen : ((raw 16 (c = 88) x).length : Int) + ((a.prec.getD 1 - (raw 16 (c = 88) x).length : Nat) : Int) + (pre.length : Int) =
      ([pre].flatten.length + (Spec.digits a.prec 16 (c = 88) x).length : Nat) := by
    rw [← hd, List.length_append, List.length_replicate, List.flatten_singleton]; omega
  have hb := justify_length d a pre (Spec.digits a.prec 16 (c = 88) x)
  rw [hlen, chk32_some _ (by omega) (by rw [List.flatten_singleton]; omega)]
  simp only
  have := arrange_eq h [pre] _ _ _ hd _ rfl
  rw [List.flatten_singleton] at this ⊢
  refine ⟨_, rfl, this.1, this.2, rfl, ?_⟩
  simp only [decide_eq_false_iff_not]
  have := raw_length 16 (c = 88) (by omega) 16 x (by omega)
  omega

end Verif.Printf
