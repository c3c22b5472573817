import Verif.Decimal.Model
import Verif.Decimal.Spec
import Verif.Strtol.Lemmas

/-! # What the decimal parser reads (float.h:8-40, 84-126) -/

namespace Verif.Decimal
open Verif.Strtol Spec

theorem digit10 (c : Int) : IsDigit 10 c ↔ 48 ≤ c ∧ c ≤ 57 := by
  unfold IsDigit digitVal
  constructor
  · rintro ⟨d, h, hd⟩
    split at h
    · assumption
    · split at h
      · cases h; omega
      · split at h
        · cases h; omega
        · cases h
  · intro h
    exact ⟨_, if_pos h, by omega⟩

theorem digitVal10 {c : Int} (h : 48 ≤ c ∧ c ≤ 57) : (digitVal c).getD 0 = (c - 48).toNat := by
  unfold digitVal
  rw [if_pos h]; rfl

theorem dig_lt {c : Int} (h : -128 ≤ c ∧ c ≤ 127) : dig c < 10 ↔ 48 ≤ c ∧ c ≤ 57 := by
  unfold dig u32
  omega

theorem dig_eq {c : Int} (h : 48 ≤ c ∧ c ≤ 57) : dig c = (c - 48).toNat := by
  unfold dig u32
  omega

/-- All characters are `char`s. -/
def Chars (s : List Int) : Prop := ∀ c ∈ s, -128 ≤ c ∧ c ≤ 127

theorem cur_char {s : List Int} (h : Chars s) : -128 ≤ cur s ∧ cur s ≤ 127 := by
  cases s with
  | nil => decide
  | cons c s => exact h c List.mem_cons_self

/-! ### Leading zeros -/

theorem zeros_split : ∀ ds : List Int, ∃ z ds', ds = List.replicate z 48 ++ ds' ∧ cur ds' ≠ 48
  | [] => ⟨0, [], rfl, by decide⟩
  | c :: s => by
    by_cases h : c = 48
    · obtain ⟨z, ds', e, hc⟩ := zeros_split s
      exact ⟨z + 1, ds', by rw [h, e, List.replicate_succ, List.cons_append], hc⟩
    · exact ⟨0, c :: s, rfl, h⟩

theorem zeros_rep {x : List Int} (h : cur x ≠ 48) : ∀ z, zeros (List.replicate z 48 ++ x) = z
  | 0 => by
    rw [List.replicate_zero, List.nil_append]
    cases x with
    | nil => rfl
    | cons c s => unfold zeros; exact if_neg h
  | z + 1 => by
    rw [List.replicate_succ, List.cons_append]
    unfold zeros
    rw [if_pos rfl, zeros_rep h z]

theorem value_rep (b z : Nat) (ds : List Int) : value b (List.replicate z 48 ++ ds) = value b ds := by
  induction z with
  | zero => rfl
  | succ z ih =>
    rw [List.replicate_succ, List.cons_append]
    unfold value at *
    rw [List.foldl_cons, show 0 * b + (digitVal 48).getD 0 = 0 by rw [Nat.zero_mul]; decide]
    exact ih

theorem fold_value (b : Nat) : ∀ (ds : List Int) (v : Nat),
    ds.foldl (fun v c => v * b + (digitVal c).getD 0) v = v * b ^ ds.length + value b ds
  | [], v => by show v = _; unfold value; simp
  | c :: s, v => by
    unfold value
    rw [List.foldl_cons, List.foldl_cons, fold_value b s, fold_value b s, List.length_cons, Nat.pow_succ, Nat.zero_mul, Nat.zero_add,
      Nat.add_mul]
    have : v * b * b ^ s.length = v * (b ^ s.length * b) := by ac_rfl
    omega

theorem value_cons (b : Nat) (c : Int) (s : List Int) : value b (c :: s) = (digitVal c).getD 0 * b ^ s.length + value b s := by
  have := fold_value b s ((digitVal c).getD 0)
  rw [← this]
  unfold value
  rw [List.foldl_cons, Nat.zero_mul, Nat.zero_add]

theorem value_append (b : Nat) (s t : List Int) : value b (s ++ t) = value b s * b ^ t.length + value b t := by
  rw [← fold_value]
  unfold value
  rw [List.foldl_append]

theorem value_lt {s : List Int} (h : Digits s) : value 10 s < 10 ^ s.length := by
  induction s with
  | nil => decide
  | cons c s ih =>
    rw [value_cons, List.length_cons, Nat.pow_succ]
    have hc := (digit10 c).mp (h c List.mem_cons_self)
    rw [digitVal10 hc]
    have := ih fun x hx => h x (List.mem_cons_of_mem _ hx)
    have k : (c - 48).toNat * 10 ^ s.length ≤ 9 * 10 ^ s.length := Nat.mul_le_mul_right _ (by omega)
    omega

theorem drop_rep (z : Nat) (x : List Int) : (List.replicate z 48 ++ x).drop z = x := by
  rw [List.drop_left' (List.length_replicate ..)]

/-! ### The exponent -/

/-- A character that is no digit follows. -/
def Stops (t : List Int) : Prop := ¬ (48 ≤ cur t ∧ cur t ≤ 57)

theorem digits_cons {c : Int} {s : List Int} (h : Digits (c :: s)) : (48 ≤ c ∧ c ≤ 57) ∧ Digits s :=
  ⟨(digit10 c).mp (h c List.mem_cons_self), fun x hx => h x (List.mem_cons_of_mem _ hx)⟩

theorem digits_chars {s : List Int} (h : Digits s) : Chars s := fun c hc => by
  have := (digit10 c).mp (h c hc); omega

theorem digitRun_eq : ∀ {ds t : List Int}, Digits ds → Chars t → Stops t → digitRun (ds ++ t) = ds.length
  | [], t, _, ht, hs => by
    rw [List.nil_append]
    cases t with
    | nil => rfl
    | cons c t => unfold digitRun; rw [if_neg (by rw [dig_lt (ht c List.mem_cons_self)]; exact hs)]; rfl
  | c :: ds, t, hd, ht, hs => by
    obtain ⟨h1, h2⟩ := digits_cons hd
    rw [List.cons_append]
    unfold digitRun
    rw [if_pos (by rw [dig_lt (by omega)]; exact h1), digitRun_eq h2 ht hs, List.length_cons]

theorem expLoop_eq : ∀ {ds t : List Int} {m : Nat}, m < 32000 → Digits ds → Chars t → Stops t →
    expLoop (ds ++ t) m = (min 32000 (m * 10 ^ ds.length + value 10 ds), ds.length)
  | [], t, m, hm, _, ht, hs => by
    have e : min 32000 (m * 10 ^ ([] : List Int).length + value 10 []) = m := by
      show min 32000 (m * 1 + 0) = m
      omega
    rw [List.nil_append, e]
    cases t with
    | nil => rfl
    | cons c t => unfold expLoop; rw [if_neg (by rw [dig_lt (ht c List.mem_cons_self)]; exact hs)]; rfl
  | c :: ds, t, m, hm, hd, ht, hs => by
    obtain ⟨h1, h2⟩ := digits_cons hd
    rw [List.cons_append, value_cons, digitVal10 h1]
    unfold expLoop
    rw [if_pos (by rw [dig_lt (by omega)]; exact h1), dig_eq h1, List.length_cons, Nat.pow_succ]
    have hp : 1 ≤ 10 ^ ds.length := Nat.pow_pos (by omega)
    split
    · rw [digitRun_eq h2 ht hs]
      rename_i hm2
      have : 3200 * (10 ^ ds.length * 10) ≤ m * (10 ^ ds.length * 10) := Nat.mul_le_mul_right _ hm2
      rw [Nat.min_eq_left (by omega)]
    · rw [expLoop_eq (by omega) h2 ht hs]
      have : (10 * m + (c - 48).toNat) * 10 ^ ds.length = m * (10 ^ ds.length * 10) + (c - 48).toNat * 10 ^ ds.length := by
        rw [Nat.add_mul]
        congr 1
        ac_rfl
      rw [this, Nat.add_assoc]

theorem exp_iff {c : Int} (h : -128 ≤ c ∧ c ≤ 127) : u32 c ||| 32 = 101 ↔ c = 101 ∨ c = 69 := by
  have : ∀ n : Nat, n < 256 → (u32 ((n : Int) - 128) ||| 32 = 101 ↔ ((n : Int) - 128 = 101 ∨ (n : Int) - 128 = 69)) := by
    decide +kernel
  have := this (c + 128).toNat (by omega)
  have e : (((c + 128).toNat : Nat) : Int) - 128 = c := by omega
  rw [e] at this
  exact this

/-- An exponent part at the start. -/
def ExpAhead (s : List Int) : Prop :=
  ∃ c sign d neg, (c = 101 ∨ c = 69) ∧ Sign sign neg ∧ (48 ≤ d ∧ d ≤ 57) ∧ c :: (sign ++ [d]) <+: s

/-- What follows a subject sequence cannot continue it. -/
def NoMore (ex rest : List Int) : Prop := if ex = [] then ¬ ExpAhead rest else Stops rest

/-- The exponent as limited by float.h:30-34. -/
def capped (e : Int) : Int := if e < -32000 then -32000 else if 32000 < e then 32000 else e

theorem cur_append {s t : List Int} (h : s ≠ []) : cur (s ++ t) = cur s := by
  cases s with
  | nil => exact absurd rfl h
  | cons c s => rfl

theorem digits_cur {s : List Int} (h : Digits s) (hne : s ≠ []) : 48 ≤ cur s ∧ cur s ≤ 57 := by
  cases s with
  | nil => exact absurd rfl hne
  | cons c s => exact (digits_cons h).1

theorem stops_zero {t : List Int} (h : Stops t) : cur t ≠ 48 := by unfold Stops at h; omega

theorem digits_append {s t : List Int} (h : Digits (s ++ t)) : Digits s ∧ Digits t :=
  ⟨fun c hc => h c (List.mem_append_left _ hc), fun c hc => h c (List.mem_append_right _ hc)⟩

/-- The digits after the sign of an exponent. -/
theorem exp_digits {ds t : List Int} (hd : Digits ds) (ht : Chars t) (hs : Stops t) :
    zeros (ds ++ t) + (expLoop ((ds ++ t).drop (zeros (ds ++ t))) 0).2 = ds.length ∧
    (expLoop ((ds ++ t).drop (zeros (ds ++ t))) 0).1 = min 32000 (value 10 ds) := by
  obtain ⟨z, ds', rfl, hz⟩ := zeros_split ds
  have hc : cur (ds' ++ t) ≠ 48 := by
    cases ds' with
    | nil => exact stops_zero hs
    | cons c s => exact hz
  rw [List.append_assoc, zeros_rep hc, drop_rep, expLoop_eq (by omega) (digits_append hd).2 ht hs, value_rep,
    List.length_append, List.length_replicate, Nat.zero_mul, Nat.zero_add]
  exact ⟨rfl, rfl⟩

theorem signed_cur {sign u : List Int} {neg : Bool} (h : Sign sign neg) (h0 : sign = [] → cur u ≠ 43 ∧ cur u ≠ 45) :
    (decide (cur (sign ++ u) = 45 ∨ cur (sign ++ u) = 43) = decide (sign ≠ [])) ∧ (cur (sign ++ u) = 45 ↔ neg = true) ∧
    (if decide (cur (sign ++ u) = 45 ∨ cur (sign ++ u) = 43) = true then (sign ++ u).tail else sign ++ u) = u ∧
    bit (decide (cur (sign ++ u) = 45 ∨ cur (sign ++ u) = 43) = true) = sign.length := by
  rcases h with ⟨rfl, rfl⟩ | ⟨rfl, rfl⟩ | ⟨rfl, rfl⟩
  · obtain ⟨a, b⟩ := h0 rfl
    rw [List.nil_append]
    simp [a, b, bit]
  · simp [cur, bit]
  · simp [cur, bit]

theorem parseexp_cons {c : Int} (hc : c = 101 ∨ c = 69) (t u : List Int)
    (hu : (if decide (cur t = 45 ∨ cur t = 43) = true then t.tail else t) = u) :
    parseexp 101 (c :: t) = ((if cur t = 45 then -1 else 1) * ((expLoop (u.drop (zeros u)) 0).1 : Int),
      if zeros u + (expLoop (u.drop (zeros u)) 0).2 = 0 then 0
      else 1 + bit (decide (cur t = 45 ∨ cur t = 43) = true) + zeros u + (expLoop (u.drop (zeros u)) 0).2) := by
  subst hu
  unfold parseexp
  rw [if_neg (by rw [Decidable.not_not]; exact (exp_iff (show -128 ≤ c ∧ c ≤ 127 by omega)).mpr hc)]
  rfl

theorem parseexp_eq {ex rest : List Int} {e : Int} (he : Exponent ex e) (hr : Chars rest) (hn : NoMore ex rest) :
    parseexp 101 (ex ++ rest) = (capped e, ex.length) := by
  cases he with
  | none =>
    rw [List.nil_append]
    unfold NoMore at hn
    rw [if_pos rfl] at hn
    by_cases hc : u32 (cur rest) ||| 32 ≠ 101
    · unfold parseexp
      rw [if_pos hc]; rfl
    · rw [Decidable.not_not, exp_iff (cur_char hr)] at hc
      cases rest with
      | nil => exact absurd hc (by decide)
      | cons c t =>
        have hc : c = 101 ∨ c = 69 := hc
        obtain ⟨sg, u, neg, hu, hsg, h0⟩ : ∃ sg u neg, t = sg ++ u ∧ Sign sg neg ∧ (sg = [] → cur u ≠ 43 ∧ cur u ≠ 45) := by
          match t with
          | [] => exact ⟨[], [], false, rfl, .inl ⟨rfl, rfl⟩, fun _ => by decide⟩
          | d :: t =>
            by_cases h1 : d = 43
            · exact ⟨[43], t, false, by rw [h1]; rfl, .inr (.inl ⟨rfl, rfl⟩), fun h => by cases h⟩
            · by_cases h2 : d = 45
              · exact ⟨[45], t, true, by rw [h2]; rfl, .inr (.inr ⟨rfl, rfl⟩), fun h => by cases h⟩
              · exact ⟨[], d :: t, false, rfl, .inl ⟨rfl, rfl⟩, fun _ => ⟨h1, h2⟩⟩
        subst hu
        obtain ⟨-, -, s3, -⟩ := signed_cur hsg h0
        have hst : Stops u := by
          intro hd
          apply hn
          cases u with
          | nil => exact absurd hd (by decide)
          | cons d u =>
            exact ⟨c, sg, d, neg, hc, hsg, hd, u, by rw [List.cons_append, List.append_assoc]; rfl⟩
        have hu : Chars u := fun x hx => hr x (List.mem_cons_of_mem _ (List.mem_append_right _ hx))
        obtain ⟨d1, d2⟩ := exp_digits (ds := []) (fun _ h => nomatch h) hu hst
        rw [List.nil_append] at d1 d2
        rw [parseexp_cons (c := c) hc _ _ s3, d1, d2, if_pos (show ([] : List Int).length = 0 from rfl)]
        simp [value, capped]
  | some c sign ds neg hc hsg hne hd =>
    unfold NoMore at hn
    rw [if_neg (by simp)] at hn
    have hcur := digits_cur hd hne
    have h0 : sign = [] → cur (ds ++ rest) ≠ 43 ∧ cur (ds ++ rest) ≠ 45 := by
      intro _
      rw [cur_append hne]
      omega
    obtain ⟨-, s2, s3, s4⟩ := signed_cur (u := ds ++ rest) hsg h0
    obtain ⟨d1, d2⟩ := exp_digits hd hr hn
    rw [List.cons_append, List.append_assoc, parseexp_cons hc _ _ s3, s4, Nat.add_assoc, d1, d2]
    have hl : ds.length ≠ 0 := fun h => hne (List.length_eq_zero_iff.mp h)
    rw [if_neg hl, List.length_cons, List.length_append]
    refine Prod.ext ?_ (by simp; omega)
    simp only
    unfold capped
    cases neg with
    | false =>
      rw [if_neg (by rw [s2]; decide), if_neg Bool.false_ne_true, if_neg (by omega)]
      split <;> omega
    | true =>
      rw [if_pos (s2.mpr rfl), if_pos rfl]
      split
      · omega
      · split <;> omega

end Verif.Decimal
