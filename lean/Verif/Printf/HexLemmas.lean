import Verif.Printf.FixedLarge

/-!
# Hexadecimal floating-point numbers
-/

namespace Verif.Printf

open Spec Verif.Float Verif.Math.Spec

/-- `conv & 0x20`. -/
def low (u : Bool) : Nat := if u then 0 else 32

theorem hexChar_eq (u : Bool) (d : Nat) (h : d < 16) : hexChar d (low u) = digit u d := by
  have := hex_digit ⟨d, h⟩
  unfold hexChar low
  cases u
  · exact this.2
  · exact this.1

theorem pow16 (k : Nat) : 16 ^ k = 2 ^ (4 * k) := by rw [Nat.pow_mul]

theorem hexFixed_eq (u : Bool) (n x : Nat) : hexFixed (low u) n x = places 16 u n x := by
  induction n generalizing x with
  | zero => rfl
  | succ n ih =>
    simp only [hexFixed, places, ih, Nat.shiftRight_eq_div_pow, hexChar_eq u _ (Nat.mod_lt x (by decide : 0 < 16))]

/-- The digits of a word from the top until nothing is left. -/
theorem hexTop_eq (u : Bool) (W k i : Nat) (hk : k ≤ W) (hi : i < 16 ^ W) (hd : i % 16 ^ (W - k) = 0) :
    ∃ n, n ≤ k ∧ hexTop (4 * W) (low u) k i = places 16 u n (i / 16 ^ (W - n)) ∧ i % 16 ^ (W - n) = 0 ∧
      (n = 0 ↔ i = 0) ∧ (n = 0 ∨ i / 16 ^ (W - n) % 16 ≠ 0) := by
  induction k generalizing i with
  | zero =>
    refine ⟨0, Nat.le_refl _, rfl, hd, ?_, .inl rfl⟩
    rw [Nat.sub_zero, Nat.mod_eq_of_lt hi] at hd
    simp [hd]
  | succ k ih =>
    unfold hexTop
    by_cases h0 : i = 0
    · rw [if_pos h0]
      exact ⟨0, by omega, rfl, by rw [h0, Nat.zero_mod], by simp [h0], .inl rfl⟩
    · rw [if_neg h0]
      have hW : W = (W - 1) + 1 := by omega
      have hP : 16 ^ W = 16 ^ (W - 1) * 16 := by rw [← Nat.pow_succ]; congr 1
      have e1 : i * 16 % 2 ^ (4 * W) = i % 16 ^ (W - 1) * 16 := by
        rw [← pow16, hP, Nat.mul_mod_mul_right]
      have e2 : i >>> (4 * W - 4) = i / 16 ^ (W - 1) := by
        rw [Nat.shiftRight_eq_div_pow, pow16, Nat.mul_sub]
      have hlt := Nat.mod_lt i (Nat.pow_pos (n := W - 1) (show 0 < 16 by decide))
      have hdv : 16 ^ (W - (k + 1)) ∣ i := Nat.dvd_of_mod_eq_zero hd
      have hdv' : 16 ^ (W - (k + 1)) ∣ i % 16 ^ (W - 1) :=
        (Nat.dvd_mod_iff (Nat.pow_dvd_pow 16 (by omega))).2 hdv
      have hd' : i % 16 ^ (W - 1) * 16 % 16 ^ (W - k) = 0 := by
        rw [show W - k = W - (k + 1) + 1 by omega, Nat.pow_succ, Nat.mul_mod_mul_right, Nat.mod_eq_zero_of_dvd hdv', Nat.zero_mul]
      obtain ⟨n, n1, n2, n3, n4, n5⟩ := ih (i % 16 ^ (W - 1) * 16) (by omega) (by rw [hP]; omega) hd'
      have hq : i / 16 ^ (W - 1) < 16 := Nat.div_lt_of_lt_mul (by rw [hP] at hi; exact hi)
      -- what the rest prints, in terms of `i`
      have hsh : ∀ j, j < W → i % 16 ^ (W - 1) * 16 / 16 ^ (W - j) = i % 16 ^ (W - 1) / 16 ^ (W - (j + 1)) := by
        intro j hj
        rw [show W - j = W - (j + 1) + 1 by omega, Nat.pow_succ, Nat.mul_div_mul_right _ _ (by decide)]
      have hmd : i % 16 ^ (W - 1) / 16 ^ (W - (n + 1)) = i / 16 ^ (W - (n + 1)) % 16 ^ n := by
        have e : 16 ^ (W - 1) = 16 ^ (W - (n + 1)) * 16 ^ n := by rw [← Nat.pow_add]; congr 1; omega
        rw [e, Nat.mod_mul_right_div_self]
      have hmod0 : i % 16 ^ (W - (n + 1)) = 0 := by
        rw [show W - n = W - (n + 1) + 1 by omega, Nat.pow_succ, Nat.mul_mod_mul_right] at n3
        have h2 : i % 16 ^ (W - 1) % 16 ^ (W - (n + 1)) = 0 := by omega
        rwa [Nat.mod_mod_of_dvd _ (Nat.pow_dvd_pow 16 (by omega))] at h2
      refine ⟨n + 1, by omega, ?_, hmod0, by simp [h0], .inr ?_⟩
      · rw [e1, e2, n2, hsh n (by omega), hmd, places_mod 16 (by decide), hexChar_eq u _ hq, Nat.add_comm n 1,
          places_add 16 (by decide), Nat.add_comm 1 n, Nat.div_div_eq_div_mul, ← Nat.pow_add,
          show W - (n + 1) + n = W - 1 by omega]
        simp only [places, List.nil_append, List.cons_append, Nat.mod_eq_of_lt hq]
      · by_cases hn : n = 0
        · subst hn
          have hz := n4.1 rfl
          have hz' : i % 16 ^ (W - 1) = 0 := by omega
          rw [Nat.zero_add, Nat.mod_eq_of_lt hq]
          intro h
          have := Nat.div_add_mod i (16 ^ (W - 1))
          rw [h, hz'] at this
          omega
        · have h5 := n5.resolve_left hn
          rw [hsh n (by omega), hmd, Nat.mod_mod_of_dvd] at h5
          · exact h5
          · have := Nat.pow_dvd_pow 16 (show 1 ≤ n by omega)
            rwa [Nat.pow_one] at this

theorem hexTop_short {W n i j : Nat} (hn : n ≤ W) (h : n = 0 ∨ i / 16 ^ (W - n) % 16 ≠ 0) (hd : i % 16 ^ (W - j) = 0) : n ≤ j := by
  rcases h with h | h
  · omega
  · by_cases hj : n ≤ j
    · exact hj
    · exfalso
      apply h
      have h1 : 16 ^ (W - n + 1) ∣ i :=
        Nat.dvd_trans (Nat.pow_dvd_pow 16 (by omega)) (Nat.dvd_of_mod_eq_zero hd)
      obtain ⟨c, hc⟩ := h1
      rw [hc, Nat.pow_succ, Nat.mul_assoc, Nat.mul_div_cancel_left _ (Nat.pow_pos (by decide)), Nat.mul_mod_right]

/-- The digits of a number in `[16^n, 16^(n+1))` behind the first one. -/
theorem hexLow_eq (u : Bool) (n x : Nat) (s : List Nat) (h1 : 16 ^ n ≤ x ∨ n = 0) (h2 : x < 16 ^ (n + 1)) :
    hexLow (low u) x s = (x / 16 ^ n, places 16 u n x ++ s) := by
  induction n generalizing x s with
  | zero =>
    unfold hexLow
    rw [dif_neg (by omega)]
    simp [places]
  | succ n ih =>
    have hge : 16 ^ (n + 1) ≤ x := h1.resolve_right (by omega)
    have hp := Nat.pow_pos (n := n) (show 0 < 16 by decide)
    have e1 : 16 ^ (n + 1) = 16 ^ n * 16 := Nat.pow_succ ..
    have e2 : 16 ^ (n + 1 + 1) = 16 ^ (n + 1) * 16 := Nat.pow_succ ..
    unfold hexLow
    rw [dif_pos (by omega), ih (x >>> 4) _ (.inl (by rw [Nat.shiftRight_eq_div_pow]; omega)) (by rw [Nat.shiftRight_eq_div_pow]; omega),
      Nat.shiftRight_eq_div_pow, Nat.div_div_eq_div_mul, hexChar_eq u _ (Nat.mod_lt x (by decide : 0 < 16))]
    simp only [places, List.append_assoc, List.cons_append, List.nil_append]
    rw [Nat.mul_comm (2 ^ 4), e1]

theorem arrangeA_eq {sp : Opts} {d : Dir} {a : Ask} (h : Agrees sp d a) (sign head middle : List Nat) (rest : List (List Nat)) (j : Bool)
    (hj : j = false → middle = []) (length : Int) (hl : length = ((sign ++ head).length + (middle ++ rest.flatten).length : Nat)) :
    (arrangeA sp sign (padding sp length) head middle rest j).flatten = justifyF d a (sign ++ head) (middle ++ rest.flatten) ∧
    length + padding sp length = (justifyF d a (sign ++ head) (middle ++ rest.flatten)).length := by
  rw [padding_eq h length _ hl]
  constructor
  · unfold arrangeA justifyF
    simp only [h.minus, h.flag 48 (by decide), decide_eq_true_eq, List.length_append, Int.toNat_natCast]
    cases j with
    | false =>
      rw [hj rfl]
      by_cases h1 : a.minus = true
      · rw [if_pos h1, if_pos h1]; simp [pad_flatten, put_flatten]
      · rw [if_neg h1, if_neg h1]
        by_cases h2 : 48 ∈ d.flags
        · rw [if_pos h2, if_pos h2]; simp [pad_flatten, put_flatten]
        · rw [if_neg h2, if_neg h2]; simp [pad_flatten, put_flatten]
    | true =>
      by_cases h1 : a.minus = true
      · rw [if_pos h1, if_pos h1]; simp [pad_flatten, put_flatten]
      · rw [if_neg h1, if_neg h1]
        by_cases h2 : 48 ∈ d.flags
        · rw [if_pos h2, if_pos h2]; simp [pad_flatten, put_flatten]
        · rw [if_neg h2, if_neg h2]; simp [pad_flatten, put_flatten]
  · rw [justifyF_length, hl]; omega

/-- What the proofs need of the two instances. `k` digits hold the exponent. -/
structure HexFmt.Ok (H : HexFmt) (D W k : Nat) : Prop where
  f : H.fmt.f = 4 * D
  word : H.word = 4 * W
  room : D + 2 ≤ W
  unit : H.fmt.unit + 1 = H.fmt.bias + H.fmt.f
  bias : 1 ≤ H.fmt.bias ∧ H.fmt.bias < 10 ^ k
  one : 1 ≤ k
  size : D + k + 6 ≤ H.size
  some : 1 ≤ D
  inf : ∀ m, m < H.fmt.inf → m / 2 ^ H.fmt.f ≤ 2 * H.fmt.bias

theorem hexOk64 : hex64.Ok 13 16 4 := by
  refine ⟨by decide, by decide, by decide, by decide, by decide, by decide, by decide, by decide, ?_⟩
  intro m hm
  have : hex64.fmt.inf = 9218868437227405312 := by decide +kernel
  have : hex64.fmt.bias = 1023 := by decide
  have : hex64.fmt.f = 52 := by decide
  simp only [*] at *
  omega

theorem hexOk128 : hex128.Ok 28 32 5 := by
  refine ⟨by decide, by decide, by decide, by decide +kernel, by decide, by decide, by decide, by decide, ?_⟩
  intro m hm
  have : hex128.fmt.inf = 32767 * 2 ^ 112 := by decide +kernel
  have : hex128.fmt.bias = 16383 := by decide
  have : hex128.fmt.f = 112 := by decide
  simp only [*] at *
  omega

/-- The exponent printed. -/
def hexExp (F : Fmt) (m : Nat) : Int :=
  if m / 2 ^ F.f ≠ 0 then ((m / 2 ^ F.f : Nat) : Int) - F.bias else if m ≠ 0 then 1 - (F.bias : Int) else 0

/-- The digit before the point. -/
def hexLead (F : Fmt) (m : Nat) : Nat := if m / 2 ^ F.f ≠ 0 then 1 else 0

theorem hex_exact {H : HexFmt} {D W k : Nat} (o : H.Ok D W k) (m : Nat) :
    0 ≤ hexExp H.fmt m + H.fmt.unit ∧
    (hexLead H.fmt m * 16 ^ D + m % 2 ^ H.fmt.f) * 2 ^ (hexExp H.fmt m + H.fmt.unit).toNat = H.fmt.mag m * 16 ^ D := by
  have hp := Nat.two_pow_pos H.fmt.f
  have hu := o.unit
  have hb := o.bias
  rw [pow16, ← o.f]
  unfold hexExp hexLead
  by_cases h : m / 2 ^ H.fmt.f ≠ 0
  · rw [if_pos h, if_pos h]
    have hge : 2 ^ H.fmt.f ≤ m := by
      rcases Nat.lt_or_ge m (2 ^ H.fmt.f) with h' | h'
      · exact absurd (Nat.div_eq_of_lt h') h
      · exact h'
    rw [H.fmt.mag_normal hge]
    generalize m / 2 ^ H.fmt.f = q at *
    refine ⟨by omega, ?_⟩
    rw [show ((q : Int) - H.fmt.bias + H.fmt.unit).toNat = (q - 1) + H.fmt.f by omega,
      Nat.pow_add, Nat.one_mul, Nat.mul_assoc]
  · have h0 : m / 2 ^ H.fmt.f = 0 := by omega
    have hlt : m < 2 ^ H.fmt.f := by
      rcases Nat.lt_or_ge m (2 ^ H.fmt.f) with h' | h'
      · exact h'
      · have := Nat.div_pos h' hp; omega
    rw [if_neg h, if_neg h, H.fmt.mag_small hlt, Nat.mod_eq_of_lt hlt, Nat.zero_mul, Nat.zero_add]
    by_cases h1 : m ≠ 0
    · rw [if_pos h1]
      refine ⟨by omega, ?_⟩
      rw [show (1 - (H.fmt.bias : Int) + H.fmt.unit).toNat = H.fmt.f by omega]
    · have h2 : m = 0 := by omega
      subst h2
      rw [if_neg h1]
      refine ⟨by omega, by simp⟩

theorem hexExp_bound {H : HexFmt} {D W k : Nat} (o : H.Ok D W k) (m : Nat) (hm : m < H.fmt.inf) : (hexExp H.fmt m).natAbs < 10 ^ k := by
  have := o.inf m hm
  have := o.bias
  unfold hexExp
  generalize m / 2 ^ H.fmt.f = q at *
  split
  · omega
  · split <;> omega

/-- The text of the exponent. -/
def expText (u : Bool) (e : Int) : List Nat := [if u then 80 else 112, if e < 0 then 45 else 43] ++ numeral 10 false e.natAbs

theorem tail_eq (u : Bool) (e : Int) : (80 ||| low u) :: (if e < 0 then 45 else 43) :: ((if e = 0 then [48] else []) ++ decimal e.natAbs []) = expText u e := by
  have : (80 ||| low u) = if u then 80 else 112 := by cases u <;> rfl
  rw [this]
  unfold expText
  simp only [List.cons_append, List.nil_append]
  congr 2
  by_cases h : e = 0
  · subst h; rw [numeral_small 10 false _ (by decide), decimal_eq]; rfl
  · rw [if_neg h, List.nil_append, decimal_numeral _ (by omega)]

theorem expText_length (u : Bool) (e : Int) (k : Nat) (hk : 1 ≤ k) (h : e.natAbs < 10 ^ k) : (expText u e).length ≤ 2 + k := by
  unfold expText
  rw [List.length_append]
  have := (numeral_length 10 false (by decide) k e.natAbs hk).2 h
  simp only [List.length_cons, List.length_nil]; omega

theorem hexText_eq (d : Dir) (a : Ask) (u neg : Bool) (lead n H : Nat) (e : Int) :
    hexText d a u neg lead n H e = justifyF d a (signF d neg ++ [48, if u then 88 else 120])
      (digit u lead :: (point d n ++ places 16 u n H ++ expText u e)) := by
  unfold hexText expText; simp

theorem head_eq (u : Bool) : [48, 88 ||| low u] = [48, if u then 88 else 120] := by cases u <;> rfl

theorem lead_eq (F : Fmt) (m : Nat) (u : Bool) : (if m / 2 ^ F.f ≠ 0 then 49 else 48) = digit u (hexLead F m) := by
  unfold hexLead
  by_cases h : m / 2 ^ F.f ≠ 0
  · rw [if_pos h, if_pos h]; rfl
  · rw [if_neg h, if_neg h]; rfl

/-- The finite case of `hexfloat`. -/
theorem hexfloat_unfold (H : HexFmt) (sp : Opts) (u : Bool) (x : Nat) (hx : H.fmt.abs x < H.fmt.inf) :
    hexfloat H sp (low u) x =
      let m := H.fmt.abs x
      let sign := signchar (H.fmt.neg x) sp.flags
      let head := [48, if u then 88 else 120]
      let lead := digit u (hexLead H.fmt m)
      let tail := expText u (hexExp H.fmt m)
      if sp.precision < 0 then
        let mantissa := m * 2 ^ (H.word - H.fmt.f) % 2 ^ H.word
        let middle := lead :: ((if mantissa ≠ 0 ∨ has sp.flags 35 then [46] else []) ++ hexTop H.word (low u) (H.word / 4) mantissa)
        let length : Int := sign.length + (2 + middle.length : Nat) + tail.length
        some ⟨decide (H.size < 2 + middle.length + tail.length), arrangeA sp sign (padding sp length) head middle [tail] true,
          length + padding sp length, []⟩
      else if sp.precision < H.digits then
        let p := sp.precision.toNat
        let significand := m % 2 ^ H.fmt.f ||| (if m / 2 ^ H.fmt.f ≠ 0 then 2 ^ H.fmt.f else 0)
        let low' := significand * 2 ^ (H.word - H.fmt.f + 4 * p) % 2 ^ H.word
        let high := significand >>> (H.fmt.f - 4 * p)
        let carry := if 2 ^ (H.word - 1) < (high &&& 1 ||| low') then 1 else 0
        let r := hexLow (low u) (high + carry) tail
        let tail := hexChar (r.1 % 16) (low u) :: ((if pointed sp then [46] else []) ++ r.2)
        let length : Int := sign.length + 2 + tail.length
        some ⟨decide (H.size < 2 + tail.length), arrangeA sp sign (padding sp length) head [] [tail] false, length + padding sp length, []⟩
      else
        let middle := lead :: 46 :: hexFixed (low u) H.digits m
        let zeros := sp.precision - H.digits
        match chk32 (sign.length + (2 + middle.length : Nat) + zeros + tail.length) with
        | none => none
        | some length =>
          some ⟨decide (H.size < 2 + middle.length + tail.length),
            arrangeA sp sign (padding sp length) head middle (pad 48 zeros.toNat ++ [tail]) true, length + padding sp length, []⟩ := by
  unfold hexfloat
  simp only
  rw [if_neg (by omega), if_neg (by omega)]
  simp only [Nat.shiftRight_eq_div_pow (H.fmt.abs x)]
  rw [lead_eq H.fmt (H.fmt.abs x) u, head_eq, ← tail_eq u (hexExp H.fmt (H.fmt.abs x))]
  rfl

end Verif.Printf
