import Verif.Strtol.Finish

/-!
# Properties of the integer parsers

The string is split as `blank ++ r` into its initial white space and the rest.
-/

namespace Verif.Strtol

/-- **C32** (`strtol`). The longest subject sequence is converted, clamped to the range of `long` with
ERANGE, and the stored pointer is just after it. Missing: the value LONG_MIN itself, for which the
multiplication by the sign overflows, see `C32_min_undefined`. -/
theorem C32_strtol_partial (blank r : List Int) (base : Nat) (hbase : base = 0 ∨ (2 ≤ base ∧ base ≤ 36))
    (hs : IsString (blank ++ r)) (hb : Blank blank) (hr : ∀ c ∈ r.head?, ¬ White c)
    (w : List Int) (neg : Bool) (radix : Nat) (digits : List Int) (hL : Longest base r w neg radix digits)
    (hmin : denoted neg radix digits ≠ -2147483648) :
    strtol (blank ++ r) base = some
      (if denoted neg radix digits < -2147483648 then ⟨-2147483648, blank.length + w.length, true⟩
       else if 2147483647 < denoted neg radix digits then ⟨2147483647, blank.length + w.length, true⟩
       else ⟨denoted neg radix digits, blank.length + w.length, false⟩) := by
  obtain ⟨acc, hrep, e⟩ := parse_longest 32 (by decide) true blank r base 2147483647 hbase hs hb hr w neg radix digits hL
  unfold strtol
  unfold denoted at *
  rw [e, show (2147483647 : Nat) = 2 ^ (32 - 1) - 1 from rfl, finish_signed 32 (by decide) neg acc _ _ hrep (by
    rintro rfl h; apply hmin; simp only [if_true, h]; decide)]
  rfl

/-- **C32** (`strtoll`). As `C32_strtol_partial` for `long long`; missing: the value LLONG_MIN. -/
theorem C32_strtoll_partial (blank r : List Int) (base : Nat) (hbase : base = 0 ∨ (2 ≤ base ∧ base ≤ 36))
    (hs : IsString (blank ++ r)) (hb : Blank blank) (hr : ∀ c ∈ r.head?, ¬ White c)
    (w : List Int) (neg : Bool) (radix : Nat) (digits : List Int) (hL : Longest base r w neg radix digits)
    (hmin : denoted neg radix digits ≠ -9223372036854775808) :
    strtoll (blank ++ r) base = some
      (if denoted neg radix digits < -9223372036854775808 then ⟨-9223372036854775808, blank.length + w.length, true⟩
       else if 9223372036854775807 < denoted neg radix digits then
         ⟨9223372036854775807, blank.length + w.length, true⟩
       else ⟨denoted neg radix digits, blank.length + w.length, false⟩) := by
  obtain ⟨acc, hrep, e⟩ := parse_longest 64 (by decide) true blank r base 9223372036854775807 hbase hs hb hr w neg radix digits hL
  unfold strtoll
  unfold denoted at *
  rw [e, show (9223372036854775807 : Nat) = 2 ^ (64 - 1) - 1 from rfl, finish_signed 64 (by decide) neg acc _ _ hrep (by
    rintro rfl h; apply hmin; simp only [if_true, h]; decide)]
  rfl

/-- **C32** (`strtoul`). A magnitude that fits is negated modulo 2^32 after a minus sign; a magnitude
that does not gives ULONG_MAX and ERANGE. -/
theorem C32_strtoul (blank r : List Int) (base : Nat) (hbase : base = 0 ∨ (2 ≤ base ∧ base ≤ 36))
    (hs : IsString (blank ++ r)) (hb : Blank blank) (hr : ∀ c ∈ r.head?, ¬ White c)
    (w : List Int) (neg : Bool) (radix : Nat) (digits : List Int) (hL : Longest base r w neg radix digits) :
    strtoul (blank ++ r) base = some
      (if 4294967295 < value radix digits then ⟨4294967295, blank.length + w.length, true⟩
       else ⟨denoted neg radix digits % 4294967296, blank.length + w.length, false⟩) := by
  obtain ⟨acc, hrep, e⟩ := parse_longest 32 (by decide) false blank r base 4294967295 hbase hs hb hr w neg radix digits hL
  unfold strtoul
  unfold denoted
  rw [e, show (4294967295 : Nat) = 2 ^ 32 - 1 from rfl, finish_unsigned 32 neg acc _ _ hrep]
  rfl

/-- **C32** (`strtoull`). As `C32_strtoul` for `unsigned long long`. -/
theorem C32_strtoull (blank r : List Int) (base : Nat) (hbase : base = 0 ∨ (2 ≤ base ∧ base ≤ 36))
    (hs : IsString (blank ++ r)) (hb : Blank blank) (hr : ∀ c ∈ r.head?, ¬ White c)
    (w : List Int) (neg : Bool) (radix : Nat) (digits : List Int) (hL : Longest base r w neg radix digits) :
    strtoull (blank ++ r) base = some
      (if 18446744073709551615 < value radix digits then ⟨18446744073709551615, blank.length + w.length, true⟩
       else ⟨denoted neg radix digits % 18446744073709551616, blank.length + w.length, false⟩) := by
  obtain ⟨acc, hrep, e⟩ := parse_longest 64 (by decide) false blank r base 18446744073709551615 hbase hs hb hr w neg radix digits hL
  unfold strtoull
  unfold denoted
  rw [e, show (18446744073709551615 : Nat) = 2 ^ 64 - 1 from rfl, finish_unsigned 64 neg acc _ _ hrep]
  rfl

/-- **C32** (no conversion). If no prefix of the rest has the expected form, each of the four returns 0
without error and stores the pointer to the start of the string. -/
theorem C32_no_conversion (blank r : List Int) (base : Nat) (hbase : base = 0 ∨ (2 ≤ base ∧ base ≤ 36))
    (hs : IsString (blank ++ r)) (hb : Blank blank) (hr : ∀ c ∈ r.head?, ¬ White c)
    (hno : ∀ w neg radix digits, w <+: r → ¬ Subject base w neg radix digits) :
    strtol (blank ++ r) base = some ⟨0, 0, false⟩ ∧ strtoll (blank ++ r) base = some ⟨0, 0, false⟩ ∧
    strtoul (blank ++ r) base = some ⟨0, 0, false⟩ ∧ strtoull (blank ++ r) base = some ⟨0, 0, false⟩ := by
  refine ⟨?_, ?_, ?_, ?_⟩
  · obtain ⟨neg, acc, hrep, e⟩ := parse_none 32 (by decide) true blank r base 2147483647 hbase hs hb hr hno
    unfold strtol
    rw [e, show (2147483647 : Nat) = 2 ^ (32 - 1) - 1 from rfl, finish_signed 32 (by decide) neg acc _ _ hrep (by simp)]
    cases neg <;> decide
  · obtain ⟨neg, acc, hrep, e⟩ := parse_none 64 (by decide) true blank r base 9223372036854775807 hbase hs hb hr hno
    unfold strtoll
    rw [e, show (9223372036854775807 : Nat) = 2 ^ (64 - 1) - 1 from rfl, finish_signed 64 (by decide) neg acc _ _ hrep (by simp)]
    cases neg <;> decide
  · obtain ⟨neg, acc, hrep, e⟩ := parse_none 32 (by decide) false blank r base 4294967295 hbase hs hb hr hno
    unfold strtoul
    rw [e, show (4294967295 : Nat) = 2 ^ 32 - 1 from rfl, finish_unsigned 32 neg acc _ _ hrep]
    cases neg <;> decide
  · obtain ⟨neg, acc, hrep, e⟩ := parse_none 64 (by decide) false blank r base 18446744073709551615 hbase hs hb hr hno
    unfold strtoull
    rw [e, show (18446744073709551615 : Nat) = 2 ^ 64 - 1 from rfl, finish_unsigned 64 neg acc _ _ hrep]
    cases neg <;> decide

/-- **C32** (violation). Every string denoting exactly LONG_MIN (LLONG_MIN for `strtoll`) makes the
signed multiplication `sign * (Integer)magnitude` overflow. -/
theorem C32_min_undefined (blank r : List Int) (base : Nat) (hbase : base = 0 ∨ (2 ≤ base ∧ base ≤ 36))
    (hs : IsString (blank ++ r)) (hb : Blank blank) (hr : ∀ c ∈ r.head?, ¬ White c)
    (w : List Int) (neg : Bool) (radix : Nat) (digits : List Int) (hL : Longest base r w neg radix digits) :
    (denoted neg radix digits = -2147483648 → strtol (blank ++ r) base = none) ∧
    (denoted neg radix digits = -9223372036854775808 → strtoll (blank ++ r) base = none) := by
  unfold denoted
  constructor
  · intro h
    obtain ⟨acc, hrep, e⟩ := parse_longest 32 (by decide) true blank r base 2147483647 hbase hs hb hr w neg radix digits hL
    cases neg
    · simp at h
    · simp at h
      have hv : value radix digits = 2147483648 := by omega
      rw [hv] at hrep
      exact e.trans (finish_min 32 (by decide) acc _ hrep)
  · intro h
    obtain ⟨acc, hrep, e⟩ := parse_longest 64 (by decide) true blank r base 9223372036854775807 hbase hs hb hr w neg radix digits hL
    cases neg
    · simp at h
    · simp at h
      have hv : value radix digits = 9223372036854775808 := by omega
      rw [hv] at hrep
      exact e.trans (finish_min 64 (by decide) acc _ hrep)

/-- **C74** (`atoi`, `atol`, `atoll`). The value of the longest decimal subject sequence, when its
magnitude is at most INT_MAX (LONG_MAX, LLONG_MAX). Missing: the values INT_MIN, LONG_MIN and
LLONG_MIN, for which see `C74_min_undefined`. -/
theorem C74_atoi_partial (blank r : List Int) (hs : IsString (blank ++ r)) (hb : Blank blank)
    (hr : ∀ c ∈ r.head?, ¬ White c) (w : List Int) (neg : Bool) (radix : Nat) (digits : List Int)
    (hL : Longest 10 r w neg radix digits) :
    (value 10 digits ≤ 2147483647 → atoi 32 (blank ++ r) = some (denoted neg 10 digits)) ∧
    (value 10 digits ≤ 9223372036854775807 → atoi 64 (blank ++ r) = some (denoted neg 10 digits)) := by
  constructor
  · intro h
    exact atoi_eq 32 (.inl rfl) blank r hs hb hr w neg radix digits hL
      (show _ < 2147483648 by omega)
  · intro h
    exact atoi_eq 64 (.inr rfl) blank r hs hb hr w neg radix digits hL
      (show _ < 9223372036854775808 by omega)

/-- **C74** (violation). "-2147483648" and "-9223372036854775808" overflow. -/
theorem C74_min_undefined :
    atoi 32 [45, 50, 49, 52, 55, 52, 56, 51, 54, 52, 56] = none ∧
    atoi 64 [45, 57, 50, 50, 51, 51, 55, 50, 48, 51, 54, 56, 53, 52, 55, 55, 53, 56, 48, 56] = none := by
  decide +kernel

/-- The hypotheses hold for " -0x1Fg": the white space is one blank, the subject "-0x1F". -/
example : IsString ([32] ++ [45, 48, 120, 49, 70, 103]) ∧ Blank [32] ∧
    Subject 0 [45, 48, 120, 49, 70] true 16 [49, 70] ∧ denoted true 16 [49, 70] = -31 ∧
    strtol ([32] ++ [45, 48, 120, 49, 70, 103]) 0 = some ⟨-31, 6, false⟩ ∧
    strtoul ([32] ++ [45, 48, 120, 49, 70, 103]) 0 = some ⟨4294967265, 6, false⟩ := by
  refine ⟨?_, ?_, ?_, by decide, by decide +kernel, by decide +kernel⟩
  · unfold IsString; decide
  · unfold Blank; decide
  · exact .mk [45] [48, 120] [49, 70] true 16 (by simp) (by simp) (by simp) (by simp) (by
      intro c hc
      simp at hc
      rcases hc with rfl | rfl
      · exact ⟨1, by decide, by decide⟩
      · exact ⟨15, by decide, by decide⟩)

/-- In "0xg" the subject sequence is the zero; in "- 1" there is none. -/
example : strtol [48, 120, 103] 0 = some ⟨0, 1, false⟩ ∧ strtol [45, 32, 49] 0 = some ⟨0, 0, false⟩ ∧
    strtol [57, 57, 57, 57, 57, 57, 57, 57, 57, 57] 10 = some ⟨2147483647, 10, true⟩ ∧
    strtol [45, 50, 49, 52, 55, 52, 56, 51, 54, 52, 56] 10 = none := by
  decide +kernel

/-- A longest subject sequence: "7" in "7!" with base 10. -/
example : Longest 10 [55, 33] [55] false 10 [55] := by
  refine ⟨⟨[33], rfl⟩, .mk [] [] [55] false 10 (by simp) (by simp) (by simp) (by simp) (by
    intro c hc; simp at hc; subst hc; exact ⟨7, by decide, by decide⟩), ?_⟩
  intro w' neg' radix' digits' hp hS
  obtain ⟨-, pre, e, hp1, hpre, hradix, -, hd⟩ := subject_sign (sg := []) (neg := false) (.inl ⟨rfl, rfl⟩)
    (by simp [cur]) hp hS
  have hpn : pre = [] := by rcases hpre with h | ⟨h, -⟩; exact h; omega
  subst hpn
  rw [e]
  simp only [List.nil_append, List.length_cons, List.length_nil] at hp1 ⊢
  match digits' with
  | [] => simp
  | [_] => simp
  | a :: b :: t =>
    exfalso
    obtain ⟨-, h2⟩ := List.cons_prefix_cons.mp hp1
    obtain ⟨rfl, -⟩ := List.cons_prefix_cons.mp h2
    obtain ⟨d, hd1, -⟩ := hd 33 (by simp)
    have : digitVal 33 = none := by decide
    rw [this] at hd1; simp at hd1

end Verif.Strtol
