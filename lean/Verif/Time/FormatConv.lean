import Verif.Time.FormatLemmas

/-!
# Every conversion of `strftime`
-/

namespace Verif.Time

theorem emit_Y {tm : Tm} (hs : Std tm) (max d : Nat) : Emits max (fun b => emitOne tm max (d + 1) b 'Y') (conv tm 'Y') := by
  have h1 := hs.sec; have h2 := hs.min; have h3 := hs.hour; have h4 := hs.mday
  have h5 := hs.mon; have h6 := hs.year; have h7 := hs.wday; have h8 := hs.yday
  simp only [emitOne]
  generalize emitOne tm max d = rec
  simp [emitConv, conv, chk32_ok (show -2147483648 ≤ tm.year + 1900 ∧ tm.year + 1900 ≤ 2147483647 by omega)]
  exact emits_dec max _ _ _ (by omega) (by omega)

theorem emit_m {tm : Tm} (hs : Std tm) (max d : Nat) : Emits max (fun b => emitOne tm max (d + 1) b 'm') (conv tm 'm') := by
  have h1 := hs.sec; have h2 := hs.min; have h3 := hs.hour; have h4 := hs.mday
  have h5 := hs.mon; have h6 := hs.year; have h7 := hs.wday; have h8 := hs.yday
  simp only [emitOne]
  generalize emitOne tm max d = rec
  simp [emitConv, conv, chk32_ok (show -2147483648 ≤ tm.mon + 1 ∧ tm.mon + 1 ≤ 2147483647 by omega)]
  exact emits_dec max _ _ _ (by omega) (by omega)

theorem emit_j {tm : Tm} (hs : Std tm) (max d : Nat) : Emits max (fun b => emitOne tm max (d + 1) b 'j') (conv tm 'j') := by
  have h1 := hs.sec; have h2 := hs.min; have h3 := hs.hour; have h4 := hs.mday
  have h5 := hs.mon; have h6 := hs.year; have h7 := hs.wday; have h8 := hs.yday
  simp only [emitOne]
  generalize emitOne tm max d = rec
  simp [emitConv, conv, chk32_ok (show -2147483648 ≤ tm.yday + 1 ∧ tm.yday + 1 ≤ 2147483647 by omega)]
  exact emits_dec max _ _ _ (by omega) (by omega)

theorem emit_y {tm : Tm} (hs : Std tm) (max d : Nat) : Emits max (fun b => emitOne tm max (d + 1) b 'y') (conv tm 'y') := by
  have h1 := hs.sec; have h2 := hs.min; have h3 := hs.hour; have h4 := hs.mday
  have h5 := hs.mon; have h6 := hs.year; have h7 := hs.wday; have h8 := hs.yday
  simp only [emitOne]
  generalize emitOne tm max d = rec
  simp [emitConv, conv, chk32_ok (show -2147483648 ≤ tm.year + 1900 ∧ tm.year + 1900 ≤ 2147483647 by omega)]
  rw [Int.tmod_eq_emod_of_nonneg (by omega)]
  exact emits_dec max _ _ _ (by omega) (by omega)

theorem emit_C {tm : Tm} (hs : Std tm) (max d : Nat) : Emits max (fun b => emitOne tm max (d + 1) b 'C') (conv tm 'C') := by
  have h1 := hs.sec; have h2 := hs.min; have h3 := hs.hour; have h4 := hs.mday
  have h5 := hs.mon; have h6 := hs.year; have h7 := hs.wday; have h8 := hs.yday
  simp only [emitOne]
  generalize emitOne tm max d = rec
  simp [emitConv, conv, chk32_ok (show -2147483648 ≤ tm.year + 1900 ∧ tm.year + 1900 ≤ 2147483647 by omega)]
  rw [Int.tdiv_eq_ediv_of_nonneg (by omega)]
  exact emits_dec max _ _ _ (by omega) (by omega)

theorem emit_d {tm : Tm} (hs : Std tm) (max d : Nat) : Emits max (fun b => emitOne tm max (d + 1) b 'd') (conv tm 'd') := by
  have h1 := hs.sec; have h2 := hs.min; have h3 := hs.hour; have h4 := hs.mday
  have h5 := hs.mon; have h6 := hs.year; have h7 := hs.wday; have h8 := hs.yday
  simp only [emitOne]
  generalize emitOne tm max d = rec
  simp [emitConv, conv]
  exact emits_dec max _ _ _ (by omega) (by omega)

theorem emit_e {tm : Tm} (hs : Std tm) (max d : Nat) : Emits max (fun b => emitOne tm max (d + 1) b 'e') (conv tm 'e') := by
  have h1 := hs.sec; have h2 := hs.min; have h3 := hs.hour; have h4 := hs.mday
  have h5 := hs.mon; have h6 := hs.year; have h7 := hs.wday; have h8 := hs.yday
  simp only [emitOne]
  generalize emitOne tm max d = rec
  simp [emitConv, conv]
  exact emits_dec max _ _ _ (by omega) (by omega)

theorem emit_H {tm : Tm} (hs : Std tm) (max d : Nat) : Emits max (fun b => emitOne tm max (d + 1) b 'H') (conv tm 'H') := by
  have h1 := hs.sec; have h2 := hs.min; have h3 := hs.hour; have h4 := hs.mday
  have h5 := hs.mon; have h6 := hs.year; have h7 := hs.wday; have h8 := hs.yday
  simp only [emitOne]
  generalize emitOne tm max d = rec
  simp [emitConv, conv]
  exact emits_dec max _ _ _ (by omega) (by omega)

theorem emit_M {tm : Tm} (hs : Std tm) (max d : Nat) : Emits max (fun b => emitOne tm max (d + 1) b 'M') (conv tm 'M') := by
  have h1 := hs.sec; have h2 := hs.min; have h3 := hs.hour; have h4 := hs.mday
  have h5 := hs.mon; have h6 := hs.year; have h7 := hs.wday; have h8 := hs.yday
  simp only [emitOne]
  generalize emitOne tm max d = rec
  simp [emitConv, conv]
  exact emits_dec max _ _ _ (by omega) (by omega)

theorem emit_S {tm : Tm} (hs : Std tm) (max d : Nat) : Emits max (fun b => emitOne tm max (d + 1) b 'S') (conv tm 'S') := by
  have h1 := hs.sec; have h2 := hs.min; have h3 := hs.hour; have h4 := hs.mday
  have h5 := hs.mon; have h6 := hs.year; have h7 := hs.wday; have h8 := hs.yday
  simp only [emitOne]
  generalize emitOne tm max d = rec
  simp [emitConv, conv]
  exact emits_dec max _ _ _ (by omega) (by omega)

theorem emit_I {tm : Tm} (hs : Std tm) (max d : Nat) : Emits max (fun b => emitOne tm max (d + 1) b 'I') (conv tm 'I') := by
  have h1 := hs.sec; have h2 := hs.min; have h3 := hs.hour; have h4 := hs.mday
  have h5 := hs.mon; have h6 := hs.year; have h7 := hs.wday; have h8 := hs.yday
  simp only [emitOne]
  generalize emitOne tm max d = rec
  simp [emitConv, conv, hour12]
  rw [Int.tmod_eq_emod_of_nonneg (by omega)]
  exact emits_dec max _ _ _ (by split <;> omega) (by split <;> omega)

theorem emit_p {tm : Tm} (hs : Std tm) (max d : Nat) : Emits max (fun b => emitOne tm max (d + 1) b 'p') (conv tm 'p') := by
  have h1 := hs.sec; have h2 := hs.min; have h3 := hs.hour; have h4 := hs.mday
  have h5 := hs.mon; have h6 := hs.year; have h7 := hs.wday; have h8 := hs.yday
  simp only [emitOne]
  generalize emitOne tm max d = rec
  simp [emitConv, conv, ampm]
  split
  · exact emits_str max ['A', 'M']
  · exact emits_str max ['P', 'M']

theorem emit_A {tm : Tm} (hs : Std tm) (max d : Nat) : Emits max (fun b => emitOne tm max (d + 1) b 'A') (conv tm 'A') := by
  have h1 := hs.sec; have h2 := hs.min; have h3 := hs.hour; have h4 := hs.mday
  have h5 := hs.mon; have h6 := hs.year; have h7 := hs.wday; have h8 := hs.yday
  simp only [emitOne]
  generalize emitOne tm max d = rec
  simp [emitConv, conv]
  refine emits_name (by omega) (by omega) ?_
  have hw : tm.wday = 0 ∨ tm.wday = 1 ∨ tm.wday = 2 ∨ tm.wday = 3 ∨ tm.wday = 4 ∨ tm.wday = 5 ∨ tm.wday = 6 := by omega
  unfold weekday
  rcases hw with h | h | h | h | h | h | h <;> rw [h] <;> rfl

theorem emit_a {tm : Tm} (hs : Std tm) (max d : Nat) : Emits max (fun b => emitOne tm max (d + 1) b 'a') (conv tm 'a') := by
  have h1 := hs.sec; have h2 := hs.min; have h3 := hs.hour; have h4 := hs.mday
  have h5 := hs.mon; have h6 := hs.year; have h7 := hs.wday; have h8 := hs.yday
  simp only [emitOne]
  generalize emitOne tm max d = rec
  simp [emitConv, conv]
  refine emits_name (by omega) (by omega) ?_
  have hw : tm.wday = 0 ∨ tm.wday = 1 ∨ tm.wday = 2 ∨ tm.wday = 3 ∨ tm.wday = 4 ∨ tm.wday = 5 ∨ tm.wday = 6 := by omega
  unfold weekday
  rcases hw with h | h | h | h | h | h | h <;> rw [h] <;> rfl

theorem emit_B {tm : Tm} (hs : Std tm) (max d : Nat) : Emits max (fun b => emitOne tm max (d + 1) b 'B') (conv tm 'B') := by
  have h1 := hs.sec; have h2 := hs.min; have h3 := hs.hour; have h4 := hs.mday
  have h5 := hs.mon; have h6 := hs.year; have h7 := hs.wday; have h8 := hs.yday
  simp only [emitOne]
  generalize emitOne tm max d = rec
  simp [emitConv, conv]
  refine emits_name (by omega) (by omega) ?_
  have hw : tm.mon = 0 ∨ tm.mon = 1 ∨ tm.mon = 2 ∨ tm.mon = 3 ∨ tm.mon = 4 ∨ tm.mon = 5 ∨ tm.mon = 6 ∨ tm.mon = 7 ∨ tm.mon = 8 ∨ tm.mon = 9 ∨ tm.mon = 10 ∨ tm.mon = 11 := by omega
  unfold monthName
  rcases hw with h | h | h | h | h | h | h | h | h | h | h | h <;> rw [h] <;> rfl

theorem emit_b {tm : Tm} (hs : Std tm) (max d : Nat) : Emits max (fun b => emitOne tm max (d + 1) b 'b') (conv tm 'b') := by
  have h1 := hs.sec; have h2 := hs.min; have h3 := hs.hour; have h4 := hs.mday
  have h5 := hs.mon; have h6 := hs.year; have h7 := hs.wday; have h8 := hs.yday
  simp only [emitOne]
  generalize emitOne tm max d = rec
  simp [emitConv, conv]
  refine emits_name (by omega) (by omega) ?_
  have hw : tm.mon = 0 ∨ tm.mon = 1 ∨ tm.mon = 2 ∨ tm.mon = 3 ∨ tm.mon = 4 ∨ tm.mon = 5 ∨ tm.mon = 6 ∨ tm.mon = 7 ∨ tm.mon = 8 ∨ tm.mon = 9 ∨ tm.mon = 10 ∨ tm.mon = 11 := by omega
  unfold monthName
  rcases hw with h | h | h | h | h | h | h | h | h | h | h | h <;> rw [h] <;> rfl

theorem emit_h {tm : Tm} (hs : Std tm) (max d : Nat) : Emits max (fun b => emitOne tm max (d + 1) b 'h') (conv tm 'h') := by
  have h1 := hs.sec; have h2 := hs.min; have h3 := hs.hour; have h4 := hs.mday
  have h5 := hs.mon; have h6 := hs.year; have h7 := hs.wday; have h8 := hs.yday
  simp only [emitOne]
  generalize emitOne tm max d = rec
  simp [emitConv, conv]
  refine emits_name (by omega) (by omega) ?_
  have hw : tm.mon = 0 ∨ tm.mon = 1 ∨ tm.mon = 2 ∨ tm.mon = 3 ∨ tm.mon = 4 ∨ tm.mon = 5 ∨ tm.mon = 6 ∨ tm.mon = 7 ∨ tm.mon = 8 ∨ tm.mon = 9 ∨ tm.mon = 10 ∨ tm.mon = 11 := by omega
  unfold monthName
  rcases hw with h | h | h | h | h | h | h | h | h | h | h | h <;> rw [h] <;> rfl

theorem emit_u {tm : Tm} (hs : Std tm) (max d : Nat) : Emits max (fun b => emitOne tm max (d + 1) b 'u') (conv tm 'u') := by
  have h1 := hs.sec; have h2 := hs.min; have h3 := hs.hour; have h4 := hs.mday
  have h5 := hs.mon; have h6 := hs.year; have h7 := hs.wday; have h8 := hs.yday
  simp only [emitOne]
  generalize emitOne tm max d = rec
  simp [emitConv, conv, dec_width_one]
  exact emits_dec max _ _ _ (by split <;> omega) (by split <;> omega)

theorem emit_w {tm : Tm} (hs : Std tm) (max d : Nat) : Emits max (fun b => emitOne tm max (d + 1) b 'w') (conv tm 'w') := by
  have h1 := hs.sec; have h2 := hs.min; have h3 := hs.hour; have h4 := hs.mday
  have h5 := hs.mon; have h6 := hs.year; have h7 := hs.wday; have h8 := hs.yday
  simp only [emitOne]
  generalize emitOne tm max d = rec
  simp [emitConv, conv, dec_width_one]
  exact emits_dec max _ _ _ (by omega) (by omega)

theorem emit_Z {tm : Tm} (hs : Std tm) (max d : Nat) : Emits max (fun b => emitOne tm max (d + 1) b 'Z') (conv tm 'Z') := by
  have h1 := hs.sec; have h2 := hs.min; have h3 := hs.hour; have h4 := hs.mday
  have h5 := hs.mon; have h6 := hs.year; have h7 := hs.wday; have h8 := hs.yday
  simp only [emitOne]
  generalize emitOne tm max d = rec
  simp [emitConv, conv]
  exact emits_nil max

theorem emit_n {tm : Tm} (hs : Std tm) (max d : Nat) : Emits max (fun b => emitOne tm max (d + 1) b 'n') (conv tm 'n') := by
  have h1 := hs.sec; have h2 := hs.min; have h3 := hs.hour; have h4 := hs.mday
  have h5 := hs.mon; have h6 := hs.year; have h7 := hs.wday; have h8 := hs.yday
  simp only [emitOne]
  generalize emitOne tm max d = rec
  simp [emitConv, conv]
  exact emits_char max _

theorem emit_t {tm : Tm} (hs : Std tm) (max d : Nat) : Emits max (fun b => emitOne tm max (d + 1) b 't') (conv tm 't') := by
  have h1 := hs.sec; have h2 := hs.min; have h3 := hs.hour; have h4 := hs.mday
  have h5 := hs.mon; have h6 := hs.year; have h7 := hs.wday; have h8 := hs.yday
  simp only [emitOne]
  generalize emitOne tm max d = rec
  simp [emitConv, conv]
  exact emits_char max _

theorem emit_pct {tm : Tm} (hs : Std tm) (max d : Nat) : Emits max (fun b => emitOne tm max (d + 1) b '%') (conv tm '%') := by
  have h1 := hs.sec; have h2 := hs.min; have h3 := hs.hour; have h4 := hs.mday
  have h5 := hs.mon; have h6 := hs.year; have h7 := hs.wday; have h8 := hs.yday
  simp only [emitOne]
  generalize emitOne tm max d = rec
  simp [emitConv, conv]
  exact emits_char max _

/-- Conversions other than the composite ones, at any depth of recursion. -/
theorem emit_simple {tm : Tm} (hs : Std tm) (max d : Nat) (c : Char) (hc : c ∉ composite) :
    Emits max (fun b => emitOne tm max (d + 1) b c) (conv tm c) := by
  by_cases k0 : c = 'Y'
  · subst k0; exact emit_Y hs max d
  by_cases k1 : c = 'y'
  · subst k1; exact emit_y hs max d
  by_cases k2 : c = 'C'
  · subst k2; exact emit_C hs max d
  by_cases k3 : c = 'm'
  · subst k3; exact emit_m hs max d
  by_cases k4 : c = 'd'
  · subst k4; exact emit_d hs max d
  by_cases k5 : c = 'e'
  · subst k5; exact emit_e hs max d
  by_cases k6 : c = 'H'
  · subst k6; exact emit_H hs max d
  by_cases k7 : c = 'I'
  · subst k7; exact emit_I hs max d
  by_cases k8 : c = 'M'
  · subst k8; exact emit_M hs max d
  by_cases k9 : c = 'S'
  · subst k9; exact emit_S hs max d
  by_cases k10 : c = 'j'
  · subst k10; exact emit_j hs max d
  by_cases k11 : c = 'p'
  · subst k11; exact emit_p hs max d
  by_cases k12 : c = 'A'
  · subst k12; exact emit_A hs max d
  by_cases k13 : c = 'a'
  · subst k13; exact emit_a hs max d
  by_cases k14 : c = 'B'
  · subst k14; exact emit_B hs max d
  by_cases k15 : c = 'b'
  · subst k15; exact emit_b hs max d
  by_cases k16 : c = 'h'
  · subst k16; exact emit_h hs max d
  by_cases k17 : c = 'u'
  · subst k17; exact emit_u hs max d
  by_cases k18 : c = 'w'
  · subst k18; exact emit_w hs max d
  by_cases k19 : c = 'Z'
  · subst k19; exact emit_Z hs max d
  by_cases k20 : c = 'n'
  · subst k20; exact emit_n hs max d
  by_cases k21 : c = 't'
  · subst k21; exact emit_t hs max d
  by_cases k22 : c = '%'
  · subst k22; exact emit_pct hs max d
  simp only [composite, List.mem_cons, List.not_mem_nil, or_false, not_or] at hc
  obtain ⟨c1, c2, c3, c4, c5, c6, c7, c8⟩ := hc
  have hconv : conv tm c = ['%', c] := by
    rw [conv]
    all_goals assumption
  rw [hconv]
  have e : (fun b => emitOne tm max (d + 1) b c) =
      andThen (fun b => some (appendChar max b '%')) (fun b => some (appendChar max b c)) := by
    funext b
    show _ = match some (appendChar max b '%') with
      | none => none | some (true, b') => some (true, b') | some (false, b') => some (appendChar max b' c)
    simp only [emitOne, emitConv, k0, k1, k2, k3, k4, k5, k6, k7, k8, k9, k10, k11, k12, k13, k14, k15, k16, k17, k18, k19, k20, k21, k22, c1, c2, c3, c4, c5, c6, c7, c8,
      if_false, or_self]
    rcases appendChar max b '%' with ⟨_ | _, b'⟩ <;> rfl
  rw [e]
  exact emits_seq (emits_char max '%') (emits_char max c)

/-- A composite conversion is the expansion of its format. -/
theorem emit_sub {tm : Tm} (hs : Std tm) (max d : Nat) (fmt T : List Char) (hT : Text tm fmt T)
    (hf : ∀ c ∈ fmt, c ∉ composite) :
    Emits max (fun b => format (emitOne tm max (d + 1)) max b fmt) T :=
  emits_format hT fun c hc => emit_simple hs max d c (hf c hc)

theorem emit_c2 {tm : Tm} (hs : Std tm) (max d : Nat) : Emits max (fun b => emitOne tm max (d + 2) b 'c') (conv tm 'c') := by
  have h := emit_sub hs max d "%a %b %e %H:%M:%S %Y".toList _ (.conv (by decide) (by decide) (.lit (by decide) (.conv (by decide) (by decide) (.lit (by decide) (.conv (by decide) (by decide) (.lit (by decide) (.conv (by decide) (by decide) (.lit (by decide) (.conv (by decide) (by decide) (.lit (by decide) (.conv (by decide) (by decide) (.lit (by decide) (.conv (by decide) (by decide) .nil))))))))))))) (by decide)
  have e : (fun b => emitOne tm max (d + 2) b 'c') = fun b => format (emitOne tm max (d + 1)) max b "%a %b %e %H:%M:%S %Y".toList := by
    funext b
    rw [emitOne]
    generalize emitOne tm max (d + 1) = rec
    simp [emitConv]
  rw [e]
  have e2 : conv tm 'a' ++ (' ' :: (conv tm 'b' ++ (' ' :: (conv tm 'e' ++ (' ' :: (conv tm 'H' ++ (':' :: (conv tm 'M' ++ (':' :: (conv tm 'S' ++ (' ' :: (conv tm 'Y' ++ ([]))))))))))))) = conv tm 'c' := by
    simp only [conv, hms, mdy, List.append_assoc, List.cons_append, List.nil_append, List.append_nil]
  rw [← e2]
  exact h

theorem emit_x2 {tm : Tm} (hs : Std tm) (max d : Nat) : Emits max (fun b => emitOne tm max (d + 2) b 'x') (conv tm 'x') := by
  have h := emit_sub hs max d "%m/%d/%y".toList _ (.conv (by decide) (by decide) (.lit (by decide) (.conv (by decide) (by decide) (.lit (by decide) (.conv (by decide) (by decide) .nil))))) (by decide)
  have e : (fun b => emitOne tm max (d + 2) b 'x') = fun b => format (emitOne tm max (d + 1)) max b "%m/%d/%y".toList := by
    funext b
    rw [emitOne]
    generalize emitOne tm max (d + 1) = rec
    simp [emitConv]
  rw [e]
  have e2 : conv tm 'm' ++ ('/' :: (conv tm 'd' ++ ('/' :: (conv tm 'y' ++ ([]))))) = conv tm 'x' := by
    simp only [conv, hms, mdy, List.append_assoc, List.cons_append, List.nil_append, List.append_nil]
  rw [← e2]
  exact h

theorem emit_X2 {tm : Tm} (hs : Std tm) (max d : Nat) : Emits max (fun b => emitOne tm max (d + 2) b 'X') (conv tm 'X') := by
  have h := emit_sub hs max d "%H:%M:%S".toList _ (.conv (by decide) (by decide) (.lit (by decide) (.conv (by decide) (by decide) (.lit (by decide) (.conv (by decide) (by decide) .nil))))) (by decide)
  have e : (fun b => emitOne tm max (d + 2) b 'X') = fun b => format (emitOne tm max (d + 1)) max b "%H:%M:%S".toList := by
    funext b
    rw [emitOne]
    generalize emitOne tm max (d + 1) = rec
    simp [emitConv]
  rw [e]
  have e2 : conv tm 'H' ++ (':' :: (conv tm 'M' ++ (':' :: (conv tm 'S' ++ ([]))))) = conv tm 'X' := by
    simp only [conv, hms, mdy, List.append_assoc, List.cons_append, List.nil_append, List.append_nil]
  rw [← e2]
  exact h

theorem emit_F2 {tm : Tm} (hs : Std tm) (max d : Nat) : Emits max (fun b => emitOne tm max (d + 2) b 'F') (conv tm 'F') := by
  have h := emit_sub hs max d "%Y-%m-%d".toList _ (.conv (by decide) (by decide) (.lit (by decide) (.conv (by decide) (by decide) (.lit (by decide) (.conv (by decide) (by decide) .nil))))) (by decide)
  have e : (fun b => emitOne tm max (d + 2) b 'F') = fun b => format (emitOne tm max (d + 1)) max b "%Y-%m-%d".toList := by
    funext b
    rw [emitOne]
    generalize emitOne tm max (d + 1) = rec
    simp [emitConv]
  rw [e]
  have e2 : conv tm 'Y' ++ ('-' :: (conv tm 'm' ++ ('-' :: (conv tm 'd' ++ ([]))))) = conv tm 'F' := by
    simp only [conv, hms, mdy, List.append_assoc, List.cons_append, List.nil_append, List.append_nil]
  rw [← e2]
  exact h

theorem emit_T2 {tm : Tm} (hs : Std tm) (max d : Nat) : Emits max (fun b => emitOne tm max (d + 2) b 'T') (conv tm 'T') := by
  have h := emit_sub hs max d "%H:%M:%S".toList _ (.conv (by decide) (by decide) (.lit (by decide) (.conv (by decide) (by decide) (.lit (by decide) (.conv (by decide) (by decide) .nil))))) (by decide)
  have e : (fun b => emitOne tm max (d + 2) b 'T') = fun b => format (emitOne tm max (d + 1)) max b "%H:%M:%S".toList := by
    funext b
    rw [emitOne]
    generalize emitOne tm max (d + 1) = rec
    simp [emitConv]
  rw [e]
  have e2 : conv tm 'H' ++ (':' :: (conv tm 'M' ++ (':' :: (conv tm 'S' ++ ([]))))) = conv tm 'T' := by
    simp only [conv, hms, mdy, List.append_assoc, List.cons_append, List.nil_append, List.append_nil]
  rw [← e2]
  exact h

theorem emit_R2 {tm : Tm} (hs : Std tm) (max d : Nat) : Emits max (fun b => emitOne tm max (d + 2) b 'R') (conv tm 'R') := by
  have h := emit_sub hs max d "%H:%M".toList _ (.conv (by decide) (by decide) (.lit (by decide) (.conv (by decide) (by decide) .nil))) (by decide)
  have e : (fun b => emitOne tm max (d + 2) b 'R') = fun b => format (emitOne tm max (d + 1)) max b "%H:%M".toList := by
    funext b
    rw [emitOne]
    generalize emitOne tm max (d + 1) = rec
    simp [emitConv]
  rw [e]
  have e2 : conv tm 'H' ++ (':' :: (conv tm 'M' ++ ([]))) = conv tm 'R' := by
    simp only [conv, hms, mdy, List.append_assoc, List.cons_append, List.nil_append, List.append_nil]
  rw [← e2]
  exact h

theorem emit_D2 {tm : Tm} (hs : Std tm) (max d : Nat) : Emits max (fun b => emitOne tm max (d + 2) b 'D') (conv tm 'D') := by
  have h := emit_sub hs max d "%m/%d/%y".toList _ (.conv (by decide) (by decide) (.lit (by decide) (.conv (by decide) (by decide) (.lit (by decide) (.conv (by decide) (by decide) .nil))))) (by decide)
  have e : (fun b => emitOne tm max (d + 2) b 'D') = fun b => format (emitOne tm max (d + 1)) max b "%m/%d/%y".toList := by
    funext b
    rw [emitOne]
    generalize emitOne tm max (d + 1) = rec
    simp [emitConv]
  rw [e]
  have e2 : conv tm 'm' ++ ('/' :: (conv tm 'd' ++ ('/' :: (conv tm 'y' ++ ([]))))) = conv tm 'D' := by
    simp only [conv, hms, mdy, List.append_assoc, List.cons_append, List.nil_append, List.append_nil]
  rw [← e2]
  exact h

theorem emit_r2 {tm : Tm} (hs : Std tm) (max d : Nat) : Emits max (fun b => emitOne tm max (d + 2) b 'r') (conv tm 'r') := by
  have h := emit_sub hs max d "%I:%M:%S %p".toList _ (.conv (by decide) (by decide) (.lit (by decide) (.conv (by decide) (by decide) (.lit (by decide) (.conv (by decide) (by decide) (.lit (by decide) (.conv (by decide) (by decide) .nil))))))) (by decide)
  have e : (fun b => emitOne tm max (d + 2) b 'r') = fun b => format (emitOne tm max (d + 1)) max b "%I:%M:%S %p".toList := by
    funext b
    rw [emitOne]
    generalize emitOne tm max (d + 1) = rec
    simp [emitConv]
  rw [e]
  have e2 : conv tm 'I' ++ (':' :: (conv tm 'M' ++ (':' :: (conv tm 'S' ++ (' ' :: (conv tm 'p' ++ ([]))))))) = conv tm 'r' := by
    simp only [conv, hms, mdy, List.append_assoc, List.cons_append, List.nil_append, List.append_nil]
  rw [← e2]
  exact h

/-- Every conversion emits its text. -/
theorem emit_all {tm : Tm} (hs : Std tm) (max d : Nat) (c : Char) :
    Emits max (fun b => emitOne tm max (d + 2) b c) (conv tm c) := by
  by_cases hc : c ∈ composite
  · simp only [composite, List.mem_cons, List.not_mem_nil, or_false] at hc
    rcases hc with rfl | rfl | rfl | rfl | rfl | rfl | rfl | rfl
    · exact emit_c2 hs max d
    · exact emit_x2 hs max d
    · exact emit_X2 hs max d
    · exact emit_F2 hs max d
    · exact emit_T2 hs max d
    · exact emit_R2 hs max d
    · exact emit_D2 hs max d
    · exact emit_r2 hs max d
  · exact emit_simple hs max (d + 1) c hc

end Verif.Time
