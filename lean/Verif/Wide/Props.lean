import Verif.Wide.Tokens
import Verif.Wide.Number
import Verif.Decimal.Props
import Verif.Str.Props

/-!
# Properties of the wide string functions

`L` is the number of wide characters in linear memory; as an access at or beyond `L` is `none`, a result
`some …` for the smallest `L` that contains the arguments says that nothing after them is touched.
-/

namespace Verif.Wide
open Verif.Float

/-- A small memory for the examples. -/
def sample (ws : List Int) : Mem := fun a => ws.getD a 0

/-! ## Searches -/

/-- C105: the length, and the first and the last occurrence of a character in a wide string, the terminator included. -/
theorem C105_find (L : Nat) (m : Mem) (c : Int) (s : Nat) (ws : List Int) (h : WStr m s ws) (hL : s + ws.length < L) :
    wcslen L m s = some ws.length ∧
    (∃ r, wcschr L m s c = some r ∧ FirstAt (ws ++ [0]) c s r) ∧ ∃ r, wcsrchr L m s c = some r ∧ LastAt (ws ++ [0]) c s r :=
  ⟨wcslen_spec L m s ws h hL, wcschr_spec L m c s ws h hL, wcsrchr_spec L m c s ws h hL⟩

example : WStr (sample [9, 97, -1, 0x20ac, -1, 0]) 1 [97, -1, 0x20ac, -1] ∧
    wcschr 6 (sample [9, 97, -1, 0x20ac, -1, 0]) 1 (-1) = some (some 2) ∧
    wcsrchr 6 (sample [9, 97, -1, 0x20ac, -1, 0]) 1 (-1) = some (some 4) ∧
    wcsrchr 6 (sample [9, 97, -1, 0x20ac, -1, 0]) 1 0 = some (some 5) := by
  refine ⟨by unfold WStr Holds; decide, by decide +kernel, by decide +kernel, by decide +kernel⟩

/-- C105: the first occurrence of a character in an array; what follows it is not read. -/
theorem C105_wmemchr (L : Nat) (m : Mem) (c : Int) (n s : Nat) (ws : List Int) (h : Holds m s ws) (hn : ws.length ≤ n)
    (hL : s + ws.length ≤ L) (hc : ws.length = n ∨ c ∈ ws) :
    ∃ r, wmemchr L m s c n = some r ∧ FirstAt ws c s r :=
  wmemchr_spec L m c n s ws h hn hL hc

example : wmemchr 3 (sample [1, 2, 3]) 0 3 100 = some (some 2) ∧ wmemchr 3 (sample [1, 2, 3]) 0 4 3 = some none := by decide +kernel

/-- C105: the lengths of the longest initial segments of characters of the set and of characters not of the set, and the
end of the latter if it is not the end of the string. -/
theorem C105_spans (L : Nat) (m : Mem) (q : Nat) (set : List Int) (hq : WStr m q set) (hqL : q + set.length < L)
    (s : Nat) (ws : List Int) (h : WStr m s ws) (hL : s + ws.length < L) :
    wcsspn L m s q = some (ws.takeWhile (· ∈ set)).length ∧
    wcscspn L m s q = some (ws.takeWhile (· ∉ set)).length ∧
    wcspbrk L m s q = some (if ∃ x ∈ ws, x ∈ set then some (s + (ws.takeWhile (· ∉ set)).length) else none) := by
  refine ⟨?_, ?_, wcspbrk_spec L m q set hq hqL s ws h hL⟩
  · unfold wcsspn; rw [spanFrom_true L m q set hq hqL s ws h hL]; simp
  · unfold wcscspn; rw [spanFrom_false L m q set hq hqL s ws h hL]; simp

example : wcsspn 8 (sample [5, 6, 0, 6, 5, 5, 7, 0]) 3 0 = some 3 ∧ wcspbrk 8 (sample [7, 8, 0, 6, 5, 5, 7, 0]) 3 0 = some (some 6) := by
  decide +kernel

/-- C105: the first occurrence of a wide string in another; the empty string occurs at the start. -/
theorem C105_wcsstr (L : Nat) (m : Mem) (n : Nat) (ns : List Int) (hn : WStr m n ns) (nL : n + ns.length < L)
    (h : Nat) (hs : List Int) (hh : WStr m h hs) (hL : h + hs.length < L) :
    ∃ r, wcsstr L m h n = some r ∧ FirstOccurrence hs ns h r :=
  wcsstr_spec L m n ns hn nL h hs hh hL

example : wcsstr 10 (sample [1, 1, 2, 0, 1, 1, 1, 2, 9, 0]) 4 0 = some (some 5) := by decide +kernel

/-! ## Writes -/

/-- C106: wcscpy writes the string with its terminator and nothing else; wcscat writes it at the end of the other. -/
theorem C106_copy (L : Nat) (m : Mem) (d s : Nat) (ws : List Int) (h : WStr m s ws) (hs : s + ws.length < L) :
    (d + ws.length < L → d + ws.length < s ∨ s + ws.length < d → ∃ m', wcscpy L m d s = some m' ∧ Written m m' d (ws ++ [0])) ∧
    ∀ ds, WStr m d ds → d + ds.length + ws.length < L → d + ds.length + ws.length < s ∨ s + ws.length < d →
      ∃ m', wcscat L m d s = some m' ∧ Written m m' (d + ds.length) (ws ++ [0]) ∧ WStr m' d (ds ++ ws) := by
  refine ⟨fun hd hov => wcscpy_spec L m d s ws h hs hd hov, fun ds hds hd hov => ?_⟩
  obtain ⟨m', e, hw⟩ := wcscpy_spec L m (d + ds.length) s ws h hs hd (by omega)
  refine ⟨m', ?_, hw, fun w hw' => ?_, ?_⟩
  · unfold wcscat
    rw [wcslen_spec L m d ds hds (by omega)]
    exact e
  · rcases List.mem_append.mp hw' with h' | h'
    · exact hds.1 w h'
    · exact h.1 w h'
  · rw [List.append_assoc, Holds.append]
    exact ⟨(Holds.append.mp hds.2).1.congr fun a _ hb => hw.2 a (by omega), hw.1⟩

example : (wcscat 9 (sample [7, -7, 0, 0, 0, 5, 6, 0, 8]) 0 5).map (fun m => (List.range 9).map m) = some [7, -7, 5, 6, 0, 5, 6, 0, 8] := by
  decide +kernel

/-- C106: wcsncpy writes exactly `n` characters, those of the source up to its end and null characters; it reads at most `n`
characters of the source and none after a null character. -/
theorem C106_wcsncpy (L : Nat) (m : Mem) (d s n : Nat) (ws : List Int) (h : Upto m s n ws)
    (hs : s + ws.length < L ∨ ws.length = n ∧ s + n ≤ L) (hd : d + n ≤ L) (hov : d + n ≤ s ∨ s + n ≤ d) :
    ∃ m', wcsncpy L m d s n = some m' ∧ Written m m' d (ws ++ List.replicate (n - ws.length) 0) := by
  have hle := h.le
  obtain ⟨m1, e, h1⟩ := copyLoop_spec L n m d s ws h hs (by omega) (by omega)
  obtain ⟨m2, e2, h2⟩ := fill_spec L 0 (n - ws.length) (d + ws.length) m1 (by omega)
  refine ⟨m2, ?_, h1.trans h2⟩
  unfold wcsncpy
  rw [e]
  exact e2

example : Upto (sample [0, 0, 0, 0, 7, 8]) 4 2 [7, 8] ∧ (wcsncpy 6 (sample [0, 0, 0, 0, 7, 8]) 1 4 2).map (fun m => (List.range 6).map m) = some [0, 7, 8, 0, 7, 8] ∧
    (wcsncpy 7 (sample [9, 9, 9, 9, 9, 7, 0]) 1 5 4).map (fun m => (List.range 7).map m) = some [9, 7, 0, 0, 0, 7, 0] := by
  refine ⟨⟨by decide, .inl ⟨rfl, by unfold Holds; decide⟩⟩, by decide +kernel, by decide +kernel⟩

/-- C106: wcsncat appends at most `n` characters of the source and always a terminator. -/
theorem C106_wcsncat (L : Nat) (m : Mem) (d s n : Nat) (ds ws : List Int) (hds : WStr m d ds) (h : Upto m s n ws)
    (hs : s + ws.length < L ∨ ws.length = n ∧ s + n ≤ L) (hd : d + ds.length + ws.length < L)
    (hov : d + ds.length + ws.length < s ∨ s + ws.length < d ∨ ws.length = n ∧ s + ws.length ≤ d) :
    ∃ m', wcsncat L m d s n = some m' ∧ Written m m' (d + ds.length) (ws ++ [0]) ∧ WStr m' d (ds ++ ws) := by
  obtain ⟨m1, e, h1⟩ := copyLoop_spec L n m (d + ds.length) s ws h hs (by omega) (by omega)
  have hw := h1.trans (written_put m1 (d + ds.length + ws.length) 0)
  refine ⟨put m1 (d + ds.length + ws.length) 0, ?_, hw, fun w hw' => ?_, ?_⟩
  · unfold wcsncat
    rw [wcslen_spec L m d ds hds (by omega)]
    simp only [Option.bind_eq_bind, Option.bind_some, e]
    rw [if_pos (by omega)]
  · rcases List.mem_append.mp hw' with h' | h'
    · exact hds.1 w h'
    · exact h.1 w h'
  · rw [List.append_assoc, Holds.append]
    exact ⟨(Holds.append.mp hds.2).1.congr fun a _ hb => hw.2 a (by omega), hw.1⟩

example : (wcsncat 8 (sample [1, 2, 0, 9, 9, 9, 7, 8]) 0 6 2).map (fun m => (List.range 8).map m) = some [1, 2, 7, 8, 0, 9, 7, 8] := by
  decide +kernel

/-- C106: wmemset writes `n` copies of the character. -/
theorem C106_wmemset (L : Nat) (m : Mem) (d : Nat) (c : Int) (n : Nat) (hd : d + n ≤ L) :
    ∃ m', wmemset L m d c n = some m' ∧ Written m m' d (List.replicate n c) :=
  fill_spec L c n d m hd

example : (wmemset 4 (sample [1, 2, 3, 4]) 1 (-5) 2).map (fun m => (List.range 4).map m) = some [1, -5, -5, 4] := by decide +kernel

/-- C106: wcsxfrm returns the length, and stores at most `n` characters, the last of which is the terminator. -/
theorem C106_wcsxfrm (L : Nat) (m : Mem) (d s n : Nat) (ws : List Int) (h : WStr m s ws) (hs : s + ws.length < L)
    (hd : d + n ≤ L) (hov : d + n ≤ s ∨ s + ws.length < d) :
    ∃ m', wcsxfrm L m d s n = some (m', ws.length) ∧ Written m m' d (if n = 0 then [] else ws.take (n - 1) ++ [0]) :=
  wcsxfrm_spec L m d s n ws h hs hd hov

example : (wcsxfrm 8 (sample [9, 9, 9, 9, 1, 2, 3, 0]) 0 4 3).map (fun r => (r.2, (List.range 4).map r.1)) = some (3, [1, 2, 0, 9]) := by
  decide +kernel

/-- C106: wmemmove leaves the `n` wide characters of the source at the destination whatever the overlap, wmemcpy if there is none. Here
positions count bytes, and a wide character is the 4 bytes of `wchar_t`. -/
theorem C106_wmemmove (L d s n : Nat) (m : Nat → Nat) (hL : L ≤ 2 ^ 32) (hs : s + 4 * n ≤ L) (hd : d + 4 * n ≤ L) :
    (∃ m', wmemmove L m d s n = some m' ∧ (∀ i, i < n → wideAt m' (d + 4 * i) = wideAt m (s + 4 * i)) ∧
      ∀ a, ¬ (d ≤ a ∧ a < d + 4 * n) → m' a = m a) ∧
    (d + 4 * n ≤ s ∨ s + 4 * n ≤ d →
      ∃ m', wmemcpy L m d s n = some m' ∧ (∀ i, i < n → wideAt m' (d + 4 * i) = wideAt m (s + 4 * i)) ∧
        ∀ a, ¬ (d ≤ a ∧ a < d + 4 * n) → m' a = m a) := by
  have hl : ((List.range (4 * n)).map fun i => m (s + i)).length = 4 * n := by simp
  have hh : Str.Holds m s ((List.range (4 * n)).map fun i => m (s + i)) := fun i hi => by simp
  have key : ∀ m', Str.Written m m' d ((List.range (4 * n)).map fun i => m (s + i)) →
      (∀ i, i < n → wideAt m' (d + 4 * i) = wideAt m (s + 4 * i)) ∧ ∀ a, ¬ (d ≤ a ∧ a < d + 4 * n) → m' a = m a := by
    intro m' hw
    refine ⟨fun i hi => ?_, fun a ha => hw.2 a (by rw [hl]; exact ha)⟩
    have hb : ∀ j, j < 4 → m' (d + 4 * i + j) = m (s + 4 * i + j) := by
      intro j hj
      have := hw.1 (4 * i + j) (by rw [hl]; omega)
      simpa [Nat.add_assoc] using this
    have h0 := hb 0 (by omega)
    simp only [Nat.add_zero] at h0
    unfold wideAt
    rw [h0, hb 1 (by omega), hb 2 (by omega), hb 3 (by omega)]
  constructor
  · obtain ⟨m', e, hw⟩ := Str.C03_memmove L d s _ m hL (by rw [hl]; exact hs) (by rw [hl]; exact hd) hh
    rw [hl] at e
    unfold wmemmove
    by_cases hn : n * 4 < 2 ^ 32
    · rw [Nat.mod_eq_of_lt hn, Nat.mul_comm]
      exact ⟨m', e, key m' hw⟩
    · obtain ⟨rfl, rfl⟩ : d = s ∧ d = 0 := by omega
      refine ⟨m, ?_, fun i _ => rfl, fun a _ => rfl⟩
      rw [show n * 4 % 2 ^ 32 = 0 by omega]
      obtain ⟨m0, e0, h0⟩ := Str.C03_memmove L 0 0 [] m hL (by simp) (by simp) (fun i hi => by simp at hi)
      rw [List.length_nil] at e0
      rw [e0]
      congr 1
      funext a
      exact h0.2 a (by simp)
  · intro hov
    obtain ⟨m', e, hw⟩ := Str.C04_memcpy L d s _ m hL (by rw [hl]; exact hs) (by rw [hl]; exact hd) (by rw [hl]; exact hov) hh
    rw [hl] at e
    unfold wmemcpy
    rw [Nat.mod_eq_of_lt (by omega), Nat.mul_comm]
    exact ⟨m', e, key m' hw⟩

example : (wmemmove 16 (Str.sample [1, 2, 3, 4, 5, 6, 7, 8, 9, 10, 11, 12]) 4 0 2).map (fun m => (wideAt m 4, wideAt m 8)) =
    some (wideAt (Str.sample [1, 2, 3, 4]) 0, wideAt (Str.sample [5, 6, 7, 8]) 0) := by decide +kernel

/-! ## Comparisons -/

/-- The terminators do not matter for characters above the null character. -/
theorem orders_terminated {r : Int} : ∀ {x y : List Int}, (∀ w ∈ x, 0 < w) → (∀ w ∈ y, 0 < w) → Orders r (x ++ [0]) (y ++ [0]) → Orders r x y
  | [], [], _, _, h => by unfold Orders at *; simpa using h
  | [], b :: y, _, hy, h => by
    have := hy b (by simp)
    unfold Orders at *
    simp only [List.nil_append, List.cons_append, List.cons_lt_cons_iff, List.cons.injEq] at h
    simp; omega
  | a :: x, [], hx, _, h => by
    have := hx a (by simp)
    unfold Orders at *
    simp only [List.nil_append, List.cons_append, List.cons_lt_cons_iff, List.cons.injEq] at h
    simp; omega
  | a :: x, b :: y, hx, hy, h => by
    by_cases hab : a = b
    · subst hab
      rw [orders_cons_eq]
      rw [List.cons_append, List.cons_append, orders_cons_eq] at h
      exact orders_terminated (fun w hw => hx w (by simp [hw])) (fun w hw => hy w (by simp [hw])) h
    · unfold Orders at *
      simp only [List.cons_append, List.cons_lt_cons_iff, List.cons.injEq] at h ⊢
      simp only [hab, false_and, or_false] at h ⊢
      have : ¬ b = a := fun e => hab e.symm
      simp only [this, false_and, or_false] at h ⊢
      exact h

/-- C107: wcscmp and wcscoll order the strings with their terminators by the values of `wchar_t`, hence strings of characters above the
null character as sequences. -/
theorem C107_wcscmp (L : Nat) (m : Mem) (x y : Nat) (xs ys : List Int) (hx : WStr m x xs) (hy : WStr m y ys)
    (hxL : x + xs.length < L) (hyL : y + ys.length < L) :
    ∃ r, wcscmp L m x y = some r ∧ wcscoll L m x y = some r ∧ Orders r (xs ++ [0]) (ys ++ [0]) ∧
      ((∀ w ∈ xs, 0 < w) → (∀ w ∈ ys, 0 < w) → Orders r xs ys) := by
  obtain ⟨r, e, h⟩ := wcscmp_spec L m x y xs ys hx hy hxL hyL
  exact ⟨r, e, e, h, fun h1 h2 => orders_terminated h1 h2 h⟩

example : wcscmp 6 (sample [1, 2147483647, 0, 1, -2147483648, 0]) 0 3 = some 1 := by decide +kernel

/-- C107: wcsncmp compares the first `n` characters, up to and including a terminator, and reads nothing else. -/
theorem C107_wcsncmp (L : Nat) (m : Mem) (n x y : Nat) (xs ys : List Int) (hx : Upto m x n xs) (hy : Upto m y n ys)
    (hxL : x + xs.length < L ∨ xs.length = n ∧ x + n ≤ L) (hyL : y + ys.length < L ∨ ys.length = n ∧ y + n ≤ L) :
    ∃ r, wcsncmp L m x y n = some r ∧ Orders r ((xs ++ [0]).take n) ((ys ++ [0]).take n) := by
  have hk : ∀ l : List Int, l.length ≤ n → keyOf n l = (l ++ [0]).take n := by
    intro l hl
    unfold keyOf
    split
    · rw [List.take_of_length_le (by simp; omega)]
    · obtain rfl : n = l.length := by omega
      rw [List.take_left]
  have := wcsncmp_spec L m n x y xs ys hx hy hxL hyL
  rwa [hk xs hx.le, hk ys hy.le] at this

example : wcsncmp 6 (sample [1, 2, 3, 1, 2, 4]) 0 3 2 = some 0 ∧ wcsncmp 6 (sample [1, 2, 3, 1, 2, 4]) 0 3 3 = some (-1) ∧
    wcsncmp 6 (sample [1, 0, 3, 1, 0, 4]) 0 3 100 = some 0 := by decide +kernel

/-- C107: wmemcmp compares all `n` characters by the values of `wchar_t`. -/
theorem C107_wmemcmp (L : Nat) (m : Mem) (x y : Nat) (xs ys : List Int) (hlen : xs.length = ys.length) (hx : Holds m x xs) (hy : Holds m y ys)
    (hxL : x + xs.length ≤ L) (hyL : y + xs.length ≤ L) : ∃ r, wmemcmp L m x y xs.length = some r ∧ Orders r xs ys :=
  wmemcmp_spec L m x y xs ys hlen hx hy hxL hyL

example : wmemcmp 6 (sample [1, 0, 3, 1, 0, 4]) 0 3 3 = some (-1) := by decide +kernel

/-! ## Tokens -/

/-- C108: `n` calls of wcstok return the tokens of the string in order, each terminated in place, and null
pointers after the last; nothing outside the string changes. -/
theorem C108_wcstok (L : Nat) (q : Nat) (seps : List Int) (n : Nat) (m : Mem) (hq : WStr m q seps) (hqL : q + seps.length < L)
    (s : Nat) (ws : List Int) (h : WStr m s ws) (hs : s + ws.length < L)
    (hov : q + seps.length < s ∨ s + ws.length < q) (state : Option Nat) :
    ∃ m' rs, wcstokCalls L m (some s) q state n = some (m', rs) ∧ rs.length = n ∧
      (∀ i, (hi : i < rs.length) → match (tokens seps ws)[i]? with
        | some t => ∃ p, rs[i] = some p ∧ s ≤ p ∧ p + t.length ≤ s + ws.length ∧ WStr m' p t
        | none => rs[i] = none) ∧
      (∀ a, ¬ (s ≤ a ∧ a < s + ws.length) → m' a = m a) :=
  wcstokCalls_spec L q seps n m hq hqL s ws h hs hov (some s) state (.inl rfl)

example : ∃ m, WStr m 0 [5, 6] ∧ WStr m 3 [6, 1, -2, 6, 5, 3] ∧ tokens [5, 6] [6, 1, -2, 6, 5, 3] = [[1, -2], [3]] ∧
    (wcstokCalls 10 m (some 3) 0 none 4).map (·.2) = some [some 4, some 8, none, none] := by
  refine ⟨sample [5, 6, 0, 6, 1, -2, 6, 5, 3], by unfold WStr Holds; decide, by unfold WStr Holds; decide, by decide +kernel, ?_⟩
  decide +kernel

/-! ## Integers -/

open Strtol (White Blank Subject Longest denoted value) in
/-- C109: wcstol and wcstoll convert the longest subject sequence of a wide string as strtol does for a string, with any wide
characters after it. Missing: subject sequences that end after the first 127 characters of the string, for which see
`C109_long`, and the values LONG_MIN and LLONG_MIN, for which strtol is undefined. -/
theorem C109_signed_partial (blank r : List Int) (base : Nat) (hbase : base = 0 ∨ (2 ≤ base ∧ base ≤ 36))
    (hb : Blank blank) (hr : ∀ c ∈ r.head?, ¬ White c)
    (w : List Int) (neg : Bool) (radix : Nat) (digits : List Int) (hL : Longest base r w neg radix digits)
    (hfit : blank.length + w.length ≤ 127) :
    (denoted neg radix digits ≠ -2147483648 → wcstol (blank ++ r) base = some
      (if denoted neg radix digits < -2147483648 then ⟨-2147483648, blank.length + w.length, true⟩
       else if 2147483647 < denoted neg radix digits then ⟨2147483647, blank.length + w.length, true⟩
       else ⟨denoted neg radix digits, blank.length + w.length, false⟩)) ∧
    (denoted neg radix digits ≠ -9223372036854775808 → wcstoll (blank ++ r) base = some
      (if denoted neg radix digits < -9223372036854775808 then ⟨-9223372036854775808, blank.length + w.length, true⟩
       else if 9223372036854775807 < denoted neg radix digits then ⟨9223372036854775807, blank.length + w.length, true⟩
       else ⟨denoted neg radix digits, blank.length + w.length, false⟩)) := by
  obtain ⟨h1, h2, h3⟩ := buffer_ok 127 blank r hb
  obtain ⟨h4, h5⟩ := buffer_longest 127 blank r base w neg radix digits hL hfit
  unfold wcstol wcstoll
  rw [wparseCopy_eq blank r 128 hb hr, show 128 - 1 = 127 from rfl, h4]
  rw [h4] at h1 h2
  exact ⟨fun hm => Strtol.C32_strtol_partial blank _ base hbase h1 h2 h3 w neg radix digits h5 hm,
    fun hm => Strtol.C32_strtoll_partial blank _ base hbase h1 h2 h3 w neg radix digits h5 hm⟩

open Strtol (White Blank Subject Longest denoted value) in
/-- C109: wcstoul and wcstoull. Missing: subject sequences that end after the first 127 characters. -/
theorem C109_unsigned_partial (blank r : List Int) (base : Nat) (hbase : base = 0 ∨ (2 ≤ base ∧ base ≤ 36))
    (hb : Blank blank) (hr : ∀ c ∈ r.head?, ¬ White c)
    (w : List Int) (neg : Bool) (radix : Nat) (digits : List Int) (hL : Longest base r w neg radix digits)
    (hfit : blank.length + w.length ≤ 127) :
    wcstoul (blank ++ r) base = some
      (if 4294967295 < value radix digits then ⟨4294967295, blank.length + w.length, true⟩
       else ⟨denoted neg radix digits % 4294967296, blank.length + w.length, false⟩) ∧
    wcstoull (blank ++ r) base = some
      (if 18446744073709551615 < value radix digits then ⟨18446744073709551615, blank.length + w.length, true⟩
       else ⟨denoted neg radix digits % 18446744073709551616, blank.length + w.length, false⟩) := by
  obtain ⟨h1, h2, h3⟩ := buffer_ok 127 blank r hb
  obtain ⟨h4, h5⟩ := buffer_longest 127 blank r base w neg radix digits hL hfit
  unfold wcstoul wcstoull
  rw [wparseCopy_eq blank r 128 hb hr, show 128 - 1 = 127 from rfl, h4]
  rw [h4] at h1 h2
  exact ⟨Strtol.C32_strtoul blank _ base hbase h1 h2 h3 w neg radix digits h5,
    Strtol.C32_strtoull blank _ base hbase h1 h2 h3 w neg radix digits h5⟩

open Strtol (White Blank Subject) in
/-- C109: without a subject sequence they return 0 and store the start, whatever the length. -/
theorem C109_none (blank r : List Int) (base : Nat) (hbase : base = 0 ∨ (2 ≤ base ∧ base ≤ 36))
    (hb : Blank blank) (hr : ∀ c ∈ r.head?, ¬ White c)
    (hno : ∀ w neg radix digits, w <+: r → ¬ Subject base w neg radix digits) :
    wcstol (blank ++ r) base = some ⟨0, 0, false⟩ ∧ wcstoll (blank ++ r) base = some ⟨0, 0, false⟩ ∧
    wcstoul (blank ++ r) base = some ⟨0, 0, false⟩ ∧ wcstoull (blank ++ r) base = some ⟨0, 0, false⟩ := by
  obtain ⟨h1, h2, h3⟩ := buffer_ok 127 blank r hb
  unfold wcstol wcstoll wcstoul wcstoull
  rw [wparseCopy_eq blank r 128 hb hr, show 128 - 1 = 127 from rfl]
  exact Strtol.C32_no_conversion _ _ base hbase h1 h2 h3
    fun w neg radix digits hw => hno w neg radix digits (hw.trans (copyToken_prefix r _))

/-- A euro sign after "-31". -/
example : Strtol.Subject 0 [45, 51, 49] true 10 [51, 49] ∧ wcstol [32, 45, 51, 49, 0x20ac] 0 = some ⟨-31, 4, false⟩ ∧
    wcstoul [32, 45, 51, 49, 0x20ac] 0 = some ⟨4294967265, 4, false⟩ := by
  refine ⟨.mk [45] [] [51, 49] true 10 (by simp) (by simp) (by simp) (by simp) ?_, by decide +kernel, by decide +kernel⟩
  intro c hc
  simp at hc
  rcases hc with rfl | rfl
  · exact ⟨3, by decide, by decide⟩
  · exact ⟨1, by decide, by decide⟩

private theorem zeros_one (k : Nat) : ∀ c ∈ List.replicate k (48 : Int) ++ [49], Strtol.IsDigit 10 c := by
  intro c hc
  simp only [List.mem_append, List.mem_replicate, List.mem_singleton] at hc
  rcases hc with ⟨_, rfl⟩ | rfl
  · exact ⟨0, by decide, by decide⟩
  · exact ⟨1, by decide, by decide⟩

/-- C109 is false for long subject sequences: 127 zeros and "1" denote 1, and a "1" after 127 blanks denotes 1; both are converted to 0, the
second as if there were no number. -/
theorem C109_long :
    Strtol.Subject 10 (List.replicate 127 48 ++ [49]) false 10 (List.replicate 127 48 ++ [49]) ∧
    Strtol.value 10 (List.replicate 127 48 ++ [49]) = 1 ∧
    wcstol (List.replicate 127 48 ++ [49]) 10 = some ⟨0, 127, false⟩ ∧
    wcstol (List.replicate 127 32 ++ [49]) 10 = some ⟨0, 0, false⟩ :=
  ⟨Strtol.Subject.mk [] [] _ false 10 (.inl ⟨rfl, rfl⟩) (.inl rfl) (by decide) (List.cons_ne_nil _ _) (zeros_one 127),
    by decide +kernel, by decide +kernel, by decide +kernel⟩

/-! ## Decimals -/

open Decimal.Spec (Longest Hex Rounds Long Sign) in
/-- C110: wcstod rounds correctly and stores the end of the longest subject sequence, with any wide characters after it. Missing: what
is missing for strtod, and subject sequences that end after the first 255 characters, for which see `C110_long`. -/
theorem C110_wcstod_partial {blank r w : List Int} {neg : Bool} {n : Nat} {t : Int} (hb : Strtol.Blank blank)
    (hr : ∀ c ∈ r.head?, ¬ Strtol.White c) (hL : Longest r w neg n t) (hx : ¬ Hex r) (hfit : blank.length + w.length ≤ 255)
    (hn : n < 10 ^ 20 ∨ n < 10 ^ 38 ∧ -54 ≤ t ∧ t ≤ 54 ∨ ∃ l, Long n l t) (h0 : ¬ (n = 0 ∧ w.getLast? = some 46)) :
    ∃ m, Rounds b64 n t m ∧ wcstod (blank ++ r) = some ⟨b64.pack neg m, blank.length + w.length, m = b64.inf⟩ := by
  obtain ⟨h1, h2, h3⟩ := buffer_ok 255 blank r hb
  obtain ⟨h4, h5, h6⟩ := buffer_decimal blank hL hx hfit
  unfold wcstod
  rw [wparseCopy_eq blank r 256 hb hr, show 256 - 1 = 255 from rfl, h4]
  rw [h4] at h1 h2
  obtain ⟨m, stop, hm, e⟩ := Decimal.C68_strtod_partial h1 h2 h3 h5 h6 (by omega) hn
  have hs := (Decimal.C99_end_partial h1 h2 h3 h5 h6 h0).1 _ e
  simp only at hs
  exact ⟨m, hm, by rw [e, hs]⟩

open Decimal.Spec (Longest Hex Rounds Long Sign) in
/-- C110: wcstof, for up to 20 digits (or 38 with small exponents) that are not so near to the midpoint of two floats that the nearest double
is that midpoint. -/
theorem C110_wcstof_partial {blank r w : List Int} {neg : Bool} {n : Nat} {t : Int} (hb : Strtol.Blank blank)
    (hr : ∀ c ∈ r.head?, ¬ Strtol.White c) (hL : Longest r w neg n t) (hx : ¬ Hex r) (hfit : blank.length + w.length ≤ 255)
    (hn : n < 10 ^ 20 ∨ n < 10 ^ 38 ∧ -54 ≤ t ∧ t ≤ 54) (h0 : ¬ (n = 0 ∧ w.getLast? = some 46))
    (hmid : ∀ y k, Rounds b64 n t y → k + 1 ≤ b32.inf → 2 * b64.mag y = (b32.mag k + b32.mag (k + 1)) * 2 ^ 925 →
      n * 10 ^ t.toNat * 2 ^ 1074 = 10 ^ (-t).toNat * b64.mag y) :
    ∃ m, Rounds b32 n t m ∧ wcstof (blank ++ r) = some ⟨b32.pack neg m, blank.length + w.length, m = b32.inf⟩ := by
  obtain ⟨h1, h2, h3⟩ := buffer_ok 255 blank r hb
  obtain ⟨h4, h5, h6⟩ := buffer_decimal blank hL hx hfit
  unfold wcstof
  rw [wparseCopy_eq blank r 256 hb hr, show 256 - 1 = 255 from rfl, h4]
  rw [h4] at h1 h2
  obtain ⟨m, stop, hm, e⟩ := Decimal.C70_strtof_partial h1 h2 h3 h5 h6 (by omega) (hn.elim .inl fun h => .inr (.inl h)) hmid
  have hs := (Decimal.C99_end_partial h1 h2 h3 h5 h6 h0).2 _ e
  simp only at hs
  exact ⟨m, hm, by rw [e, hs]⟩

open Decimal.Spec (Infinite) in
/-- C110: infinities. -/
theorem C110_infinite {blank r w : List Int} {neg : Bool} (hb : Strtol.Blank blank) (hr : ∀ c ∈ r.head?, ¬ Strtol.White c)
    (hw : w <+: r) (hI : Infinite w neg) (hmax : ∀ w' neg', w' <+: r → Infinite w' neg' → w'.length ≤ w.length)
    (hfit : blank.length + w.length ≤ 255) :
    wcstod (blank ++ r) = some ⟨b64.pack neg b64.inf, blank.length + w.length, false⟩ ∧
    wcstof (blank ++ r) = some ⟨b32.pack neg b32.inf, blank.length + w.length, false⟩ := by
  obtain ⟨h1, h2, h3⟩ := buffer_ok 255 blank r hb
  have h4 : blank.take 255 = blank := List.take_of_length_le (by omega)
  unfold wcstod wcstof
  rw [wparseCopy_eq blank r 256 hb hr, show 256 - 1 = 255 from rfl, h4]
  rw [h4] at h1 h2
  exact Decimal.C100_infinite h1 h2 (copyToken_longest r w _ hw (infinite_token hI) (by omega)) hI
    fun w' neg' hw' hI' => hmax w' neg' (hw'.trans (copyToken_prefix r _)) hI'

example : wcstod [32, 45, 49, 46, 53, 101, 49, 0x20ac] = some ⟨0xc02e000000000000, 7, false⟩ ∧
    wcstof [43, 105, 110, 102, 105] = some ⟨0x7f800000, 4, false⟩ := by decide +kernel

/-- The hypotheses of `C110_wcstod_partial` hold for "1" and a euro sign. -/
example : ∃ m, Decimal.Spec.Rounds b64 1 0 m ∧ wcstod ([32] ++ [49, 0x20ac]) = some ⟨b64.pack false m, 2, m = b64.inf⟩ := by
  have d1 : Strtol.IsDigit 10 49 := ⟨1, by decide, by decide⟩
  refine C110_wcstod_partial (blank := [32]) (w := [49]) (by unfold Strtol.Blank; decide) (by decide) ⟨⟨[0x20ac], rfl⟩, ?_, ?_⟩ ?_
    (by decide) (.inl (by decide)) (by decide)
  · exact Decimal.Spec.Subject.mk [] [49] [] [] [] false 0 (.inl ⟨rfl, rfl⟩) (.inl ⟨rfl, rfl⟩)
      (fun c h => by rw [List.mem_singleton.mp h]; exact d1) (fun _ h => nomatch h) (by decide) .none
  · intro w' neg' n' t' hw hS
    have hl := hw.length_le
    rcases Nat.lt_or_ge 1 w'.length with h | h
    · exfalso
      have : w' = [49, 0x20ac] := hw.eq_of_length (by simp at hl ⊢; omega)
      have := decimal_token hS 0x20ac (by simp [this])
      exact absurd this (by decide)
    · simpa using h
  · rintro ⟨sign, neg, hs, h⟩
    rcases hs with ⟨rfl, -⟩ | ⟨rfl, -⟩ | ⟨rfl, -⟩ <;> revert h <;> decide

/-- C110 is false for long subject sequences: 255 zeros and "1". -/
theorem C110_long :
    Decimal.Spec.Subject (List.replicate 255 48 ++ [49]) false 1 0 ∧
    wcstod (List.replicate 255 48 ++ [49]) = some ⟨0, 255, false⟩ := by
  have hv : Strtol.value 10 ((List.replicate 255 48 ++ [49]) ++ []) = 1 := by decide +kernel
  refine ⟨?_, by decide +kernel⟩
  have hz := zeros_one 255
  have hne : List.replicate 255 (48 : Int) ++ [49] ≠ [] := List.append_ne_nil_of_right_ne_nil _ (by decide)
  generalize List.replicate 255 (48 : Int) ++ [49] = l at *
  have := Decimal.Spec.Subject.mk [] l [] [] [] false 0 (.inl ⟨rfl, rfl⟩) (.inl ⟨rfl, rfl⟩) hz (fun _ h => nomatch h) (by simpa using hne) .none
  rw [hv] at this
  simpa using this

end Verif.Wide
