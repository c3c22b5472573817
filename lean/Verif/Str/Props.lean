import Verif.Str.Spec
import Verif.Str.Model
import Verif.Str.Frame

/-!
# Properties of the string functions

`L` is the size of linear memory: a multiple of 8 (of 65536, in fact) of at most 2^32. Every theorem holds
for each such `L`; as an access at or beyond `L` is `none`, a result `some …` for the smallest `L` that
contains the arguments says that nothing after the last word of the arguments is touched.
-/

namespace Verif.Str

/-- A small memory for the examples. -/
def sample (bs : List Nat) : Mem := fun a => bs.getD a 0

theorem sample_lt (bs : List Nat) (h : ∀ b ∈ bs, b < 256) (a : Nat) : sample bs a < 256 := by
  unfold sample
  rw [List.getD_eq_getElem?_getD]
  cases hb : bs[a]? with
  | none => simp
  | some b => simpa using h b (List.mem_of_getElem? hb)

/-- C03: the destination holds what the source held before the call; nothing else changes, whatever the
overlap. -/
theorem C03_memmove (L d s : Nat) (bs : List Nat) (m : Mem) (hL : L ≤ 2 ^ 32) (hs : s + bs.length ≤ L)
    (hd : d + bs.length ≤ L) (h : Holds m s bs) : ∃ m', memmove L m d s bs.length = some m' ∧ Written m m' d bs := by
  obtain ⟨m', e, hm⟩ := memmove_moved L d s bs.length m hL hs hd
  exact ⟨m', e, moved_written m m' d s bs h hm⟩

example : ∃ m, Holds m 8 [1, 2, 3] ∧ (memmove 16 m 9 8 3).map (fun m => (List.range 4).map fun i => m (8 + i)) = some [1, 1, 2, 3] := by
  refine ⟨sample [0, 0, 0, 0, 0, 0, 0, 0, 1, 2, 3], ?_, by decide⟩
  unfold Holds; decide

/-- C04: memcpy of disjoint ranges. -/
theorem C04_memcpy (L d s : Nat) (bs : List Nat) (m : Mem) (hL : L ≤ 2 ^ 32) (hs : s + bs.length ≤ L)
    (hd : d + bs.length ≤ L) (hov : d + bs.length ≤ s ∨ s + bs.length ≤ d) (h : Holds m s bs) :
    ∃ m', memcpy L m d s bs.length = some m' ∧ Written m m' d bs := by
  obtain ⟨m', e, hm⟩ := copy_moved L d s bs.length m hL hs hd (by omega)
  exact ⟨m', e, moved_written m m' d s bs h hm⟩

example : ∃ m, Holds m 8 [1, 2, 3] ∧ (memcpy 16 m 1 8 3).map (fun m => (List.range 5).map m) = some [0, 1, 2, 3, 0] := by
  refine ⟨sample [0, 0, 0, 0, 0, 0, 0, 0, 1, 2, 3], ?_, by decide⟩
  unfold Holds; decide

/-- C05: the length of the string. -/
theorem C05_strlen (L : Nat) (h8 : L % 8 = 0) (m : Mem) (hm : ∀ a, m a < 256) (s : Nat) (bs : List Nat)
    (h : CStr m s bs) (hs : s + bs.length < L) : strlen L m s = some bs.length :=
  strlen_spec L h8 m hm s bs h hs

example : ∃ m, (∀ a, m a < 256) ∧ CStr m 3 [97, 128, 255] ∧ strlen 8 m 3 = some 3 := by
  refine ⟨sample [9, 9, 9, 97, 128, 255, 0, 9], sample_lt _ (by decide), by unfold CStr Holds; decide, by decide +kernel⟩

/-- C06: the first occurrence of `(char)c` in the string, the terminator included. -/
theorem C06_strchr (L : Nat) (h8 : L % 8 = 0) (m : Mem) (hm : ∀ a, m a < 256) (s : Nat) (bs : List Nat)
    (h : CStr m s bs) (hs : s + bs.length < L) (c : Int) :
    (byteOf c ∉ bs ++ [0] ∧ strchr L m s c = some none) ∨
    ∃ i, ∃ hi : i < (bs ++ [0]).length, (bs ++ [0])[i] = byteOf c ∧ (∀ j (_ : j < i), (bs ++ [0])[j] ≠ byteOf c) ∧
      strchr L m s c = some (some (s + i)) := by
  rw [strchr_spec L h8 m hm s bs h hs c]
  change (uchar c ∉ bs ++ [0] ∧ _) ∨ ∃ i, ∃ hi : i < (bs ++ [0]).length, (bs ++ [0])[i] = uchar c ∧
    (∀ j (_ : j < i), (bs ++ [0])[j] ≠ uchar c) ∧ _
  cases hi : (bs ++ [0]).idxOf? (uchar c) with
  | none => exact .inl ⟨idxOf?_none hi, rfl⟩
  | some i =>
    obtain ⟨h1, h2, h3⟩ := idxOf?_some hi
    exact .inr ⟨i, h1, h2, h3, rfl⟩

example : ∃ m, (∀ a, m a < 256) ∧ CStr m 3 [97, 98, 255, 98] ∧ strchr 8 m 3 98 = some (some 4) ∧
    strchr 8 m 3 (-1) = some (some 5) ∧ strchr 8 m 3 0 = some (some 7) ∧ strchr 8 m 3 99 = some none := by
  refine ⟨sample [9, 9, 9, 97, 98, 255, 98], sample_lt _ (by decide), by unfold CStr Holds; decide, ?_⟩
  decide +kernel

/-- C07, partial: memchr answers from its `n` bytes alone when they are aligned, reach the next multiple
of 8, or contain the character. Missing: a short misaligned range without the character, where it fails. -/
theorem C07_memchr_partial (L : Nat) (m : Mem) (hm : ∀ a, m a < 256) (s : Nat) (bs : List Nat)
    (h : Holds m s bs) (hs : s + bs.length ≤ L) (c : Int)
    (hfit : s % 8 = 0 ∨ 8 ≤ s % 8 + bs.length ∨ byteOf c ∈ bs) :
    (byteOf c ∉ bs ∧ memchr L m s c bs.length = some none) ∨
    ∃ i, ∃ hi : i < bs.length, bs[i] = byteOf c ∧ (∀ j (_ : j < i), bs[j] ≠ byteOf c) ∧
      memchr L m s c bs.length = some (some (s + i)) := by
  have hc : byteOf c < 256 := by unfold byteOf; omega
  unfold memchr
  change (_ ∧ memchrFrom L m (byteOf c) _ _ = _) ∨ ∃ i, ∃ hi : i < bs.length, _ ∧ _ ∧ memchrFrom L m (byteOf c) _ _ = _
  generalize byteOf c = c at *
  cases hi : bs.idxOf? c with
  | none =>
    have := idxOf?_none hi
    refine .inl ⟨this, memchrFrom_none L m hm c hc _ s hs ?_ fun b h1 h2 e => this ?_⟩
    · rcases hfit with h | h | h
      · exact .inl h
      · exact .inr h
      · exact absurd h this
    · have hb := h (b - s) (by omega)
      rw [Nat.add_sub_cancel' h1, e] at hb
      exact hb ▸ List.getElem_mem _
  | some i =>
    obtain ⟨h1, h2, h3⟩ := idxOf?_some hi
    refine .inr ⟨i, h1, h2, h3, memchrFrom_found L m hm c hc _ s (s + i) hs (by omega) (by omega) (by rw [h i h1, h2]) ?_⟩
    intro b hb1 hb2 e
    have hb := h (b - s) (by omega)
    rw [Nat.add_sub_cancel' hb1, e] at hb
    exact h3 (b - s) (by omega) hb.symm

example : ∃ m, (∀ a, m a < 256) ∧ Holds m 3 [97, 98, 255, 98, 0, 7] ∧ memchr 16 m 3 98 6 = some (some 4) ∧
    memchr 16 m 3 9 6 = some none := by
  refine ⟨sample [9, 9, 9, 97, 98, 255, 98, 0, 7, 9], sample_lt _ (by decide), by unfold Holds; decide, ?_⟩
  decide +kernel

/-- C07, negation: for every short misaligned range that does not contain the character, memchr returns the
first occurrence after the range, wherever that is. -/
theorem C07_memchr_overruns (L : Nat) (m : Mem) (hm : ∀ a, m a < 256) (hL : L < 2 ^ 32) (s n t : Nat) (c : Int)
    (h0 : s % 8 ≠ 0) (hshort : s % 8 + n < 8) (ht : s + n ≤ t) (htL : t + 8 ≤ L) (hp : m t = byteOf c)
    (hn : ∀ a, s ≤ a → a < t → m a ≠ byteOf c) : memchr L m s c n = some (some t) :=
  memchrFrom_overrun L m hm (byteOf c) (by unfold byteOf; omega) n s t h0 hshort ht htL hL hp hn

example : ∃ m, (∀ a, m a < 256) ∧ memchr 16 m 1 7 2 = some (some 5) := by
  refine ⟨sample [0, 1, 2, 3, 4, 7], sample_lt _ (by decide), by decide +kernel⟩

/-- C08, partial: memset writes exactly its `n` bytes when they are aligned or reach the next multiple of 8.
Missing: a short misaligned range, where it fails. -/
theorem C08_memset_partial (L d n : Nat) (m : Mem) (c : Int) (hd : d + n ≤ L) (hfit : d % 8 = 0 ∨ 8 ≤ d % 8 + n) :
    ∃ m', memset L m d c n = some m' ∧ Written m m' d (List.replicate n (byteOf c)) := by
  obtain ⟨m', e, hm⟩ := memsetFrom_spec L (byteOf c) n d m hd hfit
  exact ⟨m', e, (filled_written m m' d n _).mp hm⟩

example : (memset 16 (sample []) 3 (-1) 6).map (fun m => (List.range 10).map m) = some [0, 0, 0, 255, 255, 255, 255, 255, 255, 0] := by
  decide +kernel

/-- C08, negation: for every short misaligned range (the empty one included) memset runs off the end of
memory. -/
theorem C08_memset_overruns (L d n : Nat) (m : Mem) (c : Int) (hL : L < 2 ^ 32) (hd : d + n ≤ L) (h0 : d % 8 ≠ 0)
    (hshort : d % 8 + n < 8) : memset L m d c n = none :=
  memsetFrom_fail L _ n d m hL hd hshort h0

example : memset 16 (sample []) 1 0 2 = none := C08_memset_overruns 16 1 2 _ 0 (by decide) (by decide) (by decide) (by decide)

/-- C09: the sign of memcmp is the lexicographic order of unsigned bytes. -/
theorem C09_memcmp (L : Nat) (m : Mem) (x y : Nat) (xs ys : List Nat) (hlen : xs.length = ys.length) (hx : Holds m x xs)
    (hy : Holds m y ys) (hxL : x + xs.length ≤ L) (hyL : y + ys.length ≤ L) :
    ∃ r, memcmp L m x y xs.length = some r ∧ Orders r xs ys :=
  memcmp_spec L m x y xs ys hlen hx hy hxL (by omega)

example : ∃ m, Holds m 0 [1, 200, 3] ∧ Holds m 3 [1, 100, 9] ∧ memcmp 8 m 0 3 3 = some 100 := by
  refine ⟨sample [1, 200, 3, 1, 100, 9], by unfold Holds; decide, by unfold Holds; decide, by decide⟩

/-- C09: strcmp. -/
theorem C09_strcmp (L : Nat) (m : Mem) (x y : Nat) (xs ys : List Nat) (hx : CStr m x xs) (hy : CStr m y ys)
    (hxL : x + xs.length < L) (hyL : y + ys.length < L) : ∃ r, strcmp L m x y = some r ∧ Orders r xs ys :=
  strcmp_spec L m x y xs ys hx hy hxL hyL

example : ∃ m, CStr m 0 [1, 200] ∧ CStr m 3 [1] ∧ strcmp 8 m 0 3 = some 200 := by
  refine ⟨sample [1, 200, 0, 1], by unfold CStr Holds; decide, by unfold CStr Holds; decide, by decide +kernel⟩

/-- C09: strncmp compares the first `n` bytes. -/
theorem C09_strncmp (L : Nat) (m : Mem) (n x y : Nat) (xs ys : List Nat) (hx : CStr m x xs) (hy : CStr m y ys)
    (hxL : x + xs.length < L) (hyL : y + ys.length < L) :
    ∃ r, strncmp L m x y n = some r ∧ Orders r (xs.take n) (ys.take n) :=
  strncmp_spec L m n x y xs ys hx hy hxL hyL

example : ∃ m, CStr m 0 [1, 200] ∧ CStr m 3 [1] ∧ strncmp 8 m 0 3 1 = some 0 ∧ strncmp 8 m 0 3 2 = some 200 := by
  refine ⟨sample [1, 200, 0, 1], by unfold CStr Holds; decide, by unfold CStr Holds; decide, by decide⟩

/-- C10: strcpy. -/
theorem C10_strcpy (L : Nat) (m : Mem) (d s : Nat) (bs : List Nat) (h : CStr m s bs) (hs : s + bs.length < L)
    (hd : d + bs.length < L) (hov : d + bs.length < s ∨ s + bs.length < d) :
    ∃ m', strcpy L m d s = some m' ∧ Written m m' d (bs ++ [0]) :=
  strcpy_spec L m d s bs h hs hd hov

example : ∃ m, CStr m 0 [5, 6] ∧ (strcpy 16 m 8 0).map (fun m => (List.range 4).map fun i => m (8 + i)) = some [5, 6, 0, 9] := by
  refine ⟨sample [5, 6, 0, 9, 9, 9, 9, 9, 9, 9, 9, 9], by unfold CStr Holds; decide, by decide +kernel⟩

/-- C10: strcat leaves the concatenation and writes only after the old contents. -/
theorem C10_strcat (L : Nat) (h8 : L % 8 = 0) (m : Mem) (hm : ∀ a, m a < 256) (d s : Nat) (ds bs : List Nat)
    (hd : CStr m d ds) (h : CStr m s bs) (hs : s + bs.length < L) (hdL : d + ds.length + bs.length < L)
    (hov : d + ds.length + bs.length < s ∨ s + bs.length < d) :
    ∃ m', strcat L m d s = some m' ∧ CStr m' d (ds ++ bs) ∧ Written m m' (d + ds.length) (bs ++ [0]) := by
  unfold strcat
  simp only [strlen_spec L h8 m hm d ds hd (by omega), Option.bind_eq_bind, Option.bind_some]
  obtain ⟨m', e, hw⟩ := strcpy_spec L m (d + ds.length) s bs h hs hdL (by omega)
  exact ⟨m', e, cstr_append hd h.1 hw, hw⟩

example : ∃ m, CStr m 0 [5, 6] ∧ CStr m 8 [7] ∧ (strcat 16 m 8 0).map (fun m => (List.range 5).map fun i => m (8 + i)) = some [7, 5, 6, 0, 9] := by
  refine ⟨sample [5, 6, 0, 9, 9, 9, 9, 9, 7, 0, 9, 9, 9], by unfold CStr Holds; decide, by unfold CStr Holds; decide, by decide +kernel⟩

/-- C11, partial: strncpy writes exactly `n` bytes unless the padding is short and misaligned, where it
fails as memset does. -/
theorem C11_strncpy_partial (L : Nat) (m : Mem) (n d s : Nat) (bs : List Nat) (h : CStr m s bs) (hs : s + bs.length < L)
    (hd : d + n ≤ L) (hov : d + n ≤ s ∨ s + bs.length < d)
    (hfit : n ≤ bs.length ∨ (d + bs.length) % 8 = 0 ∨ 8 ≤ (d + bs.length) % 8 + (n - bs.length)) :
    ∃ m', strncpy L n d s m = some m' ∧ Written m m' d (bs.take n ++ List.replicate (n - bs.length) 0) :=
  strncpy_spec L m n d s bs h hs hd hov hfit

example : ∃ m, CStr m 0 [5, 6] ∧ (strncpy 24 8 8 0 m).map (fun m => (List.range 9).map fun i => m (8 + i)) =
    some [5, 6, 0, 0, 0, 0, 0, 0, 9] := by
  refine ⟨sample [5, 6, 0, 9, 9, 9, 9, 9, 9, 9, 9, 9, 9, 9, 9, 9, 9], by unfold CStr Holds; decide, by decide +kernel⟩

/-- C11, negation: short misaligned padding runs off the end of memory. -/
theorem C11_strncpy_overruns (L : Nat) (m : Mem) (n d s : Nat) (bs : List Nat) (h : CStr m s bs) (hs : s + bs.length < L)
    (hL : L < 2 ^ 32) (hd : d + n ≤ L) (hov : d + n ≤ s ∨ s + bs.length < d)
    (h1 : bs.length < n) (h2 : (d + bs.length) % 8 ≠ 0) (h3 : (d + bs.length) % 8 + (n - bs.length) < 8) :
    strncpy L n d s m = none :=
  strncpy_fail L m n d s bs h hs hL hd hov h1 h2 h3

example : ∃ m, CStr m 0 [5, 6] ∧ strncpy 24 4 8 0 m = none := by
  have h : CStr (sample [5, 6]) 0 [5, 6] := by unfold CStr Holds; decide
  exact ⟨_, h, C11_strncpy_overruns 24 _ 4 8 0 [5, 6] h (by decide) (by decide) (by decide) (by decide) (by decide) (by decide) (by decide)⟩

/-- C12, partial: strncat appends the whole source and its terminator when `n` exceeds its length.
Missing: `n` at most the length of the source, where it fails. -/
theorem C12_strncat_partial (L : Nat) (h8 : L % 8 = 0) (m : Mem) (hm : ∀ a, m a < 256) (d s n : Nat) (ds bs : List Nat)
    (hd : CStr m d ds) (h : CStr m s bs) (hs : s + bs.length < L) (hdL : d + ds.length + bs.length < L)
    (hov : d + ds.length + bs.length < s ∨ s + bs.length < d) (hn : bs.length < n) :
    ∃ m', strncat L m d s n = some m' ∧ CStr m' d (ds ++ bs.take n) ∧ Written m m' (d + ds.length) (bs.take n ++ [0]) := by
  unfold strncat
  simp only [strlen_spec L h8 m hm d ds hd (by omega), Option.bind_eq_bind, Option.bind_some]
  obtain ⟨m', e, hw⟩ := strncatLoop_spec L m n (d + ds.length) s bs h hs hdL (by omega)
  rw [List.take_of_length_le (by simp; omega)] at hw
  rw [List.take_of_length_le (by omega)]
  exact ⟨m', e, cstr_append hd h.1 hw, hw⟩

example : ∃ m, CStr m 0 [5, 6] ∧ CStr m 8 [7] ∧
    (strncat 16 m 8 0 3).map (fun m => (List.range 5).map fun i => m (8 + i)) = some [7, 5, 6, 0, 9] := by
  refine ⟨sample [5, 6, 0, 9, 9, 9, 9, 9, 7, 0, 9, 9, 9], by unfold CStr Holds; decide, by unfold CStr Holds; decide, by decide +kernel⟩

/-- C12, negation: when `n` is at most the length of the source, the `n` bytes are written and no
terminator: the result is the expected string only if a zero happened to lie behind it. -/
theorem C12_strncat_unterminated (L : Nat) (h8 : L % 8 = 0) (m : Mem) (hm : ∀ a, m a < 256) (d s n : Nat) (ds bs : List Nat)
    (hd : CStr m d ds) (h : CStr m s bs) (hs : s + bs.length < L) (hdL : d + ds.length + bs.length < L)
    (hov : d + ds.length + bs.length < s ∨ s + bs.length < d) (hn : n ≤ bs.length) (hz : m (d + ds.length + n) ≠ 0) :
    ∃ m', strncat L m d s n = some m' ∧ Written m m' (d + ds.length) (bs.take n) ∧ ¬ CStr m' d (ds ++ bs.take n) := by
  unfold strncat
  simp only [strlen_spec L h8 m hm d ds hd (by omega), Option.bind_eq_bind, Option.bind_some]
  obtain ⟨m', e, hw⟩ := strncatLoop_spec L m n (d + ds.length) s bs h hs hdL (by omega)
  rw [List.take_append_of_le_length hn] at hw
  refine ⟨m', e, hw, fun hc => hz ?_⟩
  have := hc.end_zero
  rw [List.length_append, List.length_take, Nat.min_eq_left hn, ← Nat.add_assoc, hw.2 _ (by rw [List.length_take]; omega)] at this
  exact this

example : ∃ m, CStr m 0 [5, 6] ∧ CStr m 8 [7] ∧ m (8 + 1 + 1) ≠ 0 ∧
    (strncat 16 m 8 0 1).map (fun m => (List.range 5).map fun i => m (8 + i)) = some [7, 5, 9, 9, 9] := by
  refine ⟨sample [5, 6, 0, 9, 9, 9, 9, 9, 7, 0, 9, 9, 9], by unfold CStr Holds; decide, by unfold CStr Holds; decide, by decide, by decide +kernel⟩

/-- C13: the longest prefix made of bytes of the set. -/
theorem C13_strspn (L : Nat) (m : Mem) (q : Nat) (as : List Nat) (hq : CStr m q as) (hqL : q + as.length < L)
    (s : Nat) (bs : List Nat) (h : CStr m s bs) (hs : s + bs.length < L) :
    strspn L m s q = some (bs.takeWhile (· ∈ as)).length := by
  unfold strspn
  rw [strspnFrom_spec L m q as hq hqL s bs h hs]
  simp

/-- C13: the longest prefix without a byte of the set. -/
theorem C13_strcspn (L : Nat) (h8 : L % 8 = 0) (m : Mem) (hm : ∀ a, m a < 256) (q : Nat) (rs : List Nat) (hq : CStr m q rs)
    (hqL : q + rs.length < L) (s : Nat) (bs : List Nat) (h : CStr m s bs) (hs : s + bs.length < L) :
    strcspn L m s q = some (bs.takeWhile (· ∉ rs)).length := by
  unfold strcspn
  rw [strcspnFrom_spec L h8 m hm q rs hq hqL s bs h hs]
  simp only [Option.map_some, Nat.add_sub_cancel_left]

/-- C13: the first byte of the string that is in the set. -/
theorem C13_strpbrk (L : Nat) (h8 : L % 8 = 0) (m : Mem) (hm : ∀ a, m a < 256) (q : Nat) (rs : List Nat) (hq : CStr m q rs)
    (hqL : q + rs.length < L) (s : Nat) (bs : List Nat) (h : CStr m s bs) (hs : s + bs.length < L) :
    ((∀ b ∈ bs, b ∉ rs) ∧ strpbrk L m s q = some none) ∨
    ∃ i, ∃ hi : i < bs.length, bs[i] ∈ rs ∧ (∀ j (_ : j < i), bs[j] ∉ rs) ∧ strpbrk L m s q = some (some (s + i)) := by
  unfold strpbrk
  rw [strcspnFrom_spec L h8 m hm q rs hq hqL s bs h hs]
  simp only [Option.map_some]
  have htw := List.takeWhile_append_dropWhile (p := (fun x => decide (x ∉ rs))) (l := bs)
  have hall : ∀ b ∈ bs.takeWhile (· ∉ rs), b ∉ rs := fun b hb => by simpa using (List.all_eq_true.mp List.all_takeWhile) b hb
  cases hd : bs.dropWhile (· ∉ rs) with
  | nil =>
    rw [hd, List.append_nil] at htw
    refine .inl ⟨fun b hb => hall b (by rw [htw]; exact hb), ?_⟩
    rw [htw, if_neg (by simpa using h.end_zero)]
  | cons e r =>
    have hes : e ∈ rs := by
      have := List.head_dropWhile_not (fun x => decide (x ∉ rs)) (l := bs) (by rw [hd]; simp)
      simp only [hd, List.head_cons, decide_eq_false_iff_not, Classical.not_not] at this
      exact this
    rw [hd] at htw
    generalize bs.takeWhile (· ∉ rs) = t at *
    subst htw
    refine .inr ⟨t.length, by simp, by simpa using hes, fun j hj => ?_, ?_⟩
    · rw [List.getElem_append_left hj]; exact hall _ (List.getElem_mem _)
    · rw [if_pos (h.ne_zero _ (by omega) (by simp))]

example : ∃ m, (∀ a, m a < 256) ∧ CStr m 0 [5, 6] ∧ CStr m 3 [6, 5, 7, 5] ∧ CStr m 8 [7] ∧ strspn 16 m 3 0 = some 2 ∧
    strcspn 16 m 3 8 = some 2 ∧ strpbrk 16 m 3 8 = some (some 5) ∧ strpbrk 16 m 0 8 = some none := by
  refine ⟨sample [5, 6, 0, 6, 5, 7, 5, 0, 7], sample_lt _ (by decide), by unfold CStr Holds; decide, by unfold CStr Holds; decide,
    by unfold CStr Holds; decide, ?_⟩
  decide +kernel

/-- C14: the last occurrence of `(char)c` in the string, the terminator included. -/
theorem C14_strrchr (L : Nat) (h8 : L % 8 = 0) (m : Mem) (hm : ∀ a, m a < 256) (s : Nat) (bs : List Nat)
    (h : CStr m s bs) (hs : s + bs.length < L) (c : Int) :
    (byteOf c ∉ bs ++ [0] ∧ strrchr L m s c = some none) ∨
    ∃ i, ∃ hi : i < (bs ++ [0]).length, (bs ++ [0])[i] = byteOf c ∧
      (∀ j, i < j → ∀ hj : j < (bs ++ [0]).length, (bs ++ [0])[j] ≠ byteOf c) ∧ strrchr L m s c = some (some (s + i)) := by
  unfold strrchr
  by_cases h0 : uchar c = 0
  · have h0' : byteOf c = 0 := h0
    rw [if_pos h0, strlen_spec L h8 m hm s bs h hs]
    refine .inr ⟨bs.length, by simp, by simp [h0'], fun j hj1 hj2 => ?_, rfl⟩
    simp at hj2; omega
  · have h0' : byteOf c ≠ 0 := h0
    rw [if_neg h0]
    obtain ⟨r, e, hr⟩ := strrchrLoop_spec L h8 m hm c h0 (L + 1) s bs none h hs (by omega)
    rw [e]
    rcases hr with ⟨hr1, hr2⟩ | ⟨i, hi, hr1, hr2, hr3⟩
    · refine .inl ⟨fun hx => ?_, by rw [hr2]⟩
      rcases List.mem_append.mp hx with hx | hx
      · exact hr1 hx
      · exact h0' (by simpa using hx)
    · refine .inr ⟨i, by simp; omega, by rw [List.getElem_append_left hi]; exact hr1, fun j hj1 hj2 => ?_, by rw [hr3]⟩
      by_cases hjb : j < bs.length
      · rw [List.getElem_append_left hjb]; exact hr2 j hj1 hjb
      · rw [List.getElem_append_right (by omega)]
        simp only [List.getElem_singleton]
        exact fun e => h0' e.symm

example : ∃ m, (∀ a, m a < 256) ∧ CStr m 3 [97, 98, 255, 98] ∧ strrchr 8 m 3 98 = some (some 6) ∧
    strrchr 8 m 3 (-1) = some (some 5) ∧ strrchr 8 m 3 0 = some (some 7) ∧ strrchr 8 m 3 99 = some none := by
  refine ⟨sample [9, 9, 9, 97, 98, 255, 98], sample_lt _ (by decide), by unfold CStr Holds; decide, ?_⟩
  decide +kernel

/-- C15: `n` calls of strtok_r return the tokens of the string in order, each terminated in place, and null
pointers after the last; nothing outside the string changes. -/
theorem C15_strtok_r (L : Nat) (h8 : L % 8 = 0) (q : Nat) (seps : List Nat) (n : Nat) (m : Mem) (hm : ∀ a, m a < 256)
    (hq : CStr m q seps) (hqL : q + seps.length < L) (s : Nat) (bs : List Nat) (h : CStr m s bs) (hs : s + bs.length < L)
    (hov : q + seps.length < s ∨ s + bs.length < q) (state : Option Nat) :
    ∃ m' rs, strtokCalls L m (some s) q state n = some (m', rs) ∧ rs.length = n ∧
      (∀ i, (hi : i < rs.length) → match (tokens seps bs)[i]? with
        | some t => ∃ p, rs[i] = some p ∧ s ≤ p ∧ p + t.length ≤ s + bs.length ∧ CStr m' p t
        | none => rs[i] = none) ∧
      (∀ a, ¬ (s ≤ a ∧ a < s + bs.length) → m' a = m a) :=
  strtokCalls_spec L h8 q seps n m hm hq hqL s bs h hs hov (some s) state (.inl rfl)

example : ∃ m, (∀ a, m a < 256) ∧ CStr m 0 [5, 6] ∧ CStr m 3 [6, 1, 2, 6, 5, 3] ∧ tokens [5, 6] [6, 1, 2, 6, 5, 3] = [[1, 2], [3]] ∧
    (strtokCalls 16 m (some 3) 0 none 4).map (·.2) = some [some 4, some 8, none, none] := by
  refine ⟨sample [5, 6, 0, 6, 1, 2, 6, 5, 3], sample_lt _ (by decide), by unfold CStr Holds; decide, by unfold CStr Holds; decide, by decide +kernel, ?_⟩
  decide +kernel

/-- C76: strxfrm returns the length of the transformed string, writes only inside its buffer, and strcmp of
two transformed strings orders them as strcoll orders the originals. -/
theorem C76_collate (L : Nat) (hL : L ≤ 2 ^ 32) (h8 : L % 8 = 0) (m : Mem) (hm : ∀ a, m a < 256) (x y dx dy nx ny : Nat)
    (xs ys : List Nat) (hx : CStr m x xs) (hy : CStr m y ys) (hxL : x + xs.length < L) (hyL : y + ys.length < L)
    (hdx : dx + nx ≤ L) (hdy : dy + ny ≤ L) (ox : dx + nx ≤ x ∨ x + xs.length < dx) (ox' : dx + nx ≤ y ∨ y + ys.length < dx)
    (oy : dy + ny ≤ y ∨ y + ys.length < dy) (od : dx + nx ≤ dy ∨ dy + ny ≤ dx) :
    ∃ m1 m2 r, strxfrm L m dx x nx = some (m1, xs.length) ∧ strxfrm L m1 dy y ny = some (m2, ys.length) ∧
      (∀ a, ¬ (dx ≤ a ∧ a < dx + nx) → ¬ (dy ≤ a ∧ a < dy + ny) → m2 a = m a) ∧
      strcoll L m x y = some r ∧ Orders r xs ys ∧
      (xs.length < nx → ys.length < ny → ∃ r', strcmp L m2 dx dy = some r' ∧ Int.sign r' = Int.sign r) := by
  obtain ⟨m1, e1, f1, l1, w1⟩ := strxfrm_spec L hL h8 m hm dx x nx xs hx hxL hdx ox
  have hy1 : CStr m1 y ys := hy.congr fun a h1 h2 => f1 a (by omega)
  obtain ⟨m2, e2, f2, l2, w2⟩ := strxfrm_spec L hL h8 m1 l1 dy y ny ys hy1 hyL hdy oy
  obtain ⟨r, er, hr⟩ := strcmp_spec L m x y xs ys hx hy hxL hyL
  refine ⟨m1, m2, r, e1, e2, fun a h1 h2 => by rw [f2 a h2, f1 a h1], er, hr, fun h1 h2 => ?_⟩
  have c1 : CStr m1 dx xs := ⟨hx.1, (w1 h1).1⟩
  have c2 : CStr m2 dx xs := c1.congr fun a h3 h4 => f2 a (by omega)
  have c3 : CStr m2 dy ys := ⟨hy.1, (w2 h2).1⟩
  obtain ⟨r', er', hr'⟩ := strcmp_spec L m2 dx dy xs ys c2 c3 (by omega) (by omega)
  refine ⟨r', er', ?_⟩
  obtain ⟨a1, a2, a3⟩ := hr
  obtain ⟨b1, b2, b3⟩ := hr'
  rcases Int.lt_trichotomy r 0 with h | h | h
  · rw [Int.sign_eq_neg_one_of_neg h, Int.sign_eq_neg_one_of_neg (b1.mpr (a1.mp h))]
  · rw [h, b2.mpr (a2.mp h)]
  · rw [Int.sign_eq_one_of_pos h, Int.sign_eq_one_of_pos (b3.mpr (a3.mp h))]

example : ∃ m, (∀ a, m a < 256) ∧ CStr m 0 [5, 6] ∧ CStr m 3 [5, 7] ∧
    (strxfrm 24 m 8 0 4).map (fun r => ((List.range 4).map fun i => r.1 (8 + i), r.2)) = some ([5, 6, 0, 0], 2) ∧
    (strxfrm 24 m 8 0 2).map (fun r => ((List.range 4).map fun i => r.1 (8 + i), r.2)) = some ([5, 0, 0, 0], 2) := by
  refine ⟨sample [5, 6, 0, 5, 7], sample_lt _ (by decide), by unfold CStr Holds; decide, by unfold CStr Holds; decide, ?_⟩
  decide +kernel

end Verif.Str
