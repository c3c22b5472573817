import Verif.Printf.Run

/-!
# Formatted output
-/

namespace Verif.Printf

open Spec

/-! ## The text -/

/-- `"%+05d|%-4o|%#x|%c%%"` with 7, 8, 255 and `A` prints `+0007|10  |0xff|A%`. -/
def sampleItems : List Item :=
  [.dir ⟨[43, 48], .num [53], none, .none, 100⟩, .lit 124, .dir ⟨[45], .num [52], none, .none, 111⟩, .lit 124,
    .dir ⟨[35], .num [], none, .none, 120⟩, .lit 124, .dir ⟨[], .num [], none, .none, 99⟩, .percent]

/-- The characters of a string. -/
def ascii (s : String) : List Nat := s.toList.map Char.toNat

theorem sample_prints (m : Mem) : Prints m 0 sampleItems [7, 8, 255, 65] (ascii "+0007|10  |0xff|A%") [] := by
  have e1 : ascii "+0007|10  |0xff|A%" = (Dir.mk [43, 48] (.num [53]) none .none 100).int ⟨false, 5, none⟩ 7 ++
      (124 :: ((Dir.mk [45] (.num [52]) none .none 111).int ⟨true, 4, none⟩ 8 ++
        (124 :: ((Dir.mk [35] (.num []) none .none 120).int ⟨false, 0, none⟩ 255 ++
          (124 :: (padText ⟨false, 0, none⟩ [((65 : Int) % 256).toNat] ++ [37])))))) := by
    decide +kernel
  rw [e1]
  exact .int (args' := [8, 255, 65]) (by decide) (by decide) (.lit (.int (args' := [255, 65]) (by decide) (by decide)
    (.lit (.int (args' := [65]) (by decide) (by decide) (.lit (.chr (args' := []) rfl rfl (by decide) (.percent .nil)))))))

theorem clean_int (L : Nat) (m : Mem) (d : Dir) (a : Ask) (v : Int) (h : d.isInt = true) (hv : d.size.signed v ≠ -2 ^ 63) :
    d.Clean L m a v := by
  unfold Dir.isInt at h
  rw [decide_eq_true_eq] at h
  replace h := h.1
  refine ⟨fun _ => hv, ?_, ?_, ?_⟩ <;> (intro e; rw [e] at h; exact absurd h (by decide))

theorem sample_ok : ∀ i ∈ sampleItems, i.Ok := by
  intro i hi
  simp only [sampleItems, List.mem_cons, List.not_mem_nil, or_false] at hi
  rcases hi with rfl | rfl | rfl | rfl | rfl | rfl | rfl | rfl <;> simp [Item.Ok, Dir.Ok, Field.Ok, Field.text, value]

theorem sample_clean (L : Nat) (m : Mem) : Clean L m sampleItems [7, 8, 255, 65] :=
  ⟨clean_int _ _ _ _ _ rfl (by decide), clean_int _ _ _ _ _ rfl (by decide), clean_int _ _ _ _ _ rfl (by decide),
    ⟨by simp, fun _ => by decide, by simp, by simp⟩, trivial⟩

/-- C46 (partial: the directives where the library fails are those excluded by `Clean`): whatever the format,
made of literals, `%%`, integer, character, string and count conversions, with any flags, width, precision
and length modifier, the call hands over exactly the text the standard prescribes, returns its length and
stores the counts of `%n`. -/
theorem C46_text_partial (L : Nat) (h8 : L % 8 = 0) (hL : L < 2 ^ 32) (m : Mem) (hm : ∀ a, m a < 256) (is : List Item)
    (args : List Int) (t : List Nat) (st : List (Nat × Nat × Nat)) (h : Prints m 0 is args t st) (hok : ∀ i ∈ is, i.Ok)
    (hc : Clean L m is args) (hlen : t.length < 2 ^ 31) :
    ∃ o, vfprintf L m (format is) args = some o ∧ o.chunks.flatten = t ∧ o.ret = t.length ∧ o.stores = st := by
  obtain ⟨o, e, h1, h2, h3, _⟩ := vloop_eq L h8 hL m hm is 0 args t st h hok hc (by omega) [] 0 _ rfl (Nat.le_refl _)
  exact ⟨o, e, h1, by rw [h2]; simp, h3⟩

example (m : Mem) (hm : ∀ a, m a < 256) : ∃ o, vfprintf 65536 m (ascii "%+05d|%-4o|%#x|%c%%") [7, 8, 255, 65] = some o ∧
    o.chunks.flatten = ascii "+0007|10  |0xff|A%" ∧ o.ret = 18 ∧ o.stores = [] := by
  have hf : ascii "%+05d|%-4o|%#x|%c%%" = format sampleItems := by decide +kernel
  rw [hf]
  exact C46_text_partial 65536 (by decide) (by decide) m hm sampleItems [7, 8, 255, 65] _ [] (sample_prints m) sample_ok
    (sample_clean _ m) (by decide +kernel)

/-- Printing the least `intmax_t` with `%lld` overflows a signed negation. -/
theorem C46_min_undefined (L : Nat) (m : Mem) : vfprintf L m (ascii "%lld") [-2 ^ 63] = none := by
  rfl

/-- Characters and strings are never padded: `"%5c"` with `x` prints one character. -/
theorem C84_width_ignored (L : Nat) (m : Mem) : ∃ o, vfprintf L m (ascii "%5c") [120] = some o ∧
    o.chunks.flatten = ascii "x" ∧ Prints m 0 [.dir ⟨[], .num [53], none, .none, 99⟩] [120] (ascii "    x") [] ∧
    format [.dir ⟨[], .num [53], none, .none, 99⟩] = ascii "%5c" := by
  refine ⟨_, rfl, rfl, ?_, by decide +kernel⟩
  have e : ascii "    x" = padText ⟨false, 5, none⟩ [((120 : Int) % 256).toNat] ++ [] := by decide +kernel
  rw [e]
  exact .chr (args' := []) rfl rfl (by decide) .nil

/-! ## Scratch space -/

/-- C47 (partial: the scratch array has one byte for signed and two for unsigned decimals, so the property
holds exactly of calls without longer decimals): such calls stay inside their scratch arrays. -/
theorem C47_scratch_partial (L : Nat) (h8 : L % 8 = 0) (hL : L < 2 ^ 32) (m : Mem) (hm : ∀ a, m a < 256) (is : List Item)
    (args : List Int) (t : List Nat) (st : List (Nat × Nat × Nat)) (h : Prints m 0 is args t st) (hok : ∀ i ∈ is, i.Ok)
    (hc : Clean L m is args) (hlen : t.length < 2 ^ 31) :
    ∃ o, vfprintf L m (format is) args = some o ∧ (o.fault = true ↔ long is args = true) := by
  obtain ⟨o, e, _, _, _, h4⟩ := vloop_eq L h8 hL m hm is 0 args t st h hok hc (by omega) [] 0 _ rfl (Nat.le_refl _)
  exact ⟨o, e, by rw [h4]⟩

/-- `"%d"` with any number of two digits or more stores below the one-byte scratch array. -/
theorem C47_overruns (v : Int) (hv : -2 ^ 31 ≤ v ∧ v < 2 ^ 31) (hv' : v ≤ -10 ∨ 10 ≤ v) (L : Nat) (h8 : L % 8 = 0)
    (hL : L < 2 ^ 32) (m : Mem) (hm : ∀ a, m a < 256) : ∃ o, vfprintf L m (ascii "%d") [v] = some o ∧ o.fault = true := by
  let d : Dir := ⟨[], .num [], none, .none, 100⟩
  have hs : d.size.signed v = v := by
    change v.bmod 4294967296 = v
    rw [bmod_32]; omega
  have hl : (d.int ⟨false, 0, none⟩ v ++ []).length < 2 ^ 31 := by
    have e : d.int ⟨false, 0, none⟩ v = justify d ⟨false, 0, none⟩ (sign d (d.size.signed v)) (digits none 10 false (d.size.signed v).natAbs) := rfl
    rw [List.append_nil, e, justify_length, hs]
    have h1 : (sign d v).length ≤ 1 := by
      unfold sign
      repeat' split
      all_goals simp
    have h2 : (digits none 10 false v.natAbs).length ≤ 11 := by
      unfold digits
      rw [if_neg (by simp)]
      have := (numeral_length 10 false (by decide) 10 v.natAbs (by decide)).2 (by omega)
      have := numeral_length_pos 10 false v.natAbs
      simp only [List.length_append, List.length_replicate, Option.getD_none]
      omega
    simp only
    omega
  obtain ⟨o, e, h⟩ := C47_scratch_partial L h8 hL m hm [.dir d] [v] _ [] (.int (a := ⟨false, 0, none⟩) (args' := []) rfl rfl .nil) (by
      intro i hi
      rw [List.mem_singleton] at hi
      rw [hi]
      exact ⟨by simp [d], ⟨by simp, by decide⟩, by simp [d, Field.text], by simp [d]⟩)
    ⟨clean_int _ _ _ _ _ rfl (by rw [hs]; omega), trivial⟩ hl
  refine ⟨o, e, h.2 ?_⟩
  change (d.long v || false) = true
  simp [Dir.long, d]
  have : Size.none.signed v = v := hs
  rw [this]; omega

/-! ## Strings with a precision -/

/-- C48 (partial: strings whose precision ends before the next multiple of 8 of addresses are missing, see
`C48_precision_overrun`): with a precision of `k`, the `k` bytes at `p` are printed although nothing
terminates them, and memory may end right behind them. -/
theorem C48_precision_partial (L : Nat) (hL : L < 2 ^ 31) (m : Mem) (hm : ∀ a, m a < 256) (p k : Nat) (hp : p + k ≤ L)
    (hfit : p % 8 = 0 ∨ 8 ≤ p % 8 + k) (hn : ∀ b, p ≤ b → b < p + k → m b ≠ 0) :
    ∃ o, vfprintf L m (ascii "%.*s") [(k : Int), (p : Int)] = some o ∧ o.ret = k ∧
      o.chunks.flatten.length = k ∧ ∀ i (h : i < o.chunks.flatten.length), o.chunks.flatten[i] = m (p + i) := by
  have hconv : ∀ sp, Agrees sp ⟨[], .num [], some .star, .none, 115⟩ ⟨false, 0, some k⟩ → sp.length = sizeCode .none →
      ∃ o, convert L m sp 0 115 [(p : Int)] = some (o, []) ∧ Does o ((List.range k).map fun i => m (p + i)) [] false := by
    intro sp hA hs
    refine ⟨_, convert_str L m sp 0 p [] ⟨false, [(List.range k).map fun i => m (p + i)], k, []⟩ ?_, by simp [Does]⟩
    have hpr := hA.prec
    simp only at hpr
    unfold convertS
    simp only
    rw [if_neg (by rw [hs]; decide), if_neg (by omega), hpr, u32_nat p (by omega)]
    unfold strnlen
    rw [show ((k : Nat) : Int).toNat = k from Int.toNat_natCast k, strnlenFrom_none L m hm k p hp hfit hn]
    simp
  obtain ⟨o, e, h1, h2, _, _⟩ := vloop_dir L m ⟨[], .num [], some .star, .none, 115⟩
    (by refine ⟨by simp, ⟨by simp, by decide⟩, by simp [Field.text], ?_⟩; intro f hf; cases hf; trivial) (by decide) ⟨false, 0, some k⟩
    [(k : Int), (p : Int)] [(p : Int)] [] (by
      simp only [Dir.ask, Field.take, value, List.foldl_nil]
      rw [if_pos (by unfold IsI32; omega)]
      simp) (Nat.two_pow_pos 31) [] [] 0 0 4 _ [] [] [] false false rfl
    (by simp; omega) hconv ⟨_, rfl, rfl, by
      simp only [List.length_map, List.length_range, List.length_nil]
      rw [Nat.mod_eq_of_lt (by omega), s32_nat _ (by omega)]
      omega, rfl, rfl⟩
  have hf : vfprintf L m (ascii "%.*s") [(k : Int), (p : Int)] =
      vloop L m (4 + 1) ((Dir.mk [] (.num []) (some .star) .none 115).text ++ []) [] 0 [(k : Int), (p : Int)] := rfl
  have h1' : o.chunks.flatten = (List.range k).map fun i => m (p + i) := by rw [h1]; simp
  refine ⟨o, by rw [hf, e], ?_, by rw [h1']; simp, ?_⟩
  · rw [h2]; simp
  · intro i h
    simp only [h1', List.getElem_map, List.getElem_range]

/-- A string at an address that is not a multiple of 8, with a precision that ends before the next one, is
printed up to its terminator however far it is. -/
theorem C48_precision_overrun (L : Nat) (hL : L < 2 ^ 31) (m : Mem) (hm : ∀ a, m a < 256) (p k n : Nat) (hp : p % 8 ≠ 0)
    (hk : p % 8 + k < 8) (hkn : k ≤ n) (hn : p + n + 8 ≤ L) (h0 : m (p + n) = 0) (hnz : ∀ b, p ≤ b → b < p + n → m b ≠ 0) :
    ∃ o, vfprintf L m (ascii "%.*s") [(k : Int), (p : Int)] = some o ∧ o.ret = n ∧ o.chunks.flatten.length = n := by
  have hconv : ∀ sp, Agrees sp ⟨[], .num [], some .star, .none, 115⟩ ⟨false, 0, some k⟩ → sp.length = sizeCode .none →
      ∃ o, convert L m sp 0 115 [(p : Int)] = some (o, []) ∧ Does o ((List.range n).map fun i => m (p + i)) [] false := by
    intro sp hA hs
    refine ⟨_, convert_str L m sp 0 p [] ⟨false, [(List.range n).map fun i => m (p + i)], n, []⟩ ?_, by simp [Does]⟩
    have hpr := hA.prec
    simp only at hpr
    unfold convertS
    simp only
    rw [if_neg (by rw [hs]; decide), if_neg (by omega), hpr, u32_nat p (by omega)]
    unfold strnlen
    rw [show ((k : Nat) : Int).toNat = k from Int.toNat_natCast k,
      strnlenFrom_overrun L m hm k p (p + n) hp hk (by omega) hn (by omega) h0 hnz]
    simp
  obtain ⟨o, e, h1, h2, _, _⟩ := vloop_dir L m ⟨[], .num [], some .star, .none, 115⟩
    (by refine ⟨by simp, ⟨by simp, by decide⟩, by simp [Field.text], ?_⟩; intro f hf; cases hf; trivial) (by decide) ⟨false, 0, some k⟩
    [(k : Int), (p : Int)] [(p : Int)] [] (by
      simp only [Dir.ask, Field.take, value, List.foldl_nil]
      rw [if_pos (by unfold IsI32; omega)]
      simp) (Nat.two_pow_pos 31) [] [] 0 0 4 _ [] [] [] false false rfl
    (by simp; omega) hconv ⟨_, rfl, rfl, by
      simp only [List.length_map, List.length_range, List.length_nil]
      rw [Nat.mod_eq_of_lt (by omega), s32_nat _ (by omega)]
      omega, rfl, rfl⟩
  have hf : vfprintf L m (ascii "%.*s") [(k : Int), (p : Int)] =
      vloop L m (4 + 1) ((Dir.mk [] (.num []) (some .star) .none 115).text ++ []) [] 0 [(k : Int), (p : Int)] := rfl
  exact ⟨o, by rw [hf, e], by rw [h2]; simp, by rw [h1]; simp⟩

/-- Memory with a text at an address and zeros elsewhere. -/
def textAt (p : Nat) (t : List Nat) : Mem := fun a => if p ≤ a ∧ a < p + t.length then t.getD (a - p) 0 else 0

/-- `printf("%.2s", "abcdef")` with the string at an odd address prints all of it. -/
example : ∃ o, vfprintf 64 (textAt 17 (ascii "abcdef")) (ascii "%.*s") [2, 17] = some o ∧ o.ret = 6 ∧
    o.chunks.flatten = ascii "abcdef" :=
  ⟨⟨false, [[], ascii "abcdef", []], 6, []⟩, by decide +kernel, rfl, rfl⟩

/-! ## Where the text goes -/

/-- C45: whatever pieces the output is written in, `snprintf` stores its first `size - 1` bytes and a terminator,
nothing else, and returns what formatting returns; with `size` 0 it stores nothing. `sprintf` stores all. -/
theorem C45_any_output (o : Out) (mem : Mem) (buffer size : Nat) :
    (vsnprintf mem buffer size o).1 = o.ret ∧
    (1 ≤ size → Str.Written mem (vsnprintf mem buffer size o).2 buffer (o.chunks.flatten.take (size - 1) ++ [0])) ∧
    (vsnprintf mem buffer 0 o).2 = mem ∧
    (vsprintf mem buffer o).1 = o.ret ∧ Str.Written mem (vsprintf mem buffer o).2 buffer (o.chunks.flatten ++ [0]) :=
  ⟨vsnprintf_ret mem buffer size o, vsnprintf_mem mem buffer size o, vsnprintf_zero mem buffer o,
    vsprintf_ret mem buffer o, vsprintf_mem mem buffer o⟩

/-- C45, from format to buffer (partial: without the conversions `f F a A`): `snprintf` stores the first `size - 1` bytes of the text and a terminator, nothing else, and returns
the length of the whole text; with `size` 0 it stores nothing. `sprintf` stores all of it. -/
theorem C45_snprintf_partial (L : Nat) (h8 : L % 8 = 0) (hL : L < 2 ^ 32) (m : Mem) (hm : ∀ a, m a < 256) (is : List Item)
    (args : List Int) (t : List Nat) (st : List (Nat × Nat × Nat)) (h : Prints m 0 is args t st) (hok : ∀ i ∈ is, i.Ok)
    (hc : Clean L m is args) (hlen : t.length < 2 ^ 31) (mem : Mem) (buffer : Nat) :
    ∃ o, vfprintf L m (format is) args = some o ∧
      (∀ size, (vsnprintf mem buffer size o).1 = t.length ∧
        (1 ≤ size → Str.Written mem (vsnprintf mem buffer size o).2 buffer (t.take (size - 1) ++ [0]))) ∧
      (vsnprintf mem buffer 0 o).2 = mem ∧
      (vsprintf mem buffer o).1 = t.length ∧ Str.Written mem (vsprintf mem buffer o).2 buffer (t ++ [0]) := by
  obtain ⟨o, e, h1, h2, _⟩ := C46_text_partial L h8 hL m hm is args t st h hok hc hlen
  refine ⟨o, e, ?_⟩
  rw [← h2, ← h1]
  exact ⟨fun size => ⟨vsnprintf_ret mem buffer size o, vsnprintf_mem mem buffer size o⟩, vsnprintf_zero mem buffer o,
    vsprintf_ret mem buffer o, vsprintf_mem mem buffer o⟩

example (m : Mem) (hm : ∀ a, m a < 256) (mem : Mem) : ∃ o, vfprintf 65536 m (format sampleItems) [7, 8, 255, 65] = some o ∧
    (vsnprintf mem 100 6 o).1 = 18 ∧ Str.Written mem (vsnprintf mem 100 6 o).2 100 (ascii "+0007" ++ [0]) := by
  obtain ⟨o, e, h1, h2, h3⟩ := C46_text_partial 65536 (by decide) (by decide) m hm sampleItems [7, 8, 255, 65] _ [] (sample_prints m)
    sample_ok (sample_clean _ m) (by decide +kernel)
  refine ⟨o, e, ?_, ?_⟩
  · rw [vsnprintf_ret, h2]; decide +kernel
  · have := vsnprintf_mem mem 100 6 o (by decide)
    rw [h1] at this
    exact this

/-- C83 (partial: for the formats of `C46_text_partial`): writing to a file whatever its behaviour, `fprintf` either has all of the text accepted, in order, and
returns its length, or returns -1 with the error indicator set and a proper prefix accepted. -/
theorem C83_fprintf_partial {σ : Type} (W : Stdio.Writer σ) (hW : ∀ h bs n h', W h bs = (.inr n, h') → n ≤ bs.length) (f : Stdio.File σ)
    (L : Nat) (h8 : L % 8 = 0) (hL : L < 2 ^ 32) (m : Mem) (hm : ∀ a, m a < 256) (is : List Item)
    (args : List Int) (t : List Nat) (st : List (Nat × Nat × Nat)) (h : Prints m 0 is args t st) (hok : ∀ i ∈ is, i.Ok)
    (hc : Clean L m is args) (hlen : t.length < 2 ^ 31) :
    ∃ o, vfprintf L m (format is) args = some o ∧
      ∃ u, Took W f.host u (fprintf W o f).2.host ∧
        (((fprintf W o f).1 = t.length ∧ u = t) ∨
          ((fprintf W o f).1 = -1 ∧ (fprintf W o f).2.err = true ∧ u <+: t ∧ u.length < t.length)) := by
  obtain ⟨o, e, h1, h2, _⟩ := C46_text_partial L h8 hL m hm is args t st h hok hc hlen
  refine ⟨o, e, ?_⟩
  rw [← h2, ← h1]
  exact emit_file W hW o.chunks o.ret f

/-- A file with room for a number of bytes. -/
def room : Stdio.Writer Nat := fun n bs => (.inr (min n bs.length), n - bs.length)

example : ∀ h bs n h', room h bs = (.inr n, h') → n ≤ bs.length := by
  intro h bs n h' e
  simp only [room, Prod.mk.injEq, Sum.inr.injEq] at e
  omega

/-- C85 (partial: for the formats of `C46_text_partial`): `asprintf` allocates the length of the text and one more, stores the text and a terminator there and
returns the length; when there is no memory it returns -1 and a null pointer and stores nothing. -/
theorem C85_asprintf_partial (alloc : Nat → Option Nat) (mem : Mem)
    (L : Nat) (h8 : L % 8 = 0) (hL : L < 2 ^ 32) (m : Mem) (hm : ∀ a, m a < 256) (is : List Item)
    (args : List Int) (t : List Nat) (st : List (Nat × Nat × Nat)) (h : Prints m 0 is args t st) (hok : ∀ i ∈ is, i.Ok)
    (hc : Clean L m is args) (hlen : t.length < 2 ^ 31) :
    ∃ o, vfprintf L m (format is) args = some o ∧
      (alloc (t.length + 1) = none → vasprintf alloc mem o = (-1, none, mem)) ∧
      (∀ buf, alloc (t.length + 1) = some buf → ∃ mem', vasprintf alloc mem o = (Int.ofNat t.length, some buf, mem') ∧
        Str.Written mem mem' buf (t ++ [0])) := by
  obtain ⟨o, e, h1, h2, _⟩ := C46_text_partial L h8 hL m hm is args t st h hok hc hlen
  refine ⟨o, e, ?_, ?_⟩
  · intro ha
    unfold vasprintf
    have e0 : vsnprintf mem 0 0 o = ((t.length : Int), mem) :=
      Prod.ext_iff.2 ⟨by rw [vsnprintf_ret, h2], vsnprintf_zero mem 0 o⟩
    rw [e0]
    simp only
    rw [if_neg (by omega), Int.toNat_natCast, ha]
  · intro buf ha
    refine ⟨(vsnprintf mem buf (t.length + 1) o).2, ?_, ?_⟩
    · unfold vasprintf
      have e0 : vsnprintf mem 0 0 o = ((t.length : Int), mem) :=
        Prod.ext_iff.2 ⟨by rw [vsnprintf_ret, h2], vsnprintf_zero mem 0 o⟩
      have e1 : vsnprintf mem buf (t.length + 1) o = ((t.length : Int), (vsnprintf mem buf (t.length + 1) o).2) :=
        Prod.ext_iff.2 ⟨by rw [vsnprintf_ret, h2], rfl⟩
      rw [e0]
      simp only
      rw [if_neg (by omega), Int.toNat_natCast, ha]
      simp only
      rw [e1]
      simp only
      rw [if_neg (by omega)]
      rfl
    · have := vsnprintf_mem mem buf (t.length + 1) o (by omega)
      rw [h1, Nat.add_sub_cancel, List.take_of_length_le (by omega)] at this
      exact this

/-! ## Conversions that are missing -/

/-- `e`, `E`, `g` and `G` are not conversions of the library: the call prints nothing and returns -2, whatever
the argument. -/
theorem C86_no_exponent_conversions (L : Nat) (m : Mem) (v : Int) (c : Nat) (hc : c ∈ [101, 69, 103, 71]) :
    ∃ o, vfprintf L m [37, c] [v] = some o ∧ o.ret = -2 ∧ o.chunks.flatten = [] := by
  simp only [List.mem_cons, List.not_mem_nil, or_false] at hc
  rcases hc with rfl | rfl | rfl | rfl <;> exact ⟨_, rfl, rfl, rfl⟩

end Verif.Printf
