import Verif.Wio.FmtLemmas
import Verif.Wio.Props

/-!
# Formatted wide output
-/

namespace Verif.Wio

open Utf.Spec
open Printf (Out ascii)
open Printf.Spec (Prints Clean Item format)

/-! ## C116: `swprintf` -/

/-- C116 (partial: for the formats and arguments of `C46_text_partial`, and texts that fit): `swprintf` with a buffer of `cap`
elements stores exactly the characters whose UTF-8 text the format and its arguments prescribe, and a terminator, changes nothing
else, and returns the number of characters, however the text is cut into pieces when it is produced. -/
theorem C116_text_partial (alloc : Nat → Bool) (L : Nat) (h8 : L % 8 = 0) (hL : L < 2 ^ 32) (pm : Str.Mem) (hm : ∀ a, pm a < 256)
    (is : List Item) (args : List Int) (t : List Nat) (st : List (Nat × Nat × Nat)) (h : Prints pm 0 is args t st)
    (hok : ∀ i ∈ is, i.Ok) (hc : Clean L pm is args) (hlen : t.length < 2 ^ 31)
    (ws junk : List Nat) (hf : Enc (format is) ws) (h0 : ∀ c ∈ ws, c ≠ 0) (hl : (format is).length < Utf.ERR)
    (ha : alloc ((format is).length + 1) = true)
    (m : Wide.Mem) (buf cap : Nat) (cs : List Nat) (ht : Enc t cs) (hcap : cap ≤ 2 ^ 31) (hfit : cs.length < cap) :
    ∃ m', vswprintf alloc (Printf.vfprintf L pm · args) m buf cap (ws ++ 0 :: junk) = some ((cs.length : Int), m') ∧
      Wide.Written m m' buf (cs.map Int.ofNat ++ [0]) := by
  obtain ⟨o, ho, h1, h2, _⟩ := Printf.C46_text_partial L h8 hL pm hm is args t st h hok hc hlen
  rw [vswprintf_eq alloc _ m buf cap ws junk (format is) o hf h0 hl ha ho (by omega)]
  obtain ⟨m', e, hw⟩ := sink_text m buf cap o t [] cs ht (by rw [h1, List.append_nil]) (.inl rfl) (by omega) (by omega) hcap
  rw [List.take_of_length_le (by omega)] at hw
  rw [Nat.min_eq_left (by omega)] at e
  exact ⟨m', by rw [e], hw⟩

/-- C116: whatever `vfprintf` hands over, if it is not UTF-8 and at least four bytes are left where it stops being so, the
result is -1, the first element is the terminator and nothing outside the buffer has changed. -/
theorem C116_malformed (alloc : Nat → Bool) (conv : List Nat → Option Out) (ws junk fmt : List Nat) (o : Out)
    (hf : Enc fmt ws) (h0 : ∀ c ∈ ws, c ≠ 0) (hl : fmt.length < Utf.ERR) (ha : alloc (fmt.length + 1) = true) (ho : conv fmt = some o)
    (m : Wide.Mem) (buf cap : Nat) (hc : 0 < cap) (e w rest cs : List Nat) (he : Enc e cs) (ht : o.chunks.flatten = e ++ (w ++ rest))
    (hb : Bytes o.chunks.flatten) (hw : Wrong w) (h4 : 4 ≤ (w ++ rest).length) :
    ∃ m', vswprintf alloc conv m buf cap (ws ++ 0 :: junk) = some (-1, m') ∧ m' buf = 0 ∧
      ∀ a, ¬ (buf ≤ a ∧ a < buf + cap) → m' a = m a := by
  obtain ⟨h1, h2⟩ := sink_wrong m buf cap o e w rest cs he ht hb hw h4
  rw [vswprintf_eq alloc conv m buf cap ws junk fmt o hf h0 hl ha ho hc, if_pos (by rw [h1]; decide)]
  refine ⟨_, rfl, by simp [Wide.put], fun a hout => ?_⟩
  unfold Wide.put
  rw [if_neg (by omega)]
  refine h2.2 a fun h => hout ⟨h.1, ?_⟩
  simp only [List.length_map, List.length_take] at h
  omega

/-- C116: a format that is not a string of scalar values makes the call fail without storing anything but the terminator. -/
theorem C116_bad_format (alloc : Nat → Bool) (conv : List Nat → Option Out) (m : Wide.Mem) (buf cap : Nat) (hc : 0 < cap)
    (ws junk : List Nat) (c : Nat) (hs : ∀ c ∈ ws, Scalar c ∧ c ≠ 0) (h1 : c < 2 ^ 32) (h2 : ¬ Scalar c) :
    vswprintf alloc conv m buf cap (ws ++ c :: junk) = some (-1, Wide.put m buf 0) := by
  unfold vswprintf vfwprintf
  rw [if_neg (by omega), transcode_bad alloc ws junk c hs h1 h2]
  rfl

/-- C116: with an empty buffer the call fails and nothing is stored, whatever the format. -/
theorem C116_empty_buffer (alloc : Nat → Bool) (conv : List Nat → Option Out) (m : Wide.Mem) (buf : Nat) (ws : List Nat) :
    vswprintf alloc conv m buf 0 ws = some (-1, m) := rfl

/-- C116: without memory for the format the call fails and stores the empty string. -/
theorem C116_no_memory (alloc : Nat → Bool) (conv : List Nat → Option Out) (m : Wide.Mem) (buf cap : Nat) (hc : 0 < cap)
    (ws junk fmt : List Nat) (hf : Enc fmt ws) (h0 : ∀ c ∈ ws, c ≠ 0) (hl : fmt.length < Utf.ERR) (ha : alloc (fmt.length + 1) = false) :
    vswprintf alloc conv m buf cap (ws ++ 0 :: junk) = some (-1, Wide.put m buf 0) := by
  unfold vswprintf vfwprintf
  rw [if_neg (by omega), transcode_spec alloc ws junk fmt hf h0 hl, if_neg (by simp [ha])]
  rfl

/-- The elements of an ASCII wide string. -/
def wide (s : String) : List Nat := ascii s ++ [0]

theorem enc_ascii (t : List Nat) (h : ∀ b ∈ t, b < 0x80) : Enc t t := by
  induction t with
  | nil => exact .nil
  | cons b t ih =>
    exact .cons (b := [b]) (.r1 ⟨Nat.zero_le _, Nat.le_of_lt_succ (h b (List.mem_cons_self ..))⟩) (ih fun x hx => h x (List.mem_cons_of_mem _ hx))

example (pm : Str.Mem) (hm : ∀ a, pm a < 256) :
    ∃ m', vswprintf (fun _ => true) (Printf.vfprintf 65536 pm · [7, 8, 255, 65]) (fun _ => 9) 100 30 (wide "%+05d|%-4o|%#x|%c%%") = some (18, m') ∧
      Wide.Written (fun _ => 9) m' 100 ((ascii "+0007|10  |0xff|A%").map Int.ofNat ++ [0]) := by
  have hf : ascii "%+05d|%-4o|%#x|%c%%" = format Printf.sampleItems := by decide +kernel
  have hb : ∀ b ∈ format Printf.sampleItems, b < 0x80 := by rw [← hf]; decide +kernel
  have := C116_text_partial (fun _ => true) 65536 (by decide) (by decide) pm hm Printf.sampleItems [7, 8, 255, 65] _ []
    (Printf.sample_prints pm) Printf.sample_ok (Printf.sample_clean _ pm) (by decide +kernel) (format Printf.sampleItems) []
    (enc_ascii _ hb) (by rw [← hf]; decide +kernel) (by rw [← hf]; decide +kernel) rfl
    (fun _ => 9) 100 30 (ascii "+0007|10  |0xff|A%") (enc_ascii _ (by decide +kernel)) (by decide) (by decide +kernel)
  rw [wide, hf]
  exact this

/-- C116 is violated by every text that does not fit: the call returns `cap - 1`, as if the text were that long. C11
7.29.2.3p3 requires a negative value when `cap` or more characters were to be written. -/
theorem C116_truncated (alloc : Nat → Bool) (conv : List Nat → Option Out) (ws junk fmt : List Nat) (o : Out)
    (hf : Enc fmt ws) (h0 : ∀ c ∈ ws, c ≠ 0) (hl : fmt.length < Utf.ERR) (ha : alloc (fmt.length + 1) = true) (ho : conv fmt = some o)
    (hr : 0 ≤ o.ret) (m : Wide.Mem) (buf cap : Nat) (hc : 0 < cap) (hcap : cap ≤ 2 ^ 31) (cs : List Nat)
    (ht : Enc o.chunks.flatten cs) (hbig : cap ≤ cs.length) :
    ∃ m', vswprintf alloc conv m buf cap (ws ++ 0 :: junk) = some (((cap - 1 : Nat) : Int), m') ∧
      Wide.Written m m' buf ((cs.take (cap - 1)).map Int.ofNat ++ [0]) := by
  rw [vswprintf_eq alloc conv m buf cap ws junk fmt o hf h0 hl ha ho hc]
  obtain ⟨m', e, hw⟩ := sink_text m buf cap o _ [] cs ht (by rw [List.append_nil]) (.inl rfl) hr hc hcap
  rw [Nat.min_eq_right (by omega)] at e
  exact ⟨m', by rw [e], hw⟩

example : (vswprintf (fun _ => true) (Printf.vfprintf 65536 (fun _ => 0) · []) (fun _ => 9) 0 3 (wide "abcd")).map
    (fun r => (r.1, (List.range 4).map r.2)) = some (2, [97, 98, 0, 9]) := by decide +kernel

/-- C116 is violated by a text that ends inside a character: the beginning of that character is dropped and the call succeeds.
C11 7.29.2.1 has a precision count wide characters, so `"%.1s"` with `é` should give `é`. -/
theorem C116_cut (alloc : Nat → Bool) (conv : List Nat → Option Out) (ws junk fmt : List Nat) (o : Out)
    (hf : Enc fmt ws) (h0 : ∀ c ∈ ws, c ≠ 0) (hl : fmt.length < Utf.ERR) (ha : alloc (fmt.length + 1) = true) (ho : conv fmt = some o)
    (hr : 0 ≤ o.ret) (m : Wide.Mem) (buf cap : Nat) (hcap : cap ≤ 2 ^ 31) (e p q cs : List Nat) (v : Nat)
    (he : Enc e cs) (ht : o.chunks.flatten = e ++ p) (hq : q ≠ []) (hw : WF (p ++ q) v) (hfit : cs.length < cap) :
    ∃ m', vswprintf alloc conv m buf cap (ws ++ 0 :: junk) = some ((cs.length : Int), m') ∧
      Wide.Written m m' buf (cs.map Int.ofNat ++ [0]) := by
  rw [vswprintf_eq alloc conv m buf cap ws junk fmt o hf h0 hl ha ho (by omega)]
  obtain ⟨m', e', hw'⟩ := sink_text m buf cap o e p cs he ht (.inr ⟨q, v, hq, hw⟩) hr (by omega) hcap
  rw [List.take_of_length_le (by omega)] at hw'
  rw [Nat.min_eq_left (by omega)] at e'
  exact ⟨m', by rw [e'], hw'⟩

/-- Memory with the byte string `é` at 104 and the wide string `AB` at 112. -/
def sampleMem : Str.Mem := fun a => if a = 104 then 0xC3 else if a = 105 then 0xA9 else if a = 112 then 65 else if a = 116 then 66 else 0

/-- `"%.1s"` with `é` gives the empty string. -/
theorem C116_precision : (vswprintf (fun _ => true) (Printf.vfprintf 65536 sampleMem · [104]) (fun _ => 9) 0 5 (wide "%.1s")).map
    (fun r => (r.1, (List.range 2).map r.2)) = some (0, [0, 9]) := by decide +kernel

example : (vswprintf (fun _ => true) (Printf.vfprintf 65536 sampleMem · [112]) (fun _ => 9) 0 5 (wide "%ls")).map
    (fun r => (r.1, (List.range 4).map r.2)) = some (2, [65, 66, 0, 9]) := by decide +kernel

/-! ## C117: `fwprintf` -/

/-- C117 (partial: for the formats and arguments of `C46_text_partial`, and without the value returned): on a file whatever its behaviour,
`fwprintf` has the UTF-8 text that the format and its arguments prescribe accepted in order, or returns -1 with the error indicator
set and a proper prefix accepted; the stream is wide-oriented afterwards unless it had an orientation. On success the value
returned is the number of bytes. -/
theorem C117_fwprintf_partial {σ : Type} (alloc : Nat → Bool) (W : Stdio.Writer σ) (hW : ∀ h bs n h', W h bs = (.inr n, h') → n ≤ bs.length)
    (f : WFile σ) (L : Nat) (h8 : L % 8 = 0) (hL : L < 2 ^ 32) (pm : Str.Mem) (hm : ∀ a, pm a < 256)
    (is : List Item) (args : List Int) (t : List Nat) (st : List (Nat × Nat × Nat)) (h : Prints pm 0 is args t st)
    (hok : ∀ i ∈ is, i.Ok) (hc : Clean L pm is args) (hlen : t.length < 2 ^ 31)
    (ws junk : List Nat) (hf : Enc (format is) ws) (h0 : ∀ c ∈ ws, c ≠ 0) (hl : (format is).length < Utf.ERR)
    (ha : alloc ((format is).length + 1) = true) :
    ∃ r g, fwprintf alloc (Printf.vfprintf L pm · args) W (ws ++ 0 :: junk) f = some (r, g) ∧
      g.orient = (if f.orient = 0 then 1 else f.orient) ∧ g.push = f.push ∧
      ∃ u, Printf.Spec.Took W f.file.host u g.file.host ∧
        ((r = t.length ∧ u = t) ∨ (r = -1 ∧ g.file.err = true ∧ u <+: t ∧ u.length < t.length)) := by
  obtain ⟨o, ho, u, h1, h2⟩ := Printf.C83_fprintf_partial W hW f.file L h8 hL pm hm is args t st h hok hc hlen
  unfold fwprintf vfwprintf
  rw [transcode_spec alloc ws junk _ hf h0 hl, if_pos ha]
  simp only [ho, Option.map_some, widen_file]
  exact ⟨_, _, rfl, widen_orient f, widen_push f, u, h1, h2⟩

/-- C117: a format that is not a string of scalar values makes the call return -1 without writing anything. -/
theorem C117_bad_format {σ : Type} (alloc : Nat → Bool) (conv : List Nat → Option Out) (W : Stdio.Writer σ) (f : WFile σ)
    (ws junk : List Nat) (c : Nat) (hs : ∀ c ∈ ws, Scalar c ∧ c ≠ 0) (h1 : c < 2 ^ 32) (h2 : ¬ Scalar c) :
    fwprintf alloc conv W (ws ++ c :: junk) f = some (-1, widen f) := by
  unfold fwprintf vfwprintf
  rw [transcode_bad alloc ws junk c hs h1 h2]
  simp only [Option.map_some]

example : (fwprintf (fun _ => true) (Printf.vfprintf 65536 sampleMem · [42]) tape (wide "%d") (fresh [])).map
    (fun r => (r.1, r.2.file.host, r.2.orient)) = some (2, [52, 50], 1) := by decide +kernel

/-- C117 is violated by the value returned: the format `é` returns 2, not 1. C11 7.29.2.1p14 requires the number of wide
characters. -/
theorem C117_counts_bytes : (fwprintf (fun _ => true) (Printf.vfprintf 65536 sampleMem · []) tape [0xE9, 0] (fresh [])).map
    (fun r => (r.1, r.2.file.host)) = some (2, [0xC3, 0xA9]) := by decide +kernel

/-- C117 is violated by `"%s"` with a byte string that is not UTF-8: it is written as it is and the call succeeds. C11 7.29.2.1
converts it as if by `mbrtowc`, an encoding error. -/
theorem C117_malformed_passed : (fwprintf (fun _ => true) (Printf.vfprintf 65536 (fun a => if a = 104 then 0xFF else 0) · [104]) tape
    (wide "%s") (fresh [])).map (fun r => (r.1, r.2.file.host)) = some (1, [0xFF]) := by decide +kernel

end Verif.Wio
