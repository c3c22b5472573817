import Verif.Wscan.Trans

/-!
# Formatted wide input: properties
-/

namespace Verif.Wscan

open Verif.Scanf Verif.Utf.Spec
open Verif.Strtol (White Blank Subject)

theorem small {t : List Char} (h : t.length < 536870911) : (Host.bytes t).length < Utf.ERR := by
  have := (Host.bytes_length t).2
  unfold Utf.ERR
  omega

theorem codes_inj : ∀ {a b : List Char}, codes a = codes b → a = b
  | [], [], _ => rfl
  | [], _ :: _, h => by simp [codes] at h
  | _ :: _, [], h => by simp [codes] at h
  | x :: a, y :: b, h => by
    simp only [codes, List.map_cons, List.cons.injEq] at h
    rw [Host.toNat_inj (c := x) (d := y) (by omega), codes_inj (a := a) (b := b) h.2]

theorem codes_low {t : List Char} (h : Ascii t) : Low (codes t) := by
  intro c hc
  obtain ⟨d, hd, rfl⟩ := List.mem_map.1 hc
  have := h d hd
  omega

/-! ## C148: `swscanf` -/

/-- `swscanf` scans every text as C11 7.29.2.2 says if the format consists of white space, ordinary characters of any kind,
conversions of integers and of floating-point numbers, and `%s` without field width: it returns the right number and stores the
right objects, strings in UTF-8. Missing: `%c`, `%n`, `%[`, `%s` with a field width (see `C148_ascii_partial` for ASCII text and
`C148_violated` for other text), `%ls`, and what `C103_scanf_partial` leaves out. -/
theorem C148_text_partial (ds : List Dir) (f t : List Char) (o : Outcome) (nargs : Nat) (junk junk' : List Nat)
    (hok : ∀ d ∈ ds, DirOk d) (hpl : ∀ d ∈ ds, Plain d) (hf : codes f = render ds) (hf0 : Str f) (ht : Str t)
    (hfl : f.length < 536870911) (hlen : t.length < 536870911) (hargs : pointers ds ≤ nargs) (h : Scan ds (codes t) 0 o)
    (hev : ∀ e ∈ o.events, e.Fine) (hend : o.ending.Fine) (hsup : o.ending = .input → o.done = 0 ∨ o.assigned ≠ 0) :
    ∃ out, vswscanf (wstr t junk) (wstr f junk') true true nargs = some (o.value, number 0 out) ∧ Each o.objects out := by
  obtain ⟨r, out, e1, e2, e3, e4⟩ := scan_bytes ds t o nargs hok hpl ht hlen hargs h hev hend hsup
  refine ⟨out, ?_, e4⟩
  unfold vswscanf vsscanf
  rw [transcode_str ht junk (small hlen), Option.bind_some]
  simp only [if_true]
  rw [transcode_str hf0 junk' (small hfl), Option.bind_some]
  simp only [if_true]
  rw [hf, e1, Option.bind_some, e2, e3]

/-- ASCII text is scanned right with all directives of ASCII formats. Missing: what `C103_scanf_partial` leaves out, and `%ls`, `%lc`,
`%l[`. -/
theorem C148_ascii_partial (ds : List Dir) (f t : List Char) (o : Outcome) (nargs : Nat) (junk junk' : List Nat)
    (hok : ∀ d ∈ ds, d.Ok) (hf : codes f = render ds) (hf0 : Str f) (ht : Str t) (hfa : Ascii f) (hta : Ascii t)
    (hfl : f.length < 536870911) (hlen : t.length < 536870911) (hargs : pointers ds ≤ nargs) (h : Scan ds (codes t) 0 o)
    (hev : ∀ e ∈ o.events, e.Fine) (hend : o.ending.Fine) (hsup : o.ending = .input → o.done = 0 ∨ o.assigned ≠ 0) :
    vswscanf (wstr t junk) (wstr f junk') true true nargs = some (o.value, number 0 o.objects) := by
  have hl := codes_low hta
  have hb : Bytes (codes t) := fun c hc => ⟨(hl c hc).1, by have := (hl c hc).2; omega⟩
  obtain ⟨r, e1, e2, e3⟩ := C103_scanf_partial ds (codes t) o nargs hok hb (by rw [codes_length]; omega) hargs h hev hend hsup
  unfold vswscanf vsscanf
  rw [transcode_str ht junk (small hlen), Option.bind_some]
  simp only [if_true]
  rw [transcode_str hf0 junk' (small hfl), Option.bind_some]
  simp only [if_true]
  rw [utf8_low hl, utf8_low (codes_low hfa), hf, e1, Option.bind_some, e2, e3]

/-- If the text or the format has an element that is not a character, or memory runs out, -1 is returned and nothing is stored. -/
theorem C148_failure (f t : List Char) (nargs : Nat) (junk junk' : List Nat) (hf0 : Str f) (ht : Str t)
    (hfl : f.length < 536870911) (hlen : t.length < 536870911) (bad : Nat) (hb : bad < 2 ^ 32) (hs : ¬ Scalar bad)
    (ws format : List Nat) (a1 a2 : Bool) (hws : ws = wstr t junk ∨ ws = t.map Char.toNat ++ bad :: junk)
    (hfm : format = wstr f junk' ∨ format = f.map Char.toNat ++ bad :: junk')
    (hx : ws = t.map Char.toNat ++ bad :: junk ∨ format = f.map Char.toNat ++ bad :: junk' ∨ a1 = false ∨ a2 = false) :
    vswscanf ws format a1 a2 nargs = some (-1, []) := by
  unfold vswscanf
  rcases hws with rfl | rfl
  · rw [transcode_str ht junk (small hlen), Option.bind_some]
    cases a1 with
    | false => rfl
    | true =>
      simp only [if_true]
      rcases hfm with rfl | rfl
      · rw [transcode_str hf0 junk' (small hfl), Option.bind_some]
        cases a2 with
        | false => rfl
        | true =>
          exfalso
          rcases hx with hx | hx | hx | hx
          · unfold wstr at hx
            rw [List.append_cancel_left_eq] at hx
            exact hs ((List.cons.inj hx).1 ▸ by decide)
          · unfold wstr at hx
            rw [List.append_cancel_left_eq] at hx
            exact hs ((List.cons.inj hx).1 ▸ by decide)
          · exact absurd hx (by decide)
          · exact absurd hx (by decide)
      · rw [transcode_bad hf0 hb hs, Option.bind_some]
  · rw [transcode_bad ht hb hs, Option.bind_some]

/-- With other text the library differs from the standard. The text is `é` (and `a`): `%c` stores the first byte of its two, `%n`
gives 2 for the characters read so far, `%1s` stores half a character, `%[é]` accepts half of `è`, and `%ls` stores a string of bytes
rather than of wide characters. -/
theorem C148_violated :
    vswscanf [233, 97, 0] [37, 99, 0] true true 1 = some (1, [(0, .chars [195])]) ∧
    vswscanf [233, 97, 0] [233, 37, 110, 0] true true 1 = some (0, [(0, .int 4 2)]) ∧
    vswscanf [233, 97, 0] [37, 49, 115, 0] true true 1 = some (1, [(0, .text [195])]) ∧
    vswscanf [232, 97, 0] [37, 91, 233, 93, 0] true true 1 = some (1, [(0, .text [195])]) ∧
    vswscanf [97, 0] [37, 108, 115, 0] true true 1 = some (1, [(0, .text [97])]) := by
  refine ⟨?_, ?_, ?_, ?_, ?_⟩ <;> decide +kernel

/-! ## C149: `fwscanf` -/

/-- `fwscanf` returns the right number and stores the right objects, for the same formats as `swscanf`. Missing: the same as in
`C148_text_partial`. -/
theorem C149_text_partial (ds : List Dir) (f t : List Char) (o : Outcome) (nargs : Nat) (junk : List Nat)
    (hok : ∀ d ∈ ds, DirOk d) (hpl : ∀ d ∈ ds, Plain d) (hf : codes f = render ds) (hf0 : Str f) (ht : Str t)
    (hfl : f.length < 536870911) (hlen : t.length < 536870911) (hargs : pointers ds ≤ nargs) (h : Scan ds (codes t) 0 o)
    (hev : ∀ e ∈ o.events, e.Fine) (hend : o.ending.Fine) (hsup : o.ending = .input → o.done = 0 ∨ o.assigned ≠ 0) :
    ∃ out rest, vfwscanf (t.map Char.toNat) (wstr f junk) true nargs = some (o.value, number 0 out, rest) ∧ Each o.objects out := by
  obtain ⟨r, out, e1, e2, e3, e4⟩ := scan_bytes ds t o nargs hok hpl ht hlen hargs h hev hend hsup
  refine ⟨out, unread (t.map Char.toNat) r.state.s.input.length, ?_, e4⟩
  unfold vfwscanf
  rw [transcode_str hf0 junk (small hfl), Option.bind_some]
  simp only [if_true]
  rw [hf, produced_codes, e1, Option.bind_some, e2, e3]

theorem produced_low {t : List Char} (h : Ascii t) : produced (t.map Char.toNat) = codes t := by
  rw [produced_codes, utf8_low (codes_low h)]

theorem unread_suffix : ∀ (a b : List Char), Ascii (a ++ b) → unread ((a ++ b).map Char.toNat) b.length = b.map Char.toNat
  | [], [], _ => rfl
  | [], c :: b, h => by
    rw [List.nil_append] at *
    rw [List.map_cons, unread, ← List.map_cons, produced_low h, codes_length, if_pos (Nat.le_refl _)]
  | c :: a, b, h => by
    rw [List.cons_append, List.map_cons, unread, ← List.map_cons]
    rw [List.cons_append] at h
    rw [produced_low h, codes_length, if_neg (by simp; omega)]
    exact unread_suffix a b fun x hx => h x (List.mem_cons_of_mem _ hx)

/-- With ASCII text and formats `fwscanf` handles all directives, and of what the standard leaves on the stream it loses at most one
character, none if nothing is left or the scan completes and the last directive is an ordinary character or `%c`. Missing: all other
scans, which may lose one (`C149_lost`), other text and what `C103_scanf_partial` leaves out. -/
theorem C149_left_partial (ds : List Dir) (f t used rest : List Char) (o : Outcome) (nargs : Nat) (junk : List Nat)
    (hok : ∀ d ∈ ds, d.Ok) (hf : codes f = render ds) (hf0 : Str f) (hfa : Ascii f) (hta : Ascii t)
    (hfl : f.length < 536870911) (hlen : t.length < 536870911) (hargs : pointers ds ≤ nargs) (h : Scan ds (codes t) 0 o)
    (hev : ∀ e ∈ o.events, e.Fine) (hend : o.ending.Fine) (hsup : o.ending = .input → o.done = 0 ∨ o.assigned ≠ 0)
    (htext : t = used ++ rest) (hrest : o.rest = codes rest) :
    ∃ left, vfwscanf (t.map Char.toNat) (wstr f junk) true nargs = some (o.value, number 0 o.objects, left.map Char.toNat) ∧
      (left = rest ∨ ∃ c, rest = c :: left) ∧ (rest = [] ∨ (o.ending = .complete ∧ tight true ds = true) → left = rest) := by
  have hl := codes_low hta
  have hb : Bytes (codes t) := fun c hc => ⟨(hl c hc).1, by have := (hl c hc).2; omega⟩
  obtain ⟨r, e1, e2, e3⟩ := C103_scanf_partial ds (codes t) o nargs hok hb (by rw [codes_length]; omega) hargs h hev hend hsup
  obtain ⟨r', e4, e5, e6⟩ := C49_left_partial ds (codes t) o nargs hok hb (by rw [codes_length]; omega) hargs h hev hend
  rw [e1] at e4
  obtain rfl := Option.some.inj e4
  have hv : vfwscanf (t.map Char.toNat) (wstr f junk) true nargs =
      some (o.value, number 0 o.objects, unread (t.map Char.toNat) r.state.s.input.length) := by
    unfold vfwscanf
    rw [transcode_str hf0 junk (small hfl), Option.bind_some]
    simp only [if_true]
    rw [produced_low hta, utf8_low (codes_low hfa), hf, e1, Option.bind_some, e2, e3]
  rw [hrest] at e5 e6
  rcases e5 with e5 | ⟨c, e5⟩
  · refine ⟨rest, ?_, .inl rfl, fun _ => rfl⟩
    rw [hv, e5, codes_length, htext, unread_suffix used rest (htext ▸ hta)]
  · cases rest with
    | nil => simp [codes] at e5
    | cons d left =>
      simp only [codes, List.map_cons, List.cons.injEq] at e5
      refine ⟨left, ?_, .inr ⟨d, rfl⟩, fun hx => ?_⟩
      · have e7 : r.state.s.input.length = left.length := by rw [← e5.2, List.length_map]
        have e8 : t = (used ++ [d]) ++ left := by rw [htext, List.append_assoc]; rfl
        rw [hv, e7, e8, unread_suffix (used ++ [d]) left (e8 ▸ hta)]
      · exfalso
        have := e6 (by
          rcases hx with hx | hx
          · exact absurd hx (by simp)
          · exact .inr hx)
        rw [← e5.2] at this
        have := congrArg List.length this
        simp [codes] at this

/-- The character that ends an item is lost: after `fwscanf(f, L"%d", &x)` on `12:34` the next character is `3`. -/
theorem C149_lost : vfwscanf [49, 50, 58, 51, 52] [37, 100, 0] true 1 = some (1, [(0, .int 4 12)], [51, 52]) := by
  decide +kernel

/-- If the format has an element that is not a character, or memory runs out, -1 is returned and nothing is read. -/
theorem C149_failure (f : List Char) (nargs : Nat) (junk text : List Nat) (hf0 : Str f) (hfl : f.length < 536870911) :
    vfwscanf text (wstr f junk) false nargs = some (-1, [], text) ∧
    ∀ bad a, bad < 2 ^ 32 → ¬ Scalar bad → vfwscanf text (f.map Char.toNat ++ bad :: junk) a nargs = some (-1, [], text) := by
  constructor
  · unfold vfwscanf
    rw [transcode_str hf0 junk (small hfl), Option.bind_some]
    rfl
  · intro bad a hb hs
    unfold vfwscanf
    rw [transcode_bad hf0 hb hs, Option.bind_some]

/-! ## Examples -/

/-- `%s` -/
private abbrev str : Conv := ⟨false, [], .none, .s⟩
/-- `%u` -/
private abbrev uns : Conv := ⟨false, [], .none, .u⟩

private theorem is7 : Subject 10 [55] false 10 [55] :=
  .mk [] [] [55] false 10 (.inl ⟨rfl, rfl⟩) (.inl rfl) rfl (by simp) (by
    intro c hc
    rw [List.mem_singleton.1 hc]
    exact ⟨7, rfl, by omega⟩)

private theorem only7 {neg radix digits} (h : Subject 10 [55] neg radix digits) : radix = 10 ∧ digits = [55] := by
  generalize hw : [(55 : Int)] = w at h
  obtain ⟨sign, pre, digits, neg, radix, hs, hp, hr, hne, hd⟩ := h
  obtain rfl : pre = [] := by
    rcases hp with h | ⟨h, -⟩
    · exact h
    · exact absurd h (by decide)
  rw [if_pos (by decide)] at hr
  rcases hs with ⟨rfl, rfl⟩ | ⟨rfl, rfl⟩ | ⟨rfl, rfl⟩
  · simp only [List.nil_append] at hw
    exact ⟨hr, rfl⟩
  · exact absurd (List.cons.inj hw).1 (by decide)
  · exact absurd (List.cons.inj hw).1 (by decide)

/-- `%s €%u` on `né €7`. -/
private theorem scan7 : Scan [.conv str, .white 32, .lit 8364, .conv uns] [110, 233, 32, 8364, 55] 0
    ⟨.complete, [⟨str, [110, 233], .text [110, 233]⟩, ⟨uns, [55], .int 4 7⟩], []⟩ := by
  have hs : ∀ w, str.Viable w ↔ ∀ c ∈ w, ¬ White c := viable_s rfl rfl
  have h1 : str.Item ([110, 233] ++ [32, 8364, 55]) [110, 233] := by
    refine ⟨⟨_, rfl⟩, (hs _).2 (by simp [White]), ?_⟩
    intro w hw hv
    have hw' := (hs w).1 hv
    rcases Nat.lt_or_ge 2 w.length with h | h
    · exfalso
      obtain ⟨r, hr⟩ := hw
      have : w[2]? = some 32 := by
        have := congrArg (fun l => l[2]?) hr
        rw [List.getElem?_append_left h] at this
        exact this
      exact hw' 32 (List.mem_of_getElem? this) (by decide)
    · exact h
  have h2 : uns.Item ([55] ++ []) [55] := by
    refine ⟨⟨_, rfl⟩, ⟨⟨[], 10, false, 10, [55], rfl, is7⟩, fun k hk => nomatch hk⟩, ?_⟩
    intro w hw _
    exact hw.length_le
  refine Scan.done (b := []) (item := [110, 233]) (t := [32, 8364, 55]) (v := str)
    (o := ⟨.complete, [⟨uns, [55], .int 4 7⟩], []⟩) (by decide) (by simp [Blank]) (fun _ => rfl)
    (by simp [White]) (by simp) h1 ⟨by simp, by simp [White]⟩ (.str rfl) ?_
  refine Scan.white (b := [32]) (t := [8364, 55]) (by simp [Blank, White]) (by simp [White]) (Scan.lit ?_)
  refine Scan.done (b := []) (item := [55]) (t := []) (v := uns)
    (o := ⟨.complete, [], []⟩) (by decide) (by simp [Blank]) (fun _ => rfl)
    (by simp [White]) (by simp) h2 ⟨10, false, 10, [55], rfl, is7⟩ ?_ .nil
  exact Conv.Stores.int (v := uns) (item := [55]) 4 rfl is7 rfl

private theorem fine7 : ∀ e ∈ [(⟨str, [110, 233], .text [110, 233]⟩ : Event), ⟨uns, [55], .int 4 7⟩], e.Fine := by
  intro e he
  simp only [List.mem_cons, List.not_mem_nil, or_false] at he
  rcases he with rfl | rfl
  · exact ⟨(fun c h => nomatch h), fun base hb => nomatch hb⟩
  · refine ⟨(fun c h => nomatch h), fun base hb => ?_⟩
    obtain rfl := Option.some.inj hb
    refine ⟨by decide, (fun h => nomatch h), fun neg radix digits h => ?_⟩
    obtain ⟨rfl, rfl⟩ := only7 h
    rw [if_neg (by decide)]
    decide

private theorem ok7 : ∀ d ∈ [Dir.conv str, .white 32, .lit 8364, .conv uns], DirOk d ∧ Plain d := by
  intro d hd
  simp only [List.mem_cons, List.not_mem_nil, or_false] at hd
  rcases hd with rfl | rfl | rfl | rfl
  · exact ⟨⟨by simp, fun h => absurd rfl h, rfl⟩, by decide, by decide, by simp, fun _ => rfl⟩
  · exact ⟨.inl rfl, trivial⟩
  · exact ⟨⟨by decide, by decide, by decide, by decide⟩, trivial⟩
  · exact ⟨⟨by simp, fun h => absurd rfl h, by simp⟩, by decide, by decide, by simp, fun h => nomatch h⟩

/-- The hypotheses hold of `swscanf(L"né €7", L"%s €%u", s, &x)`, which stores the three bytes of `né` and 7. -/
example : ∃ out, vswscanf (wstr ['n', 'é', ' ', '€', '7'] []) (wstr ['%', 's', ' ', '€', '%', 'u'] []) true true 2 =
    some (2, number 0 out) ∧ Each [.text [110, 233], .int 4 7] out :=
  C148_text_partial [.conv str, .white 32, .lit 8364, .conv uns] ['%', 's', ' ', '€', '%', 'u'] ['n', 'é', ' ', '€', '7'] _ 2 [] []
    (fun d hd => (ok7 d hd).1) (fun d hd => (ok7 d hd).2) (by decide) (by simp [Str]) (by simp [Str]) (by decide) (by decide)
    (by decide) scan7 fine7 trivial (fun h => nomatch h)

example : vswscanf (wstr ['n', 'é', ' ', '€', '7'] []) (wstr ['%', 's', ' ', '€', '%', 'u'] []) true true 2 =
    some (2, [(0, .text [110, 195, 169]), (1, .int 4 7)]) := by decide +kernel

example : ∃ out rest, vfwscanf (['n', 'é', ' ', '€', '7'].map Char.toNat) (wstr ['%', 's', ' ', '€', '%', 'u'] []) true 2 =
    some (2, number 0 out, rest) ∧ Each [.text [110, 233], .int 4 7] out :=
  C149_text_partial [.conv str, .white 32, .lit 8364, .conv uns] ['%', 's', ' ', '€', '%', 'u'] ['n', 'é', ' ', '€', '7'] _ 2 []
    (fun d hd => (ok7 d hd).1) (fun d hd => (ok7 d hd).2) (by decide) (by simp [Str]) (by simp [Str]) (by decide) (by decide)
    (by decide) scan7 fine7 trivial (fun h => nomatch h)

/-- `:` on `:x` leaves `x`. -/
private theorem scanColon : Scan [.lit 58] [58, 120] 0 ⟨.complete, [], [120]⟩ := .lit .nil

example : ∃ left, vfwscanf ([':', 'x'].map Char.toNat) (wstr [':'] []) true 0 = some (0, [], left.map Char.toNat) ∧ left = ['x'] := by
  obtain ⟨left, h1, -, h3⟩ := C149_left_partial [.lit 58] [':'] [':', 'x'] [':'] ['x'] _ 0 [] (by
      intro d hd; rw [List.mem_singleton.1 hd]; exact ⟨by decide, by decide, by decide, by decide⟩) (by decide) (by simp [Str])
    (by simp [Ascii]) (by simp [Ascii]) (by decide) (by decide) (by decide) scanColon (by simp) trivial (fun h => nomatch h) rfl rfl
  exact ⟨left, h1, h3 (.inr ⟨rfl, rfl⟩)⟩

example : vswscanf (wstr [':', 'x'] []) (wstr [':'] []) true true 0 = some (0, []) :=
  C148_ascii_partial [.lit 58] [':'] [':', 'x'] _ 0 [] [] (by
      intro d hd; rw [List.mem_singleton.1 hd]; exact ⟨by decide, by decide, by decide, by decide⟩) (by decide) (by simp [Str])
    (by simp [Str]) (by simp [Ascii]) (by simp [Ascii]) (by decide) (by decide) (by decide) scanColon (by simp) trivial
    (fun h => nomatch h)

/-- A surrogate in the text. -/
example : vswscanf [97, 0xD800, 0] [37, 99, 0] true true 1 = some (-1, []) :=
  C148_failure ['%', 'c'] ['a'] 1 [0] [] (by simp [Str]) (by simp [Str]) (by decide) (by decide) 0xD800 (by decide) (by decide) _ _ true
    true (.inr rfl) (.inl rfl) (.inl rfl)

end Verif.Wscan
