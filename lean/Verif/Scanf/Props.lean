import Verif.Scanf.Safe

/-!
# Formatted input: properties
-/

namespace Verif.Scanf

open Verif.Strtol (White Blank Subject IsDigit denoted value digitVal)

/-! ## C49: what is left on the stream -/

/-- The character that ends an item is lost: after `fscanf(f, "%d", &x)` on `12a` nothing is left to
read on the stream, although the item is `12` and `a` was not part of it. -/
theorem C49_lost : ∃ r, vfscanf [49, 50, 97] [37, 100] 1 = some r ∧ r.value = 1 ∧
    r.state.out = [(0, .int 4 12)] ∧ r.state.s.input = [] := by
  refine ⟨⟨1, ⟨⟨[], 2, [97], false⟩, 1, 1, [(0, .int 4 12)]⟩⟩, ?_, rfl, rfl, rfl⟩
  decide

/-- So is the character of a matching failure: `fscanf(f, ":")` on `ab` takes `a`. -/
theorem C49_lost_literal : ∃ r, vfscanf [97, 98] [58] 0 = some r ∧ r.value = 0 ∧ r.state.s.input = [98] := by
  refine ⟨⟨0, ⟨⟨[98], 0, [97], false⟩, 0, 0, []⟩⟩, ?_, rfl, rfl⟩
  decide

/-- At most one character is lost, none if the standard has no input left or the scan completes and
the last directive, if any, is an ordinary character or `%c`. Missing: all other scans, which may lose one
(`C49_lost`, `C49_lost_literal`), and those `Event.Fine` and `Ending.Fine` exclude. -/
theorem C49_left_partial (ds : List Dir) (t : List Int) (o : Outcome) (nargs : Nat) (hok : ∀ d ∈ ds, d.Ok) (hby : Bytes t)
    (hlen : t.length < 2147483647) (hargs : pointers ds ≤ nargs) (h : Scan ds t 0 o) (hev : ∀ e ∈ o.events, e.Fine)
    (hend : o.ending.Fine) :
    ∃ r, vfscanf t (render ds) nargs = some r ∧
      (r.state.s.input = o.rest ∨ ∃ c, o.rest = c :: r.state.s.input) ∧
      (o.rest = [] ∨ (o.ending = .complete ∧ tight true ds = true) → r.state.s.input = o.rest) := by
  obtain ⟨r, m, e, h1, -, -, h4⟩ := loop_scan h nargs (render ds).length.succ ⟨⟨t, 0, [], false⟩, 0, 0, []⟩ hok hby (by omega)
    ⟨rfl, (fun h => nomatch h), rfl, by simp⟩ (render_length ds) (by simpa using hargs) hev hend
  have hp : r.state.s.peek ++ r.state.s.input = o.rest := h1.view
  have hk := h1.room
  refine ⟨r, e, ?_, ?_⟩
  · cases hpk : r.state.s.peek with
    | nil => rw [hpk] at hp; exact .inl hp
    | cons c p =>
      rw [hpk] at hp hk
      simp only [List.length_cons] at hk
      obtain rfl : p = [] := List.eq_nil_of_length_eq_zero (by omega)
      exact .inr ⟨c, hp.symm⟩
  · rintro (hr | ⟨h2, h3⟩)
    · rw [hr] at hp ⊢
      exact (List.append_eq_nil_iff.mp hp).2
    · rw [h4 true h2 (fun _ => rfl) h3] at hp
      exact hp

/-! ## C103: what is converted -/

/-- Formatted input agrees with C11 7.21.6.2. Missing: numbers longer than 127 characters, integers that do not fit 64 bits
and -2^63, zeros and failures that use up the field width, partial `%c`, floating-point failures after a digit or letter
(`Event.Fine`, `Ending.Fine`), suppressed conversions before the end of the input. -/
theorem C103_scanf_partial (ds : List Dir) (t : List Int) (o : Outcome) (nargs : Nat) (hok : ∀ d ∈ ds, d.Ok) (hby : Bytes t)
    (hlen : t.length < 2147483647) (hargs : pointers ds ≤ nargs) (h : Scan ds t 0 o) (hev : ∀ e ∈ o.events, e.Fine)
    (hend : o.ending.Fine) (hsup : o.ending = .input → o.done = 0 ∨ o.assigned ≠ 0) :
    ∃ r, vfscanf t (render ds) nargs = some r ∧ r.value = o.value ∧ r.state.out = number 0 o.objects := by
  obtain ⟨r, m, e, -, h2, h3, -⟩ := loop_scan h nargs (render ds).length.succ ⟨⟨t, 0, [], false⟩, 0, 0, []⟩ hok hby (by omega)
    ⟨rfl, (fun h => nomatch h), rfl, by simp⟩ (render_length ds) (by simpa using hargs) hev hend
  refine ⟨r, e, ?_, by simpa using h2⟩
  rw [h3]
  unfold Outcome.value orEof
  simp only [Nat.zero_add]
  have hle : o.assigned ≤ o.done := by
    unfold Outcome.assigned Outcome.done
    exact filter_le _ _ (fun x hx => by simp at hx ⊢; exact hx.1) o.events
  by_cases hi : o.ending = .input
  · rw [if_pos hi]
    rcases hsup hi with h | h
    · rw [if_neg (by omega), if_pos ⟨hi, h⟩]
    · rw [if_pos h, if_neg (by omega)]
  · rw [if_neg hi, if_neg (fun h => hi h.1)]
/-- `%2d` -/
private abbrev two : Conv := ⟨false, [50], .none, .d⟩
/-- `%c` -/
private abbrev chr : Conv := ⟨false, [], .none, .c⟩

private theorem subject12 {neg radix digits} (h : Subject 10 [49, 50] neg radix digits) : denoted neg radix digits = 12 := by
  generalize hw : [(49 : Int), 50] = w at h
  obtain ⟨sign, pre, digits, neg, radix, hs, hp, hr, hne, hd⟩ := h
  obtain rfl : pre = [] := by
    rcases hp with h | ⟨h, -⟩
    · exact h
    · exact absurd h (by decide)
  rw [if_pos (by decide)] at hr
  subst hr
  rcases hs with ⟨rfl, rfl⟩ | ⟨rfl, rfl⟩ | ⟨rfl, rfl⟩
  · simp only [List.nil_append] at hw
    subst hw
    decide
  · exact absurd (List.cons.inj hw).1 (by decide)
  · exact absurd (List.cons.inj hw).1 (by decide)

private theorem is12 : Subject 10 [49, 50] false 10 [49, 50] :=
  .mk [] [] [49, 50] false 10 (.inl ⟨rfl, rfl⟩) (.inl rfl) rfl (by simp) (by
    intro c hc
    simp at hc
    rcases hc with rfl | rfl
    · exact ⟨1, rfl, by omega⟩
    · exact ⟨2, rfl, by omega⟩)

/-- The format `%2d:%c` on ` 12:xy`. -/
private theorem scan12 : Scan [.conv two, .lit 58, .conv chr] [32, 49, 50, 58, 120, 121] 0
    ⟨.complete, [⟨two, [49, 50], .int 4 12⟩, ⟨chr, [120], .chars [120]⟩], [121]⟩ := by
  have h1 : two.Item ([49, 50] ++ [58, 120, 121]) [49, 50] := by
    refine ⟨⟨_, rfl⟩, ⟨⟨[], ?_⟩, ?_⟩, ?_⟩
    · exact ⟨10, false, 10, [49, 50], rfl, is12⟩
    · intro k hk
      obtain rfl := Option.some.inj hk
      decide
    · intro w _ hv
      exact hv.2 2 rfl
  have h2 : chr.Item ([120] ++ [121]) [120] := by
    refine ⟨⟨_, rfl⟩, ⟨⟨[], rfl⟩, fun k hk => nomatch hk⟩, ?_⟩
    intro w _ hv
    obtain ⟨z, hz⟩ := hv.1
    have : (w ++ z).length = 1 := hz
    simp at this ⊢
    omega
  refine Scan.done (b := [32]) (item := [49, 50]) (t := [58, 120, 121]) (v := two) (by decide) (by simp [Blank, White])
    (fun h => absurd trivial h) (by simp [White]) (by simp) h1 ⟨10, false, 10, [49, 50], rfl, is12⟩ ?_
    (Scan.lit (Scan.done (b := []) (item := [120]) (t := [121]) (v := chr) (by decide) (by simp [Blank]) (fun _ => rfl)
      (fun h => nomatch h) (by simp) h2 rfl (.chars rfl) .nil))
  have := Conv.Stores.int (v := two) (item := [49, 50]) 4 rfl is12 rfl
  exact this

private theorem ok12 : ∀ d ∈ [Dir.conv two, .lit 58, .conv chr], d.Ok := by
  intro d hd
  simp only [List.mem_cons, List.not_mem_nil, or_false] at hd
  rcases hd with rfl | rfl | rfl
  · exact ⟨by simp, fun _ => by decide, by simp⟩
  · exact ⟨by decide, by decide, by decide, by decide⟩
  · exact ⟨by simp, fun h => absurd rfl h, rfl⟩

private theorem fine12 : ∀ e ∈ [(⟨two, [49, 50], .int 4 12⟩ : Event), ⟨chr, [120], .chars [120]⟩], e.Fine := by
  intro e he
  simp only [List.mem_cons, List.not_mem_nil, or_false] at he
  rcases he with rfl | rfl
  · refine ⟨(fun c h => nomatch h), fun base hb => ?_⟩
    obtain rfl := Option.some.inj hb
    refine ⟨by decide, fun _ => by decide, fun neg radix digits h => ?_⟩
    simp only [subject12 h]
    rw [if_pos (by decide)]
    decide
  · exact ⟨(fun c h => nomatch h), fun base hb => nomatch hb⟩

/-- The hypotheses hold of `sscanf(" 12:xy", "%2d:%c", &x, &c)`, which gives 12 and `x`. -/
example : ∃ r, vfscanf [32, 49, 50, 58, 120, 121] [37, 50, 100, 58, 37, 99] 2 = some r ∧ r.value = 2 ∧
    r.state.out = [(0, .int 4 12), (1, .chars [120])] :=
  C103_scanf_partial [.conv two, .lit 58, .conv chr] _ _ 2 ok12 (by simp [Bytes]) (by decide) (by decide) scan12 fine12 trivial
    (fun h => nomatch h)

/-- The hypotheses of `C49_left_partial` hold of the same scan, which leaves `y`. -/
example : ∃ r, vfscanf [32, 49, 50, 58, 120, 121] [37, 50, 100, 58, 37, 99] 2 = some r ∧ r.state.s.input = [121] := by
  obtain ⟨r, e, -, h⟩ := C49_left_partial [.conv two, .lit 58, .conv chr] _ _ 2 ok12 (by simp [Bytes]) (by decide) (by decide)
    scan12 fine12 trivial
  exact ⟨r, e, h (.inr ⟨rfl, rfl⟩)⟩

/-- `%6lf` -/
private abbrev six : Conv := ⟨false, [54], .l, .f 102⟩

/-- The hypotheses hold of `sscanf("-1.5e34", "%6lf", &d)`, which stores the number that `-1.5e3` denotes. -/
example : ∃ r, vfscanf [45, 49, 46, 53, 101, 51, 52] [37, 54, 108, 102] 1 = some r ∧ r.value = 1 ∧
    r.state.out = [(0, .real (108, 1) [45, 49, 46, 53, 101, 51])] := by
  have hr : Real [45, 49, 46, 53, 101, 51] :=
    .num [45] [] [49] [46] [53] [101, 51] true false (.inr (.inr ⟨rfl, rfl⟩)) rfl
      (by intro c hc; rw [List.mem_singleton.mp hc]; exact ⟨1, rfl, by decide⟩) (.inr rfl)
      (by intro c hc; rw [List.mem_singleton.mp hc]; exact ⟨5, rfl, by decide⟩) (by simp)
      (.inr ⟨101, [], [51], false, rfl, .inl rfl, .inl ⟨rfl, rfl⟩, by simp,
        by intro c hc; rw [List.mem_singleton.mp hc]; exact ⟨3, rfl, by decide⟩⟩)
  refine C103_scanf_partial [.conv six] _ ⟨.complete, [⟨six, [45, 49, 46, 53, 101, 51], .real (108, 1) [45, 49, 46, 53, 101, 51]⟩], [52]⟩
    1 ?_ (by simp [Bytes]) (by decide) (by decide) ?_ ?_ trivial (fun h => nomatch h)
  · intro d hd
    rw [List.mem_singleton.mp hd]
    exact ⟨by simp, fun _ => by decide, by simp, by simp⟩
  · refine Scan.done (b := []) (item := [45, 49, 46, 53, 101, 51]) (t := [52]) (v := six) (by decide) (by simp [Blank])
      (fun _ => rfl) (by simp [White]) (by simp) ⟨⟨_, rfl⟩, ⟨⟨[], by rw [List.append_nil]; exact hr⟩, ?_⟩, ?_⟩ hr (.real rfl) .nil
    · intro k hk
      obtain rfl := Option.some.inj hk
      decide
    · intro w _ hv
      exact hv.2 6 rfl
  · intro e he
    rw [List.mem_singleton.mp he]
    exact ⟨fun _ _ => by decide, fun base hb => nomatch hb⟩

/-! Where the library differs from the standard. -/

/-- A zero that uses up the field width is pushed back and read again: `%1d%1d` on `05` gives 0 and 0
rather than 0 and 5. -/
theorem C103_zero : (vfscanf [48, 53] [37, 49, 100, 37, 49, 100] 2).map (·.state.out) =
    some [(0, .int 4 0), (1, .int 4 0)] := by decide

/-- `%%` takes a pointer that the caller does not pass: `%%%d` on `%5` with one pointer is undefined. -/
theorem C103_percent : vfscanf [37, 53] [37, 37, 37, 100] 1 = none := by decide

/-- `%%` does not skip white space. -/
theorem C103_percent_space : (vfscanf [32, 37] [37, 37] 1).map (·.state.s.peek) = some [32] := by decide

/-- An integer of more than 127 characters is cut: 127 zeros and a 5 are 0. -/
theorem C103_long : (vfscanf (List.replicate 127 48 ++ [53]) [37, 100] 1).map (·.state.out) = some [(0, .int 4 0)] := by
  decide +kernel

/-- So is a floating-point number: a 1 and 130 zeros are stored as the number of a 1 and 126 zeros. -/
theorem C103_long_real : (vfscanf (49 :: List.replicate 130 48) [37, 108, 102] 1).map (·.state.out) =
    some [(0, .real (108, 1) (49 :: List.replicate 126 48))] := by decide +kernel

/-- `%3c` accepts two characters. -/
theorem C103_chars : (vfscanf [97, 98] [37, 51, 99] 1).map (·.value) = some 1 := by decide

/-- An input failure after a suppressed conversion is reported as one before any conversion: `%*d%d`
on `5` gives -1 rather than 0. -/
theorem C103_suppressed : (vfscanf [53] [37, 42, 100, 37, 100] 1).map (·.value) = some (-1) := by decide

/-- The least `long long` is undefined. -/
theorem C103_min : vfscanf [45, 57, 50, 50, 51, 51, 55, 50, 48, 51, 54, 56, 53, 52, 55, 55, 53, 56, 48, 56] [37, 108, 108, 100] 1 =
    none := by decide +kernel

/-- `%f` accepts `1e`, an incomplete number. -/
theorem C103_incomplete : (vfscanf [49, 101, 32] [37, 102] 1).map (fun r => (r.value, r.state.out)) =
    some (1, [(0, .real (0, 0) [49])]) := by decide

/-- And `infi`. -/
theorem C103_infi : (vfscanf [105, 110, 102, 105] [37, 102] 1).map (fun r => (r.value, r.state.out)) =
    some (1, [(0, .real (0, 0) [105, 110, 102, 105])]) := by decide

/-- After 127 characters what is pushed back is a digit: 127 times 1, then `e`, `x`. -/
theorem C103_pushed : (vfscanf (List.replicate 127 49 ++ [101, 120]) [37, 102, 37, 115] 2).map (·.state.out) =
    some [(0, .real (0, 0) (List.replicate 127 49)), (1, .text [49, 120])] := by decide +kernel

/-! ## C104: any format, any input -/

/-- Whatever the format and the input, a scan ends, never pushes more than the three characters its
array holds, stores through each pointer at most once, in order, through no pointer beyond those passed, and
returns -1 or at most the number of objects stored. There must be as many pointers as `%`s, and field widths
must have at most nine digits. Missing: signed conversions of input with a minus sign, where the least
`long long` is undefined (`C103_min`), and wider field widths (`C104_width`). -/
theorem C104_any_partial (input format : List Int) (nargs : Nat) (hi : ∀ c ∈ input, 0 ≤ c ∧ c ≤ 255)
    (hn : format.count 37 ≤ nargs) (hw : ∀ ds, ds <:+: format → (∀ c ∈ ds, 48 ≤ c ∧ c ≤ 57) → ds.length ≤ 9)
    (hm : 45 ∉ input ∨ (100 ∉ format ∧ 105 ∉ format)) :
    ∃ r, vfscanf input format nargs = some r ∧ r.state.s.peek.length ≤ 3 ∧
      (r.state.out.map Prod.fst).Pairwise (· < ·) ∧ (∀ x ∈ r.state.out, x.1 < nargs) ∧
      -1 ≤ r.value ∧ r.value ≤ r.state.out.length := by
  rcases hm with hm | hm
  · obtain ⟨r, o, e, h1, h2, h3, h4, h5⟩ := loop_safe true nargs (format.length + 1) format ⟨⟨input, 0, [], false⟩, 0, 0, []⟩
      (by omega) hw (fun h => nomatch h) ⟨by simp, fun c hc => ⟨by have := hi c hc; omega, (hi c hc).2, fun _ h => hm (h ▸ hc)⟩⟩
      (by simpa using hn)
    simp only [List.nil_append] at h2
    subst h2
    exact ⟨r, e, h1.1, h3.1, fun x hx => (h3.2 x hx).2, h4, by simpa using h5⟩
  · obtain ⟨r, o, e, h1, h2, h3, h4, h5⟩ := loop_safe false nargs (format.length + 1) format ⟨⟨input, 0, [], false⟩, 0, 0, []⟩
      (by omega) hw (fun _ => hm) ⟨by simp, fun c hc => ⟨by have := hi c hc; omega, (hi c hc).2, fun h => nomatch h⟩⟩
      (by simpa using hn)
    simp only [List.nil_append] at h2
    subst h2
    exact ⟨r, e, h1.1, h3.1, fun x hx => (h3.2 x hx).2, h4, by simpa using h5⟩

/-- `%5f%[^]q` on `1e+x`: the exponent is pushed back whole. -/
example : (vfscanf [49, 101, 43, 120] [37, 53, 102, 37, 91, 94, 93, 113] 2).map (fun r => (r.value, r.state.out)) =
    some (2, [(0, .real (0, 0) [49]), (1, .text [101, 43, 120])]) := by decide +kernel

example : [37, 53, 102, 37, 91, 94, 93, 113].count (37 : Int) ≤ 2 ∧ (100 : Int) ∉ [37, 53, 102, 37, 91, 94, 93, 113] := by
  decide

/-- A field width of ten digits overflows. -/
theorem C104_width : vfscanf [] [37, 57, 57, 57, 57, 57, 57, 57, 57, 57, 57, 115] 1 = none := by decide

end Verif.Scanf
