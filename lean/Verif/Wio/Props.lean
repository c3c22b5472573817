import Verif.Wio.Lemmas

/-!
# Wide streams
-/

namespace Verif.Wio

open Utf.Spec

/-! ## C111: `fgetwc` decodes the file -/

/-- C111: whatever the file does, `fgetwc` ends after at most four bytes, in one of three ways: it returns the
character whose UTF-8 sequence these bytes are and has taken nothing else; or the bytes cannot begin a character and it
returns `WEOF` with the error indicator set; or `getc` reported the end and it returns `WEOF` with the end indicator
set. No complete character is swallowed in the last two cases. -/
theorem C111_fgetwc {σ : Type} (R : Stdio.Reader σ) (hR : Stdio.Honest R) (f : WFile σ) (hs : Stdio.Sound f.file)
    (hp : f.push = none) :
    ∃ bs g r f', fgetwc R f = some (r, f') ∧ f'.push = none ∧ Stdio.Reads R f.file bs g ∧ bs.length ≤ 4 ∧
      ((WF bs r ∧ f'.file = g) ∨
        (bs ≠ [] ∧ Wrong bs ∧ Unfinished bs.dropLast ∧ r = WEOF ∧ f'.file = { g with err := true }) ∨
        (Unfinished bs ∧ r = WEOF ∧ ∃ g', Stdio.getc R g = (Stdio.EOF, g') ∧ f'.file = { g' with eof := true })) := by
  obtain ⟨bs, g, r, f', h1, h2⟩ := fgetwc_spec hR f hs hp
  exact ⟨bs, g, r, _, h1, (widen_push f).trans hp, h2⟩

example : Stdio.Honest Stdio.disk ∧ Stdio.Sound (fresh (σ := List (Fin 256)) [0xE2, 0x82, 0xAC]).file :=
  ⟨Stdio.disk_honest, by decide, fun _ => by simp [fresh, Stdio.fresh]⟩

example : (fgetwc Stdio.disk (fresh [0xE2, 0x82, 0xAC, 0x41])).map (·.1) = some 0x20AC ∧
    (fgetwc Stdio.disk (fresh [0xE2, 0x41])).map (fun r => (r.1, marks r.2)) = some (WEOF, false, true) := by decide +kernel

/-- C111: from a disk file with the UTF-8 text of `cs` left, as many calls return `cs`, and what comes after that
text is what is left; the indicators are as before. -/
theorem C111_text (f : WFile (List (Fin 256))) (cs bs rest : List Nat) (he : Enc bs cs) (hu : Stdio.Unread f.file (bs ++ rest))
    (hp : f.push = none) :
    ∃ g, Reads Stdio.disk f cs g ∧ Stdio.Unread g.file rest ∧ g.push = none ∧ marks g = marks f :=
  reads_enc cs f bs rest he hu hp

/-- C111: at the end of a disk file `fgetwc` returns `WEOF` with the end indicator set and the other as before. -/
theorem C111_end (f : WFile (List (Fin 256))) (hu : Stdio.Unread f.file []) (hp : f.push = none) :
    ∃ g, fgetwc Stdio.disk f = some (WEOF, g) ∧ marks g = (true, (marks f).2) := by
  obtain ⟨g, h1, _, _, h2⟩ := fgetwc_end f [] hp hu (.inl rfl)
  exact ⟨g, h1, h2⟩

example : Enc [0x41, 0xC3, 0xA9] [0x41, 0xE9] ∧ Stdio.Unread (fresh [0x41, 0xC3, 0xA9, 0xFF]).file ([0x41, 0xC3, 0xA9] ++ [0xFF]) :=
  ⟨.cons (b := [0x41]) (.r1 (by decide)) (.cons (b := [0xC3, 0xA9]) (.r2 (a := 0xC3) (b := 0xA9) (by decide) (by decide)) .nil),
    ⟨by decide, fun _ => by simp [fresh, Stdio.fresh]⟩, by decide⟩

/-- C111 is violated by a file that ends inside a character: whatever the character and wherever it is cut, the end
indicator is set and the error indicator is not. C11 7.29.3.1p3 with 7.21.3p14 calls this an encoding error
("including too few bytes"), which sets the error indicator. -/
theorem C111_cut (f : WFile (List (Fin 256))) (p q : List Nat) (v : Nat) (hw : WF (p ++ q) v) (hne : q ≠ [])
    (hu : Stdio.Unread f.file p) (hp : f.push = none) :
    ∃ g, fgetwc Stdio.disk f = some (WEOF, g) ∧ marks g = (true, (marks f).2) := by
  obtain ⟨g, h1, _, _, h2⟩ := fgetwc_end f p hp hu (.inr ⟨q, v, hne, hw⟩)
  exact ⟨g, h1, h2⟩

example : WF ([0xE2, 0x82] ++ [0xAC]) 0x20AC ∧
    (fgetwc Stdio.disk (fresh [0xE2, 0x82])).map (fun r => (r.1, marks r.2)) = some (WEOF, true, false) :=
  ⟨.r4 (a := 0xE2) (b := 0x82) (c := 0xAC) (by decide) (by decide) (by decide), by decide +kernel⟩

/-- C111 is violated when reading fails: the end indicator is set as well as the error indicator. -/
theorem C111_read_error {σ : Type} (R : Stdio.Reader σ) (f : WFile σ) (ha : f.file.avail = 0) (hp : f.push = none) (e : Nat) (h : σ)
    (hr : R f.file.host 1 = (.fail e, h)) : ∃ g, fgetwc R f = some (WEOF, g) ∧ marks g = (true, true) := by
  refine ⟨{ widen f with file := { f.file with eof := true, err := true, host := h } }, ?_, rfl⟩
  unfold fgetwc
  simp only [widen_push, hp, widen_file]
  unfold getLoop
  rw [Stdio.getc_host ha]
  unfold Stdio.stdioRead
  rw [hr]
  simp only
  rw [if_pos trivial]
  rfl

example : ∃ g, fgetwc (fun h _ => (Stdio.Reply.fail 29, h)) (fresh ()) = some (WEOF, g) ∧ marks g = (true, true) :=
  C111_read_error _ _ rfl rfl 29 () rfl

/-! ## C112: `fgetws` reads one line -/

/-- C112: whatever the file does, `fgetws` stores the characters `fgetwc` returns, at most `n - 1`, nothing after a newline,
and a terminator, and nothing outside the `n` elements; it stops early only at a newline or at `WEOF`; a null pointer is
returned and nothing stored when there is no character before `WEOF`. -/
theorem C112_fgetws {σ : Type} (R : Stdio.Reader σ) (hR : Stdio.Honest R) (f : WFile σ) (hs : Stdio.Sound f.file)
    (m : Wide.Mem) (s : Nat) (n : Int) (hn : 1 ≤ n) :
    ∃ cs g b m' f', fgetws R m s n f = some (b, m', f') ∧ Reads R f cs g ∧ (cs.length : Int) ≤ n - 1 ∧ 10 ∉ cs.dropLast ∧
      ((((cs.length : Int) = n - 1 ∨ cs.getLast? = some 10) ∧ f' = g ∧ b = true ∧ Wide.Written m m' s (cs.map wchar ++ [0])) ∨
        (10 ∉ cs ∧ (cs.length : Int) < n - 1 ∧ fgetwc R g = some (WEOF, f') ∧ (cs = [] → b = false ∧ m' = m) ∧
          (cs ≠ [] → b = true ∧ Wide.Written m m' s (cs.map wchar ++ [0])))) := by
  have hw0 : Wide.Written m m s [] := ⟨fun i h => by simp at h, fun a _ => rfl⟩
  obtain ⟨cs, g, o, m', f', h1, h2, h3, h4, h5, h6⟩ := fgetwsLoop_spec hR s m f hs (n - 1).toNat 0 m f [] (.nil f) rfl (by simp) hw0
  have hz := put_written h5 0
  rw [List.length_map] at hz
  unfold fgetws
  rw [if_neg (by omega), h1]
  rcases h6 with ⟨rfl, rfl, h⟩ | ⟨ha, hb, hc, rfl⟩
  · exact ⟨cs, f', _, _, _, rfl, h2, by omega, h4, .inl ⟨h.imp (by omega) id, rfl, rfl, hz⟩⟩
  · by_cases hnil : cs = []
    · subst hnil
      refine ⟨[], g, _, _, _, rfl, h2, by simp; omega, h4, .inr ⟨ha, by omega, hc, fun _ => ⟨rfl, ?_⟩, fun h => absurd rfl h⟩⟩
      funext a
      exact h5.2 a (by simp)
    · rw [if_neg hnil]
      exact ⟨cs, g, _, _, _, rfl, h2, by omega, h4, .inr ⟨ha, by omega, hc, fun h => absurd h hnil, fun _ => ⟨rfl, hz⟩⟩⟩

/-- C112: from a disk file with the UTF-8 text of `cs` left, a null pointer at its end and otherwise the rest of the line
cut to `n - 1` characters; what is left is the text of the characters after it. -/
theorem C112_line (f : WFile (List (Fin 256))) (cs text : List Nat) (he : Enc text cs) (hu : Stdio.Unread f.file text)
    (hp : f.push = none) (m : Wide.Mem) (s : Nat) (n : Int) (hn : 1 ≤ n) :
    ∃ b m' g, fgetws Stdio.disk m s n f = some (b, m', g) ∧
      (cs = [] ∧ n ≠ 1 → b = false ∧ m' = m) ∧
      (cs ≠ [] ∨ n = 1 → b = true ∧
        Wide.Written m m' s (((Stdio.upTo 10 cs).take (n - 1).toNat).map Int.ofNat ++ [0]) ∧
        ∃ rest, Enc rest (cs.drop ((Stdio.upTo 10 cs).take (n - 1).toNat).length) ∧ Stdio.Unread g.file rest) := by
  obtain ⟨xs, g, b, m', f', h1, h2, h3, h4, h5⟩ := C112_fgetws Stdio.disk Stdio.disk_honest f hu.1 m s n hn
  obtain ⟨t', cs', h6, h7, h8, h9, _⟩ := reads_disk h2 text cs he hu hp
  refine ⟨b, m', f', h1, ?_⟩
  have hx : xs.map wchar = xs.map Int.ofNat := by
    apply List.map_congr_left
    intro c hc
    have hsc : Scalar c := by
      have : ∀ (t cs : List Nat), Enc t cs → ∀ c ∈ cs, Scalar c := by
        intro t cs h
        induction h with
        | nil => intro c hc; cases hc
        | cons hw _ ih =>
          intro c hc
          rcases List.mem_cons.1 hc with rfl | hc
          · exact hw.scalar
          · exact ih c hc
      exact this text cs he c (by rw [h6]; exact List.mem_append_left _ hc)
    unfold Scalar at hsc
    unfold wchar
    rw [if_pos (by omega)]
    rfl
  have hup := @Stdio.upTo_eq 10 xs cs' h4
  rcases h5 with ⟨hstop, rfl, hb, hw⟩ | ⟨hno, hlt, heof, hnil, hcons⟩
  · have hline : (Stdio.upTo 10 cs).take (n - 1).toNat = xs := by
      rw [h6]
      rcases hstop with hl | hl
      · by_cases hm : 10 ∈ xs
        · have : xs.getLast? = some 10 := by
            rw [List.getLast?_eq_some_iff]
            have hne : xs ≠ [] := by rintro rfl; simp at hm
            refine ⟨xs.dropLast, ?_⟩
            have hd := List.dropLast_concat_getLast hne
            rw [← hd, List.mem_append] at hm
            rcases hm with hm | hm
            · exact absurd hm h4
            · rw [List.mem_singleton] at hm
              rw [hm]; exact hd.symm
          have := hup.1 this
          simp only [Int.cast_ofNat_Int] at this
          rw [this, List.take_of_length_le (by omega)]
        · have := hup.2 hm
          simp only [Int.cast_ofNat_Int] at this
          rw [this]
          exact List.take_left' (by omega)
      · have := hup.1 hl
        simp only [Int.cast_ofNat_Int] at this
        rw [this, List.take_of_length_le (by omega)]
    rw [hline]
    refine ⟨fun h => ?_, fun _ => ⟨hb, by rw [← hx]; exact hw, t', ?_, h8⟩⟩
    · exfalso
      have : xs = [] := by
        have := h.1; rw [this] at h6
        exact (List.append_eq_nil_iff.1 h6.symm).1
      subst this
      simp at hstop
      omega
    · rw [h6, List.drop_left]; exact h7
  · have hc' : cs' = [] := by
      cases cs' with
      | nil => rfl
      | cons c cs' =>
        obtain ⟨p, u, rfl, hw, _⟩ := Enc_cons h7
        obtain ⟨g', e, _⟩ := fgetwc_disk g p u c hw h8 h9
        rw [heof] at e
        injection e with e
        injection e with e
        exact absurd e.symm (WF_ne_weof hw)
    subst hc'
    cases h7
    have hline : (Stdio.upTo 10 cs).take (n - 1).toNat = xs := by
      rw [h6]
      have := hup.2 hno
      simp only [Int.cast_ofNat_Int] at this
      rw [this]
      simp only [Stdio.upTo, List.append_nil]
      rw [List.take_of_length_le (by omega)]
    rw [hline]
    obtain ⟨g', e1, e2, _⟩ := fgetwc_end g [] h9 h8 (.inl rfl)
    rw [heof] at e1
    injection e1 with e1
    injection e1 with _ e1
    subst e1
    refine ⟨fun h => ?_, fun h => ?_⟩
    · refine hnil ?_
      have := h.1; rw [this] at h6
      simpa using h6.symm
    · have hne : xs ≠ [] := by
        rintro rfl
        rcases h with h | h
        · exact h (by simpa using h6)
        · simp at hlt; omega
      refine ⟨(hcons hne).1, by rw [← hx]; exact (hcons hne).2, [], ?_, e2⟩
      have e : List.drop xs.length cs = [] := by rw [h6]; simp
      rw [e]
      exact .nil

example : (fgetws Stdio.disk (fun _ => 7) 1 9 (fresh [0xC3, 0xA9, 0x0A, 0x41])).map
    (fun r => (r.1, (List.range 6).map r.2.1)) = some (true, [7, 0xE9, 10, 0, 7, 7]) := by decide +kernel

/-- C112 is violated by an encoding error in the middle of a line: the part before it is returned as a line. C11 7.29.3.2p3
requires a null pointer. -/
theorem C112_error_hidden :
    (fgetws Stdio.disk (fun _ => 7) 0 9 (fresh [0x41, 0xFF, 0x42])).map (fun r => (r.1, (List.range 3).map r.2.1, marks r.2.2)) =
      some (true, [0x41, 0, 7], false, true) := by decide +kernel

/-! ## C113: what is written -/

/-- C113: writing to a file whatever its behaviour. Let `good` be the part of the string before its first element that is not a
Unicode scalar value, and `bs` its UTF-8 text. `fputws` returns 0 only if `good` is the whole string, all of `bs` has been
accepted in order, and leaves the indicators alone; otherwise it returns -1, sets the error indicator, and a
prefix of `bs` has been accepted, a proper one unless the string has an element that cannot be encoded. -/
theorem C113_fputws {σ : Type} (W : Stdio.Writer σ) (hW : ∀ h bs n h', W h bs = (.inr n, h') → n ≤ bs.length) (f : WFile σ)
    (good tail bs : List Nat) (he : Enc bs good) (ht : tail = [] ∨ ∃ c cs, tail = c :: cs ∧ c < 2 ^ 32 ∧ ¬ Scalar c) :
    ∃ u, Took W f.file.host u (fputws W (good ++ tail) f).2.file.host ∧
      (((fputws W (good ++ tail) f).1 = 0 ∧ tail = [] ∧ u = bs ∧ marks (fputws W (good ++ tail) f).2 = marks f) ∨
        ((fputws W (good ++ tail) f).1 = -1 ∧ (fputws W (good ++ tail) f).2.file.err = true ∧ u <+: bs ∧ (u = bs → tail ≠ []))) :=
  fputws_spec W hW good f bs tail he ht

example : (fputws tape [0x41, 0xE9, 0xD800, 0x42] (fresh [])).1 = -1 ∧
    (fputws tape [0x41, 0xE9, 0xD800, 0x42] (fresh [])).2.file.host = [0x41, 0xC3, 0xA9] := by decide +kernel

/-- C113: one character. `fputwc` returns it if all of its UTF-8 sequence has been accepted, and otherwise `WEOF` with the
error indicator set; what is not a scalar value is not written at all. -/
theorem C113_fputwc {σ : Type} (W : Stdio.Writer σ) (hW : ∀ h bs n h', W h bs = (.inr n, h') → n ≤ bs.length) (f : WFile σ) (c : Nat) :
    (∀ p, WF p c → ∃ u, Took W f.file.host u (fputwc W c f).2.file.host ∧
      (((fputwc W c f).1 = c ∧ u = p ∧ marks (fputwc W c f).2 = marks f) ∨
        ((fputwc W c f).1 = WEOF ∧ (fputwc W c f).2.file.err = true ∧ u <+: p ∧ u ≠ p))) ∧
    (c < 2 ^ 32 → ¬ Scalar c → (fputwc W c f).1 = WEOF ∧ (fputwc W c f).2.file = { f.file with err := true }) :=
  ⟨fun p hw => fputwc_scalar W hW f p c hw, fputwc_other W f c⟩

/-- C113: what `fputws` wrote, `fgetwc` reads back: for every string of scalar values, written to an empty file that takes
everything, the call succeeds, and as many calls on a stream that reads the file from its start return the string; the
next returns `WEOF`. -/
theorem C113_roundtrip (cs : List Nat) (hs : ∀ c ∈ cs, Scalar c) :
    (fputws tape cs (fresh [])).1 = 0 ∧
      ∃ g, Reads Stdio.disk (fresh (fputws tape cs (fresh [])).2.file.host) cs g ∧
        ∃ g', fgetwc Stdio.disk g = some (WEOF, g') ∧ marks g' = (true, false) := by
  obtain ⟨bs, he⟩ := Enc.exists hs
  have hb : Bytes bs := by
    have : ∀ (t cs : List Nat), Enc t cs → Bytes t := by
      intro t cs h
      induction h with
      | nil => intro c hc; cases hc
      | cons hw _ ih =>
        intro c hc
        rcases List.mem_append.1 hc with hc | hc
        · exact hw.bytes c hc
        · exact ih c hc
    exact this bs cs he
  obtain ⟨u, h1, h2⟩ := C113_fputws tape tape_honest (fresh []) cs [] bs he (.inl rfl)
  rw [List.append_nil] at h1 h2
  have hub : Bytes u := by
    rcases h2 with ⟨_, _, rfl, _⟩ | ⟨_, _, h, _⟩
    · exact hb
    · exact fun x hx => hb x (h.subset hx)
  have htape : ∀ (cs : List Nat) (f : WFile (List (Fin 256))), (∀ c ∈ cs, Scalar c) → (fputws tape cs f).1 = 0 := by
    intro cs
    induction cs with
    | nil => intro f _; rfl
    | cons c cs ih =>
      intro f hs
      have hc := hs c (List.mem_cons_self ..)
      obtain ⟨hr, hw⟩ := Utf.wcrtomb_scalar c hc
      have hl := hw.length_le
      have e : (fputwc tape c f).1 = c := by
        unfold fputwc
        simp only
        rw [if_neg (by rw [hr]; unfold Utf.ERR; omega)]
        unfold Stdio.stdioWrite tape
        simp only
        rw [if_neg (by rw [hr]; omega)]
      rw [fputws]
      simp only [e]
      rw [if_neg (WF_ne_weof hw)]
      exact ih _ (fun x hx => hs x (List.mem_cons_of_mem _ hx))
  have h0 := htape cs (fresh []) hs
  refine ⟨h0, ?_⟩
  have hu : u = bs := by
    rcases h2 with ⟨_, _, h, _⟩ | ⟨h, _⟩
    · exact h
    · rw [h0] at h; exact absurd h (by decide)
  subst hu
  have hh := tape_took h1 hub
  rw [show (fresh (σ := List (Fin 256)) []).file.host = [] from rfl, List.map_nil, List.nil_append] at hh
  obtain ⟨g, h3, h4, h5, h6⟩ := C111_text (fresh (fputws tape cs (fresh [])).2.file.host) cs u [] he
    (by
      refine ⟨⟨by simp [fresh, Stdio.fresh], fun _ => by simp [fresh, Stdio.fresh]⟩, ?_⟩
      rw [List.append_nil, ← hh]
      simp [fresh, Stdio.fresh, Stdio.pending]) rfl
  obtain ⟨g', h7, h8⟩ := C111_end g h4 h5
  exact ⟨g, h3, g', h7, by rw [h8, h6]; rfl⟩

example : (fputws tape [0x41, 0x1F600] (fresh [])).2.file.host = [0x41, 0xF0, 0x9F, 0x98, 0x80] := by decide +kernel

/-! ## C114: pushing back -/

/-- C114: `ungetwc` of a character succeeds when nothing is pushed back, clears the end indicator, and the next `fgetwc`
returns that character and leaves the stream as it was otherwise. -/
theorem C114_ungetwc {σ : Type} (R : Stdio.Reader σ) (f : WFile σ) (c : Nat) (hc : c ≠ WEOF) (hp : f.push = none) :
    (ungetwc c f).1 = c ∧ (ungetwc c f).2.file = { f.file with eof := false } ∧
      ∃ g, fgetwc R (ungetwc c f).2 = some (c, g) ∧ g.push = none ∧ g.file = { f.file with eof := false } := by
  have e : ungetwc c f = (c, { widen f with push := some c, file := { f.file with eof := false } }) := by
    unfold ungetwc
    rw [if_neg (by simp [hc, hp])]
    simp only [widen_file]
  rw [e]
  refine ⟨rfl, rfl, ?_⟩
  generalize hx : ({ widen f with push := some c, file := { f.file with eof := false } } : WFile σ) = x
  have hpx : x.push = some c := by rw [← hx]
  have hfx : x.file = { f.file with eof := false } := by rw [← hx]
  refine ⟨{ widen x with push := none }, ?_, rfl, ?_⟩
  · unfold fgetwc
    simp only [widen_push, hpx]
  · simp only [widen_file, hfx]

/-- C114: `WEOF` cannot be pushed back, nor a second character; these calls return `WEOF` and change nothing. -/
theorem C114_rejected {σ : Type} (f : WFile σ) (c : Nat) (h : c = WEOF ∨ f.push ≠ none) : ungetwc c f = (WEOF, f) := by
  unfold ungetwc
  rw [if_pos]
  rcases h with h | h
  · exact .inl h
  · refine .inr ?_
    cases hp : f.push with
    | none => exact absurd hp h
    | some x => rfl

example : (fgetwc Stdio.disk (ungetwc 0x20AC (fresh [0x41])).2).map (·.1) = some 0x20AC ∧
    (ungetwc 0x42 (ungetwc 0x41 (fresh ())).2).1 = WEOF := by decide +kernel

/-- C114 is violated by `clearerr`: it discards the character pushed back. C11 7.21.10.1 has it clear the indicators
only. -/
theorem C114_clearerr {σ : Type} (f : WFile σ) : (clearerr f).push = none := rfl

/-- After pushing back `B` and `clearerr`, the next character read is not `B`. -/
theorem C114_clearerr_lost : (fgetwc Stdio.disk (clearerr (ungetwc 0x42 (fresh [0x41])).2)).map (·.1) = some 0x41 := by
  decide +kernel

/-- C114 is violated by `fseek`: whatever the position sought, the character pushed back is still returned first.
C11 7.21.9.2p5 has a successful call undo any effects of `ungetwc`. -/
theorem C114_fseek_kept {σ : Type} (R : Stdio.Reader σ) (S : Stdio.Seeker σ) (f : WFile σ) (c : Nat) (hc : c ≠ WEOF) (hp : f.push = none)
    (off : Int) (origin : Nat) : ∃ g, fgetwc R (fseek S (ungetwc c f).2 off origin).2 = some (c, g) := by
  have e : ungetwc c f = (c, { widen f with push := some c, file := { f.file with eof := false } }) := by
    unfold ungetwc
    rw [if_neg (by simp [hc, hp])]
    simp only [widen_file]
  rw [e]
  generalize hx : (fseek S ({ widen f with push := some c, file := { f.file with eof := false } } : WFile σ) off origin).2 = x
  have hpx : x.push = some c := by rw [← hx]; rfl
  refine ⟨{ widen x with push := none }, ?_⟩
  unfold fgetwc
  simp only [widen_push, hpx]

example : (fseek Stdio.Regular.seeker (ungetwc 0x42 (fresh ⟨[0x41], 0⟩)).2 0 0).1 = 0 := by decide

/-! ## C115: the orientation of a stream -/

/-- C115: once a stream has an orientation, no sequence of calls changes it. -/
theorem C115_fixed {σ : Type} (R : Stdio.Reader σ) (W : Stdio.Writer σ) (S : Stdio.Seeker σ) (f g : WFile σ)
    (h : Steps R W S f g) (ho : f.orient ≠ 0) : g.orient = f.orient := by
  have one : ∀ (f g : WFile σ), Step R W S f g → f.orient ≠ 0 → g.orient = f.orient := by
    intro f g h ho
    cases h with
    | fgetwc h => rw [orient_fgetwc h, if_neg ho]
    | fgetws h =>
      rename_i m s n r m'
      unfold fgetws at h
      by_cases hn : n ≤ 0
      · rw [if_pos hn] at h
        simp only [Option.some.injEq, Prod.mk.injEq] at h
        rw [← h.2.2]
      · rw [if_neg hn] at h
        rcases hl : fgetwsLoop R s (n - 1).toNat 0 m f with _ | ⟨o, m1, f1⟩
        · rw [hl] at h; cases h
        · rw [hl] at h
          have := (orient_loop s _ _ _ _ _ _ _ hl).1 ho
          cases o <;> simp only [Option.some.injEq, Prod.mk.injEq] at h <;> rw [← h.2.2, this]
    | fputwc c => rw [orient_fputwc, if_neg ho]
    | fputws cs => exact (orient_fputws W cs f).1 ho
    | ungetwc c =>
      unfold ungetwc
      split
      · rfl
      · simp only [widen_orient]; rw [if_neg ho]
    | fwide mode =>
      unfold fwide
      simp only
      rw [if_neg (by simp [ho])]
    | clearerr => rfl
    | fseek off origin => rfl
    | getc => rfl
    | putc c => rfl
  induction h with
  | refl => rfl
  | step h _ ih =>
    have := one _ _ h ho
    rw [ih (by rw [this]; exact ho), this]

/-- C115: on a stream without orientation the first wide operation, or `fwide` with a mode, gives it one; `fwide` reports
it and with mode 0 changes nothing. -/
theorem C115_set {σ : Type} (R : Stdio.Reader σ) (W : Stdio.Writer σ) (f : WFile σ) (ho : f.orient = 0) :
    (∀ c g, fgetwc R f = some (c, g) → g.orient = 1) ∧ (∀ c, (fputwc W c f).2.orient = 1) ∧
      (∀ cs, cs ≠ [] → (fputws W cs f).2.orient = 1) ∧ (∀ c, c ≠ WEOF → f.push = none → (ungetwc c f).2.orient = 1) ∧
      (∀ mode, 0 < mode → fwide f mode = (1, { f with orient := 1 })) ∧
      (∀ mode, mode < 0 → fwide f mode = (-1, { f with orient := -1 })) ∧ fwide f 0 = (0, f) := by
  refine ⟨fun c g h => by rw [orient_fgetwc h, if_pos ho], fun c => by rw [orient_fputwc, if_pos ho],
    fun cs h => (orient_fputws W cs f).2 ho h, fun c hc hp => ?_, fun mode hm => ?_, fun mode hm => ?_, ?_⟩
  · unfold ungetwc
    rw [if_neg (by simp [hc, hp])]
    simp only [widen_orient]; rw [if_pos ho]
  · unfold fwide
    rw [if_pos ⟨ho, by omega⟩, if_pos hm]
  · unfold fwide
    rw [if_pos ⟨ho, by omega⟩, if_neg (by omega)]
  · unfold fwide
    rw [if_neg (by simp)]
    simp only [ho]

/-- C115: `fwide` on a stream that has an orientation reports it, whatever the mode. -/
theorem C115_report {σ : Type} (f : WFile σ) (mode : Int) (ho : f.orient ≠ 0) : fwide f mode = (f.orient, f) := by
  unfold fwide
  rw [if_neg (by simp [ho])]

example : Steps Stdio.Regular.reader (fun h _ => (.inr 0, h)) Stdio.Regular.seeker (fwide (fresh ⟨[0x41], 0⟩) (-1)).2
    (fwide (getc Stdio.Regular.reader (fwide (fresh ⟨[0x41], 0⟩) (-1)).2).2 1).2 :=
  .step (.getc _) (.step (.fwide _ 1) (.refl _))

/-- C115 is violated by the byte functions: they give no orientation, so a stream used with `getc` or `putc` can still be
made wide. C11 7.21.2p4 makes it byte-oriented for good. -/
theorem C115_bytes {σ : Type} (R : Stdio.Reader σ) (W : Stdio.Writer σ) (f : WFile σ) (c : Int) (ho : f.orient = 0) :
    (fwide (getc R f).2 1).1 = 1 ∧ (fwide (putc W c f).2 1).1 = 1 ∧ (fwide (getc R f).2 0).1 = 0 := by
  have h1 : (getc R f).2.orient = 0 := ho
  have h2 : (putc W c f).2.orient = 0 := ho
  unfold fwide
  rw [h1, h2]
  exact ⟨rfl, rfl, by simp [h1]⟩

end Verif.Wio
