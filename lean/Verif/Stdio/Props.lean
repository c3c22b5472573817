import Verif.Stdio.Lemmas

/-!
# Properties of the byte streams of stdio
-/

namespace Verif.Stdio

/-! ## C42: characters pushed back are read first, newest first -/

/-- Every sequence of `getc` and `ungetc` calls has the results of a stack of
pushed-back bytes in front of the file, whatever the file replies. -/
theorem C42_stream_is_stack {σ : Type} (R : Reader σ) (f : File σ) (hs : Sound f)
    (hR : Honest R) (ops : List Op) :
    outs R ops f = refRun R ops (pending f, f.host) := by
  induction ops generalizing f with
  | nil => rfl
  | cons op ops ih =>
    cases op with
    | get =>
      have h := step_get (R := R) hs
      simp only at h
      rw [outs, refRun, ih _ (getc_sound hs), h.2]
      congr 1
      have h1 := h.1
      have hcs := getc_cases hR hs
      generalize (refStep R .get (pending f, f.host)).1 = r at h1
      cases r with
      | none => rw [if_pos h1]
      | some b =>
        simp only at h1
        rw [if_neg (by rw [h1]; unfold EOF; omega), h1]
        rcases hcs with hc | ⟨x, hx, hc⟩
        · rw [h1] at hc; unfold EOF at hc; omega
        · rw [h1] at hc
          congr 1
          unfold Str.byteOf
          omega
    | unget c =>
      have h := step_unget (R := R) hs c
      simp only at h
      rw [outs, refRun, ih _ h.2.2, h.2.1]
      congr 1
      by_cases hc : (ungetc c f).1 = EOF
      · rw [if_pos hc, h.1.1 hc]
      · rw [if_neg hc]
        have h2 : ¬ (refStep R (.unget c) (pending f, f.host)).1 = none := fun e => hc (h.1.2 e)
        simp only [refStep] at h2 ⊢
        by_cases h3 : c = EOF ∨ 16 ≤ (pending f).length
        · rw [if_pos h3] at h2; simp at h2
        · rw [if_neg h3]
          have h4 : (ungetc c f).1 = c := by
            unfold ungetc at hc ⊢
            split
            · rfl
            · rename_i h5; rw [if_neg h5] at hc; simp at hc
          rw [h4]

/-- Up to 16 bytes pushed back are read back in reverse order, after which the
stream stands where it stood before. -/
theorem C42_readback {σ : Type} (R : Reader σ) (cs : List Nat) (f : File σ) (hs : Sound f)
    (hl : f.avail + cs.length ≤ 16) (hb : ∀ c ∈ cs, c < 256) :
    ∃ g, Reads R (pushAll cs f) cs.reverse g ∧ g.host = f.host ∧ g.err = f.err ∧
      pending g = pending f := by
  obtain ⟨g, h1, h2, h3, h4, _⟩ := pushAll_spec R cs f hs hl hb
  exact ⟨g, h1, h2, h3, h4⟩

/-- A byte read and pushed back, and two more pushed in front. -/
example : outs disk [.get, .unget 104, .unget 0xFF, .unget (-1), .unget 300, .get, .get, .get, .get, .get]
    (fresh [104, 105]) =
    [some 104, some 104, some 255, none, some 44, some 44, some 255, some 104, some 105, none] := by
  decide

example : Sound (fresh ([] : List (Fin 256))) ∧ Honest disk :=
  ⟨⟨by decide, fun _ => by simp [fresh]⟩, disk_honest⟩

/-! ## C43: `fgets` reads one line within its buffer -/

/-- With any file: the bytes stored are those that `getc` would have returned,
at most `n - 1`, nothing after a newline, followed by a terminator; the call
stops early only at a newline or when `getc` reports the end. -/
theorem C43_fgets_any_file {σ : Type} (R : Reader σ) (hR : Honest R) (f : File σ) (hs : Sound f)
    (m : Nat → Nat) (s : Nat) (n : Int) (hn : 1 ≤ n) :
    ∃ bs g, Reads R f bs g ∧ (bs.length : Int) ≤ n - 1 ∧ 10 ∉ bs.dropLast ∧
      ((((bs.length : Int) = n - 1 ∨ bs.getLast? = some 10) ∧
          (fgets R m s n f).2.2 = g ∧ (fgets R m s n f).1 = true ∧
          Str.Written m (fgets R m s n f).2.1 s (bs ++ [0])) ∨
        (10 ∉ bs ∧ (bs.length : Int) < n - 1 ∧ getc R g = (EOF, (fgets R m s n f).2.2) ∧
          (bs = [] → (fgets R m s n f).1 = false ∧ (fgets R m s n f).2.1 = m) ∧
          (bs ≠ [] → (fgets R m s n f).1 = true ∧
            Str.Written m (fgets R m s n f).2.1 s (bs ++ [0])))) := by
  have hw0 : Str.Written m m s [] := ⟨fun i h => by simp at h, fun a _ => rfl⟩
  obtain ⟨bs, g, h1, _, h3, h4, h5, h6⟩ := fgetsLoop_spec hR s m f (n - 1).toNat 0 m f []
    (.nil f) hs rfl (by simp) hw0
  refine ⟨bs, g, h1, by omega, h4, ?_⟩
  rw [fgets, if_neg (by omega)]
  generalize fgetsLoop R s (n - 1).toNat 0 m f = r at h5 h6
  obtain ⟨o, m', f'⟩ := r
  simp only at h5 h6 ⊢
  rcases h5 with ⟨ha, hb⟩ | ⟨ha, hb, hc, hd⟩
  · left
    simp only [Prod.mk.injEq, true_and] at ha
    rw [ha.1]
    exact ⟨hb.imp (by omega) id, ha.2, rfl, written_zero h6⟩
  · right
    by_cases hbs : bs = []
    · rw [if_pos hbs] at hd
      rw [hd]
      refine ⟨ha, by omega, hc, fun _ => ⟨rfl, ?_⟩, fun h => absurd hbs h⟩
      funext a
      exact h6.2 a (by simp [hbs])
    · rw [if_neg hbs] at hd
      rw [hd]
      exact ⟨ha, by omega, hc, fun h => absurd h hbs, fun _ => ⟨rfl, written_zero h6⟩⟩

/-- On a disk file: a null pointer at the end of the file, and otherwise the
rest of the line cut to `n - 1` bytes, and reading continues right after it. -/
theorem C43_fgets_line (f : File (List (Fin 256))) (text : List Nat) (hf : Unread f text)
    (m : Nat → Nat) (s : Nat) (n : Int) (hn : 1 ≤ n) :
    (text = [] ∧ n ≠ 1 → (fgets disk m s n f).1 = false ∧ (fgets disk m s n f).2.1 = m) ∧
    (text ≠ [] ∨ n = 1 → (fgets disk m s n f).1 = true ∧
      Str.Written m (fgets disk m s n f).2.1 s ((upTo 10 text).take (n - 1).toNat ++ [0]) ∧
      Unread (fgets disk m s n f).2.2 (text.drop ((upTo 10 text).take (n - 1).toNat).length)) := by
  obtain ⟨bs, g, h1, h2, h3, h4⟩ := C43_fgets_any_file disk disk_honest f hf.1 m s n hn
  obtain ⟨t', ht, hg⟩ := hf.reads h1
  have hu := @upTo_eq 10 bs t' h3
  rcases h4 with ⟨hstop, hg', hr, hw⟩ | ⟨hno, hlt, heof, hnil, hcons⟩
  · have hline : (upTo 10 text).take (n - 1).toNat = bs := by
      rw [ht]
      rcases hstop with hl | hl
      · by_cases hm : 10 ∈ bs
        · have : bs.getLast? = some 10 := by
            rw [List.getLast?_eq_some_iff]
            have hne : bs ≠ [] := by rintro rfl; simp at hm
            refine ⟨bs.dropLast, ?_⟩
            have hd := List.dropLast_concat_getLast hne
            rw [← hd, List.mem_append] at hm
            rcases hm with hm | hm
            · exact absurd hm h3
            · rw [List.mem_singleton] at hm
              rw [hm]; exact hd.symm
          have := hu.1 this
          simp only [Int.cast_ofNat_Int] at this
          rw [this, List.take_of_length_le (by omega)]
        · have := hu.2 hm
          simp only [Int.cast_ofNat_Int] at this
          rw [this]
          exact List.take_left' (by omega)
      · have := hu.1 hl
        simp only [Int.cast_ofNat_Int] at this
        rw [this, List.take_of_length_le (by omega)]
    rw [hline]
    refine ⟨fun h => ?_, fun _ => ⟨hr, hw, ?_⟩⟩
    · exfalso
      have : bs = [] := by
        have := h.1; rw [this] at ht
        exact (List.append_eq_nil_iff.1 ht.symm).1
      subst this
      simp at hstop
      omega
    · rw [hg', ht, List.drop_left]
      exact hg
  · have ht' : t' = [] := by
      cases t' with
      | nil => rfl
      | cons x t' =>
        have := hg.get_cons.1
        rw [heof] at this
        simp only [EOF] at this
        omega
    subst ht'
    have hline : (upTo 10 text).take (n - 1).toNat = bs := by
      rw [ht]
      have := hu.2 hno
      simp only [Int.cast_ofNat_Int] at this
      rw [this]
      simp only [upTo, List.append_nil]
      rw [List.take_of_length_le (by omega)]
    rw [hline]
    have hg2 := hg.get_nil.2
    rw [heof] at hg2
    refine ⟨fun h => ?_, fun h => ?_⟩
    · refine hnil ?_
      have := h.1; rw [this] at ht
      simpa using ht.symm
    · have hne : bs ≠ [] := by
        rintro rfl
        rcases h with h | h
        · exact h (by simpa using ht)
        · simp at hlt; omega
      refine ⟨(hcons hne).1, (hcons hne).2, ?_⟩
      have e : List.drop bs.length text = [] := by rw [ht]; simp
      rw [e]
      exact hg2

/-- A buffer of three bytes takes the first two bytes of a longer line. -/
example : (fgets disk (fun _ => 99) 5 3 (fresh [104, 105, 106, 10])).1 = true ∧
    (List.range 10).map (fgets disk (fun _ => 99) 5 3 (fresh [104, 105, 106, 10])).2.1 =
      [99, 99, 99, 99, 99, 104, 105, 0, 99, 99] := by decide

example : Unread (fresh [104, 10]) [104, 10] :=
  ⟨⟨by decide, fun _ => by simp [fresh]⟩, by decide⟩

/-! ## C44: `getdelim` -/

/-- With any file, any initial buffer and any allocator: no store outside the
buffer, and the result is as `GotSpec` says.  `fuel` counts the bytes read;
lines of 2 GiB, whose length does not fit the result type, are left out. -/
theorem C44_getdelim_any_file {σ : Type} (R : Reader σ) (hR : Honest R) (grow : Nat → Bool)
    (delim : Int) (fuel : Nat) (hfuel : fuel < 2 ^ 31) (null : Bool) (l : Line) (f : File σ)
    (hs : Sound f) (hgrow : (null = true ∨ l.cap = 0) → grow 128 = true) :
    GotSpec R grow delim f (getdelim R grow delim fuel null l f) := by
  unfold getdelim
  by_cases h : null = true ∨ l.cap = 0
  · rw [if_pos h, if_pos (hgrow h)]
    exact getdelimLoop_spec hR grow delim f hs fuel _ f [] (.nil f)
      (fun i hi => by simp at hi) (by simp) (by simp) (by simpa using hfuel)
  · rw [if_neg h]
    exact getdelimLoop_spec hR grow delim f hs fuel _ f [] (.nil f)
      (fun i hi => by simp at hi) (by simp; omega) (by simp) (by simpa using hfuel)

/-- A failure to allocate the first buffer is reported and changes nothing. -/
theorem C44_getdelim_no_buffer {σ : Type} (R : Reader σ) (grow : Nat → Bool) (delim : Int)
    (fuel : Nat) (null : Bool) (l : Line) (f : File σ) (h : null = true ∨ l.cap = 0)
    (hg : grow 128 = false) : getdelim R grow delim fuel null l f = .minus l f := by
  simp [getdelim, h, hg]

/-- On a disk file with an allocator that succeeds: -1 at the end of the file,
and otherwise the bytes up to and including the delimiter, terminated, with
their number, and reading continues right after them. -/
theorem C44_getdelim_line (f : File (List (Fin 256))) (text : List Nat) (hf : Unread f text)
    (delim : Nat) (null : Bool) (l : Line) (fuel : Nat) (h1 : text.length < fuel)
    (h2 : fuel < 2 ^ 31) :
    (text = [] → ∃ l' f', getdelim disk (fun _ => true) delim fuel null l f = .minus l' f' ∧
      Unread f' []) ∧
    (text ≠ [] → ∃ l' f', getdelim disk (fun _ => true) delim fuel null l f =
        .line (upTo delim text).length l' f' ∧
      (upTo delim text).length < l'.cap ∧
      Stored l' (upTo delim text ++ [0]) ∧ Unread f' (text.drop (upTo delim text).length)) := by
  have hg := C44_getdelim_any_file disk disk_honest (fun _ => true) delim fuel h2 null l f hf.1
    (fun _ => rfl)
  have hm : getdelim disk (fun _ => true) delim fuel null l f ≠ .more := by
    unfold getdelim
    split
    · rw [if_pos rfl]
      exact getdelimLoop_disk _ _ _ _ _ _ text hf h1
    · exact getdelimLoop_disk _ _ _ _ _ _ text hf h1
  generalize getdelim disk (fun _ => true) delim fuel null l f = r at hg hm
  cases r with
  | fault => exact absurd hg id
  | more => exact absurd rfl hm
  | minus l' f' =>
    obtain ⟨bs, g, hr, _, h3 | ⟨_, _, n, hn⟩⟩ := hg
    · obtain ⟨t', ht, hu⟩ := hf.reads hr
      obtain ⟨rfl, he⟩ := h3
      rw [List.nil_append] at ht
      subst ht
      refine ⟨fun e => ⟨l', f', rfl, ?_⟩, fun e => ?_⟩
      · subst e
        have := hu.get_nil.2
        rwa [he] at this
      · exfalso
        cases text with
        | nil => exact e rfl
        | cons x t =>
          have := hu.get_cons.1
          rw [he] at this
          simp only [EOF] at this
          omega
    · simp at hn
  | line n l' f' =>
    obtain ⟨bs, g, hr, hne, rfl, hcap, hst, hd, hstop⟩ := hg
    obtain ⟨t', ht, hu⟩ := hf.reads hr
    have hd' : delim ∉ bs.dropLast := fun hmem => hd _ hmem rfl
    have hup := @upTo_eq delim bs t' hd'
    refine ⟨fun e => ?_, fun _ => ?_⟩
    · rw [e] at ht
      exact absurd (List.append_eq_nil_iff.1 ht.symm).1 hne
    · rcases hstop with ⟨b, hb1, hb2, rfl⟩ | ⟨hall, he⟩
      · have hbd : b = delim := by omega
        subst hbd
        have hline : upTo b text = bs := by rw [ht]; exact hup.1 hb1
        rw [hline]
        exact ⟨l', f', rfl, hcap, hst, by rw [ht, List.drop_left]; exact hu⟩
      · have ht' : t' = [] := by
          cases t' with
          | nil => rfl
          | cons x t =>
            have := hu.get_cons.1
            rw [he] at this
            simp only [EOF] at this
            omega
        subst ht'
        have hline : upTo delim text = bs := by
          rw [ht, hup.2 (fun hmem => hall _ hmem rfl)]
          simp [upTo]
        rw [hline]
        have := hu.get_nil.2
        rw [he] at this
        refine ⟨l', f', rfl, hcap, hst, ?_⟩
        rw [ht]
        simpa using this

/-- A line longer than a two-byte buffer. -/
example : (match getdelim disk (fun _ => true) 10 9 false ⟨2, fun _ => 99⟩
      (fresh [104, 105, 106, 10, 107]) with
    | .line n l f => (n, l.cap, (List.range 6).map l.data, f.host)
    | _ => (0, 0, [], [])) = (4, 8, [104, 105, 106, 10, 0, 99], [107]) := by decide

/-! ## C50: `fread` and `fwrite` -/

/-- `fread` stores first the pushed-back bytes and then what one request to the
file delivers, and reports the complete items among them.  What is missing: a
size of 0, where the function divides by zero, and products that do not fit
`size_t`. -/
theorem C50_fread_partial {σ : Type} (R : Reader σ) (size count : Nat) (f : File σ)
    (hs : Sound f) (hsize : 1 ≤ size) (hfit : size * count < 2 ^ 32) :
    ∃ n bs g, fread R size count f = some (n, bs, g) ∧ n = bs.length / size ∧
      (size * count ≤ f.avail → bs = (pending f).take (size * count) ∧
        pending g = (pending f).drop (size * count) ∧ g.host = f.host ∧
        g.eof = f.eof ∧ g.err = f.err) ∧
      (f.avail < size * count →
        (∀ got h, R f.host (size * count - f.avail) = (.give got, h) →
          bs = pending f ++ got ∧ g.avail = 0 ∧ g.host = h ∧ g.err = f.err ∧
          g.eof = (f.eof || decide (got.length < size * count - f.avail))) ∧
        (∀ e h, R f.host (size * count - f.avail) = (.fail e, h) →
          bs = pending f ∧ g.avail = 0 ∧ g.host = h ∧ g.err = true ∧ g.eof = f.eof)) := by
  obtain ⟨h1, h2, h3⟩ := freadBytes_reads (R := R) (size * count) f
  unfold fread
  rw [Nat.mod_eq_of_lt hfit]
  generalize freadBytes R (size * count) f = r at h1 h2 h3
  obtain ⟨bs, g⟩ := r
  simp only at h1 h2 h3 ⊢
  rw [if_neg (by omega)]
  refine ⟨_, _, _, rfl, rfl, fun h => ?_, fun h => ⟨fun got h' e => ?_, fun e' h' e => ?_⟩⟩
  · rw [if_pos h, List.append_nil] at h1
    refine ⟨h1, ?_, by rw [h2 h], by rw [h2 h], by rw [h2 h]⟩
    rw [h2 h]
    apply List.ext_getElem
    · simp [pending]
    · intro i hi1 hi2
      simp only [pending, List.length_map, List.length_range] at hi1
      simp only [pending, List.getElem_drop, List.getElem_map, List.getElem_range]
      congr 1
      have := hs.1
      omega
  · rw [if_neg (by omega)] at h1
    rw [List.take_of_length_le (by rw [pending_length]; omega)] at h1
    have h4 := h3 h
    simp only [stdioRead, e] at h1 h4
    exact ⟨h1, by rw [h4], by rw [h4], by rw [h4], by rw [h4]⟩
  · rw [if_neg (by omega)] at h1
    rw [List.take_of_length_le (by rw [pending_length]; omega)] at h1
    have h4 := h3 h
    simp only [stdioRead, e] at h1 h4
    exact ⟨by simpa using h1, by rw [h4], by rw [h4], by rw [h4], by rw [h4]⟩

/-- `fwrite` offers exactly the items to the file in one request, reports the
complete items accepted, and sets the error indicator exactly when the file
took fewer bytes.  What is missing is as for `fread`. -/
theorem C50_fwrite_partial {σ : Type} (W : Writer σ) (buf : List Nat) (size count : Nat)
    (f : File σ) (hsize : 1 ≤ size) (hfit : size * count < 2 ^ 32)
    (hbuf : size * count ≤ buf.length) :
    (∀ n h, W f.host (buf.take (size * count)) = (.inr n, h) →
      fwrite W buf size count f = some (n / size,
        { f with err := f.err || decide (n < size * count), host := h })) ∧
    (∀ e h, W f.host (buf.take (size * count)) = (.inl e, h) →
      fwrite W buf size count f = some (0, { f with err := true, host := h })) := by
  unfold fwrite stdioWrite
  rw [Nat.mod_eq_of_lt hfit]
  refine ⟨fun n h e => ?_, fun e' h e => ?_⟩
  · rw [e]
    simp only
    rw [if_neg (by omega), List.length_take, Nat.min_eq_left hbuf]
  · rw [e]
    simp only
    rw [if_neg (by omega), Nat.zero_div]

/-- An item size of 0 is a division by zero, where the standard asks for a
result of 0. -/
theorem C50_size_zero_divides {σ : Type} (R : Reader σ) (W : Writer σ) (buf : List Nat)
    (count : Nat) (f : File σ) :
    fread R 0 count f = none ∧ fwrite W buf 0 count f = none := by
  simp [fread, fwrite]

/-- A file that delivers one byte per request, as a terminal or a pipe may. -/
def trickle : Reader (List (Fin 256)) := fun bs n => disk bs (min n 1)

/-- A short delivery makes `fread` stop and report the end of the file although
the next byte is there to be read: `fread` of two bytes of a file of two. -/
theorem C50_short_delivery_is_not_the_end :
    ∃ f : File (List (Fin 256)), ∃ g, fread trickle 1 2 f = some (1, [104], g) ∧
      g.eof = true ∧ (getc trickle g).1 = 105 :=
  ⟨fresh [104, 105], (freadBytes trickle 2 (fresh [104, 105])).2, by rfl, by decide, by decide⟩

example : (fread disk 2 3 (ungetc 103 (fresh [104, 105, 106])).2).map (fun r => (r.1, r.2.1)) =
    some (2, [103, 104, 105, 106]) := by decide

/-! ## C77: output functions report a write that failed -/

/-- `putc` and `fputs` report success exactly when the file took every byte. -/
theorem C77_putc_fputs {σ : Type} (W : Writer σ) (f : File σ) (c : Int) (bs : List Nat) :
    ((putc W c f).1 = (Str.byteOf c : Nat) ↔ ∃ h, W f.host [Str.byteOf c] = (.inr 1, h)) ∧
    ((putc W c f).1 ≠ (Str.byteOf c : Nat) → (putc W c f).1 = EOF) ∧
    (bs ≠ [] → ((fputs W bs f).1 = 0 ↔ ∃ h, W f.host bs = (.inr bs.length, h))) ∧
    ((fputs W bs f).1 ≠ 0 → (fputs W bs f).1 = EOF) := by
  have key := stdioWrite_count W f
  unfold putc fputs Str.byteOf EOF
  refine ⟨?_, ?_, fun hb => ?_, ?_⟩
  · rw [← key _ _ (by omega)]
    simp only
    split <;> omega
  · simp only
    split <;> omega
  · rw [← key _ _ (fun h => hb (List.length_eq_zero_iff.1 h))]
    simp only
    split <;> omega
  · simp only
    split <;> omega

/-- `puts` reports success although no byte of its string was written, when
only the newline gets through. -/
theorem C77_puts_hides_failure :
    ∃ (W : Writer Nat) (f : File Nat), (puts W [104, 105] f).1 = 10 ∧
      W f.host [104, 105] = (.inl 29, 1) :=
  ⟨fun h _ => (if h = 0 then .inl 29 else .inr 1, h + 1), fresh 0, by decide, by decide⟩

/-! ## C78: `ungetc` returns the byte pushed back -/

/-- For arguments that are bytes.  What is missing are other `int` values. -/
theorem C78_ungetc_result_partial {σ : Type} (f : File σ) (c : Int) (h : 0 ≤ c ∧ c < 256)
    (ha : f.avail < 16) : (ungetc c f).1 = (Str.byteOf c : Nat) := by
  rw [ungetc, if_pos ⟨ha, by unfold EOF; omega⟩]
  unfold Str.byteOf
  omega

/-- A negative `char` other than -1 is pushed back as a byte, but the result is
not the byte that the next `getc` returns. -/
theorem C78_ungetc_result_not_converted :
    (ungetc (-23) (fresh ([] : List (Fin 256)))).1 = -23 ∧
    (getc disk (ungetc (-23) (fresh [])).2).1 = 233 := by decide

example : (fresh ([] : List (Fin 256))).avail < 16 := by decide

/-! ## C79: `ftell` and `fseek` -/

/-- On a regular file not opened for appending, `ftell` reports the offset of
the next byte and keeps what is read next.  What is missing: streams opened for
appending, and the end-of-file indicator. -/
theorem C79_ftell_partial (f : File Regular) (happ : f.app = false)
    (hpos : f.host.pos ≤ 0x7FFFFFFF) :
    (ftell Regular.seeker f).1 = (f.host.pos : Int) - f.avail ∧
      next (ftell Regular.seeker f).2 = next f ∧ (ftell Regular.seeker f).2.err = f.err := by
  have h := (seek_regular f 0 1 f.host.pos (by simp)).1 (by omega)
  unfold ftell
  simp only [happ, Bool.false_eq_true, if_false]
  rw [h]
  simp only
  rw [if_neg (by omega)]
  exact ⟨rfl, rfl, trivial⟩

/-- `ftell` clears the end-of-file indicator. -/
theorem C79_ftell_clears_eof :
    ∃ f : File Regular, f.app = false ∧ f.eof = true ∧ (ftell Regular.seeker f).2.eof = false :=
  ⟨(getc Regular.reader (fresh ⟨[], 0⟩)).2, by decide, by decide, by decide⟩

/-- On a stream opened for appending, `ftell` skips what was still to be read. -/
theorem C79_ftell_append_skips :
    ∃ f : File Regular, f.app = true ∧ next f = [104, 105] ∧ next (ftell Regular.seeker f).2 = [] :=
  ⟨{ fresh ⟨[104, 105], 0⟩ with app := true }, by decide, by decide, by decide⟩

/-- `fseek` moves to the offset counted from the start, from the next byte to be
read, or from the end, forgets bytes pushed back and clears the end-of-file
indicator; it fails before the start and beyond 2 GiB. -/
theorem C79_fseek (f : File Regular) (off : Int) (whence : Nat) (hw : whence ≤ 2) :
    let target : Int := off +
      (if whence = 0 then 0 else if whence = 1 then (f.host.pos : Int) - f.avail
        else f.host.data.length)
    (0 ≤ target ∧ target ≤ 0x7FFFFFFF →
      (fseek Regular.seeker f off whence).1 = 0 ∧
      next (fseek Regular.seeker f off whence).2 = (f.host.data.drop target.toNat).map Fin.val ∧
      (fseek Regular.seeker f off whence).2.eof = false) ∧
    ((fseek Regular.seeker f off whence).1 = 0 → 0 ≤ target ∧ target ≤ 0x7FFFFFFF) := by
  intro target
  have hb : (if whence = 0 then (0 : Int) else if whence = 1 then f.host.pos
      else f.host.data.length) + (if whence = 1 then off - f.avail else off) = target := by
    simp only [target]
    split
    · rename_i h; subst h; simp
    · split <;> omega
  obtain ⟨h1, h2⟩ := seek_regular { f with avail := 0 }
    (if whence = 1 then off - f.avail else off) whence target hb
  unfold fseek
  simp only
  by_cases h : 0 ≤ target ∧ target ≤ 0x7FFFFFFF
  · rw [h1 h]
    simp only
    rw [if_neg (by omega)]
    exact ⟨fun _ => ⟨rfl, by simp [next, pending], trivial⟩, fun _ => h⟩
  · rw [h2 h]
    exact ⟨fun h' => absurd h' h, fun h' => by simp at h'⟩

/-- Going back to a position reported by `ftell` restores what is read next,
whatever was read in between. -/
theorem C79_return_to_mark (f g : File Regular) (happ : f.app = false)
    (hpos : f.host.pos ≤ 0x7FFFFFFF) (hav : f.avail = 0)
    (hdata : g.host.data = f.host.data) :
    next (fseek Regular.seeker g (ftell Regular.seeker f).1 0).2 = next f := by
  have h1 := (C79_ftell_partial f happ hpos).1
  have h2 := (C79_fseek g (ftell Regular.seeker f).1 0 (by omega)).1
  simp only [if_true, Int.add_zero] at h2
  rw [h1, hav] at h2 ⊢
  rw [(h2 (by omega)).2.1, hdata]
  simp [next, pending, hav]

example : next (fresh ⟨[104, 105, 106], 1⟩) = [105, 106] := by decide

/-! ## C80: `clearerr` clears the two indicators and nothing else -/

/-- The indicators are cleared and what is read next stays. -/
theorem C80_clearerr_partial {σ : Type} (f : File σ) :
    (clearerr f).eof = false ∧ (clearerr f).err = false ∧ pending (clearerr f) = pending f ∧
      (clearerr f).host = f.host := ⟨rfl, rfl, rfl, rfl⟩

/-- The stream forgets that it was opened for appending: `ftell` reports another
position after `clearerr`. -/
theorem C80_clearerr_forgets_append :
    ∃ f : File Regular, f.app = true ∧ (ftell Regular.seeker f).1 = 2 ∧
      (ftell Regular.seeker (clearerr f)).1 = 0 :=
  ⟨{ fresh ⟨[104, 105], 0⟩ with app := true }, by decide, by decide, by decide⟩

end Verif.Stdio
