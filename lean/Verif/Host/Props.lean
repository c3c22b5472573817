import Verif.Host.Lemmas
import Verif.Host.Wide
import Verif.Wasi.Props

/-!
# Properties of clocks, file attributes, time differences, locales and wide time strings
-/

namespace Verif.Host

open Verif.Float

/-! ## C142: clocks -/

/-- C142: `clock` is the processor time in whole microseconds for every 64-bit number of nanoseconds, without overflow, and -1
exactly if the host fails. -/
theorem C142_clock (h : Clock) :
    (∀ now, now < 2 ^ 64 → h 2 = .ok now → clock h = some ((now / 1000 : Nat) : Int)) ∧
    (∀ e, h 2 = .error e → clock h = some (-1)) := by
  refine ⟨fun now hn hh => ?_, fun e hh => by unfold clock; rw [hh]⟩
  unfold clock
  rw [hh]
  simp only
  rw [s64_small (by omega), s32_small (by omega)]
  have e1 : chk64 (((now / 1000000000 : Nat) : Int) * 1000000) = some (((now / 1000000000 : Nat) : Int) * 1000000) := by
    unfold chk64; rw [if_pos (by unfold IsI64; omega)]
  have e2 : ((now % 1000000000 : Nat) : Int).tdiv 1000 = ((now % 1000000000 / 1000 : Nat) : Int) := (Int.ofNat_tdiv _ 1000).symm
  rw [e1, Option.bind_some, e2]
  unfold chk64
  rw [if_pos (by unfold IsI64; omega)]
  have e3 : now / 1000 = now / 1000000000 * 1000000 + now % 1000000000 / 1000 := by omega
  rw [e3, Int.natCast_add, Int.natCast_mul]
  rfl

/-- C142: `timespec_get(&ts, TIME_UTC)` splits the host's time into seconds and nanoseconds below 10^9 and returns `TIME_UTC`; any
other base, or a failure, gives 0 and stores nothing. -/
theorem C142_timespec_get (h : Clock) (base : Int) :
    (∀ now, now < 2 ^ 64 → base = 1 → h 0 = .ok now → ∃ p, timespecGet h base = (1, some p) ∧ Seconds now p) ∧
    ((base ≠ 1 ∨ ∃ e, h 0 = .error e) → timespecGet h base = (0, none)) := by
  refine ⟨fun now hn hb hh => ?_, fun hb => ?_⟩
  · unfold timespecGet
    rw [if_neg (by simp [hb]), hh, hb]
    exact ⟨_, rfl, seconds_timespec now hn⟩
  · unfold timespecGet
    rcases hb with hb | ⟨e, hb⟩
    · rw [if_pos hb]
    · rw [hb]; simp

/-- C142: `time` is the number of whole seconds of the same clock; on failure it is -1 with the POSIX error of the same name. -/
theorem C142_time_partial (h : Clock) :
    (∀ now, now < 2 ^ 64 → h 0 = .ok now → ∃ t : Int, Host.time h = some (t, none) ∧ t * 1000000000 ≤ now ∧ (now : Int) < (t + 1) * 1000000000) ∧
    (∀ e, 0 < e → e < Wasi.wasiNames.length → h 0 = .error e → ∃ n, Host.time h = some (-1, some n) ∧ ErrnoFor e n) := by
  refine ⟨fun now hn hh => ?_, fun e h0 he hh => ?_⟩
  · unfold Host.time
    rw [hh]
    refine ⟨_, rfl, ?_⟩
    rw [s64_small (by omega)]
    omega
  · obtain ⟨n, h1, h2⟩ := seterrno_errnoFor h0 he
    unfold Host.time
    rw [hh]
    simp only [h1, Option.map_some]
    exact ⟨n, rfl, h2⟩

example : clock (fun _ => .ok 1234567890123456789) = some 1234567890123456 ∧
    timespecGet (fun _ => .ok 18446744073709551615) 1 = (1, some (18446744073, 709551615)) ∧
    Host.time (fun _ => .ok 1999999999) = some (1, none) ∧ Host.time (fun _ => .error 63) = some (-1, some 1) := by
  decide +kernel

/-! ## C143: attributes of files -/

/-- C143: what `stat`, `lstat` and `fstat` store describes the file, for every answer of the host with a size below 2^63 and fewer
than 2^32 links. -/
theorem C143_fields_partial (fs : FileStat) (hs : fs.size < 2 ^ 63) (hl : fs.nlink < 2 ^ 32) (ha : fs.atim < 2 ^ 64)
    (hm : fs.mtim < 2 ^ 64) (hc : fs.ctim < 2 ^ 64) : Describes fs (fillStat fs) where
  id := ⟨rfl, rfl⟩
  kind := by
    intro n m v h1 h2 name
    have key : ∀ t ∈ fileTypes, (fillStat { fs with filetype := t.1 }).mode &&& 0o170000 = t.2.2 := by
      have : ∀ t ∈ fileTypes, (fillStat ⟨0, 0, t.1, 0, 0, 0, 0, 0⟩).mode &&& 0o170000 = t.2.2 := by decide +kernel
      exact this
    have h3 := key _ h1
    have h4 : { fs with filetype := n } = fs := by cases fs; cases h2; rfl
    simp only [h4] at h3
    unfold Is
    rw [h3]
    constructor
    · rintro ⟨v', h5, rfl⟩
      have : ∀ t ∈ fileTypes, ∀ p ∈ [("S_ISDIR", 0o040000), ("S_ISCHR", 0o020000), ("S_ISBLK", 0o060000), ("S_ISREG", 0o100000),
        ("S_ISFIFO", 0o010000), ("S_ISLNK", 0o120000), ("S_ISSOCK", 0o140000)], t.2.2 = p.2 → p.1 = t.2.1 := by decide +kernel
      exact this _ h1 _ h5 rfl
    · rintro rfl
      have : ∀ t ∈ fileTypes, (t.2.1, t.2.2) ∈ [("S_ISDIR", 0o040000), ("S_ISCHR", 0o020000), ("S_ISBLK", 0o060000),
        ("S_ISREG", 0o100000), ("S_ISFIFO", 0o010000), ("S_ISLNK", 0o120000), ("S_ISSOCK", 0o140000)] := by decide +kernel
      exact ⟨_, this _ h1, rfl⟩
  other := by
    intro h1 name
    have h2 : (fillStat fs).mode = 0 := by
      have e := fun (n : Nat) (m : String) (v : Nat) h => h1 n m v h
      have h1' := e 1 "S_ISBLK" 0o060000 (by decide)
      have h2' := e 2 "S_ISCHR" 0o020000 (by decide)
      have h3' := e 3 "S_ISDIR" 0o040000 (by decide)
      have h4' := e 4 "S_ISREG" 0o100000 (by decide)
      have h5' := e 5 "S_ISSOCK" 0o140000 (by decide)
      have h6' := e 6 "S_ISSOCK" 0o140000 (by decide)
      have h7' := e 7 "S_ISLNK" 0o120000 (by decide)
      simp [fillStat, h1', h2', h3', h4', h5', h6', h7']
    rw [h2]
    rintro ⟨v, hv, h0⟩
    simp at hv h0
    omega
  links := by show fs.nlink % 2 ^ 32 = _; exact Nat.mod_eq_of_lt hl
  size := by show s64 fs.size = _; exact s64_small hs
  blocks := by
    show (fs.size : Int) ≤ s64 ((fs.size + 511) % 2 ^ 64 / 512) * 512 ∧ s64 ((fs.size + 511) % 2 ^ 64 / 512) * 512 < fs.size + 512
    rw [s64_small (by omega)]
    omega
  accessed := seconds_timespec _ ha
  modified := seconds_timespec _ hm
  changed := seconds_timespec _ hc

/-- C143: without those bounds the fields are wrong: a file of 2^64 - 1 bytes has -1 bytes and no blocks, and one with 2^32 links
has none. -/
theorem C143_violated : (fillStat ⟨1, 2, 4, 4294967296, 18446744073709551615, 0, 0, 0⟩).size = -1 ∧
    (fillStat ⟨1, 2, 4, 4294967296, 18446744073709551615, 0, 0, 0⟩).blocks = 0 ∧
    (fillStat ⟨1, 2, 4, 4294967296, 18446744073709551615, 0, 0, 0⟩).nlink = 0 := by decide +kernel

/-- What is stored for a file that fits. -/
theorem told_report (r : Except Nat FileStat) : Told r (report r) := by
  cases r with
  | ok fs => exact ⟨_, rfl, fun ⟨h1, h2, h3, h4, h5⟩ => C143_fields_partial fs h1 h2 h3 h4 h5⟩
  | error e =>
    intro h0 he
    obtain ⟨n, h1, h2⟩ := seterrno_errnoFor (by omega) he
    exact ⟨n, by unfold report; simp [h1], h2⟩

theorem told_statAt (flags : Nat) (h : Files) (ps : List Wasi.Prestat) (path p : List Nat) (hne : path ≠ [])
    (hp : if path.head? = some 47 then p = path else Wasi.Plain path p) :
    ((∀ e ∈ Wasi.table ps, ∀ len, ¬ Wasi.Fits e p len) ∧ statAt flags h (Wasi.table ps) path = some (.fail 2)) ∨
    ∃ e rel, Chosen (Wasi.table ps) p e rel ∧ Told (h.path e.fd flags rel) (statAt flags h (Wasi.table ps) path) := by
  obtain ⟨h1, h2⟩ := Wasi.C51_lookup_partial ps path p hne hp
  cases hl : Wasi.lookup (Wasi.table ps) path with
  | none => exact .inl ⟨h1.1 hl, by unfold statAt; rw [hl]; rfl⟩
  | some q =>
    obtain ⟨fd, rel⟩ := q
    obtain ⟨e, len, l, r, h3, rfl, h4, h5, h6, h7⟩ := h2 fd rel hl
    refine .inr ⟨e, rel, ⟨len, l, r, h3, h4, h5, h6, h7⟩, ?_⟩
    unfold statAt
    rw [hl]
    exact told_report _

/-- C143: `stat` reports what the host says, following a symbolic link (flag 1), about the path below the preopened directory that
contains it, for every table of directories and every host; a path that no directory contains is `ENOENT`. -/
theorem C143_stat_partial (h : Files) (ps : List Wasi.Prestat) (path p : List Nat) (hne : path ≠ [])
    (hp : if path.head? = some 47 then p = path else Wasi.Plain path p) :
    ((∀ e ∈ Wasi.table ps, ∀ len, ¬ Wasi.Fits e p len) ∧ stat h (Wasi.table ps) path = some (.fail 2)) ∨
    ∃ e rel, Chosen (Wasi.table ps) p e rel ∧ Told (h.path e.fd 1 rel) (stat h (Wasi.table ps) path) :=
  told_statAt 1 h ps path p hne hp

/-- C143: `lstat` does the same for the link itself (flag 0). -/
theorem C143_lstat_partial (h : Files) (ps : List Wasi.Prestat) (path p : List Nat) (hne : path ≠ [])
    (hp : if path.head? = some 47 then p = path else Wasi.Plain path p) :
    ((∀ e ∈ Wasi.table ps, ∀ len, ¬ Wasi.Fits e p len) ∧ lstat h (Wasi.table ps) path = some (.fail 2)) ∨
    ∃ e rel, Chosen (Wasi.table ps) p e rel ∧ Told (h.path e.fd 0 rel) (lstat h (Wasi.table ps) path) :=
  told_statAt 0 h ps path p hne hp

/-- C143: `fstat` reports what the host says about the descriptor. -/
theorem C143_fstat_partial (h : Files) (fd : Nat) (hfd : fd < 2 ^ 31) : Told (h.fd fd) (fstat h fd) := by
  unfold fstat
  have : u32 (fd : Int) = fd := by unfold u32; omega
  rw [this]
  exact told_report _

/-- The directory `/d` of descriptor 3 is preopened; the host knows a file `f` of 5 bytes in it. -/
def exampleHost : Files where
  fd := fun _ => .error 8
  path := fun d f r => if d = 3 ∧ f = 1 ∧ r = [102] then .ok ⟨1, 2, 4, 1, 5, 1500000000, 0, 0⟩ else .error 44

example : stat exampleHost (Wasi.table [.dir [47, 100] true]) [47, 100, 47, 102] =
      some (.ok ⟨1, 2, 0o100644, 1, 0, 0, 0, 5, 4096, 1, (1, 500000000), (0, 0), (0, 0)⟩) ∧
    lstat exampleHost (Wasi.table [.dir [47, 100] true]) [47, 100, 47, 102] = some (.fail 2) ∧
    stat exampleHost (Wasi.table [.dir [47, 100] true]) [47, 102] = some (.fail 2) ∧ fstat exampleHost 7 = some (.fail 9) := by
  decide +kernel

/-! ## C144: differences of times -/

/-- C144: for times of at most 2^53 seconds either way `difftime` is the exact difference, rounded once to double. -/
theorem C144_difftime_partial (a b : Int) (ha : a.natAbs ≤ 2 ^ 53) (hb : b.natAbs ≤ 2 ^ 53) : RoundsInt b64 (a - b) (difftime a b) :=
  difftime_rounds a b ha hb

/-- C144: beyond that it is not: the difference of two neighbouring times is 0. -/
theorem C144_violated : difftime (2 ^ 53 + 1) (2 ^ 53) = 0 ∧ ¬ RoundsInt b64 1 0 :=
  ⟨by decide +kernel, one_not_zero ok64⟩

example : difftime 1700000000 1699999999 = 0x3FF0000000000000 ∧ difftime (-5) (-5) = 0 ∧ difftime 0 3 = 0xC008000000000000 := by
  decide +kernel

/-! ## C145: wide time strings -/

/-- C145: `wcsftime` is `strftime` for wide characters, whatever Unicode characters the format contains: if the text of the format
(C31) is not empty and fits with its terminator, exactly they are stored, and the number of characters is returned. -/
theorem C145_fits_partial (tm : Time.Tm) (hs : Time.Std tm) (fmt T : List Char) (hT : Time.Text tm fmt T) (hf : ∀ c ∈ fmt, c ≠ '\x00')
    (hl : fmt.length < 2 ^ 30 - 1) (s : Nat → Nat) (maxsize : Nat) (hm : maxsize < 2 ^ 30) (more : List Nat) (junk : Nat → Char)
    (hne : T ≠ []) (h : T.length < maxsize) :
    ∃ s', wcsftime s maxsize (fmt.map Char.toNat ++ 0 :: more) tm true true junk = some (T.length, s') ∧
      (∀ i (hi : i < T.length), s' i = T[i].toNat) ∧ s' T.length = 0 ∧ ∀ i, T.length < i → s' i = s i := by
  have hf' : ∀ c ∈ fmt, 0 < c.toNat := fun c hc => char_pos (hf c hc)
  have hb := (bytes_length T).2
  obtain ⟨j, e⟩ := wcsftime_long tm hs fmt T hT hf' hl s maxsize (by omega) hm more junk (by omega) hne
  have hT0 : ∀ c ∈ T.map Char.toNat, c ≠ 0 := by
    intro c hc
    obtain ⟨d, hd, rfl⟩ := List.mem_map.1 hc
    have := text_nonzero tm hT hf' d hd
    omega
  have hw : Utf.mbstowcs maxsize (bytes T ++ 0 :: j) = some (T.length, T.map Char.toNat ++ [0]) := by
    rcases Utf.C72_mbsrtowcs maxsize (bytes T) (T.map Char.toNat) j (bytes_enc T) hT0 with ⟨_, h2⟩ | ⟨h2, _⟩
    · unfold Utf.mbstowcs; rw [h2]; simp
    · rw [List.length_map] at h2; omega
  rw [e, hw, Option.bind_some, if_neg (by unfold Utf.ERR; simp only; omega)]
  refine ⟨_, rfl, fun i hi => ?_, ?_, fun i hi => ?_⟩
  · rw [store_lt (by simp; omega), List.getElem_append_left (by simpa using hi), List.getElem_map]
  · rw [store_lt (by simp), List.getElem_append_right (by simp)]
    simp
  · rw [store_ge (by simp; omega)]

/-- C145: if the text does not fit, 0 is returned and nothing outside the array is touched. -/
theorem C145_too_long (tm : Time.Tm) (hs : Time.Std tm) (fmt T : List Char) (hT : Time.Text tm fmt T) (hf : ∀ c ∈ fmt, c ≠ '\x00')
    (hl : fmt.length < 2 ^ 30 - 1) (s : Nat → Nat) (maxsize : Nat) (hm : maxsize < 2 ^ 30) (more : List Nat) (junk : Nat → Char)
    (h : maxsize ≤ T.length) :
    ∃ s', wcsftime s maxsize (fmt.map Char.toNat ++ 0 :: more) tm true true junk = some (0, s') ∧ ∀ i, maxsize ≤ i → s' i = s i := by
  have hf' : ∀ c ∈ fmt, 0 < c.toNat := fun c hc => char_pos (hf c hc)
  by_cases h0 : maxsize = 0
  · exact ⟨s, by unfold wcsftime; rw [if_pos h0], fun _ _ => rfl⟩
  rcases Nat.lt_or_ge (bytes T).length (maxsize * 4) with hc | hc
  · have hne : T ≠ [] := by rintro rfl; simp at h; omega
    obtain ⟨j, e⟩ := wcsftime_long tm hs fmt T hT hf' hl s maxsize (by omega) hm more junk hc hne
    have hT0 : ∀ c ∈ T.map Char.toNat, c ≠ 0 := by
      intro c hc
      obtain ⟨d, hd, rfl⟩ := List.mem_map.1 hc
      have := text_nonzero tm hT hf' d hd
      omega
    have hw : Utf.mbstowcs maxsize (bytes T ++ 0 :: j) = some (maxsize, (T.map Char.toNat).take maxsize) := by
      rcases Utf.C72_mbsrtowcs maxsize (bytes T) (T.map Char.toNat) j (bytes_enc T) hT0 with ⟨h2, _⟩ | ⟨_, e, _, h2⟩
      · rw [List.length_map] at h2; omega
      · unfold Utf.mbstowcs; rw [h2]; rfl
    rw [e, hw, Option.bind_some, if_pos (.inr (Nat.le_refl _))]
    refine ⟨_, rfl, fun i hi => ?_⟩
    simp only
    rw [if_neg (by omega), store_ge (by simp; omega)]
  · exact ⟨s, wcsftime_zero tm hs fmt T hT hf' hl s maxsize (by omega) hm more junk (.inl hc), fun _ _ => rfl⟩

/-- C145: if memory runs out, or the format contains something that is not a character, 0 is returned and the array is untouched. -/
theorem C145_failure (tm : Time.Tm) (fmt : List Char) (hf : ∀ c ∈ fmt, c ≠ '\x00') (hl : fmt.length < 2 ^ 30 - 1) (s : Nat → Nat)
    (maxsize : Nat) (more : List Nat) (a1 a2 : Bool) (junk : Nat → Char) :
    (¬ (a1 = true ∧ a2 = true) → wcsftime s maxsize (fmt.map Char.toNat ++ 0 :: more) tm a1 a2 junk = some (0, s)) ∧
    (∀ bad, bad < 2 ^ 32 → ¬ Utf.Spec.Scalar bad → wcsftime s maxsize (fmt.map Char.toNat ++ bad :: more) tm a1 a2 junk = some (0, s)) := by
  have hf' : ∀ c ∈ fmt, 0 < c.toNat := fun c hc => char_pos (hf c hc)
  have hb := (bytes_length fmt).2
  by_cases h0 : maxsize = 0
  · exact ⟨fun _ => by unfold wcsftime; rw [if_pos h0], fun _ _ _ => by unfold wcsftime; rw [if_pos h0]⟩
  refine ⟨fun ha => ?_, fun bad h1 h2 => ?_⟩
  · obtain ⟨o, ho, hd⟩ := format_bytes more fmt hf'
    unfold wcsftime
    rw [if_neg h0, count_bytes more fmt 0 hf']
    simp only [Option.bind_eq_bind, Option.bind_some, Nat.zero_add]
    rw [if_neg (by unfold Utf.ERR; omega)]
    cases a1 with
    | false => rfl
    | true =>
      cases a2 with
      | true => simp at ha
      | false => rw [if_neg (by decide), ho]; rfl
  · unfold wcsftime
    rw [if_neg h0, count_bad h1 h2 more fmt 0 hf']
    rfl

/-- C145 fails for an empty text: `strftime` stores the terminator then (C31), `wcsftime` stores nothing, so the array is not a
string. -/
theorem C145_empty_violated (tm : Time.Tm) (hs : Time.Std tm) (fmt : List Char) (hT : Time.Text tm fmt []) (hf : ∀ c ∈ fmt, c ≠ '\x00')
    (hl : fmt.length < 2 ^ 30 - 1) (s : Nat → Nat) (maxsize : Nat) (h0 : 0 < maxsize) (hm : maxsize < 2 ^ 30) (more : List Nat)
    (junk : Nat → Char) :
    wcsftime s maxsize (fmt.map Char.toNat ++ 0 :: more) tm true true junk = some (0, s) ∧
    ∃ mem, Time.strftime junk maxsize fmt tm = some (0, mem) ∧ mem 0 = '\x00' := by
  refine ⟨wcsftime_zero tm hs fmt [] hT (fun c hc => char_pos (hf c hc)) hl s maxsize h0 hm more junk (.inr rfl), ?_⟩
  obtain ⟨mem, h1, _, h2, _⟩ := Time.C31_fits tm hs fmt [] hT junk maxsize h0
  exact ⟨mem, h1, h2⟩

/-- The year in Japanese: "%Y" and the character for "year"; the format "%Z" gives the empty text. -/
example : Time.Text ⟨0, 0, 0, 1, 0, 126, 4, 0, 0⟩ ['%', 'Y', '年'] ['2', '0', '2', '6', '年'] ∧
    Time.Text ⟨0, 0, 0, 1, 0, 126, 4, 0, 0⟩ ['%', 'Z'] [] ∧
    (wcsftime (fun _ => 7) 6 [37, 89, 0x5E74, 0] ⟨0, 0, 0, 1, 0, 126, 4, 0, 0⟩ true true (fun _ => 'x')).map
      (fun p => (p.1, (List.range 7).map p.2)) = some (5, [50, 48, 50, 54, 0x5E74, 0, 7]) := by
  refine ⟨?_, ?_, by decide +kernel⟩
  · have := Time.Text.conv (tm := ⟨0, 0, 0, 1, 0, 126, 4, 0, 0⟩) (c := 'Y') (by decide) (by decide) (.lit (c := '年') (by decide) .nil)
    rwa [show Time.conv ⟨0, 0, 0, 1, 0, 126, 4, 0, 0⟩ 'Y' = ['2', '0', '2', '6'] by decide +kernel] at this
  · exact .conv (c := 'Z') (by decide) (by decide) .nil

/-! ## C146: locales -/

/-- C146: for every category of the standard, `setlocale` accepts exactly the locales "", "C" and "POSIX" and answers "C" to them
and to a query; everything else is refused with a null pointer. -/
theorem C146_setlocale (category : Int) (locale : Option (List Nat)) :
    setlocale category locale =
      if 0 ≤ category ∧ category ≤ 5 ∧ ∀ s, locale = some s → s ∈ ["".toList.map Char.toNat, "C".toList.map Char.toNat,
        "POSIX".toList.map Char.toNat] then some ("C".toList.map Char.toNat) else none := by
  have e1 : "".toList.map Char.toNat = [] := by decide
  have e2 : "C".toList.map Char.toNat = [67] := by decide
  have e3 : "POSIX".toList.map Char.toNat = [80, 79, 83, 73, 88] := by decide
  rw [e1, e2, e3]
  unfold setlocale
  by_cases h : category < 0 ∨ category > 5
  · rw [if_pos h, if_neg (by omega)]
  · rw [if_neg h]
    cases locale with
    | none => rw [if_pos ⟨by omega, by omega, by simp⟩]
    | some s =>
      simp only
      by_cases hs : s = [] ∨ s = [67] ∨ s = [80, 79, 83, 73, 88]
      · rw [if_pos hs, if_pos ⟨by omega, by omega, by intro s' e; cases e; simpa using hs⟩]
      · rw [if_neg hs, if_neg]
        rintro ⟨_, _, h3⟩
        exact hs (by simpa using h3 s rfl)

example : setlocale 0 (some []) = some [67] ∧ setlocale 5 none = some [67] ∧ setlocale 6 none = none ∧
    setlocale 1 (some [101, 110]) = none := by decide +kernel

end Verif.Host
