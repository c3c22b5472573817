import Verif.Utf.Strings

/-!
# Properties C22–C27, C72: multibyte conversions
-/

namespace Verif.Utf

open Spec

/-- C22: for every Unicode scalar value, `wcrtomb` stores the well-formed UTF-8 sequence of that value
and returns its length (1 to 4). -/
theorem C22_wcrtomb_encodes (c : Nat) (h : Scalar c) :
    WF (wcrtomb c).2 c ∧ (wcrtomb c).1 = (wcrtomb c).2.length ∧ 1 ≤ (wcrtomb c).1 ∧ (wcrtomb c).1 ≤ 4 := by
  obtain ⟨h1, h2⟩ := wcrtomb_scalar c h
  exact ⟨h2, h1, by rw [h1]; exact h2.length_pos, by rw [h1]; exact h2.length_le⟩

/-- C22: decoding what `wcrtomb` stored gives the character back, consumes exactly those bytes
(reporting 0 for the NUL character) and returns to the initial state, whatever bytes follow. -/
theorem C22_roundtrip (c : Nat) (h : Scalar c) (rest : List Nat) :
    mbrtowc 0 ((wcrtomb c).2 ++ rest) = ⟨if c = 0 then 0 else (wcrtomb c).1, some c, 0, false⟩ := by
  obtain ⟨h1, h2⟩ := wcrtomb_scalar c h
  rw [decode_accept h2, h1]

example : Scalar 0x41 ∧ Scalar 0x20AC ∧ Scalar 0x10FFFF ∧ (wcrtomb 0x20AC).2 = [0xE2, 0x82, 0xAC] := by decide +kernel

/-- C22 (converse): whatever the decoder accepts, the encoder reproduces byte for byte. -/
theorem C22_reencode (bs : List Nat) (hb : Bytes bs) (v : Nat) (h : (mbrtowc 0 bs).wc = some v) :
    ∃ rest, bs = (wcrtomb v).2 ++ rest := by
  obtain ⟨pre, rest, rfl, hw⟩ := decode_sound hb h
  exact ⟨rest, by rw [hw.unique (wcrtomb_scalar v hw.scalar).2]⟩

example : (mbrtowc 0 [0xF0, 0x9F, 0x98, 0x80, 0x21]).wc = some 0x1F600 := by decide +kernel

/-- C23: on input that begins with a well-formed sequence the decoder yields its value and length. -/
theorem C23_accepts_well_formed (pre rest : List Nat) (v : Nat) (h : WF pre v) :
    mbrtowc 0 (pre ++ rest) = ⟨if v = 0 then 0 else pre.length, some v, 0, false⟩ :=
  decode_accept h rest

example : WF [0xED, 0x9F, 0xBF] 0xD7FF := .r5 (b := 0x9F) (c := 0xBF) (by decide) (by decide)

/-- C23: the decoder yields a character only for input that begins with its well-formed sequence
(no overlong forms, no surrogates, nothing above 10FFFF). -/
theorem C23_accepts_only_well_formed (bs : List Nat) (hb : Bytes bs) (v : Nat)
    (h : (mbrtowc 0 bs).wc = some v) : (∃ pre rest, bs = pre ++ rest ∧ WF pre v) ∧ Scalar v := by
  obtain ⟨pre, rest, e, hw⟩ := decode_sound hb h
  exact ⟨⟨pre, rest, e, hw⟩, hw.scalar⟩

/-- C23: an encoding error is reported (with EILSEQ) only if no continuation of the input could
make it begin with a well-formed sequence. -/
theorem C23_error_is_definite (bs : List Nat) (hb : Bytes bs) (h : (mbrtowc 0 bs).ret = ERR) :
    (mbrtowc 0 bs).eilseq = true ∧
    ∀ ext pre rest v, Bytes ext → WF pre v → bs ++ ext ≠ pre ++ rest := by
  have hs := shape_mbrtowc bs hb
  have hne : bs ≠ [] := by rintro rfl; simp [mbrtowc_nil, INC, ERR] at h
  refine ⟨?_, ?_⟩
  · rcases hs with ⟨_, _, h3⟩ | ⟨h1, _⟩ | ⟨v, _, h1, _⟩
    · exact h3
    · rw [h] at h1; simp [ERR, INC] at h1
    · exact absurd h h1
  · intro ext pre rest v hext hw he
    have hacc := decode_accept hw rest
    by_cases hext' : ext = []
    · subst hext'
      rw [List.append_nil] at he
      rw [← he] at hacc
      have hr : (mbrtowc 0 bs).ret = if v = 0 then 0 else pre.length := by rw [hacc]
      have hlen := hw.length_le
      rw [h] at hr; unfold ERR at hr
      split at hr <;> omega
    · have := (mbrtowc_append 0 bs ext (Or.inl rfl) hb hext hne hext').2 (by rw [h]; decide)
      rw [← he, this] at hacc
      have hr : (mbrtowc 0 bs).ret = if v = 0 then 0 else pre.length := by rw [hacc]
      have hlen := hw.length_le
      rw [h] at hr; unfold ERR at hr
      split at hr <;> omega

example : (mbrtowc 0 [0xC0, 0xAF]).ret = ERR ∧ (mbrtowc 0 [0xED, 0xA0, 0x80]).ret = ERR ∧
    (mbrtowc 0 [0xF4, 0x90, 0x80, 0x80]).ret = ERR := by decide +kernel

/-- C23: every proper non-empty prefix of a well-formed sequence is reported incomplete. -/
theorem C23_prefix_incomplete (p q : List Nat) (v : Nat) (h : WF (p ++ q) v) (hp : p ≠ []) (hq : q ≠ []) :
    (mbrtowc 0 p).ret = INC := by
  have hb := h.bytes
  have hbp : Bytes p := fun x hx => hb x (by simp [hx])
  have hbq : Bytes q := fun x hx => hb x (by simp [hx])
  apply Decidable.byContradiction
  intro hne
  have e := (mbrtowc_append 0 p q (Or.inl rfl) hbp hbq hp hq).2 hne
  have hacc := decode_accept h []
  rw [List.append_nil, e] at hacc
  have hwc : (mbrtowc 0 p).wc = some v := by rw [hacc]
  obtain ⟨pre, rest, rfl, hw⟩ := decode_sound hbp hwc
  have := hw.unique h
  have hl := congrArg List.length this
  simp at hl
  exact hq hl.2

example : ∃ p q v, WF (p ++ q) v ∧ p ≠ [] ∧ q ≠ [] :=
  ⟨[0xE2, 0x82], [0xAC], _, .r4 (a := 0xE2) (b := 0x82) (c := 0xAC) (by decide) (by decide) (by decide),
    by simp, by simp⟩

/-- C23 is violated on one side: `(size_t)-2` is also returned for bytes that cannot be completed.
C11 7.29.6.3.2p4 allows it only for an incomplete *but potentially valid* character; E0 80 is the
start of an overlong form that no continuation makes valid. -/
theorem C23_incomplete_overreported :
    (mbrtowc 0 [0xE0, 0x80]).ret = INC ∧ ∀ ext v, ¬ WF ([0xE0, 0x80] ++ ext) v := by
  refine ⟨by decide +kernel, ?_⟩
  intro ext v h
  have hacc := decode_accept h []
  rw [List.append_nil] at hacc
  rcases h.inv with ⟨e, _⟩ | ⟨a, b, e, _⟩ | ⟨a, b, c, e, hv, h1, h2, h3, h4, h5⟩ | ⟨a, b, c, d, e, hv, h1, _⟩
  · simp at e
  · simp at e; omega
  · simp at e; omega
  · simp at e; omega

/-- C23 (what holds of `(size_t)-2`): no character is lost, i.e. the input contains no complete
well-formed sequence yet.  Missing for the full claim: that the bytes are a prefix of one
(`C23_incomplete_overreported`). -/
theorem C23_incomplete_partial (bs : List Nat) (hb : Bytes bs) (h : (mbrtowc 0 bs).ret = INC) :
    (mbrtowc 0 bs).wc = none ∧ ∀ pre rest v, WF pre v → bs ≠ pre ++ rest := by
  refine ⟨?_, ?_⟩
  · rcases shape_mbrtowc bs hb with ⟨h1, _⟩ | ⟨_, h2, _⟩ | ⟨v, _, _, h1, _⟩
    · rw [h] at h1; simp [ERR, INC] at h1
    · exact h2
    · exact absurd h h1
  · rintro pre rest v hw rfl
    rw [decode_accept hw] at h
    have := hw.length_le
    unfold INC at h
    simp only at h
    split at h <;> omega

example : (mbrtowc 0 [0xF0, 0x90]).ret = INC := by decide +kernel

/-- C24: a caller that offers a byte sequence in any number of pieces (including empty ones), calling
again after each `(size_t)-2`, observes exactly what a caller offering all the bytes at once does:
the same character after the same total number of bytes, the same error, or the same pending state. -/
theorem C24_restartable (chunks : List (List Nat)) (hb : ∀ c ∈ chunks, Bytes c) :
    feed 0 0 chunks = feed 0 0 [chunks.flatten] :=
  feed_eq chunks 0 0 (Or.inl rfl) hb

example : feed 0 0 [[0xF0], [], [0x9F, 0x98], [0x80, 0x41]] = .char 0x1F600 4 := by decide +kernel

/-- C25: surrogates and values above 10FFFF are rejected with nothing stored. -/
theorem C25_wcrtomb_rejects (c : Nat) (hc : c < 2 ^ 32) (h : ¬ Scalar c) : wcrtomb c = (ERR, []) :=
  wcrtomb_nonscalar c hc h

example : ¬ Scalar 0xD800 ∧ ¬ Scalar 0xDFFF ∧ ¬ Scalar 0x110000 ∧ ¬ Scalar 0xFFFFFFFF := by decide +kernel

/-- Feed code units to `c16rtomb`, collecting the bytes; `none` as soon as a call fails. -/
def put16 (st : Nat) : List Nat → Option (List Nat × Nat)
  | [] => some ([], st)
  | c :: cs =>
    let o := c16rtomb st c
    if o.ret = ERR then none else (put16 o.state cs).map fun r => (o.bytes ++ r.1, r.2)

/-- C26: the UTF-16 code units of a scalar value are turned into exactly its UTF-8 bytes, leaving the
initial state. -/
theorem C26_utf16_to_utf8 (v : Nat) (h : Scalar v) :
    put16 0 (utf16 v) = some ((wcrtomb v).2, 0) := by
  obtain ⟨h1, h2⟩ := wcrtomb_scalar v h
  have hl := h2.length_le
  have hne : ¬ (wcrtomb v).1 = ERR := by unfold ERR; omega
  have h0 := h
  unfold Scalar at h
  unfold utf16
  split
  · have e : c16rtomb 0 v = ⟨(wcrtomb v).1, (wcrtomb v).2, 0⟩ := by
      unfold c16rtomb
      rw [if_neg (by omega), if_neg (by omega), if_neg (by omega)]
    simp [put16, e, hne]
  · have e1 : c16rtomb 0 (0xD800 + (v - 0x10000) / 0x400) = ⟨0, [], 0xD800 + (v - 0x10000) / 0x400⟩ := by
      unfold c16rtomb
      rw [if_pos (by omega)]
    have e2 : c16rtomb (0xD800 + (v - 0x10000) / 0x400) (0xDC00 + (v - 0x10000) % 0x400) =
        ⟨(wcrtomb v).1, (wcrtomb v).2, 0⟩ := by
      unfold c16rtomb
      rw [if_neg (by omega), if_pos (by omega), if_neg (by omega)]
      have : 0x10000 + (((0xD800 + (v - 0x10000) / 0x400) &&& 0x3FF) <<< 10 |||
          ((0xDC00 + (v - 0x10000) % 0x400) &&& 0x3FF)) = v := by
        rw [and_3FF, and_3FF, Nat.shiftLeft_eq, Nat.mul_comm, or_of_lt 10 _ _ (by omega)]
        omega
      simp only [this]
    have h3 : ¬ ((0 : Nat) = ERR) := by decide +kernel
    simp [put16, e1, e2, hne, h3]

/-- C26: `mbrtoc16` on those bytes yields the code units: one call for the BMP, and for the other
planes a first call that consumes the bytes and a second call returning `(size_t)-3`. -/
theorem C26_utf8_to_utf16 (v : Nat) (h : Scalar v) (rest more : List Nat) :
    let o := mbrtoc16 0 ((wcrtomb v).2 ++ rest)
    (v < 0x10000 → o = ⟨if v = 0 then 0 else (wcrtomb v).1, some v, 0, false⟩ ∧ utf16 v = [v]) ∧
    (0x10000 ≤ v → ∃ hi lo, utf16 v = [hi, lo] ∧ o.ret = (wcrtomb v).1 ∧ o.wc = some hi ∧
      mbrtoc16 o.state more = ⟨STASHED, some lo, 0, false⟩) := by
  obtain ⟨h1, h2⟩ := wcrtomb_scalar v h
  have hl := h2.length_le
  have hne : ¬ ((if v = 0 then 0 else (wcrtomb v).1) = ERR ∨ (if v = 0 then 0 else (wcrtomb v).1) = INC) := by
    unfold ERR INC; split <;> omega
  have e : mbrtowc 0 ((wcrtomb v).2 ++ rest) = ⟨if v = 0 then 0 else (wcrtomb v).1, some v, 0, false⟩ := by
    rw [decode_accept h2, h1]
  have h0 := h
  unfold Scalar at h
  have h00 : ¬ ((0 + 2 ^ 32 - 0xDC00) % 2 ^ 32 < 0x400) := by decide +kernel
  refine ⟨?_, ?_⟩
  · intro hv
    refine ⟨?_, by unfold utf16; rw [if_pos hv]⟩
    unfold mbrtoc16
    simp only [if_neg h00, e, if_neg hne, if_pos hv]
    rw [Nat.mod_eq_of_lt (by omega)]
  · intro hv
    refine ⟨0xD800 + (v - 0x10000) / 0x400, 0xDC00 + (v - 0x10000) % 0x400, by
      unfold utf16; rw [if_neg (by omega)], ?_⟩
    have ehi : (0xD800 ||| ((v - 0x10000) >>> 10)) % 2 ^ 16 = 0xD800 + (v - 0x10000) / 0x400 := by
      rw [Nat.shiftRight_eq_div_pow]
      have := or_of_lt 11 27 ((v - 0x10000) / 2 ^ 10) (by omega)
      rw [show (0xD800 : Nat) = 2 ^ 11 * 27 from rfl, this]
      omega
    have elo : (0xDC00 ||| ((v - 0x10000) &&& 0x3FF)) = 0xDC00 + (v - 0x10000) % 0x400 := by
      rw [and_3FF]
      exact or_of_lt 10 55 _ (by omega)
    have eo : mbrtoc16 0 ((wcrtomb v).2 ++ rest) =
        ⟨(wcrtomb v).1, some (0xD800 + (v - 0x10000) / 0x400), 0xDC00 + (v - 0x10000) % 0x400, false⟩ := by
      unfold mbrtoc16
      simp only [if_neg h00, e, if_neg hne, if_neg (show ¬ v < 0x10000 by omega), ehi, elo]
      rw [if_neg (by omega)]
    rw [eo]
    refine ⟨rfl, rfl, ?_⟩
    simp only
    unfold mbrtoc16
    rw [if_pos (by omega), Nat.mod_eq_of_lt (by omega)]

example : utf16 0x1F600 = [0xD83D, 0xDE00] := by decide +kernel

/-- C27: a low surrogate that does not follow a high one, and a non-surrogate that follows a high one,
are rejected. -/
theorem C27_rejects_partial (c : Nat) (hc : c < 0x10000) :
    (0xDC00 ≤ c → c ≤ 0xDFFF → (c16rtomb 0 c).ret = ERR) ∧
    (∀ hi, 0xD800 ≤ hi → hi ≤ 0xDBFF → ¬ (0xD800 ≤ c ∧ c ≤ 0xDFFF) →
      (c16rtomb (c16rtomb 0 hi).state c).ret = ERR) := by
  refine ⟨?_, ?_⟩
  · intro h1 h2
    unfold c16rtomb
    rw [if_neg (by omega), if_pos (by omega), if_pos (by omega)]
  · intro hi h1 h2 h3
    have e : (c16rtomb 0 hi).state = hi := by
      unfold c16rtomb; rw [if_pos (by omega)]
    rw [e]
    unfold c16rtomb
    rw [if_neg (by omega), if_neg (by omega), if_pos (by omega)]

example : (0xD800 : Nat) ≤ 0xD83D ∧ (0xD83D : Nat) ≤ 0xDBFF ∧ ¬ (0xD800 ≤ 0x41 ∧ (0x41 : Nat) ≤ 0xDFFF) := by decide +kernel

/-- C27 is violated: a high surrogate followed by another high surrogate is ill-formed UTF-16, but no
call fails and the first one silently disappears from the output. -/
theorem C27_violated :
    put16 0 [0xD83D, 0xD83D, 0xDE00] = some ((wcrtomb 0x1F600).2, 0) ∧
    put16 0 [0xD83D, 0xDE00] = some ((wcrtomb 0x1F600).2, 0) := by decide +kernel

/-- C72: `wcsrtombs` on a terminated string of scalar values, for every buffer size `len`: it stores
the encodings of the longest run of whole characters that fits — never a split one — and either
the terminator too (then `*src` becomes null) or leaves `*src` at the first character not
converted.  The return value is the number of bytes without the terminator and never exceeds
`len`. -/
theorem C72_wcsrtombs (len : Nat) (cs junk : List Nat) (hs : ∀ c ∈ cs, Scalar c ∧ c ≠ 0) :
    ∃ k e, k ≤ cs.length ∧ Enc e (cs.take k) ∧ e.length ≤ len ∧
      ((k = cs.length ∧ e.length < len ∧
          wcsrtombs len (cs ++ 0 :: junk) = some ⟨e.length, e ++ [0], none⟩) ∨
       ((k = cs.length ∧ e.length = len ∨ ∃ c, cs[k]? = some c ∧ len < e.length + (wcrtomb c).2.length) ∧
          wcsrtombs len (cs ++ 0 :: junk) = some ⟨e.length, e, some k⟩)) := by
  simpa [wcsrtombs] using wcsrtombsLoop_spec len junk cs hs [] [] .nil (by simp)

/-- C72: `mbsrtowcs` on a terminated well-formed UTF-8 string recovers the characters for every
buffer size, and stops on a character boundary when the buffer is full. -/
theorem C72_mbsrtowcs (len : Nat) (bs cs junk : List Nat) (he : Enc bs cs) (hs : ∀ c ∈ cs, c ≠ 0) :
    (cs.length < len ∧ mbsrtowcs len 0 (bs ++ 0 :: junk) = some ⟨cs.length, cs ++ [0], none⟩) ∨
    (len ≤ cs.length ∧ ∃ e, Enc e (cs.take len) ∧
      mbsrtowcs len 0 (bs ++ 0 :: junk) = some ⟨len, cs.take len, some e.length⟩) := by
  have hl := he.length_le
  rcases mbsrtowcsLoop_spec len junk he hs (bs ++ 0 :: junk).length 0 [] (by simp; omega) (by simp) with
    ⟨h1, h2⟩ | ⟨k, e, h1, h2, h3, h4⟩
  · left
    refine ⟨by simpa using h1, ?_⟩
    simpa [mbsrtowcs] using h2
  · right
    simp at h1; subst h1
    exact ⟨h2, e, h3, by simpa [mbsrtowcs] using h4⟩

/-- C72: round trip of whole strings — what `wcsrtombs` writes into a large enough buffer,
`mbsrtowcs` turns back into the same wide string. -/
theorem C72_string_roundtrip (len : Nat) (cs junk : List Nat) (hs : ∀ c ∈ cs, Scalar c ∧ c ≠ 0)
    (hlen : 4 * cs.length < len) :
    ∃ n out, wcsrtombs len (cs ++ 0 :: junk) = some ⟨n, out, none⟩ ∧
      mbsrtowcs (cs.length + 1) 0 out = some ⟨cs.length, cs ++ [0], none⟩ := by
  obtain ⟨k, e, hk, h1, h2, h⟩ := C72_wcsrtombs len cs junk hs
  have hb : e.length ≤ 4 * k := by
    have : (cs.take k).length = k := by simp; omega
    rw [← this]
    clear h h2 this hlen hk
    generalize cs.take k = x at h1
    induction h1 with
    | nil => simp
    | cons hw _ ih => have := hw.length_le; simp; omega
  rcases h with ⟨h3, h4, h5⟩ | ⟨h3, h5⟩
  · subst h3
    rw [List.take_length] at h1
    refine ⟨_, _, h5, ?_⟩
    rcases C72_mbsrtowcs (cs.length + 1) e cs [] h1 (fun c hc => (hs c hc).2) with ⟨_, h⟩ | ⟨h, _⟩
    · exact h
    · omega
  · exfalso
    rcases h3 with ⟨_, h3⟩ | ⟨c, h3, h4⟩
    · omega
    · have hlt : k < cs.length := by
        rw [List.getElem?_eq_some_iff] at h3
        exact h3.1
      have hmem : c ∈ cs := List.mem_of_getElem? h3
      have := (C22_wcrtomb_encodes c (hs c hmem).1).2
      omega

example : wcsrtombs 4 [0x20AC, 0xE9, 0x41, 0] = some ⟨3, [0xE2, 0x82, 0xAC], some 1⟩ ∧
    (∀ c ∈ [0x20AC, 0xE9, 0x41], Scalar c ∧ c ≠ 0) := by decide +kernel

end Verif.Utf
