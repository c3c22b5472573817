import Verif.Decimal.Names
import Verif.Decimal.Long

/-!
# Properties of `strtod` and `strtof`

A string is `blank ++ r`: white space and what follows.  Results are `⟨bits, stop, erange⟩`: the value, the offset stored
through the end pointer and whether errno was set to ERANGE; `none` is undefined behaviour.
-/

namespace Verif.Decimal
open Verif.Strtol Verif.Float Spec

/-- The ASCII codes of a string. -/
private def ascii (s : String) : List Int := s.toList.map fun c => (c.toNat : Int)

/-- C68: `strtod` is correctly rounded; overflow alone is reported.  Missing: more than 20 digits with large exponents, more
than 38 digits of which the first 38 are odd and just below a midpoint, where it is false, more than 4000 digits, where the
buffers may overflow, and subject sequences of more than 31000 characters. -/
theorem C68_strtod_partial {blank r w : List Int} {neg : Bool} {n : Nat} {t : Int} (hc : IsString (blank ++ r)) (hb : Blank blank)
    (hr : ∀ c ∈ r.head?, ¬ White c) (hL : Longest r w neg n t) (hx : ¬ Hex r) (hlen : w.length ≤ 31000)
    (hn : n < 10 ^ 20 ∨ n < 10 ^ 38 ∧ -54 ≤ t ∧ t ≤ 54 ∨ ∃ l, Long n l t) :
    ∃ m stop, Rounds b64 n t m ∧ strtod (blank ++ r) = some ⟨b64.pack neg m, stop, m = b64.inf⟩ := by
  rcases hn with h | h | ⟨l, h⟩
  · exact strtod_few hc hb hr hL hx hlen (.inl h)
  · exact strtod_few hc hb hr hL hx hlen (.inr h)
  · exact strtod_many hc hb hr hL hx hlen h

private theorem plain : Longest (ascii "-12.5e3") (ascii "-12.5e3") true 125 2 := by
  refine ⟨List.prefix_refl _, ?_, fun _ _ _ _ h _ => h.length_le⟩
  have d : ∀ {c : Int}, 48 ≤ c ∧ c ≤ 57 → IsDigit 10 c := fun h => (digit10 _).mpr h
  exact Subject.mk [45] [49, 50] [46] [53] [101, 51] true 3 (.inr (.inr ⟨rfl, rfl⟩)) (.inr rfl)
    (fun c h => d (by simp only [List.mem_cons, List.not_mem_nil, or_false] at h; omega))
    (fun c h => d (by simp only [List.mem_cons, List.not_mem_nil, or_false] at h; omega)) (by decide)
    (.some 101 [] [51] false (.inl rfl) (.inl ⟨rfl, rfl⟩) (by decide)
      fun c h => d (by simp only [List.mem_cons, List.not_mem_nil, or_false] at h; omega))

private theorem plain_string : IsString ([32, 9] ++ ascii "-12.5e3") ∧ Blank [32, 9] ∧ ¬ Hex (ascii "-12.5e3") := by
  refine ⟨by unfold IsString; decide, by unfold Blank; decide, ?_⟩
  rintro ⟨sign, neg, hs, h⟩
  rcases hs with ⟨rfl, -⟩ | ⟨rfl, -⟩ | ⟨rfl, -⟩ <;> revert h <;> decide

example : ∃ m stop, Rounds b64 125 2 m ∧ strtod ([32, 9] ++ ascii "-12.5e3") = some ⟨b64.pack true m, stop, m = b64.inf⟩ :=
  C68_strtod_partial plain_string.1 plain_string.2.1 (by decide) plain plain_string.2.2 (by decide) (.inl (by decide))

example : strtod ([32, 9] ++ ascii "-12.5e3") = some ⟨0xc0c86a0000000000, 9, false⟩ := by decide +kernel

private theorem forty : Longest (ascii ".6666666666666666666666666666666666666666") (ascii ".6666666666666666666666666666666666666666") false
    6666666666666666666666666666666666666666 (-40) := by
  refine ⟨List.prefix_refl _, ?_, fun _ _ _ _ h _ => h.length_le⟩
  exact Subject.mk [] [] [46] (List.replicate 40 54) [] false 0 (.inl ⟨rfl, rfl⟩) (.inr rfl) (fun _ h => nomatch h)
    (fun c h => by rw [(List.mem_replicate.mp h).2]; exact (digit10 _).mpr (by omega)) (by decide) .none

example : ∃ m stop, Rounds b64 6666666666666666666666666666666666666666 (-40) m ∧
    strtod (ascii ".6666666666666666666666666666666666666666") = some ⟨b64.pack false m, stop, m = b64.inf⟩ :=
  C68_strtod_partial (blank := []) (by unfold IsString; decide) (by unfold Blank; decide) (by decide) forty (by
    rintro ⟨sign, neg, hs, h⟩
    rcases hs with ⟨rfl, -⟩ | ⟨rfl, -⟩ | ⟨rfl, -⟩ <;> revert h <;> decide) (by decide)
    (.inr (.inr ⟨2, by decide, by decide, by decide, by decide, by decide, .inr (.inl (by decide))⟩))

/-- 21 digits: the result is one unit too small. -/
theorem C68_many_digits : strtod (ascii "228863497305870057907e220") = some ⟨0x71d5f7699684f426, 25, false⟩ ∧
    Rounds b64 228863497305870057907 220 0x71d5f7699684f427 ∧ ¬ Rounds b64 228863497305870057907 220 0x71d5f7699684f426 := by
  have h : Rounds b64 228863497305870057907 220 0x71d5f7699684f427 :=
    nearest_hi (n := 0x71d5f7699684f426) (by decide +kernel) (by decide +kernel) (by decide +kernel) (.inl (by decide +kernel))
  refine ⟨by decide +kernel, h, fun h' => ?_⟩
  exact absurd (h.unique (by decide) h') (by decide)

/-- 56 digits: just above a midpoint, rounded down. -/
theorem C68_long_digits : strtod (ascii "1.000000000000000111022302462515654042363166809082031250001") = some ⟨0x3ff0000000000000, 59, false⟩ ∧
    Rounds b64 1000000000000000111022302462515654042363166809082031250001 (-57) 0x3ff0000000000001 ∧
    ¬ Rounds b64 1000000000000000111022302462515654042363166809082031250001 (-57) 0x3ff0000000000000 := by
  have h : Rounds b64 1000000000000000111022302462515654042363166809082031250001 (-57) 0x3ff0000000000001 :=
    nearest_hi (n := 0x3ff0000000000000) (by decide +kernel) (by decide +kernel) (by decide +kernel) (.inl (by decide +kernel))
  refine ⟨by decide +kernel, h, fun h' => ?_⟩
  exact absurd (h.unique (by decide) h') (by decide)

private theorem single_zero (s : List Int) (l : Nat) : decToFloat ⟨0, 0, false, s, l⟩ = some 0 := by
  unfold decToFloat decToDouble
  rw [if_pos rfl, Option.bind_some, if_neg fun h => nomatch h.2]
  decide +kernel

/-- C69: no number, no conversion.  Missing: strings where an exponent part follows the sign and the point, for which it is false. -/
theorem C69_none_partial {blank r : List Int} (hc : IsString (blank ++ r)) (hb : Blank blank) (hr : ∀ c ∈ r.head?, ¬ White c)
    (hn : NoNumber r) (hm : ¬ Named r) (hx : ¬ StrayExponent r) :
    (∃ x, (x = 0 ∨ x = b64.signBit) ∧ strtod (blank ++ r) = some ⟨x, 0, false⟩) ∧
    ∃ x, (x = 0 ∨ x = b32.signBit) ∧ strtof (blank ++ r) = some ⟨x, 0, false⟩ := by
  constructor
  · obtain ⟨neg, -, h⟩ := no_number double hc hb hr hn hm hx (fun _ _ => rfl) (by decide)
    exact ⟨_, by cases neg <;> decide, h⟩
  · obtain ⟨neg, -, h⟩ := no_number single hc hb hr hn hm hx single_zero (by decide)
    exact ⟨_, by cases neg <;> decide, h⟩

private theorem noNumber_of {s : List Int} (h : ∀ c ∈ s, ¬ (48 ≤ c ∧ c ≤ 57)) : NoNumber s := by
  intro w neg n t hw hS
  cases hS with
  | mk sign ip point fp ex neg e hs hp hi hf hne he =>
    cases hd : ip ++ fp with
    | nil => exact hne hd
    | cons c q =>
      have hm : c ∈ ip ++ fp := by rw [hd]; exact List.mem_cons_self
      have hdig : IsDigit 10 c := (List.mem_append.mp hm).elim (hi c) (hf c)
      refine h c (hw.subset ?_) ((digit10 c).mp hdig)
      simp only [List.mem_append] at hm ⊢
      rcases hm with h | h <;> simp [h]

example : ∃ x, (x = 0 ∨ x = b64.signBit) ∧ strtod (ascii " -.xyz") = some ⟨x, 0, false⟩ :=
  (C69_none_partial (blank := [32]) (r := ascii "-.xyz") (by unfold IsString; decide) (by unfold Blank; decide) (by decide)
    (noNumber_of (by decide)) (by
      rintro (⟨w, neg, hw, sign, v, hs, rfl, hv⟩ | ⟨w, neg, tag, hw, sign, v, tail, hs, rfl, hv, -⟩)
      · rcases hs with ⟨rfl, -⟩ | ⟨rfl, -⟩ | ⟨rfl, -⟩ <;> rcases v with _ | ⟨c, v⟩ <;> simp at hv <;> simp [ascii] at hw
        all_goals
          obtain ⟨rfl, -⟩ := hw
          rcases hv with h | h <;> exact absurd h.1 (by decide)
      · rcases hs with ⟨rfl, -⟩ | ⟨rfl, -⟩ | ⟨rfl, -⟩ <;> rcases v with _ | ⟨c, v⟩ <;> simp at hv <;> simp [ascii] at hw
        all_goals
          obtain ⟨rfl, -⟩ := hw
          exact absurd hv.1 (by decide)) (by
      rintro ⟨sign, neg, point, ex, e, hs, hp, hne, he, hw⟩
      cases he with
      | none => exact hne rfl
      | some c sg ds ng hc hsg hdn hd =>
        cases ds with
        | nil => exact hdn rfl
        | cons d ds =>
          have := hw.subset (show d ∈ _ by simp : d ∈ sign ++ (point ++ c :: (sg ++ d :: ds)))
          have h10 := (digit10 d).mp (hd d List.mem_cons_self)
          have : ∀ x ∈ ascii "-.xyz", ¬ (48 ≤ x ∧ x ≤ 57) := by decide
          exact this d ‹_› h10)).1

/-- Exponents of nothing are consumed, and so is the prefix of a hexadecimal number without digits. -/
theorem C69_exponent_alone : strtod (ascii "e5") = some ⟨0, 2, false⟩ ∧ strtod (ascii ".e5") = some ⟨0, 3, false⟩ ∧
    strtod (ascii "0xp1") = some ⟨0, 4, false⟩ := by decide +kernel

/-- C70: `strtof` is correctly rounded.  Missing: what is missing for `strtod`; values so near to the midpoint of two
floats that the nearest double is that midpoint, and more than 38 digits whose nearest double ends in a one and 28 zeros,
where it is false. -/
theorem C70_strtof_partial {blank r w : List Int} {neg : Bool} {n : Nat} {t : Int} (hc : IsString (blank ++ r)) (hb : Blank blank)
    (hr : ∀ c ∈ r.head?, ¬ White c) (hL : Longest r w neg n t) (hx : ¬ Hex r) (hlen : w.length ≤ 31000)
    (hn : n < 10 ^ 20 ∨ n < 10 ^ 38 ∧ -54 ≤ t ∧ t ≤ 54 ∨ (∃ l, Long n l t) ∧ ∀ y, Rounds b64 n t y → y % 2 ^ 29 ≠ 2 ^ 28)
    (hmid : ∀ y k, Rounds b64 n t y → k + 1 ≤ b32.inf → 2 * b64.mag y = (b32.mag k + b32.mag (k + 1)) * 2 ^ 925 →
      n * 10 ^ t.toNat * 2 ^ 1074 = 10 ^ (-t).toNat * b64.mag y) :
    ∃ m stop, Rounds b32 n t m ∧ strtof (blank ++ r) = some ⟨b32.pack neg m, stop, m = b32.inf⟩ := by
  rcases hn with h | h | ⟨⟨l, h⟩, hy⟩
  · exact strtof_few hc hb hr hL hx hlen (.inl h) hmid
  · exact strtof_few hc hb hr hL hx hlen (.inr h) hmid
  · exact strtof_many hc hb hr hL hx hlen h hmid hy

example : ∃ m stop, Rounds b32 125 2 m ∧ strtof ([32, 9] ++ ascii "-12.5e3") = some ⟨b32.pack true m, stop, m = b32.inf⟩ :=
  C70_strtof_partial plain_string.1 plain_string.2.1 (by decide) plain plain_string.2.2 (by decide) (.inl (by decide)) (by
    intro y k hy _ _
    have h : Rounds b64 125 2 0x40c86a0000000000 := nearest_exact (by decide) (by decide) (by decide +kernel)
    rw [hy.unique (by decide) h]
    decide +kernel)

private theorem zeros41 : Longest (ascii "1.2500000000000000000000000000000000000000") (ascii "1.2500000000000000000000000000000000000000") false
    12500000000000000000000000000000000000000 (-40) := by
  refine ⟨List.prefix_refl _, ?_, fun _ _ _ _ h _ => h.length_le⟩
  exact Subject.mk [] [49] [46] (50 :: 53 :: List.replicate 38 48) [] false 0 (.inl ⟨rfl, rfl⟩) (.inr rfl)
    (fun c h => (digit10 _).mpr (by rw [List.mem_singleton.mp h]; omega))
    (fun c h => (digit10 _).mpr (by
      rw [List.mem_cons, List.mem_cons, List.mem_replicate] at h
      omega)) (by decide) .none

example : ∃ m stop, Rounds b32 12500000000000000000000000000000000000000 (-40) m ∧
    strtof (ascii "1.2500000000000000000000000000000000000000") = some ⟨b32.pack false m, stop, m = b32.inf⟩ := by
  have u : ∀ y, Rounds b64 12500000000000000000000000000000000000000 (-40) y → y = 0x3ff4000000000000 := fun y hy =>
    hy.unique (by decide) (nearest_exact (by decide) (by decide) (by decide +kernel))
  refine C70_strtof_partial (blank := []) (by unfold IsString; decide) (by unfold Blank; decide) (by decide) zeros41 (by
    rintro ⟨sign, neg, hs, h⟩
    rcases hs with ⟨rfl, -⟩ | ⟨rfl, -⟩ | ⟨rfl, -⟩ <;> revert h <;> decide) (by decide)
    (.inr (.inr ⟨⟨3, by decide, by decide, by decide, by decide, by decide, .inl (by decide)⟩, fun y hy => ?_⟩)) fun y k hy _ _ => ?_
  · rw [u y hy]; decide
  · rw [u y hy]; decide +kernel

/-- Just below a midpoint with more than 38 digits: two units too large. -/
theorem C70_forced : strtof (ascii "1.0000000596046447753906249999999999999999") = some ⟨0x3f800002, 42, false⟩ ∧
    Rounds b32 10000000596046447753906249999999999999999 (-40) 0x3f800000 ∧ ¬ Rounds b32 10000000596046447753906249999999999999999 (-40) 0x3f800002 := by
  have h : Rounds b32 10000000596046447753906249999999999999999 (-40) 0x3f800000 :=
    nearest_lo (by decide +kernel) (by decide +kernel) (.inl (by decide +kernel))
  refine ⟨by decide +kernel, h, fun h' => ?_⟩
  exact absurd (h.unique (by decide) h') (by decide)

/-- Just above a midpoint: rounded twice. -/
theorem C70_twice : strtof (ascii "1.0000000596046447753906250000000001") = some ⟨0x3f800000, 36, false⟩ ∧
    Rounds b32 10000000596046447753906250000000001 (-34) 0x3f800001 ∧ ¬ Rounds b32 10000000596046447753906250000000001 (-34) 0x3f800000 := by
  have h : Rounds b32 10000000596046447753906250000000001 (-34) 0x3f800001 :=
    nearest_hi (n := 0x3f800000) (by decide +kernel) (by decide +kernel) (by decide +kernel) (.inl (by decide +kernel))
  refine ⟨by decide +kernel, h, fun h' => ?_⟩
  exact absurd (h.unique (by decide) h') (by decide)

/-- C99: the end pointer is the end of the longest subject sequence, for decimals of any length.  Missing: zeros with a
point at the end, for which it is false. -/
theorem C99_end_partial {blank r w : List Int} {neg : Bool} {n : Nat} {t : Int} (hc : IsString (blank ++ r)) (hb : Blank blank)
    (hr : ∀ c ∈ r.head?, ¬ White c) (hL : Longest r w neg n t) (hx : ¬ Hex r) (h0 : ¬ (n = 0 ∧ w.getLast? = some 46)) :
    (∀ res, strtod (blank ++ r) = some res → res.stop = blank.length + w.length) ∧
    ∀ res, strtof (blank ++ r) = some res → res.stop = blank.length + w.length := by
  constructor
  · intro res h
    have := end_of double hc hb hr hL hx h
    rw [if_neg h0] at this
    exact this
  · intro res h
    have := end_of single hc hb hr hL hx h
    rw [if_neg h0] at this
    exact this

example : ∀ res, strtod ([32, 9] ++ ascii "-12.5e3") = some res → res.stop = 9 :=
  (C99_end_partial plain_string.1 plain_string.2.1 (by decide) plain plain_string.2.2 (by decide)).1

/-- The point after zeros is left. -/
theorem C99_point_left : strtod (ascii "0.") = some ⟨0, 1, false⟩ ∧ Subject (ascii "0.") false 0 0 :=
  ⟨by decide +kernel, Subject.mk [] [48] [46] [] [] false 0 (.inl ⟨rfl, rfl⟩) (.inr rfl)
    (fun c h => by rw [List.mem_singleton.mp h]; exact ⟨0, rfl, by decide⟩) (fun _ h => nomatch h) (by decide) .none⟩

/-- C100: `inf` and `infinity` give infinities, without a report of overflow, and the end pointer is the end of the
longest of them. -/
theorem C100_infinite {blank r w : List Int} {neg : Bool} (hc : IsString (blank ++ r)) (hb : Blank blank)
    (hw : w <+: r) (hI : Infinite w neg) (hmax : ∀ w' neg', w' <+: r → Infinite w' neg' → w'.length ≤ w.length) :
    strtod (blank ++ r) = some ⟨b64.pack neg b64.inf, blank.length + w.length, false⟩ ∧
    strtof (blank ++ r) = some ⟨b32.pack neg b32.inf, blank.length + w.length, false⟩ := by
  have h1 := infinite double hc hb hw hI hmax
  have h2 := infinite single hc hb hw hI hmax
  rw [Fmt.abs_of_lt Fmt.inf_lt] at h1 h2
  exact ⟨h1, h2⟩

example : strtod (ascii " -InFinix") = some ⟨0xfff0000000000000, 5, false⟩ :=
  (C100_infinite (blank := [32]) (r := ascii "-InFinix") (w := ascii "-InF") (neg := true) (by unfold IsString; decide) (by unfold Blank; decide)
    (by decide) ⟨[45], [73, 110, 70], .inr (.inr ⟨rfl, rfl⟩), rfl, .inl rfl⟩ (by
      rintro w' neg' hw ⟨sign, v, hs, rfl, hv | hv⟩
      · have h3 : v.length = 3 := by rw [← List.length_map lower, hv]; rfl
        have := hw.length_le
        rcases hs with ⟨rfl, -⟩ | ⟨rfl, -⟩ | ⟨rfl, -⟩ <;> simp [h3, ascii]
      · have h8 : v.length = 8 := by rw [← List.length_map lower, hv]; rfl
        have := hw.length_le
        rcases hs with ⟨rfl, -⟩ | ⟨rfl, -⟩ | ⟨rfl, -⟩
        · have e := List.prefix_iff_eq_take.mp hw
          rw [List.nil_append, h8] at e
          rw [e] at hv
          exact absurd hv (by decide)
        · simp [h8, ascii] at this
        · simp [h8, ascii] at this)).1

/-- C101: `nan` and `nan(tag)` give NaNs with the sign, and the end pointer is the end of the longest of them.  Missing:
the end pointer for tags that are no numerals, for which it is false. -/
theorem C101_nan_partial {blank r w : List Int} {neg : Bool} {tag : Option (List Int)} (hc : IsString (blank ++ r)) (hb : Blank blank)
    (hw : w <+: r) (hI : NotNumber w neg tag) (hmax : ∀ w' neg' tag', w' <+: r → NotNumber w' neg' tag' → w'.length ≤ w.length) :
    (∃ m stop, b64.inf < m ∧ m < b64.signBit ∧ strtod (blank ++ r) = some ⟨b64.pack neg m, stop, false⟩ ∧
      ((∀ cs, tag = some cs → Numeral cs) → stop = blank.length + w.length)) ∧
    ∃ m stop, b32.inf < m ∧ m < b32.signBit ∧ strtof (blank ++ r) = some ⟨b32.pack neg m, stop, false⟩ ∧
      ((∀ cs, tag = some cs → Numeral cs) → stop = blank.length + w.length) :=
  ⟨not_number double ok64 hc hb hw hI hmax, not_number single ok32 hc hb hw hI hmax⟩

example : ∃ m stop, b64.inf < m ∧ m < b64.signBit ∧ strtod (ascii "nan(0x1f)") = some ⟨b64.pack false m, stop, false⟩ ∧
    ((∀ cs, some (ascii "0x1f") = some cs → Numeral cs) → stop = 9) :=
  (C101_nan_partial (blank := []) (r := ascii "nan(0x1f)") (w := ascii "nan(0x1f)") (neg := false) (tag := some (ascii "0x1f"))
    (by unfold IsString; decide) (by unfold Blank; decide) (List.prefix_refl _)
    ⟨[], ascii "nan", ascii "(0x1f)", .inl ⟨rfl, rfl⟩, rfl, rfl, rfl, by unfold TagChar; decide⟩ (fun _ _ _ h _ => h.length_le)).1

example : Numeral (ascii "0x1f") := .inr (.inr ⟨120, [49, 102], rfl, .inl rfl, fun c h => by
  simp only [List.mem_cons, List.not_mem_nil, or_false] at h
  rcases h with rfl | rfl
  · exact ⟨1, rfl, by decide⟩
  · exact ⟨15, rfl, by decide⟩⟩)

/-- A tag of letters is left. -/
theorem C101_letters : strtod (ascii "nan(x)") = some ⟨b64.nan, 3, false⟩ ∧ NotNumber (ascii "nan(x)") false (some [120]) :=
  ⟨by decide +kernel, [], [110, 97, 110], [40, 120, 41], .inl ⟨rfl, rfl⟩, rfl, rfl, rfl, fun c h => by
    rw [List.mem_singleton.mp h]; unfold TagChar; decide⟩

/-- C102: the conversions have a defined result: they do not store outside their buffers.  Missing: more than 4000 digits, where it is
false, and the hexadecimal form. -/
theorem C102_room_partial {blank r w : List Int} {neg : Bool} {n : Nat} {t : Int} (hc : IsString (blank ++ r)) (hb : Blank blank)
    (hr : ∀ c ∈ r.head?, ¬ White c) (hL : Longest r w neg n t) (hx : ¬ Hex r) (hn : n < 10 ^ 4000) :
    (∃ a, strtod (blank ++ r) = some a) ∧ ∃ b, strtof (blank ++ r) = some b :=
  defined hc hb hr hL hx hn

example : (∃ a, strtod ([32, 9] ++ ascii "-12.5e3") = some a) ∧ ∃ b, strtof ([32, 9] ++ ascii "-12.5e3") = some b :=
  C102_room_partial plain_string.1 plain_string.2.1 (by decide) plain plain_string.2.2 (by
    exact Nat.lt_of_lt_of_le (show 125 < 10 ^ 3 by decide) (Nat.pow_le_pow_right (by omega) (by omega)))

/-- 9007199254740993, 5000 zeros, 1e-5001: the digits do not fit into the 256 words of the buffer. -/
theorem C102_overflow : ∃ s n t, IsString s ∧ Longest s s false n t ∧ ¬ Hex s ∧ strtod s = none ∧ strtof s = none :=
  ⟨manyString, _, _, manyString_string.1, manyString_longest, manyString_string.2.1, overflow_strings⟩

end Verif.Decimal
