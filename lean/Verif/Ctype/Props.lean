import Verif.Ctype.Lemmas

/-!
# Properties C01, C02, C71: character classification and case mapping

The C code subtracts a constant from a signed `int`; for the 97 smallest ints the
subtraction overflows, which is undefined behaviour (`none` in the model).
`Spec.Defined c` excludes just those.
-/

namespace Verif.Ctype

open Spec (Defined Decides)

/-- C01: each classification function decides its ASCII class, for every `int` on which it is defined. -/
theorem C01_ctype_classes (c : Int) (h : Defined c) :
    Decides (isupper c) (Spec.In Spec.upper c) ∧
    Decides (islower c) (Spec.In Spec.lower c) ∧
    Decides (isalpha c) (Spec.alpha c) ∧
    Decides (isdigit c) (Spec.In Spec.digit c) ∧
    Decides (isalnum c) (Spec.alnum c) ∧
    Decides (isxdigit c) (Spec.In Spec.xdigit c) ∧
    Decides (ispunct c) (Spec.In Spec.punct c) ∧
    Decides (isgraph c) (Spec.graph c) ∧
    Decides (isprint c) (Spec.print c) ∧
    Decides (isspace c) (Spec.space c) ∧
    Decides (isblank c) (Spec.In Spec.blank c) ∧
    Decides (iscntrl c) (Spec.cntrl c) := by
  rw [isupper_eq c h, islower_eq c h, isalpha_eq c h, isdigit_eq c h, isalnum_eq c h,
    isxdigit_eq c h, ispunct_eq c h, isgraph_eq c h, isprint_eq c h, isspace_eq c h, iscntrl_eq c h]
  refine ⟨?_, ?_, ?_, ?_, ?_, ?_, ?_, ?_, ?_, ?_, ?_, ?_⟩ <;> apply decides_ite <;>
    simp only [Spec.alpha, Spec.alnum, Spec.graph, Spec.print, Spec.space, Spec.cntrl,
      in_upper, in_lower, in_digit, in_xdigit, in_punct, in_blank] <;> omega

/-- EOF, every `unsigned char` value, and large ints are in the domain of C01. -/
example : Defined (-1) ∧ (∀ c : Int, 0 ≤ c → c ≤ 255 → Defined c) ∧ Defined 2147483647 := by
  refine ⟨⟨by decide, by decide⟩, fun c h1 h2 => ⟨by omega, by omega⟩, ⟨by decide, by decide⟩⟩

/-- Outside `Defined` the C code has undefined behaviour (outside the domain C11 7.4p1 requires). -/
theorem C01_undefined_below (c : Int) (h : IsI32 c) (h' : ¬ Defined c) : islower c = none := by
  obtain ⟨h1, h2⟩ := h
  unfold Defined at h'
  unfold islower subLt chk32
  rw [if_neg (by unfold IsI32; omega)]
  rfl

example : IsI32 (-2147483600) ∧ ¬ Defined (-2147483600) := by unfold IsI32 Defined; omega

/-- C02: `toupper` sends each lower-case letter to its upper-case partner and leaves every other
`int` alone; `tolower` conversely. -/
theorem C02_case_mapping (c : Int) (h : Defined c) :
    (∀ u, Spec.Pair c u → toupper c = some u) ∧
    (¬ Spec.In Spec.lower c → toupper c = some c) ∧
    (∀ l, Spec.Pair l c → tolower c = some l) ∧
    (¬ Spec.In Spec.upper c → tolower c = some c) := by
  rw [toupper_eq c h, tolower_eq c h]
  simp only [pair_iff, in_lower, in_upper]
  refine ⟨?_, ?_, ?_, ?_⟩
  · rintro u ⟨h1, h2, rfl⟩; rw [if_pos (by omega)]
  · intro hn; rw [if_neg (by omega)]
  · rintro l ⟨h1, h2, h3⟩; rw [if_pos (by omega)]; congr 1; omega
  · intro hn; rw [if_neg (by omega)]

example : Spec.Pair 113 81 := (pair_iff 113 81).2 (by omega)      -- 'q', 'Q'

/-- C02: on letters the two mappings are inverse, and each is idempotent. -/
theorem C02_case_inverse (c : Int) (h : Defined c) :
    (Spec.In Spec.upper c → (tolower c).bind toupper = some c) ∧
    (Spec.In Spec.lower c → (toupper c).bind tolower = some c) ∧
    (tolower c).bind tolower = tolower c ∧ (toupper c).bind toupper = toupper c := by
  rw [toupper_eq c h, tolower_eq c h, in_upper, in_lower]
  have hd := h
  obtain ⟨h1, h2⟩ := hd
  simp only [Option.bind_some]
  refine ⟨?_, ?_, ?_, ?_⟩
  · intro hu
    rw [if_pos (by omega), toupper_eq (c + 32) ⟨by omega, by omega⟩, if_pos (by omega)]
    congr 1; omega
  · intro hl
    rw [if_pos (by omega), tolower_eq (c - 32) ⟨by omega, by omega⟩, if_pos (by omega)]
    congr 1; omega
  · split
    · rw [tolower_eq (c + 32) ⟨by omega, by omega⟩, if_neg (by omega)]
    · rw [tolower_eq c h, if_neg (by assumption)]
  · split
    · rw [toupper_eq (c - 32) ⟨by omega, by omega⟩, if_neg (by omega)]
    · rw [toupper_eq c h, if_neg (by assumption)]

/-- C71: `iswctype(c, wctype(name))` decides the class called `name`, for each of the twelve
standard names and every `wint_t` on which it is defined (WEOF included). -/
theorem C71_iswctype (name : String) (P : Int → Prop) (hn : (name, P) ∈ Spec.classes) (c : Int) (hdef : Defined c) :
    Decides (iswctype c (wctype name)) (P c) := by
  have hc : ∀ (f : Int → Option Int) (t : Int) (n : String), wctype n = t →
      (iswctype c t = isw f c) → (Decides (f c) (P c)) →
      (128 ≤ c → ¬ P c) → Decides (iswctype c (wctype n)) (P c) := by
    intro f t n hn hf h1 h2
    rw [hn, hf]
    unfold isw
    split
    · exact h1
    · exact ⟨0, rfl, by simpa using h2 (by omega)⟩
  have key := C01_ctype_classes c hdef
  simp only [Spec.classes, List.mem_cons, Prod.mk.injEq, List.not_mem_nil, or_false] at hn
  rcases hn with ⟨rfl, rfl⟩ | ⟨rfl, rfl⟩ | ⟨rfl, rfl⟩ | ⟨rfl, rfl⟩ | ⟨rfl, rfl⟩ | ⟨rfl, rfl⟩ |
    ⟨rfl, rfl⟩ | ⟨rfl, rfl⟩ | ⟨rfl, rfl⟩ | ⟨rfl, rfl⟩ | ⟨rfl, rfl⟩ | ⟨rfl, rfl⟩
  · exact hc isalnum 1 _ (by decide) rfl key.2.2.2.2.1 (fun hx => (high_not c hx).1)
  · exact hc isalpha 2 _ (by decide) rfl key.2.2.1 (fun hx => (high_not c hx).2.1)
  · exact hc isblank 3 _ (by decide) rfl key.2.2.2.2.2.2.2.2.2.2.1 (fun hx => (high_not c hx).2.2.1)
  · exact hc iscntrl 4 _ (by decide) rfl key.2.2.2.2.2.2.2.2.2.2.2 (fun hx => (high_not c hx).2.2.2.1)
  · exact hc isdigit 5 _ (by decide) rfl key.2.2.2.1 (fun hx => (high_not c hx).2.2.2.2.1)
  · exact hc isgraph 6 _ (by decide) rfl key.2.2.2.2.2.2.2.1 (fun hx => (high_not c hx).2.2.2.2.2.1)
  · exact hc islower 7 _ (by decide) rfl key.2.1 (fun hx => (high_not c hx).2.2.2.2.2.2.1)
  · exact hc isprint 8 _ (by decide) rfl key.2.2.2.2.2.2.2.2.1 (fun hx => (high_not c hx).2.2.2.2.2.2.2.1)
  · exact hc ispunct 9 _ (by decide) rfl key.2.2.2.2.2.2.1 (fun hx => (high_not c hx).2.2.2.2.2.2.2.2.1)
  · exact hc isspace 10 _ (by decide) rfl key.2.2.2.2.2.2.2.2.2.1 (fun hx => (high_not c hx).2.2.2.2.2.2.2.2.2.1)
  · exact hc isupper 11 _ (by decide) rfl key.1 (fun hx => (high_not c hx).2.2.2.2.2.2.2.2.2.2.1)
  · exact hc isxdigit 12 _ (by decide) rfl key.2.2.2.2.2.1 (fun hx => (high_not c hx).2.2.2.2.2.2.2.2.2.2.2)

/-- A name that is none of the twelve yields the token 0, which no character satisfies. -/
theorem C71_unknown_name (name : String) (hn : name ∉ Spec.classes.map (·.1)) (c : Int) :
    iswctype c (wctype name) = some 0 := by
  have h0 : wctype name = 0 := by
    simp only [Spec.classes, List.map_cons, List.map_nil, List.mem_cons, List.not_mem_nil, or_false,
      not_or] at hn
    obtain ⟨a, b, c, d, e, f, g, h, i, j, k, l⟩ := hn
    unfold wctype
    rw [if_neg a, if_neg b, if_neg c, if_neg d, if_neg e, if_neg f, if_neg g, if_neg h, if_neg i,
      if_neg j, if_neg k, if_neg l]
  rw [h0]; rfl

example : "emoji" ∉ Spec.classes.map (·.1) := by simp [Spec.classes]

/-- C71: `towctrans` with the tokens of `wctrans` maps ASCII letters like C02 and leaves all other
`wint_t` values alone. -/
theorem C71_towctrans (c : Int) (hd : Defined c) :
    (∀ u, Spec.Pair c u → towctrans c (wctrans "toupper") = some u) ∧
    (¬ Spec.In Spec.lower c → towctrans c (wctrans "toupper") = some c) ∧
    (∀ l, Spec.Pair l c → towctrans c (wctrans "tolower") = some l) ∧
    (¬ Spec.In Spec.upper c → towctrans c (wctrans "tolower") = some c) := by
  have e1 : towctrans c (wctrans "toupper") = towupper c := by
    have : wctrans "toupper" = 2 := by decide
    rw [this]; rfl
  have e2 : towctrans c (wctrans "tolower") = towlower c := by
    have : wctrans "tolower" = 1 := by decide
    rw [this]; rfl
  rw [e1, e2]
  unfold towupper towlower
  by_cases hc : c < 128
  · rw [if_pos hc, if_pos hc]
    exact C02_case_mapping c hd
  · rw [if_neg hc, if_neg hc]
    simp only [pair_iff, in_lower, in_upper]
    refine ⟨?_, fun _ => trivial, ?_, fun _ => trivial⟩ <;> intro _ h <;> omega

/-- WEOF, the printing characters and everything above them are in the domain of C71. -/
example : Defined (-1) ∧ Defined 0x1F600 := ⟨⟨by decide, by decide⟩, ⟨by decide, by decide⟩⟩

end Verif.Ctype
