import Verif.Utf.Props

/-!
# The multibyte functions of `<stdlib.h>`, and invalid strings

`src/stdlib/{mbtowc.c, mblen.c, wctomb.c, mbstowcs.c, wcstombs.c}`, `src/wchar/mbrlen.c`.  Each of the first three has its own
static conversion state.
-/

namespace Verif.Utf
open Spec

/-- `mbrlen`, src/wchar/mbrlen.c:3-7, with the state it is given or its own one: `mbrtowc` without a place for the character. -/
def mbrlen (state : Nat) (p : List Nat) : Nat × Nat := ((mbrtowc state p).ret, (mbrtowc state p).state)

/-- `mblen`, src/stdlib/mblen.c:4-22, `s` not null: the result and the static state. -/
def mblen (state : Nat) (p : List Nat) : Int × Nat :=
  let r := mbrlen state p
  if r.1 = ERR ∨ r.1 = INC then (-1, 0) else (r.1, r.2)

/-- `wctomb`, src/stdlib/wctomb.c:4-20, `s` not null: the result and the bytes; the state is passed on and never used. -/
def wctomb (c : Nat) : Int × List Nat :=
  let r := wcrtomb c
  if r.1 = ERR then (-1, r.2) else (r.1, r.2)

/-- `mbstowcs`, src/stdlib/mbstowcs.c:4-9: the result and the characters stored. -/
def mbstowcs (len : Nat) (bs : List Nat) : Option (Nat × List Nat) := (mbsrtowcs len 0 bs).map fun o => (o.ret, o.dst)

/-- `wcstombs`, src/stdlib/wcstombs.c:4-9: the result and the bytes stored. -/
def wcstombs (len : Nat) (ws : List Nat) : Option (Nat × List Nat) := (wcsrtombs len ws).map fun o => (o.ret, o.dst)

/-- The static states of `mbtowc` and `mblen`. -/
structure Statics where
  towc : Nat
  len : Nat

/-- A call of one of the functions; the `reset` calls pass a null pointer. -/
inductive MCall where
  | mbtowc (p : List Nat)
  | mblen (p : List Nat)
  | resetTowc
  | resetLen

/-- The effect of a call on the states, and its result with the character stored. -/
def MCall.run (s : Statics) : MCall → (Int × Option Nat) × Statics
  | .mbtowc p => let r := Utf.mbtowc s.towc p; ((r.1, r.2.1), { s with towc := r.2.2 })
  | .mblen p => let r := Utf.mblen s.len p; ((r.1, none), { s with len := r.2 })
  | .resetTowc => ((0, none), { s with towc := 0 })
  | .resetLen => ((0, none), { s with len := 0 })

/-- The results of successive calls. -/
def MCall.runAll : List MCall → Statics → List (Int × Option Nat)
  | [], _ => []
  | c :: cs, s => (c.run s).1 :: runAll cs (c.run s).2

/-- The bytes a call is given. -/
def MCall.bytes : MCall → List Nat
  | .mbtowc p => p
  | .mblen p => p
  | _ => []

/-- What a call should return for the bytes `p`: the length of the character they begin with, 0 for the null character, and the
character; -1 if they do not begin with one. -/
def Reply (p : List Nat) (r : Int) (wc : Option Nat) : Prop :=
  (∃ pre rest v, p = pre ++ rest ∧ WF pre v ∧ r = (if v = 0 then 0 else (pre.length : Int)) ∧ wc = some v) ∨
  ((∀ pre rest v, WF pre v → p ≠ pre ++ rest) ∧ r = -1 ∧ wc = none)

/-- What the result of a call should be, whatever came before it. -/
def MCall.Right : MCall → Int × Option Nat → Prop
  | .mbtowc p, r => Reply p r.1 r.2
  | .mblen p, r => ∃ wc, Reply p r.1 wc
  | .resetTowc, r => r = (0, none)
  | .resetLen, r => r = (0, none)

theorem mbtowc_zero (p : List Nat) (hb : Bytes p) : Reply p (mbtowc 0 p).1 (mbtowc 0 p).2.1 ∧ (mbtowc 0 p).2.2 = 0 := by
  unfold mbtowc
  cases hw : (mbrtowc 0 p).wc with
  | none =>
    have hr : (mbrtowc 0 p).ret = ERR ∨ (mbrtowc 0 p).ret = INC := by
      rcases shape_mbrtowc p hb with h | h | ⟨v, h, _⟩
      · exact Or.inl h.1
      · exact Or.inr h.1
      · rw [hw] at h; cases h
    simp only [if_pos hr]
    refine ⟨Or.inr ⟨fun pre rest v hwf e => ?_, rfl, rfl⟩, trivial⟩
    rw [e, decode_accept hwf] at hw
    cases hw
  | some v =>
    obtain ⟨⟨pre, rest, e, hwf⟩, _⟩ := C23_accepts_only_well_formed p hb v hw
    have hl := hwf.length_le
    rw [e, decode_accept hwf]
    simp only
    rw [if_neg (by unfold ERR INC; split <;> omega)]
    refine ⟨Or.inl ⟨pre, rest, v, rfl, hwf, ?_, rfl⟩, rfl⟩
    simp only
    split <;> simp

theorem mblen_eq (st : Nat) (p : List Nat) : mblen st p = ((mbtowc st p).1, (mbtowc st p).2.2) := by
  unfold mblen mbtowc mbrlen
  simp only
  split <;> rfl

/-- C137: `mbtowc` and `mblen` have no memory: whatever was converted before, rightly or wrongly, each call reports the character
its own argument begins with. -/
theorem C137_no_memory : ∀ (cs : List MCall), (∀ c ∈ cs, Bytes c.bytes) → ∀ (i : Nat) (c : MCall), cs[i]? = some c →
    ∃ r, (MCall.runAll cs ⟨0, 0⟩)[i]? = some r ∧ c.Right r
  | [], _, _, _, h => by simp at h
  | c :: cs, hb, i, c', hi => by
    have hc := hb c (by simp)
    have key : c.Right (c.run ⟨0, 0⟩).1 ∧ (c.run ⟨0, 0⟩).2 = ⟨0, 0⟩ := by
      cases c with
      | mbtowc p =>
        obtain ⟨h1, h2⟩ := mbtowc_zero p hc
        exact ⟨h1, by simp only [MCall.run, h2]⟩
      | mblen p =>
        obtain ⟨h1, h2⟩ := mbtowc_zero p hc
        simp only [MCall.run, mblen_eq]
        exact ⟨⟨_, h1⟩, by rw [h2]⟩
      | resetTowc => exact ⟨rfl, rfl⟩
      | resetLen => exact ⟨rfl, rfl⟩
    have e : MCall.runAll (c :: cs) ⟨0, 0⟩ = (c.run ⟨0, 0⟩).1 :: MCall.runAll cs ⟨0, 0⟩ := by rw [MCall.runAll, key.2]
    rw [e]
    cases i with
    | zero =>
      simp only [List.getElem?_cons_zero, Option.some.injEq] at hi ⊢
      subst hi
      exact ⟨_, rfl, key.1⟩
    | succ i =>
      simp only [List.getElem?_cons_succ] at hi ⊢
      exact C137_no_memory cs (fun c hc => hb c (by simp [hc])) i c' hi

/-- C137: `wctomb` stores the UTF-8 sequence of a scalar value and returns its length; it refuses everything else and stores
nothing. -/
theorem C137_wctomb (c : Nat) (hc : c < 2 ^ 32) :
    (Scalar c → WF (wctomb c).2 c ∧ (wctomb c).1 = (wctomb c).2.length) ∧ (¬ Scalar c → wctomb c = (-1, [])) := by
  unfold wctomb
  constructor
  · intro h
    obtain ⟨h1, h2⟩ := wcrtomb_scalar c h
    have := h2.length_le
    simp only
    rw [if_neg (by unfold ERR; omega)]
    exact ⟨h2, by rw [h1]⟩
  · intro h
    rw [C25_wcrtomb_rejects c hc h]
    rfl

/-- C137: `mbsrtowcs` stops at the first invalid sequence if there is room up to there: it reports the error, has stored the
characters before it, and leaves `*src` at it. -/
theorem C137_invalid_bytes (len : Nat) (bs cs bad : List Nat) (he : Enc bs cs) (hs : ∀ c ∈ cs, c ≠ 0) (hlen : cs.length < len)
    (hbad : (mbrtowc 0 bad).ret = ERR) :
    mbsrtowcs len 0 (bs ++ bad) = some ⟨ERR, cs, some bs.length⟩ := by
  have hne : bad ≠ [] := by rintro rfl; simp [mbrtowc_nil, INC, ERR] at hbad
  have key : ∀ (fuel off : Nat) (out : List Nat), cs.length < fuel → cs.length + out.length < len →
      mbsrtowcsLoop len fuel 0 (bs ++ bad) off out = some ⟨ERR, out ++ cs, some (off + bs.length)⟩ := by
    clear hlen
    induction he with
    | nil =>
      intro fuel off out hf hl
      match fuel, hf with
      | fuel + 1, _ =>
        rw [mbsrtowcsLoop, if_pos (by simpa using hl)]
        simp [hbad]
    | @cons b bs c cs hw he ih =>
      intro fuel off out hf hl
      match fuel, hf with
      | fuel + 1, hf =>
        have hc0 := hs c (by simp)
        have hwl := hw.length_le
        rw [mbsrtowcsLoop, if_pos (by simp at hl; omega)]
        have e1 : mbrtowc 0 ((b ++ bs) ++ bad) = ⟨b.length, some c, 0, false⟩ := by
          rw [List.append_assoc, decode_accept hw, if_neg hc0]
        simp only [e1]
        rw [if_neg (by unfold ERR; omega), if_neg hc0, List.append_assoc, List.drop_left,
          ih (fun x hx => hs x (by simp [hx])) fuel (off + b.length) (out ++ [c]) (by simpa using hf) (by simp at hl ⊢; omega)]
        simp
        omega
  have hl := he.length_le
  have hb : 0 < bad.length := List.length_pos_iff.2 hne
  simpa [mbsrtowcs] using key (bs ++ bad).length 0 [] (by simp; omega) (by simpa using hlen)

/-- C137: `wcsrtombs` stops at the first element that is not a character if there is room up to there: it reports the error, has
stored the bytes of the characters before it, and leaves `*src` at it. -/
theorem C137_invalid_wide (len : Nat) (bs cs more : List Nat) (bad : Nat) (he : Enc bs cs) (hs : ∀ c ∈ cs, c ≠ 0)
    (hlen : bs.length < len) (h32 : bad < 2 ^ 32) (hbad : ¬ Scalar bad) :
    wcsrtombs len (cs ++ bad :: more) = some ⟨ERR, bs, some cs.length⟩ := by
  have key : ∀ (off : Nat) (out : List Nat), bs.length + out.length < len →
      wcsrtombsLoop len (cs ++ bad :: more) off out = some ⟨ERR, out ++ bs, some (off + cs.length)⟩ := by
    clear hlen
    induction he with
    | nil =>
      intro off out hl
      rw [wcsrtombsLoop.eq_def]
      simp only [List.nil_append]
      have hb0 : bad ≠ 0 := fun e => hbad (by rw [e]; left; decide)
      rw [if_pos (by simpa using hl), if_neg hb0, C25_wcrtomb_rejects bad h32 hbad]
      simp
    | @cons b bs c cs hw he ih =>
      intro off out hl
      have hc := hw.scalar
      obtain ⟨h1, h2⟩ := wcrtomb_scalar c hc
      have hb : (wcrtomb c).2 = b := h2.unique hw
      have hbl : (wcrtomb c).1 = b.length := by rw [h1, hb]
      have hwl := hw.length_le
      rw [wcsrtombsLoop.eq_def]
      simp only [List.cons_append]
      simp only [List.length_append] at hl
      rw [if_pos (by omega), if_neg (hs c (by simp)), if_neg (by rw [hbl]; unfold ERR; omega),
        if_neg (by rw [hbl]; omega), hb, ih (fun x hx => hs x (by simp [hx])) (off + 1) (out ++ b) (by simp; omega)]
      simp
      omega
  simpa [wcsrtombs] using key 0 [] (by simpa using hlen)

/-- C137: `mbstowcs` and `wcstombs` convert whole strings both ways if there is room, and report invalid ones. -/
theorem C137_strings (len : Nat) (bs cs junk : List Nat) (he : Enc bs cs) (hs : ∀ c ∈ cs, c ≠ 0) (hlen : bs.length < len) :
    mbstowcs len (bs ++ 0 :: junk) = some (cs.length, cs ++ [0]) ∧
    wcstombs len (cs ++ 0 :: junk) = some (bs.length, bs ++ [0]) ∧
    (∀ bad, (mbrtowc 0 bad).ret = ERR → mbstowcs len (bs ++ bad) = some (ERR, cs)) ∧
    (∀ bad more, bad < 2 ^ 32 → ¬ Scalar bad → wcstombs len (cs ++ bad :: more) = some (ERR, bs)) := by
  have hl := he.length_le
  have hsc : ∀ c ∈ cs, Scalar c := by
    clear hlen hl hs
    induction he with
    | nil => simp
    | cons hw _ ih =>
      intro x hx
      rcases List.mem_cons.1 hx with rfl | hx
      · exact hw.scalar
      · exact ih x hx
  refine ⟨?_, ?_, fun bad hb => ?_, fun bad more h32 hb => ?_⟩
  · rcases C72_mbsrtowcs len bs cs junk he hs with ⟨_, h⟩ | ⟨h, _⟩
    · rw [mbstowcs, h]; rfl
    · omega
  · obtain ⟨k, e, hk, h1, h2, h⟩ := C72_wcsrtombs len cs junk fun c hc => ⟨hsc c hc, hs c hc⟩
    rcases h with ⟨h3, h4, h5⟩ | ⟨h3, h5⟩
    · subst h3
      rw [List.take_length] at h1
      rw [wcstombs, h5, he.unique h1]
      rfl
    · exfalso
      rcases h3 with ⟨h3, h4⟩ | ⟨c, h3, h4⟩
      · subst h3
        rw [List.take_length] at h1
        rw [h1.unique he] at h4
        omega
      · have hlt : k < cs.length := (List.getElem?_eq_some_iff.1 h3).1
        have hcs : cs = cs.take k ++ c :: cs.drop (k + 1) := by
          rw [← (List.getElem?_eq_some_iff.1 h3).2, List.getElem_cons_drop, List.take_append_drop]
        obtain ⟨bs2, h6⟩ := Enc.exists (cs := cs.drop (k + 1)) fun x hx => hsc x (List.mem_of_mem_drop hx)
        have h7 := h1.append (Enc.cons (wcrtomb_scalar c (hsc c (List.mem_of_getElem? h3))).2 h6)
        rw [← hcs] at h7
        have := congrArg List.length (he.unique h7)
        simp at this
        omega
  · rw [mbstowcs, C137_invalid_bytes len bs cs bad he hs (by omega) hb]; rfl
  · rw [wcstombs, C137_invalid_wide len bs cs more bad he hs hlen h32 hb]; rfl

example : MCall.runAll [.mbtowc [0xE2, 0x82], .mbtowc [0xE2, 0x82, 0xAC], .mblen [0xAC]] ⟨0, 0⟩ =
    [(-1, none), (3, some 0x20AC), (-1, none)] := by decide +kernel
example : Enc [0xE2, 0x82, 0xAC] [0x20AC] :=
  .cons (b := [0xE2, 0x82, 0xAC]) (.r4 (a := 0xE2) (b := 0x82) (c := 0xAC) (by decide) (by decide) (by decide)) .nil
example : (mbrtowc 0 [0x80]).ret = ERR ∧ mbstowcs 9 [0xE2, 0x82, 0xAC, 0x80, 0] = some (ERR, [0x20AC]) := by decide +kernel
example : ¬ Scalar 0xD800 ∧ wcstombs 9 [0x20AC, 0xD800, 0] = some (ERR, [0xE2, 0x82, 0xAC]) := by decide +kernel

end Verif.Utf
