import Verif.Time.FormatModel
import Verif.Time.FormatSpec
import Verif.Time.Broken

/-!
# `strftime` emits the specified text as long as it fits
-/

namespace Verif.Time

/-- `f` outputs the text `T`: all of it if it fits, and otherwise reports overflow; it never
touches bytes before the cursor or at `max` and beyond. -/
def Emits (max : Nat) (f : Buf → Option (Bool × Buf)) (T : List Char) : Prop :=
  ∀ b, b.pos ≤ max →
    ∃ b', (∀ j, j < b.pos ∨ max ≤ j → b'.mem j = b.mem j) ∧
      ((b.pos + T.length ≤ max ∧ f b = some (false, b') ∧ b'.pos = b.pos + T.length ∧
          (∀ j, b.pos + T.length ≤ j → b'.mem j = b.mem j) ∧
          ∀ i (h : i < T.length), b'.mem (b.pos + i) = T[i]) ∨
        (max < b.pos + T.length ∧ f b = some (true, b')))

/-- Sequencing as all the C functions do it: stop on overflow. -/
def andThen (f g : Buf → Option (Bool × Buf)) (b : Buf) : Option (Bool × Buf) :=
  match f b with
  | none => none
  | some (true, b') => some (true, b')
  | some (false, b') => g b'

theorem emits_nil (max : Nat) : Emits max (fun b => some (false, b)) [] := by
  intro b hb
  exact ⟨b, fun _ _ => rfl, .inl ⟨by simpa using hb, rfl, rfl, fun _ _ => rfl, fun i h => absurd h (by simp)⟩⟩

theorem emits_char (max : Nat) (c : Char) : Emits max (fun b => some (appendChar max b c)) [c] := by
  intro b hb
  unfold appendChar
  by_cases h : b.pos ≥ max
  · refine ⟨b, fun _ _ => rfl, .inr ⟨by simp; omega, by simp only [if_pos h]⟩⟩
  · refine ⟨{ b.set b.pos c with pos := b.pos + 1 }, ?_, .inl ⟨by simp; omega, by simp only [if_neg h], rfl, ?_, ?_⟩⟩
    · intro j hj
      simp only [Buf.set]; rw [if_neg (by omega)]
    · intro j hj
      simp only [Buf.set]; rw [if_neg (by simp at hj; omega)]
    · intro i hi
      have : i = 0 := by simp at hi; omega
      subst this
      simp [Buf.set]

theorem emits_seq {max : Nat} {f g : Buf → Option (Bool × Buf)} {T U : List Char} (hf : Emits max f T)
    (hg : Emits max g U) : Emits max (andThen f g) (T ++ U) := by
  intro b hb
  obtain ⟨b1, k1, h1⟩ := hf b hb
  rcases h1 with ⟨l1, e1, p1, a1, t1⟩ | ⟨l1, e1⟩
  · obtain ⟨b2, k2, h2⟩ := hg b1 (by omega)
    refine ⟨b2, ?_, ?_⟩
    · intro j hj
      rw [k2 j (by omega), k1 j hj]
    · rcases h2 with ⟨l2, e2, p2, a2, t2⟩ | ⟨l2, e2⟩
      · refine .inl ⟨by simp; omega, by unfold andThen; rw [e1]; exact e2, by simp; omega, ?_, ?_⟩
        · intro j hj
          simp at hj
          rw [a2 j (by omega), a1 j (by omega)]
        · intro i hi
          simp at hi
          by_cases hiT : i < T.length
          · rw [k2 _ (by omega), t1 i hiT, List.getElem_append_left hiT]
          · rw [List.getElem_append_right (by omega)]
            have := t2 (i - T.length) (by omega)
            rw [p1] at this
            rw [← this]; congr 1; omega
      · refine .inr ⟨by simp; omega, by unfold andThen; rw [e1]; exact e2⟩
  · exact ⟨b1, k1, .inr ⟨by simp; omega, by unfold andThen; rw [e1]⟩⟩

theorem emits_str (max : Nat) (s : List Char) : Emits max (fun b => some (appendStr max b s)) s := by
  induction s with
  | nil => exact emits_nil max
  | cons c s ih =>
    have h := emits_seq (emits_char max c) ih
    have e : andThen (fun b => some (appendChar max b c)) (fun b => some (appendStr max b s)) =
        fun b => some (appendStr max b (c :: s)) := by
      funext b
      unfold andThen
      simp only [appendStr]
      rcases appendChar max b c with ⟨_ | _, b'⟩ <;> rfl
    rw [e] at h
    exact h

theorem uintDigits_eq (n : Nat) : (uintDigits n).reverse = Nat.toDigits 10 n := by
  induction n using uintDigits.induct with
  | case1 n h =>
    unfold uintDigits
    rw [if_pos h, Nat.toDigits_of_lt_base h]
    have : n % 10 = n := Nat.mod_eq_of_lt h
    rw [this]
    have : ∀ n < 10, [Char.ofNat (48 + n)].reverse = [n.digitChar] := by decide
    exact this n h
  | case2 n h ih =>
    unfold uintDigits
    rw [if_neg h, List.reverse_cons, ih]
    have hd : ∀ m < 10, Char.ofNat (48 + m) = m.digitChar := by decide
    rw [hd _ (Nat.mod_lt _ (by decide))]
    exact (Nat.toDigits_of_base_le (by decide) (by omega)).symm

/-- The characters output by `append_uint`. -/
def uintText (n width : Nat) (pad : Char) : List Char :=
  List.replicate (width - (uintDigits n).length) pad ++ (uintDigits n).reverse

theorem emits_uint (max n width : Nat) (pad : Char) :
    Emits max (fun b => some (appendUint max b n width pad)) (uintText n width pad) := by
  have e : (fun b => some (appendUint max b n width pad)) = fun b => some (appendStr max b (uintText n width pad)) := by
    funext b
    unfold appendUint uintText
    simp
  rw [e]
  exact emits_str max _

theorem uintText_dec (n : Int) (width : Nat) (pad : Char) (h : 0 ≤ n) (h' : n < 4294967296) :
    uintText (u32 n) width pad = dec width pad n := by
  have hu : u32 n = n.toNat := by unfold u32; omega
  unfold uintText dec
  rw [hu, ← uintDigits_eq]
  simp

/-- One step of `format` on a conversion. -/
theorem format_conv (emit : Buf → Char → Option (Bool × Buf)) (max : Nat) (c : Char) (s : List Char)
    (h1 : c ≠ 'E') (h2 : c ≠ 'O') :
    (fun b => format emit max b ('%' :: c :: s)) = andThen (fun b => emit b c) (fun b => format emit max b s) := by
  funext b
  rw [format.eq_def]
  unfold andThen
  simp only [h1, h2, or_self, if_false]
  rcases emit b c with _ | ⟨_ | _, b'⟩ <;> rfl

theorem format_mod (emit : Buf → Char → Option (Bool × Buf)) (max : Nat) (m c : Char) (s : List Char)
    (h : m = 'E' ∨ m = 'O') :
    (fun b => format emit max b ('%' :: m :: c :: s)) = andThen (fun b => emit b c) (fun b => format emit max b s) := by
  funext b
  rw [format.eq_def]
  unfold andThen
  simp only [if_pos h]
  rcases emit b c with _ | ⟨_ | _, b'⟩ <;> rfl

theorem format_lit (emit : Buf → Char → Option (Bool × Buf)) (max : Nat) (c : Char) (s : List Char)
    (h : c ≠ '%') :
    (fun b => format emit max b (c :: s)) = andThen (fun b => some (appendChar max b c)) (fun b => format emit max b s) := by
  funext b
  rw [format.eq_def]
  unfold andThen
  split
  · rename_i e; exact absurd e (by simp)
  · rename_i e; simp at e; exact absurd e.1 h
  · rename_i e; simp at e; exact absurd e.1 h
  · rename_i e
    simp at e
    rw [← e.1, ← e.2]
    show _ = match some (appendChar max b c) with
      | none => none | some (true, b') => some (true, b') | some (false, b') => format emit max b' s
    rcases appendChar max b c with ⟨_ | _, b'⟩ <;> rfl

theorem format_nil (emit : Buf → Char → Option (Bool × Buf)) (max : Nat) :
    (fun b => format emit max b []) = fun b => some (false, b) := by
  funext b; rw [format.eq_def]

theorem format_bare (emit : Buf → Char → Option (Bool × Buf)) (max : Nat) :
    (fun b => format emit max b ['%']) = fun b => some (appendChar max b '%') := by
  funext b; rw [format.eq_def]; rfl

theorem format_bareMod (emit : Buf → Char → Option (Bool × Buf)) (max : Nat) (m : Char) (h : m = 'E' ∨ m = 'O') :
    (fun b => format emit max b ['%', m]) = fun b => some (appendChar max b '%') := by
  funext b; rw [format.eq_def]
  simp only [if_pos h]

/-- If every conversion emits its text, the format emits the whole text. -/
theorem emits_format {tm : Tm} {max : Nat} {emit : Buf → Char → Option (Bool × Buf)} {fmt T : List Char}
    (hT : Text tm fmt T) (h : ∀ c, c ∈ fmt → Emits max (fun b => emit b c) (conv tm c)) :
    Emits max (fun b => format emit max b fmt) T := by
  induction hT with
  | nil => rw [format_nil]; exact emits_nil max
  | @lit c s t hc _ ih =>
    rw [format_lit _ _ _ _ hc]
    exact emits_seq (emits_char max c) (ih fun c hc => h c (by simp [hc]))
  | @conv c s t h1 h2 _ ih =>
    rw [format_conv _ _ _ _ h1 h2]
    exact emits_seq (h c (by simp)) (ih fun c hc => h c (by simp [hc]))
  | @modified m c s t hm _ ih =>
    rw [format_mod _ _ _ _ _ hm]
    exact emits_seq (h c (by simp)) (ih fun c hc => h c (by simp [hc]))
  | bare => rw [format_bare]; exact emits_char max '%'
  | bareModified hm => rw [format_bareMod _ _ _ hm]; exact emits_char max '%'

/-- Conversions implemented through `format`. -/
def composite : List Char := ['c', 'x', 'X', 'F', 'T', 'R', 'D', 'r']

theorem emits_dec (max : Nat) (n : Int) (width : Nat) (pad : Char) (h : 0 ≤ n) (h' : n < 4294967296) :
    Emits max (fun b => some (appendUint max b (u32 n) width pad)) (dec width pad n) := by
  rw [← uintText_dec n width pad h h']
  exact emits_uint max _ width pad

theorem dec_width_one (n : Int) : dec 1 ' ' n = dec 0 ' ' n := by
  unfold dec
  have : 1 ≤ (Nat.toDigits 10 n.toNat).length := List.length_pos_iff.mpr Nat.toDigits_ne_nil
  simp only
  rw [show 1 - (Nat.toDigits 10 n.toNat).length = 0 by omega, Nat.zero_sub]

theorem emits_name {max : Nat} {table : List String} {i last : Int} {T : List Char} (h0 : 0 ≤ i) (h1 : i ≤ last)
    (hT : (table[i.toNat]?).map String.toList = some T) :
    Emits max (fun b => appendName max b table i last) T := by
  have e : (fun b => appendName max b table i last) = fun b => some (appendStr max b T) := by
    funext b
    unfold appendName
    rw [if_neg (by omega)]
    cases ht : table[i.toNat]? with
    | none => rw [ht] at hT; simp at hT
    | some s => rw [ht] at hT; simp at hT; simp [hT]
  rw [e]
  exact emits_str max T

end Verif.Time
