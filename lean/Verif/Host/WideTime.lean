import Verif.Host.Model
import Verif.Time.Props

/-! # Time strings in UTF-8 -/

namespace Verif.Host

open Verif.Time (Tm Text conv dec)
open Verif.Utf Verif.Utf.Spec

/-- A character of the text or format, as `strftime` sees it: the bytes of its encoding. -/
def enc (c : Char) : List Char := (wcrtomb c.toNat).2.map Char.ofNat

theorem char_scalar (c : Char) : Scalar c.toNat := by
  have h : c.toNat.isValidChar := c.valid
  unfold Nat.isValidChar at h
  unfold Scalar
  omega

theorem ofNat_toNat_byte {b : Nat} (h : b < 256) : (Char.ofNat b).toNat = b := by
  have hv : b.isValidChar := by unfold Nat.isValidChar; omega
  unfold Char.ofNat
  rw [dif_pos hv]
  simp [Char.ofNatAux, Char.toNat]

theorem ofNat_toNat' (c : Char) : Char.ofNat c.toNat = c := Char.ofNat_toNat c

theorem toNat_inj {c d : Char} (h : c.toNat = d.toNat) : c = d := by
  rw [← Char.ofNat_toNat c, h, Char.ofNat_toNat]

theorem enc_ascii {c : Char} (h : c.toNat < 128) : enc c = [c] := by
  unfold enc wcrtomb
  rw [if_pos (by omega)]
  simp only [List.map_cons, List.map_nil]
  rw [Nat.mod_eq_of_lt (by omega), Char.ofNat_toNat]

/-- The bytes of a character that is not ASCII are not ASCII. -/
theorem enc_high {c : Char} (h : 128 ≤ c.toNat) : ∃ b bs, enc c = b :: bs ∧ ∀ x ∈ b :: bs, 128 ≤ x.toNat := by
  obtain ⟨_, hw⟩ := wcrtomb_scalar c.toNat (char_scalar c)
  have key : ∀ l v, WF l v → 128 ≤ v → (∃ b bs, l = b :: bs) ∧ ∀ x ∈ l, 128 ≤ x ∧ x < 256 := by
    intro l v hl hv
    cases hl <;> simp only [B] at * <;> refine ⟨⟨_, _, rfl⟩, ?_⟩ <;> simp <;> omega
  obtain ⟨⟨b, bs, e⟩, hx⟩ := key _ _ hw h
  refine ⟨Char.ofNat b, bs.map Char.ofNat, by unfold enc; rw [e]; rfl, ?_⟩
  intro x hx'
  rw [← List.map_cons] at hx'
  obtain ⟨y, hy, rfl⟩ := List.mem_map.1 hx'
  rw [e] at hx
  have := hx y hy
  rw [ofNat_toNat_byte this.2]
  omega

theorem enc_length (c : Char) : 1 ≤ (enc c).length ∧ (enc c).length ≤ 4 := by
  obtain ⟨_, hw⟩ := wcrtomb_scalar c.toNat (char_scalar c)
  unfold enc
  rw [List.length_map]
  exact ⟨hw.length_pos, hw.length_le⟩

/-- A conversion with a character that is not ASCII is echoed. -/
theorem conv_high (tm : Tm) {c : Char} (h : 128 ≤ c.toNat) : conv tm c = ['%', c] := by
  unfold conv
  split <;> first | rfl | (exfalso; revert h; decide)

theorem digit_small {n : Nat} : ∀ x ∈ Nat.toDigits 10 n, 0 < x.toNat ∧ x.toNat < 128 := by
  intro x hx
  have := Nat.isDigit_of_mem_toDigits (b := 10) (by decide) (by decide) hx
  simp only [Char.isDigit, Bool.and_eq_true, decide_eq_true_eq] at this
  have h1 : (48 : UInt32) ≤ x.val := this.1
  have h2 : x.val ≤ (57 : UInt32) := this.2
  rw [UInt32.le_iff_toNat_le] at h1 h2
  have e1 : (48 : UInt32).toNat = 48 := rfl
  have e2 : (57 : UInt32).toNat = 57 := rfl
  unfold Char.toNat
  omega

/-- ASCII characters other than NUL. -/
def Plain (l : List Char) : Prop := ∀ x ∈ l, 0 < x.toNat ∧ x.toNat < 128

theorem plain_append {a b : List Char} (ha : Plain a) (hb : Plain b) : Plain (a ++ b) := by
  intro x hx; rcases List.mem_append.1 hx with h | h; exact ha x h; exact hb x h

theorem plain_take {a : List Char} (n : Nat) (ha : Plain a) : Plain (a.take n) := fun x hx => ha x (List.mem_of_mem_take hx)

theorem plain_dec (w : Nat) {p : Char} (hp : 0 < p.toNat ∧ p.toNat < 128) (n : Int) : Plain (dec w p n) := by
  unfold dec
  refine plain_append ?_ digit_small
  intro x hx
  rw [(List.mem_replicate.1 hx).2]
  exact hp

theorem plain_table (l : List String) (h : ∀ s ∈ l, Plain s.toList) (i : Nat) : Plain (l.getD i "").toList := by
  rw [List.getD_eq_getElem?_getD]
  cases he : l[i]? with
  | none => intro x hx; simp at hx
  | some s => exact h s (List.mem_of_getElem? he)

instance (l : List Char) : Decidable (Plain l) := inferInstanceAs (Decidable (∀ x ∈ l, _))

theorem plain_weekday (tm : Tm) : Plain (Time.weekday tm) := plain_table _ (by decide +kernel) _
theorem plain_month (tm : Tm) : Plain (Time.monthName tm) := plain_table _ (by decide +kernel) _
theorem plain_ampm (tm : Tm) : Plain (Time.ampm tm) := by unfold Time.ampm; split <;> decide
theorem plain_lit {l : List Char} (h : l.all fun x => decide (0 < x.toNat ∧ x.toNat < 128)) : Plain l := by
  simpa [Plain] using h

attribute [local irreducible] dec Time.weekday Time.monthName Time.ampm Plain

theorem plain_hms (tm : Tm) : Plain (Time.hms tm) := by
  unfold Time.hms
  repeat' apply plain_append
  all_goals first | exact plain_dec _ (by decide) _ | exact plain_lit (by decide)
theorem plain_mdy (tm : Tm) : Plain (Time.mdy tm) := by
  unfold Time.mdy
  repeat' apply plain_append
  all_goals first | exact plain_dec _ (by decide) _ | exact plain_lit (by decide)

attribute [local irreducible] Time.hms Time.mdy

/-- Conversions with ASCII characters give ASCII. -/
theorem conv_plain (tm : Tm) {c : Char} (h0 : 0 < c.toNat) (h : c.toNat < 128) : Plain (conv tm c) := by
  unfold conv
  split
  all_goals (repeat' apply plain_append)
  all_goals first
    | exact plain_dec _ (by decide) _
    | exact plain_take _ (plain_weekday tm)
    | exact plain_take _ (plain_month tm)
    | exact plain_weekday tm
    | exact plain_month tm
    | exact plain_ampm tm
    | exact plain_hms tm
    | exact plain_mdy tm
    | exact plain_lit (by decide)
    | (unfold Plain; intro x hx; simp only [List.mem_cons, List.not_mem_nil, or_false] at hx
       rcases hx with rfl | rfl
       · decide
       · exact ⟨h0, h⟩)

attribute [local semireducible] Plain

theorem flatMap_plain {l : List Char} (h : Plain l) : l.flatMap enc = l := by
  induction l with
  | nil => rfl
  | cons a l ih =>
    rw [List.flatMap_cons, ih fun x hx => h x (List.mem_cons_of_mem _ hx), enc_ascii (h a (List.mem_cons_self ..)).2]
    rfl

theorem text_lits (tm : Tm) {s t : List Char} (h : Text tm s t) : ∀ l : List Char, (∀ x ∈ l, 128 ≤ x.toNat) → Text tm (l ++ s) (l ++ t)
  | [], _ => h
  | a :: l, hl => .lit (fun e => by subst e; exact absurd (hl _ (List.mem_cons_self ..)) (by decide))
      (text_lits tm h l fun x hx => hl x (List.mem_cons_of_mem _ hx))

/-- Expanding a format commutes with encoding it in UTF-8. -/
theorem text_enc (tm : Tm) {s t : List Char} (h : Text tm s t) (hs : ∀ c ∈ s, 0 < c.toNat) : Text tm (s.flatMap enc) (t.flatMap enc) := by
  have pc : enc '%' = ['%'] := enc_ascii (by decide)
  -- a conversion, with the character after the percent sign (and modifier) encoded
  have one : ∀ (c : Char) (s t : List Char), 0 < c.toNat → Text tm s t →
      ∃ b bs, enc c = b :: bs ∧ (conv tm c).flatMap enc ++ t = conv tm b ++ (bs ++ t) ∧ Text tm (bs ++ s) (bs ++ t) ∧
        (c ≠ 'E' → b ≠ 'E') ∧ (c ≠ 'O' → b ≠ 'O') := by
    intro c s t h0 hst
    rcases Nat.lt_or_ge c.toNat 128 with hc | hc
    · exact ⟨c, [], enc_ascii hc, by rw [flatMap_plain (conv_plain tm h0 hc)]; rfl, hst, id, id⟩
    · obtain ⟨b, bs, e, hb⟩ := enc_high hc
      refine ⟨b, bs, e, ?_, text_lits tm hst bs fun x hx => hb x (List.mem_cons_of_mem _ hx), ?_, ?_⟩
      · rw [conv_high tm hc, conv_high tm (hb b (List.mem_cons_self ..))]
        simp [pc, e]
      all_goals
        intro _ hE
        subst hE
        exact absurd (hb _ (List.mem_cons_self ..)) (by decide)
  induction h with
  | nil => exact .nil
  | @lit c s t hc _ ih =>
    have ih := ih fun x hx => hs x (List.mem_cons_of_mem _ hx)
    rw [List.flatMap_cons, List.flatMap_cons]
    rcases Nat.lt_or_ge c.toNat 128 with h | h
    · rw [enc_ascii h]; exact .lit hc ih
    · obtain ⟨b, bs, e, hb⟩ := enc_high h
      rw [e]; exact text_lits tm ih _ hb
  | @conv c s t h1 h2 _ ih =>
    have ih := ih fun x hx => hs x (by simp [hx])
    obtain ⟨b, bs, e, e1, e2, e3, e4⟩ := one c _ _ (hs c (by simp)) ih
    rw [List.flatMap_cons, List.flatMap_cons, List.flatMap_append, pc, e, e1]
    exact .conv (e3 h1) (e4 h2) e2
  | @modified m c s t hm _ ih =>
    have ih := ih fun x hx => hs x (by simp [hx])
    obtain ⟨b, bs, e, e1, e2, _⟩ := one c _ _ (hs c (by simp)) ih
    have em : enc m = [m] := by rcases hm with rfl | rfl <;> exact enc_ascii (by decide)
    rw [List.flatMap_cons, List.flatMap_cons, List.flatMap_cons, List.flatMap_append, pc, em, e, e1]
    exact .modified hm e2
  | bare => rw [List.flatMap_cons, pc]; exact .bare
  | @bareModified m hm =>
    have em : enc m = [m] := by rcases hm with rfl | rfl <;> exact enc_ascii (by decide)
    rw [List.flatMap_cons, List.flatMap_cons, List.flatMap_cons, pc, em]
    exact .bareModified hm

/-- The expanded text has no null character. -/
theorem text_nonzero (tm : Tm) {s t : List Char} (h : Text tm s t) (hs : ∀ c ∈ s, 0 < c.toNat) : ∀ c ∈ t, 0 < c.toNat := by
  have one : ∀ c : Char, 0 < c.toNat → ∀ x ∈ conv tm c, 0 < x.toNat := by
    intro c h0 x hx
    rcases Nat.lt_or_ge c.toNat 128 with hc | hc
    · exact (conv_plain tm h0 hc x hx).1
    · rw [conv_high tm hc] at hx
      simp only [List.mem_cons, List.not_mem_nil, or_false] at hx
      rcases hx with rfl | rfl
      · decide
      · exact h0
  induction h with
  | nil => intro c hc; simp at hc
  | @lit c s t hc _ ih =>
    intro x hx
    rcases List.mem_cons.1 hx with rfl | hx
    · exact hs _ (by simp)
    · exact ih (fun x hx => hs x (List.mem_cons_of_mem _ hx)) x hx
  | @conv c s t h1 h2 _ ih =>
    intro x hx
    rcases List.mem_append.1 hx with hx | hx
    · exact one c (hs c (by simp)) x hx
    · exact ih (fun x hx => hs x (by simp [hx])) x hx
  | @modified m c s t hm _ ih =>
    intro x hx
    rcases List.mem_append.1 hx with hx | hx
    · exact one c (hs c (by simp)) x hx
    · exact ih (fun x hx => hs x (by simp [hx])) x hx
  | bare => intro x hx; rw [List.mem_singleton.1 hx]; decide
  | bareModified _ => intro x hx; rw [List.mem_singleton.1 hx]; decide

/-- The UTF-8 bytes of a text. -/
def bytes (t : List Char) : List Nat := t.flatMap fun c => (wcrtomb c.toNat).2

theorem bytes_enc : ∀ t : List Char, Enc (bytes t) (t.map Char.toNat)
  | [] => .nil
  | c :: t => by
    unfold bytes
    rw [List.flatMap_cons, List.map_cons]
    exact .cons (wcrtomb_scalar c.toNat (char_scalar c)).2 (bytes_enc t)

theorem bytes_map (t : List Char) : (bytes t).map Char.ofNat = t.flatMap enc := by
  unfold bytes enc
  rw [List.map_flatMap]

theorem bytes_lt (t : List Char) : ∀ b ∈ bytes t, b < 256 := by
  intro b hb
  obtain ⟨c, _, h⟩ := List.mem_flatMap.1 hb
  exact (wcrtomb_scalar c.toNat (char_scalar c)).2.bytes b h

theorem bytes_pos {t : List Char} (ht : ∀ c ∈ t, 0 < c.toNat) : ∀ b ∈ bytes t, 0 < b := by
  intro b hb
  obtain ⟨c, hc, h⟩ := List.mem_flatMap.1 hb
  have h0 := ht c hc
  have key : ∀ l v, WF l v → 0 < v → ∀ x ∈ l, 0 < x := by
    intro l v hl hv
    cases hl <;> simp only [B] at * <;> simp <;> omega
  exact key _ _ (wcrtomb_scalar c.toNat (char_scalar c)).2 h0 b h

theorem bytes_length (t : List Char) : t.length ≤ (bytes t).length ∧ (bytes t).length ≤ 4 * t.length := by
  induction t with
  | nil => exact ⟨Nat.le_refl _, Nat.le_refl _⟩
  | cons c t ih =>
    unfold bytes at *
    have hw := (wcrtomb_scalar c.toNat (char_scalar c)).2
    have h1 := hw.length_pos
    have h2 := hw.length_le
    rw [List.flatMap_cons, List.length_append, List.length_cons]
    omega

end Verif.Host
