import Verif.Wide.NumModel
import Verif.Strtol.Props
import Verif.Decimal.Spec

namespace Verif.Wide
open Verif.Strtol (White Subject Longest Blank IsDigit digitVal)

theorem blank_iff (c : Int) : blank c = true ↔ White c := by
  unfold blank White
  simp; omega

theorem blanks_eq (b r : List Int) (hb : Blank b) (hr : ∀ c ∈ r.head?, ¬ White c) : blanks (b ++ r) = b.length := by
  induction b with
  | nil =>
    cases r with
    | nil => rfl
    | cons c r =>
      have : blank c = false := by
        have := hr c (by simp)
        rw [← blank_iff] at this
        simpa using this
      simp [blanks, this]
  | cons c b ih =>
    have : blank c = true := (blank_iff c).mpr (hb c (by simp))
    simp only [List.cons_append, blanks, this, if_true, List.length_cons]
    rw [ih (fun x hx => hb x (by simp [hx]))]

theorem copyBlanks_eq (b r : List Int) (room : Nat) : copyBlanks b.length (b ++ r) room = b.take room := by
  induction b generalizing room with
  | nil => simp [copyBlanks]
  | cons c b ih =>
    cases room with
    | zero => simp [copyBlanks]
    | succ room => simp [copyBlanks, ih]

theorem copyToken_prefix (r : List Int) (room : Nat) : copyToken r room <+: r := by
  induction r generalizing room with
  | nil => simp [copyToken]
  | cons c r ih =>
    cases room with
    | zero => simp [copyToken]
    | succ room =>
      unfold copyToken
      split
      · exact List.cons_prefix_cons.mpr ⟨rfl, ih room⟩
      · exact List.nil_prefix

theorem copyToken_token (r : List Int) (room : Nat) : ∀ c ∈ copyToken r room, token c = true := by
  induction r generalizing room with
  | nil => simp [copyToken]
  | cons c r ih =>
    cases room with
    | zero => simp [copyToken]
    | succ room =>
      unfold copyToken
      split
      · next h =>
        intro x hx
        rcases List.mem_cons.mp hx with rfl | hx
        · exact h
        · exact ih room x hx
      · intro x hx; cases hx

theorem copyToken_longest (r w : List Int) (room : Nat) (hw : w <+: r) (ht : ∀ c ∈ w, token c = true) (hl : w.length ≤ room) :
    w <+: copyToken r room := by
  induction r generalizing room w with
  | nil => simpa [copyToken] using hw
  | cons c r ih =>
    cases w with
    | nil => exact List.nil_prefix
    | cons a w =>
      obtain ⟨rfl, hw'⟩ := List.cons_prefix_cons.mp hw
      cases room with
      | zero => simp at hl
      | succ room =>
        unfold copyToken
        rw [if_pos (ht a (by simp))]
        exact List.cons_prefix_cons.mpr ⟨rfl, ih w room hw' (fun c hc => ht c (by simp [hc])) (by simpa using hl)⟩

theorem wparseCopy_eq (b r : List Int) (cap : Nat) (hb : Blank b) (hr : ∀ c ∈ r.head?, ¬ White c) :
    wparseCopy (b ++ r) cap = b.take (cap - 1) ++ copyToken r (cap - 1 - b.length) := by
  unfold wparseCopy
  simp only [blanks_eq b r hb hr, copyBlanks_eq, List.drop_left, List.length_take]
  congr 2
  omega

theorem token_char (c : Int) (h : token c = true) : -128 ≤ c ∧ c ≤ 127 ∧ c ≠ 0 ∧ ¬ White c := by
  unfold token at h
  simp only [decide_eq_true_eq] at h
  unfold White
  omega

theorem white_char (c : Int) (h : White c) : -128 ≤ c ∧ c ≤ 127 ∧ c ≠ 0 := by
  unfold White at h
  omega

theorem digit_token {n : Nat} {c : Int} (h : IsDigit n c) : token c = true := by
  obtain ⟨d, h, _⟩ := h
  unfold digitVal at h
  unfold token
  simp only [decide_eq_true_eq]
  by_cases h1 : 48 ≤ c ∧ c ≤ 57
  · omega
  · rw [if_neg h1] at h
    by_cases h2 : 97 ≤ c ∧ c ≤ 122
    · omega
    · rw [if_neg h2] at h
      by_cases h3 : 65 ≤ c ∧ c ≤ 90
      · omega
      · rw [if_neg h3] at h; cases h

theorem subject_token {base : Nat} {w : List Int} {neg : Bool} {radix : Nat} {digits : List Int} (h : Subject base w neg radix digits) :
    ∀ c ∈ w, token c = true := by
  obtain ⟨sign, pre, _, _, _, hsign, hpre, _, _, hd⟩ := h
  intro c hc
  simp only [List.mem_append] at hc
  rcases hc with (hc | hc) | hc
  · rcases hsign with ⟨rfl, _⟩ | ⟨rfl, _⟩ | ⟨rfl, _⟩
    · simp at hc
    · simp at hc; subst hc; decide
    · simp at hc; subst hc; decide
  · rcases hpre with rfl | ⟨_, rfl | rfl⟩
    · simp at hc
    · simp at hc; rcases hc with rfl | rfl <;> decide
    · simp at hc; rcases hc with rfl | rfl <;> decide
  · exact digit_token (hd c hc)

/-- What the parsers see of a wide string. -/
theorem buffer_ok (N : Nat) (b r : List Int) (hb : Blank b) :
    Strtol.IsString (b.take N ++ copyToken r (N - b.length)) ∧ Blank (b.take N) ∧
    (∀ c ∈ (copyToken r (N - b.length)).head?, ¬ White c) := by
  have hb' : Blank (b.take N) := fun c hc => hb c (List.mem_of_mem_take hc)
  refine ⟨fun c hc => ?_, hb', fun c hc => ?_⟩
  · rcases List.mem_append.mp hc with h | h
    · exact white_char c (hb' c h)
    · have := token_char c (copyToken_token r _ c h); exact ⟨this.1, this.2.1, this.2.2.1⟩
  · exact (token_char c (copyToken_token r _ c (List.mem_of_mem_head? hc))).2.2.2

theorem buffer_longest (N : Nat) (b r : List Int) (base : Nat) (w : List Int) (neg : Bool) (radix : Nat) (digits : List Int)
    (hL : Longest base r w neg radix digits) (hfit : b.length + w.length ≤ N) :
    b.take N = b ∧ Longest base (copyToken r (N - b.length)) w neg radix digits := by
  obtain ⟨h1, h2, h3⟩ := hL
  refine ⟨List.take_of_length_le (by omega), copyToken_longest r w _ h1 (subject_token h2) (by omega), h2, ?_⟩
  intro w' neg' radix' digits' hw' hS'
  exact h3 w' neg' radix' digits' (hw'.trans (copyToken_prefix r _)) hS'

theorem sign_token {sign : List Int} {neg : Bool} (h : Decimal.Spec.Sign sign neg) : ∀ c ∈ sign, token c = true := by
  rcases h with ⟨rfl, -⟩ | ⟨rfl, -⟩ | ⟨rfl, -⟩
  · intro c hc; cases hc
  · intro c hc; rw [List.mem_singleton.mp hc]; decide
  · intro c hc; rw [List.mem_singleton.mp hc]; decide

theorem decimal_token {w : List Int} {neg : Bool} {n : Nat} {t : Int} (h : Decimal.Spec.Subject w neg n t) : ∀ c ∈ w, token c = true := by
  obtain ⟨sign, ip, point, fp, ex, _, e, hs, hp, hi, hf, _, he⟩ := h
  intro c hc
  simp only [List.mem_append] at hc
  rcases hc with hc | hc | hc | hc | hc
  · exact sign_token hs c hc
  · exact digit_token (hi c hc)
  · rcases hp with ⟨rfl, -⟩ | rfl
    · cases hc
    · rw [List.mem_singleton.mp hc]; decide
  · exact digit_token (hf c hc)
  · cases he with
    | none => cases hc
    | some a sign ds neg ha hs hne hd =>
      rcases List.mem_cons.mp hc with rfl | hc
      · rcases ha with rfl | rfl <;> decide
      · rcases List.mem_append.mp hc with hc | hc
        · exact sign_token hs c hc
        · exact digit_token (hd c hc)

theorem infinite_token {w : List Int} {neg : Bool} (h : Decimal.Spec.Infinite w neg) : ∀ c ∈ w, token c = true := by
  obtain ⟨sign, v, hs, rfl, hv⟩ := h
  intro c hc
  rcases List.mem_append.mp hc with hc | hc
  · exact sign_token hs c hc
  · have hl : 97 ≤ Decimal.Spec.lower c ∧ Decimal.Spec.lower c ≤ 122 := by
      have : ∀ x ∈ v.map Decimal.Spec.lower, 97 ≤ x ∧ x ≤ 122 := by rcases hv with e | e <;> rw [e] <;> decide
      exact this _ (List.mem_map_of_mem hc)
    unfold token
    simp only [decide_eq_true_eq]
    unfold Decimal.Spec.lower at hl
    split at hl <;> omega

theorem buffer_decimal (b : List Int) {r w : List Int} {neg : Bool} {n : Nat} {t : Int}
    (hL : Decimal.Spec.Longest r w neg n t) (hx : ¬ Decimal.Spec.Hex r) (hfit : b.length + w.length ≤ 255) :
    b.take 255 = b ∧ Decimal.Spec.Longest (copyToken r (255 - b.length)) w neg n t ∧ ¬ Decimal.Spec.Hex (copyToken r (255 - b.length)) := by
  obtain ⟨h1, h2, h3⟩ := hL
  refine ⟨List.take_of_length_le (by omega), ⟨copyToken_longest r w _ h1 (decimal_token h2) (by omega), h2, ?_⟩, ?_⟩
  · intro w' neg' n' t' hw' hS'
    exact h3 w' neg' n' t' (hw'.trans (copyToken_prefix r _)) hS'
  · rintro ⟨sign, neg, hs, h⟩
    exact hx ⟨sign, neg, hs, h.imp (·.trans (copyToken_prefix r _)) (·.trans (copyToken_prefix r _))⟩

end Verif.Wide
