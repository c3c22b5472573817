import Verif.Scanf.Ints

/-!
# Strings, characters and scansets in formatted input
-/

namespace Verif.Scanf

open Verif.Strtol (White Blank Subject IsDigit denoted value digitVal)

theorem scanStr_done {s n w b item t} (hby : Bytes (b ++ (item ++ t))) (h : At s (b ++ (item ++ t)) n 1) (hbl : Blank b)
    (hne : item ≠ []) (hit : ∀ c ∈ item, ¬ White c) (arg : Option Nat) (hw : (item.length : Int) ≤ w)
    (hstop : (item.length : Int) = w ∨ ∀ x ∈ t.head?, White x) :
    ∃ s', At s' t (n + b.length + item.length) 1 ∧ scanStr s w arg = some (1, s', store arg (.text item)) := by
  obtain ⟨s0, e0, h0⟩ := skipWs_eq hby h hbl (by
    cases item with
    | nil => exact absurd rfl hne
    | cons a item => intro x hx; simp at hx; subst hx; exact hit a (by simp))
  obtain ⟨c, s1, e1, h1⟩ := sgetc_at hby.right h0
  have hc1 : c ≠ -1 := by
    rcases h1 with ⟨h1, -⟩ | ⟨_, _, h1, -⟩
    · simp [hne] at h1
    · exact h1
  obtain ⟨c2, s2, e2, h2⟩ := run_eq (fun c => !space c) item (k := steps s1 + 1) (w := w) hby.right h1
    (fun x hx => by
      have := hby.right.left x hx
      have h : ¬ space x = true := fun hh => hit x hx ((space_eq x ⟨by omega, by omega⟩).mp hh)
      simpa using h) hw
    (hstop.imp id fun hs x hx => by
      have := hby.right.right x (List.mem_of_mem_head? hx)
      have h := (space_eq x ⟨by omega, by omega⟩).mpr (hs x hx)
      simp [h])
    (by have := held_steps h1; simp only [List.length_append] at this; omega)
  obtain ⟨s3, e3, h3⟩ := sungetc_held h2
  refine ⟨s3, h3, ?_⟩
  unfold scanStr
  simp only [e0, Option.bind_eq_bind, Option.bind_some, e1, if_neg hc1, e2, e3, if_neg hne]
  rfl

theorem scanStr_eof {s n w b} (hby : Bytes b) (h : At s b n 1) (hbl : Blank b) (arg : Option Nat) :
    ∃ s' m, At s' [] m 1 ∧ scanStr s w arg = some (-1, s', []) := by
  rw [← List.append_nil b] at h hby
  obtain ⟨s0, e0, h0⟩ := skipWs_eq hby h hbl (by simp)
  obtain ⟨c, s1, e1, h1⟩ := sgetc_at hby.right h0
  obtain ⟨rfl, h2⟩ := held_nil h1
  refine ⟨s1, _, h2.mono (by omega), ?_⟩
  unfold scanStr
  simp only [e0, Option.bind_eq_bind, Option.bind_some, e1]
  rfl

theorem scanSet_done {s n w item t map neg} (hby : Bytes (item ++ t)) (h : At s (item ++ t) n 1)
    (hne : item ≠ []) (hit : ∀ c ∈ item, map c = !neg) (arg : Option Nat) (hw : (item.length : Int) ≤ w)
    (hstop : (item.length : Int) = w ∨ ∀ x ∈ t.head?, map x = neg) :
    ∃ s', At s' t (n + item.length) 1 ∧ scanSet s w map neg arg = some (1, s', store arg (.text item)) := by
  obtain ⟨c, s1, e1, h1⟩ := sgetc_at hby h
  have hc1 : c ≠ -1 := by
    rcases h1 with ⟨h1, -⟩ | ⟨_, _, h1, -⟩
    · simp [hne] at h1
    · exact h1
  obtain ⟨c2, s2, e2, h2⟩ := run_eq (fun c => map c != neg) item (k := steps s1 + 1) (w := w) hby h1
    (fun x hx => by simp [hit x hx]) hw (hstop.imp id fun hs x hx => by simp [hs x hx])
    (by have := held_steps h1; simp only [List.length_append] at this; omega)
  obtain ⟨s3, e3, h3⟩ := sungetc_held h2
  refine ⟨s3, h3, ?_⟩
  unfold scanSet
  simp only [Option.bind_eq_bind, Option.bind_some, e1, if_neg hc1, e2, e3, if_neg hne]
  rfl

theorem scanSet_fail {s n w t map neg} (hby : Bytes t) (h : At s t n 1)
    (hne : t ≠ []) (arg : Option Nat) (hw : 0 < w) (hstop : ∀ x ∈ t.head?, map x = neg) :
    ∃ s', At s' t n 1 ∧ scanSet s w map neg arg = some (0, s', []) := by
  obtain ⟨c, s1, e1, h1⟩ := sgetc_at hby h
  have hc1 : c ≠ -1 := by
    rcases h1 with ⟨h1, -⟩ | ⟨_, _, h1, -⟩
    · exact absurd h1 hne
    · exact h1
  obtain ⟨c2, s2, e2, h2⟩ := run_eq (fun c => map c != neg) [] (k := steps s1 + 1) (w := w) hby h1
    (by simp) (by simp; omega) (.inr fun x hx => by simp [hstop x hx]) (by simp)
  obtain ⟨s3, e3, h3⟩ := sungetc_held h2
  refine ⟨s3, h3, ?_⟩
  unfold scanSet
  simp only [Option.bind_eq_bind, Option.bind_some, e1, if_neg hc1, e2, e3, if_true]
  rfl

theorem scanSet_eof {s n w map neg} (h : At s [] n 1) (arg : Option Nat) :
    ∃ s', At s' [] n 1 ∧ scanSet s w map neg arg = some (-1, s', []) := by
  obtain ⟨c, s1, e1, h1⟩ := sgetc_at (by simp [Bytes]) h
  obtain ⟨rfl, h2⟩ := held_nil h1
  refine ⟨s1, h2.mono (by omega), ?_⟩
  unfold scanSet
  simp only [e1]
  rfl

theorem charsLoop_eq (item : List Int) : ∀ {k s c n t}, Bytes (item ++ t) → Held s c (item ++ t) n → item ≠ [] →
    item.length < k → ∃ s', charsLoop k item.length c s = some (item, s') ∧ At s' t (n + item.length) 0 := by
  induction item with
  | nil => intro k s c n t _ _ h; exact absurd rfl h
  | cons x item ih =>
    intro k s c n t hby h _ hk
    obtain ⟨k, rfl⟩ : ∃ j, k = j + 1 := ⟨k - 1, by simp at hk; omega⟩
    obtain ⟨hcx, hc, hat⟩ := held_cons h
    obtain ⟨-, c', s', e, h'⟩ := held_next hby h
    subst hcx
    cases item with
    | nil =>
      refine ⟨s, ?_, hat⟩
      unfold charsLoop
      rw [if_pos ⟨by simp, hc⟩, if_pos (by simp)]
    | cons y item =>
      obtain ⟨s2, e2, h2⟩ := ih (k := k) hby.tail h' (by simp) (by simp only [List.length_cons] at hk ⊢; omega)
      refine ⟨s2, ?_, h2.cast (by simp only [List.length_cons]; omega)⟩
      unfold charsLoop
      simp only [List.length_cons, Int.natCast_add, Int.natCast_one] at e2 ⊢
      rw [if_pos ⟨by omega, hc⟩, if_neg (by omega), e]
      simp only
      rw [show (item.length : Int) + 1 + 1 - 1 = item.length + 1 by omega, e2]
      rfl

theorem scanChars_done {s n item t} (hby : Bytes (item ++ t)) (h : At s (item ++ t) n 1) (hne : item ≠ []) (arg : Option Nat) :
    ∃ s', At s' t (n + item.length) 0 ∧ scanChars s item.length arg = some (1, s', store arg (.chars item)) := by
  obtain ⟨c, s1, e1, h1⟩ := sgetc_at hby h
  have hc1 : c ≠ -1 := by
    rcases h1 with ⟨h1, -⟩ | ⟨_, _, h1, -⟩
    · simp [hne] at h1
    · exact h1
  obtain ⟨s2, e2, h2⟩ := charsLoop_eq item (k := steps s1 + 1) hby h1 hne
    (by have := held_steps h1; simp only [List.length_append] at this; omega)
  refine ⟨s2, h2, ?_⟩
  unfold scanChars
  simp only [Option.bind_eq_bind, Option.bind_some, e1, if_neg hc1, e2, if_neg hne]
  rfl

theorem scanChars_eof {s n w} (h : At s [] n 1) (arg : Option Nat) :
    ∃ s', At s' [] n 1 ∧ scanChars s w arg = some (-1, s', []) := by
  obtain ⟨c, s1, e1, h1⟩ := sgetc_at (by simp [Bytes]) h
  obtain ⟨rfl, h2⟩ := held_nil h1
  refine ⟨s1, h2.mono (by omega), ?_⟩
  unfold scanChars
  simp only [e1]
  rfl

/-- The scanset of a format. -/
theorem setLoop_eq (es : List Elem) : ∀ {first k rest map}, elemsOk first es → (es ≠ [] ∨ first = false) →
    (es.flatMap Elem.text).length < k → ∃ map', setLoop k first (es.flatMap Elem.text ++ 93 :: rest) map = some (map', rest) ∧
      ∀ c, map' c = true ↔ map c = true ∨ ∃ e ∈ es, e.Has c := by
  induction es with
  | nil =>
    intro first k rest map _ hf hk
    obtain ⟨k, rfl⟩ : ∃ j, k = j + 1 := ⟨k - 1, by simp at hk; omega⟩
    have hf : first = false := by simpa using hf
    subst hf
    refine ⟨map, ?_, by simp⟩
    simp [setLoop]
  | cons e es ih =>
    intro first k rest map hok _ hk
    obtain ⟨k, rfl⟩ : ∃ j, k = j + 1 := ⟨k - 1, by simp at hk; omega⟩
    cases e with
    | range lo hi =>
      obtain ⟨h1, h2, h3, h4, h5⟩ := hok
      obtain ⟨map', e', hm⟩ := ih (k := k) (rest := rest)
        (map := fun c => map c || (decide (min lo hi ≤ c) && decide (c ≤ max lo hi))) h5 (.inr rfl)
        (by simp only [List.flatMap_cons, List.length_append, Elem.text, List.length_cons, List.length_nil] at hk; omega)
      refine ⟨map', ?_, ?_⟩
      · simp only [List.flatMap_cons, Elem.text, List.cons_append, List.nil_append, setLoop]
        rw [if_pos h3.symm, if_pos h4]
        exact e'
      · intro c
        rw [hm c]
        simp only [Bool.or_eq_true, Bool.and_eq_true, decide_eq_true_eq, List.mem_cons, exists_eq_or_imp, Elem.Has]
        have : (min lo hi ≤ c ∧ c ≤ max lo hi) ↔ ((lo ≤ c ∧ c ≤ hi) ∨ (hi ≤ c ∧ c ≤ lo)) := by omega
        rw [this, or_assoc]
    | one lo =>
      obtain ⟨h1, h3, h4, h5⟩ := hok
      obtain ⟨map', e', hm⟩ := ih (k := k) (rest := rest) (map := fun c => map c || decide (c = lo)) h5 (.inr rfl)
        (by simp only [List.flatMap_cons, List.length_append, Elem.text, List.length_cons, List.length_nil] at hk; omega)
      refine ⟨map', ?_, ?_⟩
      · simp only [List.flatMap_cons, Elem.text, List.cons_append, List.nil_append, setLoop]
        rw [if_pos h3.symm]
        rcases h4 with h4 | rfl
        · generalize hp : es.flatMap Elem.text ++ 93 :: rest = p at e' ⊢
          split
          · rename_i hi q
            exfalso
            cases hf : es.flatMap Elem.text with
            | nil => rw [hf] at hp; simp at hp
            | cons a l =>
              rw [hf] at hp h4
              simp at hp
              exact h4 a (by simp) hp.1
          · exact e'
        · simp only [List.flatMap_cons, Elem.text, List.flatMap_nil, List.append_nil, List.cons_append,
            List.nil_append] at e' ⊢
          rw [if_neg (by simp)]
          exact e'
      · intro c
        rw [hm c]
        simp only [Bool.or_eq_true, decide_eq_true_eq, List.mem_cons, exists_eq_or_imp, Elem.Has, or_assoc]

theorem parseSet_eq {neg : Bool} {es : List Elem} (rest : List Int) (hne : es ≠ []) (hok : elemsOk true es)
    (hneg : neg = false → (es.flatMap Elem.text).head? ≠ some 94) :
    ∃ map, parseSet ((if neg then [94] else []) ++ es.flatMap Elem.text ++ 93 :: rest) = some (map, neg, rest) ∧
      ∀ c, map c = true ↔ ∃ e ∈ es, e.Has c := by
  obtain ⟨map, e, hm⟩ := setLoop_eq es (k := (es.flatMap Elem.text ++ 93 :: rest).length + 1) (rest := rest)
    (map := fun _ => false) hok (.inl hne) (by simp; omega)
  refine ⟨map, ?_, by simpa using hm⟩
  unfold parseSet
  cases neg with
  | true =>
    simp only [if_true, List.cons_append, List.nil_append, List.head?_cons, List.tail_cons, e]
    rfl
  | false =>
    have h1 : (es.flatMap Elem.text ++ 93 :: rest).head? ≠ some 94 := by
      have := hneg rfl
      cases hf : es.flatMap Elem.text with
      | nil => simp
      | cons a l => rw [hf] at this; simpa using this
    simp only [Bool.false_eq_true, if_false, List.nil_append, if_neg h1, e]
    rfl

end Verif.Scanf
