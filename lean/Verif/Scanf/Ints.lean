import Verif.Scanf.Lemmas

/-!
# Integers in formatted input
-/

namespace Verif.Scanf

open Verif.Strtol (White Blank Subject IsDigit denoted value digitVal Longest IsString)

/-- An optional sign. -/
def Sign (sg : List Int) : Prop := sg = [] ∨ sg = [43] ∨ sg = [45]

/-- What follows the sign in a prefix of an integer. -/
def Body (base : Nat) (v : List Int) : Prop :=
  v = [] ∨
  (∃ x ds, v = 48 :: x :: ds ∧ (x = 120 ∨ x = 88) ∧ (base = 0 ∨ base = 16) ∧ ∀ c ∈ ds, IsDigit 16 c) ∨
  (∃ ds, v = 48 :: ds ∧ ∀ c ∈ ds, IsDigit (if base = 0 then 8 else base) c) ∨
  (∃ c ds, v = c :: ds ∧ c ≠ 48 ∧ ∀ y ∈ v, IsDigit (if base = 0 then 10 else base) y)

theorem Body.left {base : Nat} {v z : List Int} (h : Body base (v ++ z)) : Body base v := by
  cases v with
  | nil => exact .inl rfl
  | cons a v =>
    rcases h with h | ⟨x, ds, h, hx, hb, hd⟩ | ⟨ds, h, hd⟩ | ⟨c, ds, h, hc, hd⟩
    · exact absurd h (by simp)
    · rw [List.cons_append] at h
      obtain ⟨rfl, h2⟩ := List.cons.inj h
      clear h
      cases v with
      | nil => exact .inr (.inr (.inl ⟨[], rfl, by simp⟩))
      | cons y v =>
        rw [List.cons_append] at h2
        obtain ⟨rfl, rfl⟩ := List.cons.inj h2
        exact .inr (.inl ⟨y, v, rfl, hx, hb, fun c hc => hd c (by simp [hc])⟩)
    · rw [List.cons_append] at h
      obtain ⟨rfl, rfl⟩ := List.cons.inj h
      exact .inr (.inr (.inl ⟨v, rfl, fun c hc => hd c (by simp [hc])⟩))
    · rw [List.cons_append] at h
      obtain ⟨rfl, rfl⟩ := List.cons.inj h
      exact .inr (.inr (.inr ⟨a, v, rfl, hc, fun y hy => hd y (by
        rw [List.cons_append]; simp only [List.mem_cons, List.mem_append] at hy ⊢
        rcases hy with h | h
        · exact .inl h
        · exact .inr (.inl h))⟩))

/-- How the parts of an integer lie. -/
inductive Parts (base : Nat) : List Int → Nat → Prop
  | hex (x : Int) (ds : List Int) : (x = 120 ∨ x = 88) → (base = 0 ∨ base = 16) → (∀ c ∈ ds, IsDigit 16 c) → ds ≠ [] →
      Parts base (48 :: x :: ds) 16
  | zero (ds : List Int) : (∀ c ∈ ds, IsDigit (if base = 0 then 8 else base) c) →
      Parts base (48 :: ds) (if base = 0 then 8 else base)
  | other (c : Int) (ds : List Int) : c ≠ 48 → (∀ y ∈ c :: ds, IsDigit (if base = 0 then 10 else base) y) →
      Parts base (c :: ds) (if base = 0 then 10 else base)

theorem Parts.body {base v radix} (h : Parts base v radix) : Body base v := by
  cases h with
  | hex x ds hx hb hd _ => exact .inr (.inl ⟨x, ds, rfl, hx, hb, hd⟩)
  | zero ds hd => exact .inr (.inr (.inl ⟨ds, rfl, hd⟩))
  | other c ds hc hd => exact .inr (.inr (.inr ⟨c, ds, rfl, hc, hd⟩))

theorem subject_parts {base w neg radix digits} (h : Subject base w neg radix digits) :
    ∃ sg v, w = sg ++ v ∧ Sign sg ∧ Parts base v radix := by
  cases h with
  | mk sign pre _ _ _ hsign hpre hradix hne hd =>
    refine ⟨sign, pre ++ digits, by rw [List.append_assoc], ?_, ?_⟩
    · rcases hsign with ⟨h, -⟩ | ⟨h, -⟩ | ⟨h, -⟩
      · exact .inl h
      · exact .inr (.inl h)
      · exact .inr (.inr h)
    · rcases hpre with rfl | ⟨hb, hpre⟩
      · cases digits with
        | nil => exact absurd rfl hne
        | cons c ds =>
          simp only [List.head?_cons, ne_eq, not_true_eq_false, if_false, Option.some.injEq] at hradix
          by_cases hc : c = 48
          · subst hc
            have : radix = if base = 0 then 8 else base := by
              rw [hradix]; by_cases hb : base = 0 <;> simp [hb]
            rw [this]
            rw [this] at hd
            exact .zero ds fun y hy => hd y (by simp [hy])
          · have : radix = if base = 0 then 10 else base := by
              rw [hradix]; by_cases hb : base = 0 <;> simp [hb, hc]
            rw [this]
            rw [this] at hd
            exact .other c ds hc hd
      · have : radix = 16 := by
          rw [hradix]
          rcases hb with rfl | rfl
          · simp
          · rcases hpre with rfl | rfl <;> simp
        subst this
        rcases hpre with rfl | rfl
        · exact .hex 120 digits (.inl rfl) hb.symm hd hne
        · exact .hex 88 digits (.inr rfl) hb.symm hd hne

theorem zero_digit {b : Nat} (h : 0 < b) : IsDigit b 48 := ⟨0, rfl, h⟩

theorem parts_subject {base v radix} (hb0 : base = 0 ∨ 2 ≤ base) (h : Parts base v radix) {sg : List Int} (hsg : Sign sg) :
    ∃ neg digits, Subject base (sg ++ v) neg radix digits := by
  have hs : (sg = [] ∧ (decide (sg = [45])) = false) ∨ (sg = [43] ∧ (decide (sg = [45])) = false) ∨
      (sg = [45] ∧ (decide (sg = [45])) = true) := by
    rcases hsg with rfl | rfl | rfl
    · exact .inl ⟨rfl, by decide⟩
    · exact .inr (.inl ⟨rfl, by decide⟩)
    · exact .inr (.inr ⟨rfl, by decide⟩)
  cases h with
  | hex x ds hx hb hd hne =>
    refine ⟨decide (sg = [45]), ds, ?_⟩
    rw [show sg ++ 48 :: x :: ds = sg ++ [48, x] ++ ds by simp]
    refine Subject.mk sg [48, x] ds _ 16 hs (.inr ⟨hb.symm, ?_⟩) ?_ hne hd
    · rcases hx with rfl | rfl
      · exact .inl rfl
      · exact .inr rfl
    · rcases hb with rfl | rfl <;> simp
  | zero ds hd =>
    refine ⟨decide (sg = [45]), 48 :: ds, ?_⟩
    rw [show sg ++ 48 :: ds = sg ++ [] ++ (48 :: ds) by simp]
    refine Subject.mk sg [] (48 :: ds) _ _ hs (.inl rfl) ?_ (by simp) ?_
    · by_cases hb : base = 0 <;> simp [hb]
    · intro c hc
      simp only [List.mem_cons] at hc
      rcases hc with rfl | hc
      · apply zero_digit
        split
        · decide
        · omega
      · exact hd c hc
  | other c ds hc hd =>
    refine ⟨decide (sg = [45]), c :: ds, ?_⟩
    rw [show sg ++ c :: ds = sg ++ [] ++ (c :: ds) by simp]
    refine Subject.mk sg [] (c :: ds) _ _ hs (.inl rfl) ?_ (by simp) hd
    by_cases hb : base = 0 <;> simp [hb, hc]

theorem body_zero {base : Nat} (hb0 : base = 0 ∨ 2 ≤ base) {v} (h : Body base v) : ∃ radix, Parts base (v ++ [48]) radix := by
  rcases h with rfl | ⟨x, ds, rfl, hx, hb, hd⟩ | ⟨ds, rfl, hd⟩ | ⟨c, ds, rfl, hc, hd⟩
  · exact ⟨_, .zero [] (by simp)⟩
  · refine ⟨16, show Parts base (48 :: x :: (ds ++ [48])) 16 from .hex x (ds ++ [48]) hx hb ?_ (by simp)⟩
    intro c hc
    simp only [List.mem_append, List.mem_singleton] at hc
    rcases hc with hc | rfl
    · exact hd c hc
    · exact zero_digit (by decide)
  · refine ⟨_, .zero (ds ++ [48]) ?_⟩
    intro c hc
    simp only [List.mem_append, List.mem_singleton] at hc
    rcases hc with hc | rfl
    · exact hd c hc
    · apply zero_digit; split <;> omega
  · refine ⟨_, .other c (ds ++ [48]) hc ?_⟩
    intro y hy
    simp only [List.mem_append, List.mem_cons, List.not_mem_nil, or_false] at hy
    rcases hy with rfl | hy | rfl
    · exact hd _ (by simp)
    · exact hd _ (by simp [hy])
    · apply zero_digit; split <;> omega

/-- The prefixes of integers. -/
theorem viable_iff {base : Nat} (hb0 : base = 0 ∨ 2 ≤ base) (w : List Int) :
    (∃ z neg radix digits, Subject base (w ++ z) neg radix digits) ↔ ∃ sg v, w = sg ++ v ∧ Sign sg ∧ Body base v := by
  constructor
  · rintro ⟨z, neg, radix, digits, h⟩
    obtain ⟨sg, v, e, hsg, hp⟩ := subject_parts h
    have hb := hp.body
    rcases hsg with rfl | hsg
    · simp only [List.nil_append] at e
      subst e
      exact ⟨[], w, rfl, .inl rfl, hb.left⟩
    · cases w with
      | nil => exact ⟨[], [], rfl, .inl rfl, .inl rfl⟩
      | cons a w =>
        rcases hsg with rfl | rfl
        all_goals
          rw [List.cons_append] at e
          obtain ⟨rfl, e2⟩ := List.cons.inj e
          have e3 : w ++ z = v := e2
          subst e3
          exact ⟨[_], w, rfl, by simp [Sign], hb.left⟩
  · rintro ⟨sg, v, rfl, hsg, hb⟩
    obtain ⟨radix, hp⟩ := body_zero hb0 hb
    obtain ⟨neg, digits, h⟩ := parts_subject hb0 hp hsg
    exact ⟨[48], neg, radix, digits, by rw [List.append_assoc]; exact h⟩

theorem subject_radix {base w neg radix digits} (h : Subject base w neg radix digits)
    (hb : base = 0 ∨ (2 ≤ base ∧ base ≤ 36)) : Subject radix w neg radix digits ∧ 2 ≤ radix ∧ radix ≤ 36 := by
  cases h with
  | mk sign pre _ _ _ hsign hpre hradix hne hd =>
    have hr : 2 ≤ radix ∧ radix ≤ 36 := by
      rw [hradix]
      split
      · omega
      · split
        · omega
        · split <;> omega
    refine ⟨Subject.mk sign pre digits neg radix hsign ?_ ?_ hne hd, hr⟩
    · rcases hpre with h | ⟨h, h'⟩
      · exact .inl h
      · refine .inr ⟨.inl ?_, h'⟩
        rw [hradix]
        rcases h with rfl | rfl
        · simp
        · rcases h' with rfl | rfl <;> simp
    · rw [if_pos (show radix ≠ 0 by omega)]

theorem parts_ascii {base v radix} (h : Parts base v radix) : ∀ c ∈ v, 48 ≤ c ∧ c ≤ 122 := by
  intro c hc
  cases h with
  | hex x ds hx _ hd _ =>
    simp only [List.mem_cons] at hc
    rcases hc with rfl | rfl | hc
    · omega
    · omega
    · exact digit_ascii (hd c hc)
  | zero ds hd =>
    simp only [List.mem_cons] at hc
    rcases hc with rfl | hc
    · omega
    · exact digit_ascii (hd c hc)
  | other y ds _ hd => exact digit_ascii (hd c hc)

theorem sign_ascii {sg} (h : Sign sg) : ∀ c ∈ sg, 43 ≤ c ∧ c ≤ 45 := by
  rcases h with rfl | rfl | rfl <;> simp

theorem subject_ascii {base w neg radix digits} (h : Subject base w neg radix digits) : ∀ c ∈ w, 43 ≤ c ∧ c ≤ 122 := by
  obtain ⟨sg, v, rfl, hsg, hp⟩ := subject_parts h
  intro c hc
  rw [List.mem_append] at hc
  rcases hc with hc | hc
  · have := sign_ascii hsg c hc; omega
  · have := parts_ascii hp c hc; omega

theorem subject_ne {base w neg radix digits} (h : Subject base w neg radix digits) : w ≠ [] := by
  obtain ⟨sg, v, rfl, hsg, hp⟩ := subject_parts h
  cases hp <;> simp

theorem signed_value {base w neg radix digits} (h : Subject base w neg radix digits)
    (hb : base = 0 ∨ (2 ≤ base ∧ base ≤ 36))
    (h1 : -9223372036854775808 < denoted neg radix digits) (h2 : denoted neg radix digits ≤ 9223372036854775807) :
    ∃ r, Strtol.strtoll w radix = some r ∧ r.value = denoted neg radix digits := by
  obtain ⟨h', hr⟩ := subject_radix h hb
  have ha := subject_ascii h
  have := Strtol.C32_strtoll_partial [] w radix (.inr hr) (fun c hc => by have := ha c hc; omega) (by simp [Blank])
    (fun c hc => by
      have := ha c (List.mem_of_mem_head? hc)
      unfold White; omega)
    w neg radix digits ⟨List.prefix_refl w, h', fun w' _ _ _ hp _ => hp.length_le⟩ (by omega)
  rw [List.nil_append, if_neg (by omega), if_neg (by omega)] at this
  exact ⟨_, this, rfl⟩

theorem unsigned_value {base w neg radix digits} (h : Subject base w neg radix digits)
    (hb : base = 0 ∨ (2 ≤ base ∧ base ≤ 36)) (h2 : value radix digits ≤ 18446744073709551615) :
    ∃ r, Strtol.strtoull w radix = some r ∧ r.value = denoted neg radix digits % 18446744073709551616 := by
  obtain ⟨h', hr⟩ := subject_radix h hb
  have ha := subject_ascii h
  have := Strtol.C32_strtoull [] w radix (.inr hr) (fun c hc => by have := ha c hc; omega) (by simp [Blank])
    (fun c hc => by
      have := ha c (List.mem_of_mem_head? hc)
      unfold White; omega)
    w neg radix digits ⟨List.prefix_refl w, h', fun w' _ _ _ hp _ => hp.length_le⟩
  rw [List.nil_append, if_neg (by omega)] at this
  exact ⟨_, this, rfl⟩

/-- What `scan_int` makes of a complete integer. -/
def stored (sign : Bool) (buf : List Int) (base : Nat) (len : Int × Nat) (arg : Option Nat) (s : Scanner) : Option Ret :=
  (if sign then Strtol.strtoll buf base else Strtol.strtoull buf base).bind fun r =>
    some (1, s, store arg (.int (width len) (r.value % 2 ^ (8 * width len)).toNat))

theorem intDone_eq {s c r n} (h : Held s c r n) (seen : Bool) (buf : List Int) (base : Nat) (sign : Bool)
    (len : Int × Nat) (arg : Option Nat) : ∃ s', At s' r n 1 ∧
    intDone s c seen buf base sign len arg = if seen then stored sign buf base len arg s' else some (0, s', []) := by
  obtain ⟨s', e, h'⟩ := sungetc_held h
  refine ⟨s', h', ?_⟩
  unfold intDone stored
  rw [e]
  cases seen with
  | true => cases sign <;> rfl
  | false => rfl

theorem intDigits_eq {s c n w base l t} (hby : Bytes (l ++ t)) (h : Held s c (l ++ t) n) (seen : Bool) (buf : List Int)
    (sign : Bool) (len : Int × Nat) (arg : Option Nat)
    (hl : ∀ y ∈ l, IsDigit (if base = 0 then 10 else base) y) (hw : (l.length : Int) ≤ w)
    (hstop : (l.length : Int) = w ∨ ∀ x ∈ t.head?, ¬ IsDigit (if base = 0 then 10 else base) x) :
    ∃ s', At s' t (n + l.length) 1 ∧ intDigits s c w seen buf base sign len arg =
      if seen || !l.isEmpty then stored sign (fill buf l) (if base = 0 then 10 else base) len arg s' else some (0, s', []) := by
  have hk : l.length < steps s + 1 := by
    have := held_steps h
    simp only [List.length_append] at this
    omega
  obtain ⟨c', s', e, hh⟩ := run_eq (below (if base = 0 then 10 else base)) l (k := steps s + 1) (w := w) hby h
    (fun y hy => (below_iff _ _).mpr (hl y hy)) hw
    (hstop.imp id fun hx x hx' => by
      rw [← Bool.not_eq_true, below_iff]; exact hx x hx') hk
  obtain ⟨s'', hat, e'⟩ := intDone_eq hh (seen || !l.isEmpty) (fill buf l) (if base = 0 then 10 else base) sign len arg
  refine ⟨s'', hat, ?_⟩
  unfold intDigits
  simp only [e, Option.bind_eq_bind, Option.bind_some]
  exact e'

theorem not_digit_x {b : Nat} (hb : b ≤ 16) {x : Int} (hx : x = 120 ∨ x = 88) : ¬ IsDigit b x := by
  rintro ⟨d, h, hd⟩
  rcases hx with rfl | rfl
  · have : digitVal 120 = some 33 := by decide
    rw [this] at h
    have := Option.some.inj h
    omega
  · have : digitVal 88 = some 33 := by decide
    rw [this] at h
    have := Option.some.inj h
    omega

theorem intZero_done {s c n w base v t radix sg} (hb0 : base = 0 ∨ (2 ≤ base ∧ base ≤ 16)) (hby : Bytes (v ++ t))
    (h : Held s c (v ++ t) n) (hp : Parts base v radix) (sign : Bool) (len : Int × Nat) (arg : Option Nat)
    (hlen : sg.length + v.length ≤ 127) (hw : (v.length : Int) ≤ w) (hz : (v.length : Int) = w → v ≠ [48])
    (hstop : (v.length : Int) = w ∨ ∀ x ∈ t.head?, ¬ Body base (v ++ [x])) :
    ∃ s', At s' t (n + v.length) 1 ∧ intZero s c w sg base sign len arg = stored sign (sg ++ v) radix len arg s' := by
  have ha := parts_ascii hp
  cases hp with
  | hex x ds hx hb hd hne =>
    simp only [List.length_cons] at hw hstop hlen
    have hdl : 0 < ds.length := List.length_pos_iff.mpr hne
    simp only [List.cons_append] at h hby
    obtain ⟨rfl, c1, s1, e1, h1⟩ := held_next hby h
    obtain ⟨rfl, c2, s2, e2, h2⟩ := held_next hby.tail h1
    obtain ⟨s3, hat, e3⟩ := intDigits_eq (base := 16) (w := w - 1 - 1) hby.tail.tail h2 false (fill (fill sg [48]) [c1])
      sign len arg hd (by omega) (hstop.imp (fun h => by omega) fun hx' y hy hdig => hx' y hy
        (.inr (.inl ⟨c1, ds ++ [y], rfl, hx, hb, fun z hz => by
          rw [List.mem_append, List.mem_singleton] at hz
          rcases hz with hz | rfl
          · exact hd z hz
          · exact hdig⟩)))
    refine ⟨s3, hat.cast (by simp only [List.length_cons]; omega), ?_⟩
    unfold intZero
    rw [if_pos ⟨rfl, by omega⟩, if_neg (by omega), e1]
    simp only
    rw [if_pos ⟨hx, hb⟩, if_neg (by omega), e2]
    simp only
    rw [e3, fill_eq sg, fill_eq (sg ++ [48]), fill_eq]
    · cases ds with
      | nil => exact absurd rfl hne
      | cons d ds => simp
    · intro y hy; have := digit_ascii (hd y hy); omega
    · simp; omega
    · intro y hy; simp at hy; omega
    · simp; omega
    · simp
    · simp; omega
  | zero ds hd =>
    simp only [List.length_cons] at hw hstop hlen hz
    simp only [List.cons_append] at h hby
    obtain ⟨rfl, c1, s1, e1, h1⟩ := held_next hby h
    have hw1 : w - 1 ≠ 0 := by
      intro hw1
      have : ds.length = 0 := by omega
      exact hz (by omega) (by rw [List.length_eq_zero_iff.mp this])
    have hx : ¬ ((c1 = 120 ∨ c1 = 88) ∧ (base = 0 ∨ base = 16)) := by
      rintro ⟨hx, hb⟩
      cases ds with
      | cons d ds =>
        have := (held_cons h1).1
        subst this
        refine not_digit_x ?_ hx (hd c1 (by simp))
        split <;> omega
      | nil =>
        cases t with
        | nil =>
          have := (held_nil h1).1
          omega
        | cons y t =>
          have := (held_cons h1).1
          subst this
          rcases hstop with hs | hs
          · exact hz hs rfl
          · exact hs c1 (by simp) (.inr (.inl ⟨c1, [], rfl, hx, hb, by simp⟩))
    obtain ⟨s3, hat, e3⟩ := intDigits_eq (base := if base = 0 then 8 else base) (w := w - 1) (l := ds) hby.tail h1 true
      (fill sg [48]) sign len arg
      (by
        have : (if (if base = 0 then 8 else base) = 0 then 10 else (if base = 0 then 8 else base)) =
          (if base = 0 then 8 else base) := by split <;> simp_all
        rw [this]; exact hd)
      (by omega) (hstop.imp (fun h => by omega) fun hx' y hy hdig => hx' y hy
        (.inr (.inr (.inl ⟨ds ++ [y], rfl, fun z hz => by
          rw [List.mem_append, List.mem_singleton] at hz
          rcases hz with hz | rfl
          · exact hd z hz
          · have : (if (if base = 0 then 8 else base) = 0 then 10 else (if base = 0 then 8 else base)) =
              (if base = 0 then 8 else base) := by split <;> simp_all
            rw [this] at hdig; exact hdig⟩))))
    refine ⟨s3, hat.cast (by simp only [List.length_cons]; omega), ?_⟩
    unfold intZero
    rw [if_pos ⟨rfl, by omega⟩, if_neg hw1, e1]
    simp only
    rw [if_neg hx, e3, fill_eq sg, fill_eq]
    · have : (if (if base = 0 then 8 else base) = 0 then 10 else (if base = 0 then 8 else base)) =
          (if base = 0 then 8 else base) := by split <;> simp_all
      rw [this]; simp
    · intro y hy; have := digit_ascii (hd y hy); omega
    · simp; omega
    · simp
    · simp; omega
  | other d ds hd0 hd =>
    have hc := (held_cons h).1
    subst hc
    obtain ⟨s3, hat, e3⟩ := intDigits_eq (base := base) (w := w) hby h false sg sign len arg hd hw
      (hstop.imp id fun hx' y hy hdig => hx' y hy
        (.inr (.inr (.inr ⟨c, ds ++ [y], rfl, hd0, fun z hz => by
          rw [List.mem_append, List.mem_singleton] at hz
          rcases hz with hz | rfl
          · exact hd z hz
          · exact hdig⟩))))
    refine ⟨s3, hat, ?_⟩
    unfold intZero
    rw [if_neg (fun h => hd0 h.1), e3, fill_eq]
    · simp
    · intro y hy; have := ha y hy; omega
    · exact hlen

theorem intZero_fail {s c n w base v t sg} (hby : Bytes (v ++ t))
    (h : Held s c (v ++ t) n) (hv : v = [] ∨ ∃ x, v = [48, x] ∧ (x = 120 ∨ x = 88) ∧ (base = 0 ∨ base = 16))
    (sign : Bool) (len : Int × Nat) (arg : Option Nat) (hw : (v.length : Int) < w)
    (hstop : ∀ x ∈ t.head?, ¬ Body base (v ++ [x])) :
    ∃ s', At s' t (n + v.length) 1 ∧ intZero s c w sg base sign len arg = some (0, s', []) := by
  rcases hv with rfl | ⟨x, rfl, hx, hb⟩
  · simp only [List.nil_append] at h hby hstop
    have hc : c ≠ 48 := by
      rintro rfl
      cases t with
      | nil => have := (held_nil h).1; omega
      | cons y t =>
        have := (held_cons h).1
        subst this
        exact hstop 48 (by simp) (.inr (.inr (.inl ⟨[], rfl, by simp⟩)))
    obtain ⟨s3, hat, e3⟩ := intDigits_eq (base := base) (w := w) (l := []) hby h false sg sign len arg (by simp)
      (by omega) (.inr fun y hy hdig => by
        refine hstop y hy (.inr (.inr (.inr ⟨y, [], rfl, ?_, ?_⟩)))
        · rintro rfl
          exact hstop 48 hy (.inr (.inr (.inl ⟨[], rfl, by simp⟩)))
        · intro z hz
          simp only [List.mem_singleton] at hz
          subst hz
          exact hdig)
    refine ⟨s3, hat, ?_⟩
    unfold intZero
    rw [if_neg (fun h => hc h.1), e3]
    rfl
  · simp only [List.length_cons, List.length_nil] at hw
    simp only [List.cons_append, List.nil_append] at h hby
    obtain ⟨rfl, c1, s1, e1, h1⟩ := held_next hby h
    obtain ⟨rfl, c2, s2, e2, h2⟩ := held_next hby.tail h1
    obtain ⟨s3, hat, e3⟩ := intDigits_eq (base := 16) (w := w - 1 - 1) (l := []) hby.tail.tail h2 false (fill (fill sg [48]) [c1])
      sign len arg (by simp) (by simp; omega) (.inr fun y hy hdig => hstop y hy
        (.inr (.inl ⟨c1, [y], rfl, hx, hb, fun z hz => by
          rw [List.mem_singleton] at hz
          subst hz
          exact hdig⟩)))
    refine ⟨s3, hat.cast (by simp only [List.length_cons, List.length_nil]), ?_⟩
    unfold intZero
    rw [if_pos ⟨rfl, by omega⟩, if_neg (by omega), e1]
    simp only
    rw [if_pos ⟨hx, hb⟩, if_neg (by omega), e2]
    simp only
    rw [e3]
    rfl

/-- `scan_int` on an integer. -/
theorem scanInt_done {s n w base b item t neg radix digits} (hb0 : base = 0 ∨ (2 ≤ base ∧ base ≤ 16))
    (hby : Bytes (b ++ (item ++ t))) (h : At s (b ++ (item ++ t)) n 1) (hbl : Blank b)
    (hsub : Subject base item neg radix digits) (sign : Bool) (len : Int × Nat) (arg : Option Nat)
    (hlen : item.length ≤ 127) (hw : (item.length : Int) ≤ w)
    (hz : (item.length : Int) = w → item ≠ [48] ∧ item ≠ [43, 48] ∧ item ≠ [45, 48])
    (hstop : (item.length : Int) = w ∨
      ∀ x ∈ t.head?, ¬ ∃ z neg radix digits, Subject base (item ++ [x] ++ z) neg radix digits) :
    ∃ s', At s' t (n + b.length + item.length) 1 ∧ scanInt s w base sign len arg = stored sign item radix len arg s' := by
  have hasc := subject_ascii hsub
  have hwh : ∀ x ∈ (item ++ t).head?, ¬ White x := by
    intro x hx
    cases item with
    | nil => exact absurd rfl (subject_ne hsub)
    | cons a item =>
      simp at hx
      subst hx
      have := hasc a (by simp)
      unfold White; omega
  obtain ⟨s0, e0, h0⟩ := skipWs_eq hby h hbl hwh
  obtain ⟨c, s1, e1, h1⟩ := sgetc_at hby.right h0
  obtain ⟨sg, v, rfl, hsg, hp⟩ := subject_parts hsub
  have hv : v ≠ [] := by cases hp <;> simp
  have hstop' : (((sg ++ v).length : Nat) : Int) = w ∨ ∀ x ∈ t.head?, ¬ Body base (v ++ [x]) :=
    hstop.imp id fun hs x hx hbod => hs x hx ((viable_iff (by omega) _).mpr ⟨sg, v ++ [x], by simp, hsg, hbod⟩)
  have hc1 : c ≠ -1 := by
    rcases h1 with ⟨h1, -⟩ | ⟨_, _, h1, -⟩
    · simp [hv] at h1
    · exact h1
  have hby1 := hby.right
  unfold scanInt
  rw [e0]
  simp only [Option.bind_eq_bind, Option.bind_some, e1, if_neg hc1]
  rcases hsg with rfl | hsg
  · have hc : ¬ (c = 43 ∨ c = 45) := by
      cases v with
      | nil => exact absurd rfl hv
      | cons a v =>
        have := (held_cons h1).1
        subst this
        have := parts_ascii hp c (by simp)
        omega
    rw [if_neg hc]
    obtain ⟨s2, hat, e2⟩ := intZero_done (sg := []) hb0 hby1 h1 hp sign len arg (by simpa using hlen)
      (by simpa using hw) (fun h => (hz (by simpa using h)).1) (by simpa using hstop')
    exact ⟨s2, hat, e2⟩
  · obtain ⟨x, rfl, hx⟩ : ∃ x, sg = [x] ∧ (x = 43 ∨ x = 45) := by
      rcases hsg with rfl | rfl
      · exact ⟨_, rfl, .inl rfl⟩
      · exact ⟨_, rfl, .inr rfl⟩
    simp only [List.cons_append, List.nil_append] at h1 hby1
    simp only [List.cons_append, List.nil_append, List.length_cons] at hlen hw hstop' hz
    have hvl : 0 < v.length := List.length_pos_iff.mpr hv
    obtain ⟨rfl, c2, s2, e2, h2⟩ := held_next hby1 h1
    rw [if_pos hx, if_neg (by omega), e2]
    simp only
    obtain ⟨s3, hat, e3⟩ := intZero_done (sg := fill [] [c]) (w := w - 1) hb0 hby1.tail h2 hp sign len arg
      (by rw [fill_eq _ _ (by simp; omega) (by simp)]; simp; omega) (by omega)
      (fun h1 h2 => by
        subst h2
        have := hz (by omega)
        rcases hx with rfl | rfl
        · exact this.2.1 rfl
        · exact this.2.2 rfl)
      (hstop'.imp (fun h => by omega) id)
    rw [fill_eq _ _ (by simp; omega) (by simp)] at e3
    rw [fill_eq _ _ (by simp; omega) (by simp)]
    exact ⟨s3, hat.cast (by simp only [List.cons_append, List.nil_append, List.length_cons]; omega), e3⟩

/-- `scan_int` on something that is not an integer. -/
theorem scanInt_fail {s n w base b item t} (hb0 : base = 0 ∨ (2 ≤ base ∧ base ≤ 16))
    (hby : Bytes (b ++ (item ++ t))) (h : At s (b ++ (item ++ t)) n 1) (hbl : Blank b)
    (hne : item ++ t ≠ []) (hwh : ∀ x ∈ (item ++ t).head?, ¬ White x)
    (hpre : ∃ z neg radix digits, Subject base (item ++ z) neg radix digits)
    (hno : ¬ ∃ neg radix digits, Subject base item neg radix digits) (sign : Bool) (len : Int × Nat) (arg : Option Nat)
    (hw : (item.length : Int) < w)
    (hstop : ∀ x ∈ t.head?, ¬ ∃ z neg radix digits, Subject base (item ++ [x] ++ z) neg radix digits) :
    ∃ s', At s' t (n + b.length + item.length) 1 ∧ scanInt s w base sign len arg = some (0, s', []) := by
  obtain ⟨s0, e0, h0⟩ := skipWs_eq hby h hbl hwh
  obtain ⟨c, s1, e1, h1⟩ := sgetc_at hby.right h0
  obtain ⟨sg, v, rfl, hsg, hbody⟩ := (viable_iff (by omega) _).mp hpre
  have hstop' : ∀ x ∈ t.head?, ¬ Body base (v ++ [x]) :=
    fun x hx hbod => hstop x hx ((viable_iff (by omega) _).mpr ⟨sg, v ++ [x], by simp, hsg, hbod⟩)
  have hv : v = [] ∨ ∃ x, v = [48, x] ∧ (x = 120 ∨ x = 88) ∧ (base = 0 ∨ base = 16) := by
    rcases hbody with h | ⟨x, ds, rfl, hx, hb, hd⟩ | ⟨ds, rfl, hd⟩ | ⟨y, ds, rfl, hy, hd⟩
    · exact .inl h
    · cases ds with
      | nil => exact .inr ⟨x, rfl, hx, hb⟩
      | cons d ds =>
        obtain ⟨neg, digits, hs⟩ := parts_subject (by omega) (.hex x (d :: ds) hx hb hd (by simp)) hsg
        exact absurd ⟨_, _, _, hs⟩ hno
    · obtain ⟨neg, digits, hs⟩ := parts_subject (by omega) (.zero ds hd) hsg
      exact absurd ⟨_, _, _, hs⟩ hno
    · obtain ⟨neg, digits, hs⟩ := parts_subject (by omega) (.other y ds hy hd) hsg
      exact absurd ⟨_, _, _, hs⟩ hno
  have hc1 : c ≠ -1 := by
    rcases h1 with ⟨h1, -⟩ | ⟨_, _, h1, -⟩
    · exact absurd h1 hne
    · exact h1
  have hby1 := hby.right
  unfold scanInt
  rw [e0]
  simp only [Option.bind_eq_bind, Option.bind_some, e1, if_neg hc1]
  rcases hsg with rfl | hsg
  · simp only [List.nil_append] at h1 hby1 hne hw hstop
    have hc : ¬ (c = 43 ∨ c = 45) := by
      intro hc
      rcases hv with rfl | ⟨x, rfl, hx, hb⟩
      · cases t with
        | nil => exact absurd rfl hne
        | cons y t =>
          have := (held_cons h1).1
          subst this
          refine hstop c (by simp) ((viable_iff (by omega) _).mpr ⟨[c], [], by simp, ?_, .inl rfl⟩)
          rcases hc with rfl | rfl
          · exact .inr (.inl rfl)
          · exact .inr (.inr rfl)
      · have := (held_cons h1).1
        omega
    rw [if_neg hc]
    obtain ⟨s2, hat, e2⟩ := intZero_fail (sg := []) hby1 h1 hv sign len arg hw hstop'
    exact ⟨s2, hat, e2⟩
  · obtain ⟨x, rfl, hx⟩ : ∃ x, sg = [x] ∧ (x = 43 ∨ x = 45) := by
      rcases hsg with rfl | rfl
      · exact ⟨_, rfl, .inl rfl⟩
      · exact ⟨_, rfl, .inr rfl⟩
    simp only [List.cons_append, List.nil_append] at h1 hby1
    simp only [List.cons_append, List.nil_append, List.length_cons] at hw
    obtain ⟨rfl, c2, s2, e2, h2⟩ := held_next hby1 h1
    rw [if_pos hx, if_neg (by omega), e2]
    simp only
    obtain ⟨s3, hat, e3⟩ := intZero_fail (sg := fill [] [c]) (w := w - 1) hby1.tail h2 hv sign len arg (by omega) hstop'
    exact ⟨s3, hat.cast (by simp only [List.cons_append, List.nil_append, List.length_cons]; omega), e3⟩

/-- Any of the conversions that skip white space, at the end of the input. -/
theorem scanInt_eof {s n w base b} (hby : Bytes b) (h : At s b n 1) (hbl : Blank b)
    (sign : Bool) (len : Int × Nat) (arg : Option Nat) :
    ∃ s' m, At s' [] m 1 ∧ scanInt s w base sign len arg = some (-1, s', []) := by
  rw [← List.append_nil b] at h hby
  obtain ⟨s0, e0, h0⟩ := skipWs_eq hby h hbl (by simp)
  obtain ⟨c, s1, e1, h1⟩ := sgetc_at hby.right h0
  obtain ⟨rfl, h2⟩ := held_nil h1
  refine ⟨s1, _, h2.mono (by omega), ?_⟩
  unfold scanInt
  rw [e0]
  simp only [Option.bind_eq_bind, Option.bind_some, e1]
  rfl

end Verif.Scanf
