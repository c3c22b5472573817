import Verif.Scanf.Whole

/-!
# Formatted input is defined for every format and every input
-/

namespace Verif.Scanf

/-- Characters the scanner may hold; with `m`, no minus sign. -/
def Byte (m : Bool) (c : Int) : Prop := -128 ≤ c ∧ c ≤ 255 ∧ (m = true → c ≠ 45)

/-- The scanner has room to take back `k` characters with at most three in its array. -/
def Safe (m : Bool) (s : Scanner) (k : Nat) : Prop := s.peek.length + k ≤ 3 ∧ ∀ c ∈ s.peek ++ s.input, Byte m c

/-- A character counts unless it is `EOF`. -/
def one (c : Int) : Nat := if c = -1 then 0 else 1

def Buffer (m : Bool) (b : List Int) : Prop := ∀ x ∈ b, Byte m x ∧ x ≤ 127

theorem Safe.mono {m s k k'} (h : Safe m s k) (hk : k' ≤ k) : Safe m s k' := ⟨by have := h.1; omega, h.2⟩

theorem one_le (c : Int) : one c ≤ 1 := by unfold one; split <;> omega

theorem sgetc_safe {m s k} (h : Safe m s k) (hk : k ≤ 2) : ∃ c s', sgetc s = (c, s') ∧ Safe m s' (k + one c) ∧
    (Byte m c) ∧ (c = -1 ∨ steps s' < steps s) := by
  obtain ⟨input, count, peek, eof⟩ := s
  obtain ⟨h1, h2⟩ := h
  simp only at h1 h2
  cases peek with
  | cons c rest =>
    refine ⟨_, _, rfl, ⟨?_, ?_⟩, h2 c (by simp), .inr ?_⟩
    · have := one_le c
      simp only [List.length_cons] at h1 ⊢; omega
    · intro x hx; exact h2 x (by simp at hx ⊢; exact .inr hx)
    · simp only [steps, List.length_cons]; omega
  | nil =>
    cases eof with
    | true => exact ⟨_, _, rfl, ⟨by simp [one]; omega, h2⟩, ⟨by omega, by omega, by omega⟩, .inl rfl⟩
    | false =>
      cases input with
      | nil => exact ⟨_, _, rfl, ⟨by simp [one]; omega, h2⟩, ⟨by omega, by omega, by omega⟩, .inl rfl⟩
      | cons c rest =>
        refine ⟨_, _, rfl, ⟨?_, ?_⟩, h2 c (by simp), .inr ?_⟩
        · have := one_le c
          simp only [List.length_nil] at h1 ⊢; omega
        · intro x hx; exact h2 x (by simp at hx ⊢; exact .inr hx)
        · simp only [steps, List.length_cons]; omega

theorem next_safe {m s k} (w : Int) (h : Safe m s k) (hk : k ≤ 2) : ∃ c s', next w s = (c, s') ∧ Safe m s' (k + one c) ∧
    Byte m c := by
  unfold next
  by_cases hw : 0 < w
  · rw [if_pos hw]
    obtain ⟨c, s', e, h1, h2, -⟩ := sgetc_safe h hk
    exact ⟨c, s', e, h1, h2⟩
  · rw [if_neg hw]
    exact ⟨_, _, rfl, h, ⟨by omega, by omega, by omega⟩⟩

theorem sungetc_safe {m s k c} (h : Safe m s (k + one c)) (hc : Byte m c) : ∃ s', sungetc s c = some s' ∧ Safe m s' k := by
  unfold sungetc
  by_cases h1 : c = -1
  · rw [if_pos h1]; exact ⟨s, rfl, h.mono (by omega)⟩
  · have h2 : one c = 1 := by unfold one; rw [if_neg h1]
    rw [h2] at h
    have h3 := h.1
    rw [if_neg h1, if_pos (by omega)]
    refine ⟨_, rfl, ?_, ?_⟩
    · simp only [List.length_cons]; omega
    · intro x hx
      simp only [List.cons_append, List.mem_cons] at hx
      rcases hx with rfl | hx
      · exact hc
      · exact h.2 x hx

theorem skipLoop_safe {m} (k : Nat) : ∀ {s}, Safe m s 0 → steps s ≤ k →
    ∃ c s', skipLoop k s = some (c, s') ∧ Safe m s' (one c) ∧ Byte m c := by
  induction k with
  | zero => intro s _ h; simp [steps] at h
  | succ k ih =>
    intro s h hk
    obtain ⟨c, s', e, h1, h2, h3⟩ := sgetc_safe h (by omega)
    unfold skipLoop
    rw [e]
    simp only
    split
    · rename_i hc
      exact ih (h1.mono (by omega)) (by have := h3.resolve_left hc.1; omega)
    · exact ⟨c, s', rfl, by simpa using h1, h2⟩

theorem skipWs_safe {m s} (h : Safe m s 0) : ∃ s', skipWs s = some s' ∧ Safe m s' 0 := by
  obtain ⟨c, s', e, h1, h2⟩ := skipLoop_safe (steps s) h (Nat.le_refl _)
  obtain ⟨s2, e2, h3⟩ := sungetc_safe (k := 0) (by simpa using h1) h2
  exact ⟨s2, by unfold skipWs; rw [e]; exact e2, h3⟩

theorem run_safe {m} (p : Int → Bool) (k : Nat) : ∀ {w c s}, Safe m s (one c) → Byte m c → (steps s < k ∨ (c = -1 ∧ 0 < k)) →
    ∃ l w' c' s', run p k w c s = some (l, w', c', s') ∧ Safe m s' (one c') ∧ Byte m c' ∧ (∀ x ∈ l, Byte m x) ∧
      (l = [] → c' = c ∧ s' = s) := by
  induction k with
  | zero => intro w c s _ _ h; omega
  | succ k ih =>
    intro w c s h hc hk
    unfold run
    split
    · rename_i hcond
      obtain ⟨c1, s1, e1, h1, h2, h3⟩ := sgetc_safe (h.mono (k' := 0) (by omega)) (by omega)
      obtain ⟨l, w', c', s', e, h4, h5, h6, -⟩ := ih (w := w - 1) (c := c1) (s := s1) (by simpa using h1) h2 (by
        have := hk.resolve_right (fun h => hcond.2.1 h.1)
        have h0 : 0 < steps s := by simp [steps]
        rcases h3 with h3 | h3
        · right; exact ⟨h3, by omega⟩
        · left; omega)
      rw [e1]
      simp only
      rw [e]
      refine ⟨_, _, _, _, rfl, h4, h5, ?_, by simp⟩
      intro x hx
      simp only [List.mem_cons] at hx
      rcases hx with rfl | hx
      · exact hc
      · exact h6 x hx
    · exact ⟨_, _, _, _, rfl, h, hc, by simp, fun _ => ⟨rfl, rfl⟩⟩

theorem toChar_safe {m c} (h : Byte m c) : Byte m (toChar c) ∧ toChar c ≤ 127 := by
  unfold toChar Byte at *
  split
  · exact ⟨h, by omega⟩
  · exact ⟨⟨by omega, by omega, by omega⟩, by omega⟩

theorem fill_safe {m b l} (hb : Buffer m b) (hl : ∀ x ∈ l, Byte m x) : Buffer m (fill b l) := by
  intro x hx
  have := List.mem_of_mem_take hx
  rcases List.mem_append.mp this with h | h
  · exact hb x h
  · obtain ⟨y, hy, rfl⟩ := List.mem_map.mp h
    exact toChar_safe (hl y hy)

theorem fill_one {m b c} (hb : Buffer m b) (hc : Byte m c) : Buffer m (fill b [c]) :=
  fill_safe hb (by intro x hx; rw [List.mem_singleton.mp hx]; exact hc)

theorem last_safe {m b} (hb : Buffer m b) : Byte m (b.getLast?.getD 0) := by
  cases h : b.getLast? with
  | none => exact ⟨by decide, by decide, fun _ => by decide⟩
  | some x => exact (hb x (List.mem_of_getLast? h)).1

theorem skipSpace_some (str : List Int) (h : ∀ x ∈ str, -128 ≤ x ∧ x ≤ 127) :
    ∃ s k, Strtol.skipSpace str = some (s, k) ∧ s <:+ str := by
  induction str with
  | nil => exact ⟨[], 0, by decide, List.suffix_refl _⟩
  | cons c str ih =>
    obtain ⟨r, e, -⟩ := Strtol.isspace_iff c (h c (by simp))
    obtain ⟨s, k, e2, h2⟩ := ih (fun x hx => h x (by simp [hx]))
    unfold Strtol.skipSpace
    rw [e]
    simp only [Option.bind_some]
    split
    · exact ⟨s, k + 1, by rw [e2]; rfl, h2.trans (List.suffix_cons _ _)⟩
    · exact ⟨_, _, rfl, List.suffix_refl _⟩

theorem ite_ex {α : Type} {c : Prop} [Decidable c] {a b : α} : ∃ r, (if c then some a else some b) = some r := by
  split <;> exact ⟨_, rfl⟩

theorem parseint_some (signed : Bool) (str : List Int) (base max : Nat) (hmax : signed = true → max < 9223372036854775808)
    (h : ∀ x ∈ str, -128 ≤ x ∧ x ≤ 127) (hm : signed = true → 45 ∉ str) : ∃ r, Strtol.parseint 64 signed str base max = some r := by
  obtain ⟨s, k, e, hs⟩ := skipSpace_some str h
  unfold Strtol.parseint
  rw [e]
  simp only [Option.bind_eq_bind, Option.bind_some]
  cases signed with
  | false =>
    simp only [Bool.false_eq_true, and_false, if_false]
    exact ite_ex
  | true =>
    have hneg : ¬ Strtol.cur s = 45 := by
      intro hc
      refine hm rfl (hs.subset ?_)
      cases s with
      | nil => simp [Strtol.cur] at hc
      | cons a s => simp [Strtol.cur] at hc; simp [hc]
    simp only [hneg, decide_false, Bool.false_eq_true, false_and, if_false, if_true, false_or]
    generalize Strtol.digitLoop _ _ _ _ _ = q
    obtain ⟨acc, n⟩ := q
    simp only
    split
    · exact ⟨_, rfl⟩
    · rename_i hov
      have := hmax rfl
      have hle : acc.magnitude ≤ max := by
        have := not_or.mp hov
        omega
      have e2 : Strtol.toInteger 64 true acc.magnitude = acc.magnitude := by
        unfold Strtol.toInteger
        rw [if_neg]
        rintro ⟨-, h⟩
        have h9 : (2 : Nat) ^ (64 - 1) = 9223372036854775808 := by decide
        rw [h9] at h
        omega
      rw [if_pos]
      · exact ⟨_, rfl⟩
      · rw [e2, show (2 : Int) ^ (64 - 1) = 9223372036854775808 by decide]
        omega

/-- A conversion returns, takes back no more than it has read, and a success stores one object. -/
def Good (m : Bool) (arg : Option Nat) (r : Option Ret) : Prop :=
  ∃ v s o, r = some (v, s, o) ∧ Safe m s 0 ∧ ((o = [] ∧ v ≠ 1) ∨ ∃ ob, o = store arg ob)

theorem intDone_safe {m s c buf} (h : Safe m s (one c)) (hc : Byte m c) (hb : Buffer m buf) (seen : Bool) (base : Nat)
    (sign : Bool) (hsg : sign = true → m = true) (len : Int × Nat) (arg : Option Nat) :
    Good m arg (intDone s c seen buf base sign len arg) := by
  obtain ⟨s1, e1, h1⟩ := sungetc_safe (k := 0) (by simpa using h) hc
  unfold intDone
  simp only [e1, Option.bind_eq_bind, Option.bind_some]
  cases seen with
  | false => exact ⟨0, s1, [], rfl, h1, .inl ⟨rfl, by decide⟩⟩
  | true =>
    have hr : ∀ x ∈ buf, -128 ≤ x ∧ x ≤ 127 := fun x hx => ⟨(hb x hx).1.1, (hb x hx).2⟩
    cases sign with
    | true =>
      obtain ⟨r, er⟩ : ∃ r, Strtol.strtoll buf base = some r :=
        parseint_some true buf base _ (fun _ => by decide) hr (fun _ h45 => (hb 45 h45).1.2.2 (hsg rfl) rfl)
      simp only [Bool.not_true, Bool.false_eq_true, if_false, if_true, er, Option.bind_some]
      exact ⟨1, s1, _, rfl, h1, .inr ⟨_, rfl⟩⟩
    | false =>
      obtain ⟨r, er⟩ : ∃ r, Strtol.strtoull buf base = some r :=
        parseint_some false buf base _ (fun h => nomatch h) hr (fun h => nomatch h)
      simp only [Bool.not_true, Bool.false_eq_true, if_false, er, Option.bind_some]
      exact ⟨1, s1, _, rfl, h1, .inr ⟨_, rfl⟩⟩

theorem intDigits_safe {m s c buf} (h : Safe m s (one c)) (hc : Byte m c) (hb : Buffer m buf) (w : Int) (seen : Bool) (base : Nat)
    (sign : Bool) (hsg : sign = true → m = true) (len : Int × Nat) (arg : Option Nat) :
    Good m arg (intDigits s c w seen buf base sign len arg) := by
  unfold intDigits
  simp only
  obtain ⟨l, w', c', s', e, h1, h2, h3, -⟩ := run_safe (below (if base = 0 then 10 else base)) (steps s + 1) (w := w) h hc (.inl (by omega))
  simp only [e, Option.bind_eq_bind, Option.bind_some]
  exact intDone_safe h1 h2 (fill_safe hb h3) _ _ _ hsg _ _

theorem intZero_safe {m s c buf} (h : Safe m s (one c)) (hc : Byte m c) (hb : Buffer m buf) (w : Int) (base : Nat)
    (sign : Bool) (hsg : sign = true → m = true) (len : Int × Nat) (arg : Option Nat) :
    Good m arg (intZero s c w buf base sign len arg) := by
  unfold intZero
  split
  · simp only
    split
    · exact intDone_safe h hc (fill_one hb hc) _ _ _ hsg _ _
    · obtain ⟨c1, s1, e1, h1, h2, -⟩ := sgetc_safe (h.mono (k' := 0) (by omega)) (by omega)
      rw [e1]
      simp only
      split
      · split
        · exact intDone_safe (by simpa using h1) h2 (fill_one (fill_one hb hc) h2) _ _ _ hsg _ _
        · obtain ⟨c3, s3, e3, h3, h4, -⟩ := sgetc_safe (h1.mono (k' := 0) (by omega)) (by omega)
          rw [e3]
          exact intDigits_safe (by simpa using h3) h4 (fill_one (fill_one hb hc) h2) _ _ _ _ hsg _ _
      · exact intDigits_safe (by simpa using h1) h2 (fill_one hb hc) _ _ _ _ hsg _ _
  · exact intDigits_safe h hc hb _ _ _ _ hsg _ _

theorem buffer_nil (m : Bool) : Buffer m [] := fun _ h => nomatch h

theorem scanInt_safe {m s} (h : Safe m s 0) (w : Int) (base : Nat) (sign : Bool) (hsg : sign = true → m = true) (len : Int × Nat)
    (arg : Option Nat) : Good m arg (scanInt s w base sign len arg) := by
  obtain ⟨s0, e0, h0⟩ := skipWs_safe h
  obtain ⟨c, s1, e1, h1, h2, -⟩ := sgetc_safe h0 (by omega)
  unfold scanInt
  simp only [e0, Option.bind_eq_bind, Option.bind_some, e1]
  split
  · exact ⟨-1, s1, [], rfl, h1.mono (by omega), .inl ⟨rfl, by decide⟩⟩
  · split
    · split
      · exact intDone_safe (by simpa using h1) h2 (fill_one (buffer_nil m) h2) _ _ _ hsg _ _
      · obtain ⟨c3, s3, e3, h3, h4, -⟩ := sgetc_safe (h1.mono (k' := 0) (by omega)) (by omega)
        rw [e3]
        exact intZero_safe (by simpa using h3) h4 (fill_one (buffer_nil m) h2) _ _ _ hsg _ _
    · exact intZero_safe (by simpa using h1) h2 (buffer_nil m) _ _ _ hsg _ _

theorem scanStr_safe {m s} (h : Safe m s 0) (w : Int) (arg : Option Nat) : Good m arg (scanStr s w arg) := by
  obtain ⟨s0, e0, h0⟩ := skipWs_safe h
  obtain ⟨c, s1, e1, h1, h2, -⟩ := sgetc_safe h0 (by omega)
  obtain ⟨l, w', c', s', e, h3, h4, -, -⟩ := run_safe (fun c => !space c) (steps s1 + 1) (w := w) (by simpa using h1) h2 (.inl (by omega))
  obtain ⟨s5, e5, h5⟩ := sungetc_safe (k := 0) (by simpa using h3) h4
  unfold scanStr
  simp only [e0, Option.bind_eq_bind, Option.bind_some, e1]
  split
  · exact ⟨-1, s1, [], rfl, h1.mono (by omega), .inl ⟨rfl, by decide⟩⟩
  · simp only [e, Option.bind_some, e5]
    split
    · exact ⟨0, s5, [], rfl, h5, .inl ⟨rfl, by decide⟩⟩
    · exact ⟨1, s5, _, rfl, h5, .inr ⟨_, rfl⟩⟩

theorem scanSet_safe {m s} (h : Safe m s 0) (w : Int) (map : Int → Bool) (neg : Bool) (arg : Option Nat) :
    Good m arg (scanSet s w map neg arg) := by
  obtain ⟨c, s1, e1, h1, h2, -⟩ := sgetc_safe h (by omega)
  obtain ⟨l, w', c', s', e, h3, h4, -, -⟩ := run_safe (fun c => map c != neg) (steps s1 + 1) (w := w) (by simpa using h1) h2 (.inl (by omega))
  obtain ⟨s5, e5, h5⟩ := sungetc_safe (k := 0) (by simpa using h3) h4
  unfold scanSet
  simp only [Option.bind_eq_bind, e1]
  split
  · exact ⟨-1, s1, [], rfl, h1.mono (by omega), .inl ⟨rfl, by decide⟩⟩
  · simp only [e, Option.bind_some, e5]
    split
    · exact ⟨0, s5, [], rfl, h5, .inl ⟨rfl, by decide⟩⟩
    · exact ⟨1, s5, _, rfl, h5, .inr ⟨_, rfl⟩⟩

theorem charsLoop_safe {m} (k : Nat) : ∀ {w c s}, Safe m s 0 → (steps s < k ∨ (c = -1 ∧ 0 < k)) →
    ∃ l s', charsLoop k w c s = some (l, s') ∧ Safe m s' 0 := by
  induction k with
  | zero => intro w c s _ h; omega
  | succ k ih =>
    intro w c s h hk
    unfold charsLoop
    split
    · rename_i hcond
      split
      · exact ⟨_, _, rfl, h⟩
      · obtain ⟨c1, s1, e1, h1, h2, h3⟩ := sgetc_safe h (by omega)
        obtain ⟨l, s', e, h4⟩ := ih (w := w - 1) (c := c1) (s := s1) (h1.mono (by omega)) (by
          have := hk.resolve_right (fun h => hcond.2 h.1)
          have h0 : 0 < steps s := by simp [steps]
          rcases h3 with h3 | h3
          · right; exact ⟨h3, by omega⟩
          · left; omega)
        rw [e1]
        simp only
        rw [e]
        exact ⟨_, _, rfl, h4⟩
    · exact ⟨_, _, rfl, h⟩

theorem scanChars_safe {m s} (h : Safe m s 0) (w : Int) (arg : Option Nat) : Good m arg (scanChars s w arg) := by
  obtain ⟨c, s1, e1, h1, h2, -⟩ := sgetc_safe h (by omega)
  obtain ⟨l, s', e, h3⟩ := charsLoop_safe (steps s1 + 1) (w := w) (c := c) (s := s1) (h1.mono (k' := 0) (by omega)) (.inl (by omega))
  unfold scanChars
  simp only [Option.bind_eq_bind, e1]
  split
  · exact ⟨-1, s1, [], rfl, h1.mono (by omega), .inl ⟨rfl, by decide⟩⟩
  · simp only [e, Option.bind_some]
    split
    · exact ⟨0, s', [], rfl, h3, .inl ⟨rfl, by decide⟩⟩
    · exact ⟨1, s', _, rfl, h3, .inr ⟨_, rfl⟩⟩

theorem scanWord_safe {m} (word : List Int) : ∀ {s w buf}, Safe m s 0 → Buffer m buf →
    ∃ n w' b s', scanWord word s w buf = some (n, w', b, s') ∧ Safe m s' 0 ∧ Buffer m b := by
  induction word with
  | nil => intro s w buf h hb; exact ⟨_, _, _, _, rfl, h, hb⟩
  | cons a word ih =>
    intro s w buf h hb
    unfold scanWord
    split
    · obtain ⟨c1, s1, e1, h1, h2, -⟩ := sgetc_safe h (by omega)
      rw [e1]
      simp only
      split
      · exact ⟨_, _, _, _, rfl, h1.mono (by omega), hb⟩
      · split
        · obtain ⟨s5, e5, h5⟩ := sungetc_safe (k := 0) (by simpa using h1) h2
          exact ⟨_, _, _, s5, by rw [e5]; rfl, h5, hb⟩
        · obtain ⟨n, w', b, s', e, h3, h4⟩ := ih (w := w - 1) (h1.mono (k' := 0) (by omega)) (fill_one hb h2)
          exact ⟨_, _, _, _, by rw [e]; rfl, h3, h4⟩
    · exact ⟨_, _, _, _, rfl, h, hb⟩

theorem nanLoop_safe {m} (k : Nat) : ∀ {w s buf}, Safe m s 0 → Buffer m buf → steps s < k →
    ∃ b s', nanLoop k w s buf = some (b, s') ∧ Safe m s' 0 ∧ Buffer m b := by
  induction k with
  | zero => intro w s buf _ _ h; omega
  | succ k ih =>
    intro w s buf h hb hk
    unfold nanLoop
    split
    · obtain ⟨c1, s1, e1, h1, h2, h3⟩ := sgetc_safe h (by omega)
      rw [e1]
      simp only
      split
      · exact ⟨_, _, rfl, h1.mono (by omega), hb⟩
      · rename_i hc
        split
        · exact ⟨_, _, rfl, h1.mono (by omega), fill_one hb h2⟩
        · exact ih (h1.mono (by omega)) (fill_one hb h2) (by have := h3.resolve_left hc; omega)
    · exact ⟨_, _, rfl, h, hb⟩

theorem unget_one {m s k c} (h : Safe m s (k + 1)) (hc : Byte m c) : ∃ s', sungetc s c = some s' ∧ Safe m s' k :=
  sungetc_safe (h.mono (by have := one_le c; omega)) hc

theorem done_good {m s} (h : Safe m s 0) (buf : List Int) (len : Int × Nat) (arg : Option Nat) :
    Good m arg (some (floatDone s buf len arg)) := ⟨1, s, _, rfl, h, .inr ⟨_, rfl⟩⟩

theorem fail_good {m s} (h : Safe m s 0) (arg : Option Nat) : Good m arg (some (0, s, [])) :=
  ⟨0, s, [], rfl, h, .inl ⟨rfl, by decide⟩⟩

theorem floatExp_safe {m s c buf} (h : Safe m s (one c)) (hc : Byte m c) (hb : Buffer m buf) (w : Int) (hex : Bool)
    (len : Int × Nat) (arg : Option Nat) : Good m arg (floatExp s c w hex buf len arg) := by
  unfold floatExp
  by_cases hcond : (c = (if hex then 112 else 101) ∨ c = (if hex then 112 else 101) - 32) ∧ 0 < w
  · rw [if_pos hcond]
    have hc1 : one c = 1 := by
      unfold one
      rw [if_neg]
      rintro rfl
      cases hex <;> simp at hcond
    rw [hc1] at h
    obtain ⟨c1, s1, e1, h1, h2⟩ := next_safe (w - 1) h (by omega)
    simp only [e1]
    have hb1 := fill_one hb hc
    cases hs : decide ((c1 = 43 ∨ c1 = 45) ∧ 0 < w - 1) with
    | false =>
      simp only [Bool.false_eq_true, if_false]
      obtain ⟨l, w', c', s', e, h3, h4, h5, h6⟩ := run_safe (mantissa false) (steps s1 + 1) (w := w - 1) (h1.mono (by omega)) h2 (.inl (by omega))
      simp only [e, Option.bind_eq_bind, Option.bind_some]
      split
      · rename_i hl
        obtain ⟨rfl, rfl⟩ := h6 hl
        obtain ⟨s5, e5, h5'⟩ := sungetc_safe (k := 1) h1 h2
        obtain ⟨s6, e6, h6'⟩ := unget_one (k := 0) h5' (last_safe hb1)
        simp only [e5, Option.bind_some, e6]
        exact done_good h6' _ _ _
      · obtain ⟨s5, e5, h5'⟩ := sungetc_safe (k := 0) (by simpa using h3) h4
        simp only [e5, Option.bind_some]
        exact done_good h5' _ _ _
    | true =>
      have hg := of_decide_eq_true hs
      have hg1 : one c1 = 1 := by unfold one; rw [if_neg (by omega)]
      rw [hg1] at h1
      have hb2 := fill_one hb1 h2
      simp only [if_true]
      obtain ⟨c2, s2, e2, h3, h4⟩ := next_safe (w - 1 - 1) h1 (by omega)
      simp only [e2]
      obtain ⟨l, w', c', s', e, h5, h6, h7, h8⟩ := run_safe (mantissa false) (steps s2 + 1) (w := w - 1 - 1) (h3.mono (by omega)) h4 (.inl (by omega))
      simp only [e, Option.bind_eq_bind, Option.bind_some]
      split
      · rename_i hl
        obtain ⟨rfl, rfl⟩ := h8 hl
        obtain ⟨s5, e5, h5'⟩ := sungetc_safe (k := 2) h3 h4
        obtain ⟨s6, e6, h6'⟩ := unget_one (k := 1) h5' (last_safe hb2)
        obtain ⟨s7, e7, h7'⟩ := unget_one (k := 0) h6' (c := (fill (fill buf [c]) [c1]).dropLast.getLast?.getD 0)
          (last_safe (fun x hx => hb2 x (List.dropLast_subset _ hx)))
        simp only [e5, Option.bind_some, e6, Option.map_some, e7]
        exact done_good h7' _ _ _
      · obtain ⟨s5, e5, h5'⟩ := sungetc_safe (k := 0) (by simpa using h5) h6
        simp only [e5, Option.bind_some]
        exact done_good h5' _ _ _
  · rw [if_neg hcond]
    obtain ⟨s5, e5, h5'⟩ := sungetc_safe (k := 0) (by simpa using h) hc
    simp only [Option.bind_eq_bind, e5, Option.bind_some]
    exact done_good h5' _ _ _

theorem floatPoint_safe {m s c buf} (h : Safe m s (one c)) (hc : Byte m c) (hb : Buffer m buf) (w : Int) (hex seen : Bool)
    (len : Int × Nat) (arg : Option Nat) : Good m arg (floatPoint s c w hex seen buf len arg) := by
  have h46 : Byte m 46 := ⟨by decide, by decide, fun _ => by decide⟩
  unfold floatPoint
  split
  · obtain ⟨c1, s1, e1, h1, h2⟩ := next_safe (w - 1) (h.mono (k' := 0) (by omega)) (by omega)
    simp only [e1]
    obtain ⟨l, w', c', s', e, h3, h4, h5, -⟩ := run_safe (mantissa hex) (steps s1 + 1) (w := w - 1) (by simpa using h1) h2 (.inl (by omega))
    simp only [e, Option.bind_eq_bind, Option.bind_some]
    split
    · exact floatExp_safe h3 h4 (fill_safe (fill_one hb h46) h5) _ _ _ _
    · obtain ⟨s5, e5, h5'⟩ := sungetc_safe (k := 0) (by simpa using h3) h4
      simp only [e5, Option.bind_some]
      exact fail_good h5' _
  · split
    · exact floatExp_safe h hc hb _ _ _ _
    · obtain ⟨s5, e5, h5'⟩ := sungetc_safe (k := 0) (by simpa using h) hc
      simp only [e5, Option.bind_eq_bind, Option.bind_some]
      exact fail_good h5' _

theorem floatDigits_safe {m s c buf} (h : Safe m s (one c)) (hc : Byte m c) (hb : Buffer m buf) (w : Int) (hex seen : Bool)
    (len : Int × Nat) (arg : Option Nat) : Good m arg (floatDigits s c w hex seen buf len arg) := by
  unfold floatDigits
  obtain ⟨l, w', c', s', e, h3, h4, h5, -⟩ := run_safe (mantissa hex) (steps s + 1) (w := w) h hc (.inl (by omega))
  simp only [e, Option.bind_eq_bind, Option.bind_some]
  exact floatPoint_safe h3 h4 (fill_safe hb h5) _ _ _ _ _

theorem floatBody_safe {m s c buf} (h : Safe m s (one c)) (hc : Byte m c) (hb : Buffer m buf) (w : Int)
    (len : Int × Nat) (arg : Option Nat) : Good m arg (floatBody s c w buf len arg) := by
  obtain ⟨s1, e1, h1⟩ := sungetc_safe (k := 0) (by simpa using h) hc
  unfold floatBody
  split
  · obtain ⟨n, w2, b2, s2, e2, h2, hb2⟩ := scanWord_safe [105, 110, 102] (w := w) h1 hb
    simp only [e1, Option.bind_eq_bind, Option.bind_some, e2]
    split
    · exact fail_good h2 _
    · split
      · obtain ⟨n3, w3, b3, s3, e3, h3, hb3⟩ := scanWord_safe [105, 110, 105, 116, 121] (w := w2) h2 hb2
        simp only [e3, Option.bind_some]
        exact done_good h3 _ _ _
      · exact done_good h2 _ _ _
  · split
    · obtain ⟨n, w2, b2, s2, e2, h2, hb2⟩ := scanWord_safe [110, 97, 110] (w := w) h1 hb
      simp only [e1, Option.bind_eq_bind, Option.bind_some, e2]
      split
      · exact fail_good h2 _
      · split
        · obtain ⟨c3, s3, e3, h3, h4, -⟩ := sgetc_safe h2 (by omega)
          simp only [e3]
          split
          · obtain ⟨b5, s5, e5, h5, -⟩ := nanLoop_safe (steps s3 + 1) (w := w2 - 1) (h3.mono (k' := 0) (by omega))
              (fill_one hb2 (c := 40) ⟨by decide, by decide, fun _ => by decide⟩) (by omega)
            simp only [e5, Option.bind_some]
            exact done_good h5 _ _ _
          · obtain ⟨s5, e5, h5⟩ := sungetc_safe (k := 0) (by simpa using h3) h4
            simp only [e5, Option.bind_some]
            exact done_good h5 _ _ _
        · exact done_good h2 _ _ _
    · split
      · obtain ⟨c2, s2, e2, h2, h3⟩ := next_safe (w - 1) (h.mono (k' := 0) (by omega)) (by omega)
        simp only [e2]
        split
        · obtain ⟨c4, s4, e4, h4, h5⟩ := next_safe (w - 1 - 1) (h2.mono (k' := 0) (by omega)) (by omega)
          simp only [e4]
          exact floatDigits_safe (by simpa using h4) h5 (fill_one (fill_one hb hc) h3) _ _ _ _ _
        · exact floatDigits_safe (by simpa using h2) h3 (fill_one hb hc) _ _ _ _ _
      · exact floatDigits_safe h hc hb _ _ _ _ _

theorem scanFloat_safe {m s} (h : Safe m s 0) (w : Int) (len : Int × Nat) (arg : Option Nat) :
    Good m arg (scanFloat s w len arg) := by
  obtain ⟨s0, e0, h0⟩ := skipWs_safe h
  obtain ⟨c, s1, e1, h1, h2, -⟩ := sgetc_safe h0 (by omega)
  unfold scanFloat
  simp only [e0, Option.bind_eq_bind, Option.bind_some, e1]
  split
  · exact ⟨-1, s1, [], rfl, h1.mono (by omega), .inl ⟨rfl, by decide⟩⟩
  · split
    · split
      · exact fail_good (h1.mono (by omega)) _
      · obtain ⟨c3, s3, e3, h3, h4, -⟩ := sgetc_safe (h1.mono (k' := 0) (by omega)) (by omega)
        rw [e3]
        simp only
        split
        · exact fail_good (h3.mono (by omega)) _
        · exact floatBody_safe (by simpa using h3) h4 (fill_one (buffer_nil m) h2) _ _ _
    · exact floatBody_safe (by simpa using h1) h2 (buffer_nil m) _ _ _

theorem setLoop_some (k : Nat) : ∀ (first : Bool) (p : List Int) (map : Int → Bool), p.length < k →
    ∃ map' p', setLoop k first p map = some (map', p') ∧ p' <:+ p := by
  induction k with
  | zero => intro _ _ _ h; omega
  | succ k ih =>
    intro first p map hk
    cases p with
    | nil => exact ⟨_, _, rfl, List.suffix_refl _⟩
    | cons lo p =>
      simp only [List.length_cons] at hk
      unfold setLoop
      split
      · split
        · rename_i hi q
          simp only [List.length_cons] at hk
          split
          · obtain ⟨a, b, e, h⟩ := ih false q _ (by omega)
            exact ⟨a, b, e, h.trans ⟨[lo, 45, hi], rfl⟩⟩
          · obtain ⟨a, b, e, h⟩ := ih false (45 :: hi :: q) _ (by simp only [List.length_cons]; omega)
            exact ⟨a, b, e, h.trans ⟨[lo], rfl⟩⟩
        · obtain ⟨a, b, e, h⟩ := ih false p _ (by omega)
          exact ⟨a, b, e, h.trans ⟨[lo], rfl⟩⟩
      · exact ⟨_, _, rfl, ⟨[lo], rfl⟩⟩

theorem parseSet_some (p : List Int) : ∃ map neg p', parseSet p = some (map, neg, p') ∧ p' <:+ p := by
  unfold parseSet
  by_cases h : p.head? = some 94
  · obtain ⟨a, b, e, h2⟩ := setLoop_some (p.tail.length + 1) true p.tail (fun _ => false) (by omega)
    simp only [if_pos h, e, Option.bind_eq_bind, Option.bind_some]
    exact ⟨_, _, _, rfl, h2.trans (List.tail_suffix p)⟩
  · obtain ⟨a, b, e, h2⟩ := setLoop_some (p.length + 1) true p (fun _ => false) (by omega)
    simp only [if_neg h, e, Option.bind_eq_bind, Option.bind_some]
    exact ⟨_, _, _, rfl, h2⟩

theorem good_map {m arg r} (h : Good m arg r) (p : List Int) : ∃ v s o p', r.map (·, p) = some ((v, s, o), p') ∧ Safe m s 0 ∧
    ((o = [] ∧ v ≠ 1) ∨ ∃ ob, o = store arg ob) ∧ p' <:+ p := by
  obtain ⟨v, s, o, rfl, h1, h2⟩ := h
  exact ⟨v, s, o, p, rfl, h1, h2, List.suffix_refl _⟩

theorem convert_safe {m s} (h : Safe m s 0) (conv w : Int) (hm : conv = 100 ∨ conv = 105 → m = true) (len : Int × Nat)
    (arg : Option Nat) (p : List Int) : ∃ v s' o p', convert s conv w len arg p = some ((v, s', o), p') ∧ Safe m s' 0 ∧
      ((o = [] ∧ v ≠ 1) ∨ ∃ ob, o = store arg ob) ∧ p' <:+ p := by
  unfold convert
  by_cases hc : conv = 100
  · rw [if_pos hc]
    exact good_map (scanInt_safe h _ _ _ (fun _ => hm (.inl hc)) _ _) _
  rw [if_neg hc]; clear hc
  by_cases hc : conv = 105
  · rw [if_pos hc]
    exact good_map (scanInt_safe h _ _ _ (fun _ => hm (.inr hc)) _ _) _
  rw [if_neg hc]; clear hc
  by_cases hc : conv = 111
  · rw [if_pos hc]
    exact good_map (scanInt_safe h _ _ false (fun h => Bool.noConfusion h) _ _) _
  rw [if_neg hc]; clear hc
  by_cases hc : conv = 117
  · rw [if_pos hc]
    exact good_map (scanInt_safe h _ _ false (fun h => Bool.noConfusion h) _ _) _
  rw [if_neg hc]; clear hc
  by_cases hc : conv = 120 ∨ conv = 88
  · rw [if_pos hc]
    exact good_map (scanInt_safe h _ _ false (fun h => Bool.noConfusion h) _ _) _
  rw [if_neg hc]; clear hc
  by_cases hc : conv = 112
  · rw [if_pos hc]
    exact good_map (scanInt_safe h _ _ false (fun h => Bool.noConfusion h) _ _) _
  rw [if_neg hc]; clear hc
  by_cases hc : conv = 102 ∨ conv = 70 ∨ conv = 101 ∨ conv = 69 ∨ conv = 103 ∨ conv = 71 ∨ conv = 97 ∨ conv = 65
  · rw [if_pos hc]
    exact good_map (scanFloat_safe h _ _ _) _
  rw [if_neg hc]; clear hc
  by_cases hc : conv = 115
  · rw [if_pos hc]
    exact good_map (scanStr_safe h _ _) _
  rw [if_neg hc]; clear hc
  by_cases hc : conv = 99
  · rw [if_pos hc]
    exact good_map (scanChars_safe h _ _) _
  rw [if_neg hc]; clear hc
  by_cases hc : conv = 91
  · rw [if_pos hc]
    obtain ⟨map, neg, p', e, hp⟩ := parseSet_some p
    obtain ⟨v, s', o, p2, e2, h1, h2, h3⟩ := good_map (scanSet_safe h w map neg arg) p'
    exact ⟨v, s', o, p2, by rw [e]; exact e2, h1, h2, h3.trans hp⟩
  rw [if_neg hc]; clear hc
  by_cases hc : conv = 110
  · rw [if_pos hc]
    exact ⟨_, _, _, _, rfl, h, .inr ⟨_, rfl⟩, List.suffix_refl _⟩
  rw [if_neg hc]; clear hc
  by_cases hc : conv = 37
  · rw [if_pos hc]
    obtain ⟨c1, s1, e1, h1, h2, -⟩ := sgetc_safe h (by omega)
    rw [e1]
    simp only
    split
    · exact ⟨_, _, _, _, rfl, h1.mono (by omega), .inl ⟨rfl, by decide⟩, List.suffix_refl _⟩
    split
    · obtain ⟨s5, e5, h5⟩ := sungetc_safe (k := 0) (by simpa using h1) h2
      exact ⟨_, s5, _, _, by rw [e5]; rfl, h5, .inl ⟨rfl, by decide⟩, List.suffix_refl _⟩
    · exact ⟨_, _, _, _, rfl, h1.mono (by omega), .inl ⟨rfl, by decide⟩, List.suffix_refl _⟩
  · rw [if_neg hc]
    exact ⟨_, _, _, _, rfl, h, .inl ⟨rfl, by decide⟩, List.suffix_refl _⟩

theorem widthLoop_some (p : List Int) : ∀ (j : Nat) (w : Int), 0 ≤ w → w < 10 ^ j →
    (∀ ds, ds <+: p → (∀ c ∈ ds, 48 ≤ c ∧ c ≤ 57) → ds.length + j ≤ 9) → ∃ w' p', widthLoop p w = some (w', p') ∧ p' <:+ p := by
  induction p with
  | nil => intro j w _ _ _; exact ⟨_, _, rfl, List.suffix_refl _⟩
  | cons c p ih =>
    intro j w h0 hw hd
    unfold widthLoop
    split
    · rename_i hc
      have hj : 1 + j ≤ 9 := by
        have := hd [c] ⟨p, rfl⟩ (by simpa using hc)
        simpa using this
      have hpow : (10 : Int) ^ (j + 1) ≤ 1000000000 := by
        have : (10 : Nat) ^ (j + 1) ≤ 10 ^ 9 := Nat.pow_le_pow_right (by decide) (by omega)
        have h9 : (10 : Nat) ^ 9 = 1000000000 := by decide
        rw [h9] at this
        have h := Int.ofNat_le.mpr this
        rw [Int.natCast_pow] at h
        exact h
      have hs : (10 : Int) ^ (j + 1) = 10 ^ j * 10 := Int.pow_succ ..
      have e1 : chk32 (w * 10) = some (w * 10) := by
        unfold chk32; rw [if_pos (show IsI32 _ from ⟨by omega, by omega⟩)]
      have e2 : chk32 (w * 10 + (c - 48)) = some (w * 10 + (c - 48)) := by
        unfold chk32; rw [if_pos (show IsI32 _ from ⟨by omega, by omega⟩)]
      obtain ⟨w', p', e, h⟩ := ih (j + 1) (w * 10 + (c - 48)) (by omega) (by omega) (by
        intro ds hp hds
        have := hd (c :: ds) (by obtain ⟨t, rfl⟩ := hp; exact ⟨t, rfl⟩) (by
          intro x hx
          simp only [List.mem_cons] at hx
          rcases hx with rfl | hx
          · exact hc
          · exact hds x hx)
        simp only [List.length_cons] at this
        omega)
      simp only [e1, e2, Option.bind_eq_bind, Option.bind_some]
      exact ⟨w', p', e, h.trans (List.suffix_cons _ _)⟩
    · exact ⟨_, _, rfl, List.suffix_refl _⟩

/-- Objects stored through pointers from number `a` on, each once and in order. -/
def Ordered (a n : Nat) (o : List (Nat × Obj)) : Prop := (o.map Prod.fst).Pairwise (· < ·) ∧ ∀ x ∈ o, a ≤ x.1 ∧ x.1 < n

theorem ordered_cons {a n o} (ob : Obj) (h : Ordered (a + 1) n o) (ha : a < n) : Ordered a n ((a, ob) :: o) := by
  refine ⟨List.pairwise_cons.mpr ⟨?_, h.1⟩, ?_⟩
  · intro x hx
    obtain ⟨y, hy, rfl⟩ := List.mem_map.mp hx
    have := (h.2 y hy).1
    omega
  · intro x hx
    rcases List.mem_cons.mp hx with rfl | hx
    · exact ⟨Nat.le_refl _, ha⟩
    · have := h.2 x hx
      omega

theorem ordered_nil (a n : Nat) : Ordered a n [] := ⟨List.Pairwise.nil, fun _ h => nomatch h⟩

theorem ordered_mono {a b n o} (h : Ordered b n o) (hab : a ≤ b) : Ordered a n o :=
  ⟨h.1, fun x hx => ⟨by have := (h.2 x hx).1; omega, (h.2 x hx).2⟩⟩

theorem orEof_le (n : Nat) : -1 ≤ orEof n ∧ orEof n ≤ n := by unfold orEof; split <;> omega

theorem loop_safe (m : Bool) (nargs : Nat) (k : Nat) : ∀ (f : List Int) (st : State), f.length < k →
    (∀ ds, ds <:+: f → (∀ c ∈ ds, 48 ≤ c ∧ c ≤ 57) → ds.length ≤ 9) → (m = false → 100 ∉ f ∧ 105 ∉ f) →
    Safe m st.s 0 → st.arg + f.count 37 ≤ nargs →
    ∃ r o, loop nargs k f st = some r ∧ Safe m r.state.s 0 ∧ r.state.out = st.out ++ o ∧ Ordered st.arg nargs o ∧
      -1 ≤ r.value ∧ r.value ≤ st.assigned + o.length := by
  induction k with
  | zero => intro _ _ h; omega
  | succ k ih =>
    intro f st hk hd hm h harg
    cases f with
    | nil => exact ⟨_, [], rfl, h, by simp, ordered_nil _ _, by simp only; omega, by simp⟩
    | cons f p =>
      simp only [List.length_cons] at hk
      have hcp : p.count 37 ≤ (f :: p).count 37 := (List.sublist_cons_self _ _).count_le _
      have hsub : ∀ {q : List Int}, q <:+ p → (∀ ds, ds <:+: q → (∀ c ∈ ds, 48 ≤ c ∧ c ≤ 57) → ds.length ≤ 9) ∧
          (m = false → 100 ∉ q ∧ 105 ∉ q) ∧ q.length ≤ p.length ∧ q.count 37 ≤ p.count 37 := by
        intro q hq
        have hi : q <:+: f :: p := (hq.trans (List.suffix_cons _ _)).isInfix
        exact ⟨fun ds hds => hd ds (hds.trans hi), fun hz => ⟨fun hx => (hm hz).1 (hi.subset hx), fun hx => (hm hz).2 (hi.subset hx)⟩,
          hq.length_le, hq.sublist.count_le _⟩
      unfold loop
      split
      · obtain ⟨s', e, h1⟩ := skipWs_safe h
        simp only [e, Option.bind_eq_bind, Option.bind_some]
        obtain ⟨hs1, hs2, -⟩ := hsub (List.suffix_refl p)
        exact ih p { st with s := s' } (by omega) hs1 hs2 h1 (by simp only; omega)
      split
      · obtain ⟨c1, s1, e1, h1, h2, -⟩ := sgetc_safe h (by omega)
        simp only [e1]
        split
        · have := orEof_le st.assigned
          exact ⟨_, [], rfl, h1.mono (by omega), by simp, ordered_nil _ _, this.1, by simpa using this.2⟩
        split
        · obtain ⟨s5, e5, h5⟩ := sungetc_safe (k := 0) (by simpa using h1) h2
          simp only [e5, Option.bind_eq_bind, Option.bind_some]
          exact ⟨_, [], rfl, h5, by simp, ordered_nil _ _, by simp only; omega, by simp⟩
        · obtain ⟨hs1, hs2, -⟩ := hsub (List.suffix_refl p)
          exact ih p { st with s := s1 } (by omega) hs1 hs2 (h1.mono (by omega)) (by simp only; omega)
      · rename_i hnp
        generalize hsup : decide (p.head? = some 42) = sup
        simp only
        generalize hq : (if sup = true then p.tail else p) = q
        have hqp : q <:+ p := by
          subst hq
          split
          · exact List.tail_suffix p
          · exact List.suffix_refl p
        obtain ⟨w, p2, e2, hp2⟩ := widthLoop_some q 0 0 (by omega) (by decide) (fun ds hds hx => by
          have := (hsub hqp).1 ds hds.isInfix hx
          omega)
        simp only [e2, Option.bind_eq_bind, Option.bind_some]
        generalize hlen : length p2 = len
        have hf : (f :: p).count 37 = p.count 37 + 1 := by
          rw [Decidable.not_not.mp hnp, List.count_cons_self]
        have hp3 : (p2.drop len.2).tail <:+ p := (List.tail_suffix _).trans ((List.drop_suffix _ _).trans (hp2.trans hqp))
        have hconv : (p2.drop len.2).head?.getD 0 = 100 ∨ (p2.drop len.2).head?.getD 0 = 105 → m = true := by
          intro hx
          cases m with
          | true => rfl
          | false =>
            have hy := (hsub ((List.drop_suffix len.2 p2).trans (hp2.trans hqp))).2.1 rfl
            cases hz : p2.drop len.2 with
            | nil => rw [hz] at hx; simp at hx
            | cons a t =>
              rw [hz] at hx hy
              simp only [List.head?_cons, Option.getD_some] at hx
              rcases hx with rfl | rfl
              · exact absurd (List.mem_cons_self ..) hy.1
              · exact absurd (List.mem_cons_self ..) hy.2
        rw [if_neg (by simp; intro _; omega)]
        obtain ⟨v, s', o, p', e, h1, h2, h3⟩ := convert_safe h ((p2.drop len.2).head?.getD 0) (if w = 0 then 2147483647 else w)
          hconv len (if sup = true then none else some st.arg) (p2.drop len.2).tail
        simp only [e, Option.bind_some]
        obtain ⟨hs1, hs2, hs3, hs4⟩ := hsub (h3.trans hp3)
        have ho : ∀ {o2}, Ordered (if sup = true then st.arg else st.arg + 1) nargs o2 → Ordered st.arg nargs (o ++ o2) := by
          intro o2 h4
          rcases h2 with ⟨rfl, -⟩ | ⟨ob, rfl⟩
          · exact ordered_mono h4 (by split <;> omega)
          · cases sup with
            | true => simpa [store] using h4
            | false => exact ordered_cons ob (by simpa using h4) (by omega)
        have ho0 : Ordered st.arg nargs o := by simpa using ho (ordered_nil _ _)
        split
        · have := orEof_le st.assigned
          exact ⟨_, o, rfl, h1, rfl, ho0, this.1, by simp only; omega⟩
        split
        · exact ⟨_, o, rfl, h1, rfl, ho0, by simp only; omega, by simp only; omega⟩
        split
        · rename_i hv
          obtain ⟨r, o2, e4, h4, h5, h6, h7, h8⟩ := ih p' ⟨s', st.assigned + 1, if sup = true then st.arg else st.arg + 1, st.out ++ o⟩
            (by omega) hs1 hs2 h1 (by simp only; split <;> omega)
          refine ⟨r, o ++ o2, e4, h4, by rw [h5, List.append_assoc], ho h6, h7, ?_⟩
          have : 1 ≤ o.length := by
            rcases h2 with ⟨-, h2⟩ | ⟨ob, rfl⟩
            · exact absurd hv.1 h2
            · rw [hv.2]; simp [store]
          simp only [List.length_append] at h8 ⊢
          omega
        · obtain ⟨r, o2, e4, h4, h5, h6, h7, h8⟩ := ih p' ⟨s', st.assigned, if sup = true then st.arg else st.arg + 1, st.out ++ o⟩
            (by omega) hs1 hs2 h1 (by simp only; split <;> omega)
          refine ⟨r, o ++ o2, e4, h4, by rw [h5, List.append_assoc], ho h6, h7, ?_⟩
          simp only [List.length_append] at h8 ⊢
          omega

end Verif.Scanf
