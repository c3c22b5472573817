import Verif.Scanf.Ints

/-!
# Floating-point numbers in formatted input
-/

namespace Verif.Scanf

open Verif.Strtol (White Blank IsDigit digitVal)

/-- The character `c` has been read, or the width is used up and none is read. -/
def Next (s : Scanner) (c : Int) (r : List Int) (n : Nat) (w : Int) : Prop :=
  Held s c r n ∨ (w = 0 ∧ c = -1 ∧ At s r n 0)

theorem next_at {s r n w} (hb : Bytes r) (hw : 0 ≤ w) (h : At s r n 0) :
    ∃ c' s', next w s = (c', s') ∧ Next s' c' r n w := by
  unfold next
  by_cases h0 : 0 < w
  · rw [if_pos h0]
    obtain ⟨c', s', e, h'⟩ := sgetc_at hb (h.mono (by omega))
    exact ⟨c', s', e, .inl h'⟩
  · rw [if_neg h0]
    exact ⟨-1, s, rfl, .inr ⟨by omega, rfl, h⟩⟩

theorem Next.cons {s c x r n w} (h : Next s c (x :: r) n w) (hw : 0 < w) : c = x ∧ c ≠ -1 ∧ At s r (n + 1) 0 := by
  rcases h with h | ⟨h, -⟩
  · exact held_cons h
  · omega

theorem Next.unget {s c r n w} (h : Next s c r n w) : ∃ s', sungetc s c = some s' ∧ At s' r n 1 := by
  rcases h with h | ⟨-, rfl, h⟩
  · exact sungetc_held h
  · exact ⟨s, by simp [sungetc], h.mono (by omega)⟩

theorem Next.head {s c r n w} (h : Next s c r n w) : c = -1 ∨ r.head? = some c := by
  rcases h with (⟨-, rfl, -⟩ | ⟨r', rfl, -, -⟩) | ⟨-, rfl, -⟩
  · exact .inl rfl
  · exact .inr rfl
  · exact .inl rfl

theorem Next.run (p : Int → Bool) (l : List Int) {w c s r n} (hb : Bytes (l ++ r)) (h : Next s c (l ++ r) n w)
    (hp : ∀ x ∈ l, p x = true) (hw : (l.length : Int) ≤ w)
    (hstop : (l.length : Int) = w ∨ ∀ x ∈ r.head?, p x = false) :
    ∃ c' s', Scanf.run p (steps s + 1) w c s = some (l, w - l.length, c', s') ∧ Next s' c' r (n + l.length) (w - l.length) := by
  rcases h with h | ⟨rfl, rfl, h⟩
  · obtain ⟨c', s', e, h'⟩ := run_eq p l (k := steps s + 1) hb h hp hw hstop
      (by have := held_steps h; simp only [List.length_append] at this; omega)
    exact ⟨c', s', e, .inl h'⟩
  · obtain rfl : l = [] := List.eq_nil_of_length_eq_zero (by omega)
    refine ⟨-1, s, ?_, .inr ⟨rfl, rfl, by simpa using h⟩⟩
    unfold Scanf.run
    rw [if_neg (by omega)]
    rfl

theorem mantissa_iff (hex : Bool) (c : Int) : mantissa hex c = true ↔ IsDigit (if hex then 16 else 10) c := by
  rw [← below_iff]
  unfold mantissa below
  cases hex
  · simp only [Bool.false_eq_true, if_false, decide_eq_true_iff]
    split
    · rw [decide_eq_true_iff]; omega
    · split
      · rw [decide_eq_true_iff]; omega
      · split
        · rw [decide_eq_true_iff]; omega
        · simp; omega
  · simp only [if_true, decide_eq_true_iff]
    split
    · rw [decide_eq_true_iff]; omega
    · split
      · rw [decide_eq_true_iff]; omega
      · split
        · rw [decide_eq_true_iff]; omega
        · simp; omega

theorem mantissa_not {hex : Bool} {c : Int} (h : ¬ IsDigit (if hex then 16 else 10) c) : mantissa hex c = false := by
  cases h' : mantissa hex c
  · rfl
  · exact absurd ((mantissa_iff hex c).mp h') h

theorem figures_run {hex : Bool} {l : List Int} (h : Figures hex l) : ∀ x ∈ l, mantissa hex x = true :=
  fun x hx => (mantissa_iff hex x).mpr (h x hx)

theorem figures_ascii {hex : Bool} {l : List Int} (h : Figures hex l) : ∀ x ∈ l, 48 ≤ x ∧ x ≤ 122 :=
  fun x hx => digit_ascii (h x hx)

theorem dec_iff (c : Int) : IsDigit 10 c ↔ 48 ≤ c ∧ c ≤ 57 := by
  have := mantissa_iff false c
  simp only [Bool.false_eq_true, if_false] at this
  rw [← this]
  simp [mantissa]

theorem hex_iff (c : Int) : IsDigit 16 c ↔ (48 ≤ c ∧ c ≤ 57) ∨ (97 ≤ c ∧ c ≤ 102) ∨ (65 ≤ c ∧ c ≤ 70) := by
  have := mantissa_iff true c
  simp only [if_true] at this
  rw [← this]
  simp [mantissa]

/-- The character may not extend the number: how `ex` and `point` decide what could follow. -/
def Ends (hex : Bool) (point ex : List Int) (x : Int) : Prop :=
  if ex = [] then ¬ IsDigit (if hex then 16 else 10) x ∧ x ≠ (if hex then 112 else 101) ∧ x ≠ (if hex then 80 else 69) ∧
    (point = [] → x ≠ 46)
  else ¬ IsDigit 10 x

theorem sign_cases {s : List Int} {neg} (h : Decimal.Spec.Sign s neg) : s = [] ∨ ∃ c, s = [c] ∧ (c = 43 ∨ c = 45) := by
  rcases h with ⟨rfl, -⟩ | ⟨rfl, -⟩ | ⟨rfl, -⟩
  · exact .inl rfl
  · exact .inr ⟨43, rfl, .inl rfl⟩
  · exact .inr ⟨45, rfl, .inr rfl⟩

theorem power_head {hex : Bool} {ex : List Int} (h : Power hex ex) :
    ∀ x ∈ ex.head?, x = (if hex then 112 else 101) ∨ x = (if hex then 80 else 69) := by
  rcases h with rfl | ⟨c, sign, ds, neg, rfl, hc, -⟩
  · simp
  · intro x hx
    simp at hx
    subst hx
    exact hc

theorem floatExp_eq {s c ex t n w buf} {hex : Bool} {point : List Int} (hb : Bytes (ex ++ t)) (h : Next s c (ex ++ t) n w)
    (hex' : Power hex ex) (hw : (ex.length : Int) ≤ w)
    (hstop : (ex.length : Int) = w ∨ ∀ x ∈ t.head?, Ends hex point ex x) (hl : buf.length + ex.length ≤ 127)
    (len : Int × Nat) (arg : Option Nat) :
    ∃ s', At s' t (n + ex.length) 1 ∧ floatExp s c w hex buf len arg = some (1, s', store arg (.real len (buf ++ ex))) := by
  rcases hex' with rfl | ⟨x, sign, ds, neg, rfl, hx, hs, hne, hd⟩
  · simp only [List.nil_append] at hb h
    obtain ⟨s', e, h'⟩ := h.unget
    refine ⟨s', by simpa using h', ?_⟩
    unfold floatExp
    rw [if_neg]
    · simp only [e, Option.bind_eq_bind, Option.bind_some, floatDone, List.append_nil]
      rfl
    · rintro ⟨h1, h2⟩
      rcases hstop with hz | hz
      · simp at hz; omega
      · rcases h.head with h3 | h3
        · subst h3; revert h1; cases hex <;> simp
        · have := hz c h3
          unfold Ends at this
          rw [if_pos rfl] at this
          cases hex <;> simp only [Bool.false_eq_true, if_false, if_true] at h1 this <;> omega
  · have hdl : 0 < ds.length := List.length_pos_iff.mpr hne
    simp only [List.length_cons, List.length_append, Int.natCast_add, Int.natCast_one] at hw hstop hl
    have hstop' : ((ds.length : Int) = w - 1 - sign.length ∨ ∀ y ∈ t.head?, mantissa false y = false) :=
      hstop.imp (fun h => by omega) fun h y hy => mantissa_not (by
        have := h y hy
        unfold Ends at this
        rw [if_neg (by simp)] at this
        exact this)
    obtain ⟨rfl, hc1, h1⟩ := Next.cons (by simpa using h) (by omega)
    have hb1 : Bytes (sign ++ (ds ++ t)) := by
      rw [← List.append_assoc]; exact hb.tail
    obtain ⟨c2, s2, e2, h2⟩ := next_at hb1 (w := w - 1) (by omega) h1
    have hcond : (c = (if hex then 112 else 101) ∨ c = (if hex then 112 else 101) - 32) ∧ 0 < w := by
      refine ⟨?_, by omega⟩
      cases hex <;> simpa using hx
    have hxa : c < 128 := by cases hex <;> simp at hx <;> omega
    have hf1 : fill buf [c] = buf ++ [c] := fill_eq _ _ (by simpa using hxa) (by simp; omega)
    have hdne : ds.head? ≠ none := by cases ds <;> simp at hne ⊢
    rcases sign_cases hs with rfl | ⟨g, rfl, hg⟩
    · simp only [List.nil_append, List.length_nil] at *
      have hc2 : ¬ (c2 = 43 ∨ c2 = 45) := by
        cases ds with
        | nil => exact absurd rfl hne
        | cons d ds =>
          obtain ⟨rfl, -⟩ := Next.cons h2 (by omega)
          have := figures_ascii hd c2 (by simp)
          omega
      obtain ⟨c3, s3, e3, h3⟩ := Next.run (mantissa false) ds hb1 h2 (figures_run hd) (by omega) (by simpa using hstop')
      obtain ⟨s4, e4, h4⟩ := h3.unget
      refine ⟨s4, by simpa [Nat.add_assoc, Nat.add_comm 1] using h4, ?_⟩
      unfold floatExp
      rw [if_pos hcond]
      simp only [e2, hc2, false_and, decide_false, Bool.false_eq_true, if_false, e3, Option.bind_eq_bind, Option.bind_some,
        if_neg hne, e4, floatDone, hf1]
      rw [fill_eq _ _ (fun y hy => by have := figures_ascii hd y hy; omega) (by simp; omega)]
      simp
    · simp only [List.cons_append, List.nil_append, List.length_cons, List.length_nil] at *
      obtain ⟨rfl, -, h3⟩ := Next.cons h2 (by omega)
      obtain ⟨c4, s4, e4, h4⟩ := next_at hb1.tail (w := w - 1 - 1) (by omega) h3
      obtain ⟨c5, s5, e5, h5⟩ := Next.run (mantissa false) ds hb1.tail h4 (figures_run hd) (by omega) (by simpa using hstop')
      obtain ⟨s6, e6, h6⟩ := h5.unget
      refine ⟨s6, h6.cast (by omega), ?_⟩
      have hgt : (decide ((c2 = 43 ∨ c2 = 45) ∧ 0 < w - 1)) = true := decide_eq_true ⟨hg, by omega⟩
      unfold floatExp
      rw [if_pos hcond]
      simp only [e2, hgt, if_true, e4, e5, Option.bind_eq_bind, Option.bind_some, if_neg hne, e6, floatDone, hf1]
      rw [fill_eq (buf ++ [c]) [c2] (by intro y hy; simp at hy; omega) (by simp; omega),
        fill_eq _ _ (fun y hy => by have := figures_ascii hd y hy; omega) (by simp; omega)]
      simp

theorem ends_mantissa {hex : Bool} {point ex t : List Int} (hex' : Power hex ex)
    (h : ∀ x ∈ t.head?, Ends hex point ex x) : ∀ x ∈ (ex ++ t).head?, mantissa hex x = false := by
  intro x hx
  apply mantissa_not
  cases ex with
  | nil =>
    have := h x hx
    unfold Ends at this
    rw [if_pos rfl] at this
    exact this.1
  | cons a ex =>
    simp at hx
    subst hx
    have := power_head hex' a (by simp)
    cases hex
    · simp only [Bool.false_eq_true, if_false] at this ⊢
      rw [dec_iff]; omega
    · simp only [if_true] at this ⊢
      rw [hex_iff]; omega

theorem mantissa_power {hex : Bool} {ex t : List Int} (hex' : Power hex ex) (hne : ex ≠ []) :
    ∀ x ∈ (ex ++ t).head?, mantissa hex x = false := by
  intro x hx
  apply mantissa_not
  cases ex with
  | nil => exact absurd rfl hne
  | cons a ex =>
    simp at hx
    subst hx
    have := power_head hex' a (by simp)
    cases hex
    · simp only [Bool.false_eq_true, if_false] at this ⊢
      rw [dec_iff]; omega
    · simp only [if_true] at this ⊢
      rw [hex_iff]; omega

theorem floatPoint_eq {s c point fp ex t n w buf} {hex seen : Bool} (hb : Bytes (point ++ (fp ++ (ex ++ t))))
    (h : Next s c (point ++ (fp ++ (ex ++ t))) n w) (hp : point = [] ∧ fp = [] ∨ point = [46]) (hf : Figures hex fp)
    (hex' : Power hex ex) (hseen : seen = true ∨ fp ≠ [])
    (hw : ((point ++ (fp ++ ex)).length : Int) ≤ w)
    (hstop : ((point ++ (fp ++ ex)).length : Int) = w ∨ ∀ x ∈ t.head?, Ends hex point ex x)
    (hl : buf.length + (point ++ (fp ++ ex)).length ≤ 127) (len : Int × Nat) (arg : Option Nat) :
    ∃ s', At s' t (n + (point ++ (fp ++ ex)).length) 1 ∧
      floatPoint s c w hex seen buf len arg = some (1, s', store arg (.real len (buf ++ (point ++ (fp ++ ex))))) := by
  rcases hp with ⟨rfl, rfl⟩ | rfl
  · simp only [List.nil_append] at *
    have hc : ¬ (c = 46 ∧ 0 < w) := by
      rintro ⟨rfl, h0⟩
      rcases h.head with h1 | h1
      · omega
      · cases ex with
        | nil =>
          rcases hstop with hz | hz
          · simp at hz; omega
          · have := hz 46 h1
            unfold Ends at this
            rw [if_pos rfl] at this
            exact this.2.2.2 rfl rfl
        | cons a ex =>
          simp at h1
          subst h1
          have := power_head hex' 46 (by simp)
          cases hex <;> simp at this
    obtain ⟨s', h', e'⟩ := floatExp_eq (buf := buf) hb h hex' hw hstop hl len arg
    refine ⟨s', h', ?_⟩
    unfold floatPoint
    rw [if_neg hc, if_pos (hseen.resolve_right (by simp))]
    exact e'
  · simp only [List.cons_append, List.nil_append, List.length_cons, List.length_append, Int.natCast_add,
      Int.natCast_one] at *
    obtain ⟨rfl, -, h1⟩ := Next.cons h (by omega)
    obtain ⟨c2, s2, e2, h2⟩ := next_at hb.tail (w := w - 1) (by omega) h1
    obtain ⟨c3, s3, e3, h3⟩ := Next.run (mantissa hex) fp hb.tail h2 (figures_run hf) (by omega) (by
      by_cases hz : ex = []
      · subst hz
        rcases hstop with hz | hz
        · simp at hz; left; omega
        · exact .inr (ends_mantissa hex' hz)
      · exact .inr (mantissa_power hex' hz))
    obtain ⟨s4, h4, e4⟩ := floatExp_eq (buf := buf ++ [46] ++ fp) hb.tail.right h3 hex' (by omega)
      (hstop.imp (fun h => by omega) id) (by simp; omega) len arg
    refine ⟨s4, h4.cast (by omega), ?_⟩
    unfold floatPoint
    rw [if_pos ⟨rfl, by omega⟩]
    simp only [e2, e3, Option.bind_eq_bind, Option.bind_some]
    rw [if_pos hseen, fill_eq buf [46] (by simp) (by simp; omega),
      fill_eq _ _ (fun y hy => by have := figures_ascii hf y hy; omega) (by simp; omega), e4]
    simp

theorem floatDigits_eq {s c ip point fp ex t n w buf} {hex seen : Bool} (hb : Bytes (ip ++ (point ++ (fp ++ (ex ++ t)))))
    (h : Next s c (ip ++ (point ++ (fp ++ (ex ++ t)))) n w) (hi : Figures hex ip)
    (hp : point = [] ∧ fp = [] ∨ point = [46]) (hf : Figures hex fp)
    (hex' : Power hex ex) (hseen : seen = true ∨ ip ++ fp ≠ [])
    (hw : ((ip ++ (point ++ (fp ++ ex))).length : Int) ≤ w)
    (hstop : ((ip ++ (point ++ (fp ++ ex))).length : Int) = w ∨ ∀ x ∈ t.head?, Ends hex point ex x)
    (hl : buf.length + (ip ++ (point ++ (fp ++ ex))).length ≤ 127) (len : Int × Nat) (arg : Option Nat) :
    ∃ s', At s' t (n + (ip ++ (point ++ (fp ++ ex))).length) 1 ∧
      floatDigits s c w hex seen buf len arg = some (1, s', store arg (.real len (buf ++ (ip ++ (point ++ (fp ++ ex)))))) := by
  rw [List.length_append] at hw hstop hl
  obtain ⟨c3, s3, e3, h3⟩ := Next.run (mantissa hex) ip hb h (figures_run hi) (by omega) (by
    rcases hp with ⟨rfl, rfl⟩ | rfl
    · simp only [List.nil_append] at hstop ⊢
      by_cases hz : ex = []
      · subst hz
        rcases hstop with hz | hz
        · simp at hz; left; omega
        · exact .inr (ends_mantissa hex' hz)
      · exact .inr (mantissa_power hex' hz)
    · right
      intro x hx
      simp at hx
      subst hx
      apply mantissa_not
      cases hex
      · simp only [Bool.false_eq_true, if_false]; rw [dec_iff]; omega
      · simp only [if_true]; rw [hex_iff]; omega)
  obtain ⟨s4, h4, e4⟩ := floatPoint_eq (buf := buf ++ ip) (seen := seen || !ip.isEmpty) hb.right h3 hp hf hex' (by
      rcases hseen with rfl | hseen
      · exact .inl rfl
      · by_cases hz : ip = []
        · subst hz; exact .inr (by simpa using hseen)
        · left; cases ip <;> simp at hz ⊢) (by omega) (hstop.imp (fun h => by omega) id) (by rw [List.length_append]; omega)
      len arg
  refine ⟨s4, h4.cast (by rw [List.length_append (as := ip)]; omega), ?_⟩
  unfold floatDigits
  simp only [e3, Option.bind_eq_bind, Option.bind_some]
  rw [fill_eq _ _ (fun y hy => by have := figures_ascii hi y hy; omega) (by omega), e4, List.append_assoc]

theorem lower_digit {c : Int} (h : c = 46 ∨ (48 ≤ c ∧ c ≤ 57)) : lower c ≠ 105 ∧ lower c ≠ 110 := by
  unfold lower
  split <;> omega

theorem floatBody_num {s c pre ip point fp ex t n w buf} {hex : Bool} (hb : Bytes (pre ++ (ip ++ (point ++ (fp ++ (ex ++ t))))))
    (h : Held s c (pre ++ (ip ++ (point ++ (fp ++ (ex ++ t))))) n) (hpre : Prefix hex pre) (hi : Figures hex ip)
    (hp : point = [] ∧ fp = [] ∨ point = [46]) (hf : Figures hex fp) (hne : ip ++ fp ≠ []) (hex' : Power hex ex)
    (hw : ((pre ++ (ip ++ (point ++ (fp ++ ex)))).length : Int) ≤ w)
    (hstop : ((pre ++ (ip ++ (point ++ (fp ++ ex)))).length : Int) = w ∨ ∀ x ∈ t.head?, Ends hex point ex x ∧
      (hex = false → ip = [48] → point = [] → ex = [] → x ≠ 120 ∧ x ≠ 88))
    (hl : buf.length + (pre ++ (ip ++ (point ++ (fp ++ ex)))).length ≤ 127) (len : Int × Nat) (arg : Option Nat) :
    ∃ s', At s' t (n + (pre ++ (ip ++ (point ++ (fp ++ ex)))).length) 1 ∧
      floatBody s c w buf len arg = some (1, s', store arg (.real len (buf ++ (pre ++ (ip ++ (point ++ (fp ++ ex))))))) := by
  have hpos : 0 < (ip ++ (point ++ (fp ++ ex))).length := by
    have : 0 < (ip ++ fp).length := List.length_pos_iff.mpr hne
    simp only [List.length_append] at this ⊢
    omega
  cases hex with
  | true =>
    obtain ⟨x, hx, rfl⟩ : ∃ x : Int, (x = 120 ∨ x = 88) ∧ pre = [48, x] := by
      unfold Prefix at hpre
      rw [if_pos rfl] at hpre
      rcases hpre with rfl | rfl
      · exact ⟨120, .inl rfl, rfl⟩
      · exact ⟨88, .inr rfl, rfl⟩
    simp only [List.cons_append, List.nil_append, List.length_cons, Int.natCast_add, Int.natCast_one] at hb h hw hstop hl ⊢
    obtain ⟨rfl, -, h1⟩ := held_cons h
    obtain ⟨c2, s2, e2, h2⟩ := next_at hb.tail (w := w - 1) (by omega) h1
    obtain ⟨rfl, -, h3⟩ := Next.cons h2 (by omega)
    obtain ⟨c4, s4, e4, h4⟩ := next_at hb.tail.tail (w := w - 1 - 1) (by omega) h3
    obtain ⟨s5, h5, e5⟩ := floatDigits_eq (buf := buf ++ [48] ++ [c2]) (seen := false) hb.tail.tail h4 hi hp hf hex' (.inr hne)
      (by omega) (hstop.imp (fun h => by omega) fun h y hy => (h y hy).1) (by simp only [List.length_append, List.length_cons, List.length_nil] at hl ⊢; omega) len arg
    refine ⟨s5, h5.cast (by omega), ?_⟩
    unfold floatBody
    rw [if_neg (by decide), if_neg (by decide), if_pos ⟨rfl, by omega⟩, fill_eq buf [48] (by simp) (by simp; omega)]
    simp only [e2]
    rw [if_pos hx, fill_eq (buf ++ [48]) [c2] (by intro y hy; simp at hy; omega) (by simp; omega)]
    simp only [e4]
    rw [e5]
    simp
  | false =>
    obtain rfl : pre = [] := by
      unfold Prefix at hpre
      simpa using hpre
    simp only [List.nil_append] at hb h hw hstop hl ⊢
    have hc : c = 46 ∨ (48 ≤ c ∧ c ≤ 57) := by
      cases ip with
      | cons a ip =>
        obtain ⟨rfl, -⟩ := held_cons h
        exact .inr ((dec_iff c).mp (hi c (by simp)))
      | nil =>
        rcases hp with ⟨rfl, rfl⟩ | rfl
        · exact absurd rfl hne
        · exact .inl (held_cons h).1
    by_cases h0 : c = 48
    · subst h0
      obtain ⟨ip', rfl⟩ : ∃ ip', ip = 48 :: ip' := by
        cases ip with
        | cons a ip => exact ⟨ip, by rw [(held_cons h).1]⟩
        | nil =>
          rcases hp with ⟨rfl, rfl⟩ | rfl
          · exact absurd rfl hne
          · exact absurd (held_cons h).1 (by decide)
      simp only [List.cons_append, List.length_cons, Int.natCast_add, Int.natCast_one] at hb h hw hstop hl ⊢
      obtain ⟨-, -, h1⟩ := held_cons h
      obtain ⟨c2, s2, e2, h2⟩ := next_at hb.tail (w := w - 1) (by omega) h1
      have hc2 : ¬ (c2 = 120 ∨ c2 = 88) := by
        intro hx
        rcases h2.head with h3 | h3
        · omega
        · cases ip' with
          | cons a ip =>
            simp at h3
            have := (dec_iff a).mp (hi a (by simp))
            omega
          | nil =>
            rcases hp with ⟨rfl, rfl⟩ | rfl
            · cases ex with
              | cons a ex =>
                simp at h3
                have := power_head hex' a (by simp)
                simp at this
                omega
              | nil =>
                rcases hstop with hz | hz
                · simp at hz
                  rcases h2 with h2 | ⟨-, h2, -⟩
                  · have e3 : next (w - 1) s = (-1, s) := by unfold next; rw [if_neg (by omega)]
                    rw [e3] at e2
                    have := (Prod.mk.inj e2).1
                    omega
                  · omega
                · have := (hz c2 h3).2 trivial rfl rfl rfl
                  omega
            · simp at h3
              omega
      obtain ⟨s5, h5, e5⟩ := floatDigits_eq (buf := buf ++ [48]) (seen := true) hb.tail h2 (fun y hy => hi y (by simp [hy])) hp hf
        hex' (.inl rfl)
        (by omega) (hstop.imp (fun h => by omega) fun h y hy => (h y hy).1)
        (by rw [List.length_append, List.length_singleton]; omega) len arg
      refine ⟨s5, h5.cast (by omega), ?_⟩
      unfold floatBody
      rw [if_neg (by decide), if_neg (by decide), if_pos ⟨rfl, by omega⟩, fill_eq buf [48] (by simp) (by simp; omega)]
      simp only [e2]
      rw [if_neg hc2, e5]
      simp
    · obtain ⟨s5, h5, e5⟩ := floatDigits_eq (buf := buf) (seen := false) hb (.inl h) hi hp hf hex' (.inr hne)
        hw (hstop.imp id fun h y hy => (h y hy).1) hl len arg
      refine ⟨s5, h5, ?_⟩
      unfold floatBody
      rw [if_neg (lower_digit hc).1, if_neg (lower_digit hc).2, if_neg (fun h => h0 h.1)]
      exact e5

theorem scanWord_eq (l : List Int) : ∀ {word s r n w buf}, Bytes (l ++ r) → At s (l ++ r) n 1 → l.map lower = word →
    (∀ c ∈ l, c < 128) → (l.length : Int) ≤ w → buf.length + l.length ≤ 127 →
    ∃ s', scanWord word s w buf = some (l.length, w - l.length, buf ++ l, s') ∧ At s' r (n + l.length) 1 := by
  induction l with
  | nil =>
    intro word s r n w buf hb h hm _ hw hl
    subst hm
    exact ⟨s, by simp [scanWord], by simpa using h⟩
  | cons x l ih =>
    intro word s r n w buf hb h hm ha hw hl
    subst hm
    simp only [List.length_cons, Int.natCast_add, Int.natCast_one] at hw hl ⊢
    obtain ⟨c, s1, e1, h1⟩ := sgetc_at hb h
    obtain ⟨rfl, hc, h2⟩ := held_cons h1
    obtain ⟨s3, e3, h3⟩ := ih (w := w - 1) (buf := buf ++ [c]) hb.tail (h2.mono (by omega)) rfl (fun y hy => ha y (by simp [hy]))
      (by omega) (by simp; omega)
    refine ⟨s3, ?_, h3.cast (by omega)⟩
    rw [List.map_cons]
    unfold scanWord
    rw [if_pos (by omega), e1]
    simp only
    rw [if_neg hc, if_neg (by simp), fill_eq buf [c] (by simpa using ha c (by simp)) (by simp; omega), e3]
    simp
    omega

theorem scanWord_none {a word s r n w buf} (hb : Bytes r) (h : At s r n 1) (ha : ∀ x ∈ r.head?, lower x ≠ a) :
    ∃ s', scanWord (a :: word) s w buf = some (0, w, buf, s') ∧ At s' r n 1 := by
  unfold scanWord
  by_cases hw : 0 < w
  · rw [if_pos hw]
    obtain ⟨c, s1, e1, h1⟩ := sgetc_at hb h
    rw [e1]
    simp only
    rcases h1 with ⟨rfl, rfl, h1⟩ | ⟨r', rfl, hc, h1⟩
    · rw [if_pos rfl]
      exact ⟨s1, rfl, h1.mono (by omega)⟩
    · rw [if_neg hc, if_pos (ha c (by simp))]
      obtain ⟨s2, e2, h2⟩ := sungetc_held (r := c :: r') (.inr ⟨r', rfl, hc, h1⟩)
      exact ⟨s2, by rw [e2]; rfl, h2⟩
  · rw [if_neg hw]
    exact ⟨s, rfl, h⟩

theorem nanLoop_eq (cs : List Int) : ∀ {k s r n w buf}, Bytes (cs ++ 41 :: r) → At s (cs ++ 41 :: r) n 1 → (∀ c ∈ cs, c ≠ 41 ∧ c < 128) →
    (cs.length : Int) + 1 ≤ w → buf.length + cs.length + 1 ≤ 127 → cs.length < k →
    ∃ s', nanLoop k w s buf = some (buf ++ (cs ++ [41]), s') ∧ At s' r (n + cs.length + 1) 1 := by
  induction cs with
  | nil =>
    intro k s r n w buf hb h _ hw hl hk
    obtain ⟨k, rfl⟩ : ∃ j, k = j + 1 := ⟨k - 1, by simp at hk; omega⟩
    simp only [List.length_nil] at hw hl
    obtain ⟨c, s1, e1, h1⟩ := sgetc_at hb h
    obtain ⟨rfl, hc, h2⟩ := held_cons h1
    refine ⟨s1, ?_, h2.mono (by omega)⟩
    unfold nanLoop
    rw [if_pos (by omega), e1]
    simp only
    rw [if_neg hc, if_pos trivial, fill_eq buf [41] (by simp) (by simp; omega)]
    rfl
  | cons x cs ih =>
    intro k s r n w buf hb h ha hw hl hk
    obtain ⟨k, rfl⟩ : ∃ j, k = j + 1 := ⟨k - 1, by simp at hk; omega⟩
    simp only [List.length_cons, Int.natCast_add, Int.natCast_one] at hw hl hk ⊢
    obtain ⟨c, s1, e1, h1⟩ := sgetc_at hb h
    obtain ⟨rfl, hc, h2⟩ := held_cons h1
    obtain ⟨s3, e3, h3⟩ := ih (k := k) (w := w - 1) (buf := buf ++ [c]) hb.tail (h2.mono (by omega)) (fun y hy => ha y (by simp [hy]))
      (by omega) (by simp; omega) (by omega)
    refine ⟨s3, ?_, h3.cast (by omega)⟩
    unfold nanLoop
    rw [if_pos (by omega), e1]
    simp only
    rw [if_neg hc, if_neg (ha c (by simp)).1, fill_eq buf [c] (by simpa using (ha c (by simp)).2) (by simp; omega), e3]
    simp

theorem lower_ascii {c : Int} (h : lower c < 128) : c < 128 := by
  unfold lower at h
  split at h <;> omega

theorem map_ascii {l word : List Int} (h : l.map lower = word) (hw : ∀ c ∈ word, c < 128) : ∀ c ∈ l, c < 128 := by
  intro c hc
  subst h
  exact lower_ascii (hw _ (List.mem_map_of_mem hc))

theorem floatBody_inf {s c v t n w buf} (hb : Bytes (v ++ t)) (h : Held s c (v ++ t) n)
    (hv : v.map lower = [105, 110, 102] ∨ v.map lower = [105, 110, 102, 105, 110, 105, 116, 121])
    (hw : (v.length : Int) ≤ w)
    (hstop : (v.length : Int) = w ∨ v.length = 8 ∨ ∀ x ∈ t.head?, lower x ≠ 105)
    (hl : buf.length + v.length ≤ 127) (len : Int × Nat) (arg : Option Nat) :
    ∃ s', At s' t (n + v.length) 1 ∧ floatBody s c w buf len arg = some (1, s', store arg (.real len (buf ++ v))) := by
  obtain ⟨s1, e1, h1⟩ := sungetc_held h
  rcases hv with hv | hv
  · have hlen : v.length = 3 := by simpa using congrArg List.length hv
    obtain ⟨s2, e2, h2⟩ := scanWord_eq v (buf := buf) hb h1 hv (map_ascii hv (by simp)) hw hl
    have hc : lower c = 105 := by
      cases v with
      | nil => simp at hv
      | cons a v =>
        obtain ⟨rfl, -⟩ := held_cons h
        simp at hv
        exact hv.1
    rw [hlen] at e2 h2
    unfold floatBody
    rw [if_pos hc]
    simp only [e1, Option.bind_eq_bind, Option.bind_some, e2, ne_eq, not_true_eq_false, if_false]
    by_cases hz : 0 < w - (3 : Nat)
    · rw [if_pos hz]
      obtain ⟨s3, e3, h3⟩ := scanWord_none (a := 105) (word := [110, 105, 116, 121]) (w := w - (3 : Nat)) (buf := buf ++ v) hb.right h2
        (by rcases hstop with h | h | h
            · omega
            · omega
            · exact h)
      refine ⟨s3, h3.cast (by omega), ?_⟩
      simp only [e3, Option.bind_some, floatDone]
      rfl
    · rw [if_neg hz]
      exact ⟨s2, h2.cast (by omega), rfl⟩
  · obtain ⟨v1, v2, rfl, hv1, hv2⟩ : ∃ v1 v2, v = v1 ++ v2 ∧ v1.map lower = [105, 110, 102] ∧ v2.map lower = [105, 110, 105, 116, 121] := by
      refine ⟨v.take 3, v.drop 3, (List.take_append_drop 3 v).symm, ?_, ?_⟩
      · rw [List.map_take, hv]; rfl
      · rw [List.map_drop, hv]; rfl
    have hl1 : v1.length = 3 := by simpa using congrArg List.length hv1
    have hl2 : v2.length = 5 := by simpa using congrArg List.length hv2
    simp only [List.length_append, hl1, hl2] at hw hl ⊢
    rw [List.append_assoc] at hb h1
    obtain ⟨s2, e2, h2⟩ := scanWord_eq v1 (w := w) (buf := buf) hb h1 hv1 (map_ascii hv1 (by simp)) (by omega) (by omega)
    obtain ⟨s3, e3, h3⟩ := scanWord_eq v2 (w := w - v1.length) (buf := buf ++ v1) hb.right h2 hv2 (map_ascii hv2 (by simp)) (by omega) (by simp; omega)
    have hc : lower c = 105 := by
      cases v1 with
      | nil => simp at hv1
      | cons a v =>
        obtain ⟨rfl, -⟩ := held_cons (by simpa using h)
        simp at hv1
        exact hv1.1
    refine ⟨s3, h3.cast (by omega), ?_⟩
    rw [hl1] at e2 e3
    unfold floatBody
    rw [if_pos hc]
    simp only [e1, Option.bind_eq_bind, Option.bind_some, e2, ne_eq, not_true_eq_false, if_false]
    rw [if_pos (by omega)]
    simp only [e3, Option.bind_some, floatDone, List.append_assoc]
    rfl

theorem floatBody_nan {s c v tail t n w buf} (hb : Bytes (v ++ (tail ++ t))) (h : Held s c (v ++ (tail ++ t)) n)
    (hv : v.map lower = [110, 97, 110]) (htail : tail = [] ∨ ∃ cs, tail = 40 :: (cs ++ [41]) ∧ ∀ c ∈ cs, Decimal.Spec.TagChar c)
    (hw : (v.length : Int) + tail.length ≤ w)
    (hstop : (v.length : Int) + tail.length = w ∨ tail ≠ [] ∨ ∀ x ∈ t.head?, x ≠ 40)
    (hl : buf.length + v.length + tail.length ≤ 127) (len : Int × Nat) (arg : Option Nat) :
    ∃ s', At s' t (n + v.length + tail.length) 1 ∧
      floatBody s c w buf len arg = some (1, s', store arg (.real len (buf ++ (v ++ tail)))) := by
  obtain ⟨s1, e1, h1⟩ := sungetc_held h
  have hlen : v.length = 3 := by simpa using congrArg List.length hv
  obtain ⟨s2, e2, h2⟩ := scanWord_eq v (w := w) (buf := buf) hb h1 hv (map_ascii hv (by simp)) (by omega) (by omega)
  have hc : lower c = 110 := by
    cases v with
    | nil => simp at hv
    | cons a v =>
      obtain ⟨rfl, -⟩ := held_cons h
      simp at hv
      exact hv.1
  rw [hlen] at e2 h2
  unfold floatBody
  rw [if_neg (by omega), if_pos hc]
  simp only [e1, Option.bind_eq_bind, Option.bind_some, e2, ne_eq, not_true_eq_false, if_false]
  rcases htail with rfl | ⟨cs, rfl, hcs⟩
  · simp only [List.nil_append, List.length_nil, List.append_nil] at *
    by_cases hz : 0 < w - (3 : Nat)
    · rw [if_pos hz]
      obtain ⟨p, s3, e3, h3⟩ := sgetc_at hb.right h2
      obtain ⟨s4, e4, h4⟩ := sungetc_held h3
      have hp : p ≠ 40 := by
        rcases h3 with ⟨-, rfl, -⟩ | ⟨r', rfl, -, -⟩
        · decide
        · rcases hstop with h | h | h
          · omega
          · exact absurd rfl h
          · exact h p (by simp)
      refine ⟨s4, h4.cast (by omega), ?_⟩
      simp only [e3, if_neg hp, e4, Option.bind_some, floatDone]
      rfl
    · rw [if_neg hz]
      exact ⟨s2, h2.cast (by omega), rfl⟩
  · simp only [List.cons_append, List.length_cons, List.length_append, List.length_nil, Int.natCast_add,
      Int.natCast_one, List.append_assoc, List.nil_append] at *
    rw [if_pos (by omega)]
    obtain ⟨p, s3, e3, h3⟩ := sgetc_at hb.right h2
    obtain ⟨rfl, -, h4⟩ := held_cons h3
    obtain ⟨s5, e5, h5⟩ := nanLoop_eq cs (k := steps s3 + 1) (w := w - (3 : Nat) - 1) (buf := buf ++ v ++ [40]) hb.right.tail (h4.mono (by omega))
      (fun x hx => by have := hcs x hx; unfold Decimal.Spec.TagChar at this; omega) (by omega) (by simp; omega)
      (by have := at_steps h4; simp at this; omega)
    refine ⟨s5, h5.cast (by omega), ?_⟩
    simp only [e3, if_true]
    rw [fill_eq (buf ++ v) [40] (by simp) (by simp; omega), e5]
    simp only [Option.bind_some, floatDone]
    simp

theorem ends_of {sign pre ip point fp ex : List Int} {neg hex : Bool} {x : Int} (hs : Decimal.Spec.Sign sign neg) (hpre : Prefix hex pre)
    (hi : Figures hex ip) (hp : point = [] ∧ fp = [] ∨ point = [46]) (hf : Figures hex fp) (hne : ip ++ fp ≠ []) (hex' : Power hex ex)
    (h : ∀ z, ¬ Real (sign ++ (pre ++ (ip ++ (point ++ (fp ++ ex)))) ++ x :: z)) :
    Ends hex point ex x ∧ (hex = false → ip = [48] → point = [] → ex = [] → x ≠ 120 ∧ x ≠ 88) := by
  constructor
  · unfold Ends
    split
    · rename_i he
      subst he
      refine ⟨fun hd => ?_, fun hx => ?_, fun hx => ?_, fun hz hx => ?_⟩
      · rcases hp with ⟨rfl, rfl⟩ | rfl
        · have := Real.num sign pre (ip ++ [x]) [] [] [] neg hex hs hpre
            (fun c hc => by rcases List.mem_append.mp hc with h | h
                            · exact hi c h
                            · rw [List.mem_singleton.mp h]; exact hd) (.inl ⟨rfl, rfl⟩) hf (by simp) (.inl rfl)
          exact h [] (by simpa using this)
        · have := Real.num sign pre ip [46] (fp ++ [x]) [] neg hex hs hpre hi (.inr rfl)
            (fun c hc => by rcases List.mem_append.mp hc with h | h
                            · exact hf c h
                            · rw [List.mem_singleton.mp h]; exact hd) (by simp) (.inl rfl)
          exact h [] (by simpa using this)
      · have := Real.num sign pre ip point fp [x, 48] neg hex hs hpre hi hp hf hne
          (.inr ⟨x, [], [48], false, rfl, .inl hx, .inl ⟨rfl, rfl⟩, by simp, by intro c hc; rw [List.mem_singleton.mp hc]; exact (dec_iff 48).mpr (by omega)⟩)
        exact h [48] (by simpa using this)
      · have := Real.num sign pre ip point fp [x, 48] neg hex hs hpre hi hp hf hne
          (.inr ⟨x, [], [48], false, rfl, .inr hx, .inl ⟨rfl, rfl⟩, by simp, by intro c hc; rw [List.mem_singleton.mp hc]; exact (dec_iff 48).mpr (by omega)⟩)
        exact h [48] (by simpa using this)
      · subst hx
        subst hz
        have hfp : fp = [] := by
          rcases hp with ⟨-, h⟩ | h
          · exact h
          · exact absurd h (by simp)
        subst hfp
        have := Real.num sign pre ip [46] [] [] neg hex hs hpre hi (.inr rfl) hf hne (.inl rfl)
        exact h [] (by simpa using this)
    · rename_i he
      intro hd
      rcases hex' with rfl | ⟨c, sg, ds, ng, rfl, hc, hsg, hdne, hds⟩
      · exact he rfl
      · have := Real.num sign pre ip point fp (c :: (sg ++ (ds ++ [x]))) neg hex hs hpre hi hp hf hne
          (.inr ⟨c, sg, ds ++ [x], ng, rfl, hc, hsg, by simp, fun c hc => by
            rcases List.mem_append.mp hc with h | h
            · exact hds c h
            · rw [List.mem_singleton.mp h]; exact hd⟩)
        exact h [] (by simpa using this)
  · rintro rfl rfl rfl rfl
    obtain rfl : pre = [] := by unfold Prefix at hpre; simpa using hpre
    have hfp : fp = [] := by
      rcases hp with ⟨-, h⟩ | h
      · exact h
      · exact absurd h (by simp)
    subst hfp
    have h48 : Figures true [48] := fun c hc => by rw [List.mem_singleton.mp hc]; exact (hex_iff 48).mpr (by omega)
    constructor
    · rintro rfl
      have := Real.num sign [48, 120] [48] [] [] [] neg true hs (.inl rfl) h48 (.inl ⟨rfl, rfl⟩) (fun c hc => nomatch hc) (by simp) (.inl rfl)
      exact h [48] (by simpa using this)
    · rintro rfl
      have := Real.num sign [48, 88] [48] [] [] [] neg true hs (.inr rfl) h48 (.inl ⟨rfl, rfl⟩) (fun c hc => nomatch hc) (by simp) (.inl rfl)
      exact h [48] (by simpa using this)

/-- After the sign, a number is read to its end. -/
theorem real_body {item t : List Int} (hr : Real item) : ∃ sign body neg, item = sign ++ body ∧ Decimal.Spec.Sign sign neg ∧
    (∃ x, body.head? = some x ∧ x ≠ 43 ∧ x ≠ 45) ∧
    ∀ {s c n w buf}, Bytes (body ++ t) → Held s c (body ++ t) n → (body.length : Int) ≤ w →
      ((body.length : Int) = w ∨ ∀ x ∈ t.head?, ∀ z, ¬ Real (item ++ x :: z)) → buf.length + body.length ≤ 127 →
      ∀ (len : Int × Nat) (arg : Option Nat), ∃ s', At s' t (n + body.length) 1 ∧
        floatBody s c w buf len arg = some (1, s', store arg (.real len (buf ++ body))) := by
  cases hr with
  | num sign pre ip point fp ex neg hex hs hpre hi hp hf hne hex' =>
    refine ⟨sign, _, neg, rfl, hs, ?_, ?_⟩
    · cases hex with
      | true =>
        unfold Prefix at hpre
        rw [if_pos rfl] at hpre
        rcases hpre with rfl | rfl <;>
          exact ⟨48, rfl, by decide, by decide⟩
      | false =>
        obtain rfl : pre = [] := by unfold Prefix at hpre; simpa using hpre
        cases ip with
        | cons a ip =>
          have := figures_ascii hi a (by simp)
          exact ⟨a, rfl, by omega, by omega⟩
        | nil =>
          rcases hp with ⟨rfl, rfl⟩ | rfl
          · exact absurd rfl hne
          · exact ⟨46, rfl, by decide, by decide⟩
    · intro s c n w buf hb h hw hstop hl len arg
      have e : pre ++ (ip ++ (point ++ (fp ++ ex))) ++ t = pre ++ (ip ++ (point ++ (fp ++ (ex ++ t)))) := by
        simp only [List.append_assoc]
      rw [e] at hb h
      exact floatBody_num hb h hpre hi hp hf hne hex' hw
        (hstop.imp id fun h x hx => ends_of hs hpre hi hp hf hne hex' (h x hx)) hl len arg
  | inf h =>
    obtain ⟨sign, v, hs, rfl, hv⟩ := h
    refine ⟨sign, v, _, rfl, hs, ?_, ?_⟩
    · cases v with
      | nil => simp at hv
      | cons a v =>
        have ha : lower a = 105 := by
          rcases hv with hv | hv <;> exact (List.cons.inj hv).1
        refine ⟨a, rfl, ?_, ?_⟩ <;> (rintro rfl; exact absurd ha (by decide))
    · intro s c n w buf hb h hw hstop hl len arg
      refine floatBody_inf hb h hv hw ?_ hl len arg
      rcases hstop with h1 | h1
      · exact .inl h1
      · rcases hv with hv | hv
        · right; right
          intro x hx hlow
          refine h1 x hx [110, 105, 116, 121] (.inf ⟨sign, v ++ [x, 110, 105, 116, 121], hs, by simp, .inr ?_⟩)
          have h2 : v.map Decimal.Spec.lower = [105, 110, 102] := hv
          have h3 : Decimal.Spec.lower x = 105 := hlow
          rw [List.map_append, h2]
          simp only [List.map_cons, h3]
          decide
        · exact .inr (.inl (by simpa using congrArg List.length hv))
  | nan h =>
    rename_i tag
    obtain ⟨sign, v, tail, hs, rfl, hv, ht⟩ := h
    refine ⟨sign, v ++ tail, _, rfl, hs, ?_, ?_⟩
    · cases v with
      | nil => simp at hv
      | cons a v =>
        have ha : lower a = 110 := (List.cons.inj hv).1
        refine ⟨a, rfl, ?_, ?_⟩ <;> (rintro rfl; exact absurd ha (by decide))
    · intro s c n w buf hb h hw hstop hl len arg
      rw [List.append_assoc] at hb h
      rw [List.length_append] at hl hw hstop
      rw [List.length_append, ← Nat.add_assoc]
      refine floatBody_nan hb h hv ?_ (by omega) ?_ (by omega) len arg
      · cases tag with
        | none => exact .inl ht
        | some cs => exact .inr ⟨cs, ht⟩
      · rcases hstop with h1 | h1
        · left; omega
        · cases tag with
          | some cs => right; left; rw [ht.1]; simp
          | none =>
            simp only at ht
            subst ht
            right; right
            rintro x hx rfl
            exact h1 40 hx [41] (.nan (tag := some []) ⟨sign, v, [40, 41], hs, by simp, hv, rfl, by simp⟩)

theorem scanFloat_done {s n w b item t} (hby : Bytes (b ++ (item ++ t))) (h : At s (b ++ (item ++ t)) n 1) (hbl : Blank b)
    (hst : ∀ x ∈ (item ++ t).head?, ¬ White x) (hr : Real item) (hl : item.length ≤ 127) (hw : (item.length : Int) ≤ w)
    (hstop : (item.length : Int) = w ∨ ∀ x ∈ t.head?, ∀ z, ¬ Real (item ++ x :: z)) (len : Int × Nat) (arg : Option Nat) :
    ∃ s', At s' t (n + b.length + item.length) 1 ∧ scanFloat s w len arg = some (1, s', store arg (.real len item)) := by
  obtain ⟨s0, e0, h0⟩ := skipWs_eq hby h hbl hst
  obtain ⟨c, s1, e1, h1⟩ := sgetc_at hby.right h0
  obtain ⟨sign, body, neg, rfl, hs, ⟨y, hy, hy1, hy2⟩, hbody⟩ := real_body (t := t) hr
  have hb := hby.right
  rw [List.append_assoc] at hb h1
  simp only [List.length_append] at hl hw hstop
  obtain ⟨body', rfl⟩ : ∃ body', body = y :: body' := by
    cases body with
    | nil => simp at hy
    | cons a body => simp at hy; subst hy; exact ⟨body, rfl⟩
  rcases sign_cases hs with rfl | ⟨g, rfl, hg⟩
  · simp only [List.nil_append, List.length_nil, Nat.zero_add] at *
    obtain ⟨s2, h2, e2⟩ := hbody (buf := []) hb h1 hw hstop (by simpa using hl) len arg
    obtain ⟨rfl, hc, -⟩ := held_cons h1
    refine ⟨s2, h2, ?_⟩
    unfold scanFloat
    simp only [e0, Option.bind_eq_bind, Option.bind_some, e1]
    rw [if_neg hc, if_neg (by omega)]
    exact e2
  · simp only [List.cons_append, List.nil_append, List.length_cons, List.length_nil] at hb h1 hl hw hstop ⊢
    obtain ⟨rfl, hc, h2⟩ := held_cons h1
    obtain ⟨c3, s3, e3, h3⟩ := sgetc_at hb.tail (h2.mono (by omega))
    obtain ⟨s4, h4, e4⟩ := hbody (w := w - 1) (buf := [c]) hb.tail h3 (by simp only [List.length_cons]; omega)
      (by simp only [List.length_cons]; exact hstop.imp (fun h => by omega) id)
      (by simp only [List.length_cons, List.length_nil]; omega) len arg
    obtain ⟨rfl, hc3, -⟩ := held_cons h3
    refine ⟨s4, h4.cast (by simp only [List.length_cons]; omega), ?_⟩
    unfold scanFloat
    simp only [e0, Option.bind_eq_bind, Option.bind_some, e1]
    rw [if_neg hc, if_pos hg, if_neg (by omega), e3]
    simp only
    rw [if_neg hc3, fill_eq [] [c] (by intro y hy; simp at hy; omega) (by simp)]
    exact e4

theorem floatBody_fail {s c dot t n w buf} (hb : Bytes (dot ++ t)) (h : Held s c (dot ++ t) n) (hd : dot = [] ∨ dot = [46])
    (hw : 1 ≤ w)
    (hstop : ∀ x ∈ t.head?, (dot.length : Int) = w ∨ (¬ IsDigit 10 x ∧ (dot = [] → x ≠ 46 ∧ lower x ≠ 105 ∧ lower x ≠ 110)))
    (len : Int × Nat) (arg : Option Nat) :
    ∃ s', At s' t (n + dot.length) 1 ∧ floatBody s c w buf len arg = some (0, s', []) := by
  rcases hd with rfl | rfl
  · simp only [List.nil_append, List.length_nil] at *
    have hc : lower c ≠ 105 ∧ lower c ≠ 110 ∧ c ≠ 48 ∧ c ≠ 46 := by
      rcases h with ⟨-, rfl, -⟩ | ⟨r', rfl, -, -⟩
      · decide
      · obtain ⟨h1, h2⟩ := (hstop c (by simp)).resolve_left (by omega)
        rw [dec_iff] at h1
        have := h2 trivial
        exact ⟨this.2.1, this.2.2, by omega, this.1⟩
    obtain ⟨c3, s3, e3, h3⟩ := Next.run (mantissa false) [] (w := w) hb (.inl h) (by simp) (by simp; omega) (by
      right
      intro x hx
      exact mantissa_not ((hstop x hx).resolve_left (by omega)).1)
    have e4 : Scanf.run (mantissa false) (steps s + 1) w c s = some ([], w, c, s) := by
      unfold Scanf.run
      rw [if_neg]
      rintro ⟨-, h1, h2⟩
      rw [mantissa_iff] at h2
      rcases h with ⟨-, h3, -⟩ | ⟨r', rfl, -, -⟩
      · exact h1 h3
      · exact ((hstop c (by simp)).resolve_left (by omega)).1 h2
    obtain ⟨s5, e5, h5⟩ := sungetc_held h
    refine ⟨s5, h5, ?_⟩
    unfold floatBody
    rw [if_neg hc.1, if_neg hc.2.1, if_neg (fun h => hc.2.2.1 h.1)]
    unfold floatDigits
    simp only [e4, Option.bind_eq_bind, Option.bind_some, List.isEmpty_nil, Bool.not_true, Bool.or_self]
    unfold floatPoint
    rw [if_neg (fun h => hc.2.2.2 h.1), if_neg (by decide)]
    simp only [e5, Option.bind_eq_bind, Option.bind_some]
    rfl
  · simp only [List.cons_append, List.nil_append, List.length_cons, List.length_nil] at *
    obtain ⟨rfl, -, h1⟩ := held_cons h
    obtain ⟨c2, s2, e2, h2⟩ := next_at hb.tail (w := w - 1) (by omega) h1
    obtain ⟨c3, s3, e3, h3⟩ := Next.run (mantissa false) [] hb.tail h2 (by simp) (by simp; omega) (by
      by_cases hz : w = 1
      · left; simp; omega
      · right
        intro x hx
        exact mantissa_not ((hstop x hx).resolve_left (by omega)).1)
    obtain ⟨s4, e4, h4⟩ := h3.unget
    have e5 : Scanf.run (mantissa false) (steps s + 1) w 46 s = some ([], w, 46, s) := by
      unfold Scanf.run
      rw [if_neg]
      rintro ⟨-, -, h2⟩
      exact absurd h2 (by decide)
    refine ⟨s4, h4, ?_⟩
    unfold floatBody
    rw [if_neg (by decide), if_neg (by decide), if_neg (by simp)]
    unfold floatDigits
    simp only [e5, Option.bind_eq_bind, Option.bind_some, List.isEmpty_nil, Bool.not_true, Bool.or_self]
    unfold floatPoint
    rw [if_pos ⟨rfl, by omega⟩]
    simp only [e2, e3, Option.bind_eq_bind, Option.bind_some]
    rw [if_neg (by simp), e4]
    rfl

theorem fail_of {sign : List Int} {neg : Bool} {dot : List Int} {x : Int} (hs : Decimal.Spec.Sign sign neg) (hd : dot = [] ∨ dot = [46])
    (h : ∀ z, ¬ Real (sign ++ dot ++ x :: z)) :
    ¬ IsDigit 10 x ∧ (dot = [] → x ≠ 46 ∧ lower x ≠ 105 ∧ lower x ≠ 110) := by
  refine ⟨fun hx => ?_, ?_⟩
  · rcases hd with rfl | rfl
    · have := Real.num sign [] [x] [] [] [] neg false hs rfl (fun c hc => by rw [List.mem_singleton.mp hc]; exact hx)
        (.inl ⟨rfl, rfl⟩) (fun c hc => nomatch hc) (by simp) (.inl rfl)
      exact h [] (by simpa using this)
    · have := Real.num sign [] [] [46] [x] [] neg false hs rfl (fun c hc => nomatch hc) (.inr rfl)
        (fun c hc => by rw [List.mem_singleton.mp hc]; exact hx) (by simp) (.inl rfl)
      exact h [] (by simpa using this)
  · rintro rfl
    refine ⟨?_, fun hl => ?_, fun hl => ?_⟩
    · rintro rfl
      have := Real.num sign [] [] [46] [48] [] neg false hs rfl (fun c hc => nomatch hc) (.inr rfl)
        (fun c hc => by rw [List.mem_singleton.mp hc]; exact (dec_iff 48).mpr (by omega)) (by simp) (.inl rfl)
      exact h [48] (by simpa using this)
    · have h3 : Decimal.Spec.lower x = 105 := hl
      refine h [110, 102] (.inf ⟨sign, [x, 110, 102], hs, by simp, .inl ?_⟩)
      simp only [List.map_cons, h3]
      decide
    · have h3 : Decimal.Spec.lower x = 110 := hl
      refine h [97, 110] (.nan (tag := none) ⟨sign, [x, 97, 110], [], hs, by simp, ?_, rfl⟩)
      simp only [List.map_cons, h3]
      decide

theorem scanFloat_fail {s n w b sign dot t neg} (hby : Bytes (b ++ (sign ++ dot ++ t))) (h : At s (b ++ (sign ++ dot ++ t)) n 1)
    (hbl : Blank b) (hst : ∀ x ∈ (sign ++ dot ++ t).head?, ¬ White x) (hs : Decimal.Spec.Sign sign neg) (hd : dot = [] ∨ dot = [46])
    (hne : sign ++ dot ++ t ≠ []) (hw1 : 1 ≤ w) (hw : ((sign ++ dot).length : Int) ≤ w)
    (hstop : ((sign ++ dot).length : Int) = w ∨ ∀ x ∈ t.head?, ∀ z, ¬ Real (sign ++ dot ++ x :: z)) (len : Int × Nat)
    (arg : Option Nat) :
    ∃ s' m, At s' t m 1 ∧ scanFloat s w len arg = some (0, s', []) := by
  obtain ⟨s0, e0, h0⟩ := skipWs_eq hby h hbl hst
  obtain ⟨c, s1, e1, h1⟩ := sgetc_at hby.right h0
  have hb := hby.right
  rw [List.append_assoc] at hb h1 hne
  rw [List.length_append] at hw hstop
  have hc : c ≠ -1 := by
    rcases h1 with ⟨h1, -⟩ | ⟨_, _, h1, -⟩
    · exact absurd h1 hne
    · exact h1
  have hfail : ∀ x ∈ t.head?, ((sign.length + dot.length : Nat) : Int) = w ∨ _ := fun x hx =>
    hstop.imp id fun h => fail_of hs hd (h x hx)
  rcases sign_cases hs with rfl | ⟨g, rfl, hg⟩
  · simp only [List.nil_append, List.length_nil, Nat.zero_add] at *
    obtain ⟨s2, h2, e2⟩ := floatBody_fail (buf := []) hb h1 hd hw1 hfail len arg
    have hcs : ¬ (c = 43 ∨ c = 45) := by
      rcases hd with rfl | rfl
      · simp only [List.nil_append, List.length_nil] at h1 hne hfail
        rcases h1 with ⟨h1, -⟩ | ⟨t', rfl, -, -⟩
        · exact absurd h1 hne
        · rcases hstop with h3 | h3
          · simp at h3; omega
          · rintro (rfl | rfl)
            · have := Real.num [43] [] [48] [] [] [] false false (.inr (.inl ⟨rfl, rfl⟩)) rfl
                (fun c hc => by rw [List.mem_singleton.mp hc]; exact (dec_iff 48).mpr (by omega)) (.inl ⟨rfl, rfl⟩)
                (fun c hc => nomatch hc) (by simp) (.inl rfl)
              exact h3 43 (by simp) [48] (by simpa using this)
            · have := Real.num [45] [] [48] [] [] [] true false (.inr (.inr ⟨rfl, rfl⟩)) rfl
                (fun c hc => by rw [List.mem_singleton.mp hc]; exact (dec_iff 48).mpr (by omega)) (.inl ⟨rfl, rfl⟩)
                (fun c hc => nomatch hc) (by simp) (.inl rfl)
              exact h3 45 (by simp) [48] (by simpa using this)
      · obtain ⟨rfl, -⟩ := held_cons h1
        decide
    refine ⟨s2, _, h2, ?_⟩
    unfold scanFloat
    simp only [e0, Option.bind_eq_bind, Option.bind_some, e1]
    rw [if_neg hc, if_neg hcs]
    exact e2
  · simp only [List.cons_append, List.nil_append, List.length_cons, List.length_nil] at *
    obtain ⟨rfl, -, h2⟩ := held_cons h1
    by_cases hw2 : w - 1 = 0
    · obtain rfl : dot = [] := List.eq_nil_of_length_eq_zero (by omega)
      refine ⟨s1, _, h2.mono (by omega), ?_⟩
      unfold scanFloat
      simp only [e0, Option.bind_eq_bind, Option.bind_some, e1]
      rw [if_neg hc, if_pos hg, if_pos hw2]
      rfl
    · obtain ⟨c3, s3, e3, h3⟩ := sgetc_at hb.tail (h2.mono (by omega))
      by_cases hc3 : c3 = -1
      · have ht : dot ++ t = [] ∧ At s3 [] (n + b.length + 1) 0 := by
          rcases h3 with ⟨h1, -, h2⟩ | ⟨_, _, h1, -⟩
          · exact ⟨h1, h2⟩
          · exact absurd hc3 h1
        obtain rfl : t = [] := (List.append_eq_nil_iff.mp ht.1).2
        refine ⟨s3, _, ht.2.mono (by omega), ?_⟩
        unfold scanFloat
        simp only [e0, Option.bind_eq_bind, Option.bind_some, e1]
        rw [if_neg hc, if_pos hg, if_neg hw2, e3]
        simp only
        rw [if_pos hc3]
        rfl
      · obtain ⟨s4, h4, e4⟩ := floatBody_fail (w := w - 1) (buf := fill [] [c]) hb.tail h3 hd (by omega)
          (fun x hx => (hfail x hx).imp (fun h => by omega) id) len arg
        refine ⟨s4, _, h4, ?_⟩
        unfold scanFloat
        simp only [e0, Option.bind_eq_bind, Option.bind_some, e1]
        rw [if_neg hc, if_pos hg, if_neg hw2, e3]
        simp only
        rw [if_neg hc3]
        exact e4

theorem scanFloat_eof {s n w b} (hby : Bytes b) (h : At s b n 1) (hbl : Blank b) (len : Int × Nat) (arg : Option Nat) :
    ∃ s' m, At s' [] m 1 ∧ scanFloat s w len arg = some (-1, s', []) := by
  rw [← List.append_nil b] at h hby
  obtain ⟨s0, e0, h0⟩ := skipWs_eq hby h hbl (by simp)
  obtain ⟨c, s1, e1, h1⟩ := sgetc_at hby.right h0
  obtain ⟨rfl, h2⟩ := held_nil h1
  refine ⟨s1, _, h2.mono (by omega), ?_⟩
  unfold scanFloat
  simp only [e0, Option.bind_eq_bind, Option.bind_some, e1]
  rfl

end Verif.Scanf
