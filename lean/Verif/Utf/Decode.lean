import Verif.Utf.Restart

namespace Verif.Utf

open Spec

theorem decode_accept {pre : List Nat} {v : Nat} (h : WF pre v) (rest : List Nat) :
    mbrtowc 0 (pre ++ rest) = ⟨if v = 0 then 0 else pre.length, some v, 0, false⟩ := by
  cases h with
  | @r1 a ha =>
    rw [List.singleton_append, mbrtowc_zero _ _ (by omega), if_pos (by omega)]
    by_cases h0 : v = 0 <;> simp [h0]
  | @r2 a b ha hb =>
    simp only [List.cons_append, List.nil_append]
    rw [mbrtowc_zero _ _ (by omega), if_neg (by omega), if_neg (by omega), if_pos (by omega),
      absorb_cons _ _ _ _ _ _ _ (by omega) (by omega) (by omega), if_pos (by omega),
      absorb_done, finish2, if_neg (by omega), if_neg (by omega)]
    rfl
  | @r3 b c hb hc =>
    simp only [List.cons_append, List.nil_append]
    rw [mbrtowc_zero _ _ (by omega), if_neg (by omega), if_neg (by omega), if_neg (by omega), if_pos (by omega),
      absorb_cons _ _ _ _ _ _ _ (by omega) (by omega) (by omega), if_pos (by omega),
      absorb_cons _ _ _ _ _ _ _ (by omega) (by omega) (by omega), if_pos (by omega),
      absorb_done, finish3, if_neg (by omega), if_neg (by omega)]
    simp
  | @r4 a b c ha hb hc =>
    simp only [List.cons_append, List.nil_append]
    rw [mbrtowc_zero _ _ (by omega), if_neg (by omega), if_neg (by omega), if_neg (by omega), if_pos (by omega),
      absorb_cons _ _ _ _ _ _ _ (by omega) (by omega) (by omega), if_pos (by omega),
      absorb_cons _ _ _ _ _ _ _ (by omega) (by omega) (by omega), if_pos (by omega),
      absorb_done, finish3, if_neg (by omega), if_neg (by omega)]
    simp; omega
  | @r5 b c hb hc =>
    simp only [List.cons_append, List.nil_append]
    rw [mbrtowc_zero _ _ (by omega), if_neg (by omega), if_neg (by omega), if_neg (by omega), if_pos (by omega),
      absorb_cons _ _ _ _ _ _ _ (by omega) (by omega) (by omega), if_pos (by omega),
      absorb_cons _ _ _ _ _ _ _ (by omega) (by omega) (by omega), if_pos (by omega),
      absorb_done, finish3, if_neg (by omega), if_neg (by omega)]
    simp; omega
  | @r6 a b c ha hb hc =>
    simp only [List.cons_append, List.nil_append]
    rw [mbrtowc_zero _ _ (by omega), if_neg (by omega), if_neg (by omega), if_neg (by omega), if_pos (by omega),
      absorb_cons _ _ _ _ _ _ _ (by omega) (by omega) (by omega), if_pos (by omega),
      absorb_cons _ _ _ _ _ _ _ (by omega) (by omega) (by omega), if_pos (by omega),
      absorb_done, finish3, if_neg (by omega), if_neg (by omega)]
    simp; omega
  | @r7 b c d hb hc hd =>
    simp only [List.cons_append, List.nil_append]
    rw [mbrtowc_zero _ _ (by omega), if_neg (by omega), if_neg (by omega), if_neg (by omega), if_neg (by omega),
      absorb_cons _ _ _ _ _ _ _ (by omega) (by omega) (by omega), if_pos (by omega),
      absorb_cons _ _ _ _ _ _ _ (by omega) (by omega) (by omega), if_pos (by omega),
      absorb_cons _ _ _ _ _ _ _ (by omega) (by omega) (by omega), if_pos (by omega),
      absorb_done, finish4, if_neg (by omega), if_neg (by omega)]
    simp; omega
  | @r8 a b c d ha hb hc hd =>
    simp only [List.cons_append, List.nil_append]
    rw [mbrtowc_zero _ _ (by omega), if_neg (by omega), if_neg (by omega), if_neg (by omega), if_neg (by omega),
      absorb_cons _ _ _ _ _ _ _ (by omega) (by omega) (by omega), if_pos (by omega),
      absorb_cons _ _ _ _ _ _ _ (by omega) (by omega) (by omega), if_pos (by omega),
      absorb_cons _ _ _ _ _ _ _ (by omega) (by omega) (by omega), if_pos (by omega),
      absorb_done, finish4, if_neg (by omega), if_neg (by omega)]
    simp; omega
  | @r9 b c d hb hc hd =>
    simp only [List.cons_append, List.nil_append]
    rw [mbrtowc_zero _ _ (by omega), if_neg (by omega), if_neg (by omega), if_neg (by omega), if_neg (by omega),
      absorb_cons _ _ _ _ _ _ _ (by omega) (by omega) (by omega), if_pos (by omega),
      absorb_cons _ _ _ _ _ _ _ (by omega) (by omega) (by omega), if_pos (by omega),
      absorb_cons _ _ _ _ _ _ _ (by omega) (by omega) (by omega), if_pos (by omega),
      absorb_done, finish4, if_neg (by omega), if_neg (by omega)]
    simp; omega

theorem wf2 {a b : Nat} (ha : B 0xC2 0xDF a) (hb : B 0x80 0xBF b) :
    WF [a, b] ((a - 0xC0) * 64 + (b - 0x80)) := .r2 ha hb

theorem wf3 {a b c : Nat} (ha : B 0xE0 0xEF a) (hb : B 0x80 0xBF b) (hc : B 0x80 0xBF c)
    (h : ¬ (((a - 0xE0) * 64 + (b - 0x80)) * 64 + (c - 0x80) < 0x800 ∨
      (((a - 0xE0) * 64 + (b - 0x80)) * 64 + (c - 0x80) ≥ 0xD800 ∧
       ((a - 0xE0) * 64 + (b - 0x80)) * 64 + (c - 0x80) ≤ 0xDFFF))) :
    WF [a, b, c] (((a - 0xE0) * 64 + (b - 0x80)) * 64 + (c - 0x80)) := by
  have e : ((a - 0xE0) * 64 + (b - 0x80)) * 64 + (c - 0x80) =
    (a - 0xE0) * 4096 + (b - 0x80) * 64 + (c - 0x80) := by omega
  by_cases h1 : a = 0xE0
  · have e' : ((a - 0xE0) * 64 + (b - 0x80)) * 64 + (c - 0x80) = (b - 0x80) * 64 + (c - 0x80) := by omega
    rw [e', h1]
    exact .r3 (by omega) hc
  · by_cases h2 : a ≤ 0xEC
    · rw [e]; exact .r4 (by omega) hb hc
    · by_cases h3 : a = 0xED
      · subst h3; rw [e]; exact .r5 (by omega) hc
      · rw [e]; exact .r6 (by omega) hb hc

theorem wf4 {a b c d : Nat} (ha : B 0xF0 0xF4 a) (hb : B 0x80 0xBF b) (hc : B 0x80 0xBF c) (hd : B 0x80 0xBF d)
    (h : ¬ ((((a - 0xF0) * 64 + (b - 0x80)) * 64 + (c - 0x80)) * 64 + (d - 0x80) < 0x10000 ∨
       (((a - 0xF0) * 64 + (b - 0x80)) * 64 + (c - 0x80)) * 64 + (d - 0x80) > 0x10FFFF)) :
    WF [a, b, c, d] ((((a - 0xF0) * 64 + (b - 0x80)) * 64 + (c - 0x80)) * 64 + (d - 0x80)) := by
  have e : (((a - 0xF0) * 64 + (b - 0x80)) * 64 + (c - 0x80)) * 64 + (d - 0x80) =
    (a - 0xF0) * 262144 + (b - 0x80) * 4096 + (c - 0x80) * 64 + (d - 0x80) := by omega
  by_cases h1 : a = 0xF0
  · have e' : (((a - 0xF0) * 64 + (b - 0x80)) * 64 + (c - 0x80)) * 64 + (d - 0x80)
      = (b - 0x80) * 4096 + (c - 0x80) * 64 + (d - 0x80) := by
      clear h e; rw [h1, Nat.sub_self]; omega
    rw [e', h1]
    exact .r7 (by omega) hc hd
  · by_cases h2 : a ≤ 0xF3
    · rw [e]; exact .r8 (by omega) hb hc hd
    · have h3 : a = 0xF4 := by omega
      have e' : (((a - 0xF0) * 64 + (b - 0x80)) * 64 + (c - 0x80)) * 64 + (d - 0x80)
        = 4 * 262144 + (b - 0x80) * 4096 + (c - 0x80) * 64 + (d - 0x80) := by
        clear h e; rw [h3, show 0xF4 - 0xF0 = 4 from rfl]; omega
      rw [e', h3]; exact .r9 (by omega) hc hd

/-- Every character the decoder produces comes from a well-formed prefix of its input. -/
theorem decode_sound {bs : List Nat} {v : Nat} (hb : Bytes bs) (h : (mbrtowc 0 bs).wc = some v) :
    ∃ pre rest, bs = pre ++ rest ∧ WF pre v := by
  cases bs with
  | nil => simp [mbrtowc_nil] at h
  | cons a bs =>
    have ha : a < 256 := hb a (by simp)
    rw [mbrtowc_zero _ _ ha] at h
    split at h
    · simp only [Option.some.injEq] at h; subst h
      exact ⟨[a], bs, rfl, .r1 (by omega)⟩
    · split at h
      · simp [fail_] at h
      · split at h
        · -- two bytes
          cases bs with
          | nil => rw [absorb_nil _ _ _ _ _ (by omega) (by omega) (by omega)] at h; simp at h
          | cons b bs =>
            have hbb : b < 256 := hb b (by simp)
            rw [absorb_cons _ _ _ _ _ _ _ hbb (by omega) (by omega)] at h
            split at h
            · rw [absorb_done, finish2] at h
              split at h
              · simp [fail_] at h
              · simp only [Option.some.injEq] at h; subst h
                exact ⟨[a, b], bs, rfl, wf2 (by omega) (by omega)⟩
            · simp [fail_] at h
        · split at h
          · cases bs with
            | nil => rw [absorb_nil _ _ _ _ _ (by omega) (by omega) (by omega)] at h; simp at h
            | cons b bs =>
              have hbb : b < 256 := hb b (by simp)
              rw [absorb_cons _ _ _ _ _ _ _ hbb (by omega) (by omega)] at h
              split at h
              · cases bs with
                | nil => rw [absorb_nil _ _ _ _ _ (by omega) (by omega) (by omega)] at h; simp at h
                | cons c bs =>
                  have hcb : c < 256 := hb c (by simp)
                  rw [absorb_cons _ _ _ _ _ _ _ hcb (by omega) (by omega)] at h
                  split at h
                  · rw [absorb_done, finish3] at h
                    split at h
                    · simp [fail_] at h
                    · simp only [Option.some.injEq] at h; subst h
                      exact ⟨[a, b, c], bs, rfl, wf3 (by omega) (by omega) (by omega) (by assumption)⟩
                  · simp [fail_] at h
              · simp [fail_] at h
          · cases bs with
            | nil => rw [absorb_nil _ _ _ _ _ (by omega) (by omega) (by omega)] at h; simp at h
            | cons b bs =>
              have hbb : b < 256 := hb b (by simp)
              rw [absorb_cons _ _ _ _ _ _ _ hbb (by omega) (by omega)] at h
              split at h
              · cases bs with
                | nil => rw [absorb_nil _ _ _ _ _ (by omega) (by omega) (by omega)] at h; simp at h
                | cons c bs =>
                  have hcb : c < 256 := hb c (by simp)
                  rw [absorb_cons _ _ _ _ _ _ _ hcb (by omega) (by omega)] at h
                  split at h
                  · cases bs with
                    | nil => rw [absorb_nil _ _ _ _ _ (by omega) (by omega) (by omega)] at h; simp at h
                    | cons d bs =>
                      have hdb : d < 256 := hb d (by simp)
                      rw [absorb_cons _ _ _ _ _ _ _ hdb (by omega) (by omega)] at h
                      split at h
                      · rw [absorb_done, finish4] at h
                        split at h
                        · simp [fail_] at h
                        · simp only [Option.some.injEq] at h; subst h
                          exact ⟨[a, b, c, d], bs, rfl, wf4 (by omega) (by omega) (by omega) (by omega) (by assumption)⟩
                      · simp [fail_] at h
                  · simp [fail_] at h
              · simp [fail_] at h

/-- The three shapes of an outcome. -/
def Shape (o : MbOut) : Prop :=
  (o.ret = ERR ∧ o.wc = none ∧ o.eilseq = true) ∨ (o.ret = INC ∧ o.wc = none ∧ o.eilseq = false) ∨
  (∃ v, o.wc = some v ∧ o.ret ≠ ERR ∧ o.ret ≠ INC ∧ o.eilseq = false)

theorem shape_fail (s : Nat) : Shape (fail_ s) := Or.inl ⟨rfl, rfl, rfl⟩

theorem shape_finish (s T code k : Nat) (hk : k < 100) : Shape (finish s T code k) := by
  unfold finish
  simp only
  generalize (if T = 2 then decide (code < 0x80) else if T = 3 then
    decide (code < 0x800 ∨ (code ≥ 0xD800 ∧ code ≤ 0xDFFF)) else decide (code < 0x10000 ∨ code > 0x10FFFF)) = bad
  cases bad
  · refine Or.inr (Or.inr ⟨code, rfl, ?_, ?_, rfl⟩) <;> simp only [ERR, INC] <;>
      · by_cases h : code = 0 <;> simp [h] <;> omega
  · exact shape_fail s

theorem shape_absorb (s T : Nat) (p : List Nat) : ∀ (a code k : Nat), k + (T - a) < 100 →
    Shape (absorb s T a code k p) := by
  induction p with
  | nil =>
    intro a code k hk
    rw [absorb]
    split
    · exact Or.inr (Or.inl ⟨rfl, rfl, rfl⟩)
    · exact shape_finish _ _ _ _ (by omega)
  | cons b p ih =>
    intro a code k hk
    rw [absorb]
    by_cases h : a < T
    · rw [if_pos h]
      by_cases h2 : (b &&& 0xC0) ≠ 0x80
      · simp only [if_pos h2]
        exact shape_fail s
      · simp only [if_neg h2]
        exact ih _ _ _ (by omega)
    · rw [if_neg h]
      exact shape_finish _ _ _ _ (by omega)

theorem shape_mbrtowc (bs : List Nat) (hb : Bytes bs) : Shape (mbrtowc 0 bs) := by
  cases bs with
  | nil => exact Or.inr (Or.inl ⟨rfl, rfl, rfl⟩)
  | cons a bs =>
    rw [mbrtowc_zero _ _ (hb a (by simp))]
    split
    · refine Or.inr (Or.inr ⟨a, rfl, ?_, ?_, rfl⟩) <;> simp only [ERR, INC] <;> split <;> omega
    · split
      · exact shape_fail 0
      · split
        · exact shape_absorb _ _ _ _ _ _ (by omega)
        · split
          · exact shape_absorb _ _ _ _ _ _ (by omega)
          · exact shape_absorb _ _ _ _ _ _ (by omega)

theorem Spec.WF.ne_nil {pre : List Nat} {v : Nat} (h : WF pre v) : pre ≠ [] := by
  cases h <;> simp

theorem Spec.WF.bytes {pre : List Nat} {v : Nat} (h : WF pre v) : Bytes pre := by
  intro x hx
  cases h <;> simp at hx <;> omega

theorem Spec.WF.scalar {pre : List Nat} {v : Nat} (h : WF pre v) : Scalar v := by
  unfold Scalar
  cases h <;> omega

theorem Spec.WF.length_le {pre : List Nat} {v : Nat} (h : WF pre v) : pre.length ≤ 4 := by
  cases h <;> simp

theorem Spec.WF.length_pos {pre : List Nat} {v : Nat} (h : WF pre v) : 0 < pre.length := by
  cases h <;> simp

theorem or_C0 (x : Nat) (h : x < 64) : 0xC0 ||| x = 0xC0 + x := or_of_lt 6 3 x h
theorem or_80 (x : Nat) (h : x < 128) : 0x80 ||| x = 0x80 + x := or_of_lt 7 1 x h
theorem or_E0 (x : Nat) (h : x < 32) : 0xE0 ||| x = 0xE0 + x := or_of_lt 5 7 x h
theorem or_F0 (x : Nat) (h : x < 16) : 0xF0 ||| x = 0xF0 + x := or_of_lt 4 15 x h

/-- Arithmetic form of `wcrtomb` on scalar values. -/
theorem wcrtomb_scalar (c : Nat) (h : Scalar c) :
    (wcrtomb c).1 = (wcrtomb c).2.length ∧ WF (wcrtomb c).2 c := by
  unfold Scalar at h
  unfold wcrtomb
  simp only [Nat.shiftRight_eq_div_pow, and_3F]
  split
  · rw [Nat.mod_eq_of_lt (by omega)]
    exact ⟨rfl, .r1 (by omega)⟩
  · split
    · rw [or_C0 _ (by omega), or_80 _ (by omega), Nat.mod_eq_of_lt (by omega), Nat.mod_eq_of_lt (by omega)]
      refine ⟨rfl, ?_⟩
      have := @WF.r2 (0xC0 + c / 2 ^ 6) (0x80 + c % 64) (by omega) (by omega)
      rwa [show (0xC0 + c / 2 ^ 6 - 0xC0) * 64 + (0x80 + c % 64 - 0x80) = c by omega] at this
    · split
      · next h3 =>
        rw [or_E0 _ (by omega), or_80 _ (by omega), or_80 _ (by omega),
          show (0xE0 + c / 2 ^ 12) % 256 = 0xE0 + c / 2 ^ 12 by omega,
          show (0x80 + c / 2 ^ 6 % 64) % 256 = 0x80 + c / 2 ^ 6 % 64 by omega,
          show (0x80 + c % 64) % 256 = 0x80 + c % 64 by omega]
        refine ⟨rfl, ?_⟩
        have := @wf3 (0xE0 + c / 2 ^ 12) (0x80 + c / 2 ^ 6 % 64) (0x80 + c % 64) (by omega) (by omega)
          (by omega) (by omega)
        rwa [show ((0xE0 + c / 2 ^ 12 - 0xE0) * 64 + (0x80 + c / 2 ^ 6 % 64 - 0x80)) * 64 +
          (0x80 + c % 64 - 0x80) = c by omega] at this
      · split
        · rw [or_F0 _ (by omega), or_80 _ (by omega), or_80 _ (by omega), or_80 _ (by omega),
            show (0xF0 + c / 2 ^ 18) % 256 = 0xF0 + c / 2 ^ 18 by omega,
            show (0x80 + c / 2 ^ 12 % 64) % 256 = 0x80 + c / 2 ^ 12 % 64 by omega,
            show (0x80 + c / 2 ^ 6 % 64) % 256 = 0x80 + c / 2 ^ 6 % 64 by omega,
            show (0x80 + c % 64) % 256 = 0x80 + c % 64 by omega]
          refine ⟨rfl, ?_⟩
          have := @wf4 (0xF0 + c / 2 ^ 18) (0x80 + c / 2 ^ 12 % 64) (0x80 + c / 2 ^ 6 % 64) (0x80 + c % 64)
            (by omega) (by omega) (by omega) (by omega) (by omega)
          rwa [show (((0xF0 + c / 2 ^ 18 - 0xF0) * 64 + (0x80 + c / 2 ^ 12 % 64 - 0x80)) * 64 +
            (0x80 + c / 2 ^ 6 % 64 - 0x80)) * 64 + (0x80 + c % 64 - 0x80) = c by omega] at this
        · omega

theorem wcrtomb_nonscalar (c : Nat) (hc : c < 2 ^ 32) (h : ¬ Scalar c) : wcrtomb c = (ERR, []) := by
  unfold Scalar at h
  unfold wcrtomb
  rw [if_neg (by omega), if_neg (by omega), if_neg (by omega), if_neg (by omega)]

theorem Spec.WF.inv {p : List Nat} {v : Nat} (h : WF p v) :
    (p = [v] ∧ v < 0x80) ∨
    (∃ a b, p = [a, b] ∧ v = (a - 0xC0) * 64 + (b - 0x80) ∧ 0xC0 ≤ a ∧ a < 0xE0 ∧ B 0x80 0xBF b ∧ 0x80 ≤ v) ∨
    (∃ a b c, p = [a, b, c] ∧ v = (a - 0xE0) * 4096 + (b - 0x80) * 64 + (c - 0x80) ∧
      0xE0 ≤ a ∧ a < 0xF0 ∧ B 0x80 0xBF b ∧ B 0x80 0xBF c ∧ 0x800 ≤ v) ∨
    (∃ a b c d, p = [a, b, c, d] ∧
      v = (a - 0xF0) * 262144 + (b - 0x80) * 4096 + (c - 0x80) * 64 + (d - 0x80) ∧
      0xF0 ≤ a ∧ a < 0xF8 ∧ B 0x80 0xBF b ∧ B 0x80 0xBF c ∧ B 0x80 0xBF d ∧ 0x10000 ≤ v) := by
  cases h with
  | r1 ha => exact Or.inl ⟨rfl, by omega⟩
  | @r2 a b ha hb => exact Or.inr (Or.inl ⟨a, b, rfl, by omega, by omega, by omega, by omega, by omega⟩)
  | @r3 b c hb hc =>
    exact Or.inr (Or.inr (Or.inl ⟨_, b, c, rfl, by omega, by omega, by omega, by omega, by omega, by omega⟩))
  | @r4 a b c ha hb hc =>
    exact Or.inr (Or.inr (Or.inl ⟨_, b, c, rfl, by omega, by omega, by omega, by omega, by omega, by omega⟩))
  | @r5 b c hb hc =>
    exact Or.inr (Or.inr (Or.inl ⟨_, b, c, rfl, by omega, by omega, by omega, by omega, by omega, by omega⟩))
  | @r6 a b c ha hb hc =>
    exact Or.inr (Or.inr (Or.inl ⟨_, b, c, rfl, by omega, by omega, by omega, by omega, by omega, by omega⟩))
  | @r7 b c d hb hc hd =>
    exact Or.inr (Or.inr (Or.inr ⟨_, b, c, d, rfl, by omega, by omega, by omega, by omega, by omega, by omega, by omega⟩))
  | @r8 a b c d ha hb hc hd =>
    exact Or.inr (Or.inr (Or.inr ⟨_, b, c, d, rfl, by omega, by omega, by omega, by omega, by omega, by omega, by omega⟩))
  | @r9 b c d hb hc hd =>
    exact Or.inr (Or.inr (Or.inr ⟨_, b, c, d, rfl, by omega, by omega, by omega, by omega, by omega, by omega, by omega⟩))

/-- A scalar value has only one well-formed encoding. -/
theorem Spec.WF.unique {p q : List Nat} {v : Nat} (hp : WF p v) (hq : WF q v) : p = q := by
  rcases hp.inv with ⟨rfl, h⟩ | ⟨a, b, rfl, h⟩ | ⟨a, b, c, rfl, h⟩ | ⟨a, b, c, d, rfl, h⟩ <;>
  rcases hq.inv with ⟨rfl, h'⟩ | ⟨a', b', rfl, h'⟩ | ⟨a', b', c', rfl, h'⟩ | ⟨a', b', c', d', rfl, h'⟩ <;>
  simp only [List.cons.injEq, and_true, reduceCtorEq, and_false] <;> omega

end Verif.Utf
