import Verif.Printf.Lemmas

/-!
# Reading a conversion specification
-/

namespace Verif.Printf

open Spec

theorem flag_of_mem : ∀ c ∈ [45, 43, 32, 35, 48, 39], flag c = 2 ^ (c - 32) ∧ flag c ≠ 0 ∧ 32 ≤ c := by
  decide

theorem flag_zero (c : Nat) (h : c ∉ [45, 43, 32, 35, 48, 39]) : flag c = 0 := by
  unfold flag
  split
  · next h1 =>
    have : ∀ k : Fin 32, k.val + 32 ∉ [45, 43, 32, 35, 48, 39] → flagMask &&& 2 ^ k.val = 0 := by decide
    exact this ⟨c - 32, h1.2⟩ (by rwa [show c - 32 + 32 = c by omega])
  · rfl

theorem parseFlags_eq (fs rest : List Nat) (n : Nat) (hf : ∀ c ∈ fs, c ∈ [45, 43, 32, 35, 48, 39])
    (hr : ∀ c, rest.head? = some c → c ∉ [45, 43, 32, 35, 48, 39]) :
    ∃ n', parseFlags (fs ++ rest) n = (n', rest) ∧ ∀ k, n'.testBit k = (n.testBit k || decide (k + 32 ∈ fs)) := by
  induction fs generalizing n with
  | nil =>
    refine ⟨n, ?_, by simp⟩
    cases rest with
    | nil => rfl
    | cons c cs =>
      rw [List.nil_append, parseFlags, if_pos (flag_zero c (hr c rfl))]
  | cons c fs ih =>
    obtain ⟨h1, h2, h3⟩ := flag_of_mem c (hf c (List.mem_cons_self ..))
    obtain ⟨n', e, h⟩ := ih (n ||| flag c) (fun x hx => hf x (List.mem_cons_of_mem _ hx))
    refine ⟨n', ?_, ?_⟩
    · rw [List.cons_append, parseFlags, if_neg h2, e]
    · intro k
      rw [h k, Nat.testBit_or, h1, Nat.testBit_two_pow, Bool.or_assoc]
      congr 1
      rw [← Bool.decide_or]
      apply decide_eq_decide.mpr
      rw [List.mem_cons]
      constructor
      · rintro (h | h)
        · left; omega
        · exact .inr h
      · rintro (h | h)
        · left; omega
        · exact .inr h

theorem value_append (ds : List Nat) (c : Nat) : value (ds ++ [c]) = value ds * 10 + (c - 48) := by
  unfold value; rw [List.foldl_append]; rfl

theorem foldl_ge (ds : List Nat) (v : Nat) : v ≤ ds.foldl (fun v c => v * 10 + (c - 48)) v := by
  induction ds generalizing v with
  | nil => exact Nat.le_refl _
  | cons c ds ih => exact Nat.le_trans (by omega) (ih (v * 10 + (c - 48)))

theorem fieldDigits_eq (ds rest : List Nat) (hd : ∀ c ∈ ds, 48 ≤ c ∧ c < 58)
    (hr : ∀ c, rest.head? = some c → ¬ (48 ≤ c ∧ c < 58)) (v : Nat)
    (hv : ds.foldl (fun v c => v * 10 + (c - 48)) v < 2 ^ 31) :
    fieldDigits (ds ++ rest) v false = (ds.foldl (fun v c => v * 10 + (c - 48)) v, false, rest) := by
  induction ds generalizing v with
  | nil =>
    cases rest with
    | nil => rfl
    | cons c cs => rw [List.nil_append, fieldDigits, if_neg (hr c rfl)]; rfl
  | cons c ds ih =>
    have h := hd c (List.mem_cons_self ..)
    rw [List.foldl_cons] at hv ⊢
    have hge := foldl_ge ds (v * 10 + (c - 48))
    rw [List.cons_append, fieldDigits, if_pos h]
    simp only
    rw [Nat.mod_eq_of_lt (a := v * 10 + (c - 48)) (by omega), decide_eq_false (by omega), decide_eq_false (by omega)]
    exact ih (fun x hx => hd x (List.mem_cons_of_mem _ hx)) _ hv

theorem s32_u32 (a : Int) (h : IsI32 a) : s32 (u32 a) = a := by
  unfold IsI32 at h
  unfold s32 u32
  split <;> omega

/-- Reading a width or a precision. -/
theorem field_eq (f : Field) (hf : f.Ok) (rest : List Nat) (hr : ∀ c, rest.head? = some c → ¬ (48 ≤ c ∧ c < 58) ∧ c ≠ 42)
    (args args' : List Int) (v : Int) (h : f.take args = some (v, args')) :
    field (f.text ++ rest) args = some (v, rest, args') ∧ IsI32 v := by
  cases f with
  | star =>
    cases args with
    | nil => exact absurd h (by simp [Field.take])
    | cons a as =>
      rw [Field.take] at h
      by_cases hi : IsI32 a
      · rw [if_pos hi] at h
        simp only [Option.some.injEq, Prod.mk.injEq] at h
        obtain ⟨rfl, rfl⟩ := h
        refine ⟨?_, hi⟩
        change field (42 :: rest) _ = _
        unfold field
        rw [if_pos (by rfl)]
        simp only [s32_u32 _ hi]
        rfl
      · rw [if_neg hi] at h; exact absurd h (by simp)
  | num ds =>
    simp only [Field.take, Option.some.injEq, Prod.mk.injEq] at h
    obtain ⟨rfl, rfl⟩ := h
    obtain ⟨h1, h2⟩ := hf
    have e := fieldDigits_eq ds rest h1 (fun c hc => (hr c hc).1) 0 h2
    change fieldDigits (ds ++ rest) 0 false = (value ds, false, rest) at e
    refine ⟨?_, by unfold IsI32; omega⟩
    unfold field Field.text
    rw [if_neg]
    · rw [e]; simp only; rw [if_neg (by simp; omega)]
    · cases ds with
      | nil => intro h; exact (hr _ h).2 rfl
      | cons c ds => intro h; have := h1 c (List.mem_cons_self ..); simp at h; omega

/-- The code of a length modifier. -/
def sizeCode : Size → Nat
  | .none => 0
  | .hh => 104 * 4 + 2
  | .h => 104 * 4 + 1
  | .l => 108 * 4 + 1
  | .ll => 108 * 4 + 2
  | .j => 106 * 4 + 1
  | .z => 122 * 4 + 1
  | .t => 116 * 4 + 1
  | .L => 76 * 4 + 1

/-- The conversion characters considered. -/
def convs : List Nat := [100, 105, 111, 117, 120, 88, 99, 115, 110, 102, 70, 97, 65, 101, 69, 103, 71]

theorem lengthCode_eq (s : Size) (c : Nat) (hc : c ∈ convs) (rest : List Nat) :
    lengthCode (s.text ++ c :: rest) = sizeCode s ∧ (s.text ++ c :: rest).drop (sizeCode s % 4) = c :: rest := by
  have h : c ≠ 104 ∧ c ≠ 108 ∧ c ≠ 106 ∧ c ≠ 122 ∧ c ≠ 116 ∧ c ≠ 76 := by
    revert c; decide
  obtain ⟨h1, h2, h3, h4, h5, h6⟩ := h
  cases s <;> simp [Size.text, lengthCode, sizeCode, h1, h2, h3, h4, h5, h6]

theorem fixWidth_eq (flags : Nat) (w : Int) (h : IsI32 w) (h' : w ≠ -2 ^ 31) :
    ∃ n, fixWidth flags w = some (n, (w.natAbs : Int)) ∧ has n 45 = (has flags 45 || decide (w < 0)) ∧
      ∀ c ∈ [43, 32, 35, 48], has n c = has flags c := by
  unfold IsI32 at h
  unfold fixWidth
  by_cases h0 : w < 0
  · rw [if_pos h0, chk32_some _ (by omega) (by omega)]
    refine ⟨flags ||| 2 ^ 13, by rw [show (w.natAbs : Int) = -w by omega]; rfl, ?_, ?_⟩
    · unfold has; rw [Nat.testBit_or, Nat.testBit_two_pow]; simp [h0]
    · intro c hc
      unfold has
      rw [Nat.testBit_or, Nat.testBit_two_pow]
      have : 13 ≠ c - 32 := by revert c; decide
      simp [this]
  · rw [if_neg h0]
    exact ⟨flags, by rw [show (w.natAbs : Int) = w by omega], by simp [h0], fun c _ => rfl⟩

/-- `parse_` reads exactly the specification. -/
theorem parse_eq (d : Dir) (hd : d.Ok) (hc : d.conv ∈ convs) (rest : List Nat) (args args' : List Int) (a : Ask)
    (h : d.ask args = some (a, args')) (hw : a.width < 2 ^ 31) :
    ∃ sp, parse ((d.text ++ rest).tail) args = some (sp, d.conv :: rest, args') ∧ Agrees sp d a ∧ sp.length = sizeCode d.size := by
  obtain ⟨hf, hwok, hw0, hpok⟩ := hd
  -- the part after the width
  let tail := precText d.prec ++ (d.size.text ++ d.conv :: rest)
  have htext : (d.text ++ rest).tail = d.flags ++ (d.width.text ++ tail) := by
    unfold Dir.text; simp [tail, List.append_assoc]
  have hconv : ∀ c, (d.size.text ++ d.conv :: rest).head? = some c → ¬ (48 ≤ c ∧ c < 58) ∧ c ≠ 42 ∧ c ≠ 46 ∧ c ∉ [45, 43, 32, 35, 48, 39] := by
    intro c h
    have hcc : c ∈ convs ∨ c ∈ [104, 108, 106, 122, 116, 76] := by
      cases hs : d.size <;> rw [hs] at h <;> simp [Size.text] at h <;> subst h <;> first | exact .inl hc | decide
    revert hcc
    clear h
    have : ∀ c ∈ convs ++ [104, 108, 106, 122, 116, 76], ¬ (48 ≤ c ∧ c < 58) ∧ c ≠ 42 ∧ c ≠ 46 ∧ c ∉ [45, 43, 32, 35, 48, 39] := by decide
    intro hcc
    exact this c (List.mem_append.mpr hcc)
  have htail : ∀ c, tail.head? = some c → ¬ (48 ≤ c ∧ c < 58) ∧ c ≠ 42 ∧ c ∉ [45, 43, 32, 35, 48, 39] := by
    intro c h
    cases hp : d.prec with
    | none =>
      simp only [tail, hp, precText, List.nil_append] at h
      have := hconv c h
      exact ⟨this.1, this.2.1, this.2.2.2⟩
    | some f =>
      simp only [tail, hp, precText, List.cons_append, List.head?_cons, Option.some.injEq] at h
      subst h; decide
  have hflags : ∀ c, (d.width.text ++ tail).head? = some c → c ∉ [45, 43, 32, 35, 48, 39] := by
    intro c h
    cases hwd : d.width with
    | star => rw [hwd] at h; simp [Field.text] at h; subst h; decide
    | num ds =>
      rw [hwd] at h hw0 hwok
      cases ds with
      | nil => exact (htail c h).2.2
      | cons x ds =>
        simp only [Field.text, List.cons_append, List.head?_cons, Option.some.injEq] at h hw0
        subst h
        have := hwok.1 x (List.mem_cons_self ..)
        intro hm
        have : x ≠ 48 := fun e => hw0 (by rw [e])
        have h2 : ∀ x ∈ [45, 43, 32, 35, 48, 39], ¬ (48 ≤ x ∧ x < 58) ∨ x = 48 := by decide
        rcases h2 x hm with h2 | h2
        · exact h2 (by assumption)
        · exact this h2
  obtain ⟨n, e1, hn⟩ := parseFlags_eq d.flags (d.width.text ++ tail) 0 hf hflags
  -- the width
  unfold Dir.ask at h
  cases hwt : d.width.take args with
  | none => rw [hwt] at h; exact absurd h (by simp)
  | some r =>
    obtain ⟨w, args1⟩ := r
    rw [hwt] at h
    simp only at h
    obtain ⟨e2, hwI⟩ := field_eq d.width hwok tail (fun c hc => ⟨(htail c hc).1, (htail c hc).2.1⟩) args args1 w hwt
    have hwid : a.width = w.natAbs ∧ a.minus = decide (45 ∈ d.flags ∨ w < 0) := by
      cases hp : d.prec with
      | none => rw [hp] at h; simp only [Option.some.injEq, Prod.mk.injEq] at h; rw [← h.1]; exact ⟨rfl, rfl⟩
      | some f =>
        rw [hp] at h; simp only at h
        cases hft : f.take args1 with
        | none => rw [hft] at h; exact absurd h (by simp)
        | some r => rw [hft] at h; simp only [Option.some.injEq, Prod.mk.injEq] at h; rw [← h.1]; exact ⟨rfl, rfl⟩
    obtain ⟨n2, e3, h45, hoth⟩ := fixWidth_eq n w hwI (by omega)
    -- the precision
    have hprec : ∃ p, parsePrecision tail args1 = some (p, d.size.text ++ d.conv :: rest, args') ∧
        (match a.prec with | none => p < 0 | some k => p = (k : Int)) := by
      unfold parsePrecision
      cases hp : d.prec with
      | none =>
        rw [hp] at h
        simp only [Option.some.injEq, Prod.mk.injEq] at h
        rw [if_neg]
        · refine ⟨-1, ?_, ?_⟩
          · simp only [tail, hp, precText, List.nil_append]; rw [h.2]
          · rw [← h.1]; dsimp only; decide
        · intro h46
          simp only [tail, hp, precText, List.nil_append] at h46
          exact (hconv 46 h46).2.2.1 rfl
      | some f =>
        rw [hp] at h
        simp only at h
        cases hft : f.take args1 with
        | none => rw [hft] at h; exact absurd h (by simp)
        | some r =>
          obtain ⟨p, args2⟩ := r
          rw [hft] at h
          simp only [Option.some.injEq, Prod.mk.injEq] at h
          obtain ⟨e, _⟩ := field_eq f (hpok f hp) (d.size.text ++ d.conv :: rest)
            (fun c hc => ⟨(hconv c hc).1, (hconv c hc).2.1⟩) args1 args2 p hft
          rw [if_pos (by simp only [tail, hp, precText]; rfl)]
          refine ⟨p, ?_, ?_⟩
          · simp only [tail, hp, precText, List.cons_append, List.tail_cons]; rw [e, h.2]
          · rw [← h.1]
            simp only
            by_cases h0 : p < 0
            · rw [if_pos h0]; exact h0
            · rw [if_neg h0]; simp only; omega
    obtain ⟨p, e4, hp⟩ := hprec
    obtain ⟨e5, e6⟩ := lengthCode_eq d.size d.conv hc rest
    refine ⟨⟨n2, (w.natAbs : Int), p, sizeCode d.size⟩, ?_, ⟨?_, ?_, ?_, hp⟩, rfl⟩
    · unfold parse
      rw [htext, e1]
      simp only
      rw [e2]
      simp only
      rw [e3]
      simp only
      rw [e4]
      simp only
      rw [e5, e6]
    · simp only
      rw [h45, hwid.2]
      unfold has
      rw [hn]
      simp [Bool.decide_or]
    · intro c hc
      simp only
      rw [hoth c hc]
      unfold has
      rw [hn]
      have : c - 32 + 32 = c := by revert c; decide
      simp [this]
    · simp only; rw [hwid.1]

end Verif.Printf
