import Verif.Host.WideTime

/-! # `wcsftime` step by step -/

namespace Verif.Host

open Verif.Time (Tm Text Std)
open Verif.Utf Verif.Utf.Spec

theorem count_bytes (junk : List Nat) : ∀ (t : List Char) (n : Nat), (∀ c ∈ t, 0 < c.toNat) →
    wcsrtombsCount (t.map Char.toNat ++ 0 :: junk) n = some (n + (bytes t).length)
  | [], n, _ => by unfold wcsrtombsCount bytes; simp
  | c :: t, n, h => by
    have h1 := wcrtomb_scalar c.toNat (char_scalar c)
    have h2 := h1.2.length_le
    have h3 := h c (List.mem_cons_self ..)
    rw [List.map_cons, List.cons_append]
    unfold wcsrtombsCount
    simp only
    rw [if_neg (by omega), if_neg (by rw [h1.1]; unfold ERR; omega), count_bytes junk t _ fun x hx => h x (List.mem_cons_of_mem _ hx)]
    unfold bytes
    rw [List.flatMap_cons, List.length_append, h1.1]
    congr 1
    omega

theorem count_bad {bad : Nat} (h1 : bad < 2 ^ 32) (h2 : ¬ Scalar bad) (more : List Nat) : ∀ (t : List Char) (n : Nat),
    (∀ c ∈ t, 0 < c.toNat) → wcsrtombsCount (t.map Char.toNat ++ bad :: more) n = some ERR
  | [], n, _ => by
    have h3 : bad ≠ 0 := by rintro rfl; exact h2 (by decide)
    unfold wcsrtombsCount
    simp only [List.map_nil, List.nil_append]
    rw [if_neg h3, wcrtomb_nonscalar bad h1 h2, if_pos rfl]
  | c :: t, n, h => by
    have h1' := wcrtomb_scalar c.toNat (char_scalar c)
    have h2' := h1'.2.length_le
    have h3 := h c (List.mem_cons_self ..)
    rw [List.map_cons, List.cons_append]
    unfold wcsrtombsCount
    simp only
    rw [if_neg (by omega), if_neg (by rw [h1'.1]; unfold ERR; omega)]
    exact count_bad h1 h2 more t _ fun x hx => h x (List.mem_cons_of_mem _ hx)

theorem char_pos {c : Char} (h : c ≠ '\x00') : 0 < c.toNat := by
  apply Nat.pos_of_ne_zero
  intro h0
  exact h (toNat_inj h0)

theorem format_bytes (junk : List Nat) (t : List Char) (h : ∀ c ∈ t, 0 < c.toNat) :
    ∃ o, wcsrtombs ((bytes t).length + 1) (t.map Char.toNat ++ 0 :: junk) = some o ∧ o.dst.takeWhile (· ≠ 0) = bytes t := by
  have hs : ∀ c ∈ t.map Char.toNat, c ≠ 0 := by
    intro c hc
    obtain ⟨d, hd, rfl⟩ := List.mem_map.1 hc
    have := h d hd
    omega
  have h1 := (C137_strings ((bytes t).length + 1) (bytes t) (t.map Char.toNat) junk (bytes_enc t) hs (by omega)).2.1
  unfold wcstombs at h1
  cases ho : wcsrtombs ((bytes t).length + 1) (t.map Char.toNat ++ 0 :: junk) with
  | none => rw [ho] at h1; simp at h1
  | some o =>
    rw [ho] at h1
    simp only [Option.map_some, Option.some.injEq, Prod.mk.injEq] at h1
    refine ⟨o, rfl, ?_⟩
    rw [h1.2, List.takeWhile_append_of_pos]
    · simp
    · intro x hx
      have := bytes_pos h x hx
      simp
      omega

/-- Reading a buffer that holds a text and its terminator. -/
theorem read_back {mem : Nat → Char} {t : List Char} {cap : Nat} (hc : (bytes t).length < cap)
    (h1 : ∀ i (hi : i < (t.flatMap enc).length), mem i = (t.flatMap enc)[i]) (h2 : mem (t.flatMap enc).length = '\x00') :
    ∃ junk, (List.range cap).map (fun i => (mem i).toNat) = bytes t ++ 0 :: junk := by
  have hl : (t.flatMap enc).length = (bytes t).length := by rw [← bytes_map, List.length_map]
  obtain ⟨k, rfl⟩ : ∃ k, cap = (bytes t).length + (1 + k) := ⟨cap - (bytes t).length - 1, by omega⟩
  refine ⟨((List.range k).map fun i => (mem ((bytes t).length + (1 + i))).toNat), ?_⟩
  rw [List.range_add, List.map_append]
  congr 1
  · apply List.ext_getElem
    · simp
    · intro i hi hi'
      simp only [List.getElem_map, List.getElem_range]
      rw [h1 i (by omega)]
      have : (t.flatMap enc)[i]'(by omega) = Char.ofNat ((bytes t)[i]) := by
        simp only [← bytes_map, List.getElem_map]
      rw [this, ofNat_toNat_byte (bytes_lt t _ (List.getElem_mem ..))]
  · rw [List.range_add]
    rw [hl] at h2
    simp [List.range_succ, h2, List.map_map, Function.comp_def]

/-- Storing a list. -/
theorem store_lt {s : Nat → Nat} {l : List Nat} {i : Nat} (h : i < l.length) : store s l i = l[i] := by
  unfold store; simp [h]

theorem store_ge {s : Nat → Nat} {l : List Nat} {i : Nat} (h : l.length ≤ i) : store s l i = s i := by
  unfold store; simp [h]

section
variable (tm : Tm) (hs : Std tm) (fmt T : List Char) (hT : Text tm fmt T) (hf : ∀ c ∈ fmt, 0 < c.toNat) (hl : fmt.length < 2 ^ 30 - 1)
  (s : Nat → Nat) (maxsize : Nat) (h0 : 0 < maxsize) (hm : maxsize < 2 ^ 30) (more : List Nat) (junk : Nat → Char)
include hs hT hf hl h0 hm

/-- The call up to `strftime`, which succeeds with the encoding of the text. -/
theorem wcsftime_long (hc : (bytes T).length < maxsize * 4) (hne : T ≠ []) :
    ∃ junk', wcsftime s maxsize (fmt.map Char.toNat ++ 0 :: more) tm true true junk =
      (mbstowcs maxsize (bytes T ++ 0 :: junk')).bind fun p =>
        if p.1 = ERR ∨ p.1 ≥ maxsize then some (0, fun i => if i = 0 then 0 else store s p.2 i) else some (p.1, store s p.2) := by
  have hb := (bytes_length fmt).2
  obtain ⟨o, ho, hd⟩ := format_bytes more fmt hf
  obtain ⟨mem, m1, m2, m3, _⟩ := Time.C31_fits tm hs _ _ (text_enc tm hT hf) junk (maxsize * 4)
    (by rw [← bytes_map, List.length_map]; exact hc)
  obtain ⟨junk', hj⟩ := read_back hc m2 m3
  have hpos : (T.flatMap enc).length ≠ 0 := by
    rw [← bytes_map, List.length_map]
    have := (bytes_length T).1
    have := List.length_pos_iff.2 hne
    omega
  refine ⟨junk', ?_⟩
  unfold wcsftime
  rw [if_neg (by omega), count_bytes more fmt 0 hf]
  simp only [Option.bind_eq_bind, Option.bind_some, Nat.zero_add]
  rw [if_neg (by unfold ERR; omega), if_neg (by decide), ho]
  simp only [Option.bind_some]
  rw [if_neg (by decide), hd, bytes_map, Nat.mod_eq_of_lt (by omega), m1]
  simp only [Option.bind_some]
  rw [if_neg hpos, hj]
  cases mbstowcs maxsize (bytes T ++ 0 :: junk') with
  | none => rfl
  | some p => rfl

/-- The call if `strftime` has nothing to say or no room. -/
theorem wcsftime_zero (hc : maxsize * 4 ≤ (bytes T).length ∨ T = []) :
    wcsftime s maxsize (fmt.map Char.toNat ++ 0 :: more) tm true true junk = some (0, s) := by
  have hb := (bytes_length fmt).2
  obtain ⟨o, ho, hd⟩ := format_bytes more fmt hf
  have key : ∃ mem, Time.strftime junk (maxsize * 4) (fmt.flatMap enc) tm = some (0, mem) := by
    rcases hc with hc | rfl
    · obtain ⟨mem, m1, _⟩ := Time.C31_too_long tm hs _ _ (text_enc tm hT hf) junk (maxsize * 4)
        (by rw [← bytes_map, List.length_map]; exact hc)
      exact ⟨mem, m1⟩
    · obtain ⟨mem, m1, _⟩ := Time.C31_fits tm hs _ _ (text_enc tm hT hf) junk (maxsize * 4)
        (by simp; omega)
      exact ⟨mem, m1⟩
  obtain ⟨mem, m1⟩ := key
  unfold wcsftime
  rw [if_neg (by omega), count_bytes more fmt 0 hf]
  simp only [Option.bind_eq_bind, Option.bind_some, Nat.zero_add]
  rw [if_neg (by unfold ERR; omega), if_neg (by decide), ho]
  simp only [Option.bind_some]
  rw [if_neg (by decide), hd, bytes_map, Nat.mod_eq_of_lt (by omega), m1]
  rfl

end

end Verif.Host
