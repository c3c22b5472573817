import Verif.Str.Tokens

namespace Verif.Str

theorem moved_written (m m' : Mem) (d s : Nat) (bs : List Nat) (h : Holds m s bs) (hm : Moved m m' d s bs.length) :
    Written m m' d bs := by
  refine ⟨fun i hi => ?_, fun a ha => ?_⟩
  · rw [hm, if_pos (by omega), show s + (d + i - d) = s + i by omega]
    exact h i hi
  · rw [hm, if_neg ha]

theorem holds_append {m : Mem} {s : Nat} {xs ys : List Nat} (h1 : Holds m s xs) (h2 : Holds m (s + xs.length) ys) :
    Holds m s (xs ++ ys) := by
  intro i hi
  by_cases h : i < xs.length
  · rw [List.getElem_append_left h]; exact h1 i h
  · simp only [List.length_append] at hi
    rw [List.getElem_append_right (by omega)]
    have := h2 (i - xs.length) (by omega)
    rwa [show s + xs.length + (i - xs.length) = s + i by omega] at this

theorem cstr_append {m m' : Mem} {d : Nat} {ds bs : List Nat} (hd : CStr m d ds) (hb : ∀ b ∈ bs, b ≠ 0)
    (hw : Written m m' (d + ds.length) (bs ++ [0])) : CStr m' d (ds ++ bs) := by
  refine ⟨fun b h => ?_, ?_⟩
  · rcases List.mem_append.mp h with h | h
    · exact hd.1 b h
    · exact hb b h
  · rw [List.append_assoc]
    refine holds_append (fun i hi => ?_) hw.1
    rw [hw.2 _ (by omega)]
    exact hd.get i hi

theorem strncpy_fail (L : Nat) (m : Mem) (n d s : Nat) (bs : List Nat) (h : CStr m s bs) (hs : s + bs.length < L)
    (hL : L < 4294967296) (hd : d + n ≤ L) (hov : d + n ≤ s ∨ s + bs.length < d)
    (h1 : bs.length < n) (h2 : (d + bs.length) % 8 ≠ 0) (h3 : (d + bs.length) % 8 + (n - bs.length) < 8) :
    strncpy L n d s m = none := by
  induction n generalizing m d s bs with
  | zero => omega
  | succ n ih =>
    unfold strncpy
    cases bs with
    | nil =>
      simp only [List.length_nil, Nat.add_zero] at *
      rw [if_pos hs, if_neg (by simpa using h.nil)]
      exact memsetFrom_fail L _ (n + 1) d m hL hd (by omega) h2
    | cons b bs =>
      simp only [List.length_cons] at *
      obtain ⟨hb, hb0⟩ := h.head
      rw [if_pos (by omega), if_pos (by rw [hb]; exact hb0), if_pos (by omega)]
      refine ih _ (d + 1) (s + 1) bs (h.tail.congr fun a ha1 ha2 => ?_) (by omega) (by omega) (by omega) (by omega) ?_ ?_
      · rw [put_get, if_neg (by omega)]
      · rwa [show d + 1 + bs.length = d + (bs.length + 1) by omega]
      · rw [show d + 1 + bs.length = d + (bs.length + 1) by omega]; omega

theorem strxfrm_spec (L : Nat) (hL : L ≤ 4294967296) (h8 : L % 8 = 0) (m : Mem) (hm : ∀ a, m a < 256) (d s n : Nat)
    (bs : List Nat) (h : CStr m s bs) (hs : s + bs.length < L) (hd : d + n ≤ L) (hov : d + n ≤ s ∨ s + bs.length < d) :
    ∃ m', strxfrm L m d s n = some (m', bs.length) ∧ (∀ a, ¬ (d ≤ a ∧ a < d + n) → m' a = m a) ∧ (∀ a, m' a < 256) ∧
      (bs.length < n → Written m m' d (bs ++ [0])) := by
  unfold strxfrm
  simp only [strlen_spec L h8 m hm s bs h hs, Option.bind_eq_bind, Option.bind_some]
  by_cases hn : n = 0
  · rw [if_neg (by simpa using hn)]
    exact ⟨m, rfl, fun a _ => rfl, hm, fun h => by omega⟩
  · rw [if_pos hn]
    have hc : (if bs.length < n then bs.length else n - 1) < n := by split <;> omega
    have hc' : (if bs.length < n then bs.length else n - 1) ≤ bs.length := by split <;> omega
    have hc2 : bs.length < n → (if bs.length < n then bs.length else n - 1) = bs.length := fun h => if_pos h
    generalize (if bs.length < n then bs.length else n - 1) = c at hc hc' hc2 ⊢
    obtain ⟨m', e, hmv⟩ := copy_moved L d s c m hL (by omega) (by omega) (by omega)
    unfold memcpy
    rw [e]
    simp only [Option.bind_some]
    rw [if_pos (by omega)]
    refine ⟨_, rfl, fun a ha => ?_, fun a => ?_, fun hb => ?_⟩
    · rw [put_get, if_neg (by omega), hmv, if_neg (by omega)]
    · rw [put_get]
      split
      · omega
      · rw [hmv]; split <;> exact hm _
    · rw [hc2 hb] at hmv ⊢
      refine ⟨fun i hi => ?_, fun a ha => ?_⟩
      · simp only [List.length_append, List.length_cons, List.length_nil] at hi
        by_cases hib : i < bs.length
        · rw [List.getElem_append_left hib, put_get, if_neg (by omega), hmv, if_pos (by omega)]
          rw [show s + (d + i - d) = s + i by omega]
          exact h.get i hib
        · rw [List.getElem_append_right (by omega), put_get, if_pos (by omega)]; simp
      · simp only [List.length_append, List.length_cons, List.length_nil] at ha
        rw [put_get, if_neg (by omega), hmv, if_neg (by omega)]

end Verif.Str
