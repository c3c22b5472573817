import Verif.Time.Model
import Verif.Time.Spec

/-!
# Calendar arithmetic behind C28–C30
-/

namespace Verif.Time

/-- Closed form of the number of days from 0000-03-01 to a date. -/
def cycle (y m d : Int) : Int :=
  let y' := if m ≤ 2 then y - 1 else y
  let mp := if m ≤ 2 then m + 9 else m - 3
  365 * y' + y' / 4 - y' / 100 + y' / 400 + (153 * mp + 2) / 5 + d - 1

/-- Day number of a date, day 0 being 1970-01-01. -/
def dn (x : Date) : Int := cycle x.y x.m x.d - 719468

theorem dn_next (x : Date) (h : x.Valid) : dn x.next = dn x + 1 := by
  obtain ⟨y, m, d⟩ := x
  obtain ⟨h1, h2, h3, h4⟩ := h
  simp only at h1 h2 h3 h4
  have hm : m = 1 ∨ m = 2 ∨ m = 3 ∨ m = 4 ∨ m = 5 ∨ m = 6 ∨ m = 7 ∨ m = 8 ∨ m = 9 ∨ m = 10 ∨ m = 11 ∨ m = 12 := by
    omega
  rcases hm with rfl | rfl | rfl | rfl | rfl | rfl | rfl | rfl | rfl | rfl | rfl | rfl <;>
    simp [monthLen] at h4 <;> simp [Date.next, monthLen] <;>
    (try (by_cases hl : Leap y <;> simp [hl] at h4 ⊢)) <;>
    (split <;> simp [dn, cycle] <;> (try unfold Leap at hl) <;> omega)

theorem next_valid (x : Date) (h : x.Valid) : x.next.Valid := by
  obtain ⟨y, m, d⟩ := x
  obtain ⟨h1, h2, h3, h4⟩ := h
  simp only at h1 h2 h3 h4
  unfold Date.next
  simp only
  split
  · exact ⟨h1, h2, by simp only; omega, by simp only; omega⟩
  · split
    · refine ⟨by simp only; omega, by simp only; omega, by simp only; omega, ?_⟩
      simp only [monthLen]; split <;> (try split) <;> omega
    · exact ⟨by simp only; omega, by simp only; omega, by simp only; omega, by simp [monthLen]⟩

theorem date_inv {n x} (h : DateOfDay n x) : x.Valid ∧ dn x = n := by
  induction h with
  | epoch => exact ⟨by unfold Date.Valid; decide, by decide⟩
  | after _ ih => exact ⟨next_valid _ ih.1, by rw [dn_next _ ih.1, ih.2]⟩
  | before hv _ ih => exact ⟨hv, by have := dn_next _ hv; omega⟩

/-- The day before. -/
def prev (x : Date) : Date :=
  if 1 < x.d then ⟨x.y, x.m, x.d - 1⟩
  else if 1 < x.m then ⟨x.y, x.m - 1, monthLen x.y (x.m - 1)⟩
  else ⟨x.y - 1, 12, 31⟩

theorem monthLen_pos (y m : Int) : 1 ≤ monthLen y m := by
  unfold monthLen; split <;> (try split) <;> omega

theorem prev_valid (x : Date) (h : x.Valid) : (prev x).Valid ∧ (prev x).next = x := by
  obtain ⟨y, m, d⟩ := x
  obtain ⟨h1, h2, h3, h4⟩ := h
  simp only at h1 h2 h3 h4
  unfold prev
  simp only
  split
  · refine ⟨⟨h1, h2, by simp only; omega, by simp only; omega⟩, ?_⟩
    unfold Date.next; simp only
    rw [if_pos (by omega)]; simp
  · split
    · refine ⟨⟨by simp only; omega, by simp only; omega, monthLen_pos _ _, by simp only; omega⟩, ?_⟩
      unfold Date.next; simp only
      rw [if_neg (by omega), if_pos (by omega)]
      simp; omega
    · refine ⟨⟨by simp only; omega, by simp only; omega, by simp only; omega, by simp [monthLen]⟩, ?_⟩
      unfold Date.next; simp only
      rw [if_neg (by simp [monthLen]), if_neg (by omega)]
      simp; omega

theorem date_of_zero (x : Date) (h : x.Valid) (h0 : dn x = 0) : x = ⟨1970, 1, 1⟩ := by
  obtain ⟨y, m, d⟩ := x
  obtain ⟨h1, h2, h3, h4⟩ := h
  simp only at h1 h2 h3 h4
  have hm : m = 1 ∨ m = 2 ∨ m = 3 ∨ m = 4 ∨ m = 5 ∨ m = 6 ∨ m = 7 ∨ m = 8 ∨ m = 9 ∨ m = 10 ∨ m = 11 ∨ m = 12 := by
    omega
  have hd : d ≤ 31 := by
    refine Int.le_trans h4 ?_
    unfold monthLen; split <;> (try split) <;> omega
  have hyr : y = 1968 ∨ y = 1969 ∨ y = 1970 ∨ y = 1971 := by
    rcases hm with rfl | rfl | rfl | rfl | rfl | rfl | rfl | rfl | rfl | rfl | rfl | rfl <;>
      simp [dn, cycle] at h0 <;> omega
  have hy : y = 1970 ∧ m = 1 ∧ d = 1 := by
    rcases hyr with rfl | rfl | rfl | rfl <;>
    rcases hm with rfl | rfl | rfl | rfl | rfl | rfl | rfl | rfl | rfl | rfl | rfl | rfl <;>
      simp [dn, cycle] at h0 <;> simp [monthLen] at h4 <;> (try simp [Leap] at h4) <;> omega
  rw [hy.1, hy.2.1, hy.2.2]

theorem date_of_dn (n : Int) : ∀ x : Date, x.Valid → dn x = n → DateOfDay n x := by
  by_cases hn : 0 ≤ n
  · obtain ⟨k, rfl⟩ := Int.eq_ofNat_of_zero_le hn
    clear hn
    induction k with
    | zero => intro x hx h; rw [date_of_zero x hx h]; exact .epoch
    | succ k ih =>
      intro x hx h
      obtain ⟨hv, hn⟩ := prev_valid x hx
      have := dn_next _ hv
      rw [hn] at this
      have h2 := ih (prev x) hv (by push_cast at h; omega)
      have h3 := h2.after
      rw [hn] at h3
      exact_mod_cast h3
  · obtain ⟨k, hk⟩ : ∃ k : Nat, n = -(k : Int) := ⟨n.natAbs, by omega⟩
    subst hk
    clear hn
    induction k with
    | zero => intro x hx h; rw [date_of_zero x hx (by simpa using h)]; exact .epoch
    | succ k ih =>
      intro x hx h
      refine .before hx ?_
      have := dn_next _ hx
      have h2 := ih x.next (next_valid x hx) (by push_cast at h; omega)
      have h3 : (-((k + 1 : Nat) : Int) + 1) = -(k : Int) := by push_cast; omega
      rw [h3]; exact h2

theorem dn_inj (x x' : Date) (h : x.Valid) (h' : x'.Valid) (e : dn x = dn x') : x = x' := by
  generalize hn : dn x = n at e
  revert x x'
  by_cases h0 : 0 ≤ n
  · obtain ⟨k, rfl⟩ := Int.eq_ofNat_of_zero_le h0
    clear h0
    induction k with
    | zero =>
      intro x x' h h' e1 e2
      rw [date_of_zero x h e1, date_of_zero x' h' e2.symm]
    | succ k ih =>
      intro x x' h h' e1 e2
      obtain ⟨hv, hn⟩ := prev_valid x h
      obtain ⟨hv', hn'⟩ := prev_valid x' h'
      have a1 := dn_next _ hv
      have a2 := dn_next _ hv'
      rw [hn] at a1
      rw [hn'] at a2
      push_cast at e1 e2
      rw [← hn, ← hn', ih (prev x) (prev x') hv hv' (by omega) (by omega)]
  · obtain ⟨k, hk⟩ : ∃ k : Nat, n = -(k : Int) := ⟨n.natAbs, by omega⟩
    subst hk
    clear h0
    induction k with
    | zero =>
      intro x x' h h' e1 e2
      rw [date_of_zero x h (by simpa using e1), date_of_zero x' h' (by simpa using e2.symm)]
    | succ k ih =>
      intro x x' h h' e1 e2
      have a1 := dn_next _ h
      have a2 := dn_next _ h'
      push_cast at e1 e2
      have e3 := ih x.next x'.next (next_valid x h) (next_valid x' h') (by omega) (by omega)
      have b1 : prev x.next = prev x'.next := by rw [e3]
      have key : ∀ z : Date, z.Valid → prev z.next = z := by
        intro z hz
        obtain ⟨y, m, d⟩ := z
        obtain ⟨h1, h2, h3, h4⟩ := hz
        simp only at h1 h2 h3 h4
        unfold Date.next
        simp only
        split
        · unfold prev; simp only; rw [if_pos (by omega)]; simp
        · split
          · unfold prev; simp only; rw [if_neg (by omega), if_pos (by omega)]; simp; omega
          · unfold prev; simp only; rw [if_neg (by omega), if_neg (by omega)]
            have hm : m = 12 := by omega
            subst hm
            have : monthLen y 12 = 31 := by simp [monthLen]
            simp; omega
      rw [key x h, key x' h'] at b1
      exact b1

end Verif.Time
