import Verif.Sort.Heap

/-!
# Properties of `qsort` and `bsearch`
-/

namespace Verif.Sort

variable {E : Type}

/-- **C33**. For every consistent comparison function and every array that does not lie below address
`size`, `qsort` stays inside the array, permutes its elements, leaves them in ascending order and
touches nothing else. Missing: arrays at an address smaller than the element size, see
`C33_low_address`. -/
theorem C33_qsort_partial (cmp : E → E → Int) (hc : Consistent cmp) (clz0 : Int) (base size count : Nat)
    (hsize : 0 < size) (hbase : size ≤ base) (haddr : base < 4294967296) (a : Nat → E) :
    ∃ a', qsort cmp clz0 base size count a = some a' ∧ (elements a' count).Perm (elements a count) ∧
      Ascending cmp (elements a' count) ∧ ∀ i, count ≤ i → a' i = a i := by
  obtain ⟨a', e, hp, hs⟩ := introsort_spec hc base size ⟨hsize, hbase, haddr⟩ 0 count
    (31 - (if count = 0 then clz0 else 31 - Nat.log2 count)) a
  rw [Nat.zero_add] at hp hs
  exact ⟨a', e, hp.elements, hs.elements, fun i hi => hp.out (.inr hi)⟩

/-- **C33** (violation). Two elements in descending order, each larger than the address of the array:
`b >= begin` holds for the address `begin - size`, which wraps around, and an access outside the
array follows. -/
theorem C33_low_address (cmp : E → E → Int) (clz0 : Int) (base size : Nat) (hsize : base < size) (hsz : size < 4294967296)
    (a : Nat → E) (h : cmp (a 1) (a 0) < 0) : qsort cmp clz0 base size 2 a = none := by
  unfold qsort introsort
  rw [if_pos (by decide)]
  have hge : base ≤ (base + 4294967296 - size) % 4294967296 := by
    rw [Nat.mod_eq_of_lt (by omega)]; omega
  simp [insertionSort, insOuter, insLoop, inb, h, hge]

/-- Elements of 4096 bytes at address 1024. -/
example : qsort (fun x y : Int => x - y) 32 1024 4096 2 (fun i => if i = 0 then 1 else 0) = none :=
  C33_low_address _ _ _ _ (by decide) (by decide) _ (by decide)

/-- A consistent comparison, and `qsort` on nine integers at address 1024 (so that a partition is
made). -/
example : Consistent (fun x y : Int => x - y) ∧
    (qsort (fun x y : Int => x - y) 32 1024 4 9 (fun i => [5, 3, 9, 1, 1, 7, 0, 8, 2].getD i 0)).map
      (fun a => (List.range 9).map a) = some [0, 1, 1, 2, 3, 5, 7, 8, 9] := by
  refine ⟨⟨fun x y => by omega, fun x y z => by omega⟩, by decide +kernel⟩

/-- **C34** (present). If the ordered array has an element equal to the key, `bsearch` returns such an
element. -/
theorem C34_present_partial {K : Type} (cmpk : K → E → Int) (key : K) (a : Nat → E) (count : Nat)
    (ho : Ordered cmpk key a count) (hx : ∃ x, x < count ∧ cmpk key (a x) = 0) :
    ∃ fuel i, bsearch cmpk key a fuel 0 count = some (some i) ∧ i < count ∧ cmpk key (a i) = 0 := by
  obtain ⟨x, hx, he⟩ := hx
  obtain ⟨i, e, -, i2, i3⟩ := bsearch_found cmpk key a count ho x he count 0 count (by omega) (by omega) (Nat.le_refl _)
  exact ⟨count, i, e, by omega, i3⟩

/-- **C34** (absent). If every element is greater than the key, `bsearch` returns a null pointer.
Missing: absent keys that are greater than some element, see `C34_diverges`. -/
theorem C34_absent_partial {K : Type} (cmpk : K → E → Int) (key : K) (a : Nat → E) (count : Nat)
    (hx : ∀ x, x < count → cmpk key (a x) < 0) : ∃ fuel, bsearch cmpk key a fuel 0 count = some none := by
  have : ∀ fuel count', count' ≤ count → count' < fuel → bsearch cmpk key a fuel 0 count' = some none := by
    intro fuel
    induction fuel with
    | zero => intro _ _ h; omega
    | succ fuel ih =>
      intro c hc hf
      unfold bsearch
      by_cases h0 : c = 0
      · rw [if_pos h0]
      · rw [if_neg h0]
        simp only
        rw [if_pos (hx _ (by omega))]
        exact ih _ (by omega) (by omega)
  exact ⟨count + 1, this _ _ (Nat.le_refl _) (by omega)⟩

/-- **C34** (violation). Whenever the key is absent and greater than the first element, the recursion
never ends. -/
theorem C34_diverges {K : Type} (cmpk : K → E → Int) (key : K) (a : Nat → E) (count : Nat)
    (ho : Ordered cmpk key a count) (hpos : 0 < count) (h0 : 0 < cmpk key (a 0))
    (hx : ∀ x, x < count → cmpk key (a x) ≠ 0) (fuel : Nat) : bsearch cmpk key a fuel 0 count = none := by
  have : ∀ fuel lo c, 0 < c → lo + c ≤ count → 0 < cmpk key (a lo) → bsearch cmpk key a fuel lo c = none := by
    intro fuel
    induction fuel with
    | zero => intros; rfl
    | succ fuel ih =>
      intro lo c hc hn hlo
      unfold bsearch
      rw [if_neg (by omega)]
      simp only
      by_cases h1 : cmpk key (a (lo + c / 2)) < 0
      · rw [if_pos h1]
        have : c / 2 ≠ 0 := by
          intro h; rw [h] at h1; simp at h1; omega
        exact ih lo (c / 2) (by omega) (by omega) hlo
      · rw [if_neg h1, if_pos (hx _ (by omega))]
        exact ih _ _ (by omega) (by omega) (by have := hx (lo + c / 2) (by omega); omega)
  exact this fuel 0 count hpos (by omega) h0

/-- The hypotheses of the three theorems about `bsearch` hold on the array 1, 3 for the keys 3, 0 and
2. -/
example : Ordered (fun k x : Int => k - x) 3 (fun i => if i = 0 then 1 else 3) 2 ∧
    bsearch (fun k x : Int => k - x) 3 (fun i => if i = 0 then 1 else 3) 5 0 2 = some (some 1) ∧
    bsearch (fun k x : Int => k - x) 0 (fun i => if i = 0 then 1 else 3) 5 0 2 = some none ∧
    Ordered (fun k x : Int => k - x) 2 (fun i => if i = 0 then 1 else 3) 2 ∧
    bsearch (fun k x : Int => k - x) 2 (fun i => if i = 0 then 1 else 3) 1000 0 2 = none := by
  refine ⟨?_, by decide, by decide, ?_, by decide +kernel⟩
  · intro i j h1 h2; constructor <;> intro h <;> (simp only at h ⊢; split at h <;> split <;> omega)
  · intro i j h1 h2; constructor <;> intro h <;> (simp only at h ⊢; split at h <;> split <;> omega)

end Verif.Sort
