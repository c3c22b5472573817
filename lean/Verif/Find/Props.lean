import Verif.Find.Spec
import Verif.Find.Model
import Verif.Find.Search
import Verif.Str.Props

/-!
# Properties of substring search
-/

namespace Verif.Find

/-- C16, partial: memmem returns the first occurrence when the needle either has both a suffix that differs
from it upwards and one that differs from it downwards, or has neither (all its bytes are equal). Missing:
the other needles, for which it fails. -/
theorem C16_memmem_partial (y x : List Nat) (hW : y.length + 1 < 2 ^ 32) (hb : HasLarger x ↔ HasSmaller x) :
    ∃ r, memmem y x = some r ∧ First y x r := by
  obtain ⟨r, e, _, h⟩ := memmem_spec y x hW
  exact ⟨r, e, h hb⟩

example : (HasLarger [98, 97, 99] ↔ HasSmaller [98, 97, 99]) ∧ memmem [98, 97, 98, 97, 99] [98, 97, 99] = some (some 2) := by
  refine ⟨⟨fun _ => ⟨1, 0, by decide, fun i h => by omega, by decide⟩, fun _ => ⟨2, 0, by decide, fun i h => by omega, by decide⟩⟩, ?_⟩
  decide +kernel

/-- C16, for every needle: memmem reads only its arguments, terminates, and returns only occurrences. -/
theorem C16_memmem_sound (y x : List Nat) (hW : y.length + 1 < 2 ^ 32) :
    ∃ r, memmem y x = some r ∧ ∀ j, r = some j → OccursAt y x j := by
  obtain ⟨r, e, h, _⟩ := memmem_spec y x hW
  exact ⟨r, e, h⟩

example : memmem [97, 98, 97] [97, 98] = some (some 0) := by decide +kernel

/-- C16, negation: for every other needle there is a haystack, shorter than twice the needle, in which memmem
misses an occurrence. -/
theorem C16_memmem_misses (x : List Nat) (hW : x.length + x.length + 1 < 2 ^ 32) (hb : ¬ (HasLarger x ↔ HasSmaller x)) :
    ∃ y j, y.length < 2 * x.length ∧ OccursAt y x j ∧ memmem y x = some none := by
  obtain ⟨y, j, h1, h2, h3⟩ := memmem_fails x hW hb
  exact ⟨y, j, by omega, h2, h3⟩

example : OccursAt [97, 97, 98] [97, 98] 1 ∧ memmem [97, 97, 98] [97, 98] = some none := by
  refine ⟨⟨by decide, fun t ht => ?_⟩, by decide +kernel⟩
  match t, ht with
  | 0, _ => rfl
  | 1, _ => rfl

/-- The bytes of a string in memory. -/
theorem bytesAt_cstr {m : Str.Mem} {s : Nat} {bs : List Nat} (h : Str.CStr m s bs) : bytesAt m s bs.length = bs := by
  apply List.ext_getElem
  · simp [bytesAt]
  · intro i h1 h2
    simp only [bytesAt, List.getElem_map, List.getElem_range]
    exact h.get i h2

/-- C16, partial: strstr, under the same condition on the needle, unless the needle has at most one
character. -/
theorem C16_strstr_partial (L : Nat) (hL : L ≤ 2 ^ 32) (h8 : L % 8 = 0) (m : Str.Mem) (hm : ∀ a, m a < 256) (s x : Nat) (ys xs : List Nat)
    (hs : Str.CStr m s ys) (hx : Str.CStr m x xs) (h0 : 0 < s) (hsL : s + ys.length < L) (hxL : x + xs.length < L)
    (hb : xs.length ≤ 1 ∨ (HasLarger xs ↔ HasSmaller xs)) :
    ∃ r, strstr L m s x = some (r.map (s + ·)) ∧ First ys xs r := by
  unfold strstr
  rw [if_pos (by omega)]
  match xs, hx, hxL, hb with
  | [], hx, hxL, hb =>
    rw [if_pos hx.nil]
    exact ⟨some 0, rfl, ⟨by simp, fun t ht => by simp at ht⟩, fun i hi => by omega⟩
  | [c], hx, hxL, hb =>
    obtain ⟨hc, hc0⟩ := hx.head
    simp only [List.length_cons, List.length_nil] at hxL
    rw [if_neg (by rw [hc]; exact hc0), if_pos (by omega), if_pos (by simpa using hx.end_zero)]
    have hcb : Str.byteOf (m x : Int) = c := by
      have := hm x
      unfold Str.byteOf
      rw [hc] at this ⊢
      omega
    rcases Str.C06_strchr L h8 m hm s ys hs hsL (m x : Int) with ⟨h1, h2⟩ | ⟨i, hi, h1, h2, h3⟩
    · refine ⟨none, h2, fun i ho => h1 ?_⟩
      have := ho.2 0 (by simp)
      simp only [Nat.add_zero, List.getElem?_cons_zero] at this
      rw [hcb]
      exact List.mem_append_left _ (List.mem_of_getElem? this)
    · rw [hcb] at h1 h2
      have hilt : i < ys.length := by
        simp only [List.length_append, List.length_cons, List.length_nil] at hi
        rcases Nat.lt_or_ge i ys.length with h | h
        · exact h
        · rw [List.getElem_append_right h] at h1
          simp at h1
          exact absurd h1.symm hc0
      refine ⟨some i, h3, ⟨by simp; omega, fun t ht => ?_⟩, fun i' hi' ho => ?_⟩
      · simp only [List.length_cons, List.length_nil] at ht
        obtain rfl : t = 0 := by omega
        rw [List.getElem_append_left hilt] at h1
        simp only [Nat.add_zero, List.getElem?_cons_zero]
        rw [List.getElem?_eq_getElem hilt, h1]
      · have := ho.2 0 (by simp)
        simp only [Nat.add_zero, List.getElem?_cons_zero] at this
        rw [List.getElem?_eq_getElem (by omega)] at this
        apply h2 i' hi'
        rw [List.getElem_append_left (by omega)]
        exact Option.some.inj this
  | c :: d :: xs, hx, hxL, hb =>
    obtain ⟨hc, hc0⟩ := hx.head
    obtain ⟨hd, hd0⟩ := hx.tail.head
    have hl := hxL
    simp only [List.length_cons] at hl
    rw [if_neg (by rw [hc]; exact hc0), if_pos (by omega), if_neg (by rw [hd]; exact hd0)]
    simp only [Str.C05_strlen L h8 m hm s ys hs hsL, Str.C05_strlen L h8 m hm x _ hx hxL, Option.bind_eq_bind, Option.bind_some,
      bytesAt_cstr hs, bytesAt_cstr hx]
    have hb' : HasLarger (c :: d :: xs) ↔ HasSmaller (c :: d :: xs) := by
      rcases hb with h | h
      · simp at h
      · exact h
    obtain ⟨r, e, hr⟩ := C16_memmem_partial ys (c :: d :: xs) (by omega) hb'
    rw [e]
    exact ⟨r, rfl, hr⟩

example : ∃ m : Str.Mem, (∀ a, m a < 256) ∧ Str.CStr m 1 [98, 97, 98, 97, 99] ∧ Str.CStr m 7 [98, 97, 99] ∧ strstr 16 m 1 7 = some (some 3) := by
  refine ⟨Str.sample [0, 98, 97, 98, 97, 99, 0, 98, 97, 99], Str.sample_lt _ (by decide), by unfold Str.CStr Str.Holds; decide,
    by unfold Str.CStr Str.Holds; decide, by decide +kernel⟩

/-- C16, negation: strstr("aab", "ab") is null. -/
theorem C16_strstr_misses : ∃ m : Str.Mem, (∀ a, m a < 256) ∧ Str.CStr m 8 [97, 97, 98] ∧ Str.CStr m 16 [97, 98] ∧
    OccursAt [97, 97, 98] [97, 98] 1 ∧ strstr 24 m 8 16 = some none := by
  refine ⟨Str.sample [0, 0, 0, 0, 0, 0, 0, 0, 97, 97, 98, 0, 0, 0, 0, 0, 97, 98], Str.sample_lt _ (by decide), by unfold Str.CStr Str.Holds; decide,
    by unfold Str.CStr Str.Holds; decide, ⟨by decide, fun t ht => ?_⟩, by decide +kernel⟩
  match t, ht with
  | 0, _ => rfl
  | 1, _ => rfl

end Verif.Find
