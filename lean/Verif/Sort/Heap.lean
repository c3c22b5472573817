import Verif.Sort.Lemmas

/-!
# Heapsort
-/

namespace Verif.Sort

variable {E : Type} {cmp : E → E → Int}

theorem node_ok {lo count k : Nat} (h : 1 ≤ k ∧ k ≤ count) : node lo count k = some (lo + (k - 1)) := by
  unfold node
  rw [if_neg (by omega), inb_ok (by omega)]
  rfl

/-- Contents of heap node `k`. -/
def hp (lo : Nat) (a : Nat → E) (k : Nat) : E := a (lo + (k - 1))

theorem hp_upd_same (lo : Nat) (a : Nat → E) (k : Nat) (x : E) : hp lo (upd a (lo + (k - 1)) x) k = x := upd_same ..

theorem hp_upd_ne (lo : Nat) (a : Nat → E) {k j : Nat} (x : E) (h : j ≠ k) (hk : 1 ≤ k) (hj : 1 ≤ j) :
    hp lo (upd a (lo + (k - 1)) x) j = hp lo a j := upd_ne _ _ (by omega)

/-- The path `leaf_` follows from `s`: always to a child that is not smaller than its sibling. -/
inductive Desc (cmp : E → E → Int) (m s : Nat) (h : Nat → E) : Nat → Prop
  | base : Desc cmp m s h s
  | left (i : Nat) (d : Desc cmp m s h i) (h1 : 2 * i ≤ m) (h2 : 2 * i + 1 ≤ m → cmp (h (2 * i + 1)) (h (2 * i)) ≤ 0) :
      Desc cmp m s h (2 * i)
  | right (i : Nat) (d : Desc cmp m s h i) (h1 : 2 * i + 1 ≤ m) (h2 : cmp (h (2 * i)) (h (2 * i + 1)) ≤ 0) :
      Desc cmp m s h (2 * i + 1)

theorem Desc.ge {m s : Nat} {h : Nat → E} {i : Nat} (d : Desc cmp m s h i) : s ≤ i := by
  induction d <;> omega

theorem Desc.le {m s : Nat} {h : Nat → E} {i : Nat} (d : Desc cmp m s h i) (hs : s ≤ i → i = s ∨ i ≤ m) : i = s ∨ i ≤ m :=
  hs d.ge

theorem Desc.bound {m s : Nat} {h : Nat → E} {i : Nat} (d : Desc cmp m s h i) : i = s ∨ i ≤ m := by
  cases d <;> omega

/-- The parent of a node on the path is on the path, and its children do not exceed the node. -/
theorem Desc.parent (hc : Consistent cmp) {m s : Nat} {h : Nat → E} {i : Nat} (d : Desc cmp m s h i) (hi : s < i) :
    Desc cmp m s h (i / 2) ∧ s ≤ i / 2 ∧ i ≤ m ∧ ∀ k, k ≤ m → k / 2 = i / 2 → 1 ≤ i / 2 → cmp (h k) (h i) ≤ 0 := by
  cases d with
  | base => omega
  | left i d h1 h2 =>
    have e : 2 * i / 2 = i := by omega
    rw [e]
    refine ⟨d, d.ge, h1, fun k hk hk2 _ => ?_⟩
    rcases (show k = 2 * i ∨ k = 2 * i + 1 by omega) with rfl | rfl
    · rw [hc.refl]
    · exact h2 hk
  | right i d h1 h2 =>
    have e : (2 * i + 1) / 2 = i := by omega
    rw [e]
    refine ⟨d, d.ge, h1, fun k hk hk2 _ => ?_⟩
    rcases (show k = 2 * i ∨ k = 2 * i + 1 by omega) with rfl | rfl
    · exact h2
    · rw [hc.refl]

theorem leaf_spec (hc : Consistent cmp) (lo count m : Nat) (hm : m ≤ count) (a : Nat → E) (s i : Nat) (hs : 1 ≤ s)
    (d : Desc cmp m s (hp lo a) i) :
    ∃ o, leaf cmp lo count m a i = some o ∧ Desc cmp m s (hp lo a) o ∧ m < 2 * o := by
  obtain ⟨n, hn⟩ : ∃ n, n = m - i := ⟨_, rfl⟩
  induction n using Nat.strongRecOn generalizing i with
  | _ n ih =>
    have hi := d.ge
    unfold leaf
    by_cases h : 2 * i < m
    · rw [dif_pos h, dif_neg (by omega), node_ok (by omega), node_ok (by omega)]
      simp only [Option.bind_eq_bind, Option.bind_some]
      by_cases hlt : cmp (a (lo + (2 * i - 1))) (a (lo + (2 * i + 1 - 1))) < 0
      · rw [if_pos hlt]
        exact ih (m - (2 * i + 1)) (by omega) _ (.right i d (by omega) (hc.le_of_lt hlt)) rfl
      · rw [if_neg hlt]
        exact ih (m - (2 * i)) (by omega) _ (.left i d (by omega) (fun _ => hc.le_of_not_lt hlt)) rfl
    · rw [dif_neg h]
      by_cases h2 : 2 * i = m
      · rw [if_pos h2]
        exact ⟨_, rfl, .left i d (by omega) (fun _ => by omega), by omega⟩
      · rw [if_neg h2]
        exact ⟨_, rfl, d, by omega⟩

theorem climb_spec (hc : Consistent cmp) (lo count m : Nat) (hm : m ≤ count) (a : Nat → E) (s o : Nat)
    (hs : 1 ≤ s ∧ s ≤ count) (d : Desc cmp m s (hp lo a) o)
    (hb : ∀ k, k ≤ m → k / 2 = o → cmp (hp lo a k) (hp lo a s) ≤ 0) :
    ∃ o', climb cmp lo count s a o = some o' ∧ Desc cmp m s (hp lo a) o' ∧
      (∀ k, k ≤ m → k / 2 = o' → cmp (hp lo a k) (hp lo a s) ≤ 0) ∧ cmp (hp lo a s) (hp lo a o') ≤ 0 := by
  induction o using Nat.strongRecOn with
  | _ o ih =>
    have ho := d.ge
    have hbd := d.bound
    unfold climb
    rw [dif_neg (by omega), node_ok (by omega), node_ok (by omega)]
    simp only [Option.bind_eq_bind, Option.bind_some]
    by_cases hlt : cmp (a (lo + (o - 1))) (a (lo + (s - 1))) < 0
    · rw [if_pos hlt]
      have hso : s < o := by
        rcases Nat.lt_or_ge s o with h | h
        · exact h
        · rw [show o = s by omega, hc.refl] at hlt; omega
      obtain ⟨d', hge, -, hsib⟩ := d.parent hc hso
      exact ih (o / 2) (by omega) d' (fun k hk hk2 =>
        hc.trans _ _ _ (hsib k hk hk2 (by omega)) (hc.le_of_lt hlt))
    · rw [if_neg hlt]
      exact ⟨o, rfl, d, hb, hc.le_of_not_lt hlt⟩

/-- Edges of the heap below `s`. -/
def HeapFrom (cmp : E → E → Int) (s m : Nat) (h : Nat → E) : Prop :=
  ∀ k, k ≤ m → s ≤ k / 2 → cmp (h k) (h (k / 2)) ≤ 0

theorem div_pow_lt {k t : Nat} (hk : 1 ≤ k) (ht : 1 ≤ t) : k / 2 ^ t < k :=
  Nat.div_lt_self hk (Nat.one_lt_two_pow (by omega))

theorem div_two_pow (k t : Nat) : k / 2 ^ (t + 1) = k / 2 / 2 ^ t := by
  rw [Nat.div_div_eq_div_mul, Nat.pow_succ, Nat.mul_comm]

theorem upd_swap (a : Nat → E) (b : E) {x y : Nat} (h : x ≠ y) : upd (upd a y b) x (a y) = swap (upd a x b) x y := by
  funext i
  unfold swap
  rw [upd_same, upd_ne a b (Ne.symm h)]
  unfold upd
  by_cases e1 : i = x
  · have e2 : i ≠ y := by omega
    simp only [e1, if_true, h, if_false]
  · by_cases e2 : i = y
    · simp only [e2, if_true, Ne.symm h, if_false]
    · simp only [e1, e2, if_false]

/-- The loop that moves the path up. -/
theorem rotate_spec (hc : Consistent cmp) (lo count m : Nat) (hm : m ≤ count) (s : Nat) (hs : 1 ≤ s ∧ s ≤ count)
    (h : Nat → E) (hpre : HeapFrom cmp (s + 1) m h) (o : Nat) (a : Nat → E) (buf : E)
    (d : Desc cmp m s h o) (hbuf : buf = h o)
    (hsame : ∀ k, 1 ≤ k → (∀ t, k / 2 ^ t ≠ o) → hp lo a k = h k)
    (hedge : ∀ k, k ≤ m → s ≤ k / 2 → (∀ t, 1 ≤ t → o / 2 ^ t ≠ k / 2) → cmp (hp lo a k) (hp lo a (k / 2)) ≤ 0)
    (hle : s < o → cmp (hp lo a o) buf ≤ 0) :
    ∃ a', rotate lo count s a buf o = some a' ∧ HeapFrom cmp s m (hp lo a') ∧
      PermOn lo (lo + (max m s)) (if s < o then upd a (lo + (s - 1)) buf else a) a' := by
  induction o using Nat.strongRecOn generalizing a buf with
  | _ o ih =>
    unfold rotate
    by_cases hso : s < o
    · rw [dif_pos hso]
      obtain ⟨d', hge, hom, hsib⟩ := d.parent hc hso
      rw [node_ok (by omega)]
      simp only [Option.bind_eq_bind, Option.bind_some]
      have hq : hp lo a (o / 2) = h (o / 2) := by
        refine hsame _ (by omega) (fun t ht => ?_)
        have : o / 2 / 2 ^ t ≤ o / 2 := Nat.div_le_self _ _
        omega
      obtain ⟨a', e, hheap, hperm⟩ := ih (o / 2) (by omega) (upd a (lo + (o / 2 - 1)) buf) (a (lo + (o / 2 - 1))) d' hq
        (fun k hk hkt => by
          have hne : k ≠ o / 2 := by have := hkt 0; simpa using this
          rw [hp_upd_ne _ _ _ hne (by omega) hk]
          refine hsame k hk (fun t ht => ?_)
          apply hkt (t + 1)
          rw [Nat.pow_succ, ← Nat.div_div_eq_div_mul, ht])
        (fun k hk hsk hkt => by
          have hkq : k ≠ o / 2 := by
            rintro rfl
            exact hkt 1 (Nat.le_refl _) rfl
          rw [hp_upd_ne _ _ _ hkq (by omega) (by omega)]
          by_cases hk2 : k / 2 = o / 2
          · rw [hk2, hp_upd_same]
            by_cases hko : k = o
            · rw [hko]; exact hle hso
            · rw [hbuf, hsame k (by omega) (fun t ht => ?_)]
              · exact hsib k hk hk2 (by omega)
              · cases t with
                | zero => simp at ht; exact hko ht
                | succ t =>
                  rw [div_two_pow, hk2] at ht
                  have : o / 2 / 2 ^ t ≤ o / 2 := Nat.div_le_self _ _
                  omega
          · rw [hp_upd_ne _ _ _ hk2 (by omega) (by omega)]
            refine hedge k hk hsk (fun t ht => ?_)
            obtain ⟨t, rfl⟩ : ∃ u, t = u + 1 := ⟨t - 1, by omega⟩
            rw [div_two_pow]
            cases t with
            | zero => simpa using Ne.symm hk2
            | succ t => exact hkt (t + 1) (by omega))
        (fun hsq => by
          rw [hp_upd_same, hbuf]
          change cmp (h o) (hp lo a (o / 2)) ≤ 0
          rw [hq]
          exact hpre o hom (by omega))
      refine ⟨a', e, hheap, PermOn.trans ?_ hperm⟩
      rw [if_pos hso]
      by_cases hsq : s < o / 2
      · rw [if_pos hsq]
        have : upd (upd a (lo + (o / 2 - 1)) buf) (lo + (s - 1)) (a (lo + (o / 2 - 1))) =
            swap (upd a (lo + (s - 1)) buf) (lo + (s - 1)) (lo + (o / 2 - 1)) := upd_swap a buf (by omega)
        rw [this]
        exact PermOn.swap _ (by omega) (by omega)
      · rw [if_neg hsq, show o / 2 = s by omega]
        exact PermOn.refl ..
    · rw [dif_neg hso, if_neg hso]
      have hos : o = s := by have := d.ge; omega
      refine ⟨a, rfl, fun k hk hk2 => ?_, PermOn.refl ..⟩
      refine hedge k hk hk2 (fun t ht => ?_)
      have := div_pow_lt (k := o) (t := t) (by omega) ht
      omega

theorem siftdown_spec (hc : Consistent cmp) (lo count m : Nat) (hm : m ≤ count) (s : Nat) (hs : 1 ≤ s ∧ s ≤ count)
    (a : Nat → E) (hpre : HeapFrom cmp (s + 1) m (hp lo a)) :
    ∃ a', siftdown cmp lo count s m a = some a' ∧ HeapFrom cmp s m (hp lo a') ∧ PermOn lo (lo + max m s) a a' := by
  obtain ⟨o1, e1, d1, h1⟩ := leaf_spec hc lo count m hm a s s hs.1 .base
  obtain ⟨o, e2, d2, h2, h3⟩ := climb_spec hc lo count m hm a s o1 hs d1 (fun k hk hk2 => by omega)
  unfold siftdown
  rw [e1]
  simp only [Option.bind_eq_bind, Option.bind_some]
  rw [e2]
  have hb := d2.bound
  have hg := d2.ge
  simp only [Option.bind_some]
  rw [node_ok (by omega), node_ok (by omega)]
  simp only [Option.bind_some]
  obtain ⟨a', e, hheap, hperm⟩ := rotate_spec hc lo count m hm s hs (hp lo a) hpre o
    (upd a (lo + (o - 1)) (a (lo + (s - 1)))) (a (lo + (o - 1))) d2 rfl
    (fun k hk hkt => by
      have hne : k ≠ o := by have := hkt 0; simpa using this
      rw [hp_upd_ne _ _ _ hne (by omega) hk])
    (fun k hk hsk hkt => by
      have hne : k ≠ o := by
        rintro rfl
        exact hkt 1 (Nat.le_refl _) rfl
      rw [hp_upd_ne _ _ _ hne (by omega) (by omega)]
      by_cases hk2 : k / 2 = o
      · rw [hk2, hp_upd_same]; exact h2 k hk hk2
      · rw [hp_upd_ne _ _ _ hk2 (by omega) (by omega)]
        refine hpre k hk ?_
        rcases Nat.lt_or_ge s (k / 2) with h | h
        · exact h
        · exfalso
          have hks : k / 2 = s := by omega
          -- the stem is an ancestor of every node on the path
          have anc : ∀ i, Desc cmp m s (hp lo a) i → ∃ t, i / 2 ^ t = s := by
            intro i d
            induction d with
            | base => exact ⟨0, by simp⟩
            | left i d _ _ ih =>
              obtain ⟨t, ht⟩ := ih
              exact ⟨t + 1, by rw [div_two_pow, show 2 * i / 2 = i by omega, ht]⟩
            | right i d _ _ ih =>
              obtain ⟨t, ht⟩ := ih
              exact ⟨t + 1, by rw [div_two_pow, show (2 * i + 1) / 2 = i by omega, ht]⟩
          obtain ⟨t, ht⟩ := anc o d2
          cases t with
          | zero => simp at ht; omega
          | succ t => exact hkt (t + 1) (by omega) (by omega))
    (fun hso => by rw [hp_upd_same]; exact h3)
  refine ⟨a', e, hheap, PermOn.trans ?_ hperm⟩
  split
  · have : upd (upd a (lo + (o - 1)) (a (lo + (s - 1)))) (lo + (s - 1)) (a (lo + (o - 1))) =
        swap a (lo + (o - 1)) (lo + (s - 1)) := rfl
    rw [this]
    exact PermOn.swap _ (by omega) (by omega)
  · have hos : o = s := by omega
    rw [hos]
    have : upd a (lo + (s - 1)) (a (lo + (s - 1))) = a := by
      funext j; unfold upd; split
      · rename_i h; rw [h]
      · rfl
    rw [this]
    exact PermOn.refl ..

theorem heapify_spec (hc : Consistent cmp) (lo count p : Nat) (hp1 : p ≤ count) (a : Nat → E)
    (hpre : HeapFrom cmp (p + 1) count (hp lo a)) :
    ∃ a', heapify cmp lo count p a = some a' ∧ HeapFrom cmp 1 count (hp lo a') ∧ PermOn lo (lo + count) a a' := by
  induction p generalizing a with
  | zero => exact ⟨a, rfl, hpre, PermOn.refl ..⟩
  | succ p ih =>
    obtain ⟨b, e, hb, hperm⟩ := siftdown_spec hc lo count count (Nat.le_refl _) (p + 1) (by omega) a hpre
    obtain ⟨a', e', ha, hperm'⟩ := ih (by omega) b hb
    unfold heapify
    rw [e]
    exact ⟨a', e', ha, PermOn.trans (hperm.mono (Nat.le_refl _) (by omega)) hperm'⟩

/-- The root is the greatest. -/
theorem heap_root (hc : Consistent cmp) {m : Nat} {h : Nat → E} (hh : HeapFrom cmp 1 m h) (k : Nat) (hk : 1 ≤ k) (hkm : k ≤ m) :
    cmp (h k) (h 1) ≤ 0 := by
  induction k using Nat.strongRecOn with
  | _ k ih =>
    by_cases h1 : k = 1
    · rw [h1, hc.refl]
    · exact hc.trans _ _ _ (hh k hkm (by omega)) (ih (k / 2) (by omega) (by omega) (by omega))

theorem extract_spec (hc : Consistent cmp) (lo count m : Nat) (hm : m ≤ count) (a : Nat → E)
    (hh : HeapFrom cmp 1 m (hp lo a)) (hs : SortedOn cmp (lo + m) (lo + count) a)
    (hle : ∀ i j, lo ≤ i → i < lo + m → lo + m ≤ j → j < lo + count → cmp (a i) (a j) ≤ 0) :
    ∃ a', extract cmp lo count m a = some a' ∧ PermOn lo (lo + count) a a' ∧ SortedOn cmp lo (lo + count) a' := by
  induction m generalizing a with
  | zero => exact ⟨a, rfl, PermOn.refl .., hs⟩
  | succ m ih =>
    unfold extract
    rw [inb_ok (by omega), inb_ok (by omega)]
    simp only [Option.bind_eq_bind, Option.bind_some]
    obtain ⟨b, hb⟩ : ∃ b, b = swap a lo (lo + m) := ⟨_, rfl⟩
    rw [← hb]
    have hroot : ∀ i, lo ≤ i → i < lo + (m + 1) → cmp (a i) (a lo) ≤ 0 := by
      intro i h1 h2
      have := heap_root hc hh (i - lo + 1) (by omega) (by omega)
      unfold hp at this
      rw [show lo + (i - lo + 1 - 1) = i by omega] at this
      exact this
    have hout : ∀ i, lo + (m + 1) ≤ i → b i = a i := fun i hi => by rw [hb]; exact swap_ne _ (by omega) (by omega)
    have hlast : b (lo + m) = a lo := by rw [hb, swap_right]
    have hin : ∀ i, lo ≤ i → i < lo + (m + 1) → ∃ k, lo ≤ k ∧ k < lo + (m + 1) ∧ b i = a k := by
      intro i h1 h2
      rw [hb]
      exact (PermOn.swap (lo := lo) (hi := lo + (m + 1)) a (by omega) (by omega)).mem ⟨h1, h2⟩
    obtain ⟨c, e, hc1, hperm⟩ := siftdown_spec hc lo count m (by omega) 1 (by omega) b (by
      intro k hk hk2
      unfold hp
      rw [hb, swap_ne _ (show lo + (k - 1) ≠ lo by omega) (by omega), swap_ne _ (show lo + (k / 2 - 1) ≠ lo by omega) (by omega)]
      exact hh k (by omega) (by omega))
    rw [e]
    simp only [Option.bind_some]
    have hpab : PermOn lo (lo + count) a b := by rw [hb]; exact PermOn.swap _ (by omega) (by omega)
    by_cases hm0 : m = 0
    · subst hm0
      -- a single node: nothing can move
      have hcb : c = b := by
        funext i
        by_cases hi : i < lo ∨ lo + 1 ≤ i
        · exact hperm.out (by omega)
        · have hi : i = lo := by omega
          obtain ⟨j, j1, j2, e⟩ := hperm.mem (i := i) (by omega)
          rw [e]; congr 1; omega
      subst hcb
      obtain ⟨a', e', hp', hs'⟩ := ih (by omega) c hc1 (fun i j h1 h2 h3 => by
        have hi : i = lo ∨ lo + 1 ≤ i := by omega
        have hlast' : c lo = a lo := by simpa using hlast
        rcases hi with rfl | hi
        · rcases (show j = i ∨ i + 1 ≤ j by omega) with rfl | hj
          · rw [hc.refl]
          · rw [hlast', hout j (by omega)]; exact hle i j (by omega) (by omega) (by omega) h3
        · rw [hout i (by omega), hout j (by omega)]; exact hs i j (by omega) h2 h3)
        (fun i j h1 h2 => by omega)
      exact ⟨a', e', hpab.trans hp', hs'⟩
    · have hpermm : PermOn lo (lo + m) b c := hperm.mono (Nat.le_refl _) (by omega)
      have hco : ∀ i, lo + m ≤ i → c i = b i := fun i hi => hpermm.out (.inr hi)
      have hci : ∀ i, lo ≤ i → i < lo + m → ∃ k, lo ≤ k ∧ k < lo + (m + 1) ∧ c i = a k := by
        intro i h1 h2
        obtain ⟨j, j1, j2, ej⟩ := hpermm.mem ⟨h1, h2⟩
        obtain ⟨k, k1, k2, ek⟩ := hin j j1 (by omega)
        exact ⟨k, k1, k2, ej.trans ek⟩
      obtain ⟨a', e', hp', hs'⟩ := ih (by omega) c hc1
        (fun i j h1 h2 h3 => by
          rw [hco i h1, hco j (by omega)]
          rcases (show i = lo + m ∨ lo + (m + 1) ≤ i by omega) with rfl | hi
          · rcases (show j = lo + m ∨ lo + (m + 1) ≤ j by omega) with rfl | hj
            · rw [hc.refl]
            · rw [hlast, hout j hj]; exact hle lo j (by omega) (by omega) hj h3
          · rw [hout i hi, hout j (by omega)]; exact hs i j hi h2 h3)
        (fun i j h1 h2 h3 h4 => by
          obtain ⟨k, k1, k2, ek⟩ := hci i h1 h2
          rw [ek, hco j h3]
          rcases (show j = lo + m ∨ lo + (m + 1) ≤ j by omega) with rfl | hj
          · rw [hlast]; exact hroot k k1 k2
          · rw [hout j hj]; exact hle k j k1 k2 hj h4)
      exact ⟨a', e', hpab.trans ((hpermm.mono (Nat.le_refl _) (by omega)).trans hp'), hs'⟩

theorem heapsort_spec (hc : Consistent cmp) (lo count : Nat) (a : Nat → E) :
    ∃ a', heapsort cmp lo count a = some a' ∧ PermOn lo (lo + count) a a' ∧ SortedOn cmp lo (lo + count) a' := by
  obtain ⟨b, e, hb, hperm⟩ := heapify_spec hc lo count (count / 2) (by omega) a (fun k hk hk2 => by omega)
  obtain ⟨c, e', hperm', hs⟩ := extract_spec hc lo count count (Nat.le_refl _) b hb (fun i j h1 h2 h3 => by omega)
    (fun i j h1 h2 h3 h4 => by omega)
  unfold heapsort
  rw [e]
  exact ⟨c, e', hperm.trans hperm', hs⟩

theorem introsort_spec (hc : Consistent cmp) (base size : Nat) (hbase : 0 < size ∧ size ≤ base ∧ base < 4294967296)
    (lo count : Nat) (ttl : Int) (a : Nat → E) :
    ∃ a', introsort cmp base size lo count ttl a = some a' ∧ PermOn lo (lo + count) a a' ∧
      SortedOn cmp lo (lo + count) a' := by
  obtain ⟨n, hn⟩ : ∃ n, n = (ttl + 1).toNat := ⟨_, rfl⟩
  induction n generalizing lo count ttl a with
  | zero =>
    unfold introsort
    split
    · exact insertionSort_spec hc base size lo count hbase a
    · rw [dif_pos (by omega)]; exact heapsort_spec hc lo count a
  | succ n ih =>
    unfold introsort
    split
    · exact insertionSort_spec hc base size lo count hbase a
    · rename_i hcount
      rw [dif_neg (by omega)]
      obtain ⟨b, q, e, q1, q2, hperm, hl, hr⟩ := partition_spec hc lo count (by omega) a
      rw [e]
      simp only [Option.bind_eq_bind, Option.bind_some]
      obtain ⟨c, e1, p1, s1⟩ := ih lo (q - lo) (ttl - 1) b (by omega)
      rw [e1]
      simp only [Option.bind_some]
      obtain ⟨d, e2, p2, s2⟩ := ih q (count - (q - lo)) (ttl - 1) c (by omega)
      rw [show lo + (q - lo) = q by omega] at p1 s1
      rw [show q + (count - (q - lo)) = lo + count by omega] at p2 s2
      refine ⟨d, e2, ?_, ?_⟩
      · exact hperm.trans ((p1.mono (Nat.le_refl _) (by omega)).trans (p2.mono (by omega) (Nat.le_refl _)))
      · have left : ∀ i, lo ≤ i → i < q → cmp (d i) (b q) ≤ 0 := by
          intro i h1 h2
          rw [p2.out (.inl h2)]
          obtain ⟨j, j1, j2, ej⟩ := p1.mem ⟨h1, h2⟩
          rw [ej]; exact hl j j1 j2
        have right : ∀ i, q ≤ i → i < lo + count → cmp (b q) (d i) ≤ 0 := by
          intro i h1 h2
          obtain ⟨j, j1, j2, ej⟩ := p2.mem ⟨h1, h2⟩
          rw [ej, p1.out (.inr j1)]; exact hr j j1 j2
        intro i j h1 h2 h3
        by_cases hjq : j < q
        · rw [p2.out (.inl hjq), p2.out (.inl (show i < q by omega))]
          exact s1 i j h1 h2 hjq
        · by_cases hiq : i < q
          · exact hc.trans _ _ _ (left i h1 hiq) (right j (by omega) h3)
          · exact s2 i j (by omega) h2 h3

/-! ## `bsearch` -/

/-- A search for a key that is present ends within `count` calls. -/
theorem bsearch_found {K : Type} (cmpk : K → E → Int) (key : K) (a : Nat → E) (n : Nat) (ho : Ordered cmpk key a n)
    (x : Nat) (hx : cmpk key (a x) = 0) (fuel lo count : Nat) (hlo : lo ≤ x ∧ x < lo + count) (hn : lo + count ≤ n)
    (hf : count ≤ fuel) : ∃ i, bsearch cmpk key a fuel lo count = some (some i) ∧ lo ≤ i ∧ i < lo + count ∧
      cmpk key (a i) = 0 := by
  induction fuel generalizing lo count with
  | zero => omega
  | succ fuel ih =>
    unfold bsearch
    rw [if_neg (by omega)]
    simp only
    by_cases h1 : cmpk key (a (lo + count / 2)) < 0
    · rw [if_pos h1]
      have hxp : x < lo + count / 2 := by
        by_contra hge
        have := (ho (lo + count / 2) x (by omega) (by omega)).1 (by omega)
        omega
      obtain ⟨i, e, i1, i2, i3⟩ := ih lo (count / 2) (by omega) (by omega) (by omega)
      exact ⟨i, e, i1, by omega, i3⟩
    · rw [if_neg h1]
      by_cases h2 : cmpk key (a (lo + count / 2)) ≠ 0
      · rw [if_pos h2]
        have hxp : lo + count / 2 < x := by
          by_contra hge
          have := (ho x (lo + count / 2) (by omega) (by omega)).2 (by omega)
          omega
        obtain ⟨i, e, i1, i2, i3⟩ := ih (lo + count / 2) (count - count / 2) (by omega) (by omega) (by omega)
        exact ⟨i, e, by omega, by omega, i3⟩
      · rw [if_neg h2]
        exact ⟨_, rfl, by omega, by omega, by omega⟩

end Verif.Sort
