import Verif.Sort.Model
import Verif.Sort.Spec
import Mathlib.Logic.Equiv.Basic
import Mathlib.Data.List.FinRange

/-!
# Permutations, insertion sort and partitioning
-/

namespace Verif.Sort

variable {E : Type}

theorem upd_same (a : Nat → E) (i : Nat) (x : E) : upd a i x i = x := by simp [upd]
theorem upd_ne (a : Nat → E) {i j : Nat} (x : E) (h : j ≠ i) : upd a i x j = a j := by simp [upd, h]

theorem swap_eq (a : Nat → E) (i j : Nat) : swap a i j = a ∘ Equiv.swap i j := by
  funext k
  simp only [swap, upd, Function.comp_apply, Equiv.swap_apply_def]
  by_cases h1 : k = i
  · by_cases h2 : k = j
    · subst h1; subst h2; simp
    · subst h1; simp [h2]
  · by_cases h2 : k = j
    · subst h2; simp [h1]
    · simp [h1, h2]

theorem swap_left (a : Nat → E) (i j : Nat) : swap a i j i = a j := by
  rw [swap_eq, Function.comp_apply, Equiv.swap_apply_left]
theorem swap_right (a : Nat → E) (i j : Nat) : swap a i j j = a i := by
  rw [swap_eq, Function.comp_apply, Equiv.swap_apply_right]
theorem swap_ne (a : Nat → E) {i j k : Nat} (h1 : k ≠ i) (h2 : k ≠ j) : swap a i j k = a k := by
  rw [swap_eq, Function.comp_apply, Equiv.swap_apply_of_ne_of_ne h1 h2]

/-- `a'` is `a` with the elements in `[lo, hi)` permuted. -/
def PermOn (lo hi : Nat) (a a' : Nat → E) : Prop :=
  ∃ σ : Equiv.Perm Nat, (∀ i, i < lo ∨ hi ≤ i → σ i = i) ∧ a' = a ∘ σ

theorem PermOn.refl (lo hi : Nat) (a : Nat → E) : PermOn lo hi a a := ⟨Equiv.refl _, fun _ _ => rfl, rfl⟩

theorem PermOn.trans {lo hi : Nat} {a b c : Nat → E} (h : PermOn lo hi a b) (h' : PermOn lo hi b c) :
    PermOn lo hi a c := by
  obtain ⟨σ, h1, rfl⟩ := h
  obtain ⟨τ, h2, rfl⟩ := h'
  refine ⟨τ.trans σ, fun i hi => ?_, ?_⟩
  · rw [Equiv.trans_apply, h2 i hi, h1 i hi]
  · funext i; rfl

theorem PermOn.mono {lo hi lo' hi' : Nat} {a b : Nat → E} (h : PermOn lo hi a b) (h1 : lo' ≤ lo) (h2 : hi ≤ hi') :
    PermOn lo' hi' a b := by
  obtain ⟨σ, h, e⟩ := h
  exact ⟨σ, fun i hi => h i (by omega), e⟩

theorem PermOn.swap {lo hi : Nat} (a : Nat → E) {i j : Nat} (h1 : lo ≤ i ∧ i < hi) (h2 : lo ≤ j ∧ j < hi) :
    PermOn lo hi a (swap a i j) :=
  ⟨Equiv.swap i j, fun k hk => Equiv.swap_apply_of_ne_of_ne (by omega) (by omega), swap_eq a i j⟩

theorem PermOn.out {lo hi : Nat} {a b : Nat → E} (h : PermOn lo hi a b) {i : Nat} (hi : i < lo ∨ hi ≤ i) :
    b i = a i := by
  obtain ⟨σ, h1, rfl⟩ := h
  rw [Function.comp_apply, h1 i hi]

theorem PermOn.mem {lo hi : Nat} {a b : Nat → E} (h : PermOn lo hi a b) {i : Nat} (hii : lo ≤ i ∧ i < hi) :
    ∃ j, lo ≤ j ∧ j < hi ∧ b i = a j := by
  obtain ⟨σ, h1, rfl⟩ := h
  refine ⟨σ i, ?_⟩
  have : ¬ (σ i < lo ∨ hi ≤ σ i) := by
    intro hc
    have h2 := h1 _ hc
    have := σ.injective h2
    omega
  exact ⟨by omega, by omega, rfl⟩

theorem PermOn.elements {n : Nat} {a b : Nat → E} (h : PermOn 0 n a b) :
    (elements b n).Perm (elements a n) := by
  obtain ⟨σ, h1, rfl⟩ := h
  have hlt : ∀ i, i < n → σ i < n := by
    intro i hi
    by_contra hc
    have h2 := h1 (σ i) (by omega)
    have := σ.injective h2
    omega
  have hlt' : ∀ i, i < n → σ.symm i < n := by
    intro i hi
    by_contra hc
    have h2 := h1 (σ.symm i) (by omega)
    rw [Equiv.apply_symm_apply] at h2
    omega
  let τ : Equiv.Perm (Fin n) :=
    ⟨fun i => ⟨σ i, hlt i i.2⟩, fun i => ⟨σ.symm i, hlt' i i.2⟩, fun i => by simp, fun i => by simp⟩
  exact Equiv.Perm.ofFn_comp_perm τ (fun i : Fin n => a i)

theorem inb_ok {lo count i : Nat} (h : lo ≤ i ∧ i < lo + count) : inb lo count i = some () := if_pos h

/-! ## Consistent comparisons -/

section
variable {cmp : E → E → Int}

theorem Consistent.refl (hc : Consistent cmp) (x : E) : cmp x x = 0 := by
  have := hc.swap x x; omega

theorem Consistent.le_of_not_lt (hc : Consistent cmp) {x y : E} (h : ¬ cmp x y < 0) : cmp y x ≤ 0 := by
  have := hc.swap y x; have := hc.swap x y; omega

theorem Consistent.le_of_lt (_ : Consistent cmp) {x y : E} (h : cmp x y < 0) : cmp x y ≤ 0 := by omega

theorem Consistent.not_lt_of_le (hc : Consistent cmp) {x y : E} (h : cmp x y ≤ 0) : ¬ cmp y x < 0 := by
  have := hc.swap y x; omega

/-- `[lo, hi)` is in ascending order. -/
def SortedOn (cmp : E → E → Int) (lo hi : Nat) (a : Nat → E) : Prop :=
  ∀ i j, lo ≤ i → i ≤ j → j < hi → cmp (a i) (a j) ≤ 0

theorem SortedOn.elements {n : Nat} {a : Nat → E} (h : SortedOn cmp 0 n a) : Ascending cmp (elements a n) := by
  unfold Ascending Sort.elements
  rw [List.pairwise_ofFn]
  intro i j hij
  exact h i j (by omega) (by omega) j.2

/-! ## Insertion sort -/

/-- Shifting the elements greater than `c` up. -/
theorem insLoop_spec (hc : Consistent cmp) (base size lo count : Nat) (hbase : 0 < size ∧ size ≤ base ∧ base < 4294967296)
    (c : E) (s : Nat) (hs : lo ≤ s ∧ s < lo + count) (b : Nat) (a : Nat → E) (hb : b ≤ s) (hlo : lo ≤ b)
    (h1 : SortedOn cmp lo b a) (h2 : ∀ i j, lo ≤ i → i < b → b < j → j ≤ s → cmp (a i) (a j) ≤ 0)
    (h3 : ∀ i j, b < i → i ≤ j → j ≤ s → cmp (a i) (a j) ≤ 0)
    (h4 : ∀ i, b < i → i ≤ s → cmp c (a i) ≤ 0) :
    ∃ a' k, insLoop cmp base size lo count c b a = some (a', k) ∧ lo ≤ k ∧ k ≤ s ∧
      PermOn lo (s + 1) (upd a b c) (upd a' k c) ∧ SortedOn cmp lo (s + 1) (upd a' k c) := by
  induction b generalizing a with
  | zero =>
    refine ⟨a, 0, ?_, by omega, by omega, PermOn.refl .., ?_⟩
    · unfold insLoop
      rw [if_neg]
      rw [show base + 4294967296 - size = (base - size) + 4294967296 by omega, Nat.add_mod_right,
        Nat.mod_eq_of_lt (by omega)]
      omega
    · intro i j hi hij hj
      by_cases h0 : i = 0
      · subst h0
        rw [upd_same]
        by_cases hj0 : j = 0
        · subst hj0; rw [upd_same, hc.refl]
        · rw [upd_ne _ _ hj0]; exact h4 j (by omega) (by omega)
      · rw [upd_ne _ _ h0, upd_ne _ _ (show j ≠ 0 by omega)]; exact h3 i j (by omega) hij (by omega)
  | succ b ih =>
    unfold insLoop
    have done : (¬ (lo ≤ b ∧ cmp c (a b) < 0)) → SortedOn cmp lo (s + 1) (upd a (b + 1) c) := by
      intro hno i j hi hij hj
      rcases Nat.lt_trichotomy i (b + 1) with hib | rfl | hib
      · rw [upd_ne _ _ (show i ≠ b + 1 by omega)]
        have hle : cmp (a b) c ≤ 0 := hc.le_of_not_lt (fun h => hno ⟨by omega, h⟩)
        rcases Nat.lt_trichotomy j (b + 1) with hjb | rfl | hjb
        · rw [upd_ne _ _ (show j ≠ b + 1 by omega)]; exact h1 i j hi hij hjb
        · rw [upd_same]; exact hc.trans _ _ _ (h1 i b hi (by omega) (by omega)) hle
        · rw [upd_ne _ _ (show j ≠ b + 1 by omega)]; exact h2 i j hi hib hjb (by omega)
      · rw [upd_same]
        by_cases hj0 : j = b + 1
        · subst hj0; rw [upd_same, hc.refl]
        · rw [upd_ne _ _ hj0]; exact h4 j (by omega) (by omega)
      · rw [upd_ne _ _ (show i ≠ b + 1 by omega), upd_ne _ _ (show j ≠ b + 1 by omega)]
        exact h3 i j hib hij (by omega)
    by_cases hlb : lo ≤ b
    · rw [if_pos hlb, inb_ok (by omega)]
      simp only [Option.bind_eq_bind, Option.bind_some]
      by_cases hlt : cmp c (a b) < 0
      · rw [if_pos hlt, inb_ok (by omega)]
        simp only [Option.bind_some]
        obtain ⟨a', k, e, k1, k2, hp, hsrt⟩ := ih (upd a (b + 1) (a b)) (by omega) hlb
          (fun i j hi hij hj => by
            rw [upd_ne _ _ (show i ≠ b + 1 by omega), upd_ne _ _ (show j ≠ b + 1 by omega)]
            exact h1 i j hi hij (by omega))
          (fun i j hi hib hbj hj => by
            rw [upd_ne _ _ (show i ≠ b + 1 by omega)]
            by_cases hjb : j = b + 1
            · subst hjb; rw [upd_same]; exact h1 i b hi (by omega) (by omega)
            · rw [upd_ne _ _ hjb]; exact h2 i j hi (by omega) (by omega) hj)
          (fun i j hbi hij hj => by
            by_cases hi1 : i = b + 1
            · subst hi1; rw [upd_same]
              by_cases hj1 : j = b + 1
              · subst hj1; rw [upd_same, hc.refl]
              · rw [upd_ne _ _ hj1]; exact h2 b j hlb (by omega) (by omega) hj
            · rw [upd_ne _ _ hi1, upd_ne _ _ (show j ≠ b + 1 by omega)]; exact h3 i j (by omega) hij hj)
          (fun i hbi hi => by
            by_cases hi1 : i = b + 1
            · subst hi1; rw [upd_same]; exact hc.le_of_lt hlt
            · rw [upd_ne _ _ hi1]; exact h4 i (by omega) hi)
        refine ⟨a', k, e, k1, k2, PermOn.trans ?_ hp, hsrt⟩
        have : upd (upd a (b + 1) (a b)) b c = swap (upd a (b + 1) c) b (b + 1) := by
          funext i
          simp only [swap, upd]
          by_cases e1 : i = b
          · subst e1; simp
          · by_cases e2 : i = b + 1
            · subst e2; simp
            · simp [e1, e2]
        rw [this]
        exact PermOn.swap _ (by omega) (by omega)
      · rw [if_neg hlt]
        exact ⟨a, b + 1, rfl, by omega, hb, PermOn.refl .., done (fun h => hlt h.2)⟩
    · rw [if_neg hlb]
      exact ⟨a, b + 1, rfl, by omega, hb, PermOn.refl .., done (fun h => hlb h.1)⟩

theorem insOuter_spec (hc : Consistent cmp) (base size lo count : Nat) (hbase : 0 < size ∧ size ≤ base ∧ base < 4294967296)
    (k i : Nat) (a : Nat → E) (hi : 1 ≤ i) (hk : count ≤ i + k ∧ (k = 0 ∨ i + k = count))
    (hs : SortedOn cmp lo (lo + i) a) :
    ∃ a', insOuter cmp base size lo count k i a = some a' ∧ PermOn lo (lo + count) a a' ∧
      SortedOn cmp lo (lo + count) a' := by
  induction k generalizing i a with
  | zero =>
    refine ⟨a, rfl, PermOn.refl .., fun x y h1 h2 h3 => hs x y h1 h2 (by omega)⟩
  | succ k ih =>
    unfold insOuter
    rw [inb_ok (by omega)]
    simp only [Option.bind_eq_bind, Option.bind_some]
    obtain ⟨a', b, e, b1, b2, hp, hsrt⟩ := insLoop_spec hc base size lo count hbase (a (lo + i)) (lo + i)
      (by omega) (lo + i) a (Nat.le_refl _) (by omega) hs (fun _ _ _ _ _ _ => by omega) (fun _ _ _ _ _ => by omega)
      (fun _ _ _ => by omega)
    rw [e]
    simp only [Option.bind_some]
    rw [inb_ok (by omega)]
    simp only [Option.bind_some]
    obtain ⟨a'', e2, hp2, hs2⟩ := ih (i + 1) (upd a' b (a (lo + i))) (by omega) (by omega) hsrt
    refine ⟨a'', e2, PermOn.trans ?_ hp2, hs2⟩
    have : upd a (lo + i) (a (lo + i)) = a := by
      funext j; unfold upd; split
      · rename_i h; rw [h]
      · rfl
    rw [this] at hp
    exact hp.mono (Nat.le_refl _) (by omega)

theorem insertionSort_spec (hc : Consistent cmp) (base size lo count : Nat)
    (hbase : 0 < size ∧ size ≤ base ∧ base < 4294967296) (a : Nat → E) :
    ∃ a', insertionSort cmp base size lo count a = some a' ∧ PermOn lo (lo + count) a a' ∧
      SortedOn cmp lo (lo + count) a' := by
  refine insOuter_spec hc base size lo count hbase (count - 1) 1 a (by omega) (by omega) ?_
  intro i j h1 h2 h3
  rw [show i = lo by omega, show j = lo by omega, hc.refl]

/-! ## Partitioning -/

theorem scanUp_spec (lo count p : Nat) (a : Nat → E) (i q : Nat) (hlo : lo ≤ i) (hiq : i < q) (hq : q < lo + count)
    (hstop : ¬ cmp (a q) (a p) < 0) :
    ∃ i', scanUp cmp lo count p a i = some i' ∧ i < i' ∧ i' ≤ q ∧ ¬ cmp (a i') (a p) < 0 ∧
      ∀ k, i < k → k < i' → cmp (a k) (a p) < 0 := by
  obtain ⟨d, hd⟩ : ∃ d, q = i + 1 + d := ⟨q - i - 1, by omega⟩
  induction d generalizing i with
  | zero =>
    unfold scanUp
    rw [dif_pos (by omega), if_neg (by rw [show i + 1 = q by omega]; exact hstop)]
    exact ⟨i + 1, rfl, by omega, by omega, by rw [show i + 1 = q by omega]; exact hstop, fun k _ _ => by omega⟩
  | succ d ih =>
    unfold scanUp
    rw [dif_pos (by omega)]
    by_cases h : cmp (a (i + 1)) (a p) < 0
    · rw [if_pos h]
      obtain ⟨i', e, h1, h2, h3, h4⟩ := ih (i + 1) (by omega) (by omega) (by omega)
      refine ⟨i', e, by omega, h2, h3, fun k hk hk' => ?_⟩
      by_cases e : k = i + 1
      · rw [e]; exact h
      · exact h4 k (by omega) hk'
    · rw [if_neg h]
      exact ⟨i + 1, rfl, by omega, by omega, h, fun k _ _ => by omega⟩

theorem scanDown_spec (lo count p : Nat) (a : Nat → E) (j q : Nat) (hq : lo ≤ q) (hqj : q < j) (hj : j ≤ lo + count)
    (hstop : ¬ cmp (a p) (a q) < 0) :
    ∃ j', scanDown cmp lo count p a j = some j' ∧ j' < j ∧ q ≤ j' ∧ ¬ cmp (a p) (a j') < 0 ∧
      ∀ k, j' < k → k < j → cmp (a p) (a k) < 0 := by
  induction j with
  | zero => omega
  | succ j ih =>
    unfold scanDown
    rw [if_pos (by omega)]
    by_cases h : cmp (a p) (a j) < 0
    · rw [if_pos h]
      have hqj' : q < j := by
        rcases Nat.lt_or_ge q j with h' | h'
        · exact h'
        · exact absurd (by rw [show q = j by omega]; exact h) hstop
      obtain ⟨j', e, h1, h2, h3, h4⟩ := ih hqj' (by omega)
      refine ⟨j', e, by omega, h2, h3, fun k hk hk' => ?_⟩
      by_cases e : k = j
      · rw [e]; exact h
      · exact h4 k hk (by omega)
    · rw [if_neg h]
      exact ⟨j, rfl, by omega, by omega, h, fun k _ _ => by omega⟩

/-- What `partition_` achieves. -/
def Parted (cmp : E → E → Int) (lo hi p : Nat) (a : Nat → E) : Prop :=
  (∀ i, lo ≤ i → i < p → cmp (a i) (a p) ≤ 0) ∧ (∀ i, p ≤ i → i < hi → cmp (a p) (a i) ≤ 0)

theorem partLoop_spec (hc : Consistent cmp) (lo count : Nat) (p : Nat) (hp : p + 1 = lo + count) (a : Nat → E) (i j : Nat)
    (hi : lo ≤ i) (hij : i < j) (hj : j ≤ p)
    (hleft : ∀ k, lo ≤ k → k ≤ i → cmp (a k) (a p) ≤ 0) (hright : ∀ k, j ≤ k → k ≤ p → cmp (a p) (a k) ≤ 0) :
    ∃ a' q, partLoop cmp lo count p a i j = some (a', q) ∧ lo < q ∧ q ≤ p ∧ PermOn lo (lo + count) a a' ∧
      Parted cmp lo (lo + count) q a' := by
  induction j using Nat.strongRecOn generalizing a i with
  | _ j ih =>
    obtain ⟨i', e1, h1, h2, h3, h4⟩ := scanUp_spec lo count p a i j hi hij (by omega)
      (hc.not_lt_of_le (hright j (Nat.le_refl _) hj))
    obtain ⟨j', e2, g1, g2, g3, g4⟩ := scanDown_spec lo count p a j i hi hij (by omega)
      (hc.not_lt_of_le (hleft i hi (Nat.le_refl _)))
    unfold partLoop
    rw [e1]
    simp only
    split
    · rename_i hn; rw [e2] at hn; simp at hn
    · rename_i j'' hj''
      rw [e2] at hj''
      obtain rfl : j' = j'' := by simpa using hj''
      have hl : ∀ k, lo ≤ k → k < i' → cmp (a k) (a p) ≤ 0 := fun k hk hk' => by
        by_cases hki : k ≤ i
        · exact hleft k hk hki
        · exact hc.le_of_lt (h4 k (by omega) hk')
      have hr : ∀ k, j' < k → k ≤ p → cmp (a p) (a k) ≤ 0 := fun k hk hk' => by
        by_cases hkj : j ≤ k
        · exact hright k hkj hk'
        · exact hc.le_of_lt (g4 k hk (by omega))
      by_cases hfin : j' ≤ i'
      · rw [if_pos hfin]
        refine ⟨_, i', rfl, by omega, by omega, PermOn.swap _ (by omega) (by omega), ?_, ?_⟩
        · intro k hk hki
          rw [swap_left, swap_ne _ (by omega) (by omega)]
          exact hl k hk hki
        · intro k hk hkh
          rw [swap_left]
          by_cases hke : k = i'
          · rw [hke, swap_left, hc.refl]
          · by_cases hkp : k = p
            · rw [hkp, swap_right]; exact hc.le_of_not_lt h3
            · rw [swap_ne _ hke hkp]
              exact hr k (by omega) (by omega)
      · rw [if_neg hfin]
        have hps : swap a i' j' p = a p := swap_ne _ (by omega) (by omega)
        obtain ⟨a', q, e, q1, q2, hperm, hpart⟩ := ih j' g1 (swap a i' j') i' (by omega) (by omega) (by omega)
          (fun k hk hki => by
            rw [hps]
            by_cases hke : k = i'
            · rw [hke, swap_left]; exact hc.le_of_not_lt g3
            · rw [swap_ne _ hke (by omega)]; exact hl k hk (by omega))
          (fun k hk hkp => by
            rw [hps]
            by_cases hke : k = j'
            · rw [hke, swap_right]; exact hc.le_of_not_lt h3
            · rw [swap_ne _ (by omega) hke]; exact hr k (by omega) hkp)
        exact ⟨a', q, e, q1, q2, PermOn.trans (PermOn.swap _ (by omega) (by omega)) hperm, hpart⟩

theorem partition_spec (hc : Consistent cmp) (lo count : Nat) (hcount : 3 ≤ count) (a : Nat → E) :
    ∃ a' q, partition cmp lo count a = some (a', q) ∧ lo < q ∧ q < lo + count ∧ PermOn lo (lo + count) a a' ∧
      Parted cmp lo (lo + count) q a' := by
  unfold partition
  have hm : lo < lo + count / 2 ∧ lo + count / 2 < lo + (count - 1) := by omega
  generalize lo + count / 2 = mid at *
  simp only
  rw [inb_ok (by omega), inb_ok (by omega), inb_ok (by omega)]
  simp only [Option.bind_eq_bind, Option.bind_some]
  obtain ⟨p, hp⟩ : ∃ p, p = lo + (count - 1) := ⟨_, rfl⟩
  rw [← hp] at hm ⊢
  obtain ⟨b, hb⟩ : ∃ b, b = (if cmp (a mid) (a lo) < 0 then swap a lo mid else a) := ⟨_, rfl⟩
  rw [← hb]
  have pb : PermOn lo (lo + count) a b := by
    rw [hb]; split
    · exact PermOn.swap _ (by omega) (by omega)
    · exact PermOn.refl ..
  have lb : cmp (b lo) (b mid) ≤ 0 := by
    rw [hb]; split
    · rw [swap_left, swap_right]; exact hc.le_of_lt ‹_›
    · exact hc.le_of_not_lt ‹_›
  clear hb
  obtain ⟨c, hcc⟩ : ∃ c, c = (if cmp (b p) (b lo) < 0 then swap b lo p else b) := ⟨_, rfl⟩
  rw [← hcc]
  have pc : PermOn lo (lo + count) a c := by
    rw [hcc]; split
    · exact pb.trans (PermOn.swap _ (by omega) (by omega))
    · exact pb
  have lc : cmp (c lo) (c mid) ≤ 0 ∧ cmp (c lo) (c p) ≤ 0 := by
    rw [hcc]; split
    · rename_i h
      rw [swap_left, swap_right, swap_ne _ (by omega) (by omega)]
      exact ⟨hc.trans _ _ _ (hc.le_of_lt h) lb, hc.le_of_lt h⟩
    · exact ⟨lb, hc.le_of_not_lt ‹_›⟩
  clear hcc
  obtain ⟨d, hd⟩ : ∃ d, d = (if cmp (c mid) (c p) < 0 then swap c mid p else c) := ⟨_, rfl⟩
  rw [← hd]
  have pd : PermOn lo (lo + count) a d := by
    rw [hd]; split
    · exact pc.trans (PermOn.swap _ (by omega) (by omega))
    · exact pc
  have ld : cmp (d lo) (d p) ≤ 0 := by
    rw [hd]; split
    · rw [swap_right, swap_ne _ (by omega) (by omega)]; exact lc.1
    · exact lc.2
  clear hd
  obtain ⟨a', q, e, q1, q2, hperm, hpart⟩ := partLoop_spec hc lo count p (by omega) d lo p (Nat.le_refl _) (by omega)
    (Nat.le_refl _) (fun k h1 h2 => by rw [show k = lo by omega]; exact ld)
    (fun k h1 h2 => by rw [show k = p by omega, hc.refl])
  exact ⟨a', q, e, q1, by omega, pd.trans hperm, hpart⟩

end

end Verif.Sort
