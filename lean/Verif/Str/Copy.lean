import Verif.Str.Model
import Verif.Str.Spec

namespace Verif.Str

theorem copyUp_spec (L w d s N : Nat) (k i : Nat) (m m0 : Mem) (hk : i + k = N) (hs : s + w * N ≤ L) (hd : d + w * N ≤ L)
    (hov : d ≤ s ∨ s + w * N ≤ d)
    (hm : ∀ a, m a = if d ≤ a ∧ a < d + w * i then m0 (s + (a - d)) else m0 a) :
    ∃ m', copyUp L w d s k i m = some m' ∧ ∀ a, m' a = if d ≤ a ∧ a < d + w * N then m0 (s + (a - d)) else m0 a := by
  induction k generalizing i m with
  | zero =>
    obtain rfl : i = N := by omega
    exact ⟨m, rfl, hm⟩
  | succ k ih =>
    have h1 : w * i + w ≤ w * N := by
      have : w * (i + 1) ≤ w * N := Nat.mul_le_mul_left w (by omega)
      rw [Nat.mul_add, Nat.mul_one] at this; exact this
    unfold copyUp
    rw [if_pos (by omega)]
    apply ih (i + 1) _ (by omega)
    intro a
    unfold block
    rw [Nat.mul_add, Nat.mul_one]
    by_cases hb : d + w * i ≤ a ∧ a < d + w * i + w
    · rw [if_pos hb, if_pos (by omega), hm, if_neg]
      · congr 1; omega
      · omega
    · rw [if_neg hb, hm]
      by_cases h2 : d ≤ a ∧ a < d + w * i
      · rw [if_pos h2, if_pos (by omega)]
      · rw [if_neg h2, if_neg (by omega)]

theorem copyDown_spec (L w d s N : Nat) (i : Nat) (m m0 : Mem) (hk : i ≤ N) (hs : s + w * N ≤ L) (hd : d + w * N ≤ L)
    (hov : s ≤ d ∨ d + w * N ≤ s)
    (hm : ∀ a, m a = if d + w * i ≤ a ∧ a < d + w * N then m0 (s + (a - d)) else m0 a) :
    ∃ m', copyDown L w d s i m = some m' ∧ ∀ a, m' a = if d ≤ a ∧ a < d + w * N then m0 (s + (a - d)) else m0 a := by
  induction i generalizing m with
  | zero => exact ⟨m, rfl, by simpa using hm⟩
  | succ i ih =>
    have h1 : w * i + w ≤ w * N := by
      have : w * (i + 1) ≤ w * N := Nat.mul_le_mul_left w (by omega)
      rw [Nat.mul_add, Nat.mul_one] at this; exact this
    rw [Nat.mul_add, Nat.mul_one] at hm
    unfold copyDown
    rw [if_pos (by omega)]
    apply ih _ (by omega)
    intro a
    unfold block
    by_cases hb : d + w * i ≤ a ∧ a < d + w * i + w
    · rw [if_pos hb, if_pos (by omega), hm, if_neg]
      · congr 1; omega
      · omega
    · rw [if_neg hb, hm]
      by_cases h2 : d + (w * i + w) ≤ a ∧ a < d + w * N
      · rw [if_pos h2, if_pos (by omega)]
      · rw [if_neg h2, if_neg (by omega)]

theorem and_compl (n q : Nat) (h : q < 2 ^ n) : q &&& (2 ^ n - 1 - q) = 0 := by
  apply Nat.eq_of_testBit_eq
  intro i
  rw [Nat.testBit_and, show 2 ^ n - 1 - q = 2 ^ n - (q + 1) by omega, Nat.testBit_two_pow_sub_succ h, Nat.zero_testBit]
  cases q.testBit i <;> simp

/-- The lowest set bit decides divisibility by 2, 4, 8. -/
theorem lowBit_spec (n : Nat) (h : n < 4294967296) :
    (lowBit n = 2 → n % 2 = 0) ∧ (lowBit n = 4 → n % 4 = 0) ∧
      (lowBit n ≠ 1 → lowBit n ≠ 2 → lowBit n ≠ 4 → n % 8 = 0) := by
  by_cases h0 : n % 8 = 0
  · exact ⟨fun _ => by omega, fun _ => by omega, fun _ _ _ => h0⟩
  · have e : lowBit n = 8 * 0 + (n % 8 &&& (8 - n % 8)) := by
      unfold lowBit
      rw [Nat.mod_eq_of_lt (by omega)]
      have hq : n / 8 < 2 ^ 29 := by omega
      have e1 : n = (n / 8) <<< 3 ||| n % 8 := by
        rw [← Nat.shiftLeft_add_eq_or_of_lt (by omega), Nat.shiftLeft_eq]; omega
      have e2 : 4294967296 - n = (2 ^ 29 - 1 - n / 8) <<< 3 ||| (8 - n % 8) := by
        rw [← Nat.shiftLeft_add_eq_or_of_lt (by omega), Nat.shiftLeft_eq]; omega
      apply Nat.eq_of_testBit_eq
      intro i
      have hc := congrArg (fun x => x.testBit (i - 3)) (and_compl 29 (n / 8) hq)
      simp only [Nat.testBit_and, Nat.zero_testBit] at hc
      rw [Nat.testBit_and, Nat.mul_zero, Nat.zero_add, Nat.testBit_and]
      have t1 := congrArg (fun x => x.testBit i) e1
      have t2 := congrArg (fun x => x.testBit i) e2
      simp only [Nat.testBit_or, Nat.testBit_shiftLeft] at t1 t2
      rw [t1, t2]
      by_cases hi : 3 ≤ i
      · have hb : ∀ y, y < 8 → y.testBit i = false := fun y hy =>
          Nat.testBit_lt_two_pow (Nat.lt_of_lt_of_le hy (show 2 ^ 3 ≤ 2 ^ i from Nat.pow_le_pow_right (by omega) hi))
        rw [hb _ (by omega), hb _ (by omega)]
        simpa [hi] using hc
      · simp [hi]
    rw [e]
    have : ∀ r : Fin 8, r.val ≠ 0 → (8 * 0 + (r.val &&& (8 - r.val)) = 2 → r.val % 2 = 0) ∧
        (8 * 0 + (r.val &&& (8 - r.val)) = 4 → r.val % 4 = 0) ∧
        (8 * 0 + (r.val &&& (8 - r.val)) ≠ 1 → 8 * 0 + (r.val &&& (8 - r.val)) ≠ 2 →
          8 * 0 + (r.val &&& (8 - r.val)) ≠ 4 → r.val % 8 = 0) := by decide
    have := this ⟨n % 8, by omega⟩ h0
    simp only at this
    refine ⟨fun h => ?_, fun h => ?_, fun h1 h2 h3 => ?_⟩
    · have := this.1 h; omega
    · have := this.2.1 h; omega
    · have := this.2.2 h1 h2 h3; omega

/-- What a move of `n` bytes from `s` to `d` leaves. -/
def Moved (m m' : Mem) (d s n : Nat) : Prop := ∀ a, m' a = if d ≤ a ∧ a < d + n then m (s + (a - d)) else m a

theorem copyUp_moved (L w d s n : Nat) (m : Mem) (hw : w * (n / w) = n) (hs : s + n ≤ L) (hd : d + n ≤ L)
    (hov : d ≤ s ∨ s + n ≤ d) : ∃ m', copyUp L w d s (n / w) 0 m = some m' ∧ Moved m m' d s n := by
  have := copyUp_spec L w d s (n / w) (n / w) 0 m m (by omega) (by omega) (by omega) (by omega)
    (by intro a; rw [if_neg (by omega)])
  rwa [hw] at this

theorem copyDown_moved (L w d s n : Nat) (m : Mem) (hw : w * (n / w) = n) (hs : s + n ≤ L) (hd : d + n ≤ L)
    (hov : s ≤ d ∨ d + n ≤ s) : ∃ m', copyDown L w d s (n / w) m = some m' ∧ Moved m m' d s n := by
  have := copyDown_spec L w d s (n / w) (n / w) m m (by omega) (by omega) (by omega) (by omega)
    (by intro a; rw [if_neg (by omega)])
  rwa [hw] at this

theorem copy_moved (L d s n : Nat) (m : Mem) (hL : L ≤ 4294967296) (hs : s + n ≤ L) (hd : d + n ≤ L)
    (hov : d ≤ s ∨ s + n ≤ d) : ∃ m', copy L m d s n = some m' ∧ Moved m m' d s n := by
  have h0 : n = 4294967296 ∨ n < 4294967296 := by omega
  rcases h0 with h0 | h0
  · unfold copy
    have : lowBit n = 0 := by rw [h0]; decide
    rw [this]
    exact copyUp_moved L 8 d s n m (by omega) hs hd hov
  have hl := lowBit_spec n h0
  unfold copy
  split
  · next h => simpa using copyUp_moved L 1 d s n m (by omega) hs hd hov
  · next h => have := hl.1 h; exact copyUp_moved L 2 d s n m (by omega) hs hd hov
  · next h => have := hl.2.1 h; exact copyUp_moved L 4 d s n m (by omega) hs hd hov
  · next h1 h2 h3 => have := hl.2.2 (fun h => h1 h) (fun h => h2 h) (fun h => h3 h); exact copyUp_moved L 8 d s n m (by omega) hs hd hov

theorem reverseCopy_moved (L d s n : Nat) (m : Mem) (hL : L ≤ 4294967296) (hs : s + n ≤ L) (hd : d + n ≤ L)
    (hov : s ≤ d ∨ d + n ≤ s) : ∃ m', reverseCopy L m d s n = some m' ∧ Moved m m' d s n := by
  have h0 : n = 4294967296 ∨ n < 4294967296 := by omega
  rcases h0 with h0 | h0
  · unfold reverseCopy
    have : lowBit n = 0 := by rw [h0]; decide
    rw [this]
    exact copyDown_moved L 8 d s n m (by omega) hs hd hov
  have hl := lowBit_spec n h0
  unfold reverseCopy
  split
  · next h => simpa using copyDown_moved L 1 d s n m (by omega) hs hd hov
  · next h => have := hl.1 h; exact copyDown_moved L 2 d s n m (by omega) hs hd hov
  · next h => have := hl.2.1 h; exact copyDown_moved L 4 d s n m (by omega) hs hd hov
  · next h1 h2 h3 => have := hl.2.2 (fun h => h1 h) (fun h => h2 h) (fun h => h3 h); exact copyDown_moved L 8 d s n m (by omega) hs hd hov

theorem memmove_moved (L d s n : Nat) (m : Mem) (hL : L ≤ 4294967296) (hs : s + n ≤ L) (hd : d + n ≤ L) :
    ∃ m', memmove L m d s n = some m' ∧ Moved m m' d s n := by
  unfold memmove
  by_cases hc : u32 ((d : Int) - s) < n
  · rw [if_pos hc]
    apply reverseCopy_moved L d s n m hL hs hd
    unfold u32 at hc
    omega
  · rw [if_neg hc]
    apply copy_moved L d s n m hL hs hd
    unfold u32 at hc
    omega

/-! ## memset -/

/-- What filling `n` bytes at `d` with `c` leaves. -/
def Filled (m m' : Mem) (d n c : Nat) : Prop := ∀ a, m' a = if d ≤ a ∧ a < d + n then c else m a

theorem fillBytes_spec (L c n d : Nat) (m : Mem) (h : d + n ≤ L) :
    ∃ m', fillBytes L c n d m = some m' ∧ Filled m m' d n c := by
  induction n generalizing d m with
  | zero => exact ⟨m, rfl, fun a => by rw [if_neg (by omega)]⟩
  | succ n ih =>
    unfold fillBytes
    rw [if_pos (by omega)]
    obtain ⟨m', e, hm⟩ := ih (d + 1) (put m d c) (by omega)
    refine ⟨m', e, fun a => ?_⟩
    rw [hm]
    unfold put
    split
    · rw [if_pos (by omega)]
    · split
      · rw [if_pos (by omega)]
      · rw [if_neg (by omega)]

theorem fillWords_spec (L c n d : Nat) (m : Mem) (h : d + n ≤ L) :
    ∃ m', fillWords L c n d m = some m' ∧ Filled m m' d n c := by
  induction n using Nat.strongRecOn generalizing d m with
  | ind n ih =>
    unfold fillWords
    by_cases hn : n ≥ 8
    · rw [if_pos hn, if_pos (by omega)]
      obtain ⟨m', e, hm⟩ := ih (n - 8) (by omega) (d + 8) _ (by omega)
      refine ⟨m', e, fun a => ?_⟩
      rw [hm]
      simp only
      split
      · rw [if_pos (by omega)]
      · split
        · rw [if_pos (by omega)]
        · rw [if_neg (by omega)]
    · rw [if_neg hn]; exact fillBytes_spec L c n d m h

theorem memsetFrom_spec (L c n d : Nat) (m : Mem) (h : d + n ≤ L) (ha : d % 8 = 0 ∨ 8 ≤ d % 8 + n) :
    ∃ m', memsetFrom L c n d m = some m' ∧ Filled m m' d n c := by
  induction n generalizing d m with
  | zero =>
    unfold memsetFrom
    rw [if_neg (by omega)]
    exact fillWords_spec L c 0 d m h
  | succ n ih =>
    unfold memsetFrom
    by_cases h0 : d % 8 = 0
    · rw [if_neg (by omega)]; exact fillWords_spec L c _ d m h
    · rw [if_pos h0]
      simp only
      rw [if_pos (by omega)]
      obtain ⟨m', e, hm⟩ := ih (d + 1) (put m d c) (by omega) (by omega)
      refine ⟨m', e, fun a => ?_⟩
      rw [hm]
      unfold put
      split
      · rw [if_pos (by omega)]
      · split
        · rw [if_pos (by omega)]
        · rw [if_neg (by omega)]

theorem fillBytes_fail (L c n d : Nat) (m : Mem) (hn : n ≠ 0) (h : L < d + n) : fillBytes L c n d m = none := by
  induction n generalizing d m with
  | zero => exact absurd rfl hn
  | succ n ih =>
    unfold fillBytes
    split
    · next hd =>
      exact ih _ _ (by omega) (by omega)
    · rfl

theorem fillWords_fail (L c n d : Nat) (m : Mem) (hn : n % 8 ≠ 0) (h : L < d + n) : fillWords L c n d m = none := by
  induction n using Nat.strongRecOn generalizing d m with
  | ind n ih =>
    unfold fillWords
    by_cases h8 : n ≥ 8
    · rw [if_pos h8]
      split
      · exact ih (n - 8) (by omega) _ _ (by omega) (by omega)
      · rfl
    · rw [if_neg h8]; exact fillBytes_fail L c n d m (by omega) h

theorem memsetFrom_fail (L c n d : Nat) (m : Mem) (hL : L < 4294967296) (h : d + n ≤ L) (ha : d % 8 + n < 8) (h0 : d % 8 ≠ 0) :
    memsetFrom L c n d m = none := by
  induction n generalizing d m with
  | zero =>
    unfold memsetFrom
    rw [if_pos h0]
    exact fillWords_fail L c 4294967295 d m (by omega) (by omega)
  | succ n ih =>
    unfold memsetFrom
    rw [if_pos h0]
    simp only
    rw [if_pos (by omega)]
    exact ih (d + 1) _ (by omega) (by omega) (by omega)

end Verif.Str
