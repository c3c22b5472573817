import Verif.Str.Model
import Verif.Str.Spec

namespace Verif.Str

/-- A word with a zero byte at position `k` is detected through the bit above that byte. -/
theorem probe_of_bit (w j : Nat) (hw : w < 2 ^ 64) (hj : j < 64) (hm : magic.testBit j = false)
    (hb : (w + magic).testBit j = w.testBit j) : probe w = true := by
  unfold probe
  rw [bne_iff_ne]
  intro h
  have := congrArg (fun x => x.testBit j) h
  simp only [Nat.testBit_and, Nat.testBit_xor, Nat.testBit_mod_two_pow, Nat.zero_testBit, hj, hb, hm,
    show (0xFFFFFFFFFFFFFFFF : Nat) = 2 ^ 64 - 1 by rfl, Nat.testBit_two_pow_sub_one] at this
  cases hx : w.testBit j <;> simp [hx] at this

/-- Bit `j` of a sum when the parts below do not carry and `y` has an even part above. -/
theorem add_testBit (x y j : Nat) (hlow : x % 2 ^ j + y % 2 ^ j < 2 ^ j) (hy : y / 2 ^ j % 2 = 0) :
    (x + y).testBit j = x.testBit j := by
  have hp : 0 < 2 ^ j := Nat.two_pow_pos j
  have e : (x + y) / 2 ^ j = x / 2 ^ j + y / 2 ^ j := by
    rw [Nat.add_div hp, if_neg (by omega)]; rfl
  simp only [Nat.testBit_eq_decide_div_mod_eq, e]
  congr 1
  rw [Nat.add_mod, hy]
  simp

theorem probe_zero (w : Nat) (hw : w < 2 ^ 64) (k : Nat) (hk : k < 8) (hz : w / 256 ^ k % 256 = 0) : probe w = true := by
  have hk' : k = 0 ∨ k = 1 ∨ k = 2 ∨ k = 3 ∨ k = 4 ∨ k = 5 ∨ k = 6 ∨ k = 7 := by omega
  rcases hk' with rfl | rfl | rfl | rfl | rfl | rfl | rfl | rfl
  · exact probe_of_bit w 8 hw (by decide) (by decide) (add_testBit w magic 8 (by unfold magic; omega) (by decide))
  · exact probe_of_bit w 16 hw (by decide) (by decide) (add_testBit w magic 16 (by unfold magic; omega) (by decide))
  · exact probe_of_bit w 24 hw (by decide) (by decide) (add_testBit w magic 24 (by unfold magic; omega) (by decide))
  · exact probe_of_bit w 32 hw (by decide) (by decide) (add_testBit w magic 32 (by unfold magic; omega) (by decide))
  · exact probe_of_bit w 40 hw (by decide) (by decide) (add_testBit w magic 40 (by unfold magic; omega) (by decide))
  · exact probe_of_bit w 48 hw (by decide) (by decide) (add_testBit w magic 48 (by unfold magic; omega) (by decide))
  · exact probe_of_bit w 56 hw (by decide) (by decide) (add_testBit w magic 56 (by unfold magic; omega) (by decide))
  · exact probe_of_bit w 63 hw (by decide) (by decide) (add_testBit w magic 63 (by unfold magic; omega) (by decide))

theorem word_lt (m : Mem) (hm : ∀ a, m a < 256) (a : Nat) : word m a < 2 ^ 64 := by
  have h0 := hm a; have h1 := hm (a + 1); have h2 := hm (a + 2); have h3 := hm (a + 3)
  have h4 := hm (a + 4); have h5 := hm (a + 5); have h6 := hm (a + 6); have h7 := hm (a + 7)
  unfold word
  omega

theorem word_byte (m : Mem) (hm : ∀ a, m a < 256) (a k : Nat) (hk : k < 8) : word m a / 256 ^ k % 256 = m (a + k) := by
  have h0 := hm a; have h1 := hm (a + 1); have h2 := hm (a + 2); have h3 := hm (a + 3)
  have h4 := hm (a + 4); have h5 := hm (a + 5); have h6 := hm (a + 6); have h7 := hm (a + 7)
  have hk' : k = 0 ∨ k = 1 ∨ k = 2 ∨ k = 3 ∨ k = 4 ∨ k = 5 ∨ k = 6 ∨ k = 7 := by omega
  unfold word
  rcases hk' with rfl | rfl | rfl | rfl | rfl | rfl | rfl | rfl
  · simp only [Nat.pow_zero, Nat.div_one, Nat.add_zero]; omega
  all_goals (simp only [Nat.reducePow]; omega)

theorem spread_table : ∀ c : Fin 256, ∀ k : Fin 8, spread c.val / 256 ^ k.val % 256 = c.val := by decide +kernel

theorem spread_byte (c k : Nat) (hc : c < 256) (hk : k < 8) : spread c / 256 ^ k % 256 = c :=
  spread_table ⟨c, hc⟩ ⟨k, hk⟩

theorem xor_byte (x y k : Nat) : (x ^^^ y) / 256 ^ k % 256 = (x / 256 ^ k % 256) ^^^ (y / 256 ^ k % 256) := by
  rw [show 256 ^ k = 2 ^ (8 * k) by rw [Nat.pow_mul], show (256 : Nat) = 2 ^ 8 by rfl]
  apply Nat.eq_of_testBit_eq
  intro i
  simp only [Nat.testBit_mod_two_pow, Nat.testBit_xor, Nat.testBit_div_two_pow]
  cases decide (i < 8) <;> simp

theorem probe_eq (m : Mem) (hm : ∀ a, m a < 256) (a k : Nat) (hk : k < 8) (h : m (a + k) = 0) : probe (word m a) = true :=
  probe_zero _ (word_lt m hm a) k hk (by rw [word_byte m hm a k hk, h])

theorem probe_xor (m : Mem) (hm : ∀ a, m a < 256) (c : Nat) (hc : c < 256) (a k : Nat) (hk : k < 8) (h : m (a + k) = c) :
    probe (word m a ^^^ spread c) = true := by
  refine probe_zero _ (Nat.xor_lt_two_pow (word_lt m hm a) ?_) k hk ?_
  · unfold spread; omega
  · rw [xor_byte, word_byte m hm a k hk, spread_byte c k hc hk, h, Nat.xor_self]

theorem find8_some (m : Mem) (a k : Nat) (p : Nat → Bool) (hk : k < 8) (hp : p (m (a + k)) = true)
    (hj : ∀ j, j < k → p (m (a + j)) = false) : find8 m a p = some k := by
  unfold find8
  rw [List.find?_range_eq_some]
  exact ⟨hp, by simpa using hk, fun j h => by simp [hj j h]⟩

theorem find8_none (m : Mem) (a : Nat) (p : Nat → Bool) (hj : ∀ j, j < 8 → p (m (a + j)) = false) : find8 m a p = none := by
  unfold find8
  rw [List.find?_eq_none]
  intro x hx
  simp [hj x (List.mem_range.mp hx)]

/-- `hit` finds the first byte that satisfies `p` in a word. -/
def Finds (m : Mem) (p : Nat → Bool) (hit : Nat → Option Nat) : Prop := ∀ a, hit a = find8 m a p

theorem memchrHit_finds (m : Mem) (hm : ∀ a, m a < 256) (c : Nat) (hc : c < 256) : Finds m (· == c) (memchrHit m c) := by
  intro a
  unfold memchrHit
  split
  · rfl
  · next h =>
    symm; apply find8_none
    intro j hj
    rw [beq_eq_false_iff_ne]
    intro e
    exact h (probe_xor m hm c hc a j hj e)

theorem strlenHit_finds (m : Mem) (hm : ∀ a, m a < 256) : Finds m (· == 0) (strlenHit m) := by
  intro a
  unfold strlenHit
  split
  · rfl
  · next h =>
    symm; apply find8_none
    intro j hj
    rw [beq_eq_false_iff_ne]
    intro e
    exact h (probe_eq m hm a j hj e)

theorem strchrHit_finds (m : Mem) (hm : ∀ a, m a < 256) (c : Nat) (hc : c < 256) :
    Finds m (fun b => b == c || b == 0) (strchrHit m c) := by
  intro a
  unfold strchrHit
  split
  · rfl
  · next h =>
    symm; apply find8_none
    intro j hj
    simp only [Bool.or_eq_true, not_or] at h
    simp only [Bool.or_eq_false_iff, beq_eq_false_iff_ne]
    exact ⟨fun e => h.1 (probe_xor m hm c hc a j hj e), fun e => h.2 (probe_eq m hm a j hj e)⟩

/-- The word loop ends at the first byte that satisfies `p`. -/
theorem scanWords_spec (L : Nat) (h8 : L % 8 = 0) (m : Mem) (p : Nat → Bool) (hit : Nat → Option Nat) (hf : Finds m p hit)
    (t a : Nat) (ha : a % 8 = 0) (hat : a ≤ t) (ht : t < L) (hp : p (m t) = true) (hn : ∀ b, a ≤ b → b < t → p (m b) = false) :
    scanWords L hit a = some t := by
  obtain ⟨n, hn'⟩ : ∃ n, n = t - a := ⟨_, rfl⟩
  induction n using Nat.strongRecOn generalizing a with
  | ind n ih =>
    unfold scanWords
    rw [dif_pos (by omega), hf a]
    by_cases hlt : t < a + 8
    · rw [find8_some m a (t - a) p (by omega) (by rwa [Nat.add_sub_cancel' hat]) (fun j hj => hn _ (by omega) (by omega))]
      simp only [Nat.add_sub_cancel' hat]
    · rw [find8_none m a p (fun j hj => hn _ (by omega) (by omega))]
      exact ih (t - (a + 8)) (by omega) (a + 8) (by omega) (by omega) (fun b h1 h2 => hn b (by omega) h2) rfl

theorem strlenFrom_spec (L : Nat) (h8 : L % 8 = 0) (m : Mem) (hm : ∀ a, m a < 256) (t a : Nat) (hat : a ≤ t) (ht : t < L)
    (hp : m t = 0) (hn : ∀ b, a ≤ b → b < t → m b ≠ 0) : strlenFrom L m a = some t := by
  obtain ⟨n, hn'⟩ : ∃ n, n = t - a := ⟨_, rfl⟩
  induction n generalizing a with
  | zero =>
    obtain rfl : a = t := by omega
    unfold strlenFrom
    by_cases h0 : a % 8 ≠ 0
    · rw [if_pos h0, dif_pos ht, if_pos hp]
    · rw [if_neg h0]
      exact scanWords_spec L h8 m _ _ (strlenHit_finds m hm) a a (by omega) (by omega) ht (by simp [hp]) (fun b h1 h2 => by omega)
  | succ n ih =>
    unfold strlenFrom
    by_cases h0 : a % 8 ≠ 0
    · rw [if_pos h0, dif_pos (by omega), if_neg (hn a (by omega) (by omega))]
      exact ih (a + 1) (by omega) (fun b h1 h2 => hn b (by omega) h2) (by omega)
    · rw [if_neg h0]
      exact scanWords_spec L h8 m _ _ (strlenHit_finds m hm) t a (by omega) (by omega) ht (by simp [hp])
        (fun b h1 h2 => by simp [hn b h1 h2])

theorem strchrFrom_spec (L : Nat) (h8 : L % 8 = 0) (m : Mem) (hm : ∀ a, m a < 256) (c : Nat) (hc : c < 256) (t a : Nat)
    (hat : a ≤ t) (ht : t < L) (hp : m t = c ∨ m t = 0) (hn : ∀ b, a ≤ b → b < t → m b ≠ c ∧ m b ≠ 0) :
    strchrFrom L m c a = some (if m t = c then some t else none) := by
  have hw : ∀ a, a % 8 = 0 → a ≤ t → (∀ b, a ≤ b → b < t → m b ≠ c ∧ m b ≠ 0) →
      strchrWords L m c a = some (if m t = c then some t else none) := by
    intro a h1 h2 h3
    unfold strchrWords
    rw [scanWords_spec L h8 m _ _ (strchrHit_finds m hm c hc) t a h1 h2 ht (by simpa using hp)
      (fun b h4 h5 => by simp [h3 b h4 h5])]
    rfl
  obtain ⟨n, hn'⟩ : ∃ n, n = t - a := ⟨_, rfl⟩
  induction n generalizing a with
  | zero =>
    obtain rfl : a = t := by omega
    unfold strchrFrom
    by_cases h0 : a % 8 ≠ 0
    · rw [if_pos h0, dif_pos ht]
      by_cases hac : m a = c
      · rw [if_pos hac, if_pos hac]
      · rw [if_neg hac, if_neg hac, if_pos (hp.resolve_left hac)]
    · rw [if_neg h0]; exact hw a (by omega) (by omega) hn
  | succ n ih =>
    unfold strchrFrom
    by_cases h0 : a % 8 ≠ 0
    · have := hn a (by omega) (by omega)
      rw [if_pos h0, dif_pos (by omega), if_neg this.1, if_neg this.2]
      exact ih (a + 1) (by omega) (fun b h1 h2 => hn b (by omega) h2) (by omega)
    · rw [if_neg h0]; exact hw a (by omega) hat hn

/-! ## memchr -/

theorem memchrTail_found (L : Nat) (m : Mem) (c n a t : Nat) (ht : t < L) (hat : a ≤ t) (htn : t < a + n) (hp : m t = c)
    (hn : ∀ b, a ≤ b → b < t → m b ≠ c) : memchrTail L m c n a = some (some t) := by
  induction n generalizing a with
  | zero => omega
  | succ n ih =>
    unfold memchrTail
    rw [if_pos (by omega)]
    by_cases h : a = t
    · subst h; rw [if_pos hp]
    · rw [if_neg (hn a (by omega) (by omega))]
      exact ih (a + 1) (by omega) (by omega) (fun b h1 h2 => hn b (by omega) h2)

theorem memchrTail_none (L : Nat) (m : Mem) (c n a : Nat) (hL : a + n ≤ L) (hn : ∀ b, a ≤ b → b < a + n → m b ≠ c) :
    memchrTail L m c n a = some none := by
  induction n generalizing a with
  | zero => rfl
  | succ n ih =>
    unfold memchrTail
    rw [if_pos (by omega), if_neg (hn a (by omega) (by omega))]
    exact ih (a + 1) (by omega) (fun b h1 h2 => hn b (by omega) (by omega))

/-- The word loop finds the first occurrence, if the whole words up to it lie in memory. -/
theorem memchrScan_found (L : Nat) (m : Mem) (c : Nat) (hit : Nat → Option Nat) (hf : Finds m (· == c) hit)
    (n a t : Nat) (hL : a + n ≤ L ∨ t + 8 ≤ L) (hat : a ≤ t) (htn : t < a + n) (hp : m t = c)
    (hn : ∀ b, a ≤ b → b < t → m b ≠ c) : memchrScan L m c hit n a = some (some t) := by
  induction n using Nat.strongRecOn generalizing a with
  | ind n ih =>
    unfold memchrScan
    by_cases h8 : n ≥ 8
    · rw [if_pos h8, if_pos (by omega), hf a]
      by_cases hlt : t < a + 8
      · rw [find8_some m a (t - a) _ (by omega) (by simp [Nat.add_sub_cancel' hat, hp])
          (fun j hj => by simpa using hn _ (by omega) (by omega))]
        simp only [Nat.add_sub_cancel' hat]
      · rw [find8_none m a _ (fun j hj => by simpa using hn _ (by omega) (by omega))]
        exact ih (n - 8) (by omega) (a + 8) (by omega) (by omega) (by omega) (fun b h1 h2 => hn b (by omega) h2)
    · rw [if_neg h8]
      exact memchrTail_found L m c n a t (by omega) hat htn hp hn

theorem memchrScan_none (L : Nat) (m : Mem) (c : Nat) (hit : Nat → Option Nat) (hf : Finds m (· == c) hit)
    (n a : Nat) (hL : a + n ≤ L) (hn : ∀ b, a ≤ b → b < a + n → m b ≠ c) : memchrScan L m c hit n a = some none := by
  induction n using Nat.strongRecOn generalizing a with
  | ind n ih =>
    unfold memchrScan
    by_cases h8 : n ≥ 8
    · rw [if_pos h8, if_pos (by omega), hf a, find8_none m a _ (fun j hj => by simpa using hn _ (by omega) (by omega))]
      exact ih (n - 8) (by omega) (a + 8) (by omega) (fun b h1 h2 => hn b (by omega) (by omega))
    · rw [if_neg h8]
      exact memchrTail_none L m c n a hL hn

theorem memchrFrom_found (L : Nat) (m : Mem) (hm : ∀ a, m a < 256) (c : Nat) (hc : c < 256)
    (n a t : Nat) (hL : a + n ≤ L) (hat : a ≤ t) (htn : t < a + n) (hp : m t = c)
    (hn : ∀ b, a ≤ b → b < t → m b ≠ c) : memchrFrom L m c n a = some (some t) := by
  induction n generalizing a with
  | zero => omega
  | succ n ih =>
    unfold memchrFrom
    split
    · simp only
      rw [if_pos (by omega)]
      by_cases h : a = t
      · subst h; rw [if_pos hp]
      · rw [if_neg (hn a (by omega) (by omega))]
        exact ih (a + 1) (by omega) (by omega) (by omega) (fun b h1 h2 => hn b (by omega) h2)
    · exact memchrScan_found L m c _ (memchrHit_finds m hm c hc) (n + 1) a t (.inl hL) hat htn hp hn

theorem memchrFrom_none (L : Nat) (m : Mem) (hm : ∀ a, m a < 256) (c : Nat) (hc : c < 256)
    (n a : Nat) (hL : a + n ≤ L) (ha : a % 8 = 0 ∨ 8 ≤ a % 8 + n) (hn : ∀ b, a ≤ b → b < a + n → m b ≠ c) :
    memchrFrom L m c n a = some none := by
  induction n generalizing a with
  | zero =>
    unfold memchrFrom
    rw [if_neg (by omega)]
    exact memchrScan_none L m c _ (memchrHit_finds m hm c hc) 0 a hL hn
  | succ n ih =>
    unfold memchrFrom
    split
    · simp only
      rw [if_pos (by omega), if_neg (hn a (by omega) (by omega))]
      exact ih (a + 1) (by omega) (by omega) (fun b h1 h2 => hn b (by omega) (by omega))
    · exact memchrScan_none L m c _ (memchrHit_finds m hm c hc) (n + 1) a hL hn

/-- With fewer bytes than up to the next multiple of 8, the search goes on behind the bytes given. -/
theorem memchrFrom_overrun (L : Nat) (m : Mem) (hm : ∀ a, m a < 256) (c : Nat) (hc : c < 256)
    (n a t : Nat) (ha : a % 8 ≠ 0) (han : a % 8 + n < 8) (hat : a + n ≤ t) (ht : t + 8 ≤ L) (hL : L < 4294967296) (hp : m t = c)
    (hn : ∀ b, a ≤ b → b < t → m b ≠ c) : memchrFrom L m c n a = some (some t) := by
  induction n generalizing a with
  | zero =>
    unfold memchrFrom
    rw [if_pos ha]
    exact memchrScan_found L m c _ (memchrHit_finds m hm c hc) 4294967295 a t (.inr ht) hat (by omega) hp hn
  | succ n ih =>
    unfold memchrFrom
    rw [if_pos ha]
    simp only
    rw [if_pos (by omega), if_neg (hn a (by omega) (by omega))]
    exact ih (a + 1) (by omega) (by omega) (by omega) (fun b h1 h2 => hn b (by omega) h2)

end Verif.Str
