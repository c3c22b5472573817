import Verif.Arith.Model
import Verif.Math.Bridge

/-! # Exact products and powers -/

namespace Verif.Arith
open Verif.Float

variable {F : Fmt}

/-- `c` is the magnitude pattern of `|x|^j`. -/
def IsPow (F : Fmt) (x j c : Nat) : Prop := c < F.inf ∧ F.mag c * 2 ^ (F.unit * j) = F.mag x ^ j * 2 ^ F.unit

theorem odd_part {n : Nat} (h : n ≠ 0) : ∃ m a, n = m * 2 ^ a ∧ m % 2 = 1 := by
  induction n using Nat.strongRecOn with
  | ind n ih =>
    rcases Nat.mod_two_eq_zero_or_one n with h2 | h2
    · obtain ⟨m, a, e, ho⟩ := ih (n / 2) (by omega) (by omega)
      exact ⟨m, a + 1, by rw [Nat.pow_succ, ← Nat.mul_assoc, ← e]; omega, ho⟩
    · exact ⟨n, 0, by simp, h2⟩

theorem odd_pow {m : Nat} (h : m % 2 = 1) (i : Nat) : m ^ i % 2 = 1 := by
  rw [Nat.pow_mod, h]; simp

/-- An odd number times a power of two: the power divides the other one. -/
theorem odd_split {p q a b : Nat} (hp : p % 2 = 1) (h : q * 2 ^ a = p * 2 ^ b) : a ≤ b ∧ q = p * 2 ^ (b - a) := by
  have hle : a ≤ b := by
    rcases Nat.lt_or_ge b a with hlt | hge
    · exfalso
      obtain ⟨d, rfl⟩ : ∃ d, a = b + 1 + d := ⟨a - b - 1, by omega⟩
      have e : q * 2 ^ d * 2 = p := by
        refine Nat.eq_of_mul_eq_mul_right (Nat.two_pow_pos b) ?_
        rw [← h, Nat.pow_add, Nat.pow_succ, Nat.mul_assoc, Nat.mul_assoc, ]
        congr 1
        rw [Nat.mul_comm (2 ^ d), Nat.mul_assoc, Nat.mul_assoc]
        rw [Nat.mul_left_comm]
      omega
    · exact hge
  refine ⟨hle, ?_⟩
  refine Nat.eq_of_mul_eq_mul_right (Nat.two_pow_pos a) ?_
  rw [h, Nat.mul_assoc, ← Nat.pow_add]
  congr 2; omega

theorem odd_dvd {p q a s : Nat} (hp : p % 2 = 1) (h : p * 2 ^ a = q * 2 ^ s) (hq : q ≠ 0) : p ≤ q := by
  obtain ⟨m, b, e, ho⟩ := odd_part hq
  rw [e, Nat.mul_assoc, ← Nat.pow_add] at h
  obtain ⟨h1, h2⟩ := odd_split ho h
  have h3 : b + s - a = 0 := by
    rcases Nat.eq_zero_or_pos (b + s - a) with h' | h'
    · exact h'
    · exfalso
      obtain ⟨d, hd⟩ : ∃ d, b + s - a = d + 1 := ⟨b + s - a - 1, by omega⟩
      rw [hd, Nat.pow_succ, ← Nat.mul_assoc] at h2
      omega
  rw [h3, Nat.pow_zero, Nat.mul_one] at h2
  rw [h2, e]
  exact Nat.le_mul_of_pos_right _ (Nat.two_pow_pos b)

/-- If a power is representable, so are the lower ones. -/
theorem lower_pow (o : F.Ok) {x i c j : Nat} (h : IsPow F x i c) (hj : j ≤ i) : ∃ c', IsPow F x j c' := by
  by_cases hx : F.mag x = 0
  · by_cases hj0 : j = 0
    · have hinf : 2 ^ F.unit < F.mag F.inf := by
        rw [Fmt.mag_inf o]; apply Nat.pow_lt_pow_right (by omega); have := Fmt.unit_eq o; omega
      obtain ⟨n, hn, hne⟩ := Fmt.representable (F := F) (m := 1) (e := F.unit) (Nat.one_le_two_pow) (by omega)
      rw [Nat.one_mul] at hne
      exact ⟨n, (Fmt.mag_lt_iff (F := F)).1 (by omega), by rw [hne, hj0]; simp⟩
    · exact ⟨0, Fmt.inf_pos o, by rw [F.mag_zero, hx, Nat.zero_pow (Nat.pos_of_ne_zero hj0), Nat.zero_mul, Nat.zero_mul]⟩
  obtain ⟨m, a, e, ho⟩ := odd_part hx
  obtain ⟨hc, hp⟩ := h
  have hpow : ∀ k, F.mag x ^ k * 2 ^ F.unit = m ^ k * 2 ^ (a * k + F.unit) := fun k => by
    rw [e, Nat.mul_pow, ← Nat.pow_mul, Nat.mul_assoc, ← Nat.pow_add]
  have hinf : 2 ^ F.unit ≤ F.mag F.inf := by
    rw [Fmt.mag_inf o]; apply Nat.pow_le_pow_right (by omega); have := Fmt.unit_eq o; omega
  have hm := hpow i
  rw [← hp] at hm
  obtain ⟨s1, s2⟩ := odd_split (odd_pow ho i) hm
  -- the exponent
  have hE : F.unit * j ≤ a * j + F.unit := by
    rcases Nat.lt_or_ge a F.unit with hlt | hge
    · obtain ⟨d, hd⟩ : ∃ d, F.unit = a + d := ⟨F.unit - a, by omega⟩
      rw [hd, Nat.add_mul] at s1 ⊢
      have := Nat.mul_le_mul_left d hj
      omega
    · have := Nat.mul_le_mul_right j hge; omega
  -- the significand
  have hmi : m ^ i ≤ 2 ^ (F.f + 1) := by
    obtain ⟨q, hq, hql⟩ := Fmt.mag_form (F := F) c
    unfold Fmt.ulp at hq
    rw [hq] at s2
    have hq0 : q ≠ 0 := by
      intro h0
      rw [h0, Nat.zero_mul] at s2
      have := odd_pow ho i
      have h1 : 0 < m ^ i * 2 ^ (a * i + F.unit - F.unit * i) := Nat.mul_pos (by omega) (Nat.two_pow_pos _)
      omega
    have := odd_dvd (odd_pow ho i) s2.symm hq0
    omega
  have hmpos : 0 < m := by omega
  have hmj : m ^ j ≤ 2 ^ (F.f + 1) := Nat.le_trans (Nat.pow_le_pow_right hmpos hj) hmi
  -- the size
  have hv : m ^ j * 2 ^ (a * j + F.unit - F.unit * j) * 2 ^ (F.unit * j) = F.mag x ^ j * 2 ^ F.unit := by
    rw [hpow, Nat.mul_assoc, ← Nat.pow_add]; congr 2; omega
  have hci := F.mag_strictMono hc
  have hsize : m ^ j * 2 ^ (a * j + F.unit - F.unit * j) ≤ F.mag F.inf ∧ (m ^ j * 2 ^ (a * j + F.unit - F.unit * j) ≤ 2 ^ F.unit ∨
      m ^ j * 2 ^ (a * j + F.unit - F.unit * j) ≤ F.mag c) := by
    suffices hs : (m ^ j * 2 ^ (a * j + F.unit - F.unit * j) ≤ 2 ^ F.unit ∨
      m ^ j * 2 ^ (a * j + F.unit - F.unit * j) ≤ F.mag c) by
      refine ⟨?_, hs⟩
      rcases hs with hs | hs <;> omega
    generalize m ^ j * 2 ^ (a * j + F.unit - F.unit * j) = v at hv
    rcases Nat.lt_or_ge (F.mag x) (2 ^ F.unit) with hlt | hge
    · left
      have h1 : F.mag x ^ j ≤ (2 ^ F.unit) ^ j := Nat.pow_le_pow_left (Nat.le_of_lt hlt) j
      rw [← Nat.pow_mul] at h1
      have h2 := Nat.mul_le_mul_right (2 ^ F.unit) h1
      rw [← hv, Nat.mul_comm] at h2
      exact Nat.le_of_mul_le_mul_left h2 (Nat.two_pow_pos _)
    · right
      obtain ⟨d, rfl⟩ : ∃ d, i = j + d := ⟨i - j, by omega⟩
      have h1 : (2 ^ F.unit) ^ d ≤ F.mag x ^ d := Nat.pow_le_pow_left hge d
      rw [← Nat.pow_mul] at h1
      have h2 : v * 2 ^ (F.unit * j) * 2 ^ (F.unit * d) ≤ F.mag c * 2 ^ (F.unit * (j + d)) := by
        rw [hv, hp, Nat.pow_add, Nat.mul_assoc, Nat.mul_assoc, Nat.mul_comm (F.mag x ^ d)]
        exact Nat.mul_le_mul_left _ (Nat.mul_le_mul_left _ h1)
      rw [Nat.mul_assoc, ← Nat.pow_add, ← Nat.mul_add] at h2
      exact Nat.le_of_mul_le_mul_right h2 (Nat.two_pow_pos _)
  obtain ⟨n, hn, hne⟩ := Fmt.representable (F := F) (m := m ^ j) (e := a * j + F.unit - F.unit * j) hmj hsize.1
  have hinf' : 2 ^ F.unit < F.mag F.inf := by
    rw [Fmt.mag_inf o]; apply Nat.pow_lt_pow_right (by omega); have := Fmt.unit_eq o; omega
  refine ⟨n, (Fmt.mag_lt_iff (F := F)).1 ?_, by rw [hne, hv]⟩
  rw [hne]
  rcases hsize.2 with hs | hs <;> omega

/-- The product of two powers. -/
theorem mul_pow' {x j k a b c : Nat} (ha : IsPow F x j a) (hb : IsPow F x k b) (hc : IsPow F x (j + k) c) (s t : Bool) :
    F.mul (F.pack s a) (F.pack t b) = F.pack (s != t) c := by
  have ha' := Nat.lt_trans ha.1 Fmt.inf_lt
  have hb' := Nat.lt_trans hb.1 Fmt.inf_lt
  rw [Fmt.mul_fin (by rw [Fmt.abs_pack ha']; exact ha.1) (by rw [Fmt.abs_pack hb']; exact hb.1), Fmt.abs_pack ha', Fmt.abs_pack hb',
    Fmt.neg_pack ha', Fmt.neg_pack hb']
  congr 1
  refine rnd_exact (Nat.two_pow_pos _) (Nat.le_of_lt hc.1) ?_
  refine Nat.eq_of_mul_eq_mul_right (Nat.two_pow_pos (F.unit * (j + k))) ?_
  rw [Nat.mul_assoc (2 ^ F.unit), hc.2, Nat.mul_add, Nat.pow_add, Nat.pow_add, Nat.mul_mul_mul_comm, ha.2, hb.2, Nat.mul_mul_mul_comm,
    ← Nat.mul_assoc, Nat.mul_comm]

theorem pow_unique {x j a b : Nat} (ha : IsPow F x j a) (hb : IsPow F x j b) : a = b :=
  F.mag_inj (Nat.eq_of_mul_eq_mul_right (Nat.two_pow_pos _) (ha.2.trans hb.2.symm))

/-- The loop. -/
theorem powuLoop_eq (o : F.Ok) {x n c : Nat} (hn : IsPow F x n c) (s : Bool) :
    ∀ i k j a X, j + k * i = n → IsPow F x j a → (i ≠ 0 → ∃ b, IsPow F x k b ∧ X = F.pack (s && k % 2 == 1) b) →
      powuLoop F X (F.pack (s && j % 2 == 1) a) i = F.pack (s && n % 2 == 1) c := by
  intro i
  induction i using Nat.strongRecOn with
  | ind i ih =>
    intro k j a X hj ha hX
    unfold powuLoop
    by_cases hi : i = 0
    · rw [dif_pos hi]
      subst hi
      have : j = n := by omega
      subst this
      rw [pow_unique ha hn]
    · rw [dif_neg hi]
      have hhalf : i = 2 * (i / 2) + i % 2 := by omega
      have hlt : i / 2 < i := by omega
      have heven : ¬ i % 2 = 1 → i % 2 = 0 := by omega
      obtain ⟨b, hb, rfl⟩ := hX hi
      have hsq : i / 2 ≠ 0 → ∃ b', IsPow F x (k + k) b' ∧ F.mul (F.pack (s && k % 2 == 1) b) (F.pack (s && k % 2 == 1) b) =
          F.pack (s && (k + k) % 2 == 1) b' := by
        intro h2
        obtain ⟨b', hb'⟩ := lower_pow o hn (j := k + k) (by
          have := Nat.mul_le_mul_left k (show 2 ≤ i by omega); omega)
        refine ⟨b', hb', ?_⟩
        rw [mul_pow' hb hb hb']
        have : (k + k) % 2 = 0 := by omega
        rw [this]
        cases s <;> simp
      by_cases hodd : i % 2 = 1
      · rw [if_pos hodd]
        obtain ⟨a', ha'⟩ := lower_pow o hn (j := j + k) (by
          have := Nat.mul_le_mul_left k (show 1 ≤ i from Nat.pos_of_ne_zero hi); clear hsq hX; omega)
        rw [mul_pow' ha hb ha']
        have e : ((s && j % 2 == 1) != (s && k % 2 == 1)) = (s && (j + k) % 2 == 1) := by
          have h1 : (j + k) % 2 = (j % 2 + k % 2) % 2 := by omega
          rw [h1]
          rcases Nat.mod_two_eq_zero_or_one j with e1 | e1 <;> rcases Nat.mod_two_eq_zero_or_one k with e2 | e2 <;>
            rw [e1, e2] <;> cases s <;> rfl
        rw [e]
        refine ih (i / 2) hlt (k + k) (j + k) a' _ ?_ ha' hsq
        rw [← hj]
        conv => rhs; rw [hhalf, hodd, Nat.mul_add, Nat.mul_one, ← Nat.mul_assoc]
        rw [Nat.mul_comm k 2, Nat.two_mul]
        omega
      · rw [if_neg hodd]
        refine ih (i / 2) hlt (k + k) j a _ ?_ ha hsq
        rw [← hj]
        conv => rhs; rw [hhalf, heven hodd, Nat.add_zero, ← Nat.mul_assoc]
        rw [Nat.mul_comm k 2, Nat.two_mul]

theorem powu_eq (o : F.Ok) {one x n c : Nat} (h1 : one < F.inf) (h1' : F.mag one = 2 ^ F.unit) (hp : x < 2 * F.signBit) (hf : F.abs x < F.inf)
    (hn : IsPow F (F.abs x) n c) : powu F one x n = F.pack (F.neg x && n % 2 == 1) c := by
  have := powuLoop_eq o hn (F.neg x) n 1 0 one x (by omega) ⟨h1, by rw [h1']; simp⟩ (fun _ => ⟨F.abs x, ⟨hf, by simp⟩, by
    have := Fmt.pack_self hp
    simp [this]⟩)
  unfold powu
  simpa [Fmt.pack] using this

/-! ### Order and sign -/

/-- Products of numbers at most one are at most one; products of numbers at least one are at least one. -/
theorem mul_side {one a b : Nat} (h1 : one < F.inf) (h0 : 0 < one) (h1' : F.mag one = 2 ^ F.unit) (ha : a ≤ F.inf) (hb : b ≤ F.inf) (s t : Bool)
    (hs : (a ≤ one ∧ b ≤ one) ∨ (one ≤ a ∧ one ≤ b)) :
    ∃ c, F.mul (F.pack s a) (F.pack t b) = F.pack (s != t) c ∧ c ≤ F.inf ∧ ((a ≤ one ∧ b ≤ one) → c ≤ one) ∧ ((one ≤ a ∧ one ≤ b) → one ≤ c) := by
  have ha' := Nat.lt_of_le_of_lt ha (Fmt.inf_lt (F := F))
  have hb' := Nat.lt_of_le_of_lt hb (Fmt.inf_lt (F := F))
  have hU := Nat.two_pow_pos F.unit
  have hone : F.rnd (2 ^ F.unit * 2 ^ F.unit) (2 ^ F.unit) = one := rnd_exact hU (Nat.le_of_lt h1) (by rw [h1'])
  by_cases hf : a < F.inf ∧ b < F.inf
  · rw [Fmt.mul_fin (by rw [Fmt.abs_pack ha']; exact hf.1) (by rw [Fmt.abs_pack hb']; exact hf.2), Fmt.abs_pack ha', Fmt.abs_pack hb',
      Fmt.neg_pack ha', Fmt.neg_pack hb']
    refine ⟨_, rfl, rnd_le _ _ hU, ?_, ?_⟩
    · rintro ⟨l1, l2⟩
      have := rnd_mono (F := F) hU (Nat.mul_le_mul (F.mag_mono l1) (F.mag_mono l2))
      rwa [h1', hone] at this
    · rintro ⟨l1, l2⟩
      have := rnd_mono (F := F) hU (Nat.mul_le_mul (F.mag_mono l1) (F.mag_mono l2))
      rwa [h1', hone] at this
  · have hge : one ≤ a ∧ one ≤ b := by omega
    refine ⟨F.inf, ?_, Nat.le_refl _, by omega, by omega⟩
    unfold Fmt.mul
    rw [Fmt.isNaN_false.2 (by rw [Fmt.abs_pack ha']; exact ha), Fmt.isNaN_false.2 (by rw [Fmt.abs_pack hb']; exact hb),
      if_neg (by simp), if_neg (by rw [Fmt.isFin_iff, Fmt.isFin_iff, Fmt.abs_pack ha', Fmt.abs_pack hb']; exact hf),
      if_neg (by rw [Fmt.abs_pack ha', Fmt.abs_pack hb']; omega), Fmt.neg_pack ha', Fmt.neg_pack hb']

theorem powuLoop_side {one : Nat} (h1 : one < F.inf) (h0 : 0 < one) (h1' : F.mag one = 2 ^ F.unit) (small : Bool) (s : Bool) :
    ∀ i j k a b, a ≤ F.inf → b ≤ F.inf → (if small then a ≤ one ∧ b ≤ one else one ≤ a ∧ one ≤ b) →
      ∃ c, powuLoop F (F.pack (s && k % 2 == 1) b) (F.pack (s && j % 2 == 1) a) i = F.pack (s && (j + k * i) % 2 == 1) c ∧ c ≤ F.inf ∧
        (if small then c ≤ one else one ≤ c) := by
  intro i
  induction i using Nat.strongRecOn with
  | ind i ih =>
    intro j k a b ha hb hs
    unfold powuLoop
    by_cases hi : i = 0
    · rw [dif_pos hi, hi]
      refine ⟨a, by simp, ha, ?_⟩
      cases small
      · simp at hs ⊢; exact hs.1
      · simp at hs ⊢; exact hs.1
    · rw [dif_neg hi]
      have hhalf : i = 2 * (i / 2) + i % 2 := by omega
      have hlt : i / 2 < i := by omega
      have heven : ¬ i % 2 = 1 → i % 2 = 0 := by omega
      have hside : ∀ {u v : Nat}, (if small then u ≤ one ∧ v ≤ one else one ≤ u ∧ one ≤ v) → ((u ≤ one ∧ v ≤ one) ∨ (one ≤ u ∧ one ≤ v)) := by
        intro u v h
        cases small
        · exact Or.inr (by simpa using h)
        · exact Or.inl (by simpa using h)
      have hsb : if small then b ≤ one ∧ b ≤ one else one ≤ b ∧ one ≤ b := by
        cases small
        · simp at hs ⊢; exact hs.2
        · simp at hs ⊢; exact hs.2
      obtain ⟨q, q1, q2, q3, q4⟩ := mul_side h1 h0 h1' hb hb (s && k % 2 == 1) (s && k % 2 == 1) (hside hsb)
      have e2 : ((s && k % 2 == 1) != (s && k % 2 == 1)) = (s && (k + k) % 2 == 1) := by
        have : (k + k) % 2 = 0 := by omega
        rw [this]; cases s <;> simp
      rw [q1, e2]
      have hsq : if small then q ≤ one else one ≤ q := by
        cases small
        · simp at hsb ⊢; exact q4 ⟨hsb, hsb⟩
        · simp at hsb ⊢; exact q3 ⟨hsb, hsb⟩
      by_cases hodd : i % 2 = 1
      · rw [if_pos hodd]
        obtain ⟨p, p1, p2, p3, p4⟩ := mul_side h1 h0 h1' ha hb (s && j % 2 == 1) (s && k % 2 == 1) (hside hs)
        have e1 : ((s && j % 2 == 1) != (s && k % 2 == 1)) = (s && (j + k) % 2 == 1) := by
          have h1 : (j + k) % 2 = (j % 2 + k % 2) % 2 := by omega
          rw [h1]
          rcases Nat.mod_two_eq_zero_or_one j with e1 | e1 <;> rcases Nat.mod_two_eq_zero_or_one k with e2 | e2 <;>
            rw [e1, e2] <;> cases s <;> rfl
        rw [p1, e1]
        obtain ⟨c, c1, c2, c3⟩ := ih (i / 2) hlt (j + k) (k + k) p q p2 q2 (by
          cases small
          · simp at hs hsq ⊢; exact ⟨p4 hs, hsq⟩
          · simp at hs hsq ⊢; exact ⟨p3 hs, hsq⟩)
        refine ⟨c, ?_, c2, c3⟩
        rw [c1]
        have : j + k + (k + k) * (i / 2) = j + k * i := by
          conv => rhs; rw [hhalf, hodd, Nat.mul_add, Nat.mul_one, ← Nat.mul_assoc]
          rw [Nat.mul_comm k 2, Nat.two_mul]
          omega
        rw [this]
      · rw [if_neg hodd]
        obtain ⟨c, c1, c2, c3⟩ := ih (i / 2) hlt j (k + k) a q ha q2 (by
          cases small
          · simp at hs hsq ⊢; exact ⟨hs.1, hsq⟩
          · simp at hs hsq ⊢; exact ⟨hs.1, hsq⟩)
        refine ⟨c, ?_, c2, c3⟩
        rw [c1]
        have : j + (k + k) * (i / 2) = j + k * i := by
          conv => rhs; rw [hhalf, heven hodd, Nat.add_zero, ← Nat.mul_assoc]
          rw [Nat.mul_comm k 2, Nat.two_mul]
        rw [this]

end Verif.Arith
