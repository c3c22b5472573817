import Verif.Decimal.Digits

/-! # Multiple precision (bigint.h) -/

namespace Verif.Decimal
open Verif.Strtol Spec

/-- The number held by limbs. -/
def val : List Nat → Nat
  | [] => 0
  | v :: t => v + 2 ^ 64 * val t

/-- Limbs of 64 bits without leading zeros. -/
def Norm : List Nat → Prop
  | [] => True
  | v :: t => v < 2 ^ 64 ∧ Norm t ∧ (t = [] → v ≠ 0)

def Rep (b : List Nat) (x : Nat) : Prop := Norm b ∧ val b = x

theorem rep_nil : Rep [] 0 := ⟨trivial, rfl⟩

theorem val_lt : ∀ {b : List Nat}, Norm b → val b < 2 ^ (64 * b.length)
  | [], _ => by decide
  | v :: t, h => by
    have := val_lt h.2.1
    have hv := h.1
    rw [List.length_cons, Nat.mul_succ, Nat.add_comm, Nat.pow_add]
    unfold val
    generalize 2 ^ (64 * t.length) = A at *
    omega

theorem val_ge : ∀ {b : List Nat}, Norm b → b ≠ [] → 2 ^ (64 * (b.length - 1)) ≤ val b
  | [v], h, _ => by
    have := h.2.2 rfl
    show 1 ≤ v + 2 ^ 64 * 0
    omega
  | v :: u :: t, h, _ => by
    have := val_ge h.2.1 (by simp)
    rw [List.length_cons, Nat.add_sub_cancel] at this
    rw [List.length_cons, Nat.add_sub_cancel, List.length_cons, Nat.mul_succ, Nat.add_comm, Nat.pow_add]
    rw [val]
    have := Nat.mul_le_mul_left (2 ^ 64) this
    omega

theorem len_le_iff {b : List Nat} (h : Norm b) (n : Nat) : b.length ≤ n ↔ val b < 2 ^ (64 * n) := by
  constructor
  · intro hl
    exact Nat.lt_of_lt_of_le (val_lt h) (Nat.pow_le_pow_right (by omega) (by omega))
  · intro hv
    cases b with
    | nil => exact Nat.zero_le _
    | cons v t =>
      have := Nat.lt_of_le_of_lt (val_ge h (by simp)) hv
      have := (Nat.pow_lt_pow_iff_right (by omega)).mp this
      rw [List.length_cons] at *
      omega

theorem cap_eq {b : List Nat} {x : Nat} (h : Rep b x) : cap b = if x < 2 ^ 16384 then some b else none := by
  unfold cap
  have := len_le_iff h.1 256
  rw [h.2, show 64 * 256 = 16384 from rfl] at this
  simp only [this]

theorem mulGo_rep {m : Nat} (hm : m < 2 ^ 64) (h0 : m ≠ 0) : ∀ {b : List Nat} {c : Nat}, Norm b → c < 2 ^ 64 → Rep (mulGo m b c) (val b * m + c)
  | [], c, _, hc => by
    unfold mulGo val
    by_cases h : c ≠ 0
    · rw [if_pos h]
      exact ⟨⟨hc, trivial, fun _ => h⟩, by unfold val val; omega⟩
    · rw [if_neg h]
      exact ⟨trivial, by unfold val; omega⟩
  | v :: t, c, h, hc => by
    have hv := h.1
    have hb : v * m + c < 2 ^ 64 * 2 ^ 64 := by
      have : v * m ≤ (2 ^ 64 - 1) * (2 ^ 64 - 1) := Nat.mul_le_mul (by omega) (by omega)
      omega
    have ih := mulGo_rep hm h0 h.2.1 (c := (v * m + c) / 2 ^ 64) (Nat.div_lt_of_lt_mul hb)
    have dm := Nat.div_add_mod (v * m + c) (2 ^ 64)
    unfold mulGo
    refine ⟨⟨Nat.mod_lt _ (by decide), ih.1, ?_⟩, ?_⟩
    · intro hn
      have hz : val (mulGo m t ((v * m + c) / 2 ^ 64)) = 0 := by rw [hn]; rfl
      rw [ih.2] at hz
      have hd : (v * m + c) / 2 ^ 64 = 0 := by omega
      have ht : val t * m = 0 := by omega
      have ht0 : val t = 0 := (Nat.mul_eq_zero.mp ht).resolve_right h0
      have htn : t = [] := by
        cases t with
        | nil => rfl
        | cons u t =>
          have := val_ge h.2.1 (by simp)
          have := Nat.two_pow_pos (64 * ((u :: t).length - 1))
          omega
      have hv0 := h.2.2 htn
      have : 0 < v * m := Nat.mul_pos (by omega) (by omega)
      omega
    · rw [val, ih.2, val]
      rw [Nat.add_mul, Nat.mul_assoc, Nat.mul_add]
      omega

theorem bigMul_eq {b : List Nat} {x m : Nat} (h : Rep b x) (hm : m < 2 ^ 64) :
    (x * m < 2 ^ 16384 → ∃ b', bigMul b m = some b' ∧ Rep b' (x * m)) ∧ (2 ^ 16384 ≤ x * m → bigMul b m = none) := by
  unfold bigMul
  by_cases h0 : m = 0
  · rw [if_pos h0, h0, Nat.mul_zero]
    exact ⟨fun _ => ⟨[], rfl, rep_nil⟩, fun h => absurd h (Nat.not_le.mpr (Nat.two_pow_pos _))⟩
  · rw [if_neg h0]
    have r := mulGo_rep hm h0 h.1 (c := 0) (by decide)
    rw [h.2, Nat.add_zero] at r
    rw [cap_eq r]
    exact ⟨fun h => ⟨_, if_pos h, r⟩, fun h => if_neg (Nat.not_lt.mpr h)⟩

theorem addGo_rep : ∀ {b : List Nat} {c : Nat}, Norm b → c < 2 ^ 64 → Rep (addGo b c) (val b + c)
  | [], c, _, hc => by
    unfold addGo val
    by_cases h : c ≠ 0
    · rw [if_pos h]
      exact ⟨⟨hc, trivial, fun _ => h⟩, by unfold val val; omega⟩
    · rw [if_neg h]
      exact ⟨trivial, by unfold val; omega⟩
  | v :: t, c, h, hc => by
    have hv := h.1
    unfold addGo
    by_cases h0 : c ≠ 0
    · rw [if_pos h0]
      have hb : bit ((v + c) % 2 ^ 64 < v) = (v + c) / 2 ^ 64 := by unfold bit; split <;> omega
      rw [hb]
      have ih := addGo_rep h.2.1 (c := (v + c) / 2 ^ 64) (by omega)
      refine ⟨⟨Nat.mod_lt _ (by decide), ih.1, ?_⟩, ?_⟩
      · intro hn
        have hz : val (addGo t ((v + c) / 2 ^ 64)) = 0 := by rw [hn]; rfl
        rw [ih.2] at hz
        omega
      · rw [val, ih.2, val]
        omega
    · rw [if_neg h0]
      exact ⟨h, by omega⟩

theorem bigAdd_eq {b : List Nat} {x a : Nat} (h : Rep b x) (ha : a < 2 ^ 64) :
    (x + a < 2 ^ 16384 → ∃ b', bigAdd b a = some b' ∧ Rep b' (x + a)) ∧ (2 ^ 16384 ≤ x + a → bigAdd b a = none) := by
  unfold bigAdd
  have r := addGo_rep h.1 ha
  rw [h.2] at r
  rw [cap_eq r]
  exact ⟨fun h => ⟨_, if_pos h, r⟩, fun h => if_neg (Nat.not_lt.mpr h)⟩

theorem smallPow_eq : ∀ k : Nat, k < 27 → smallPow k = 5 ^ k ∧ smallPow k < 2 ^ 64 := by decide

theorem mulMany_eq (n : Nat) : ∀ {b : List Nat} {x : Nat}, Rep b x → x * 5 ^ (27 * n) < 2 ^ 16384 →
    ∃ b', mulMany n b = some b' ∧ Rep b' (x * 5 ^ (27 * n)) := by
  induction n with
  | zero =>
    intro b x h _
    exact ⟨b, rfl, by rw [Nat.mul_zero, Nat.pow_zero, Nat.mul_one]; exact h⟩
  | succ n ih =>
    intro b x h hl
    have e : x * 5 ^ (27 * (n + 1)) = x * 7450580596923828125 * 5 ^ (27 * n) := by
      rw [Nat.mul_succ, Nat.pow_add, show (5 : Nat) ^ 27 = 7450580596923828125 from by decide, Nat.mul_comm (5 ^ (27 * n)), Nat.mul_assoc]
    rw [e] at hl ⊢
    have hp : 1 ≤ 5 ^ (27 * n) := Nat.pow_pos (by omega)
    obtain ⟨b', hb, r⟩ := (bigMul_eq (m := 7450580596923828125) h (by decide)).1
      (Nat.lt_of_le_of_lt (Nat.le_mul_of_pos_right _ hp) hl)
    unfold mulMany
    rw [hb, Option.bind_some]
    exact ih r hl

theorem bigMulPow5_eq {b : List Nat} {x k : Nat} (h : Rep b x) (hl : x * 5 ^ k < 2 ^ 16384) :
    ∃ b', bigMulPow5 b k = some b' ∧ Rep b' (x * 5 ^ k) := by
  have e : x * 5 ^ k = x * 5 ^ (27 * (k / 27)) * 5 ^ (k % 27) := by
    rw [Nat.mul_assoc, ← Nat.pow_add]; congr 2; omega
  have hp : 1 ≤ 5 ^ (k % 27) := Nat.pow_pos (by omega)
  rw [e] at hl ⊢
  obtain ⟨b', hb, r⟩ := mulMany_eq (k / 27) h (Nat.lt_of_le_of_lt (Nat.le_mul_of_pos_right _ hp) hl)
  unfold bigMulPow5
  rw [hb, Option.bind_some]
  by_cases h0 : 0 < k % 27
  · rw [if_pos h0]
    obtain ⟨s1, s2⟩ := smallPow_eq (k % 27) (by omega)
    rw [← s1] at hl ⊢
    exact (bigMul_eq r s2).1 hl
  · rw [if_neg h0, show k % 27 = 0 by omega, Nat.pow_zero, Nat.mul_one]
    exact ⟨b', rfl, r⟩

theorem shlGo_rep {n : Nat} (h1 : 0 < n) (h2 : n < 64) : ∀ {b : List Nat} {c : Nat}, Norm b → c < 2 ^ n → Rep (shlGo n b c) (val b * 2 ^ n + c)
  | [], c, _, hc => by
    have : 2 ^ n < 2 ^ 64 := Nat.pow_lt_pow_right (by omega) h2
    unfold shlGo val
    by_cases h : c ≠ 0
    · rw [if_pos h]
      exact ⟨⟨by omega, trivial, fun _ => h⟩, by unfold val val; omega⟩
    · rw [if_neg h]
      exact ⟨trivial, by unfold val; omega⟩
  | v :: t, c, h, hc => by
    have hv := h.1
    have e64 : 2 ^ 64 = 2 ^ (64 - n) * 2 ^ n := by rw [← Nat.pow_add]; congr 1; omega
    have hq : v / 2 ^ (64 - n) < 2 ^ n := Nat.div_lt_of_lt_mul (by rw [← e64]; exact hv)
    have ih := shlGo_rep h1 h2 h.2.1 (c := v / 2 ^ (64 - n)) hq
    have em : v * 2 ^ n % 2 ^ 64 = v % 2 ^ (64 - n) * 2 ^ n := by rw [e64, Nat.mul_mod_mul_right]
    have dm := Nat.div_add_mod v (2 ^ (64 - n))
    have hmod := Nat.mod_lt v (Nat.two_pow_pos (64 - n))
    have hor : v * 2 ^ n % 2 ^ 64 ||| c = v % 2 ^ (64 - n) * 2 ^ n + c := by
      rw [em, Nat.mul_comm]; exact (Nat.two_pow_add_eq_or_of_lt hc _).symm
    unfold shlGo
    rw [hor]
    have hle : (v % 2 ^ (64 - n) + 1) * 2 ^ n ≤ 2 ^ (64 - n) * 2 ^ n := Nat.mul_le_mul_right _ hmod
    rw [← e64, Nat.add_mul, Nat.one_mul] at hle
    refine ⟨⟨by omega, ih.1, ?_⟩, ?_⟩
    · intro hn
      have hz : val (shlGo n t (v / 2 ^ (64 - n))) = 0 := by rw [hn]; rfl
      rw [ih.2] at hz
      obtain ⟨ht0, hd⟩ := Nat.add_eq_zero_iff.mp hz
      have ht0 : val t = 0 := (Nat.mul_eq_zero.mp ht0).resolve_right (Nat.ne_of_gt (Nat.two_pow_pos n))
      have htn : t = [] := by
        cases t with
        | nil => rfl
        | cons u t =>
          have := val_ge h.2.1 (by simp)
          have := Nat.two_pow_pos (64 * ((u :: t).length - 1))
          omega
      have hv0 := h.2.2 htn
      rw [hd, Nat.mul_zero, Nat.zero_add] at dm
      rw [dm]
      have : 0 < v * 2 ^ n := Nat.mul_pos (by omega) (Nat.two_pow_pos n)
      omega
    · rw [val, ih.2, val]
      have e2 : (v + 2 ^ 64 * val t) * 2 ^ n = v * 2 ^ n + 2 ^ 64 * (val t * 2 ^ n) := by rw [Nat.add_mul, Nat.mul_assoc]
      have e3 : v * 2 ^ n = 2 ^ 64 * (v / 2 ^ (64 - n)) + v % 2 ^ (64 - n) * 2 ^ n := by
        conv => lhs; rw [← dm]
        rw [Nat.add_mul, e64]; congr 1; ac_rfl
      rw [e2, Nat.mul_add]
      generalize 2 ^ 64 * (val t * 2 ^ n) = A at *
      generalize 2 ^ 64 * (v / 2 ^ (64 - n)) = B at *
      generalize v % 2 ^ (64 - n) * 2 ^ n = C at *
      omega

theorem zeros_rep_val : ∀ {n : Nat} {b : List Nat} {x : Nat}, Rep b x → b ≠ [] → Rep (List.replicate n 0 ++ b) (x * 2 ^ (64 * n)) ∧ List.replicate n 0 ++ b ≠ []
  | 0, b, x, h, hne => by
    rw [Nat.mul_zero, Nat.pow_zero, Nat.mul_one]; exact ⟨h, hne⟩
  | n + 1, b, x, h, hne => by
    obtain ⟨ih, hn⟩ := zeros_rep_val (n := n) h hne
    rw [List.replicate_succ, List.cons_append]
    refine ⟨⟨⟨by decide, ih.1, fun h => absurd h hn⟩, ?_⟩, by simp⟩
    rw [val, ih.2, Nat.mul_succ, Nat.pow_add, Nat.zero_add]
    ac_rfl

theorem bigShl_eq {b : List Nat} {x n : Nat} (h : Rep b x) (hl : x * 2 ^ n < 2 ^ 16384) :
    ∃ b', bigShl b n = some b' ∧ Rep b' (x * 2 ^ n) := by
  unfold bigShl
  by_cases hb : b = []
  · rw [if_pos hb]
    have : x = 0 := by rw [← h.2, hb]; rfl
    rw [this, Nat.zero_mul]
    exact ⟨[], rfl, rep_nil⟩
  · rw [if_neg hb]
    have e : x * 2 ^ n = x * 2 ^ (64 * (n / 64)) * 2 ^ (n % 64) := by
      rw [Nat.mul_assoc, ← Nat.pow_add]; congr 2; omega
    rw [e] at hl ⊢
    obtain ⟨r, -⟩ := zeros_rep_val (n := n / 64) h hb
    rw [cap_eq r, if_pos (Nat.lt_of_le_of_lt (Nat.le_mul_of_pos_right _ (Nat.two_pow_pos _)) hl), Option.bind_some]
    by_cases h0 : n % 64 ≠ 0
    · rw [if_pos h0]
      have r2 := shlGo_rep (n := n % 64) (by omega) (by omega) r.1 (c := 0) (Nat.two_pow_pos _)
      rw [r.2, Nat.add_zero] at r2
      rw [cap_eq r2, if_pos hl]
      exact ⟨_, rfl, r2⟩
    · rw [if_neg h0, show n % 64 = 0 by omega, Nat.pow_zero, Nat.mul_one]
      exact ⟨_, rfl, r⟩

/-! ### Comparison -/

/-- The value of limbs, most significant first. -/
def vals (l : List Nat) : Nat := val l.reverse

theorem val_append (a b : List Nat) : val (a ++ b) = val a + 2 ^ (64 * a.length) * val b := by
  induction a with
  | nil => simp [val]
  | cons v t ih =>
    rw [List.cons_append, val, ih, val, List.length_cons, Nat.mul_succ, Nat.pow_add, Nat.mul_add]
    have : 2 ^ 64 * (2 ^ (64 * t.length) * val b) = 2 ^ (64 * t.length) * 2 ^ 64 * val b := by ac_rfl
    omega

theorem vals_cons (v : Nat) (l : List Nat) : vals (v :: l) = vals l + 2 ^ (64 * l.length) * v := by
  unfold vals
  rw [List.reverse_cons, val_append, List.length_reverse]
  rfl

theorem vals_lt {l : List Nat} (h : ∀ v ∈ l, v < 2 ^ 64) : vals l < 2 ^ (64 * l.length) := by
  induction l with
  | nil => decide
  | cons v t ih =>
    have := ih fun x hx => h x (List.mem_cons_of_mem _ hx)
    have hv := h v List.mem_cons_self
    rw [vals_cons, List.length_cons, Nat.mul_succ, Nat.pow_add]
    have : 2 ^ (64 * t.length) * (v + 1) ≤ 2 ^ (64 * t.length) * 2 ^ 64 := Nat.mul_le_mul_left _ hv
    rw [Nat.mul_add] at this
    omega

/-- -1, 0 or 1 as the first is less, equal or greater. -/
def Ordered (r : Int) (x y : Nat) : Prop := (r < 0 ↔ x < y) ∧ (r = 0 ↔ x = y) ∧ (0 < r ↔ y < x)

theorem ordered_lt {x y : Nat} (h : x < y) : Ordered (-1) x y := by unfold Ordered; omega
theorem ordered_gt {x y : Nat} (h : y < x) : Ordered 1 x y := by unfold Ordered; omega

theorem cmpGo_eq : ∀ {a b : List Nat}, a.length = b.length → (∀ v ∈ a, v < 2 ^ 64) → (∀ v ∈ b, v < 2 ^ 64) →
    Ordered (cmpGo a b) (vals a) (vals b)
  | [], [], _, _, _ => by unfold Ordered cmpGo; omega
  | x :: a, y :: b, hl, ha, hb => by
    have hl : a.length = b.length := by simpa using hl
    have h1 := vals_lt fun v hv => ha v (List.mem_cons_of_mem _ hv)
    have h2 := vals_lt fun v hv => hb v (List.mem_cons_of_mem _ hv)
    have ih := cmpGo_eq hl (fun v hv => ha v (List.mem_cons_of_mem _ hv)) fun v hv => hb v (List.mem_cons_of_mem _ hv)
    rw [vals_cons, vals_cons, hl]
    rw [hl] at h1
    have big : ∀ {x y : Nat}, x < y → 2 ^ (64 * b.length) * x + 2 ^ (64 * b.length) ≤ 2 ^ (64 * b.length) * y := by
      intro x y h
      have := Nat.mul_le_mul_left (2 ^ (64 * b.length)) h
      rw [Nat.mul_succ] at this
      exact this
    unfold cmpGo
    by_cases h : x ≠ y
    · rw [if_pos h]
      by_cases hxy : x < y
      · rw [if_pos hxy]
        have := big hxy
        exact ordered_lt (by omega)
      · rw [if_neg hxy]
        have := big (show y < x by omega)
        exact ordered_gt (by omega)
    · rw [if_neg h, show x = y by omega]
      unfold Ordered at *
      omega

theorem norm_mem : ∀ {b : List Nat}, Norm b → ∀ v ∈ b, v < 2 ^ 64
  | [], _, _, h => nomatch h
  | u :: t, h, v, hv => by
    rcases List.mem_cons.mp hv with rfl | hv
    · exact h.1
    · exact norm_mem h.2.1 v hv

theorem bigCmp_eq {a b : List Nat} {x y : Nat} (ha : Rep a x) (hb : Rep b y) : Ordered (bigCmp a b) x y := by
  unfold bigCmp
  have short : ∀ {a b : List Nat} {x y : Nat}, Rep a x → Rep b y → a.length < b.length → x < y := by
    intro a b x y ha hb h
    have := (len_le_iff ha.1 a.length).mp (Nat.le_refl _)
    have : ¬ val b < 2 ^ (64 * a.length) := by
      rw [← len_le_iff hb.1]; omega
    rw [← ha.2, ← hb.2]
    omega
  by_cases h : a.length ≠ b.length
  · rw [if_pos h]
    by_cases hl : a.length < b.length
    · rw [if_pos hl]; exact ordered_lt (short ha hb hl)
    · rw [if_neg hl]; exact ordered_gt (short hb ha (by omega))
  · rw [if_neg h]
    have := cmpGo_eq (a := a.reverse) (b := b.reverse) (by simp; omega) (fun v hv => norm_mem ha.1 v (List.mem_reverse.mp hv))
      fun v hv => norm_mem hb.1 v (List.mem_reverse.mp hv)
    unfold vals at this
    rw [List.reverse_reverse, List.reverse_reverse, ha.2, hb.2] at this
    exact this

theorem bigSet_rep {x : Nat} (h : x < 2 ^ 128) : Rep (bigSet x) x := by
  unfold bigSet
  split
  · refine ⟨⟨Nat.mod_lt _ (by decide), ⟨by omega, trivial, fun _ => by assumption⟩, fun h => nomatch h⟩, ?_⟩
    unfold val val val
    omega
  · split
    · exact ⟨⟨by omega, trivial, fun _ => by assumption⟩, by unfold val val; omega⟩
    · exact ⟨trivial, by unfold val; omega⟩

/-! ### Digits -/

/-- One digit. -/
theorem step_digit {b : List Nat} {x : Nat} {c : Int} (hr : Rep b x) (hc : 48 ≤ c ∧ c ≤ 57) :
    (x * 10 + (c - 48).toNat < 2 ^ 16384 →
      ∃ b', ((bigMul b 10).bind fun b => if 48 < c then bigAdd b (c - 48).toNat else some b) = some b' ∧ Rep b' (x * 10 + (c - 48).toNat)) ∧
    (2 ^ 16384 ≤ x * 10 + (c - 48).toNat → ((bigMul b 10).bind fun b => if 48 < c then bigAdd b (c - 48).toNat else some b) = none) := by
  obtain ⟨m1, m2⟩ := bigMul_eq (m := 10) hr (by decide)
  constructor
  · intro hl
    obtain ⟨b1, e1, r1⟩ := m1 (by omega)
    rw [e1, Option.bind_some]
    by_cases h : 48 < c
    · rw [if_pos h]
      exact (bigAdd_eq r1 (by omega)).1 hl
    · rw [if_neg h]
      refine ⟨b1, rfl, ?_⟩
      rw [show (c - 48).toNat = 0 by omega, Nat.add_zero]
      exact r1
  · intro hl
    by_cases hb : 2 ^ 16384 ≤ x * 10
    · rw [m2 hb]; rfl
    · obtain ⟨b1, e1, r1⟩ := m1 (by omega)
      rw [e1, Option.bind_some]
      by_cases h : 48 < c
      · rw [if_pos h]
        exact (bigAdd_eq r1 (by omega)).2 hl
      · exact absurd hl (by omega)

theorem bind_swap {α β γ : Type} (o : Option α) (f : α → Option β) (g : β → Option γ) :
    (o.bind fun a => (f a).bind g) = (o.bind f).bind g := by cases o <;> rfl

theorem bigDigits_run : ∀ {ds t : List Int} {rem : Nat} {b : List Nat} {x : Nat}, Digits ds → Rep b x → x < 2 ^ 16384 →
    (x * 10 ^ ds.length + value 10 ds < 2 ^ 16384 → ∃ b', bigDigits (ds ++ t) (ds.length + rem) b = bigDigits t rem b' ∧
      Rep b' (x * 10 ^ ds.length + value 10 ds)) ∧
    (2 ^ 16384 ≤ x * 10 ^ ds.length + value 10 ds → bigDigits (ds ++ t) (ds.length + rem) b = none)
  | [], t, rem, b, x, _, hr, hx => by
    have e : x * 10 ^ ([] : List Int).length + value 10 [] = x := by simp [value]
    rw [e]
    refine ⟨fun _ => ⟨b, by rw [List.nil_append, List.length_nil, Nat.zero_add], hr⟩, fun h => absurd h (by omega)⟩
  | c :: ds, t, rem, b, x, hd, hr, hx => by
    obtain ⟨h1, h2⟩ := digits_cons hd
    have e : x * 10 ^ (c :: ds).length + value 10 (c :: ds) = (x * 10 + (c - 48).toNat) * 10 ^ ds.length + value 10 ds := by
      rw [value_cons, digitVal10 h1, List.length_cons, Nat.pow_succ, Nat.add_mul]
      have : x * (10 ^ ds.length * 10) = x * 10 * 10 ^ ds.length := by ac_rfl
      omega
    rw [e]
    have hs : bigDigits (c :: ds ++ t) ((c :: ds).length + rem) b =
        ((bigMul b 10).bind fun b => if 48 < c then bigAdd b (c - 48).toNat else some b).bind (bigDigits (ds ++ t) (ds.length + rem)) := by
      rw [List.cons_append, List.length_cons, show ds.length + 1 + rem = ds.length + rem + 1 by omega]
      conv => lhs; unfold bigDigits
      rw [if_neg (by omega), ← bind_swap]
    rw [hs]
    obtain ⟨s1, s2⟩ := step_digit hr h1
    have hp : 1 ≤ 10 ^ ds.length := Nat.pow_pos (by omega)
    by_cases hl : x * 10 + (c - 48).toNat < 2 ^ 16384
    · obtain ⟨b1, e1, r1⟩ := s1 hl
      rw [e1, Option.bind_some]
      exact bigDigits_run h2 r1 hl
    · rw [s2 (by omega)]
      refine ⟨fun h => absurd h ?_, fun _ => rfl⟩
      have := Nat.le_mul_of_pos_right (x * 10 + (c - 48).toNat) hp
      omega

theorem bigDigits_zero (s : List Int) (b : List Nat) : bigDigits s 0 b = some b := by
  cases s <;> rfl

theorem bigDigits_eq {D pt s : List Int} (hpt : pt = [] ∨ pt = [46]) (h : Body D pt s) :
    (value 10 D < 2 ^ 16384 → ∃ b, bigDigits s D.length [] = some b ∧ Rep b (value 10 D)) ∧
    (2 ^ 16384 ≤ value 10 D → bigDigits s D.length [] = none) := by
  obtain ⟨a, b, t, rfl, rfl, hd⟩ := h
  obtain ⟨ha, hb⟩ := digits_append hd
  have hz : (0 : Nat) < 2 ^ 16384 := Nat.two_pow_pos _
  rw [List.length_append]
  obtain ⟨g1, g2⟩ := bigDigits_run (t := pt ++ (b ++ t)) (rem := b.length) ha rep_nil hz
  rw [Nat.zero_mul, Nat.zero_add] at g1 g2
  have e : value 10 (a ++ b) = value 10 a * 10 ^ b.length + value 10 b := value_append ..
  have hp : 1 ≤ 10 ^ b.length := Nat.pow_pos (by omega)
  have hle := Nat.le_mul_of_pos_right (value 10 a) hp
  by_cases hl : value 10 a < 2 ^ 16384
  · obtain ⟨b1, e1, r1⟩ := g1 hl
    rw [e1, e]
    have skip : bigDigits (pt ++ (b ++ t)) b.length b1 = bigDigits (b ++ t) (b.length + 0) b1 := by
      rw [Nat.add_zero]
      rcases hpt with rfl | rfl
      · rfl
      · cases hb' : b.length with
        | zero => rw [bigDigits_zero, bigDigits_zero]
        | succ n => rfl
    rw [skip]
    obtain ⟨k1, k2⟩ := bigDigits_run (t := t) (rem := 0) hb r1 hl
    refine ⟨fun h => ?_, k2⟩
    obtain ⟨b2, e2, r2⟩ := k1 h
    exact ⟨b2, by rw [e2, bigDigits_zero], r2⟩
  · rw [g2 (by omega)]
    exact ⟨fun h => absurd h (by omega), fun _ => rfl⟩

end Verif.Decimal
