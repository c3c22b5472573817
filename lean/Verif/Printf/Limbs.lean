import Verif.Printf.FloatModel

/-!
# Arithmetic on limbs
-/

namespace Verif.Printf

/-- The number denoted by limbs. -/
def lval : List Nat → Nat
  | [] => 0
  | a :: l => a + B * lval l

theorem B_eq : B = 1000000000 := rfl
theorem B_pos : 0 < B := by decide

theorem getD_set (l : List Nat) (k m v : Nat) (hk : k < l.length) :
    (l.set k v).getD m 0 = if m = k then v else l.getD m 0 := by
  simp only [List.getD_eq_getElem?_getD, List.getElem?_set]
  by_cases h : m = k
  · subst h; simp [hk]
  · rw [if_neg (fun e => h e.symm), if_neg h]

theorem lval_set (l : List Nat) (k v : Nat) (hk : k < l.length) :
    lval (l.set k v) + l.getD k 0 * B ^ k = lval l + v * B ^ k := by
  induction l generalizing k with
  | nil => simp at hk
  | cons a l ih =>
    cases k with
    | zero => simp [lval]; omega
    | succ k =>
      have := ih k (by simpa using hk)
      simp only [List.set_cons_succ, lval, List.getD_cons_succ]
      have e1 : l.getD k 0 * B ^ (k + 1) = B * (l.getD k 0 * B ^ k) := by rw [Nat.pow_succ]; simp only [Nat.mul_comm, Nat.mul_left_comm, Nat.mul_assoc]
      have e2 : v * B ^ (k + 1) = B * (v * B ^ k) := by rw [Nat.pow_succ]; simp only [Nat.mul_comm, Nat.mul_left_comm, Nat.mul_assoc]
      rw [e1, e2, Nat.add_assoc, Nat.add_assoc, ← Nat.mul_add, ← Nat.mul_add, this]

theorem lval_append (a b : List Nat) : lval (a ++ b) = lval a + B ^ a.length * lval b := by
  induction a with
  | nil => simp [lval]
  | cons x a ih =>
    simp only [List.cons_append, lval, ih, List.length_cons, Nat.pow_succ, Nat.mul_add]
    rw [Nat.mul_comm (B ^ a.length) B, Nat.mul_assoc]; omega

theorem lval_lt (l : List Nat) (h : ∀ x ∈ l, x < B) : lval l < B ^ l.length := by
  induction l with
  | nil => simp [lval]
  | cons a l ih =>
    have h1 := ih (fun x hx => h x (List.mem_cons_of_mem _ hx))
    have h2 := h a (List.mem_cons_self ..)
    simp only [lval, List.length_cons, Nat.pow_succ]
    have : B * lval l + B ≤ B * B ^ l.length := by
      rw [← Nat.mul_succ]; exact Nat.mul_le_mul_left _ h1
    rw [Nat.mul_comm (B ^ l.length)]
    omega

theorem lval_replicate (n : Nat) : lval (List.replicate n 0) = 0 := by
  induction n with
  | zero => rfl
  | succ n ih => simp [List.replicate_succ, lval, ih]

theorem getD_lt (l : List Nat) (h : ∀ x ∈ l, x < B) (k : Nat) : l.getD k 0 < B := by
  rw [List.getD_eq_getElem?_getD]
  cases e : l[k]? with
  | none => exact B_pos
  | some x => exact h x (List.mem_of_getElem? e)

theorem mem_lt (l : List Nat) (h : ∀ k, l.getD k 0 < B) : ∀ x ∈ l, x < B := by
  intro x hx
  obtain ⟨k, hk, e⟩ := List.getElem_of_mem hx
  have := h k
  rw [List.getD_eq_getElem?_getD, List.getElem?_eq_getElem hk] at this
  simp at this; omega

/-- One row of the product. -/
theorem mulRow_spec (x : Nat) (hx : x < B) (ys : List Nat) (hy : ∀ y ∈ ys, y < B) (k : Nat) (p : List Nat)
    (hk : k + ys.length < p.length) (hp : ∀ m, m ≠ k → p.getD m 0 < B) (hpk : p.getD k 0 ≤ 2 * (B - 1)) :
    (mulRow x ys k p).length = p.length ∧ lval (mulRow x ys k p) = lval p + x * lval ys * B ^ k ∧
    (∀ m, m ≠ k + ys.length → (mulRow x ys k p).getD m 0 < B) ∧
    (ys ≠ [] → (mulRow x ys k p).getD (k + ys.length) 0 ≤ p.getD (k + ys.length) 0 + (B - 1)) ∧
    (∀ m, k + ys.length < m → (mulRow x ys k p).getD m 0 = p.getD m 0) := by
  induction ys generalizing k p with
  | nil =>
    simp only [mulRow, List.length_nil, Nat.add_zero, lval]
    exact ⟨trivial, by simp, hp, by simp, fun _ _ => trivial⟩
  | cons y ys ih =>
    have hyB := hy y (List.mem_cons_self ..)
    have hlen : (y :: ys).length = ys.length + 1 := rfl
    rw [hlen] at hk
    have hxy : x * y ≤ (B - 1) * (B - 1) := Nat.mul_le_mul (by omega) (by omega)
    have hz : x * y + p.getD k 0 < 2 ^ 64 := by simp only [B_eq] at *; omega
    simp only [mulRow]
    rw [Nat.mod_eq_of_lt hz]
    generalize hzz : x * y + p.getD k 0 = z at hz ⊢
    have hzB : z / B ≤ B - 1 := by simp only [B_eq] at *; omega
    have hk1 : (p.set k (z % B)).getD (k + 1) 0 = p.getD (k + 1) 0 := by
      rw [getD_set _ _ _ _ (by omega), if_neg (by omega)]
    have hp1 := hp (k + 1) (by omega)
    rw [hk1, Nat.mod_eq_of_lt (show p.getD (k + 1) 0 + z / B < 2 ^ 32 by simp only [B_eq] at *; omega)]
    generalize hp2 : (p.set k (z % B)).set (k + 1) (p.getD (k + 1) 0 + z / B) = p2
    have g2 : ∀ m, p2.getD m 0 = if m = k + 1 then p.getD (k + 1) 0 + z / B else if m = k then z % B else p.getD m 0 := by
      intro m
      rw [← hp2, getD_set _ _ _ _ (by rw [List.length_set]; omega), getD_set _ _ _ _ (by omega)]
    have l2 : p2.length = p.length := by rw [← hp2]; simp
    obtain ⟨h1, h2, h3, h4, h5⟩ := ih (fun y hy' => hy y (List.mem_cons_of_mem _ hy')) (k + 1) p2 (by omega)
      (by
        intro m hm
        rw [g2, if_neg hm]
        split
        · exact Nat.mod_lt _ B_pos
        · exact hp m (by assumption))
      (by rw [g2, if_pos rfl]; omega)
    have hv : lval p2 = lval p + x * y * B ^ k := by
      have e1 := lval_set p k (z % B) (by omega)
      have e2 := lval_set (p.set k (z % B)) (k + 1) (p.getD (k + 1) 0 + z / B) (by rw [List.length_set]; omega)
      rw [hp2, hk1, Nat.add_mul (p.getD (k + 1) 0)] at e2
      have e3 : z / B * B ^ (k + 1) + z % B * B ^ k = x * y * B ^ k + p.getD k 0 * B ^ k := by
        rw [← Nat.add_mul, hzz, Nat.pow_succ, Nat.mul_comm (B ^ k) B, ← Nat.mul_assoc, ← Nat.add_mul, Nat.div_add_mod']
      omega
    rw [hlen, show k + (ys.length + 1) = k + 1 + ys.length by omega]
    refine ⟨by omega, ?_, h3, ?_, ?_⟩
    · rw [h2, hv]
      simp only [lval]
      rw [Nat.pow_succ, Nat.mul_add, Nat.add_mul, Nat.add_assoc]
      congr 2
      simp only [Nat.mul_comm, Nat.mul_left_comm, Nat.mul_assoc]
    · intro _
      by_cases he : ys = []
      · subst he
        simp only [mulRow, List.length_nil, Nat.add_zero]
        rw [g2, if_pos rfl]; omega
      · have := h4 he
        rw [g2, if_neg (by have := List.length_pos_iff.mpr he; omega), if_neg (by omega)] at this
        exact this
    · intro m hm
      rw [h5 m hm, g2, if_neg (by omega), if_neg (by omega)]

/-- All rows. -/
theorem mulRows_spec (xs ys : List Nat) (hx : ∀ x ∈ xs, x < B) (hy : ∀ y ∈ ys, y < B) (i : Nat) (p : List Nat)
    (hi : i + xs.length + ys.length ≤ p.length) (hp : ∀ m, p.getD m 0 < B) (hz : ∀ m, i + ys.length ≤ m → p.getD m 0 = 0) :
    (mulRows xs ys i p).length = p.length ∧ lval (mulRows xs ys i p) = lval p + lval xs * lval ys * B ^ i ∧
    ∀ m, (mulRows xs ys i p).getD m 0 < B := by
  induction xs generalizing i p with
  | nil => simp only [mulRows, lval]; exact ⟨trivial, by simp, hp⟩
  | cons x xs ih =>
    simp only [mulRows]
    have hlen : (x :: xs).length = xs.length + 1 := rfl
    obtain ⟨h1, h2, h3, h4, h5⟩ := mulRow_spec x (hx x (List.mem_cons_self ..)) ys hy i p (by omega) (fun m _ => hp m)
      (by have := hp i; simp only [B_eq] at *; omega)
    have hall : ∀ m, (mulRow x ys i p).getD m 0 < B := by
      intro m
      by_cases hm : m = i + ys.length
      · subst hm
        by_cases he : ys = []
        · subst he; simp only [mulRow]; exact hp _
        · have := h4 he
          rw [hz _ (Nat.le_refl _)] at this
          have := B_pos; omega
      · exact h3 m hm
    obtain ⟨g1, g2, g3⟩ := ih (fun x hx' => hx x (List.mem_cons_of_mem _ hx')) (i + 1) (mulRow x ys i p) (by omega) hall (by
      intro m hm
      rw [h5 m (by omega), hz m (by omega)])
    refine ⟨by omega, ?_, g3⟩
    rw [g2, h2, lval, Nat.pow_succ]
    simp only [Nat.add_mul, Nat.add_assoc]
    congr 2
    simp only [Nat.mul_comm, Nat.mul_left_comm, Nat.mul_assoc]

/-- Limbs in normal form that denote a positive number. -/
structure Good (l : List Nat) (N : Nat) : Prop where
  lt : ∀ x ∈ l, x < B
  val : lval l = N
  ne : l ≠ []
  top : B ^ (l.length - 1) ≤ N

theorem Good.below {l : List Nat} {N : Nat} (h : Good l N) : N < B ^ l.length := by
  rw [← h.val]; exact lval_lt l h.lt

theorem Good.pos {l : List Nat} {N : Nat} (h : Good l N) : 0 < N := Nat.lt_of_lt_of_le (Nat.pow_pos B_pos) h.top

theorem take_all_but (p : List Nat) (n : Nat) (hn : p.length = n + 1) : p = p.take n ++ [p.getD n 0] := by
  rw [List.getD_eq_getElem?_getD, List.getElem?_eq_getElem (by omega)]
  simp only [Option.getD_some]
  rw [List.take_append_getElem]
  rw [List.take_of_length_le (by omega)]

/-- The product of limbs in normal form. -/
theorem limbsMul_good {x y : List Nat} {X Y : Nat} (hx : Good x X) (hy : Good y Y) :
    (limbsMul x y).1.length = x.length + y.length ∧ (∀ v ∈ (limbsMul x y).1, v < B) ∧
    Good ((limbsMul x y).1.take (limbsMul x y).2) (X * Y) ∧ lval (limbsMul x y).1 = X * Y ∧
    (limbsMul x y).2 ≤ x.length + y.length ∧ x.length + y.length ≤ (limbsMul x y).2 + 1 := by
  have hlx := List.length_pos_iff.mpr hx.ne
  have hly := List.length_pos_iff.mpr hy.ne
  obtain ⟨h1, h2, h3⟩ := mulRows_spec x y hx.lt hy.lt 0 (List.replicate (x.length + y.length) 0) (by simp)
    (by intro m; rw [List.getD_eq_getElem?_getD, List.getElem?_replicate]; split <;> exact B_pos)
    (by intro m _; rw [List.getD_eq_getElem?_getD, List.getElem?_replicate]; split <;> rfl)
  rw [lval_replicate, hx.val, hy.val] at h2
  simp only [Nat.zero_add, Nat.pow_zero, Nat.mul_one, List.length_replicate] at h1 h2
  unfold limbsMul
  simp only
  generalize mulRows x y 0 (List.replicate (x.length + y.length) 0) = p at *
  have hm := mem_lt p h3
  have hge : B ^ (x.length + y.length - 2) ≤ X * Y := by
    rw [show x.length + y.length - 2 = (x.length - 1) + (y.length - 1) by omega, Nat.pow_add]
    exact Nat.mul_le_mul hx.top hy.top
  refine ⟨h1, hm, ?_, h2, by omega, ?_⟩
  · by_cases h0 : p.getD (x.length + y.length - 1) 0 = 0
    · rw [if_pos h0]
      have e := take_all_but p (x.length + y.length - 1) (by omega)
      have ev : lval (p.take (x.length + y.length - 1)) = X * Y := by
        rw [e, lval_append, h0] at h2
        simpa [lval] using h2
      exact ⟨fun v hv => hm v (List.mem_of_mem_take hv), ev, by
        intro h; have := congrArg List.length h; rw [List.length_take, List.length_nil] at this; omega, by
        rw [List.length_take, show min (x.length + y.length - 1) p.length - 1 = x.length + y.length - 2 by omega]; exact hge⟩
    · rw [if_neg h0, Nat.sub_zero, List.take_of_length_le (by omega)]
      have e := take_all_but p (x.length + y.length - 1) (by omega)
      refine ⟨hm, h2, by intro h; rw [h] at h1; simp at h1; omega, ?_⟩
      rw [← h2, e, lval_append]
      simp only [List.length_append, List.length_take, List.length_singleton, lval, Nat.mul_zero, Nat.add_zero]
      rw [show min (x.length + y.length - 1) p.length + 1 - 1 = x.length + y.length - 1 by omega,
        show min (x.length + y.length - 1) p.length = x.length + y.length - 1 by omega]
      refine Nat.le_trans ?_ (Nat.le_add_left _ _)
      exact Nat.le_mul_of_pos_right _ (by omega)
  · split <;> omega

/-- The result of the loop on powers. -/
theorem powLoop_good (ycap pcap : Nat) (power : Nat) (y p : List Nat) (xn : Nat) (fault : Bool) (X Y : Nat)
    (hy : Good y Y) (hp : Good (p.take xn) X) (hpl : ∀ v ∈ p, v < B) (hpv : lval p = X) (hxn : xn ≤ p.length) (hxn' : p.length ≤ xn + 1) :
    ∃ f p' n, powLoop ycap pcap power y p xn fault = (f, p', n) ∧ Good (p'.take n) (X * (Y * Y) ^ power) ∧ (∀ v ∈ p', v < B) ∧
      lval p' = X * (Y * Y) ^ power ∧ n ≤ p'.length ∧ p'.length ≤ n + 1 ∧
      ((Y * Y) ^ power < B ^ (ycap - 1) → X * (Y * Y) ^ power < B ^ (pcap - 1) → f = fault) := by
  induction power using Nat.strongRecOn generalizing y p xn fault X Y with
  | ind power ih =>
    unfold powLoop
    by_cases h0 : power = 0
    · rw [dif_pos h0, h0]
      exact ⟨fault, p, xn, rfl, by simpa using hp, hpl, by simpa using hpv, hxn, hxn', fun _ _ => rfl⟩
    · rw [dif_neg h0]
      obtain ⟨m1, m2, m3, m4, m5, m6⟩ := limbsMul_good hy hy
      rw [show limbsMul y y = ((limbsMul y y).1, (limbsMul y y).2) from rfl]
      simp only
      have hpw : ∀ k, (Y * Y) ^ (2 * k) = (Y * Y * (Y * Y)) ^ k := by
        intro k; rw [Nat.pow_mul]; congr 1; rw [Nat.pow_two]
      have hYY : 0 < Y * Y := Nat.mul_pos hy.pos hy.pos
      have hle1 : Y * Y ≤ (Y * Y) ^ power := Nat.le_self_pow h0 _
      -- the square fits its array
      have hyfit : (Y * Y) ^ power < B ^ (ycap - 1) → y.length + y.length ≤ ycap := by
        intro h
        have : B ^ (y.length + y.length - 2) ≤ Y * Y := by
          have := List.length_pos_iff.mpr hy.ne
          rw [show y.length + y.length - 2 = (y.length - 1) + (y.length - 1) by omega, Nat.pow_add]
          exact Nat.mul_le_mul hy.top hy.top
        have := (Nat.pow_lt_pow_iff_right (by decide : 1 < B)).1 (Nat.lt_of_le_of_lt this (Nat.lt_of_le_of_lt hle1 h))
        omega
      by_cases hb : power % 2 = 1
      · rw [if_pos hb]
        obtain ⟨q1, q2, q3, q4, q5, q6⟩ := limbsMul_good hp m3
        rw [show limbsMul (p.take xn) _ = ((limbsMul (p.take xn) ((limbsMul y y).1.take (limbsMul y y).2)).1,
          (limbsMul (p.take xn) ((limbsMul y y).1.take (limbsMul y y).2)).2) from rfl]
        simp only
        have e : X * (Y * Y) ^ power = X * (Y * Y) * (Y * Y * (Y * Y)) ^ (power / 2) := by
          rw [← hpw, Nat.mul_assoc, Nat.mul_comm (Y * Y), ← Nat.pow_succ]
          congr 2; omega
        have e' : (Y * Y) ^ power = Y * Y * (Y * Y * (Y * Y)) ^ (power / 2) := by
          rw [← hpw, Nat.mul_comm (Y * Y), ← Nat.pow_succ]
          congr 1; omega
        obtain ⟨f, p', n, r1, r2, r3, r4, r5, r6, r7⟩ := ih (power / 2) (by omega) _ _ _
          (fault || decide (ycap < (limbsMul y y).1.length) || decide (pcap < (limbsMul (p.take xn) ((limbsMul y y).1.take (limbsMul y y).2)).1.length))
          _ _ m3 q3 q2 q4 (by rw [q1]; exact q5) (by rw [q1]; exact q6)
        rw [← e] at r2 r4 r7
        refine ⟨f, p', n, r1, r2, r3, r4, r5, r6, ?_⟩
        intro c1 c2
        have hq : (Y * Y * (Y * Y)) ^ (power / 2) ≤ (Y * Y) ^ power := by rw [e']; exact Nat.le_mul_of_pos_left _ hYY
        rw [r7 (Nat.lt_of_le_of_lt hq c1) c2]
        have k1 := hyfit c1
        have k2 : (p.take xn).length + ((limbsMul y y).1.take (limbsMul y y).2).length ≤ pcap := by
          have a1 := List.length_pos_iff.mpr hp.ne
          have a2 := List.length_pos_iff.mpr m3.ne
          have a3 : B ^ ((p.take xn).length + ((limbsMul y y).1.take (limbsMul y y).2).length - 2) ≤ X * (Y * Y) := by
            rw [show (p.take xn).length + ((limbsMul y y).1.take (limbsMul y y).2).length - 2 =
              ((p.take xn).length - 1) + (((limbsMul y y).1.take (limbsMul y y).2).length - 1) by omega, Nat.pow_add]
            exact Nat.mul_le_mul hp.top m3.top
          have a4 : X * (Y * Y) ≤ X * (Y * Y) ^ power := Nat.mul_le_mul_left _ hle1
          have := (Nat.pow_lt_pow_iff_right (by decide : 1 < B)).1 (Nat.lt_of_le_of_lt a3 (Nat.lt_of_le_of_lt a4 c2))
          omega
        rw [m1, q1]
        simp only [Nat.not_lt.mpr k1, Nat.not_lt.mpr k2, decide_false, Bool.or_false]
      · rw [if_neg hb]
        have e : (Y * Y) ^ power = (Y * Y * (Y * Y)) ^ (power / 2) := by rw [← hpw]; congr 1; omega
        obtain ⟨f, p', n, r1, r2, r3, r4, r5, r6, r7⟩ := ih (power / 2) (by omega) _ p xn
          (fault || decide (ycap < (limbsMul y y).1.length)) _ _ m3 hp hpl hpv hxn hxn'
        rw [← e] at r2 r4 r7
        refine ⟨f, p', n, r1, r2, r3, r4, r5, r6, ?_⟩
        intro c1 c2
        rw [r7 c1 c2, m1]
        simp only [Nat.not_lt.mpr (hyfit c1), decide_false, Bool.or_false]

theorem limbsSet64_good (i : Nat) (h0 : 0 < i) (hi : i < 2 ^ 64) : Good (limbsSet64 i) i := by
  unfold limbsSet64
  by_cases h1 : i / B / B ≠ 0
  · simp only [if_pos h1]
    refine ⟨?_, ?_, by simp, ?_⟩
    · intro x hx; simp at hx; simp only [B_eq] at *; omega
    · simp [lval, B_eq]; omega
    · simp [B_eq] at *; omega
  · simp only [if_neg h1]
    by_cases h2 : i / B % B ≠ 0
    · rw [if_pos h2]
      refine ⟨?_, ?_, by simp, ?_⟩
      · intro x hx; simp at hx; simp only [B_eq] at *; omega
      · simp [lval, B_eq] at *; omega
      · simp [B_eq] at *; omega
    · rw [if_neg h2, if_pos (by simp only [B_eq] at *; omega)]
      refine ⟨?_, ?_, by simp, ?_⟩
      · intro x hx; simp at hx; simp only [B_eq] at *; omega
      · simp [lval, B_eq] at *; omega
      · simp; omega

theorem limbsSet18_good (i : Nat) (h0 : 0 < i) (hi : i < 2 ^ 53) : Good (limbsSet18 i) i := by
  unfold limbsSet18
  rw [Nat.mod_eq_of_lt (show i / B < 2 ^ 32 by simp only [B_eq]; omega)]
  by_cases h1 : i / B ≠ 0
  · rw [if_pos h1]
    refine ⟨?_, ?_, by simp, ?_⟩
    · intro x hx; simp at hx; simp only [B_eq] at *; omega
    · simp [lval, B_eq] at *; omega
    · simp [B_eq] at *; omega
  · rw [if_neg h1, if_pos (by simp only [B_eq] at *; omega)]
    refine ⟨?_, ?_, by simp, ?_⟩
    · intro x hx; simp at hx; simp only [B_eq] at *; omega
    · simp [lval, B_eq] at *; omega
    · simp; omega

theorem Good.unique {l l' : List Nat} {N : Nat} (h : Good l N) (h' : Good l' N) : l.length = l'.length := by
  have a := h.below; have b := h'.below
  have c := (Nat.pow_lt_pow_iff_right (by decide : 1 < B)).1 (Nat.lt_of_le_of_lt h.top b)
  have d := (Nat.pow_lt_pow_iff_right (by decide : 1 < B)).1 (Nat.lt_of_le_of_lt h'.top a)
  have := List.length_pos_iff.mpr h.ne
  have := List.length_pos_iff.mpr h'.ne
  omega

end Verif.Printf
