import Verif.Printf.FixedMid

/-!
# Small numbers
-/

namespace Verif.Printf

open Spec Verif.Float Verif.Math.Spec Verif.Math

/-! ## The number -/

theorem exp5_all : ∀ k : Fin 28, exp5 k.val = 5 ^ k.val := by decide +kernel
theorem exp5_eq (k : Nat) (h : k < 28) : exp5 k = 5 ^ k := exp5_all ⟨k, h⟩

theorem exp10Limb_all : ∀ k : Fin 9, exp10Limb k.val = 10 ^ k.val := by decide +kernel
theorem exp10Limb_eq (k : Nat) (h : k < 9) : exp10Limb k = 10 ^ k := exp10Limb_all ⟨k, h⟩

/-- Limbs of a positive number, with at most one unused. -/
structure Num (x : List Nat) (n N : Nat) : Prop where
  lt : ∀ v ∈ x, v < B
  val : lval x = N
  pos : 0 < n
  top : B ^ (n - 1) ≤ N
  below : N < B ^ n
  le : n ≤ x.length
  ge : x.length ≤ n + 1

theorem limbsScal5n_num (pcap odd power : Nat) (ho : 0 < odd) (ho' : odd < 2 ^ 53) :
    ∃ f p n, limbsScal5n pcap (limbsSet18 odd) power = (f, p, n) ∧ Num p n (odd * 5 ^ power) := by
  have g1 := limbsSet18_good odd ho ho'
  have h28 := Nat.mod_lt power (show 0 < 28 by decide)
  have hlt : 5 ^ (power % 28) < 2 ^ 64 :=
    Nat.lt_of_le_of_lt (Nat.pow_le_pow_right (by decide) (Nat.le_of_lt_succ h28)) (show 5 ^ 27 < 2 ^ 64 by decide)
  have g2 := limbsSet64_good (5 ^ (power % 28)) (Nat.pow_pos (by decide)) hlt
  obtain ⟨m1, m2, m3, m4, m5, m6⟩ := limbsMul_good g1 g2
  have gy : Good [103515625, 6] (5 ^ 14) := ⟨by decide, by decide, by decide, by decide⟩
  have hpow : (5 ^ 14 * 5 ^ 14) ^ (power / 28) = 5 ^ (power / 28 * 28) := by
    rw [← Nat.pow_add, ← Nat.pow_mul, Nat.mul_comm]
  have hN : odd * 5 ^ (power % 28) * (5 ^ 14 * 5 ^ 14) ^ (power / 28) = odd * 5 ^ power := by
    rw [hpow, Nat.mul_assoc, ← Nat.pow_add]; congr 2; omega
  unfold limbsScal5n
  rw [exp5_eq _ h28]
  generalize limbsMul (limbsSet18 odd) (limbsSet64 (5 ^ (power % 28))) = r at *
  obtain ⟨p, xn⟩ := r
  simp only at *
  obtain ⟨f, p', n, e, a1, a2, a3, a4, a5, a6⟩ := powLoop_good (fivesToLimbs power) pcap (power / 28) [103515625, 6] p xn
    (decide (pcap < p.length) || decide (fivesToLimbs power < 2)) _ _ gy m3 m2 m4 (by omega) (by omega)
  rw [hN] at a1 a3
  have hlen : (p'.take n).length = n := by rw [List.length_take]; omega
  refine ⟨f, p', n, e, a2, a3, ?_, ?_, ?_, a4, a5⟩
  · rw [← hlen]; exact List.length_pos_iff.mpr a1.ne
  · have := a1.top; rwa [hlen] at this
  · have := a1.below; rwa [hlen] at this

theorem Num.digit {x : List Nat} {n N : Nat} (h : Num x n N) (m : Nat) : x.getD m 0 = N / B ^ m % B := by
  rw [← h.val]; exact (lval_digit x h.lt m).symm

theorem lval_take (x : List Nat) (h : ∀ v ∈ x, v < B) (k : Nat) : lval (x.take k) = lval x % B ^ k := by
  induction x generalizing k with
  | nil => simp [lval]
  | cons a x ih =>
    cases k with
    | zero => simp [lval, Nat.mod_one]
    | succ k =>
      have ha := h a (List.mem_cons_self ..)
      rw [List.take_succ_cons, lval, lval, ih (fun v hv => h v (List.mem_cons_of_mem _ hv)), Nat.pow_succ, Nat.mul_comm (B ^ k) B,
        Nat.mod_mul, Nat.add_mul_mod_self_left, Nat.mod_eq_of_lt ha, Nat.add_mul_div_left _ _ B_pos, Nat.div_eq_of_lt ha, Nat.zero_add]

theorem any_nonzero (l : List Nat) : l.any (· ≠ 0) = decide (lval l ≠ 0) := by
  induction l with
  | nil => rfl
  | cons a l ih =>
    rw [List.any_cons, ih, lval]
    by_cases h1 : a = 0 <;> by_cases h2 : lval l = 0 <;> simp [h1, h2, B_eq] <;> omega

/-! ## The fraction behind a limb -/

/-- A half in units. -/
def HU : Nat := 2 ^ 1073

theorem HU_eq : HU = 2 ^ 1073 := rfl

theorem p1073 : (2 : Nat) ^ 1074 = 2 * HU := by rw [HU_eq]; exact (pw 1 1073 1074 rfl).trans (by rw [Nat.pow_one])

theorem mag_half64 : b64.mag 0x3FE0000000000000 = 1 * HU := by decide +kernel
theorem mag_one64 : b64.mag 0x3FF0000000000000 = 2 * HU := by decide +kernel
theorem mag_zero64 : b64.mag 0 = 0 * HU := by decide +kernel

attribute [irreducible] HU

theorem HU_pos : 0 < HU := by unfold HU; exact Nat.two_pow_pos _

theorem getfrac_spec {x : List Nat} {n N : Nat} (h : Num x n N) (index : Nat) :
    ∃ G, limbsGetfrac x index < b64.inf ∧ b64.mag (limbsGetfrac x index) = G * HU ∧ G ≤ 2 ∧
      dist (G * B ^ index) (2 * (N % B ^ index)) ≤ B ^ index ∧ (G = 1 → 2 * (N % B ^ index) = B ^ index) ∧ (index = 0 → G = 0) := by
  have hin : b64.inf = 0x7FF0000000000000 := by decide +kernel
  unfold limbsGetfrac
  cases index with
  | zero => 
    rw [if_neg (by decide)]
    refine ⟨0, by rw [hin]; decide, mag_zero64, by decide, ?_, by omega, fun _ => rfl⟩
    rw [Nat.pow_zero, Nat.mod_one]; decide
  | succ k =>
    rw [if_pos (by omega)]
    simp only [Nat.add_sub_cancel]
    rw [any_nonzero, lval_take x h.lt, h.val, h.digit]
    have hC := Nat.pow_pos (n := k) B_pos
    have hm := Nat.mod_lt N hC
    have hd := Nat.mod_lt (N / B ^ k) B_pos
    have e : N % B ^ (k + 1) = B ^ k * (N / B ^ k % B) + N % B ^ k := by
      rw [Nat.pow_succ, Nat.mod_mul, Nat.add_comm]
    rw [e, Nat.pow_succ, B_eq]
    rw [B_eq] at hC hm hd
    generalize N / 1000000000 ^ k % 1000000000 = v at *
    generalize N % 1000000000 ^ k = r at *
    generalize (1000000000 : Nat) ^ k = C at *
    clear e h
    rcases Nat.lt_trichotomy v 500000000 with h1 | h1 | h1
    · rw [if_pos h1]
      refine ⟨0, by rw [hin]; decide, mag_zero64, by decide, ?_, by omega, by omega⟩
      have := Nat.mul_le_mul_left C (show v ≤ 499999999 by omega)
      generalize C * v = W at *
      unfold dist; omega
    · rw [if_neg (by omega), if_pos h1, h1]
      by_cases hr : r = 0
      · rw [if_neg (by simp [hr])]
        refine ⟨1, by rw [hin]; decide, mag_half64, by decide, ?_, ?_, by omega⟩
        · unfold dist; omega
        · intro _; omega
      · rw [if_pos (by simp [hr])]
        refine ⟨2, by rw [hin]; decide, mag_one64, by decide, ?_, by omega, by omega⟩
        unfold dist; omega
    · rw [if_neg (by omega), if_neg (by omega)]
      refine ⟨2, by rw [hin]; decide, mag_one64, by decide, ?_, by omega, by omega⟩
      have h2 := Nat.mul_le_mul_left C (show 500000001 ≤ v by omega)
      have h3 := Nat.mul_le_mul_left C (show v ≤ 999999999 by omega)
      generalize C * v = W at *
      unfold dist; omega

/-! ## Rounding a limb -/

theorem limb_add (v g G : Nat) (hv : v < B) (hg : g < b64.inf) (hG : b64.mag g = G * HU) (hG2 : G ≤ 2) :
    ∃ X, b64.add (b64.ofInt v) g = X ∧ X < b64.inf ∧ b64.mag X = (2 * v + G) * HU := by
  rw [B_eq] at hv
  obtain ⟨k, k1, k2⟩ := Fmt.representable (F := b64) (m := v) (e := 1074) (by
    have : 1000000000 ≤ 2 ^ (b64.f + 1) := by decide
    omega) (by
    refine Nat.le_trans (Nat.mul_le_mul_right _ (show v ≤ 2 ^ 30 by omega)) ?_
    rw [← pw 30 1074 1104 rfl]; exact pow_le_inf _ (by decide))
  have hk : b64.ofInt v = k := ofInt_rep k1 (by rw [k2, Verif.Math.u64])
  have hklt : k < b64.inf := lt_inf_of_mag (j := 1104) (by
    rw [k2, pw 30 1074 1104 rfl]; exact Nat.mul_le_mul_right _ (by omega)) (by decide)
  obtain ⟨X, x1, x2⟩ := Fmt.representable (F := b64) (m := 2 * v + G) (e := 1073) (by
    have : 3000000000 ≤ 2 ^ (b64.f + 1) := by decide
    omega) (by
    refine Nat.le_trans (Nat.mul_le_mul_right _ (show 2 * v + G ≤ 2 ^ 31 by omega)) ?_
    rw [← pw 31 1073 1104 rfl]; exact pow_le_inf _ (by decide))
  refine ⟨X, ?_, ?_, by rw [x2, HU_eq]⟩
  · rw [hk]
    rw [← HU_eq] at x2
    rw [p1073] at k2
    refine add_pos hklt hg x1 ?_
    rw [x2, k2, hG, Nat.add_mul, Nat.mul_left_comm v, Nat.mul_assoc]
  · exact lt_inf_of_mag (j := 1104) (by rw [x2, pw 31 1073 1104 rfl]; exact Nat.mul_le_mul_right _ (by omega)) (by decide)

theorem limb_arith {a K r q H : Nat} (hH : 0 < H) (ha : a < 2 ^ 53) (h1 : 2 ^ 53 * dist (a * H) (K * q) ≤ a * H) (h2 : dist q (r * (2 * H)) ≤ H) :
    dist a (2 * K * r) ≤ K := by
  have t := dist_tri (a * H) (K * q) (K * (r * (2 * H)))
  have e1 : dist (K * q) (K * (r * (2 * H))) = K * dist q (r * (2 * H)) := by
    rw [Nat.mul_comm K q, Nat.mul_comm K (r * (2 * H)), dist_mul, Nat.mul_comm]
  have e2 : dist (a * H) (K * (r * (2 * H))) = dist a (2 * K * r) * H := by
    rw [← dist_mul]; congr 1; simp only [Nat.mul_assoc, Nat.mul_left_comm, Nat.mul_comm]
  rw [e1, e2] at t
  have h3 := Nat.mul_le_mul_left K h2
  have h4 : a * H < 2 ^ 53 * H := Nat.mul_lt_mul_of_pos_right ha hH
  refine Nat.le_of_lt_succ (Nat.lt_of_mul_lt_mul_right (a := H) ?_)
  rw [Nat.succ_mul K]
  generalize dist a (2 * K * r) * H = W at *
  generalize K * dist q (r * (2 * H)) = Y at *
  generalize dist (a * H) (K * q) = Z at *
  generalize K * H = Q at *
  generalize a * H = T at *
  omega

theorem rel_arith {n d H A q : Nat} (hA : 0 < A) (h : 2 ^ 53 * dist (n * H * A) (d * A * q) ≤ n * H * A) : 2 ^ 53 * dist (n * H) (d * q) ≤ n * H := by
  rw [Nat.mul_right_comm d A q, dist_mul, ← Nat.mul_assoc] at h
  exact Nat.le_of_mul_le_mul_right h hA

theorem limbPlacedRint_spec (X a c : Nat) (hX : X < b64.inf) (hm : b64.mag X = a * HU) (ha : a ≤ 2000000000) (hc : c < 9) :
    ∃ r, limbPlacedRint X c = 10 ^ c * r ∧ dist a (2 * 10 ^ c * r) ≤ 10 ^ c := by
  unfold limbPlacedRint
  rw [exp10Limb_eq c hc]
  simp only
  have hK : 10 ^ c ≤ 10 ^ 8 := Nat.pow_le_pow_right (by decide) (by omega)
  have hK0 : 0 < 10 ^ c := Nat.pow_pos (by decide)
  generalize hKe : 10 ^ c = K at *
  obtain ⟨k, k1, k2⟩ := Fmt.representable (F := b64) (m := K) (e := 1074) (by
    have : 1000000000 ≤ 2 ^ (b64.f + 1) := by decide
    omega) (by
    refine Nat.le_trans (Nat.mul_le_mul_right _ (show K ≤ 2 ^ 30 by omega)) ?_
    rw [← pw 30 1074 1104 rfl]; exact pow_le_inf _ (by decide))
  have hk : b64.ofInt K = k := ofInt_rep k1 (by rw [k2, Verif.Math.u64])
  rw [hk]
  unfold div
  rw [hm, k2, Verif.Math.u64]
  have hden : 0 < K * 2 ^ 1074 := Nat.mul_pos hK0 (Nat.two_pow_pos _)
  have hcore : b64.mag (b64.rnd (a * HU * 2 ^ 1074) (K * 2 ^ 1074)) ≤ 2 ^ 1104 ∧
      2 ^ 53 * dist (a * HU) (K * b64.mag (b64.rnd (a * HU * 2 ^ 1074) (K * 2 ^ 1074))) ≤ a * HU := by
    constructor
    · obtain ⟨j, j1, j2⟩ := Fmt.representable (F := b64) (m := 1) (e := 1104) (by decide) (by rw [Nat.one_mul]; exact pow_le_inf _ (by decide))
      rw [Nat.one_mul] at j2
      rw [← j2]
      apply b64.mag_mono
      have : b64.rnd (K * 2 ^ 1074 * b64.mag j) (K * 2 ^ 1074) = j := rnd_exact hden j1 rfl
      rw [← this]
      apply rnd_mono hden
      rw [j2, pw 31 1073 1104 rfl, ← HU_eq]
      generalize HU = H
      generalize (2 : Nat) ^ 1074 = A
      rw [Nat.mul_right_comm K A]
      apply Nat.mul_le_mul_right
      rw [← Nat.mul_assoc]
      apply Nat.mul_le_mul_right
      have := Nat.mul_le_mul_right (2 ^ 31) (show 1 ≤ K by omega)
      omega
    · by_cases h0 : a = 0
      · subst h0
        rw [Nat.zero_mul, Nat.zero_mul, rnd_zero _ hden, Fmt.mag_zero]
        simp [dist]
      · refine rel_arith (Nat.two_pow_pos 1074) (rnd_rel (F := b64) (a * HU * 2 ^ 1074) (K * 2 ^ 1074) hden ?_ ?_ ok64)
        · rw [Nat.mul_right_comm K]
          apply Nat.mul_le_mul_right
          have e : HU = 2 ^ 30 * (2 ^ b64.f * 2 ^ 991) := by
            rw [show b64.f = 52 from rfl, ← pw 52 991 1043 rfl, ← pw 30 1043 1073 rfl, HU_eq]
          rw [e]
          have h991 := Nat.two_pow_pos 991
          have hb : 0 < 2 ^ b64.f := Nat.two_pow_pos _
          have q1 : K * 2 ^ b64.f ≤ 2 ^ 30 * 2 ^ b64.f := Nat.mul_le_mul_right _ (by omega)
          have q2 : 2 ^ b64.f ≤ 2 ^ b64.f * 2 ^ 991 := Nat.le_mul_of_pos_right _ h991
          refine Nat.le_trans q1 (Nat.le_trans (Nat.mul_le_mul_left _ q2) (Nat.le_mul_of_pos_left _ (by omega)))
        · have : a * HU ≤ b64.mag b64.inf := by
            refine Nat.le_trans (Nat.mul_le_mul_right _ (show a ≤ 2 ^ 31 by omega)) ?_
            rw [HU_eq, ← pw 31 1073 1104 rfl]; exact pow_le_inf _ (by decide)
          rw [Nat.mul_right_comm K]
          apply Nat.mul_le_mul_right
          exact Nat.le_trans this (Nat.le_mul_of_pos_left _ hK0)
  generalize hQ : b64.rnd (a * HU * 2 ^ 1074) (K * 2 ^ 1074) = Q at *
  have hQlt := lt_inf_of_mag hcore.1 (by decide)
  rw [rint_whole hQlt, Verif.Math.u64]
  obtain ⟨n1, n2⟩ := nearInt_spec (b64.mag Q) 1074
  generalize Fmt.nearInt (b64.mag Q) 1074 = r at *
  have hmain : dist a (2 * K * r) ≤ K := by
    refine limb_arith (HU_pos) (by omega) hcore.2 ?_
    rw [p1073] at n1
    generalize dist (b64.mag Q) (r * (2 * HU)) = Y at *
    generalize HU = H at *
    omega
  clear hcore n1 n2 hm k2 hden hQ
  have hb : K * r ≤ 1100000000 := by
    rw [Nat.mul_assoc] at hmain
    generalize K * r = W at *
    unfold dist at hmain; omega
  have hr : r ≤ K * r := Nat.le_mul_of_pos_left _ hK0
  refine ⟨r, ?_, hmain⟩
  rw [Nat.mod_eq_of_lt (show r < 2 ^ 32 by omega), Nat.mul_comm, Nat.mod_eq_of_lt (by omega)]

/-! ## Carrying -/

structure Carry (s xn index : Nat) (x : List Nat) : Prop where
  lt : ∀ m, m ≠ index → x.getD m 0 < B
  here : x.getD index 0 ≤ B
  ge : s ≤ index
  le : index ≤ xn
  len : xn ≤ x.length
  len' : x.length ≤ xn + 1
  inside : index < x.length
  zero : index < xn → x.getD xn 0 = 0
  one : index = xn → x.getD xn 0 ≤ 1
  top : s + 1 < xn → index < xn → 1 ≤ x.getD (xn - 1) 0
  over : s < xn → index = xn → x.getD xn 0 = 1

theorem carryLoop_spec {s xn fuel index : Nat} {x x' : List Nat} {i' : Nat} (c : Carry s xn index x)
    (h : carryLoop xn fuel index x = some (x', i')) :
    Carry s xn i' x' ∧ lval x' = lval x ∧ x'.getD i' 0 < B := by
  induction fuel generalizing index x with
  | zero => simp [carryLoop] at h
  | succ fuel ih =>
    unfold carryLoop at h
    by_cases h1 : index < xn ∧ B ≤ x.getD index 0
    · rw [if_pos h1] at h
      by_cases h2 : index + 1 < x.length
      · rw [if_pos h2] at h
        have hx : x.getD index 0 = B := Nat.le_antisymm c.here h1.2
        have hn : x.getD (index + 1) 0 < B := c.lt _ (by omega)
        rw [hx, Nat.sub_self, Nat.mod_eq_of_lt (by rw [B_eq] at hn; omega)] at h
        have hl1 : (x.set index 0).length = x.length := List.length_set ..
        have hg : ∀ m, ((x.set index 0).set (index + 1) (x.getD (index + 1) 0 + 1)).getD m 0 =
            if m = index + 1 then x.getD (index + 1) 0 + 1 else if m = index then 0 else x.getD m 0 := by
          intro m
          rw [getD_set _ _ _ _ (by omega), getD_set _ _ _ _ (by omega)]
        have hv : lval ((x.set index 0).set (index + 1) (x.getD (index + 1) 0 + 1)) = lval x := by
          have v1 := lval_set x index 0 c.inside
          have v2 := lval_set (x.set index 0) (index + 1) (x.getD (index + 1) 0 + 1) (by omega)
          rw [getD_set _ _ _ _ c.inside, if_neg (by omega), Nat.add_mul, Nat.one_mul] at v2
          rw [hx, Nat.zero_mul] at v1
          have e : B ^ (index + 1) = B * B ^ index := by rw [Nat.pow_succ, Nat.mul_comm]
          rw [e] at v2
          omega
        have c' : Carry s xn (index + 1) ((x.set index 0).set (index + 1) (x.getD (index + 1) 0 + 1)) := by
          refine ⟨?_, ?_, ?_, ?_, ?_, ?_, ?_, ?_, ?_, ?_, ?_⟩
          · intro m hm
            rw [hg, if_neg hm]
            split
            · exact B_pos
            · exact c.lt m (by omega)
          · rw [hg, if_pos rfl]; omega
          · have := c.ge; omega
          · omega
          · rw [List.length_set, hl1]; exact c.len
          · rw [List.length_set, hl1]; exact c.len'
          · rw [List.length_set, hl1]; exact h2
          · intro hh
            rw [hg, if_neg (by omega), if_neg (by omega)]
            exact c.zero h1.1
          · intro hh
            have := c.zero h1.1
            rw [hg, if_pos hh.symm, hh, this]; omega
          · intro hs hh
            rw [hg]
            by_cases q : xn - 1 = index + 1
            · rw [if_pos q]; omega
            · rw [if_neg q, if_neg (by omega)]
              exact c.top hs h1.1
          · intro hs hh
            have := c.zero h1.1
            rw [hg, if_pos hh.symm, hh, this]
        obtain ⟨r1, r2, r3⟩ := ih c' h
        exact ⟨r1, by rw [r2, hv], r3⟩
      · rw [if_neg h2] at h; simp at h
    · rw [if_neg h1] at h
      simp only [Option.some.injEq, Prod.mk.injEq] at h
      obtain ⟨rfl, rfl⟩ := h
      refine ⟨c, rfl, ?_⟩
      rcases Nat.lt_or_ge index xn with hh | hh
      · have : ¬ B ≤ x.getD index 0 := fun q => h1 ⟨hh, q⟩
        omega
      · have he : index = xn := by have := c.le; omega
        have := c.one he
        rw [he, B_eq]; omega

theorem round_arith {L v r0 K K' U C G : Nat} (hC : 0 < C) (hK : K = 1 ∨ 10 ≤ K) (hG : G ≤ 2) (hL : L < C)
    (h1 : dist (G * C) (2 * L) ≤ C) (h2 : G = 1 → 2 * L = C) (h3 : dist (2 * v + G) (2 * K * r0) ≤ K) :
    (L + K * r0 * C + U * (K * K') * C) / (C * K) = r0 + U * K' ∧
    20 * dist (L + v * C + U * (K * K') * C) ((r0 + U * K') * (C * K)) ≤ 11 * (C * K) := by
  have hK0 : 0 < K := by omega
  have e1 : K * r0 * C + U * (K * K') * C = C * K * (r0 + U * K') := by
    rw [Nat.mul_add]
    congr 1 <;> simp only [Nat.mul_assoc, Nat.mul_left_comm, Nat.mul_comm]
  constructor
  · rw [Nat.add_assoc, e1, Nat.add_mul_div_left _ _ (Nat.mul_pos hC hK0), Nat.div_eq_of_lt, Nat.zero_add]
    exact Nat.lt_of_lt_of_le hL (Nat.le_mul_of_pos_right _ hK0)
  · have e2 : (r0 + U * K') * (C * K) = K * r0 * C + U * (K * K') * C := by rw [e1, Nat.mul_comm]
    have e3 : dist (L + v * C + U * (K * K') * C) ((r0 + U * K') * (C * K)) = dist (L + v * C) (K * r0 * C) := by
      rw [e2]; unfold dist; omega
    rw [e3]
    have h4 : dist ((2 * v + G) * C) (2 * K * r0 * C) ≤ K * C := by
      rw [dist_mul]; exact Nat.mul_le_mul_right _ h3
    have t := dist_tri (2 * L + 2 * (v * C)) (G * C + 2 * (v * C)) (2 * (K * r0 * C))
    have e4 : (2 * v + G) * C = G * C + 2 * (v * C) := by rw [Nat.add_mul, Nat.mul_assoc]; omega
    have e5 : 2 * K * r0 * C = 2 * (K * r0 * C) := by simp only [Nat.mul_assoc]
    have e6 : dist (2 * L + 2 * (v * C)) (2 * (K * r0 * C)) = 2 * dist (L + v * C) (K * r0 * C) := by unfold dist; omega
    have e7 : dist (2 * L + 2 * (v * C)) (G * C + 2 * (v * C)) = dist (G * C) (2 * L) := by unfold dist; omega
    rcases hK with hK | hK
    · subst hK
      rw [Nat.mul_one]
      suffices 2 * dist (L + v * C) (1 * r0 * C) ≤ C by omega
      rw [Nat.one_mul]
      rw [Nat.one_mul] at e6
      by_cases hG1 : G = 1
      · have := h2 hG1
        subst hG1
        rw [e4, e5] at h4
        simp only [Nat.one_mul] at h4
        rw [← e6, this]
        exact h4
      · have he : 2 * v + G = 2 * r0 := by unfold dist at h3; omega
        have he' : G * C + 2 * (v * C) = 2 * (r0 * C) := by
          rw [← e4, he, Nat.mul_assoc]
        rw [← e6, ← he', e7]
        exact h1
    · rw [e4, e5] at h4
      rw [e6, e7] at t
      have h10 := Nat.mul_le_mul_right C hK
      rw [Nat.mul_comm C K]
      generalize dist (L + v * C) (K * r0 * C) = W at *
      generalize K * C = Q at *
      omega

theorem B_split (c : Nat) (h : c < 9) : B = 10 ^ c * 10 ^ (9 - c) := by
  rw [← Nat.pow_add, show c + (9 - c) = 9 by omega]; rfl

/-- Rounding at a place. -/
theorem limbsPlacedRint_spec {x x' : List Nat} {n N limbs : Nat} (h : Num x n N) (place : Nat) (h1 : 0 < place) (h2 : place ≤ 9 * n)
    (e : limbsPlacedRint x n (place : Int) = some (x', limbs)) :
    (∀ v ∈ x', v < B) ∧ lval x' < B ^ limbs ∧ (place / 9 + 1 < limbs → B ^ (limbs - 1) ≤ lval x') ∧ place / 9 + 1 ≤ limbs ∧
      20 * dist N (lval x' / 10 ^ place * 10 ^ place) ≤ 11 * 10 ^ place := by
  unfold limbsPlacedRint at e
  rw [if_neg (by omega), if_pos (by omega), Int.toNat_natCast] at e
  simp only at e
  by_cases hin : place / 9 < x.length
  · rw [if_pos hin] at e
    have hidx : place / 9 ≤ n := by omega
    have hc : place % 9 < 9 := Nat.mod_lt _ (by decide)
    have hpl : 10 ^ place = B ^ (place / 9) * 10 ^ (place % 9) := by
      rw [B_pow, ← Nat.pow_add]; congr 1; omega
    rw [hpl]
    generalize hs : place / 9 = s at *
    generalize hcc : place % 9 = c at *
    obtain ⟨G, g1, g2, g3, g4, g5, g6⟩ := getfrac_spec h s
    have hvB := getD_lt x h.lt s
    have hvd := h.digit s
    obtain ⟨X, a1, a2, a3⟩ := limb_add (x.getD s 0) _ G hvB g1 g2 g3
    obtain ⟨r, r1, r2⟩ := limbPlacedRint_spec X (2 * x.getD s 0 + G) c a2 a3 (by rw [B_eq] at hvB; omega) hc
    rw [a1, r1] at e
    have hBs := B_split c hc
    have hK0 : 0 < 10 ^ c := Nat.pow_pos (by decide)
    have hKc : 10 ^ c = 1 ∨ 10 ≤ 10 ^ c := by
      cases c with
      | zero => left; rfl
      | succ c => right; rw [Nat.pow_succ]; have := Nat.pow_pos (n := c) (show 0 < 10 by decide); omega
    have hC := Nat.pow_pos (n := s) B_pos
    have hL := Nat.mod_lt N hC
    have hN : N = N % B ^ s + x.getD s 0 * B ^ s + N / B ^ s / B * (10 ^ c * 10 ^ (9 - c)) * B ^ s := by
      rw [← hBs, hvd, Nat.add_assoc, ← Nat.add_mul, Nat.add_comm (N / B ^ s % B), Nat.mul_comm (N / B ^ s / B), Nat.div_add_mod,
        Nat.mul_comm, Nat.mod_add_div]
    obtain ⟨q1, q2⟩ := round_arith (K' := 10 ^ (9 - c)) (U := N / B ^ s / B) hC hKc g3 hL g4 g5 r2
    rw [← hN] at q2
    have hrB : 10 ^ c * r ≤ B := by
      rw [hBs] at hvB ⊢
      rw [Nat.mul_assoc] at r2
      apply Nat.mul_le_mul_left
      rcases Nat.lt_or_ge (10 ^ (9 - c)) r with hh | hh
      · exfalso
        have h5 := Nat.mul_le_mul_left (10 ^ c) hh
        rw [Nat.mul_succ] at h5
        generalize 10 ^ c * r = W at *
        generalize 10 ^ c * 10 ^ (9 - c) = BB at *
        unfold dist at r2
        omega
      · exact hh
    have hv' : lval (x.set s (10 ^ c * r)) = N % B ^ s + 10 ^ c * r * B ^ s + N / B ^ s / B * (10 ^ c * 10 ^ (9 - c)) * B ^ s := by
      have := lval_set x s (10 ^ c * r) hin
      rw [h.val] at this
      generalize N / B ^ s / B * (10 ^ c * 10 ^ (9 - c)) * B ^ s = UU at *
      generalize x.getD s 0 * B ^ s = VV at *
      generalize N % B ^ s = LL at *
      omega
    -- the start of the loop
    have hg : ∀ m, (x.set s (10 ^ c * r)).getD m 0 = if m = s then 10 ^ c * r else x.getD m 0 := fun m => getD_set x s m _ hin
    have hxn : x.getD n 0 = 0 := by
      rw [h.digit, Nat.div_eq_of_lt h.below, Nat.zero_mod]
    have hn1 : 1 ≤ x.getD (n - 1) 0 := by
      rw [h.digit, Nat.mod_eq_of_lt]
      · exact Nat.div_pos h.top (Nat.pow_pos B_pos)
      · refine Nat.div_lt_of_lt_mul ?_
        rw [← Nat.pow_succ, show (n - 1).succ = n by have := h.pos; omega]; exact h.below
    have c0 : Carry s n s (x.set s (10 ^ c * r)) := by
      refine ⟨?_, ?_, Nat.le_refl _, hidx, ?_, ?_, ?_, ?_, ?_, ?_, ?_⟩
      · intro m hm; rw [hg, if_neg hm]; exact getD_lt x h.lt m
      · rw [hg, if_pos rfl]; exact hrB
      · rw [List.length_set]; exact h.le
      · rw [List.length_set]; exact h.ge
      · rw [List.length_set]; exact hin
      · intro hh; rw [hg, if_neg (by omega)]; exact hxn
      · intro hh
        rw [hg, if_pos hh.symm]
        -- the limb is zero, and the place its last digit
        have hc0 : c = 0 := by
          omega
        rw [hh, hxn] at r2
        rw [hc0] at r2 ⊢
        unfold dist at r2; omega
      · intro hs' hh
        rw [hg, if_neg (by omega)]; exact hn1
      · intro h5 h6; omega
    cases hcl : carryLoop n (n + 1) s (x.set s (10 ^ c * r)) with
    | none => rw [hcl] at e; simp at e
    | some res =>
      obtain ⟨y, i'⟩ := res
      rw [hcl] at e
      simp only [Option.map_some, Option.some.injEq, Prod.mk.injEq] at e
      obtain ⟨rfl, rfl⟩ := e
      obtain ⟨f1, f2, f3⟩ := carryLoop_spec c0 hcl
      have hall : ∀ m, y.getD m 0 < B := by
        intro m
        by_cases hm : m = i'
        · rw [hm]; exact f3
        · exact f1.lt m hm
      have hlt := mem_lt y hall
      have hpos := h.pos
      have hge := f1.ge
      refine ⟨hlt, ?_, ?_, ?_, ?_⟩
      · by_cases hi : i' = n
        · rw [if_pos hi]
          exact Nat.lt_of_lt_of_le (lval_lt y hlt) (Nat.pow_le_pow_right (by decide) f1.len')
        · rw [if_neg hi, Nat.add_zero]
          have h0 := f1.zero (by have := f1.le; omega)
          rw [← lval_digit y hlt] at h0
          have hb := lval_lt y hlt
          have hb2 : lval y < B ^ (n + 1) := Nat.lt_of_lt_of_le hb (Nat.pow_le_pow_right (by decide) f1.len')
          have : lval y / B ^ n < B := Nat.div_lt_of_lt_mul (by rw [← Nat.pow_succ]; exact hb2)
          rw [Nat.mod_eq_of_lt this] at h0
          exact (Nat.div_eq_zero_iff_lt (Nat.pow_pos B_pos)).1 h0
      · intro hh
        have key : ∀ k, 1 ≤ y.getD k 0 → B ^ k ≤ lval y := by
          intro k hk
          rw [← lval_digit y hlt] at hk
          rcases Nat.lt_or_ge (lval y) (B ^ k) with q | q
          · rw [Nat.div_eq_of_lt q] at hk; simp at hk
          · exact q
        by_cases hi : i' = n
        · rw [if_pos hi] at hh ⊢
          rw [Nat.add_sub_cancel]
          exact key n (Nat.le_of_eq (f1.over (by omega) hi).symm)
        · rw [if_neg hi, Nat.add_zero] at hh ⊢
          exact key (n - 1) (f1.top hh (by have := f1.le; omega))
      · have := f1.le
        split <;> omega
      · rw [f2, hv', q1]; exact q2
  · rw [if_neg hin] at e; simp at e

/-! ## The digits -/

theorem raw_pad (k T : Nat) (h : T < 10 ^ k) :
    (raw 10 false T).length ≤ k ∧ List.replicate (k - (raw 10 false T).length) 48 ++ raw 10 false T = places 10 false k T := by
  induction k generalizing T with
  | zero =>
    have : T = 0 := by simpa using h
    subst this
    exact ⟨by simp [raw], rfl⟩
  | succ k ih =>
    by_cases h0 : T = 0
    · subst h0
      rw [places_zero 10 (by decide)]
      simp [raw]
    · have e := raw_step 10 false T (by decide) h0 []
      rw [List.append_nil] at e
      obtain ⟨i1, i2⟩ := ih (T / 10) (by rw [Nat.pow_succ] at h; omega)
      rw [← e]
      simp only [List.length_append, List.length_cons, List.length_nil]
      refine ⟨by omega, ?_⟩
      rw [show k + 1 - ((raw 10 false (T / 10)).length + (0 + 1)) = k - (raw 10 false (T / 10)).length by omega, ← List.append_assoc, i2]
      rfl

theorem places_take (c v : Nat) (h : c ≤ 9) : (places 10 false 9 v).take (9 - c) = places 10 false (9 - c) (v / 10 ^ c) := by
  have := places_add 10 (by decide) false (9 - c) c v
  rw [show 9 - c + c = 9 by omega] at this
  rw [this, List.take_left' (places_length ..)]

theorem u32_of_nat (z : Int) (n : Nat) (h : z = n) (hn : n < 2 ^ 32) : u32 z = n := by
  subst h; unfold u32; omega

theorem smallDigits_eq (sp : Opts) (e : Nat) (place : Int) (big : List Nat) (limbs : Nat) (hl : ∀ v ∈ big, v < B) (hb : lval big < B ^ limbs)
    (he : lval big < 10 ^ e) (h32 : e < 2 ^ 31) (hpe : place.toNat ≤ e) (hi : place.toNat / 9 + 1 ≤ limbs)
    (ht : place.toNat / 9 + 1 < limbs → B ^ (limbs - 1) ≤ lval big) :
    (smallDigits sp e place big limbs).2.flatten =
      places 10 false (e - place.toNat) (lval big / 10 ^ place.toNat) ++ List.replicate (-place).toNat 48 := by
  unfold smallDigits
  rw [if_pos (by omega)]
  have hidx : (if 0 ≤ place then place.toNat / 9 else 0) = place.toNat / 9 := by split <;> omega
  have hcut : (if 0 ≤ place then place.toNat % 9 else 0) = place.toNat % 9 := by split <;> omega
  have hz : (if place < 0 then pad 48 (-place).toNat else []).flatten = List.replicate (-place).toNat 48 := by
    split
    · exact pad_flatten ..
    · rw [show (-place).toNat = 0 by omega]; rfl
  simp only [hidx, hcut]
  generalize (if place < 0 then pad 48 (-place).toNat else []) = Z at *
  have hpow : 10 ^ place.toNat = B ^ (place.toNat / 9) * 10 ^ (place.toNat % 9) := by
    rw [B_pow, ← Nat.pow_add]; congr 1; omega
  have hpl : place.toNat = 9 * (place.toNat / 9) + place.toNat % 9 := by omega
  have hc9 : place.toNat % 9 < 9 := Nat.mod_lt _ (by decide)
  generalize place.toNat / 9 = s at *
  generalize place.toNat % 9 = c at *
  generalize place.toNat = pl at *
  generalize hV : lval big = V at *
  by_cases h : s + 1 < limbs
  · rw [if_pos h]
    simp only
    obtain ⟨k, rfl⟩ : ∃ k, limbs = s + 1 + k + 1 := ⟨limbs - (s + 1) - 1, by omega⟩
    rw [show s + 1 + k + 1 - 1 = s + 1 + k by omega] at *
    have hge := ht h
    have hdig : big.getD (s + 1 + k) 0 = V / B ^ (s + 1 + k) := by
      rw [← lval_digit big hl, hV, Nat.mod_eq_of_lt]
      exact Nat.div_lt_of_lt_mul (by rw [← Nat.pow_succ]; exact hb)
    have hke : 9 * (s + 1 + k) ≤ e := by
      rw [B_pow] at hge
      have := (Nat.pow_lt_pow_iff_right (show 1 < 10 by decide)).1 (Nat.lt_of_le_of_lt hge he)
      omega
    have hT : V / B ^ (s + 1 + k) < 10 ^ (e - 9 * (s + 1 + k)) := by
      refine Nat.div_lt_of_lt_mul ?_
      rw [B_pow, ← Nat.pow_add, show 9 * (s + 1 + k) + (e - 9 * (s + 1 + k)) = e by omega]; exact he
    obtain ⟨w1, w2⟩ := raw_pad _ _ hT
    rw [hdig, decimal_eq, List.append_nil]
    rw [u32_of_nat _ (e - 9 * (s + 1 + k) - (raw 10 false (V / B ^ (s + 1 + k))).length) (by omega) (by omega)]
    simp only [List.flatten_append, List.flatten_cons, List.flatten_nil, List.append_nil, pad_flatten, hz]
    rw [w2, dumpLimbs_eq big hl, hV, dumpLimb_eq, places_take c _ (by omega)]
    congr 1
    -- the last limb
    have hlast : places 10 false (9 - c) (big.getD s 0 / 10 ^ c) = places 10 false (9 - c) (V / 10 ^ pl) := by
      rw [← lval_digit big hl, hV, hpow, ← Nat.div_div_eq_div_mul, ← places_mod 10 (by decide) false (9 - c) (V / B ^ s / 10 ^ c),
        B_split c hc9]
      rw [Nat.mod_mul_right_div_self]
    rw [hlast]
    have p1 : e - pl = (e - 9 * (s + 1 + k)) + (9 * k + (9 - c)) := by omega
    rw [p1, places_add 10 (by decide), places_add 10 (by decide), ← List.append_assoc]
    congr 3
    · rw [Nat.div_div_eq_div_mul, ← Nat.pow_add, B_pow]; congr 2; omega
    · rw [Nat.div_div_eq_div_mul, ← Nat.pow_add, B_pow]; congr 2; omega
  · rw [if_neg h]
    simp only
    have hlim : limbs = s + 1 := by omega
    subst hlim
    have hdig : big.getD s 0 = V / B ^ s := by
      rw [← lval_digit big hl, hV, Nat.mod_eq_of_lt]
      exact Nat.div_lt_of_lt_mul (by rw [← Nat.pow_succ]; exact hb)
    have hM : big.getD s 0 / exp10Limb c = V / 10 ^ pl := by
      rw [exp10Limb_eq c hc9, hdig, hpow, Nat.div_div_eq_div_mul]
    have hT : V / 10 ^ pl < 10 ^ (e - pl) := by
      refine Nat.div_lt_of_lt_mul ?_
      rw [← Nat.pow_add, show pl + (e - pl) = e by omega]; exact he
    obtain ⟨w1, w2⟩ := raw_pad _ _ hT
    rw [hM, decimal_eq, List.append_nil]
    rw [u32_of_nat _ (e - pl - (raw 10 false (V / 10 ^ pl)).length) (by omega) (by omega)]
    simp only [List.flatten_append, List.flatten_cons, List.flatten_nil, List.append_nil, pad_flatten, hz]
    rw [w2]

/-! ## The value -/

theorem ifrexp_small (m : Nat) (h0 : 0 < m) (h : m < 0x3F70000000000000) :
    ∃ odd e : Nat, ifrexp m = (odd, -(e : Int)) ∧ 0 < odd ∧ odd < 2 ^ 53 ∧ e ≤ 1074 ∧ odd * 2 ^ (1074 - e) = b64.mag m := by
  have hin : b64.inf = 0x7FF0000000000000 := by decide +kernel
  unfold ifrexp
  by_cases h1 : m < 2 ^ 52
  · rw [if_pos h1, if_neg (by omega)]
    refine ⟨m, 1074, rfl, h0, by omega, by omega, ?_⟩
    rw [b64.mag_small (show m < 2 ^ b64.f from h1)]
    simp
  · rw [if_neg h1]
    obtain ⟨odd, shift, e, o1, o2, o3, o4, o5, _⟩ := kernelIfrexp_spec m (by omega) (by rw [hin]; omega)
    refine ⟨odd, (-shift).toNat, ?_, by omega, o2, by omega, ?_⟩
    · rw [e]; congr 1; omega
    · rw [← o5]; congr 2; omega

theorem small_mag (m : Nat) (h : m < 0x3F70000000000000) : 256 * b64.mag m ≤ 2 ^ 1074 := by
  have e : b64.mag 0x3F70000000000000 = 2 ^ 1066 := by decide +kernel
  have := Nat.le_of_lt (b64.mag_strictMono h)
  rw [e] at this
  rw [pw 8 1066 1074 rfl]
  exact Nat.mul_le_mul (show 256 ≤ 2 ^ 8 by decide) this

theorem small_below {M A p P : Nat} (hA : 0 < A) (h : 256 * M ≤ A) (hd : 20 * dist (M * 10 ^ p) (P * A) ≤ 11 * A) : P < 10 ^ p := by
  rcases Nat.lt_or_ge P (10 ^ p) with q | q
  · exact q
  · exfalso
    have hT := Nat.pow_pos (n := p) (show 0 < 10 by decide)
    have h1 := Nat.mul_le_mul_right A q
    have h2 := Nat.mul_le_mul_right (10 ^ p) h
    have h3 := Nat.mul_le_mul_right A hT
    rw [Nat.mul_assoc, Nat.mul_comm A] at h2
    generalize 10 ^ p * A = X at *
    generalize M * 10 ^ p = Y at *
    generalize P * A = Z at *
    unfold dist at hd
    omega

theorem value_arith {odd M A e p pl : Nat} (hM : odd * 2 ^ (1074 - e) = M) (hA : A = 2 ^ e * 2 ^ (1074 - e)) (he : e = p + pl) :
    M * 10 ^ p * 10 ^ pl = odd * 5 ^ e * A := by
  rw [Nat.mul_assoc M, ← Nat.pow_add, ← he, ← hM, hA, show (10 : Nat) = 5 * 2 by decide, Nat.mul_pow]
  simp only [Nat.mul_assoc, Nat.mul_left_comm, Nat.mul_comm]

theorem value_dist {M A p pl N P : Nat} (h : M * 10 ^ p * 10 ^ pl = N * A) (hd : 20 * dist N (P * 10 ^ pl) ≤ 11 * 10 ^ pl) :
    20 * dist (M * 10 ^ p) (P * A) ≤ 11 * A := by
  refine Nat.le_of_mul_le_mul_right ?_ (Nat.pow_pos (n := pl) (show 0 < 10 by decide))
  rw [Nat.mul_assoc, ← dist_mul, h, Nat.mul_right_comm P, dist_mul, ← Nat.mul_assoc, Nat.mul_right_comm 11 A]
  exact Nat.mul_le_mul_right _ hd

theorem small_layout {sp : Opts} {d : Dir} {a : Ask} (h : Agrees sp d a) (sign point : List Nat) (ds : List (List Nat)) (length : Int)
    (hl : length = (sign.length + (48 :: (point ++ ds.flatten)).length : Nat)) :
    ((if has sp.flags 45 || has sp.flags 48 then [] else pad 32 (padding sp length).toNat) ++ put sign ++
      (if !has sp.flags 45 && has sp.flags 48 then pad 48 (padding sp length + 1).toNat else [[48]]) ++ put point ++ ds ++
      (if has sp.flags 45 then pad 32 (padding sp length).toNat else [])).flatten = justifyF d a sign (48 :: (point ++ ds.flatten)) ∧
    length + padding sp length = (justifyF d a sign (48 :: (point ++ ds.flatten))).length := by
  rw [padding_eq h length _ hl]
  constructor
  · unfold justifyF
    simp only [h.minus, h.flag 48 (by decide), List.length_append]
    by_cases h1 : a.minus = true
    · simp [h1, put_flatten, pad_flatten]
    · by_cases h2 : 48 ∈ d.flags
      · have e : ∀ n : Nat, ((n : Int) + 1).toNat = n + 1 := by intro n; omega
        simp [h1, h2, put_flatten, pad_flatten, e, List.replicate_succ']
      · simp [h1, h2, put_flatten, pad_flatten]
  · rw [justifyF_length]; omega

/-- Small numbers. -/
theorem fixedSmall_eq {sp : Opts} {d : Dir} {a : Ask} (h : Agrees sp d a) (p : Nat) (hp : sp.precision = (p : Int)) (x : Nat) (neg : Bool)
    (hx : b64.abs x < 0x3F70000000000000) {o : Out} (ho : fixedSmall sp (signchar neg sp.flags) (b64.abs x) = some o) :
    ∃ P, 20 * dist (b64.mag (b64.abs x) * 10 ^ p) (P * 2 ^ 1074) ≤ 11 * 2 ^ 1074 ∧
    o.chunks.flatten = justifyF d a (signF d neg) (numeral 10 false (P / 10 ^ p) ++ point d p ++ places 10 false p P) ∧
    o.ret = (justifyF d a (signF d neg) (numeral 10 false (P / 10 ^ p) ++ point d p ++ places 10 false p P)).length ∧ o.stores = [] := by
  generalize b64.abs x = m at *
  -- the number and its digits
  have main : ∀ (base e : Nat), ifrexp m = (base, -(e : Int)) → ∀ f big n big' limbs, limbsScal5n (fivesToLimbs e + 2) (limbsSet18 base) e = (f, big, n) →
      limbsPlacedRint big n ((e : Int) - p) = some (big', limbs) →
      ∃ P, 20 * dist (b64.mag m * 10 ^ p) (P * 2 ^ 1074) ≤ 11 * 2 ^ 1074 ∧ P < 10 ^ p ∧
        (smallDigits sp e ((e : Int) - p) big' limbs).2.flatten = places 10 false p P := by
    intro base e e0 f big n big' limbs e1 e2
    by_cases h0 : m = 0
    · subst h0
      refine ⟨0, ?_, Nat.pow_pos (by decide), ?_⟩
      · rw [Fmt.mag_zero, Nat.zero_mul, Nat.zero_mul]; simp [dist]
      · rw [show ifrexp 0 = (0, 0) from rfl] at e0
        simp only [Prod.mk.injEq] at e0
        obtain ⟨rfl, e0⟩ := e0
        have he : e = 0 := by omega
        subst he
        have e1' : limbsScal5n (fivesToLimbs 0 + 2) (limbsSet18 0) 0 = (true, [0], 0) := by decide +kernel
        rw [e1'] at e1
        simp only [Prod.mk.injEq] at e1
        obtain ⟨_, rfl, rfl⟩ := e1
        unfold limbsPlacedRint at e2
        rw [if_pos (by omega)] at e2
        simp only [Option.some.injEq, Prod.mk.injEq] at e2
        obtain ⟨rfl, rfl⟩ := e2
        unfold smallDigits
        rw [if_neg (by simp), pad_flatten, hp, Int.toNat_natCast, places_zero 10 (by decide)]
    · obtain ⟨odd, e', i1, i2, i3, i4, i5⟩ := ifrexp_small m (by omega) hx
      rw [i1] at e0
      simp only [Prod.mk.injEq] at e0
      obtain ⟨rfl, he⟩ := e0
      have he' : e' = e := by omega
      subst he'
      obtain ⟨f', p', n', j1, num⟩ := limbsScal5n_num (fivesToLimbs e' + 2) odd e' i2 i3
      rw [j1] at e1
      simp only [Prod.mk.injEq] at e1
      obtain ⟨rfl, rfl, rfl⟩ := e1
      have hA : (2 : Nat) ^ 1074 = 2 ^ e' * 2 ^ (1074 - e') := pw _ _ _ (by omega)
      have hApos := Nat.two_pow_pos 1074
      have hsm := small_mag m hx
      generalize (2 : Nat) ^ 1074 = A at *
      generalize b64.mag m = M at *
      by_cases hle : e' ≤ p
      · -- exact
        unfold limbsPlacedRint at e2
        rw [if_pos (by omega)] at e2
        simp only [Option.some.injEq, Prod.mk.injEq] at e2
        obtain ⟨rfl, rfl⟩ := e2
        have hv := value_arith (pl := 0) i5 hA (p := e') rfl
        rw [Nat.pow_zero, Nat.mul_one] at hv
        have hd : dist (M * 10 ^ p) (odd * 5 ^ e' * 10 ^ (p - e') * A) = 0 := by
          have : M * 10 ^ p = odd * 5 ^ e' * 10 ^ (p - e') * A := by
            rw [Nat.mul_right_comm, ← hv, Nat.mul_assoc, ← Nat.pow_add]; congr 2; omega
          rw [this]; simp [dist]
        have hlt : odd * 5 ^ e' < 10 ^ e' := small_below hApos hsm (by rw [hv]; simp [dist])
        refine ⟨odd * 5 ^ e' * 10 ^ (p - e'), by rw [hd]; simp, ?_, ?_⟩
        · exact small_below hApos hsm (by rw [hd]; simp)
        · have htn : ((e' : Int) - p).toNat = 0 := by omega
          have hpos := num.pos
          rw [smallDigits_eq sp e' _ p' n' num.lt (by rw [num.val]; exact num.below) (by rw [num.val]; exact hlt) (by omega) (by omega)
            (by omega) (by intro _; rw [num.val]; exact num.top), htn, num.val, Nat.pow_zero, Nat.div_one, Nat.sub_zero]
          have : p = e' + (p - e') := by omega
          rw [show (-((e' : Int) - p)).toNat = p - e' by omega]
          conv => rhs; rw [this, places_add 10 (by decide), show e' + (p - e') - e' = p - e' by omega, Nat.mul_div_cancel _ (Nat.pow_pos (by decide)), places_mul 10 (by decide)]
      · obtain ⟨pl, rfl⟩ : ∃ pl, e' = p + pl := ⟨e' - p, by omega⟩
        have hpl : ((p + pl : Nat) : Int) - p = (pl : Int) := by omega
        rw [hpl] at e2 ⊢
        have hv := value_arith (pl := pl) i5 hA (p := p) rfl
        by_cases hbig : pl ≤ 9 * n'
        · obtain ⟨s1, s2, s3, s4, s5⟩ := limbsPlacedRint_spec num pl (by omega) hbig e2
          have hd := value_dist hv s5
          have hP := small_below hApos hsm hd
          refine ⟨_, hd, hP, ?_⟩
          rw [smallDigits_eq sp (p + pl) pl big' limbs s1 s2 ?_ (by omega) (by omega) (by rw [Int.toNat_natCast]; exact s4)
            (by rw [Int.toNat_natCast]; exact s3), Int.toNat_natCast, Nat.add_sub_cancel, show (-(pl : Int)).toNat = 0 by omega]
          · simp
          · rw [Nat.pow_add]
            exact (Nat.div_lt_iff_lt_mul (Nat.pow_pos (by decide))).1 hP
        · unfold limbsPlacedRint at e2
          rw [if_neg (by omega), if_neg (by omega)] at e2
          simp only [Option.some.injEq, Prod.mk.injEq] at e2
          obtain ⟨rfl, rfl⟩ := e2
          refine ⟨0, ?_, Nat.pow_pos (by decide), ?_⟩
          · refine value_dist hv ?_
            have hb := num.below
            rw [B_pow] at hb
            have hle2 : 10 ^ (9 * n' + 1) ≤ 10 ^ pl := Nat.pow_le_pow_right (by decide) (by omega)
            rw [Nat.pow_succ] at hle2
            rw [Nat.zero_mul]
            generalize 10 ^ (9 * n') = Q at *
            generalize 10 ^ pl = R at *
            generalize odd * 5 ^ (p + pl) = N at *
            unfold dist; omega
          · unfold smallDigits
            rw [if_neg (by simp), pad_flatten, hp, Int.toNat_natCast, places_zero 10 (by decide)]
  unfold fixedSmall at ho
  have hie : ∃ base e : Nat, ifrexp m = (base, -(e : Int)) := by
    by_cases h0 : m = 0
    · exact ⟨0, 0, by rw [h0]; rfl⟩
    · obtain ⟨odd, e, i1, _⟩ := ifrexp_small m (by omega) hx
      exact ⟨odd, e, i1⟩
  obtain ⟨base, e, hie⟩ := hie
  rw [hie] at ho
  simp only at ho
  unfold commonFixedSmall at ho
  rw [pointed_eq h p hp, signchar_eq h, hp, Int.neg_neg, Int.toNat_natCast] at ho
  simp only at ho
  cases hch : chk32 ((signF d neg).length + 1 + (point d p).length + (p : Int)) with
  | none => rw [hch] at ho; simp at ho
  | some length =>
    have hlen : length = (signF d neg).length + 1 + (point d p).length + (p : Int) := by
      unfold chk32 at hch
      split at hch
      · simpa using hch.symm
      · simp at hch
    rw [hch] at ho
    simp only at ho
    cases hsc : limbsScal5n (fivesToLimbs e + 2) (limbsSet18 base) e with
    | mk f r =>
      obtain ⟨big, n⟩ := r
      rw [hsc] at ho
      simp only at ho
      cases hpr : limbsPlacedRint big n ((e : Int) - p) with
      | none => rw [hpr] at ho; simp at ho
      | some r2 =>
        obtain ⟨big', limbs⟩ := r2
        rw [hpr] at ho
        simp only [Option.some.injEq] at ho
        obtain ⟨P, m1, m2, m3⟩ := main base e hie f big n big' limbs hsc hpr
        have hq : numeral 10 false (P / 10 ^ p) ++ point d p ++ places 10 false p P = 48 :: (point d p ++ places 10 false p P) := by
          rw [Nat.div_eq_of_lt m2, numeral_small 10 false 0 (by decide)]; rfl
        have hlay := small_layout h (signF d neg) (point d p) (smallDigits sp e ((e : Int) - p) big' limbs).2 length (by
          rw [m3, hlen]; simp only [List.length_cons, List.length_append, places_length]; omega)
        rw [m3, ← hq] at hlay
        refine ⟨P, m1, ?_, ?_, ?_⟩
        · rw [← ho]; exact hlay.1
        · rw [← ho]; exact hlay.2
        · rw [← ho]

end Verif.Printf
