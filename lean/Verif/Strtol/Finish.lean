import Verif.Strtol.Parse

/-!
# The final step of `parseint_`, and `ATOI`
-/

namespace Verif.Strtol

theorem pow_pred (N : Nat) (hN : 1 ≤ N) : (2 : Nat) ^ N = 2 * 2 ^ (N - 1) := by
  obtain ⟨k, rfl⟩ : ∃ k, N = k + 1 := ⟨N - 1, by omega⟩
  rw [Nat.pow_succ, Nat.add_sub_cancel, Nat.mul_comm]

theorem finish_signed (N : Nat) (hN : 1 ≤ N) (neg : Bool) (acc : Acc) (v stop : Nat) (h : Rep N acc v)
    (hmin : neg = true → v ≠ 2 ^ (N - 1)) :
    finish N true neg (2 ^ (N - 1) - 1) acc stop =
      some (if (if neg then -(v : Int) else v) < -2 ^ (N - 1) then ⟨-2 ^ (N - 1), stop, true⟩
        else if 2 ^ (N - 1) ≤ (if neg then -(v : Int) else v) then ⟨2 ^ (N - 1) - 1, stop, true⟩
        else ⟨if neg then -(v : Int) else v, stop, false⟩) := by
  obtain ⟨mag, ov⟩ := acc
  unfold Rep at h
  unfold finish toInteger
  simp only [and_true, true_and, if_true] at h ⊢
  have e2 : (2 : Nat) ^ N = 2 * 2 ^ (N - 1) := pow_pred N hN
  have e2i : (2 : Int) ^ N = 2 * 2 ^ (N - 1) := by exact_mod_cast e2
  have e3 : (2 : Int) ^ (N - 1) = ((2 ^ (N - 1) : Nat) : Int) := by push_cast; rfl
  rw [e2] at h
  rw [e2i, e2, e3]
  have hp : 0 < 2 ^ (N - 1) := Nat.two_pow_pos _
  generalize 2 ^ (N - 1) = M at *
  cases ov <;> simp only [true_implies, Bool.false_eq_true, false_implies, true_and, and_true, reduceCtorEq, false_or, true_or, if_true] at h ⊢
  · obtain ⟨rfl, hlt⟩ := h
    cases neg <;> simp only [true_implies, Bool.false_eq_true, if_true, if_false] at hmin ⊢
    · by_cases h1 : M - 1 < mag
      · have h2 : ¬ ((mag : Int) < -(M : Int)) := by omega
        have h3 : (M : Int) ≤ mag := by omega
        have h4 : ¬ (M ≤ M - 1) := by omega
        simp only [h1, if_true, h2, if_false, h3, h4]
        congr 2; omega
      · have h2 : ¬ ((mag : Int) < -(M : Int)) := by omega
        have h3 : ¬ ((M : Int) ≤ mag) := by omega
        have h4 : ¬ (M ≤ mag) := by omega
        have h5 : -(M : Int) ≤ 1 * (mag : Int) ∧ 1 * (mag : Int) < M := by omega
        simp only [h1, if_false, h2, h3, h4, h5, and_self, if_true]
        congr 2; omega
    · have e : M - 1 + 1 = M := by omega
      rw [e]
      by_cases h1 : M < mag
      · have h2 : (-(mag : Int)) < -(M : Int) := by omega
        have h4 : (2 * M - M) % (2 * M) = M := by
          rw [show 2 * M - M = M by omega]; exact Nat.mod_eq_of_lt (by omega)
        simp only [h1, if_true, h2, h4, Nat.le_refl]
        congr 2; omega
      · have h2 : ¬ ((-(mag : Int)) < -(M : Int)) := by omega
        have h3 : ¬ ((M : Int) ≤ -(mag : Int)) := by omega
        have h4 : ¬ (M ≤ mag) := by omega
        have h5 : -(M : Int) ≤ -1 * (mag : Int) ∧ -1 * (mag : Int) < M := by omega
        simp only [h1, if_false, h2, h3, h4, h5, and_self, if_true]
        congr 2; omega
  · cases neg <;> simp only [true_implies, Bool.false_eq_true, if_true, if_false] at hmin ⊢
    · have h2 : ¬ ((v : Int) < -(M : Int)) := by omega
      have h3 : (M : Int) ≤ v := by omega
      have h4 : ¬ (M ≤ M - 1) := by omega
      simp only [h2, if_false, h3, h4, if_true]
      congr 2; omega
    · have e : M - 1 + 1 = M := by omega
      rw [e]
      have h2 : (-(v : Int)) < -(M : Int) := by omega
      have h4 : (2 * M - M) % (2 * M) = M := by
        rw [show 2 * M - M = M by omega]; exact Nat.mod_eq_of_lt (by omega)
      simp only [if_true, h2, h4, Nat.le_refl]
      congr 2; omega

theorem finish_min (N : Nat) (hN : 1 ≤ N) (acc : Acc) (stop : Nat) (h : Rep N acc (2 ^ (N - 1))) :
    finish N true true (2 ^ (N - 1) - 1) acc stop = none := by
  obtain ⟨mag, ov⟩ := acc
  unfold Rep at h
  unfold finish toInteger
  simp only [and_true, true_and, if_true] at h ⊢
  have e2 : (2 : Nat) ^ N = 2 * 2 ^ (N - 1) := pow_pred N hN
  have e2i : (2 : Int) ^ N = 2 * 2 ^ (N - 1) := by exact_mod_cast e2
  have e3 : (2 : Int) ^ (N - 1) = ((2 ^ (N - 1) : Nat) : Int) := by push_cast; rfl
  rw [e2] at h
  rw [e2i, e2, e3]
  have hp : 0 < 2 ^ (N - 1) := Nat.two_pow_pos _
  generalize 2 ^ (N - 1) = M at *
  cases ov <;> simp only [true_implies, Bool.false_eq_true, false_implies, true_and, and_true, reduceCtorEq, false_or, true_or, if_true] at h ⊢
  · obtain ⟨rfl, hlt⟩ := h
    have e : mag - 1 + 1 = mag := by omega
    have h5 : ¬ (-(mag : Int) ≤ -1 * ((mag : Int) - 2 * mag) ∧ -1 * ((mag : Int) - 2 * mag) < mag) := by omega
    simp only [e, Nat.lt_irrefl, if_false, Nat.le_refl, if_true, h5]
  · omega

theorem finish_unsigned (N : Nat) (neg : Bool) (acc : Acc) (v stop : Nat) (h : Rep N acc v) :
    finish N false neg (2 ^ N - 1) acc stop =
      some (if 2 ^ N ≤ v then ⟨2 ^ N - 1, stop, true⟩
        else ⟨(if neg then -(v : Int) else v) % 2 ^ N, stop, false⟩) := by
  obtain ⟨mag, ov⟩ := acc
  unfold Rep at h
  unfold finish toInteger
  simp only [Bool.false_eq_true, and_false, false_and, if_false] at h ⊢
  have e3 : (2 : Int) ^ N = ((2 ^ N : Nat) : Int) := by push_cast; rfl
  rw [e3]
  have hp : 0 < 2 ^ N := Nat.two_pow_pos _
  generalize 2 ^ N = M at *
  cases ov <;> simp only [true_implies, Bool.false_eq_true, false_implies, true_and, and_true, reduceCtorEq, false_or, true_or, if_true] at h ⊢
  · obtain ⟨rfl, hlt⟩ := h
    have h1 : ¬ (M - 1 < mag) := by omega
    have h2 : ¬ (M ≤ mag) := by omega
    simp only [h1, h2, if_false]
    congr 2
    cases neg
    · simp
    · simp only [if_true]
      rw [Int.natCast_emod, Int.natCast_mul]
      have : ((M - 1 : Nat) : Int) * mag = -(mag : Int) + M * mag := by
        rw [show ((M - 1 : Nat) : Int) = M - 1 by omega, Int.sub_mul]; omega
      rw [this, Int.add_mul_emod_self_left]
  · simp only [h, if_true]
    congr 2; omega

/-! ## `ATOI` -/

theorem atoi_digit (c : Int) (h : -128 ≤ c ∧ c ≤ 127) :
    ((u32 c + 4294967248) % 4294967296 < 10 ↔ IsDigit 10 c) ∧
    (∀ d, digitVal c = some d → d < 10 → (u32 c + 4294967248) % 4294967296 = d) := by
  have hu : u32 c = (if 0 ≤ c then c.toNat else (c + 4294967296).toNat) := by unfold u32; split <;> omega
  have hdv : ∀ d, digitVal c = some d → d < 10 → 48 ≤ c ∧ c ≤ 57 ∧ d = (c - 48).toNat := by
    intro d e hd
    unfold digitVal at e
    split at e
    · simp at e; omega
    · split at e
      · simp at e; omega
      · split at e
        · simp at e; omega
        · simp at e
  refine ⟨⟨?_, ?_⟩, ?_⟩
  · intro hlt
    have h2 : 48 ≤ c ∧ c ≤ 57 := by rw [hu] at hlt; split at hlt <;> omega
    refine ⟨(c - 48).toNat, ?_, by omega⟩
    unfold digitVal; simp [h2]
  · rintro ⟨d, e, hd⟩
    obtain ⟨h1, h2, rfl⟩ := hdv d e hd
    rw [hu, if_pos (by omega)]; omega
  · intro d e hd
    obtain ⟨h1, h2, rfl⟩ := hdv d e hd
    rw [hu, if_pos (by omega)]; omega

theorem value_mono (digits : List Int) (v : Nat) :
    v ≤ digits.foldl (fun v c => v * 10 + (digitVal c).getD 0) v := by
  induction digits generalizing v with
  | nil => simp
  | cons c s ih => exact Nat.le_trans (show v ≤ v * 10 + (digitVal c).getD 0 by omega) (ih _)

/-- On values that fit, the loop computes the value. -/
theorem atoiLoop_eq (N : Nat) (hN : N = 32 ∨ N = 64) (s digits : List Int)
    (hs : ∀ c ∈ s, -128 ≤ c ∧ c ≤ 127) (hp : digits <+: s) (hd : ∀ c ∈ digits, IsDigit 10 c)
    (hend : ∀ c t, s = digits ++ c :: t → ¬ IsDigit 10 c) (v : Nat)
    (hv : digits.foldl (fun v c => v * 10 + (digitVal c).getD 0) v < 2 ^ (N - 1)) :
    atoiLoop N s v = some (digits.foldl (fun v c => v * 10 + (digitVal c).getD 0) v : Nat) := by
  induction digits generalizing s v with
  | nil =>
    cases s with
    | nil => simp [atoiLoop]
    | cons c t =>
      have := hend c t rfl
      have hc := (atoi_digit c (hs c (by simp))).1
      have h2 : ¬ ((u32 c + 4294967248) % 4294967296 < 10) := fun h => this (hc.mp h)
      simp [atoiLoop, h2]
  | cons c digits ih =>
    cases s with
    | nil => simp at hp
    | cons c' t =>
      obtain ⟨rfl, hp2⟩ := List.cons_prefix_cons.mp hp
      have hdc := hd c (by simp)
      have hc := atoi_digit c (hs c (by simp))
      have h2 := hc.1.mpr hdc
      obtain ⟨d, e, hd10⟩ := hdc
      have h3 := hc.2 d e hd10
      rw [h3] at h2
      simp only [List.foldl_cons, e, Option.getD_some] at hv ⊢
      have hm := value_mono digits (v * 10 + d)
      have hlt : v * 10 + d < 2 ^ (N - 1) := Nat.lt_of_le_of_lt hm hv
      have hrec := ih t (fun c hc => hs c (by simp [hc])) hp2 (fun c hc => hd c (by simp [hc]))
        (fun c' t' e => hend c' t' (by rw [e]; rfl)) (v * 10 + d) hv
      have ec : ((v * 10 + d : Nat) : Int) = 10 * (v : Int) + d := by push_cast; omega
      rw [ec] at hrec
      simp only [atoiLoop, h3, h2, if_true]
      rcases hN with rfl | rfl
      · have a1 : ¬¬ (-2 ^ (32 - 1) ≤ 10 * (v : Int) ∧ 10 * (v : Int) < 2 ^ (32 - 1)) := by
          simp only [Nat.reduceSub, Nat.reducePow, Int.reducePow, Int.reduceNeg] at hlt ⊢; omega
        rw [if_neg a1, if_pos rfl]
        have a2 : s32 (u32 (10 * (v : Int) + d)) = 10 * (v : Int) + d := by
          simp only [Nat.reduceSub, Nat.reducePow] at hlt
          unfold s32 u32; split <;> omega
        rw [a2]; exact hrec
      · have a1 : ¬¬ (-2 ^ (64 - 1) ≤ 10 * (v : Int) ∧ 10 * (v : Int) < 2 ^ (64 - 1)) := by
          simp only [Nat.reduceSub, Nat.reducePow, Int.reducePow, Int.reduceNeg] at hlt ⊢; omega
        rw [if_neg a1, if_neg (by decide)]
        have a2 : -2 ^ (64 - 1) ≤ 10 * (v : Int) + d ∧ 10 * (v : Int) + d < 2 ^ (64 - 1) := by
          simp only [Nat.reduceSub, Nat.reducePow, Int.reducePow, Int.reduceNeg] at hlt ⊢; omega
        rw [if_pos a2]; exact hrec

/-- `ATOI` on a string whose longest decimal subject sequence has a value that fits. -/
theorem atoi_eq (N : Nat) (hN : N = 32 ∨ N = 64) (blank r : List Int) (hs : IsString (blank ++ r)) (hb : Blank blank)
    (hr : ∀ c ∈ r.head?, ¬ White c) (w : List Int) (neg : Bool) (radix : Nat) (digits : List Int)
    (hL : Longest 10 r w neg radix digits) (hv : value 10 digits < 2 ^ (N - 1)) :
    atoi N (blank ++ r) = some (denoted neg 10 digits) := by
  have hs' : ∀ c ∈ blank ++ r, -128 ≤ c ∧ c ≤ 127 := fun c hc => ⟨(hs c hc).1, (hs c hc).2.1⟩
  obtain ⟨sg, r1, neg0, rfl, hsg, h0⟩ := split_sign r
  obtain ⟨hpfx, hS, hmax⟩ := hL
  obtain ⟨rfl, pre, rfl, hp1, hpre, hradix, hne, hd⟩ := subject_sign hsg h0 hpfx hS
  have hs1 : ∀ c ∈ r1, -128 ≤ c ∧ c ≤ 127 := fun c hc => hs' c (by simp [hc])
  have hpn : pre = [] := by rcases hpre with h | ⟨h, -⟩; exact h; omega
  subst hpn
  have hr10 : radix = 10 := by rw [hradix]; simp
  subst hr10
  rw [List.nil_append] at hp1 hmax
  have hend : ∀ c t, r1 = digits ++ c :: t → ¬ IsDigit 10 c := by
    intro c t e hc
    have := hmax (sg ++ [] ++ (digits ++ [c])) neg 10 (digits ++ [c]) (by
      rw [List.append_nil, e]
      refine (List.prefix_append_right_inj _).mpr ((List.prefix_append_right_inj _).mpr ?_)
      exact (List.prefix_cons_inj _).mpr List.nil_prefix)
      (.mk sg [] _ neg 10 hsg (.inl rfl) (by simp) (by simp) (by
        intro c' hc'
        rcases List.mem_append.mp hc' with h | h
        · exact hd c' h
        · rw [List.mem_singleton.mp h]; exact hc))
    simp at this
    omega
  have hloop := atoiLoop_eq N hN r1 digits hs1 hp1 hd hend 0 hv
  have hskip : skipSpace (blank ++ (sg ++ r1)) = some (sg ++ r1, blank.length) := skip_eq _ _ hb hr hs'
  unfold atoi
  rw [hskip]
  simp only [Option.bind_eq_bind, Option.bind_some]
  have hpow : (2 : Int) ^ (N - 1) = ((2 ^ (N - 1) : Nat) : Int) := by push_cast; rfl
  have hl0 : atoiLoop N r1 (0 : Nat) = some (value 10 digits : Nat) := hloop
  rw [Int.natCast_zero] at hl0
  unfold denoted
  rw [hpow]
  generalize value 10 digits = v at *
  generalize 2 ^ (N - 1) = M at *
  rcases hsg with ⟨rfl, rfl⟩ | ⟨rfl, rfl⟩ | ⟨rfl, rfl⟩
  · obtain ⟨n1, n2⟩ := h0 rfl
    have h5 : -(M : Int) ≤ 1 * (v : Int) ∧ 1 * (v : Int) < M := by omega
    simp only [List.nil_append, n1, n2, or_self, if_false, hl0, Option.bind_some, h5, and_self, if_true]
    simp; omega
  · have hc : cur ([43] ++ r1) = 43 := rfl
    have ht : ([43] ++ r1).tail = r1 := rfl
    have h5 : -(M : Int) ≤ 1 * (v : Int) ∧ 1 * (v : Int) < M := by omega
    simp only [hc, ht, show ((43 : Int) = 45) = False by simp, or_true, if_true, if_false, hl0, Option.bind_some, h5,
      and_self]
    simp; omega
  · have hc : cur ([45] ++ r1) = 45 := rfl
    have ht : ([45] ++ r1).tail = r1 := rfl
    have h5 : -(M : Int) ≤ -1 * (v : Int) ∧ -1 * (v : Int) < M := by omega
    simp only [hc, ht, show ((45 : Int) = 43) = False by simp, or_false, if_true, hl0, Option.bind_some, h5, and_self]
    simp; omega

end Verif.Strtol
