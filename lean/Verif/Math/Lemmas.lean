import Verif.Math.Model
import Verif.Math.Spec

/-! # Lemmas on patterns, representable integers and exact operations -/

namespace Verif.Float

/-- A format with reasonable sizes. -/
structure Fmt.Ok (F : Fmt) : Prop where
  f : 2 ≤ F.f
  w : 3 ≤ F.w

theorem ok32 : b32.Ok := ⟨by decide, by decide⟩
theorem ok64 : b64.Ok := ⟨by decide, by decide⟩
theorem ok128 : b128.Ok := ⟨by decide, by decide⟩

namespace Fmt
variable {F : Fmt}

theorem signBit_pos : 0 < F.signBit := Nat.two_pow_pos _

theorem inf_add : F.inf + 2 ^ F.f = F.signBit := by
  unfold inf signBit
  have : 2 ^ (F.f + F.w) = 2 ^ F.w * 2 ^ F.f := by rw [Nat.pow_add, Nat.mul_comm]
  rw [this, Nat.sub_mul, Nat.one_mul]
  have := Nat.mul_le_mul_right (2 ^ F.f) (Nat.two_pow_pos F.w)
  omega

theorem inf_lt : F.inf < F.signBit := by
  have := inf_add (F := F)
  have := Nat.two_pow_pos F.f
  omega

theorem abs_lt (x : Nat) : F.abs x < F.signBit := Nat.mod_lt _ signBit_pos

theorem abs_of_lt {x : Nat} (h : x < F.signBit) : F.abs x = x := Nat.mod_eq_of_lt h

theorem neg_of_lt {x : Nat} (h : x < F.signBit) : F.neg x = false := by
  unfold neg; rw [Nat.div_eq_of_lt h]; rfl

theorem abs_abs (x : Nat) : F.abs (F.abs x) = F.abs x := abs_of_lt (abs_lt x)

theorem neg_abs (x : Nat) : F.neg (F.abs x) = false := neg_of_lt (abs_lt x)

theorem abs_pack {s : Bool} {r : Nat} (h : r < F.signBit) : F.abs (F.pack s r) = r := by
  unfold abs pack
  cases s
  · simp [Nat.mod_eq_of_lt h]
  · simp [Nat.mod_eq_of_lt h]

theorem neg_pack {s : Bool} {r : Nat} (h : r < F.signBit) : F.neg (F.pack s r) = s := by
  unfold neg pack
  cases s
  · simp [Nat.div_eq_of_lt h]
  · have := signBit_pos (F := F)
    simp only [if_true, decide_eq_true_eq]
    rw [Nat.add_div_left _ this, Nat.div_eq_of_lt h]

theorem pack_lt {s : Bool} {r : Nat} (h : r < F.signBit) : F.pack s r < 2 * F.signBit := by
  unfold pack; cases s <;> simp <;> omega

theorem pack_self {x : Nat} (h : x < 2 * F.signBit) : F.pack (F.neg x) (F.abs x) = x := by
  unfold pack neg abs
  have hp := signBit_pos (F := F)
  have := Nat.div_add_mod x F.signBit
  have hq : x / F.signBit < 2 := (Nat.div_lt_iff_lt_mul hp).2 (by omega)
  rcases Nat.lt_or_ge (x / F.signBit) 1 with h1 | h1
  · have e : x / F.signBit = 0 := Nat.lt_one_iff.1 h1
    rw [e] at this ⊢; simp; omega
  · have e : x / F.signBit = 1 := Nat.le_antisymm (Nat.le_of_lt_succ hq) h1
    rw [e] at this ⊢; simp; omega

theorem neg_iff {x : Nat} (h : x < 2 * F.signBit) : F.neg x = true ↔ F.signBit ≤ x := by
  have hp := signBit_pos (F := F)
  unfold neg
  have hq : x / F.signBit < 2 := (Nat.div_lt_iff_lt_mul hp).2 (by omega)
  rw [Nat.mod_eq_of_lt hq, decide_eq_true_eq]
  constructor
  · intro e
    have := Nat.div_add_mod x F.signBit
    rw [e] at this; omega
  · intro e
    have := (Nat.le_div_iff_mul_le hp).2 (show 1 * F.signBit ≤ x by omega)
    omega

theorem val_nonneg {x : Nat} (h : F.neg x = false) : F.val x = F.mag (F.abs x) := by unfold val; simp [h]

theorem val_of_lt {x : Nat} (h : x < F.signBit) : F.val x = F.mag x := by
  rw [val_nonneg (neg_of_lt h), abs_of_lt h]

theorem val_pack {s : Bool} {r : Nat} (h : r < F.signBit) : F.val (F.pack s r) = if s then -(F.mag r : Int) else F.mag r := by
  unfold val; rw [abs_pack h, neg_pack h]

theorem mag_eq_zero {n : Nat} : F.mag n = 0 ↔ n = 0 := by
  constructor
  · intro h
    exact F.mag_inj (by rw [h, F.mag_zero])
  · intro h; rw [h, F.mag_zero]

theorem mag_pos {n : Nat} (h : 0 < n) : 0 < F.mag n := by
  rcases Nat.eq_zero_or_pos (F.mag n) with h' | h'
  · have := mag_eq_zero.1 h'; omega
  · exact h'

theorem mag_lt_iff {m n : Nat} : F.mag m < F.mag n ↔ m < n := by
  constructor
  · intro h
    rcases Nat.lt_or_ge m n with h' | h'
    · exact h'
    · have := F.mag_mono h'; omega
  · exact fun h => F.mag_strictMono h

theorem mag_le_iff {m n : Nat} : F.mag m ≤ F.mag n ↔ m ≤ n := by
  have := mag_lt_iff (F := F) (m := n) (n := m)
  omega

theorem natAbs_val (x : Nat) : (F.val x).natAbs = F.mag (F.abs x) := by
  unfold val; split <;> omega

theorem isFin_iff {x : Nat} : F.isFin x = true ↔ F.abs x < F.inf := by unfold isFin; simp
theorem isNaN_iff {x : Nat} : F.isNaN x = true ↔ F.inf < F.abs x := by unfold isNaN; simp
theorem isNaN_false {x : Nat} : F.isNaN x = false ↔ F.abs x ≤ F.inf := by unfold isNaN; simp

theorem not_nan_of_fin {x : Nat} (h : F.abs x < F.inf) : F.isNaN x = false := isNaN_false.2 (by omega)

theorem mag_two_pow_f : F.mag (2 ^ F.f) = 2 ^ F.f := by
  have := F.mag_mk 1 (2 ^ F.f) (by omega) (by omega) (by rw [Nat.pow_succ]; have := Nat.two_pow_pos F.f; omega)
  simpa using this

/-- Small patterns are their own magnitudes. -/
theorem mag_tiny {n : Nat} (h : n ≤ 2 ^ (F.f + 1)) : F.mag n = n := by
  rcases Nat.lt_or_ge n (2 ^ F.f) with h1 | h1
  · exact F.mag_small h1
  · rw [Nat.pow_succ] at h
    rcases Nat.lt_or_ge n (2 * 2 ^ F.f) with h2 | h2
    · have := F.mag_mk 1 n (by omega) h1 (by rw [Nat.pow_succ]; omega)
      rw [show 1 * 2 ^ F.f + (n - 2 ^ F.f) = n by omega] at this
      simpa using this
    · have : n = 2 * 2 ^ F.f := by omega
      have h3 := F.mag_mk 2 (2 ^ F.f) (by omega) (by omega) (by rw [Nat.pow_succ]; have := Nat.two_pow_pos F.f; omega)
      rw [Nat.sub_self, Nat.add_zero] at h3
      rw [this, h3]; simp; omega

/-- An integer with at most `f + 1` significant bits below the overflow threshold is a magnitude. -/
theorem representable {m e : Nat} (hm : m ≤ 2 ^ (F.f + 1)) (hlt : m * 2 ^ e ≤ F.mag F.inf) : ∃ n, n ≤ F.inf ∧ F.mag n = m * 2 ^ e := by
  have hex : ∃ n, F.mag n = m * 2 ^ e := by
    rcases Nat.lt_or_ge m (2 ^ (F.f + 1)) with hm' | hm'
    · -- normalise
      by_cases h0 : m = 0
      · exact ⟨0, by rw [h0, F.mag_zero, Nat.zero_mul]⟩
      obtain ⟨h1, h2⟩ := log2_bounds h0
      have hl : Nat.log2 m ≤ F.f := by have := log2_lt h0 hm'; omega
      by_cases hs : F.f - Nat.log2 m ≤ e
      · -- m * 2^(f - log2 m) is a full significand
        refine ⟨(e - (F.f - Nat.log2 m) + 1) * 2 ^ F.f + (m * 2 ^ (F.f - Nat.log2 m) - 2 ^ F.f), ?_⟩
        rw [F.mag_mk _ _ (by omega)]
        · rw [Nat.mul_assoc, ← Nat.pow_add]
          congr 2; omega
        · have := Nat.mul_le_mul_right (2 ^ (F.f - Nat.log2 m)) h1
          rw [← Nat.pow_add, show Nat.log2 m + (F.f - Nat.log2 m) = F.f by omega] at this
          exact this
        · have := Nat.mul_lt_mul_of_pos_right h2 (Nat.two_pow_pos (F.f - Nat.log2 m))
          rw [← Nat.pow_add, show Nat.log2 m + 1 + (F.f - Nat.log2 m) = F.f + 1 by omega] at this
          exact this
      · refine ⟨m * 2 ^ e, F.mag_small ?_⟩
        have a1 := Nat.mul_lt_mul_of_pos_right h2 (Nat.two_pow_pos e)
        rw [← Nat.pow_add] at a1
        have := Nat.pow_le_pow_right (n := 2) (by omega) (show Nat.log2 m + 1 + e ≤ F.f by omega)
        omega
    · have : m = 2 ^ (F.f + 1) := by omega
      refine ⟨(e + 2) * 2 ^ F.f + (2 ^ F.f - 2 ^ F.f), ?_⟩
      rw [F.mag_mk _ _ (by omega) (by omega) (by rw [Nat.pow_succ]; have := Nat.two_pow_pos F.f; omega), this, ← Nat.pow_add, ← Nat.pow_add]
      congr 1; omega
  obtain ⟨n, hn⟩ := hex
  exact ⟨n, mag_le_iff.1 (by rw [hn]; exact hlt), hn⟩

/-- The magnitude of a pattern is an integer of at most `f + 1` bits times its ulp. -/
theorem mag_form (n : Nat) : ∃ m, F.mag n = m * F.ulp n ∧ m < 2 ^ (F.f + 1) := by
  have hp := Nat.two_pow_pos F.f
  by_cases h : n < 2 ^ F.f
  · refine ⟨n, ?_, by rw [Nat.pow_succ]; omega⟩
    rw [F.mag_small h]; unfold ulp; rw [Nat.div_eq_of_lt h]; simp
  · refine ⟨2 ^ F.f + n % 2 ^ F.f, F.mag_normal (by omega), ?_⟩
    have := Nat.mod_lt n hp
    rw [Nat.pow_succ]; omega

/-- If `d` is a multiple of the ulp of `n` and not larger than the magnitude of a pattern `k` with the
same ulp times `2`, it is representable. -/
theorem representable_mul {d e : Nat} (h1 : 2 ^ e ∣ d) (h2 : d ≤ 2 ^ (F.f + 1) * 2 ^ e) (h3 : d ≤ F.mag F.inf) :
    ∃ n, n ≤ F.inf ∧ F.mag n = d := by
  obtain ⟨m, rfl⟩ := h1
  have := Nat.two_pow_pos e
  obtain ⟨n, hn, hm⟩ := representable (F := F) (m := m) (e := e)
    (Nat.le_of_mul_le_mul_left (Nat.le_trans h2 (Nat.le_of_eq (Nat.mul_comm _ _))) this)
    (by rw [Nat.mul_comm]; exact h3)
  exact ⟨n, hn, by rw [hm, Nat.mul_comm]⟩

theorem ulp_dvd_mag (n : Nat) : F.ulp n ∣ F.mag n := by
  obtain ⟨m, hm, _⟩ := mag_form (F := F) n
  exact ⟨m, by rw [hm, Nat.mul_comm]⟩

theorem ulp_dvd_ulp {m n : Nat} (h : m ≤ n) : F.ulp m ∣ F.ulp n := by
  unfold ulp
  exact Nat.pow_dvd_pow 2 (Nat.sub_le_sub_right (Nat.div_le_div_right h) 1)

/-- The exact difference of two magnitudes within a factor of two is a magnitude (Sterbenz). -/
theorem sterbenz {a b : Nat} (hb : b ≤ a) (h : F.mag a ≤ 2 * F.mag b) (ha : a ≤ F.inf) :
    ∃ n, n ≤ F.inf ∧ F.mag n = F.mag a - F.mag b := by
  have hu : F.ulp b ∣ F.mag a - F.mag b :=
    Nat.dvd_sub (Nat.dvd_trans (ulp_dvd_ulp hb) (ulp_dvd_mag a)) (ulp_dvd_mag b)
  obtain ⟨m, hm, hlt⟩ := mag_form (F := F) b
  have hle : F.mag a - F.mag b ≤ F.mag b := by omega
  unfold ulp at hu hm
  exact representable_mul hu (by
    have := Nat.mul_le_mul_right (2 ^ (b / 2 ^ F.f - 1)) (Nat.le_of_lt hlt)
    omega) (by have := F.mag_mono ha; omega)

/-- The double of a magnitude, if it does not overflow. -/
theorem representable_double {a : Nat} (h : 2 * F.mag a ≤ F.mag F.inf) : ∃ n, n ≤ F.inf ∧ F.mag n = 2 * F.mag a := by
  obtain ⟨m, hm, hlt⟩ := mag_form (F := F) a
  unfold ulp at hm
  obtain ⟨n, hn, he⟩ := representable (F := F) (m := m) (e := a / 2 ^ F.f - 1 + 1) (by omega) (by
    rw [Nat.pow_succ, ← Nat.mul_assoc, ← hm]; omega)
  exact ⟨n, hn, by rw [he, Nat.pow_succ, ← Nat.mul_assoc, ← hm]; omega⟩

end Fmt
end Verif.Float
