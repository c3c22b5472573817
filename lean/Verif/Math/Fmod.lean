import Verif.Math.Lemmas

/-! # The remainder kernel of `fmod` -/

namespace Verif.Math
open Verif.Float

theorem ctzGo_dvd (k x : Nat) : 2 ^ ctzGo k x ∣ x := by
  induction k generalizing x with
  | zero => exact ⟨x, by simp [ctzGo]⟩
  | succ k ih =>
    unfold ctzGo
    by_cases h : x % 2 = 1
    · rw [if_pos h]; exact ⟨x, by simp⟩
    · rw [if_neg h]
      obtain ⟨y, hy⟩ := ih (x / 2)
      refine ⟨y, ?_⟩
      rw [Nat.pow_succ, Nat.mul_assoc, Nat.mul_left_comm, ← hy]
      omega

theorem shl_eq {W a s : Nat} (hs : s < W) (h : a * 2 ^ s < 2 ^ W) : shl W a s = some (a * 2 ^ s) := by
  unfold shl; rw [if_pos hs, Nat.mod_eq_of_lt h]

theorem urem_eq {a b : Nat} (h : 0 < b) : urem a b = some (a % b) := by unfold urem; rw [if_neg (by omega)]

theorem clz_eq {W x : Nat} (h : 0 < x) : clz W x = some (W - 1 - Nat.log2 x) := by unfold clz; rw [if_neg (by omega)]

theorem mul_pow_mod (r d a b : Nat) : ((r * 2 ^ a) % d * 2 ^ b) % d = (r * 2 ^ (a + b)) % d := by
  rw [Nat.mod_mul_mod, Nat.mul_assoc, ← Nat.pow_add]

theorem shl_space {r den : Nat} (hd : den < 2 ^ 63) (hr : r < den) : r * 2 ^ (63 - Nat.log2 den) < 2 ^ 64 := by
  have h0 : den ≠ 0 := by omega
  obtain ⟨_, h2⟩ := log2_bounds h0
  have hl := log2_lt h0 hd
  have := Nat.mul_lt_mul_of_pos_right (show r < 2 ^ (Nat.log2 den + 1) by omega) (Nat.two_pow_pos (63 - Nat.log2 den))
  rw [← Nat.pow_add, show Nat.log2 den + 1 + (63 - Nat.log2 den) = 64 by omega] at this
  exact this

theorem remLoop_eq {den : Nat} (h0 : 0 < den) (hd : den < 2 ^ 63) (fuel exp r : Nat) (hf : exp < fuel) (hr : r < den) :
    ∃ r' e', remLoop den (63 - Nat.log2 den) fuel exp r = some (r', e') ∧ r' < den ∧ e' < 63 - Nat.log2 den ∧
      (r' * 2 ^ e') % den = (r * 2 ^ exp) % den := by
  have hsp : 0 < 63 - Nat.log2 den := by
    have := log2_lt (show den ≠ 0 by omega) hd; omega
  induction fuel generalizing exp r with
  | zero => omega
  | succ fuel ih =>
    unfold remLoop
    by_cases h : 63 - Nat.log2 den ≤ exp
    · rw [if_pos h, shl_eq (by omega) (shl_space hd hr), Option.bind_some, urem_eq h0, Option.bind_some]
      obtain ⟨r', e', h1, h2, h3, h4⟩ := ih (exp - (63 - Nat.log2 den)) (r * 2 ^ (63 - Nat.log2 den) % den) (by omega) (Nat.mod_lt _ h0)
      refine ⟨r', e', h1, h2, h3, ?_⟩
      rw [h4, mul_pow_mod]
      congr 3; omega
    · rw [if_neg h]
      exact ⟨r, exp, rfl, hr, by omega, rfl⟩

/-- double/fmod.h:17-28 computes `a * 2^exp mod b`. -/
theorem remshift_eq {a b exp : Nat} (hb0 : 0 < b) (hb : b < 2 ^ 63) : remshift a b exp = some (a * 2 ^ exp % b) := by
  unfold remshift
  have hctz : ctz64 b = some (ctzGo 64 b) := by unfold ctz64; rw [if_neg (by omega)]
  rw [hctz, Option.bind_some]
  simp only
  have hdvd := ctzGo_dvd 64 b
  generalize ctzGo 64 b = t at *
  generalize hs : (if t < exp then t else exp) = s
  have hs1 : s ≤ t := by split at hs <;> omega
  have hs2 : s ≤ exp := by split at hs <;> omega
  have hsd : 2 ^ s ∣ b := Nat.dvd_trans (Nat.pow_dvd_pow 2 hs1) hdvd
  obtain ⟨den, rfl⟩ := hsd
  have hps := Nat.two_pow_pos s
  rw [Nat.mul_div_cancel_left _ hps]
  have hd0 : 0 < den := Nat.pos_of_mul_pos_left hb0
  have hd : den < 2 ^ 63 := Nat.lt_of_le_of_lt (Nat.le_mul_of_pos_left _ hps) hb
  have hs64 : s < 64 := by
    rcases Nat.lt_or_ge s 64 with h | h
    · exact h
    · exfalso
      have h1 := Nat.pow_le_pow_right (n := 2) (by omega) h
      have h2 : 2 ^ s ≤ 2 ^ s * den := Nat.le_mul_of_pos_right _ hd0
      omega
  rw [urem_eq hd0, Option.bind_some, clz_eq hd0, Option.bind_some]
  obtain ⟨r', e', h1, h2, h3, h4⟩ := remLoop_eq hd0 hd (exp + 1) (exp - s) (a % den) (by omega) (Nat.mod_lt _ hd0)
  rw [show 64 - 1 - Nat.log2 den = 63 - Nat.log2 den by omega, h1, Option.bind_some]
  have h5 : r' * 2 ^ e' < 2 ^ 64 := by
    have := shl_space hd h2
    have := Nat.mul_le_mul_left r' (Nat.pow_le_pow_right (n := 2) (by omega) (Nat.le_of_lt h3))
    omega
  rw [shl_eq (by omega) h5, Option.bind_some, urem_eq hd0, Option.bind_some, h4]
  have h6 : a % den * 2 ^ (exp - s) % den * 2 ^ s = a * 2 ^ exp % (2 ^ s * den) := by
    rw [Nat.mod_mul_mod, show 2 ^ exp = 2 ^ (exp - s) * 2 ^ s by rw [← Nat.pow_add]; congr 1; omega, ← Nat.mul_assoc,
      Nat.mul_comm (2 ^ s) den, Nat.mul_mod_mul_right]
  rw [shl_eq hs64 (by rw [h6]; have := Nat.mod_lt (a * 2 ^ exp) hb0; omega), h6]

theorem remLoopf_eq {b : Nat} (h0 : 0 < b) (hb : b ≤ 2 ^ 32) (n r : Nat) (hr : r < b) : remLoopf b n r = some (r * 2 ^ (32 * n) % b) := by
  induction n generalizing r with
  | zero => simp [remLoopf, Nat.mod_eq_of_lt hr]
  | succ n ih =>
    unfold remLoopf
    rw [shl_eq (by omega) (by omega), Option.bind_some, urem_eq h0, Option.bind_some, ih _ (Nat.mod_lt _ h0), mul_pow_mod,
      show 32 + 32 * n = 32 * (n + 1) by omega]

/-- float/fmodf.h:10-18 computes `a * 2^exp mod b`. -/
theorem remshiftf_eq {a b exp : Nat} (ha : a < 2 ^ 32) (hb0 : 0 < b) (hb : b < 2 ^ 32) : remshiftf a b exp = some (a * 2 ^ exp % b) := by
  unfold remshiftf
  have h1 : a * 2 ^ (exp % 32) < 2 ^ 64 := by
    have := Nat.mul_lt_mul_of_pos_right ha (Nat.two_pow_pos (exp % 32))
    have := Nat.pow_le_pow_right (n := 2) (by omega) (show exp % 32 ≤ 32 by omega)
    have : 2 ^ 32 * 2 ^ (exp % 32) ≤ 2 ^ 32 * 2 ^ 32 := Nat.mul_le_mul_left _ this
    omega
  rw [shl_eq (by omega) h1, Option.bind_some, urem_eq hb0, Option.bind_some,
    remLoopf_eq hb0 (by omega) _ _ (Nat.mod_lt _ hb0), Option.bind_some, mul_pow_mod,
    show exp % 32 + 32 * (exp / 32) = exp by omega,
    Nat.mod_eq_of_lt (Nat.lt_trans (Nat.mod_lt _ hb0) hb)]

/-- The literals are those of the format. -/
structure Lit.Good (L : Lit) : Prop where
  ok : L.fmt.Ok
  wd : L.wd = L.fmt.f + L.fmt.w + 1
  fb : L.fb = L.fmt.f
  min : L.min = 2 ^ L.fmt.f
  inf : L.inf = L.fmt.inf
  pad : L.pad = L.fmt.w
  thr : L.thr = 2 ^ (L.fmt.f + 1)
  e0 : L.e0 + 1 = L.fmt.bias
  half : L.half = L.e0 * 2 ^ L.fmt.f
  sub : L.sub + L.wd = L.fmt.unit + 1
  bias : L.bias = L.fmt.bias
  min2 : L.min2 = 2 ^ (L.fmt.f + 1)
  two : L.two = (L.bias + 1) * 2 ^ L.fmt.f
  four : L.four = (L.bias + 2) * 2 ^ L.fmt.f
  eight : L.eight = (L.bias + 3) * 2 ^ L.fmt.f

theorem good_dbl : dbl.Good := by constructor <;> first | exact ok64 | decide
theorem good_flt : flt.Good := by constructor <;> first | exact ok32 | decide

/-- What the kernel computes. -/
def Rs (L : Lit) (rs : Nat → Nat → Nat → Option Nat) : Prop :=
  ∀ a b exp, a < 2 ^ (L.fmt.f + 1) → 0 < b → b ≤ 2 ^ (L.fmt.f + 1) → rs a b exp = some (a * 2 ^ exp % b)

theorem rs_dbl : Rs dbl remshift := fun _ _ _ _ h0 hb => remshift_eq h0 (by
  have e : dbl.fmt.f + 1 = 53 := rfl
  rw [e] at hb; omega)
theorem rs_flt : Rs flt remshiftf := fun _ _ _ ha h0 hb => by
  have e : flt.fmt.f + 1 = 24 := rfl
  rw [e] at hb ha
  exact remshiftf_eq (by omega) h0 (by omega)

variable {L : Lit}

theorem significand_eq (g : L.Good) (i : Nat) : significand L i = 2 ^ L.fmt.f + i % 2 ^ L.fmt.f := by
  unfold significand
  rw [g.min]
  have h := Nat.two_pow_add_eq_or_of_lt (Nat.mod_lt i (Nat.two_pow_pos L.fmt.f)) 1
  rw [Nat.mul_one] at h
  rw [Nat.or_comm, ← h]

theorem significand_lt (g : L.Good) (i : Nat) : significand L i < 2 ^ (L.fmt.f + 1) := by
  rw [significand_eq g, Nat.pow_succ]
  have := Nat.mod_lt i (Nat.two_pow_pos L.fmt.f)
  omega

theorem mag_significand (g : L.Good) {n : Nat} (h : 2 ^ L.fmt.f ≤ n) : L.fmt.mag n = significand L n * 2 ^ (n / 2 ^ L.fmt.f - 1) := by
  rw [significand_eq g, L.fmt.mag_normal h]

theorem sshl_eq {W a : Nat} {s : Int} (n : Nat) (hs : s = n) (hn : n < W) (h : a * 2 ^ n < 2 ^ (W - 1)) : sshl W a s = some (a * 2 ^ n) := by
  unfold sshl
  subst hs
  rw [Int.toNat_natCast, if_pos ⟨by omega, by omega, h⟩]

/-- fmod.h:30-43 builds the double `rem * 2^(E - 1)` where `E` is the exponent field of the template. -/
theorem load_eq (g : L.Good) {rem t : Nat} (hr : rem < 2 ^ (L.fmt.f + 1)) (ht : 2 ≤ t / 2 ^ L.fmt.f) :
    ∃ n, load L rem t = some n ∧ L.fmt.mag n = rem * 2 ^ (t / 2 ^ L.fmt.f - 1) := by
  unfold load
  by_cases h0 : rem = 0
  · rw [if_pos h0]; subst h0
    exact ⟨0, rfl, by rw [L.fmt.mag_zero, Nat.zero_mul]⟩
  rw [if_neg h0, clz_eq (by omega), Option.bind_some]
  simp only
  rw [g.wd, g.pad, g.fb, g.min]
  obtain ⟨hb1, hb2⟩ := log2_bounds h0
  have hl : Nat.log2 rem ≤ L.fmt.f := by have := log2_lt h0 hr; omega
  generalize Nat.log2 rem = l at *
  generalize t / 2 ^ L.fmt.f = E at *
  have hf := g.ok.f
  have hw := g.ok.w
  generalize L.fmt.w = w at *
  have hmag := L.fmt.mag_mk
  have hsmall := fun n => L.fmt.mag_small (n := n)
  generalize L.fmt.f = f at *
  generalize L.fmt.mag = mag at *
  have e1 : ((f + w + 1 - 1 - l : Nat) : Int) - (w : Int) = ((f - l : Nat) : Int) := by omega
  rw [e1]
  have hS1 : 2 ^ f ≤ rem * 2 ^ (f - l) := by
    have := Nat.mul_le_mul_right (2 ^ (f - l)) hb1
    rw [← Nat.pow_add, show l + (f - l) = f by omega] at this
    exact this
  have hS2 : rem * 2 ^ (f - l) < 2 ^ (f + 1) := by
    have := Nat.mul_lt_mul_of_pos_right hb2 (Nat.two_pow_pos (f - l))
    rw [← Nat.pow_add, show l + 1 + (f - l) = f + 1 by omega] at this
    exact this
  rw [sshl_eq (f - l) rfl (by omega) (by
    have := Nat.pow_le_pow_right (n := 2) (by omega) (show f + 1 ≤ f + w + 1 - 1 by omega)
    omega), Option.bind_some]
  have hp := Nat.two_pow_pos f
  have hmod : rem * 2 ^ (f - l) % 2 ^ f = rem * 2 ^ (f - l) - 2 ^ f := by
    rw [Nat.pow_succ] at hS2
    rw [Nat.mod_eq_sub_mod hS1, Nat.mod_eq_of_lt (by omega)]
  rw [hmod]
  have hpw : ((2 : Int) ^ f) = ((2 ^ f : Nat) : Int) := by simp
  rw [hpw]
  by_cases hE : f - l < E
  · -- normal result
    have e2 : ((E : Int) - ((f - l : Nat) : Int)) = ((E - (f - l) : Nat) : Int) := by omega
    rw [e2]
    have hge : 2 ^ f ≤ (E - (f - l)) * 2 ^ f := Nat.le_mul_of_pos_left _ (by omega)
    have e3 : (((E - (f - l) : Nat) : Int) * ((2 ^ f : Nat) : Int) + ((rem * 2 ^ (f - l) - 2 ^ f : Nat) : Int)) =
        (((E - (f - l)) * 2 ^ f + (rem * 2 ^ (f - l) - 2 ^ f) : Nat) : Int) := by rw [Int.natCast_add, Int.natCast_mul]
    rw [e3, if_neg (by omega), Int.toNat_natCast]
    refine ⟨_, rfl, ?_⟩
    rw [hmag _ _ (by omega) hS1 hS2, Nat.mul_assoc, ← Nat.pow_add]
    congr 2; omega
  · have hlt : ((E : Int) - ((f - l : Nat) : Int)) * ((2 ^ f : Nat) : Int) + ((rem * 2 ^ (f - l) - 2 ^ f : Nat) : Int) < ((2 ^ f : Nat) : Int) := by
      rw [Nat.pow_succ] at hS2
      have : ((E : Int) - ((f - l : Nat) : Int)) * ((2 ^ f : Nat) : Int) ≤ 0 :=
        Int.mul_nonpos_of_nonpos_of_nonneg (by omega) (by omega)
      omega
    rw [if_pos hlt, if_pos (by omega)]
    refine ⟨_, rfl, ?_⟩
    have e4 : (1 - ((E : Int) - ((f - l : Nat) : Int))).toNat = f - l + 1 - E := by omega
    rw [e4]
    have e5 : rem * 2 ^ (f - l) / 2 ^ (f - l + 1 - E) = rem * 2 ^ (E - 1) := by
      rw [show 2 ^ (f - l) = 2 ^ (E - 1) * 2 ^ (f - l + 1 - E) by rw [← Nat.pow_add]; congr 1; omega, ← Nat.mul_assoc,
        Nat.mul_div_cancel _ (Nat.two_pow_pos _)]
    rw [e5]
    apply hsmall
    have := Nat.mul_lt_mul_of_pos_right hb2 (Nat.two_pow_pos (E - 1))
    rw [← Nat.pow_add] at this
    have := Nat.pow_le_pow_right (n := 2) (by omega) (show l + 1 + (E - 1) ≤ f by omega)
    omega

/-- fmod.h:45-54 is the remainder of the magnitudes. -/
theorem finite_eq (g : L.Good) {rs : Nat → Nat → Nat → Option Nat} (hrs : Rs L rs) {a b : Nat} (hb : 0 < b) (hab : b ≤ a) :
    ∃ n, finite L rs a b = some n ∧ L.fmt.mag n = L.fmt.mag a % L.fmt.mag b := by
  unfold finite
  rw [g.thr, g.fb]
  have hp := Nat.two_pow_pos L.fmt.f
  have hdiv : ∀ {n}, 2 ^ (L.fmt.f + 1) < n → 2 ≤ n / 2 ^ L.fmt.f := fun {n} h => by
    rw [Nat.pow_succ] at h
    exact (Nat.le_div_iff_mul_le hp).2 (by omega)
  have hpf : 2 ^ L.fmt.f ≤ 2 ^ (L.fmt.f + 1) := Nat.pow_le_pow_right (by omega) (by omega)
  by_cases h1 : b ≤ 2 ^ (L.fmt.f + 1)
  · rw [if_pos h1, Fmt.mag_tiny h1]
    have hlt : ∀ x, x % b ≤ 2 ^ (L.fmt.f + 1) := fun x => by have := Nat.mod_lt x hb; omega
    by_cases h2 : a ≤ 2 ^ (L.fmt.f + 1)
    · rw [if_pos h2, urem_eq hb, Fmt.mag_tiny h2]
      exact ⟨_, rfl, Fmt.mag_tiny (hlt a)⟩
    · rw [if_neg h2, hrs _ _ _ (significand_lt g a) hb h1, mag_significand g (by omega)]
      exact ⟨_, rfl, Fmt.mag_tiny (hlt _)⟩
  · rw [if_neg h1, hrs _ _ _ (significand_lt g a) (by rw [significand_eq g]; omega) (Nat.le_of_lt (significand_lt g b)), Option.bind_some]
    have hsb := significand_lt g b
    have hsb0 : 0 < significand L b := by rw [significand_eq g]; omega
    have hEb := hdiv (show _ < b by omega)
    obtain ⟨n, hn, hm⟩ := load_eq g (rem := significand L a * 2 ^ (a / 2 ^ L.fmt.f - b / 2 ^ L.fmt.f) % significand L b) (t := b)
      (by have := Nat.mod_lt (significand L a * 2 ^ (a / 2 ^ L.fmt.f - b / 2 ^ L.fmt.f)) hsb0; omega) hEb
    refine ⟨n, hn, ?_⟩
    rw [hm, mag_significand g (by omega : _ ≤ a), mag_significand g (by omega : _ ≤ b)]
    have hEab : b / 2 ^ L.fmt.f ≤ a / 2 ^ L.fmt.f := Nat.div_le_div_right hab
    rw [show a / 2 ^ L.fmt.f - 1 = (a / 2 ^ L.fmt.f - b / 2 ^ L.fmt.f) + (b / 2 ^ L.fmt.f - 1) by omega, Nat.pow_add,
      ← Nat.mul_assoc, Nat.mul_mod_mul_right]

/-- `fmod` on finite arguments: the magnitude and the sign. -/
theorem fmodG_eq (g : L.Good) {rs : Nat → Nat → Nat → Option Nat} (hrs : Rs L rs) {x y : Nat} (hx : x < 2 * L.fmt.signBit)
    (hxf : L.fmt.abs x < L.fmt.inf) (hy0 : 0 < L.fmt.abs y) (hyn : L.fmt.abs y < L.fmt.inf) :
    ∃ n, fmodG L rs x y = some (L.fmt.pack (L.fmt.neg x) n) ∧ L.fmt.mag n = L.fmt.mag (L.fmt.abs x) % L.fmt.mag (L.fmt.abs y) ∧ n < L.fmt.inf := by
  unfold fmodG
  simp only
  rw [g.inf, if_neg (by omega)]
  by_cases h : L.fmt.abs x < L.fmt.abs y
  · rw [if_pos h]
    exact ⟨L.fmt.abs x, by rw [Fmt.pack_self hx], by rw [Nat.mod_eq_of_lt (L.fmt.mag_strictMono h)], hxf⟩
  · rw [if_neg h]
    obtain ⟨n, hn, hm⟩ := finite_eq g hrs hy0 (show L.fmt.abs y ≤ L.fmt.abs x by omega)
    have hlt : n < L.fmt.inf := by
      apply Fmt.mag_lt_iff.1
      rw [hm]
      have := Nat.mod_lt (L.fmt.mag (L.fmt.abs x)) (Fmt.mag_pos (F := L.fmt) hy0)
      have := L.fmt.mag_strictMono hyn
      omega
    refine ⟨n, ?_, hm, hlt⟩
    rw [hn, Option.bind_some]
    unfold Fmt.copysign
    rw [Fmt.abs_of_lt (Nat.lt_trans hlt Fmt.inf_lt)]

end Verif.Math
