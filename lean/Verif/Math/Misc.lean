import Verif.Math.Bridge

/-! # modf, fdim, fmax, fmin, special arguments, parts of fma -/

namespace Verif.Math
open Verif.Float Spec

variable {F : Fmt} {L : Lit}

theorem rep_mod {n : Nat} (hn : n < F.inf) : ∃ d, d ≤ F.inf ∧ F.mag d = F.mag n % 2 ^ F.unit := by
  obtain ⟨m, e, h1, h2⟩ := Fmt.mag_pow_form (F := F) n
  have hlt := F.mag_strictMono hn
  have hle := Nat.mod_le (F.mag n) (2 ^ F.unit)
  rcases Nat.lt_or_ge e F.unit with h | h
  · refine Fmt.representable_mul (e := e) ?_ ?_ (by omega)
    · exact (Nat.dvd_mod_iff (Nat.pow_dvd_pow 2 (Nat.le_of_lt h))).2 ⟨m, by rw [h1, Nat.mul_comm]⟩
    · have := Nat.mul_le_mul_right (2 ^ e) (Nat.le_of_lt h2)
      omega
  · refine ⟨0, by omega, ?_⟩
    have hdv : 2 ^ F.unit ∣ F.mag n := by rw [h1]; exact Nat.dvd_trans (Nat.pow_dvd_pow 2 h) ⟨m, Nat.mul_comm _ _⟩
    rw [Nat.mod_eq_zero_of_dvd hdv, F.mag_zero]

theorem modf_spec {x : Nat} (hx : Pat F x) (hf : Finite F x) : Parts F x (modf F x).1 (modf F x).2 := by
  have hf' : F.abs x < F.inf := hf
  obtain ⟨i, i1, i2, i3⟩ := Fmt.trunc_fin hf'
  obtain ⟨d, d1, d2⟩ := rep_mod hf'
  have hil := Fmt.inf_lt (F := F)
  have hii : i ≤ F.inf := by omega
  have his : i < F.signBit := by omega
  have hdm := Nat.div_add_mod (F.mag (F.abs x)) (2 ^ F.unit)
  have hv : F.val x + F.val (F.opp (F.trunc x)) = sgnd (F.neg x) (F.mag d) := by
    rw [Fmt.val_opp, i1, Fmt.val_pack his, i3, d2, val_sgnd]
    rw [Nat.mul_comm] at hdm
    generalize F.mag (F.abs x) / 2 ^ F.unit * 2 ^ F.unit = t at *
    unfold sgnd
    cases F.neg x <;> simp only [if_true, Bool.false_eq_true, if_false] <;> omega
  have hsub : F.sub x (F.trunc x) = F.pack (if sgnd (F.neg x) (F.mag d) = 0 then F.neg x && !(F.neg x) else decide (sgnd (F.neg x) (F.mag d) < 0)) d := by
    unfold Fmt.sub
    rw [Fmt.add_exact (k := d) hf' (by rw [Fmt.abs_opp, i1, Fmt.abs_pack his]; omega) d1 (by rw [hv, sgnd_abs]), hv, Fmt.neg_opp, i1, Fmt.neg_pack his]
  have e1 : (modf F x).1 = F.pack (F.neg x) d := by
    unfold modf
    simp only
    rw [if_neg (by omega), hsub]
    unfold Fmt.copysign
    rw [Fmt.abs_pack (by omega)]
  have e2 : (modf F x).2 = F.pack (F.neg x) i := i1
  rw [e1, e2]
  refine ⟨pat_pack d1, pat_pack hii, ?_, ?_, ?_, ?_, ?_⟩
  · rw [negative_pack d1, negative_iff hx]
  · rw [negative_pack hii, negative_iff hx]
  · rw [value_pack d1, value_pack hii, sgnd_add, value_eq hx, val_sgnd, d2, i3, Nat.mul_comm, Nat.add_comm, hdm]
  · unfold size
    rw [absOf_pack d1, d2]
    exact Nat.mod_lt _ (Nat.two_pow_pos _)
  · unfold size
    rw [absOf_pack hii, i3]
    exact ⟨_, Nat.mul_comm _ _⟩

theorem modf_inf {x : Nat} (hx : Pat F x) (h : Infinite F x) : (modf F x).2 = x ∧ Zero F (modf F x).1 ∧ (negative F (modf F x).1 ↔ negative F x) := by
  have h' : F.abs x = F.inf := h
  have e2 : (modf F x).2 = x := by
    unfold modf Fmt.trunc
    have : F.isFin x = false := by unfold Fmt.isFin; simp; omega
    simp only
    rw [this, if_neg (by simp)]
  have e1 : (modf F x).1 = F.pack (F.neg x) 0 := by
    unfold modf
    simp only
    rw [if_pos h']
    unfold Fmt.copysign
    rw [abs_zero]
  refine ⟨e2, ?_, ?_⟩
  · unfold Spec.Zero; rw [e1, absOf_pack (by omega)]
  · rw [e1, negative_pack (by omega), negative_iff hx]

/-! ### fdim, fmax, fmin -/

theorem sub_rounded {x y : Nat} (hx : Pat F x) (hy : Pat F y) (hxf : Finite F x) (hyf : Finite F y) (hne : value F x ≠ value F y) :
    Rounded F (value F x - value F y) 1 (F.sub x y) := by
  have hyf' : F.abs y < F.inf := hyf
  rw [value_eq hx, value_eq hy] at *
  have e : F.sub x y = F.pack (decide (F.val x - F.val y < 0)) (F.rnd (F.val x - F.val y).natAbs 1) := by
    unfold Fmt.sub
    rw [Fmt.add_fin hxf (by rw [Fmt.abs_opp]; exact hyf'), Fmt.val_opp]
    unfold Fmt.rndInt
    rw [if_neg (by omega)]
    rfl
  have hr := rnd_le (F := F) (F.val x - F.val y).natAbs 1 Nat.one_pos
  rw [e]
  refine ⟨pat_pack hr, fun _ => ?_, ?_⟩
  · rw [negative_pack hr]; simp
  · rw [absOf_pack hr]; exact rnd_nearest _ _ Nat.one_pos

theorem fdim_spec (o : F.Ok) {x y : Nat} (hx : Pat F x) (hy : Pat F y) (hxf : Finite F x) (hyf : Finite F y) :
    (value F x ≤ value F y → fdim F x y = 0) ∧ (value F y < value F x → Rounded F (value F x - value F y) 1 (fdim F x y)) := by
  have l := Fmt.le_iff (F := F) (x := x) (y := y) (Nat.le_of_lt hxf) (Nat.le_of_lt hyf)
  rw [← value_eq hx, ← value_eq hy] at l
  unfold fdim
  refine ⟨fun h => if_pos (l.2 h), fun h => ?_⟩
  rw [if_neg (fun h' => by have := l.1 h'; omega)]
  exact sub_rounded hx hy hxf hyf (by omega)

theorem fdim_nan (o : F.Ok) {x y : Nat} (h : NaN F x ∨ NaN F y) : NaN F (fdim F x y) := by
  have hn : F.isNaN x = true ∨ F.isNaN (F.opp y) = true := by
    rcases h with h | h
    · exact Or.inl (Fmt.isNaN_iff.2 h)
    · exact Or.inr (Fmt.isNaN_iff.2 (by rw [Fmt.abs_opp]; exact h))
  have hn2 : F.isNaN x = true ∨ F.isNaN y = true := by
    rcases h with h | h
    · exact Or.inl (Fmt.isNaN_iff.2 h)
    · exact Or.inr (Fmt.isNaN_iff.2 h)
  have hl : F.le x y = false := by unfold Fmt.le; rcases hn2 with h | h <;> rw [h] <;> simp
  have hs : F.sub x y = F.nan := by
    unfold Fmt.sub Fmt.add
    rcases hn with h | h <;> rw [h] <;> simp
  unfold fdim
  rw [hl, if_neg (by simp), hs]
  exact nan_nan o.f

theorem fmax_spec {x y : Nat} (hx : Pat F x) (hy : Pat F y) (hxn : ¬ NaN F x) (hyn : ¬ NaN F y) :
    (fmax F x y = x ∨ fmax F x y = y) ∧ value F x ≤ value F (fmax F x y) ∧ value F y ≤ value F (fmax F x y) := by
  have hxi : F.abs x ≤ F.inf := Nat.le_of_not_lt hxn
  have hyi : F.abs y ≤ F.inf := Nat.le_of_not_lt hyn
  have l := Fmt.le_iff (F := F) hyi hxi
  rw [← value_eq hx, ← value_eq hy] at l
  have e := (eq_self_iff y).2 hyi
  unfold fmax
  by_cases h : F.le y x = true
  · rw [if_pos (Or.inl h)]
    exact ⟨Or.inl rfl, by omega, l.1 h⟩
  · rw [if_neg (by rintro (h' | h'); exact h h'; exact h' e)]
    have hh : ¬ value F y ≤ value F x := fun h' => h (l.2 h')
    exact ⟨Or.inr rfl, by omega, by omega⟩

theorem fmin_spec {x y : Nat} (hx : Pat F x) (hy : Pat F y) (hxn : ¬ NaN F x) (hyn : ¬ NaN F y) :
    (fmin F x y = x ∨ fmin F x y = y) ∧ value F (fmin F x y) ≤ value F x ∧ value F (fmin F x y) ≤ value F y := by
  have hxi : F.abs x ≤ F.inf := Nat.le_of_not_lt hxn
  have hyi : F.abs y ≤ F.inf := Nat.le_of_not_lt hyn
  have l := Fmt.le_iff (F := F) hxi hyi
  rw [← value_eq hx, ← value_eq hy] at l
  have e := (eq_self_iff y).2 hyi
  unfold fmin
  by_cases h : F.le x y = true
  · rw [if_pos (Or.inl h)]
    exact ⟨Or.inl rfl, by omega, l.1 h⟩
  · rw [if_neg (by rintro (h' | h'); exact h h'; exact h' e)]
    have hh : ¬ value F x ≤ value F y := fun h' => h (l.2 h')
    exact ⟨Or.inr rfl, by omega, by omega⟩

theorem fmax_fmin_nan {x y : Nat} : (NaN F y → fmax F x y = x ∧ fmin F x y = x) ∧ (NaN F x → ¬ NaN F y → fmax F x y = y ∧ fmin F x y = y) := by
  refine ⟨fun h => ?_, fun h hy => ?_⟩
  · have : ¬ F.eq y y = true := fun h' => absurd ((eq_self_iff y).1 h') (Nat.not_le_of_lt h)
    unfold fmax fmin
    exact ⟨if_pos (Or.inr this), if_pos (Or.inr this)⟩
  · have e := (eq_self_iff (F := F) y).2 (Nat.le_of_not_lt hy)
    have hn := Fmt.isNaN_iff.2 h
    have l1 : F.le x y = false := by unfold Fmt.le; rw [hn]; simp
    have l2 : F.le y x = false := by unfold Fmt.le; rw [hn]; simp
    unfold fmax fmin
    rw [l1, l2, e]
    simp

/-! ### round of infinities and NaN -/

theorem round_inf {x : Nat} (hx : Pat b64 x) (h : Infinite b64 x) : round x = x := by
  have h' : b64.abs x = 0x7FF0000000000000 := h
  have e : b64.add (b64.trunc 0x7FF0000000000000) (if b64.le 0x3FE0000000000000 (b64.sub 0x7FF0000000000000 (b64.trunc 0x7FF0000000000000)) then 0x3FF0000000000000 else 0) = 0x7FF0000000000000 := by
    decide +kernel
  unfold round
  simp only
  rw [h', e]
  unfold Fmt.copysign
  rw [Fmt.abs_of_lt (by decide), ← h']
  exact Fmt.pack_self hx

theorem round_nan {x : Nat} (h : NaN b64 x) : NaN b64 (round x) := by
  have hil := Fmt.abs_lt (F := b64) x
  have hn : b64.isNaN (b64.trunc (b64.abs x)) = true := by
    have h' : b64.inf < b64.abs x := h
    have hff : b64.isFin (b64.abs x) = false := by unfold Fmt.isFin; rw [Fmt.abs_abs]; simp; omega
    unfold Fmt.trunc
    rw [hff, if_neg (by simp)]
    exact Fmt.isNaN_iff.2 (by rw [Fmt.abs_abs]; exact h)
  have ha : ∀ z, b64.add (b64.trunc (b64.abs x)) z = b64.nan := by
    intro z; unfold Fmt.add; rw [hn]; simp
  unfold round
  simp only
  rw [ha]
  unfold Fmt.copysign Spec.NaN absOf
  have := Fmt.abs_pack (F := b64) (s := b64.neg x) (r := b64.abs b64.nan) (Fmt.abs_lt _)
  unfold Fmt.abs at this
  unfold Fmt.abs
  rw [this]
  decide

theorem roundf_inf {x : Nat} (hx : Pat b32 x) (h : Infinite b32 x) : roundf x = x := by
  have h' : b32.abs x = b32.inf := h
  unfold roundf
  simp only
  rw [Fmt.conv_inf h']
  have hs := Fmt.pack_self hx
  rw [h'] at hs
  rw [← hs]
  rw [Fmt.neg_pack Fmt.inf_lt]
  cases b32.neg x <;> decide +kernel

theorem roundf_nan {x : Nat} (h : NaN b32 x) : NaN b32 (roundf x) := by
  have e : b32.conv b64 x = b64.nan := by
    unfold Fmt.conv; rw [if_pos (Fmt.isNaN_iff.2 h)]
  unfold roundf
  simp only
  rw [e]
  unfold Spec.NaN
  decide +kernel

/-! ### remainder of special arguments -/

/-- A finite nonzero number times infinity. -/
theorem mul_inf {a y : Nat} (ha0 : 0 < F.abs a) (ha : F.abs a < F.inf) (h : Infinite F y) : F.mul a y = F.pack (F.neg a != F.neg y) F.inf := by
  have h' : F.abs y = F.inf := h
  have hy : F.isFin y = false := by unfold Fmt.isFin; simp; omega
  unfold Fmt.mul
  rw [Fmt.not_nan_of_fin ha, Fmt.isNaN_false.2 (by omega), hy, if_neg (by simp), if_neg (by simp), if_neg (by omega)]

theorem lit_pos (g : L.Good) : 0 < L.two ∧ 0 < L.half := by
  obtain ⟨ht, htm⟩ := lit_two g
  obtain ⟨hh, hhm⟩ := lit_half g
  refine ⟨Nat.pos_of_ne_zero fun h0 => ?_, Nat.pos_of_ne_zero fun h0 => ?_⟩
  · rw [h0, L.fmt.mag_zero] at htm
    have := Nat.two_pow_pos (L.fmt.unit + 1)
    rw [← htm] at this; omega
  · rw [h0, L.fmt.mag_zero] at hhm
    have := Nat.two_pow_pos L.fmt.unit
    rw [← hhm] at this; omega

theorem mul_two_inf (g : L.Good) {y : Nat} (h : Infinite L.fmt y) : L.fmt.abs (L.fmt.mul L.two y) = L.fmt.inf := by
  obtain ⟨ht, htm⟩ := lit_two g
  have hts := Nat.lt_trans ht Fmt.inf_lt
  rw [mul_inf (by rw [Fmt.abs_of_lt hts]; exact (lit_pos g).1) (by rwa [Fmt.abs_of_lt hts]) h, Fmt.abs_pack Fmt.inf_lt]

theorem settle_inf (g : L.Good) {n : Nat} (hn : n < L.fmt.inf) : settle L n L.fmt.inf = (n, 0) := by
  have hil := Fmt.inf_lt (F := L.fmt)
  obtain ⟨_, hb3⟩ := Fmt.unit_eq g.ok
  have hmi : L.min2 < L.fmt.inf := by
    rw [g.min2, Nat.pow_succ, Nat.mul_comm]; exact Fmt.pow_lt_inf g.ok (by omega)
  have h1 : ¬ L.fmt.lt L.fmt.inf L.min2 = true := by
    rw [Fmt.lt_pos (by omega) (by omega), Fmt.mag_lt_iff]; omega
  obtain ⟨hh, hhm⟩ := lit_half g
  have hhs := Nat.lt_trans hh Fmt.inf_lt
  have hm : L.fmt.mul L.half L.fmt.inf = L.fmt.inf := by
    rw [mul_inf (by rw [Fmt.abs_of_lt hhs]; exact (lit_pos g).2) (by rwa [Fmt.abs_of_lt hhs]) (Fmt.abs_of_lt hil), Fmt.neg_of_lt hhs, Fmt.neg_of_lt hil]
    exact pack_false _
  have h2 : ¬ L.fmt.lt (L.fmt.mul L.half L.fmt.inf) n = true := by
    rw [hm, Fmt.lt_pos (by omega) (by omega), Fmt.mag_lt_iff]; omega
  unfold settle
  simp only
  rw [if_neg h1, if_neg h2]

theorem xor_pack {x n : Nat} (hn : n < F.signBit) : (if F.neg x then F.signBit else 0) ^^^ n = F.pack (F.neg x) n := by
  rw [Fmt.xor_sign (by omega) (F.neg x), Fmt.neg_of_lt hn, Fmt.abs_of_lt hn]
  simp

theorem remainder_inf (g : L.Good) {rs : Nat → Nat → Nat → Option Nat} {x y : Nat} (hx : Pat L.fmt x) (hxf : Finite L.fmt x)
    (hy : Infinite L.fmt y) : remainderG L (fmodG L rs) x y = some x := by
  have hxf' : L.fmt.abs x < L.fmt.inf := hxf
  have h1 := fmod_inf (rs := rs) g (x := L.fmt.abs x) (y := L.fmt.mul L.two y) (by unfold Finite absOf; exact (show L.fmt.abs (L.fmt.abs x) < _ by rwa [Fmt.abs_abs])) (mul_two_inf g hy)
  unfold remainderG
  simp only
  rw [h1, show L.fmt.abs y = L.fmt.inf from hy]
  simp only [Option.bind_some]
  rw [settle_inf g hxf', xor_pack (Fmt.abs_lt x), Fmt.pack_self hx]

theorem nan_lt (hf : 2 ≤ F.f) : F.nan < F.signBit := by
  have h1 := Fmt.inf_add (F := F)
  have h3 : 2 ^ F.f = 2 * 2 ^ (F.f - 1) := by rw [← Nat.pow_succ']; congr 1; omega
  have := Nat.two_pow_pos (F.f - 1)
  unfold Fmt.nan
  omega

theorem isNaN_nan (hf : 2 ≤ F.f) : F.isNaN F.nan = true := Fmt.isNaN_iff.2 (nan_nan hf)

theorem settle_nan (g : L.Good) (d : Nat) : settle L L.fmt.nan d = (L.fmt.nan, 0) := by
  have hn := isNaN_nan g.ok.f
  have h1 : ∀ z, L.fmt.lt z L.fmt.nan = false := by intro z; unfold Fmt.lt; rw [hn]; simp
  have h2 : ∀ z, L.fmt.mul z L.fmt.nan = L.fmt.nan := by intro z; unfold Fmt.mul; rw [hn]; simp
  unfold settle
  simp only
  rw [h2, h1, h1]
  simp

theorem mul_two_nan (g : L.Good) {y : Nat} (h : NaN L.fmt y) : L.fmt.mul L.two y = L.fmt.nan := by
  unfold Fmt.mul
  rw [if_pos (Or.inr (Fmt.isNaN_iff.2 h))]

theorem mul_two_zero (g : L.Good) {y : Nat} (h : Zero L.fmt y) : L.fmt.abs (L.fmt.mul L.two y) = 0 := by
  obtain ⟨ht, htm⟩ := lit_two g
  have hts := Nat.lt_trans ht Fmt.inf_lt
  have h' : L.fmt.abs y = 0 := h
  have hip := Fmt.inf_pos g.ok
  rw [Fmt.mul_fin (by rwa [Fmt.abs_of_lt hts]) (by omega), h', L.fmt.mag_zero, Nat.mul_zero, rnd_zero _ (Nat.two_pow_pos _), Fmt.abs_pack Fmt.signBit_pos]

theorem remainder_nan (g : L.Good) {rs : Nat → Nat → Nat → Option Nat} {x y : Nat} (h : ¬ Finite L.fmt x ∨ Zero L.fmt y ∨ NaN L.fmt y) :
    ∃ r, remainderG L (fmodG L rs) x y = some r ∧ NaN L.fmt r := by
  have h1 : fmodG L rs (L.fmt.abs x) (L.fmt.mul L.two y) = some L.fmt.nan := by
    apply fmod_nan g
    rcases h with h | h | h
    · left; unfold Finite absOf at *; exact (show ¬ L.fmt.abs (L.fmt.abs x) < _ by rwa [Fmt.abs_abs])
    · right; left; exact mul_two_zero g h
    · right; right; rw [mul_two_nan g h]; exact nan_nan g.ok.f
  unfold remainderG
  simp only
  rw [h1]
  simp only [Option.bind_some]
  rw [settle_nan g, xor_pack (nan_lt g.ok.f)]
  refine ⟨_, rfl, ?_⟩
  have e := Fmt.abs_pack (F := L.fmt) (s := L.fmt.neg x) (nan_lt g.ok.f)
  unfold Spec.NaN absOf
  unfold Fmt.abs at e
  rw [e]
  have := Nat.two_pow_pos (L.fmt.f - 1)
  unfold Fmt.nan; omega

/-! ### fma -/

theorem truth_zero {x : Nat} (h : b64.abs x = 0) : truth x = false := by
  have hh : b64.eq x 0 = true := by
    rw [Fmt.eq_iff (by omega) (by decide), Fmt.val_eq_idx, (Fmt.idx_zero x).2 h]; rfl
  unfold truth; rw [hh]; rfl

theorem truth_nonzero {x : Nat} (h : 0 < b64.abs x) (hi : b64.abs x ≤ b64.inf) : truth x = true := by
  have hh : b64.eq x 0 = false := by
    rw [Bool.eq_false_iff]
    intro he
    rw [Fmt.eq_iff hi (by decide), Fmt.val_eq_idx] at he
    have : b64.idx 0 = 0 := rfl
    rw [this, Fmt.idx_zero] at he
    omega
  unfold truth; rw [hh]; rfl

theorem truth_self {x : Nat} (hx : b64.abs x < b64.inf) : truth (b64.sub x x) = false := by
  apply truth_zero
  unfold Fmt.sub
  rw [Fmt.add_fin hx (by rwa [Fmt.abs_opp]), Fmt.val_opp]
  unfold Fmt.rndInt
  rw [if_pos (by omega), Fmt.abs_pack Fmt.signBit_pos]

theorem truth_self_inf {x : Nat} (hx : ¬ b64.abs x < b64.inf) : truth (b64.sub x x) = true := by
  have e : b64.sub x x = b64.nan := by
    unfold Fmt.sub Fmt.add
    have h1 : b64.isFin x = false := by unfold Fmt.isFin; simp; omega
    have h2 : b64.isFin (b64.opp x) = false := by unfold Fmt.isFin; rw [Fmt.abs_opp]; simp; omega
    rw [h1, h2, Fmt.neg_opp]
    cases b64.neg x <;> simp
  rw [e]; decide +kernel

/-- The exact `a * b + c`, in units of the square of the smallest subnormal. -/
theorem fma_zero {a b c : Nat} (ha : Pat b64 a) (hb : Pat b64 b) (hc : Pat b64 c) (haf : Finite b64 a) (hbf : Finite b64 b) (hcf : Finite b64 c)
    (h : Zero b64 a ∨ Zero b64 b ∨ Zero b64 c) :
    ∃ r, fma a b c = some r ∧ Rounded b64 (value b64 a * value b64 b + value b64 c * 2 ^ b64.unit) (2 ^ b64.unit) r := by
  have haf' : b64.abs a < b64.inf := haf
  have hbf' : b64.abs b < b64.inf := hbf
  have hcf' : b64.abs c < b64.inf := hcf
  have hU := Nat.two_pow_pos b64.unit
  have hUc : (2 : Int) ^ b64.unit = ((2 ^ b64.unit : Nat) : Int) := by simp
  unfold fma
  rw [truth_self haf, truth_self hbf, truth_self hcf]
  simp only [Bool.false_eq_true, or_self, if_false]
  rw [value_eq ha, value_eq hb, value_eq hc]
  by_cases hz : b64.abs a = 0 ∨ b64.abs b = 0
  · have ht : ¬ truth a = true ∨ ¬ truth b = true := by
      rcases hz with h | h
      · left; rw [truth_zero h]; simp
      · right; rw [truth_zero h]; simp
    rw [if_pos ht]
    refine ⟨_, rfl, ?_⟩
    have hv : b64.val a * b64.val b = 0 := by
      rw [Int.mul_eq_zero]
      rcases hz with h | h
      · left; unfold Fmt.val; rw [h]; split <;> rfl
      · right; unfold Fmt.val; rw [h]; split <;> rfl
    have hm : b64.mag (b64.abs a) * b64.mag (b64.abs b) = 0 := by
      rcases hz with h | h
      · rw [h, b64.mag_zero, Nat.zero_mul]
      · rw [h, b64.mag_zero, Nat.mul_zero]
    rw [hv, Int.zero_add, Fmt.mul_fin haf hbf, hm, rnd_zero _ hU]
    generalize (b64.neg a != b64.neg b) = s
    have hab : b64.abs (b64.pack s 0) = 0 := Fmt.abs_pack Fmt.signBit_pos
    have hvz : b64.val (b64.pack s 0) = 0 := by unfold Fmt.val; rw [hab]; split <;> rfl
    rw [Fmt.add_fin (by rw [hab]; exact Fmt.inf_pos ok64) hcf, hvz, Int.zero_add]
    unfold Fmt.rndInt
    by_cases hc0 : b64.val c = 0
    · rw [if_pos hc0, hc0, Int.zero_mul]
      refine ⟨pat_pack (by omega), fun h => absurd rfl h, ?_⟩
      rw [absOf_pack (by omega), Int.natAbs_zero]
      exact nearest_exact hU (by omega) (by rw [b64.mag_zero, Nat.mul_zero])
    · rw [if_neg hc0, Fmt.natAbs_val, rnd_mag (Nat.le_of_lt hcf')]
      refine ⟨pat_pack (Nat.le_of_lt hcf'), fun _ => ?_, ?_⟩
      · rw [negative_pack (Nat.le_of_lt hcf'), decide_eq_true_iff]
        constructor
        · intro h; exact Int.mul_neg_of_neg_of_pos h (by rw [hUc]; omega)
        · intro h
          rcases Int.lt_or_le (b64.val c) 0 with h' | h'
          · exact h'
          · have := Int.mul_nonneg h' (show 0 ≤ (2 : Int) ^ b64.unit by rw [hUc]; omega)
            exact absurd h (by omega)
      · rw [absOf_pack (Nat.le_of_lt hcf'), Int.natAbs_mul, Fmt.natAbs_val, hUc, Int.natAbs_natCast, Nat.mul_comm]
        exact nearest_exact hU (Nat.le_of_lt hcf') rfl
  · have hc0 : b64.abs c = 0 := by
      rcases h with h | h | h
      · exact absurd (Or.inl h) hz
      · exact absurd (Or.inr h) hz
      · exact h
    have hta := truth_nonzero (x := a) (by omega) (by omega)
    have htb := truth_nonzero (x := b) (by omega) (by omega)
    rw [hta, htb, truth_zero hc0]
    simp only [not_true, or_self, if_false, Bool.false_eq_true, not_false_eq_true, if_true]
    refine ⟨_, rfl, ?_⟩
    have hvc : b64.val c = 0 := by unfold Fmt.val; rw [hc0]; split <;> rfl
    have hr := rnd_le (F := b64) (b64.mag (b64.abs a) * b64.mag (b64.abs b)) (2 ^ b64.unit) hU
    rw [hvc, Int.zero_mul, Int.add_zero, Fmt.mul_fin haf hbf, val_sgnd, val_sgnd, sgnd_mul]
    refine ⟨pat_pack hr, fun hne => ?_, ?_⟩
    · rw [negative_pack hr]
      cases hs : (b64.neg a != b64.neg b)
      · unfold sgnd
        simp only [Bool.false_eq_true, if_false, false_iff]
        omega
      · rw [hs] at hne
        unfold sgnd at *
        simp only [if_true] at hne ⊢
        constructor
        · intro _; omega
        · intro _; trivial
    · rw [absOf_pack hr, sgnd_abs]
      exact rnd_nearest _ _ hU

/-- The exponent that `frexp` reports. -/
theorem frexp_exponent {x : Nat} {k : Int} (h0 : 0 < b64.abs x) (hi : b64.abs x < b64.inf) (hk : Exponent b64 x k) :
    ∃ r, frexp dbl x = some (r, k + 1) := by
  obtain ⟨r, e, h1, _, h2, h3, h4⟩ := frexp_eq good_dbl h0 hi
  obtain ⟨k0, k1, k2⟩ := hk
  rw [size_eq] at k1 k2
  refine ⟨b64.pack (b64.neg x) r, ?_⟩
  have hh : e = k + 1 := by
    change 2 ^ (1074 - 1) ≤ b64.mag r at h2
    change b64.mag r < 2 ^ 1074 at h3
    change b64.mag (b64.abs x) * 2 ^ (-e).toNat = b64.mag r * 2 ^ e.toNat at h4
    have hu : (b64.unit : Int) = 1074 := rfl
    rw [hu] at k0 k1 k2
    generalize b64.mag (b64.abs x) = M at *
    generalize b64.mag r = R at *
    have a1 := Nat.mul_le_mul_right (2 ^ (-e).toNat) k1
    have a2 := Nat.mul_lt_mul_of_pos_right k2 (Nat.two_pow_pos (-e).toNat)
    have a3 := Nat.mul_le_mul_right (2 ^ e.toNat) h2
    have a4 := Nat.mul_lt_mul_of_pos_right h3 (Nat.two_pow_pos e.toNat)
    rw [h4] at a1 a2
    rw [← Nat.pow_add] at a1 a2 a3 a4
    have b1 := (Nat.pow_lt_pow_iff_right (a := 2) (by omega)).1 (Nat.lt_of_le_of_lt a1 a4)
    have b2 := (Nat.pow_lt_pow_iff_right (a := 2) (by omega)).1 (Nat.lt_of_le_of_lt a3 a2)
    omega
  rw [h1, hh]; rfl

/-- A product below half a unit in the last place of `c` does not change `c`. -/
theorem absorb {n P : Nat} (hn0 : 0 < n) (hn : n < b64.inf) (hP : 2 * P < 2 ^ b64.unit * b64.ulp n) :
    Nearest b64 (2 ^ b64.unit * b64.mag n + P) (2 ^ b64.unit) n ∧
      ((∀ k, b64.mag n ≠ 2 ^ k) → Nearest b64 (2 ^ b64.unit * b64.mag n - P) (2 ^ b64.unit) n) := by
  have hU := Nat.two_pow_pos b64.unit
  generalize hUU : 2 ^ b64.unit = U at *
  refine ⟨nearest_lo (by omega) (by omega) (Or.inl ?_), fun hk => ?_⟩
  · have hs : U * b64.mag (n + 1) = U * b64.mag n + U * b64.ulp n := by rw [b64.mag_succ, Nat.mul_add]
    omega
  · obtain ⟨m, rfl⟩ : ∃ m, n = m + 1 := ⟨n - 1, by omega⟩
    have hul : b64.ulp m = b64.ulp (m + 1) := by
      unfold Fmt.ulp
      by_cases hd : (m + 1) % 2 ^ b64.f = 0
      · exfalso
        have hp := Nat.two_pow_pos b64.f
        have hdm := Nat.div_add_mod (m + 1) (2 ^ b64.f)
        rw [hd, Nat.add_zero, Nat.mul_comm] at hdm
        have hq : (m + 1) / 2 ^ b64.f ≠ 0 := by intro h0; rw [h0] at hdm; omega
        have e := Fmt.mag_pow (F := b64) ((m + 1) / 2 ^ b64.f) (Nat.pos_of_ne_zero hq)
        rw [hdm] at e
        exact hk _ e
      · have : (m + 1) / 2 ^ b64.f = m / 2 ^ b64.f := by
          rw [Nat.succ_div, if_neg (fun h => hd (Nat.mod_eq_zero_of_dvd h))]
          rfl
        rw [this]
    have hs := b64.mag_succ m
    rw [hul] at hs
    have hs2 : U * b64.mag (m + 1) = U * b64.mag m + U * b64.ulp (m + 1) := by rw [hs, Nat.mul_add]
    exact nearest_hi (by omega) (by omega) (by omega) (Or.inl (by omega))

/-- A much larger addend: fma.c:98-99. -/
theorem fma_big {a b c : Nat} {ka kb kc : Int} (ha : Pat b64 a) (hb : Pat b64 b) (hc : Pat b64 c)
    (haf : Finite b64 a) (hbf : Finite b64 b) (hcf : Finite b64 c)
    (hka : Exponent b64 a ka) (hkb : Exponent b64 b kb) (hkc : Exponent b64 c kc) (h : ka + kb + 54 < kc)
    (hs : (negative b64 a ↔ negative b64 b) ∧ ¬ negative b64 c ∨ ¬ (negative b64 a ↔ negative b64 b) ∧ negative b64 c ∨ ∀ k, size b64 c ≠ 2 ^ k) :
    fma a b c = some c ∧ Rounded b64 (value b64 a * value b64 b + value b64 c * 2 ^ b64.unit) (2 ^ b64.unit) c := by
  have pos : ∀ {x : Nat} {k : Int}, Exponent b64 x k → 0 < b64.abs x := by
    intro x k hk
    obtain ⟨_, h1, _⟩ := hk
    rw [size_eq] at h1
    refine Nat.pos_of_ne_zero fun h0 => ?_
    rw [h0, b64.mag_zero] at h1
    have := Nat.two_pow_pos (k + b64.unit).toNat
    omega
  have ha0 := pos hka
  have hb0 := pos hkb
  have hc0 := pos hkc
  obtain ⟨r1, f1⟩ := frexp_exponent ha0 haf hka
  obtain ⟨r2, f2⟩ := frexp_exponent hb0 hbf hkb
  obtain ⟨r3, f3⟩ := frexp_exponent hc0 hcf hkc
  constructor
  · unfold fma
    rw [truth_self haf, truth_self hbf, truth_self hcf, truth_nonzero ha0 (Nat.le_of_lt haf), truth_nonzero hb0 (Nat.le_of_lt hbf),
      truth_nonzero hc0 (Nat.le_of_lt hcf), f1, f2, f3]
    simp only [Bool.false_eq_true, or_self, if_false, not_true, Option.bind_some]
    rw [if_pos (by omega)]
  · obtain ⟨a0, a1, a2⟩ := hka
    obtain ⟨b0, b1, b2⟩ := hkb
    obtain ⟨c0, c1, c2⟩ := hkc
    rw [size_eq] at *
    have hci : b64.abs c < b64.inf := hcf
    -- the product against the unit in the last place of c
    have hP : 2 * (b64.mag (b64.abs a) * b64.mag (b64.abs b)) < 2 ^ b64.unit * b64.ulp (b64.abs c) := by
      have p1 := Nat.mul_lt_mul'' a2 b2
      rw [← Nat.pow_add] at p1
      have hul : 2 ^ ((kc + b64.unit).toNat - 52) ≤ b64.ulp (b64.abs c) := by
        unfold Fmt.ulp
        refine Nat.pow_le_pow_right (by omega) ?_
        rcases Nat.lt_or_ge (b64.abs c) (2 ^ b64.f) with hsm | hnm
        · rw [b64.mag_small hsm] at c1
          have := (Nat.pow_lt_pow_iff_right (a := 2) (by omega)).1 (Nat.lt_of_le_of_lt c1 hsm)
          rw [show b64.f = 52 by rfl] at *
          omega
        · have hmn := b64.mag_normal hnm
          have hfl := Nat.mod_lt (b64.abs c) (Nat.two_pow_pos b64.f)
          have c3 : b64.mag (b64.abs c) < 2 ^ (b64.f + 1) * 2 ^ (b64.abs c / 2 ^ b64.f - 1) := by
            rw [hmn]
            refine Nat.mul_lt_mul_of_pos_right ?_ (Nat.two_pow_pos _)
            rw [Nat.pow_succ]; omega
          rw [← Nat.pow_add] at c3
          have := (Nat.pow_lt_pow_iff_right (a := 2) (by omega)).1 (Nat.lt_of_le_of_lt c1 c3)
          rw [show b64.f = 52 by rfl] at *
          omega
      refine Nat.lt_of_lt_of_le ?_ (Nat.mul_le_mul_left _ hul)
      rw [← Nat.pow_add]
      have p2 : 2 ^ ((ka + b64.unit + 1).toNat + (kb + b64.unit + 1).toNat + 1) ≤ 2 ^ (b64.unit + ((kc + b64.unit).toNat - 52)) :=
        Nat.pow_le_pow_right (by omega) (by rw [u64] at *; omega)
      rw [Nat.pow_succ] at p2
      omega
    obtain ⟨n1, n2⟩ := absorb hc0 hci hP
    have hUc : (2 : Int) ^ b64.unit = ((2 ^ b64.unit : Nat) : Int) := by simp
    have hbig : b64.mag (b64.abs a) * b64.mag (b64.abs b) < 2 ^ b64.unit * b64.mag (b64.abs c) := by
      have hule : b64.ulp (b64.abs c) ≤ b64.mag (b64.abs c) := Nat.le_of_dvd (Fmt.mag_pos (F := b64) hc0) (Fmt.ulp_dvd_mag _)
      have := Nat.mul_le_mul_left (2 ^ b64.unit) hule
      generalize 2 ^ b64.unit = U at *
      omega
    have hval : value b64 a * value b64 b + value b64 c * 2 ^ b64.unit =
        sgnd (b64.neg a != b64.neg b) (b64.mag (b64.abs a) * b64.mag (b64.abs b)) + sgnd (b64.neg c) (2 ^ b64.unit * b64.mag (b64.abs c)) := by
      rw [value_eq ha, value_eq hb, value_eq hc, val_sgnd, val_sgnd, val_sgnd, sgnd_mul, hUc]
      congr 1
      have := sgnd_mul (b64.neg c) false (b64.mag (b64.abs c)) (2 ^ b64.unit)
      rw [show sgnd false (2 ^ b64.unit) = ((2 ^ b64.unit : Nat) : Int) from rfl] at this
      rw [this, Nat.mul_comm]
      simp
    rw [hval]
    rw [negative_iff ha, negative_iff hb, negative_iff hc] at hs
    refine ⟨hc, fun _ => ?_, ?_⟩
    · rw [negative_iff hc]
      generalize 2 ^ b64.unit * b64.mag (b64.abs c) = T at *
      generalize b64.mag (b64.abs a) * b64.mag (b64.abs b) = P at *
      unfold sgnd
      cases b64.neg c <;> cases (b64.neg a != b64.neg b) <;> simp <;> omega
    · rw [absOf_eq]
      have key : (sgnd (b64.neg a != b64.neg b) (b64.mag (b64.abs a) * b64.mag (b64.abs b)) + sgnd (b64.neg c) (2 ^ b64.unit * b64.mag (b64.abs c))).natAbs =
          if (b64.neg a != b64.neg b) = b64.neg c then 2 ^ b64.unit * b64.mag (b64.abs c) + b64.mag (b64.abs a) * b64.mag (b64.abs b)
          else 2 ^ b64.unit * b64.mag (b64.abs c) - b64.mag (b64.abs a) * b64.mag (b64.abs b) := by
        generalize 2 ^ b64.unit * b64.mag (b64.abs c) = T at *
        generalize b64.mag (b64.abs a) * b64.mag (b64.abs b) = P at *
        unfold sgnd
        cases b64.neg c <;> cases (b64.neg a != b64.neg b) <;> simp <;> omega
      rw [key]
      split
      · exact n1
      · rename_i hne
        refine n2 ?_
        rcases hs with ⟨h1, h2⟩ | ⟨h1, h2⟩ | h1
        · exfalso; apply hne
          revert h1 h2
          cases b64.neg a <;> cases b64.neg b <;> cases b64.neg c <;> simp
        · exfalso; apply hne
          revert h1 h2
          cases b64.neg a <;> cases b64.neg b <;> cases b64.neg c <;> simp
        · exact h1

/-! ### scalbnf of an infinity -/

theorem coeff_range (n : Int) : 0 < coeff n ∧ coeff n < b64.inf := by
  have hi : b64.inf = 0x7FF0000000000000 := by decide
  unfold coeff
  rw [hi]
  split
  · decide
  · split
    · decide
    · constructor <;> simp only [Nat.reducePow] <;> omega

theorem scalbnf_inf {x : Nat} (n : Int) (hx : Pat b32 x) (h : Infinite b32 x) : scalbnf x n = x := by
  obtain ⟨c0, c1⟩ := coeff_range n
  have h' : b32.abs x = b32.inf := h
  have hcs := Nat.lt_trans c1 Fmt.inf_lt
  have hcm : b64.mul (b64.pack (b32.neg x) b64.inf) (coeff n) = b64.pack (b32.neg x) b64.inf := by
    have hab : b64.abs (b64.pack (b32.neg x) b64.inf) = b64.inf := Fmt.abs_pack Fmt.inf_lt
    have hfin : b64.isFin (b64.pack (b32.neg x) b64.inf) = false := by unfold Fmt.isFin; rw [hab]; simp
    unfold Fmt.mul
    rw [Fmt.isNaN_false.2 (by rw [hab]; exact Nat.le_refl _), Fmt.isNaN_false.2 (by rw [Fmt.abs_of_lt hcs]; omega), hfin, hab, Fmt.abs_of_lt hcs, Fmt.neg_pack Fmt.inf_lt,
      Fmt.neg_of_lt hcs, if_neg (by simp), if_neg (by simp), if_neg (by have := Fmt.inf_pos ok64; omega)]
    simp
  unfold scalbnf
  rw [Fmt.conv_inf h', hcm, Fmt.conv_inf (Fmt.abs_pack Fmt.inf_lt), Fmt.neg_pack Fmt.inf_lt, ← h', Fmt.pack_self hx]

theorem scalbnf_nan {x : Nat} (n : Int) (h : NaN b32 x) : NaN b32 (scalbnf x n) := by
  have e : b32.conv b64 x = b64.nan := by unfold Fmt.conv; rw [if_pos (Fmt.isNaN_iff.2 h)]
  have e2 : b64.mul b64.nan (coeff n) = b64.nan := by unfold Fmt.mul; rw [if_pos (Or.inl (by decide +kernel))]
  unfold scalbnf
  rw [e, e2]
  unfold Spec.NaN
  decide +kernel

end Verif.Math
