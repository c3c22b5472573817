import Verif.Float.Lemmas
import Verif.Bits

/-!
# Floating-point operations on bit patterns

A floating-point number of format `F` is a natural number below `2 * F.signBit`.  `rnd` computes the
pattern nearest to a rational and the operations below are the WebAssembly instructions (IEEE-754,
roundTiesToEven).  All NaNs that operations produce are one quiet NaN; nothing is claimed about payloads.
-/

namespace Verif.Float

namespace Fmt
variable (F : Fmt)

/-- The pattern without its sign bit (`f64.abs`). -/
def abs (x : Nat) : Nat := x % F.signBit

/-- Whether the sign bit is set. -/
def neg (x : Nat) : Bool := x / F.signBit % 2 = 1

/-- A sign and a magnitude pattern. -/
def pack (s : Bool) (r : Nat) : Nat := (if s then F.signBit else 0) + r

/-- The pattern with the sign of another one (`f64.copysign`). -/
def copysign (x y : Nat) : Nat := F.pack (F.neg y) (F.abs x)

/-- Not a number. -/
def isNaN (x : Nat) : Bool := F.inf < F.abs x

/-- Neither infinite nor a NaN. -/
def isFin (x : Nat) : Bool := F.abs x < F.inf

/-- The value in units of the smallest subnormal.  An infinity gets the value the next exponent would
have, which is larger than all finite values. -/
def val (x : Nat) : Int := if F.neg x then -(F.mag (F.abs x) : Int) else F.mag (F.abs x)

/-- The quiet NaN. -/
def nan : Nat := F.inf + 2 ^ (F.f - 1)

/-- The largest pattern whose magnitude is at most `q`. -/
def floorPat (q : Nat) : Nat :=
  if q < 2 ^ (F.f + 1) then q else (Nat.log2 q - F.f) * 2 ^ F.f + q / 2 ^ (Nat.log2 q - F.f)

/-- The pattern nearest to `num / den`, ties to even. -/
def rnd (num den : Nat) : Nat :=
  let n := F.floorPat (num / den)
  if F.inf ≤ n then F.inf
  else if den * (F.mag n + F.mag (n + 1)) < 2 * num ∨ (2 * num = den * (F.mag n + F.mag (n + 1)) ∧ n % 2 = 1) then n + 1
  else n

/-- An integer number of units, rounded; `z` is the sign of a zero. -/
def rndInt (z : Bool) (s : Int) : Nat := if s = 0 then F.pack z 0 else F.pack (s < 0) (F.rnd s.natAbs 1)

/-- Addition. -/
def add (x y : Nat) : Nat :=
  if F.isNaN x ∨ F.isNaN y then F.nan
  else if F.isFin x then
    if F.isFin y then F.rndInt (F.neg x && F.neg y) (F.val x + F.val y) else y
  else if F.isFin y ∨ F.neg x = F.neg y then x else F.nan

/-- Sign change. -/
def opp (x : Nat) : Nat := F.pack (!F.neg x) (F.abs x)

/-- Subtraction. -/
def sub (x y : Nat) : Nat := F.add x (F.opp y)

/-- Multiplication. -/
def mul (x y : Nat) : Nat :=
  if F.isNaN x ∨ F.isNaN y then F.nan
  else if F.isFin x ∧ F.isFin y then F.pack (F.neg x != F.neg y) (F.rnd (F.mag (F.abs x) * F.mag (F.abs y)) (2 ^ F.unit))
  else if F.abs x = 0 ∨ F.abs y = 0 then F.nan
  else F.pack (F.neg x != F.neg y) F.inf

/-- `<`. -/
def lt (x y : Nat) : Bool := !F.isNaN x && !F.isNaN y && decide (F.val x < F.val y)

/-- `<=`. -/
def le (x y : Nat) : Bool := !F.isNaN x && !F.isNaN y && decide (F.val x ≤ F.val y)

/-- `==`. -/
def eq (x y : Nat) : Bool := !F.isNaN x && !F.isNaN y && decide (F.val x = F.val y)

/-- Conversion of an integer. -/
def ofInt (a : Int) : Nat := F.rndInt false (a * 2 ^ F.unit)

/-- The integral part of a finite magnitude. -/
def whole (x : Nat) : Nat := F.mag (F.abs x) / 2 ^ F.unit

/-- Truncation to an integer (`f64.trunc`). -/
def trunc (x : Nat) : Nat :=
  if F.isFin x then F.pack (F.neg x) (F.rnd (F.whole x * 2 ^ F.unit) 1) else x

/-- The integer nearest to `n / 2^u`, ties to even. -/
def nearInt (n u : Nat) : Nat :=
  if 2 ^ u < 2 * (n % 2 ^ u) ∨ (2 ^ u = 2 * (n % 2 ^ u) ∧ n / 2 ^ u % 2 = 1) then n / 2 ^ u + 1 else n / 2 ^ u

/-- Rounding to an integer, ties to even (`f64.nearest`). -/
def rint (x : Nat) : Nat :=
  if F.isFin x then F.pack (F.neg x) (F.rnd (nearInt (F.mag (F.abs x)) F.unit * 2 ^ F.unit) 1) else x

/-- Conversion to another format. -/
def conv (G : Fmt) (x : Nat) : Nat :=
  if F.isNaN x then G.nan
  else if F.isFin x then G.pack (F.neg x) (G.rnd (F.mag (F.abs x) * 2 ^ G.unit) (2 ^ F.unit))
  else G.pack (F.neg x) G.inf

end Fmt

variable {F : Fmt}

theorem floorPat_le (q : Nat) : F.mag (F.floorPat q) ≤ q ∧ q < F.mag (F.floorPat q + 1) := by
  have key : F.mag (F.floorPat q) ≤ q ∧ q < F.mag (F.floorPat q) + F.ulp (F.floorPat q) := by
    unfold Fmt.floorPat
    have hp := Nat.two_pow_pos F.f
    by_cases h : q < 2 ^ (F.f + 1)
    · rw [if_pos h]
      rw [Nat.pow_succ] at h
      by_cases h' : q < 2 ^ F.f
      · rw [F.mag_small h']
        exact ⟨Nat.le_refl _, by have := F.ulp_pos q; omega⟩
      · have := F.mag_mk 1 q (by omega) (by omega) (by rw [Nat.pow_succ]; omega)
        rw [show 1 * 2 ^ F.f + (q - 2 ^ F.f) = q by omega] at this
        rw [this]
        refine ⟨by simp, ?_⟩
        have := F.ulp_pos q
        simp; omega
    · rw [if_neg h]
      have hq : q ≠ 0 := by
        have := Nat.two_pow_pos (F.f + 1)
        omega
      obtain ⟨h1, h2⟩ := log2_bounds hq
      have hl : F.f + 1 ≤ Nat.log2 q := by
        rcases Nat.lt_or_ge (Nat.log2 q) (F.f + 1) with hlt | hge
        · have := Nat.pow_le_pow_right (n := 2) (by omega) (show Nat.log2 q + 1 ≤ F.f + 1 by omega)
          omega
        · exact hge
      generalize hk : Nat.log2 q - F.f = k at *
      have hk' : Nat.log2 q = F.f + k := by omega
      rw [hk'] at h1 h2
      have hpk := Nat.two_pow_pos k
      have hm1 : 2 ^ F.f ≤ q / 2 ^ k := (Nat.le_div_iff_mul_le hpk).2 (by rw [← Nat.pow_add]; exact h1)
      have hm2 : q / 2 ^ k < 2 ^ (F.f + 1) := by
        rw [Nat.div_lt_iff_lt_mul hpk, ← Nat.pow_add]
        rw [show F.f + 1 + k = F.f + k + 1 by omega]; exact h2
      have e : k * 2 ^ F.f + q / 2 ^ k = (k + 1) * 2 ^ F.f + (q / 2 ^ k - 2 ^ F.f) := by
        rw [Nat.add_mul, Nat.one_mul]; omega
      have hmag := F.mag_mk (k + 1) (q / 2 ^ k) (by omega) hm1 hm2
      rw [← e, Nat.add_sub_cancel] at hmag
      have hulp : F.ulp (k * 2 ^ F.f + q / 2 ^ k) = 2 ^ k := by
        unfold Fmt.ulp
        rw [e, Nat.mul_comm, Nat.mul_add_div hp, Nat.div_eq_of_lt (by rw [Nat.pow_succ] at hm2; omega)]
        simp
      rw [hmag, hulp]
      have := Nat.div_add_mod q (2 ^ k)
      have := Nat.mod_lt q hpk
      constructor
      · exact Nat.div_mul_le_self q (2 ^ k)
      · rw [Nat.mul_comm]; omega
  exact ⟨key.1, by rw [F.mag_succ]; exact key.2⟩

theorem floorPat_unique {q n : Nat} (h1 : F.mag n ≤ q) (h2 : q < F.mag (n + 1)) : F.floorPat q = n := by
  obtain ⟨h3, h4⟩ := floorPat_le (F := F) q
  rcases Nat.lt_trichotomy (F.floorPat q) n with h | h | h
  · have := F.mag_mono (show F.floorPat q + 1 ≤ n by omega)
    omega
  · exact h
  · have := F.mag_mono (show n + 1 ≤ F.floorPat q by omega)
    omega

/-- `rnd` rounds to nearest. -/
theorem rnd_nearest (num den : Nat) (hd : 0 < den) : Nearest F num den (F.rnd num den) := by
  obtain ⟨h1, h2⟩ := floorPat_le (F := F) (num / den)
  unfold Fmt.rnd
  simp only
  generalize F.floorPat (num / den) = n at *
  have e1 : den * F.mag n ≤ num := by
    have := Nat.mul_le_mul_left den h1
    have := Nat.mul_div_le num den
    omega
  have e2 : num < den * F.mag (n + 1) := by
    rw [Nat.mul_comm]
    exact (Nat.div_lt_iff_lt_mul hd).1 h2
  by_cases hi : F.inf ≤ n
  · rw [if_pos hi]
    refine nearest_inf hd ?_
    have := Nat.mul_le_mul_left den (F.mag_mono hi)
    omega
  · rw [if_neg hi, Nat.mul_add]
    by_cases hc : den * F.mag n + den * F.mag (n + 1) < 2 * num ∨ (2 * num = den * F.mag n + den * F.mag (n + 1) ∧ n % 2 = 1)
    · rw [if_pos hc]
      refine nearest_hi hd (by omega) (by omega) ?_
      rcases hc with hc | hc
      · exact .inl hc
      · exact .inr ⟨hc.1, by omega⟩
    · rw [if_neg hc]
      refine nearest_lo (by omega) e1 ?_
      omega

theorem rnd_eq {num den r : Nat} (hd : 0 < den) (h : Nearest F num den r) : F.rnd num den = r :=
  (rnd_nearest num den hd).unique hd h

theorem rnd_exact {num den n : Nat} (hd : 0 < den) (hn : n ≤ F.inf) (h : num = den * F.mag n) : F.rnd num den = n :=
  rnd_eq hd (nearest_exact hd hn h)

theorem rnd_mag {n : Nat} (hn : n ≤ F.inf) : F.rnd (F.mag n) 1 = n := rnd_exact (by omega) hn (by omega)

theorem rnd_le (num den : Nat) (hd : 0 < den) : F.rnd num den ≤ F.inf := (rnd_nearest num den hd).le

theorem rnd_zero (den : Nat) (hd : 0 < den) : F.rnd 0 den = 0 := rnd_exact hd (by omega) (by rw [F.mag_zero]; omega)

/-- `rnd` is monotone. -/
theorem rnd_mono {a b den : Nat} (hd : 0 < den) (h : a ≤ b) : F.rnd a den ≤ F.rnd b den := by
  have ha := rnd_nearest (F := F) a den hd
  have hb := rnd_nearest (F := F) b den hd
  rcases Nat.lt_or_ge (F.rnd b den) (F.rnd a den) with hlt | hge
  · exfalso
    have m := Nat.mul_lt_mul_of_pos_left (F.mag_strictMono hlt) hd
    have h1 := ha.best _ hb.le
    have h2 := hb.best _ ha.le
    have e1 := ha.even _ hb.le (by omega)
    have e2 := hb.even _ ha.le (by omega)
    unfold dist at h1 h2 e1 e2
    generalize F.rnd b den = s at *
    generalize F.rnd a den = r at *
    generalize hx : den * F.mag r = x at *
    generalize hy : den * F.mag s = y at *
    by_cases hab : a = b
    · subst hab
      have p1 := e1 (by omega)
      have p2 := e2 (by omega)
      -- both even: the pattern between is strictly closer
      have hs : s + 1 < r := by omega
      have m1 := Nat.mul_lt_mul_of_pos_left (F.mag_strictMono (show s < s + 1 by omega)) hd
      have m2 := Nat.mul_lt_mul_of_pos_left (F.mag_strictMono hs) hd
      have h3 := ha.best (s + 1) (by have := ha.le; omega)
      unfold dist at h3
      omega
    · omega
  · exact hge

end Verif.Float
