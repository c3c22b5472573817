import Verif.Trip.Int

/-!
# Numbers printed and read back

The text handed over by `printf` is given to `strtod` and the like as a string.
-/

namespace Verif.Trip
open Verif.Strtol Verif.Printf Verif.Printf.Spec Verif.Math.Spec Verif.Float

/-! ## Floating-point numbers -/

private theorem exponent_small {F : Fmt} (o : F.Ok) {n x k : Nat} {e : Int} (hx : x < F.inf) (hz : n = 0 → e = 0) (h0 : 0 ≤ e + F.unit)
    (h : n * 2 ^ (e + F.unit).toNat = F.mag x * 16 ^ k) (hk : 4 * k ≤ F.f) (hb : F.f + 2 * F.bias < 100000) : e.natAbs < 10 ^ 5 := by
  obtain ⟨hu, hb3⟩ := Fmt.unit_eq o
  have hof := o.f
  by_cases hn : n = 0
  · rw [hz hn]; decide
  · have h1 : 1 * 2 ^ (e + F.unit).toNat ≤ n * 2 ^ (e + F.unit).toNat := Nat.mul_le_mul_right _ (by omega)
    have h2 := F.mag_mono (Nat.le_of_lt hx)
    rw [Fmt.mag_inf o] at h2
    have h3 : F.mag x * 16 ^ k ≤ 2 ^ (F.f + 2 * F.bias) * 2 ^ (4 * k) := by
      rw [Nat.pow_mul 2 4 k]
      exact Nat.mul_le_mul_right _ h2
    rw [← Nat.pow_add] at h3
    have h4 : 2 ^ (e + F.unit).toNat ≤ 2 ^ (F.f + 2 * F.bias + 4 * k) := by omega
    have h5 := (Nat.pow_le_pow_iff_right (by omega : 1 < 2)).mp h4
    omega

private theorem pack_self {F : Fmt} {x : Nat} (hx : x < 2 * F.signBit) : F.pack (decide (negative F x)) (absOf F x) = x := by
  unfold absOf
  by_cases h : negative F x
  · rw [decide_eq_true h]
    unfold negative at h
    unfold Fmt.pack
    rw [if_pos rfl, Nat.mod_eq_sub_mod h, Nat.mod_eq_of_lt (by omega)]; omega
  · rw [decide_eq_false h]
    unfold negative at h
    unfold Fmt.pack
    rw [if_neg (by decide), Nat.mod_eq_of_lt (by omega)]; omega

/-- Zero is printed with the exponent zero. -/
private theorem lead_zero {F : Fmt} {x lead n V : Nat} {e : Int} (h : HexExact F x lead n V e) (hz : Math.Spec.Zero F x → e = 0) : lead * 16 ^ n + V = 0 → e = 0 := by
  intro h0
  obtain ⟨-, h⟩ := h
  rw [h0, Nat.zero_mul] at h
  have : size F x = 0 := (Nat.mul_eq_zero.mp h.symm).resolve_right (by have := Nat.pow_pos (a := 16) (n := n) (by omega); omega)
  apply hz
  unfold Math.Spec.Zero
  unfold size at this
  rcases Nat.eq_zero_or_pos (absOf F x) with h | h
  · exact h
  · have := F.mag_strictMono h
    omega

/-- C139: `strtod` reads back what `%a` and `%A` print of a `double` with any flags and a width up to 6000, without a precision: the same
pattern, signs of zeros included, without error, and all but the spaces after it is consumed. -/
theorem C139_double (L : Nat) (m : Mem) (d : Dir) (hd : d.Ok) (hc : d.conv = 97 ∨ d.conv = 65) (hs : d.size ≠ .L)
    (a : Ask) (args args' : List Int) (x : Nat) (hx : x < 2 ^ 64) (ha : d.ask args = some (a, (x : Int) :: args'))
    (hw : a.width ≤ 6000) (hf : Math.Spec.Finite b64 x) (hp : a.prec = none) :
    ∃ o stop, vfprintf L m d.text args = some o ∧ Decimal.strtod (ints o.chunks.flatten) = some ⟨x, stop, false⟩ ∧
      ∀ c ∈ o.chunks.flatten.drop stop, c = 32 := by
  obtain ⟨lead, n, V, e, o, hn, hV, -, hl, hz, hE, h1, h2, -⟩ := C120_exact L m d hd hc hs a args args' x hx ha (by omega) hf hp
  obtain ⟨stop, r1, r2⟩ := read_back Decimal.hexOk_double d a (decide (d.conv = 65)) (decide (negative b64 x)) lead n V e (by rw [hl]; split <;> omega) hV
    (show 4 * n ≤ 52 by omega) (absOf b64 x) hf hE.1 hE.2
    (numeral_length_le _ 4 (exponent_small ok64 hf (lead_zero hE hz) hE.1 hE.2 (show 4 * n ≤ 52 by omega) (by decide)))
    (show 1074 + 4 * 16 + 4 * (a.width + n + 12) ≤ 32000 by omega)
  refine ⟨o, stop, h1, ?_, by rw [h2]; exact r2⟩
  rw [h2]
  refine r1.trans ?_
  rw [show Decimal.double.fmt = b64 from rfl, pack_self hx]

/-- C139, `long double`, up to a width of 3000. -/
theorem C139_long (dec : Decimal.Dec → Option Nat) (L : Nat) (m : Mem) (d : Dir) (hd : d.Ok) (hc : d.conv = 97 ∨ d.conv = 65) (hs : d.size = .L)
    (a : Ask) (args args' : List Int) (x : Nat) (hx : x < 2 ^ 128) (ha : d.ask args = some (a, (x : Int) :: args'))
    (hw : a.width ≤ 3000) (hf : Math.Spec.Finite b128 x) (hp : a.prec = none) :
    ∃ o stop, vfprintf L m d.text args = some o ∧ Decimal.strtold dec (ints o.chunks.flatten) = some ⟨x, stop, false⟩ ∧
      ∀ c ∈ o.chunks.flatten.drop stop, c = 32 := by
  obtain ⟨lead, n, V, e, o, hn, hV, -, hl, hz, hE, h1, h2, -⟩ := C121_exact L m d hd hc hs a args args' x hx ha (by omega) hf hp
  obtain ⟨stop, r1, r2⟩ := read_back (Decimal.hexOk_long dec) d a (decide (d.conv = 65)) (decide (negative b128 x)) lead n V e (by rw [hl]; split <;> omega) hV
    (show 4 * n ≤ 112 by omega) (absOf b128 x) hf hE.1 hE.2
    (numeral_length_le _ 4 (exponent_small ok128 hf (lead_zero hE hz) hE.1 hE.2 (show 4 * n ≤ 112 by omega) (by decide)))
    (show 16494 + 4 * 32 + 4 * (a.width + n + 12) ≤ 32000 by omega)
  refine ⟨o, stop, h1, ?_, by rw [h2]; exact r2⟩
  rw [h2]
  refine r1.trans ?_
  rw [show (Decimal.long dec).fmt = b128 from rfl, pack_self hx]

/-- `% -25A` of the least subnormal number. -/
example : ∃ o stop, vfprintf 0 (fun _ => 0) [37, 32, 45, 50, 53, 65] [1] = some o ∧ Decimal.strtod (ints o.chunks.flatten) = some ⟨1, stop, false⟩ ∧
    ∀ c ∈ o.chunks.flatten.drop stop, c = 32 :=
  C139_double 0 (fun _ => 0) ⟨[32, 45], .num [50, 53], none, .none, 65⟩ (by simp [Dir.Ok, Field.Ok, Field.text, Printf.Spec.value]) (.inr rfl) (by decide)
    ⟨true, 25, none⟩ [1] [] 1 (by decide) rfl (by decide) (by unfold Math.Spec.Finite; decide +kernel) rfl

example : ∃ o stop, vfprintf 0 (fun _ => 0) [37, 76, 97] [1] = some o ∧ Decimal.strtold (fun _ => none) (ints o.chunks.flatten) = some ⟨1, stop, false⟩ ∧
    ∀ c ∈ o.chunks.flatten.drop stop, c = 32 :=
  C139_long _ 0 (fun _ => 0) ⟨[], .num [], none, .L, 97⟩ (by simp [Dir.Ok, Field.Ok, Field.text, Printf.Spec.value]) (.inl rfl) rfl
    ⟨false, 0, none⟩ [1] [] 1 (by decide) rfl (by decide) (by unfold Math.Spec.Finite; decide +kernel) rfl

/-! ## Integers -/

private theorem one_prints (L : Nat) (h8 : L % 8 = 0) (hL : L < 2 ^ 32) (m : Mem) (hm : ∀ a, m a < 256) (d : Dir) (hd : d.Ok) (hi : d.isInt = true)
    (a : Ask) (args args' : List Int) (v : Int) (ha : d.ask args = some (a, v :: args')) (hcl : d.Clean L m a v) (hlen : (d.int a v).length < 2 ^ 31) :
    ∃ o, vfprintf L m d.text args = some o ∧ o.chunks.flatten = d.int a v := by
  obtain ⟨o, h1, h2, -⟩ := C46_text_partial L h8 hL m hm [.dir d] args (d.int a v ++ []) [] (.int hi ha .nil)
    (by intro i h; rw [List.mem_singleton.mp h]; exact hd) (by
      unfold Clean
      rw [ha]
      exact ⟨hcl, trivial⟩) (by rw [List.append_nil]; exact hlen)
  refine ⟨o, ?_, by rw [h2, List.append_nil]⟩
  have : format [.dir d] = d.text := by simp [format, Item.text]
  rw [← this]
  exact h1

/-- C140: what `%d` and `%i` print with any flags, width, precision and length modifier is read back by `strtoll` with base 10 and, if it is
in their range, by `strtol` and `atoi`.  Missing: the least values of the types, for which see `C32_min_undefined`; zero with the precision
zero has no digits. -/
theorem C140_signed_partial (L : Nat) (h8 : L % 8 = 0) (hL : L < 2 ^ 32) (m : Mem) (hm : ∀ a, m a < 256) (d : Dir) (hd : d.Ok)
    (hc : d.conv = 100 ∨ d.conv = 105) (hs : d.size ≠ .L) (a : Ask) (args args' : List Int) (v : Int) (ha : d.ask args = some (a, v :: args'))
    (hv : d.size.signed v ≠ -2 ^ 63) (hlen : (d.int a v).length < 2 ^ 31) (h0 : ¬ (d.size.signed v = 0 ∧ a.prec = some 0)) :
    ∃ o stop, vfprintf L m d.text args = some o ∧ (∀ c ∈ o.chunks.flatten.drop stop, c = 32) ∧
      strtoll (ints o.chunks.flatten) 10 = some ⟨d.size.signed v, stop, false⟩ ∧
      (-2 ^ 31 < d.size.signed v ∧ d.size.signed v < 2 ^ 31 →
        strtol (ints o.chunks.flatten) 10 = some ⟨d.size.signed v, stop, false⟩ ∧ atoi 32 (ints o.chunks.flatten) = some (d.size.signed v)) := by
  have hi : d.isInt = true := by
    unfold Dir.isInt
    rw [decide_eq_true_eq]
    refine ⟨?_, hs⟩
    rcases hc with h | h <;> rw [h] <;> decide
  obtain ⟨o, h1, h2⟩ := one_prints L h8 hL m hm d hd hi a args args' v ha (clean_int L m d a v hi hv) hlen
  obtain ⟨stop, F⟩ := field_signed d hc a v h0
  obtain ⟨blank, r, w, ds, e, f1, f2, f3, f4, f5, f6⟩ := F.form
  refine ⟨o, stop, h1, by rw [h2]; exact F.rest, ?_⟩
  have hr : -2 ^ 63 ≤ d.size.signed v ∧ d.size.signed v < 2 ^ 63 := by
    have : ∀ s : Size, s ≠ .L → ∀ v : Int, -2 ^ 63 ≤ s.signed v ∧ s.signed v < 2 ^ 63 := by
      intro s hs v
      unfold Size.signed
      cases s <;> simp only [Size.bytes] <;> first | exact absurd rfl hs | skip
      all_goals
        rw [Int.bmod_def]
        omega
    exact this d.size hs v
  rw [h2, e]
  generalize d.size.signed v = x at *
  have hden : denoted (decide (x < 0)) 10 ds = x := by
    unfold denoted
    rw [f5]
    split
    · have : x < 0 := of_decide_eq_true ‹_›
      omega
    · have : ¬ x < 0 := by simpa using ‹¬ decide (x < 0) = true›
      omega
  constructor
  · have := C32_strtoll_partial blank r 10 (.inr ⟨by omega, by omega⟩) f1 f2 f3 w _ 10 ds f4 (by rw [hden]; omega)
    rw [hden, if_neg (by omega), if_neg (by omega), ← f6] at this
    exact this
  · rintro ⟨g1, g2⟩
    constructor
    · have := C32_strtol_partial blank r 10 (.inr ⟨by omega, by omega⟩) f1 f2 f3 w _ 10 ds f4 (by rw [hden]; omega)
      rw [hden, if_neg (by omega), if_neg (by omega), ← f6] at this
      exact this
    · have := (C74_atoi_partial blank r f1 f2 f3 w _ 10 ds f4).1 (by rw [f5]; omega)
      rw [hden] at this
      exact this

/-- C140: what `%u`, `%o`, `%x` and `%X` print, with or without the flag `#`, is read back by `strtoull` with the base 10, 8 or 16 and, if it
is in its range, by `strtoul`. -/
theorem C140_unsigned (L : Nat) (h8 : L % 8 = 0) (hL : L < 2 ^ 32) (m : Mem) (hm : ∀ a, m a < 256) (d : Dir) (hd : d.Ok)
    (hc : d.conv = 117 ∨ d.conv = 111 ∨ d.conv = 120 ∨ d.conv = 88) (hs : d.size ≠ .L) (a : Ask) (args args' : List Int) (v : Int)
    (ha : d.ask args = some (a, v :: args')) (hlen : (d.int a v).length < 2 ^ 31) (h0 : ¬ (d.size.unsigned v = 0 ∧ a.prec = some 0)) :
    ∃ o stop, vfprintf L m d.text args = some o ∧ (∀ c ∈ o.chunks.flatten.drop stop, c = 32) ∧
      strtoull (ints o.chunks.flatten) (if d.conv = 117 then 10 else if d.conv = 111 then 8 else 16) = some ⟨d.size.unsigned v, stop, false⟩ ∧
      (d.size.unsigned v < 2 ^ 32 →
        strtoul (ints o.chunks.flatten) (if d.conv = 117 then 10 else if d.conv = 111 then 8 else 16) = some ⟨d.size.unsigned v, stop, false⟩) := by
  have hi : d.isInt = true := by
    unfold Dir.isInt
    rw [decide_eq_true_eq]
    refine ⟨?_, hs⟩
    rcases hc with h | h | h | h <;> rw [h] <;> decide
  obtain ⟨o, h1, h2⟩ := one_prints L h8 hL m hm d hd hi a args args' v ha ⟨by omega, by omega, by omega, by omega⟩ hlen
  obtain ⟨stop, F⟩ := field_unsigned d hc a v h0
  obtain ⟨blank, r, w, ds, e, f1, f2, f3, f4, f5, f6⟩ := F.form
  refine ⟨o, stop, h1, by rw [h2]; exact F.rest, ?_⟩
  have hb : radixOf d.conv = 0 ∨ 2 ≤ radixOf d.conv ∧ radixOf d.conv ≤ 36 := by
    unfold radixOf
    right
    split
    · omega
    · split <;> omega
  have hr : d.size.unsigned v < 2 ^ 64 := by
    have : ∀ s : Size, s ≠ .L → ∀ v : Int, s.unsigned v < 2 ^ 64 := by
      intro s hs v
      unfold Size.unsigned
      cases s <;> simp only [Size.bytes] <;> first | exact absurd rfl hs | skip
      all_goals omega
    exact this d.size hs v
  rw [h2, e]
  show strtoull _ (radixOf d.conv) = _ ∧ (_ → strtoul _ (radixOf d.conv) = _)
  generalize d.size.unsigned v = x at *
  have hden : denoted false (radixOf d.conv) ds = x := by
    unfold denoted
    rw [f5, if_neg (by decide)]
  constructor
  · have := C32_strtoull blank r _ hb f1 f2 f3 w _ _ ds f4
    rw [hden, f5, if_neg (by omega), ← f6, Int.emod_eq_of_lt (by omega) (by omega)] at this
    exact this
  · intro g
    have := C32_strtoul blank r _ hb f1 f2 f3 w _ _ ds f4
    rw [hden, f5, if_neg (by omega), ← f6, Int.emod_eq_of_lt (by omega) (by omega)] at this
    exact this

/-- `%+06d` of -42 and `%-#8x` of 255. -/
example (m : Mem) (hm : ∀ a, m a < 256) : ∃ o stop, vfprintf 65536 m [37, 43, 48, 54, 100] [-42] = some o ∧ (∀ c ∈ o.chunks.flatten.drop stop, c = 32) ∧
    strtol (ints o.chunks.flatten) 10 = some ⟨-42, stop, false⟩ := by
  obtain ⟨o, stop, h1, h2, -, h3⟩ := C140_signed_partial 65536 rfl (by decide) m hm ⟨[43, 48], .num [54], none, .none, 100⟩
    (by simp [Dir.Ok, Field.Ok, Field.text, Printf.Spec.value]) (.inl rfl) (by decide) ⟨false, 6, none⟩ [-42] [] (-42) rfl (by decide) (by decide +kernel) (by decide)
  exact ⟨o, stop, h1, h2, (h3 (by decide)).1⟩

example (m : Mem) (hm : ∀ a, m a < 256) : ∃ o stop, vfprintf 65536 m [37, 45, 35, 56, 120] [255] = some o ∧ (∀ c ∈ o.chunks.flatten.drop stop, c = 32) ∧
    strtoul (ints o.chunks.flatten) 16 = some ⟨255, stop, false⟩ := by
  obtain ⟨o, stop, h1, h2, -, h3⟩ := C140_unsigned 65536 rfl (by decide) m hm ⟨[45, 35], .num [56], none, .none, 120⟩
    (by simp [Dir.Ok, Field.Ok, Field.text, Printf.Spec.value]) (by decide) (by decide) ⟨true, 8, none⟩ [255] [] 255 rfl (by decide +kernel) (by decide)
  exact ⟨o, stop, h1, h2, h3 (by decide)⟩

end Verif.Trip
