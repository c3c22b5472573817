import Verif.Printf.FloatRun

/-!
# Properties of the floating-point conversions of `printf`

The format is one directive `d`; `x` is the bit pattern of the argument that follows those of `*`. Texts,
exactness and rounding are those of `FloatSpec`. `fault` says that a scratch array was overrun.
-/

namespace Verif.Printf

open Spec Verif.Float Verif.Math.Spec

/-! ## Decimal notation -/

/-- C118 (part): a number of at least `2^64` is printed exactly, within the scratch arrays. -/
theorem C118_large_partial (L : Nat) (m : Mem) (d : Dir) (hd : d.Ok) (hc : d.conv = 102 ∨ d.conv = 70) (hs : d.size ≠ .L)
    (a : Ask) (args args' : List Int) (x : Nat) (hx : x < 2 ^ 64) (ha : d.ask args = some (a, (x : Int) :: args'))
    (hw : a.width < 2 ^ 31) (hp : decimals a + 320 < 2 ^ 31) (hf : Finite b64 x) (h1 : 2 ^ 64 * 2 ^ b64.unit ≤ size b64 x) :
    ∃ P o, DecExact x (decimals a) P ∧ vfprintf L m d.text args = some o ∧
      o.chunks.flatten = fixedText d a (decide (negative b64 x)) P ∧
      o.ret = (fixedText d a (decide (negative b64 x)) P).length ∧ o.stores = [] ∧ o.fault = false := by
  obtain ⟨sp, hA, hl, e⟩ := vfprintf_one L m d hd (f_convs hc) a args _ ha hw
  rw [convert_f L m sp 0 d.conv hc d.size hs hl x hx] at e
  obtain ⟨hA', hp'⟩ := hA.float
  rw [large_iff] at h1
  have h2 := finite_lt hf
  obtain ⟨N, hN, h⟩ := fixedBigint_eq hA' (decimals a) hp' x (b64.neg x) h1 h2
  have hS : b64.mag (b64.abs x) < 2 ^ 1024 * 2 ^ b64.unit := by
    rw [← mag_inf]
    have := b64.mag_lt_add (b64.abs x) (b64.inf - b64.abs x - 1)
    rw [show b64.abs x + (b64.inf - b64.abs x - 1 + 1) = b64.inf by omega] at this
    exact this
  have hb := exact_bound N (decimals a) _ _ hN hS
  have ht : fixedText d a (b64.neg x) (N * 10 ^ decimals a) =
      justifyF d { a with prec := some (decimals a) } (signF d (b64.neg x)) (numeral 10 false N ++ point d (decimals a) ++ List.replicate (decimals a) 48) := by
    unfold fixedText
    rw [Nat.mul_div_cancel _ (Nat.pow_pos (by decide)), places_mul 10 (by decide)]
    rfl
  have hlen := Nat.lt_of_le_of_lt (fixedText_length d a (b64.neg x) (N * 10 ^ decimals a) 309 (by decide) hb) (Nat.max_lt.2 ⟨hw, (by omega : _ < 2 ^ 31)⟩)
  simp only [← ht] at h
  obtain ⟨o, e1, c1, c2, c3, c4⟩ := h hlen
  have hfix : fixed (floatspec sp) (low (decide (d.conv = 70))) x = some o := by
    unfold fixed
    simp only
    rw [if_neg (by omega), if_neg (by omega), if_pos (by rw [← inf64]; exact h2), e1]
  rw [hfix] at e
  obtain ⟨r, e2, r1, r2, r3, r4⟩ := wrap_some (args := args') c1 c2 c3 hlen
  rw [← neg64 hx]
  refine ⟨N * 10 ^ decimals a, r, ?_, by rw [e]; exact e2, r1, r2, r3, by rw [r4, c4]⟩
  unfold DecExact
  change _ = b64.mag (b64.abs x) * _
  rw [← hN, Nat.mul_right_comm]

/-- C118 (part): a number from `2^-8` up to `2^64` is printed with an error of at most `1/2 + 2^-49` of a unit
in the last place, ties go to an even digit, and without decimals the result is correctly rounded. -/
theorem C118_moderate_partial (L : Nat) (m : Mem) (d : Dir) (hd : d.Ok) (hc : d.conv = 102 ∨ d.conv = 70) (hs : d.size ≠ .L)
    (a : Ask) (args args' : List Int) (x : Nat) (hx : x < 2 ^ 64) (ha : d.ask args = some (a, (x : Int) :: args'))
    (hw : a.width < 2 ^ 31) (hp : decimals a + 320 < 2 ^ 31) (h1 : 2 ^ b64.unit ≤ size b64 x * 2 ^ 8)
    (h2 : size b64 x < 2 ^ 64 * 2 ^ b64.unit) :
    ∃ P o, DecWithin (2 ^ 48 + 1) (2 ^ 49) x (decimals a) P ∧
      (2 * dist (size b64 x * 10 ^ decimals a) (P * 2 ^ b64.unit) = 2 ^ b64.unit → P % 2 = 0) ∧
      (decimals a = 0 → DecNearest x 0 P) ∧ vfprintf L m d.text args = some o ∧
      o.chunks.flatten = fixedText d a (decide (negative b64 x)) P ∧
      o.ret = (fixedText d a (decide (negative b64 x)) P).length ∧ o.stores = [] ∧
      (o.fault = true ↔ 100 ≤ P / 10 ^ decimals a) := by
  obtain ⟨sp, hA, hl, e⟩ := vfprintf_one L m d hd (f_convs hc) a args _ ha hw
  rw [convert_f L m sp 0 d.conv hc d.size hs hl x hx] at e
  obtain ⟨hA', hp'⟩ := hA.float
  rw [mid_iff] at h1
  have h2' : b64.abs x < 0x43F0000000000000 := by
    have := large_iff x
    omega
  obtain ⟨P, k1, k2, k3, h⟩ := fixedModerate_eq hA' (decimals a) hp' x (b64.neg x) h1 h2'
  have hsz : b64.mag (b64.abs x) = size b64 x := rfl
  rw [← Verif.Math.u64, hsz] at k1 k2 k3
  have hb := within_bound P (decimals a) _ _ (by omega) h2
  have hlen := Nat.lt_of_le_of_lt (fixedText_length d a (b64.neg x) P 20 (by decide) hb) (Nat.max_lt.2 ⟨hw, (by omega : _ < 2 ^ 31)⟩)
  have ht : justifyF d { a with prec := some (decimals a) } (signF d (b64.neg x))
      (numeral 10 false (P / 10 ^ decimals a) ++ point d (decimals a) ++ places 10 false (decimals a) P) = fixedText d a (b64.neg x) P := rfl
  simp only [ht] at h
  obtain ⟨o, e1, c1, c2, c3, c4⟩ := h hlen
  have hfix : fixed (floatspec sp) (low (decide (d.conv = 70))) x = some o := by
    unfold fixed
    simp only
    rw [if_neg (by omega), if_pos (by omega), e1]
  rw [hfix] at e
  obtain ⟨r, e2, r1, r2, r3, r4⟩ := wrap_some (args := args') c1 c2 c3 hlen
  rw [← neg64 hx]
  refine ⟨P, r, k1, k2, ?_, by rw [e]; exact e2, r1, r2, r3, by rw [r4, c4]⟩
  intro h0
  have k3' := k3 h0
  rw [h0] at k2 k3'
  exact ⟨k3', k2⟩

/-- C118 (part): a number below `2^-8` is printed with an error of at most 0.55 units in the last place,
whenever the call is defined. -/
theorem C118_small_partial (L : Nat) (m : Mem) (d : Dir) (hd : d.Ok) (hc : d.conv = 102 ∨ d.conv = 70) (hs : d.size ≠ .L)
    (a : Ask) (args args' : List Int) (x : Nat) (hx : x < 2 ^ 64) (ha : d.ask args = some (a, (x : Int) :: args'))
    (hw : a.width < 2 ^ 31) (hp : decimals a + 320 < 2 ^ 31) (h1 : size b64 x * 2 ^ 8 < 2 ^ b64.unit) (o : Out)
    (ho : vfprintf L m d.text args = some o) :
    ∃ P, DecWithin 11 20 x (decimals a) P ∧ o.chunks.flatten = fixedText d a (decide (negative b64 x)) P ∧
      o.ret = (fixedText d a (decide (negative b64 x)) P).length ∧ o.stores = [] := by
  obtain ⟨sp, hA, hl, e⟩ := vfprintf_one L m d hd (f_convs hc) a args _ ha hw
  rw [convert_f L m sp 0 d.conv hc d.size hs hl x hx, ho] at e
  obtain ⟨hA', hp'⟩ := hA.float
  have h1' : b64.abs x < 0x3F70000000000000 := by
    have := mid_iff x
    omega
  have hfix : fixed (floatspec sp) (low (decide (d.conv = 70))) x = fixedSmall (floatspec sp) (signchar (b64.neg x) (floatspec sp).flags) (b64.abs x) := by
    unfold fixed
    simp only
    rw [if_pos h1']
  rw [hfix] at e
  cases hS : fixedSmall (floatspec sp) (signchar (b64.neg x) (floatspec sp).flags) (b64.abs x) with
  | none => rw [hS] at e; cases e
  | some r =>
    rw [hS] at e
    obtain ⟨P, k1, c1, c2, c3⟩ := fixedSmall_eq hA' (decimals a) hp' x (b64.neg x) h1' hS
    have ht : justifyF d { a with prec := some (decimals a) } (signF d (b64.neg x))
        (numeral 10 false (P / 10 ^ decimals a) ++ point d (decimals a) ++ places 10 false (decimals a) P) = fixedText d a (b64.neg x) P := rfl
    rw [ht] at c1 c2
    have hsz : b64.mag (b64.abs x) = size b64 x := rfl
    rw [← Verif.Math.u64, hsz] at k1
    have hb := within_bound P (decimals a) (size b64 x) (2 ^ b64.unit) (by omega) (by omega)
    have hlen := Nat.lt_of_le_of_lt (fixedText_length d a (b64.neg x) P 20 (by decide) hb) (Nat.max_lt.2 ⟨hw, (by omega : _ < 2 ^ 31)⟩)
    obtain ⟨r', e2, r1, r2, r3, r4⟩ := wrap_some (args := args') c1 c2 c3 hlen
    change some o = wrap (some (r, args')) at e
    rw [e2, Option.some.injEq] at e
    rw [← neg64 hx, e]
    exact ⟨P, k1, r1, r2, r3⟩

/-- C118 (part): zeros, and all numbers below `2^-8` with 1074 decimals or more, are printed exactly. -/
theorem C118_small_exact_partial (L : Nat) (m : Mem) (d : Dir) (hd : d.Ok) (hc : d.conv = 102 ∨ d.conv = 70) (hs : d.size ≠ .L)
    (a : Ask) (args args' : List Int) (x : Nat) (hx : x < 2 ^ 64) (ha : d.ask args = some (a, (x : Int) :: args'))
    (hw : a.width < 2 ^ 31)
    (hp : decimals a + 320 < 2 ^ 31) (h1 : size b64 x * 2 ^ 8 < 2 ^ b64.unit) (h2 : Zero b64 x ∨ 1074 ≤ decimals a) :
    ∃ P o, DecExact x (decimals a) P ∧ vfprintf L m d.text args = some o ∧
      o.chunks.flatten = fixedText d a (decide (negative b64 x)) P ∧
      o.ret = (fixedText d a (decide (negative b64 x)) P).length ∧ o.stores = [] := by
  have hex : ∃ o, vfprintf L m d.text args = some o := by
    obtain ⟨sp, hA, hl, e⟩ := vfprintf_one L m d hd (f_convs hc) a args _ ha hw
    obtain ⟨hA', hp'⟩ := hA.float
    rw [convert_f L m sp 0 d.conv hc d.size hs hl x hx] at e
    have h1' : b64.abs x < 0x3F70000000000000 := by
      have := mid_iff x
      omega
    obtain ⟨o, e1, _⟩ := fixedSmall_defined (floatspec sp) (signchar (b64.neg x) (floatspec sp).flags)
      (by rw [signchar_eq hA']; exact signF_length ..) (decimals a) hp' hp (b64.abs x) h1' h2
    have hfix : fixed (floatspec sp) (low (decide (d.conv = 70))) x = some o := by
      unfold fixed
      simp only
      rw [if_pos h1', e1]
    rw [e, hfix]
    simp only [Option.map_some, wrap]
    split <;> exact ⟨_, rfl⟩
  obtain ⟨o, ho⟩ := hex
  obtain ⟨P, k, r⟩ := C118_small_partial L m d hd hc hs a args args' x hx ha hw hp h1 o ho
  refine ⟨P, o, ?_, ho, r⟩
  unfold DecWithin at k
  unfold DecExact
  rw [Verif.Math.u64] at k ⊢
  rcases h2 with h2 | h2
  · have h0 : size b64 x = 0 := by
      unfold size
      rw [show absOf b64 x = 0 from h2, b64.mag_zero]
    rw [h0, Nat.zero_mul] at k ⊢
    have := within_exact 0 1074 P (Nat.le_refl _) (by rw [Nat.zero_mul]; exact k)
    rw [this, Nat.zero_mul]
  · exact within_exact _ _ P h2 k

/-- C118: infinities and NaNs are named, in the case of the conversion, and padded with spaces. -/
theorem C118_nonfinite (L : Nat) (m : Mem) (d : Dir) (hd : d.Ok) (hc : d.conv = 102 ∨ d.conv = 70) (hs : d.size ≠ .L)
    (a : Ask) (args args' : List Int) (x : Nat) (hx : x < 2 ^ 64) (ha : d.ask args = some (a, (x : Int) :: args'))
    (hw : a.width < 2 ^ 31) (hf : ¬ Finite b64 x) :
    ∃ o, vfprintf L m d.text args = some o ∧
      o.chunks.flatten = nameText d a (decide (negative b64 x))
        (if absOf b64 x = b64.inf then (if d.conv = 70 then [73, 78, 70] else [105, 110, 102])
         else (if d.conv = 70 then [78, 65, 78] else [110, 97, 110])) ∧
      o.ret = o.chunks.flatten.length ∧ o.stores = [] ∧ o.fault = false := by
  obtain ⟨sp, hA, hl, e⟩ := vfprintf_one L m d hd (f_convs hc) a args _ ha hw
  rw [convert_f L m sp 0 d.conv hc d.size hs hl x hx] at e
  obtain ⟨hA', hp'⟩ := hA.float
  have hf' : ¬ b64.abs x < 0x7FF0000000000000 := by rw [← inf64]; exact hf
  have hfix : fixed (floatspec sp) (low (decide (d.conv = 70))) x = some (nonfinite (floatspec sp) (low (decide (d.conv = 70)))
      (signchar (b64.neg x) (floatspec sp).flags) (if b64.abs x = 0x7FF0000000000000 then [73, 78, 70] else [78, 65, 78])) := by
    unfold fixed
    simp only
    rw [if_neg (by omega), if_neg (by omega), if_neg hf']
  rw [hfix] at e
  obtain ⟨r, e2, r1, r2, r3, r4⟩ := name_call hA' hw (decide (d.conv = 70)) (b64.neg x)
    (if b64.abs x = 0x7FF0000000000000 then [73, 78, 70] else [78, 65, 78]) (by split <;> rfl) args'
  rw [← neg64 hx]
  refine ⟨r, by rw [e]; exact e2, ?_, by rw [r2, r1], r3, r4⟩
  rw [r1, nameText_prec]
  congr 1
  have hi : absOf b64 x = b64.inf ↔ b64.abs x = 0x7FF0000000000000 := by rw [← inf64]; exact Iff.rfl
  obtain ⟨n1, n2⟩ := name_low (decide (d.conv = 70))
  by_cases h : b64.abs x = 0x7FF0000000000000
  · rw [if_pos h, if_pos (hi.2 h), n1]; simp only [decide_eq_true_eq]
  · rw [if_neg h, if_neg (fun h' => h (hi.1 h')), n2]; simp only [decide_eq_true_eq]

/-- What a call prints and returns. -/
def seen (o : Option Out) : Option (List Nat × Int) := o.map fun o => (o.chunks.flatten, o.ret)

/-- Not every result is correctly rounded: the double nearest to 0.005 is above 0.005, yet `%.2f` prints
`0.00`; the same for 0.0025 and `%.3f`. -/
theorem C118_wrong :
    (seen (vfprintf 0 (fun _ => 0) [37, 46, 50, 102] [0x3F747AE147AE147B]) = some ([48, 46, 48, 48], 4) ∧
      DecNearest 0x3F747AE147AE147B 2 1 ∧ ¬ DecNearest 0x3F747AE147AE147B 2 0) ∧
    (seen (vfprintf 0 (fun _ => 0) [37, 46, 51, 102] [0x3F647AE147AE147B]) = some ([48, 46, 48, 48, 50], 5) ∧
      DecNearest 0x3F647AE147AE147B 3 3 ∧ ¬ DecNearest 0x3F647AE147AE147B 3 2) := by
  unfold DecNearest
  decide +kernel

/-- `%.1f` of `2.25`, `%.2f` of `1e300` and `%.1074f` of the smallest positive number meet the hypotheses. -/
example : ∃ P o, DecWithin (2 ^ 48 + 1) (2 ^ 49) 0x4002000000000000 1 P ∧ vfprintf 0 (fun _ => 0) [37, 46, 49, 102] [0x4002000000000000] = some o ∧
    o.chunks.flatten = fixedText ⟨[], .num [], some (.num [49]), .none, 102⟩ ⟨false, 0, some 1⟩ false P := by
  obtain ⟨P, o, h1, _, _, h2, h3, _⟩ := C118_moderate_partial 0 (fun _ => 0) ⟨[], .num [], some (.num [49]), .none, 102⟩
    ⟨by simp, ⟨by simp, by decide⟩, by simp [Field.text], by intro f hf; cases hf; exact ⟨by decide, by decide⟩⟩ (Or.inl rfl) (by decide)
    ⟨false, 0, some 1⟩ [0x4002000000000000] [] 0x4002000000000000 (by decide) (by decide +kernel) (by decide) (by decide) (by decide +kernel) (by decide +kernel)
  have hn : decide (negative b64 0x4002000000000000) = false := by decide +kernel
  rw [hn] at h3
  exact ⟨P, o, h1, h2, h3⟩

example : ∃ P o, DecExact 0x7E37E43C8800759C 6 P ∧ vfprintf 0 (fun _ => 0) [37, 102] [0x7E37E43C8800759C] = some o ∧ o.fault = false := by
  obtain ⟨P, o, h1, h2, _, _, _, h3⟩ := C118_large_partial 0 (fun _ => 0) ⟨[], .num [], none, .none, 102⟩
    ⟨by simp, ⟨by simp, by decide⟩, by simp [Field.text], by intro f hf; cases hf⟩ (Or.inl rfl) (by decide)
    ⟨false, 0, none⟩ [0x7E37E43C8800759C] [] 0x7E37E43C8800759C (by decide) (by decide +kernel) (by decide) (by decide) (by unfold Finite; decide +kernel) (by decide +kernel)
  exact ⟨P, o, h1, h2, h3⟩

/-! ## Scratch arrays -/

/-- C119 (partial: numbers below `2^-8` are missing, see `C119_zero_overruns` and `C119_small_overruns`): `%f`
stays within its scratch arrays for magnitudes from `2^-8` to 99 and from `2^64` on. -/
theorem C119_scratch_partial (L : Nat) (m : Mem) (d : Dir) (hd : d.Ok) (hc : d.conv = 102 ∨ d.conv = 70) (hs : d.size ≠ .L)
    (a : Ask) (args args' : List Int) (x : Nat) (hx : x < 2 ^ 64) (ha : d.ask args = some (a, (x : Int) :: args'))
    (hw : a.width < 2 ^ 31)
    (hp : decimals a + 320 < 2 ^ 31) (hf : Finite b64 x)
    (h : 2 ^ b64.unit ≤ size b64 x * 2 ^ 8 ∧ size b64 x ≤ 99 * 2 ^ b64.unit ∨ 2 ^ 64 * 2 ^ b64.unit ≤ size b64 x) :
    ∃ o, vfprintf L m d.text args = some o ∧ o.fault = false := by
  rcases h with ⟨h1, h2⟩ | h
  · obtain ⟨P, o, k, _, _, e, _, _, _, hf⟩ := C118_moderate_partial L m d hd hc hs a args args' x hx ha hw hp h1
      (by have := Nat.two_pow_pos b64.unit; omega)
    refine ⟨o, e, ?_⟩
    have hP := below_100 P (decimals a) _ _ (Nat.two_pow_pos _) k h2
    cases ho : o.fault
    · rfl
    · exact absurd (hf.1 ho) (by omega)
  · obtain ⟨P, o, _, e, _, _, _, hf⟩ := C118_large_partial L m d hd hc hs a args args' x hx ha hw hp hf h
    exact ⟨o, e, hf⟩

/-- From 100 up to `2^64`, `%f` always overruns the array for the digits of the integer part. -/
theorem C119_overruns (L : Nat) (m : Mem) (d : Dir) (hd : d.Ok) (hc : d.conv = 102 ∨ d.conv = 70) (hs : d.size ≠ .L)
    (a : Ask) (args args' : List Int) (x : Nat) (hx : x < 2 ^ 64) (ha : d.ask args = some (a, (x : Int) :: args'))
    (hw : a.width < 2 ^ 31)
    (hp : decimals a + 320 < 2 ^ 31) (h1 : 100 * 2 ^ b64.unit ≤ size b64 x) (h2 : size b64 x < 2 ^ 64 * 2 ^ b64.unit) :
    ∃ o, vfprintf L m d.text args = some o ∧ o.fault = true := by
  obtain ⟨P, o, k, _, _, e, _, _, _, hf⟩ := C118_moderate_partial L m d hd hc hs a args args' x hx ha hw hp
    (by omega) h2
  exact ⟨o, e, hf.2 (from_100 P (decimals a) _ _ (Nat.two_pow_pos _) k h1)⟩

/-- `%f` of a zero always overruns the array for the power of five. -/
theorem C119_zero_overruns (L : Nat) (m : Mem) (d : Dir) (hd : d.Ok) (hc : d.conv = 102 ∨ d.conv = 70) (hs : d.size ≠ .L)
    (a : Ask) (args args' : List Int) (x : Nat) (hx : x < 2 ^ 64) (ha : d.ask args = some (a, (x : Int) :: args'))
    (hw : a.width < 2 ^ 31)
    (hp : decimals a + 320 < 2 ^ 31) (h0 : Zero b64 x) : ∃ o, vfprintf L m d.text args = some o ∧ o.fault = true := by
  obtain ⟨sp, hA, hl, e⟩ := vfprintf_one L m d hd (f_convs hc) a args _ ha hw
  obtain ⟨hA', hp'⟩ := hA.float
  rw [convert_f L m sp 0 d.conv hc d.size hs hl x hx] at e
  have h0' : b64.abs x = 0 := h0
  obtain ⟨o, e1, hf⟩ := fixedSmall_defined (floatspec sp) (signchar (b64.neg x) (floatspec sp).flags)
    (by rw [signchar_eq hA']; exact signF_length ..) (decimals a) hp' hp (b64.abs x) (by omega) (Or.inl h0')
  have hfix : fixed (floatspec sp) (low (decide (d.conv = 70))) x = some o := by
    unfold fixed
    simp only
    rw [if_pos (by omega), e1]
  rw [e, hfix]
  simp only [Option.map_some, wrap]
  split <;> exact ⟨_, rfl, hf h0'⟩

/-- So does `%f` of 0.001. -/
theorem C119_small_overruns : (vfprintf 0 (fun _ => 0) [37, 102] [0x3F50624DD2F1A9FC]).map (·.fault) = some true := by decide +kernel

/-- `%f` of `-0.0` and of `100.0`. -/
example : (vfprintf 0 (fun _ => 0) [37, 102] [0x8000000000000000]).map (·.fault) = some true ∧
    (vfprintf 0 (fun _ => 0) [37, 102] [0x4059000000000000]).map (·.fault) = some true ∧
    (vfprintf 0 (fun _ => 0) [37, 102] [0x4058C00000000000]).map (·.fault) = some false := by decide +kernel

/-! ## Hexadecimal notation -/

/-- C120: without a precision, `a` prints a `double` exactly, with no more digits than needed and a
leading 1 if it is normal. -/
theorem C120_exact (L : Nat) (m : Mem) (d : Dir) (hd : d.Ok) (hc : d.conv = 97 ∨ d.conv = 65) (hs : d.size ≠ .L)
    (a : Ask) (args args' : List Int) (x : Nat) (hx : x < 2 ^ 64) (ha : d.ask args = some (a, (x : Int) :: args'))
    (hw : a.width < 2 ^ 31) (hf : Finite b64 x) (hp : a.prec = none) :
    ∃ lead n V e o, n ≤ 13 ∧ V < 16 ^ n ∧ (n = 0 ∨ V % 16 ≠ 0) ∧ lead = (if 2 ^ b64.f ≤ absOf b64 x then 1 else 0) ∧
      (Zero b64 x → e = 0) ∧ HexExact b64 x lead n V e ∧ vfprintf L m d.text args = some o ∧
      o.chunks.flatten = hexText d a (decide (d.conv = 65)) (decide (negative b64 x)) lead n V e ∧
      o.ret = (hexText d a (decide (d.conv = 65)) (decide (negative b64 x)) lead n V e).length ∧ o.stores = [] ∧ o.fault = false := by
  obtain ⟨sp, hA, hl, e⟩ := vfprintf_one L m d hd (a_convs hc) a args _ ha hw
  rw [convert_a L m sp 0 d.conv hc d.size hs hl x hx] at e
  rw [e, ← neg64 hx]
  exact hex_none hexOk64 (by decide) (by decide) hA hw hp (decide (d.conv = 65)) x hf args'

/-- C120: with a precision of at least 13 digits too. -/
theorem C120_padded (L : Nat) (m : Mem) (d : Dir) (hd : d.Ok) (hc : d.conv = 97 ∨ d.conv = 65) (hs : d.size ≠ .L)
    (a : Ask) (args args' : List Int) (x : Nat) (hx : x < 2 ^ 64) (ha : d.ask args = some (a, (x : Int) :: args'))
    (hw : a.width < 2 ^ 31) (hf : Finite b64 x) (p : Nat) (hp : a.prec = some p)
    (hD : 13 ≤ p) (hp' : p + 100 < 2 ^ 31) :
    ∃ lead V e o, V < 16 ^ p ∧ lead = (if 2 ^ b64.f ≤ absOf b64 x then 1 else 0) ∧
      (Zero b64 x → e = 0) ∧ HexExact b64 x lead p V e ∧ vfprintf L m d.text args = some o ∧
      o.chunks.flatten = hexText d a (decide (d.conv = 65)) (decide (negative b64 x)) lead p V e ∧
      o.ret = (hexText d a (decide (d.conv = 65)) (decide (negative b64 x)) lead p V e).length ∧ o.stores = [] ∧ o.fault = false := by
  obtain ⟨sp, hA, hl, e⟩ := vfprintf_one L m d hd (a_convs hc) a args _ ha hw
  rw [convert_a L m sp 0 d.conv hc d.size hs hl x hx] at e
  rw [e, ← neg64 hx]
  exact hex_wide hexOk64 (by decide) hA hw p hp hp' hD (decide (d.conv = 65)) x hf args'

/-- C120 (partial: zeros and subnormal numbers with a precision from 1 to 12 are missing, see
`C120_lost_zeros`): with a smaller precision the result is correctly rounded, for ties to even. -/
theorem C120_rounded_partial (L : Nat) (m : Mem) (d : Dir) (hd : d.Ok) (hc : d.conv = 97 ∨ d.conv = 65) (hs : d.size ≠ .L)
    (a : Ask) (args args' : List Int) (x : Nat) (hx : x < 2 ^ 64) (ha : d.ask args = some (a, (x : Int) :: args'))
    (hw : a.width < 2 ^ 31) (hf : Finite b64 x) (p : Nat) (hp : a.prec = some p)
    (hD : p < 13) (hn : 2 ^ b64.f ≤ absOf b64 x ∨ p = 0) :
    ∃ lead V e o, V < 16 ^ p ∧ lead ≤ 2 ∧ (2 ^ b64.f ≤ absOf b64 x → 1 ≤ lead) ∧
      (Zero b64 x → e = 0) ∧ HexNearest b64 x lead p V e ∧ vfprintf L m d.text args = some o ∧
      o.chunks.flatten = hexText d a (decide (d.conv = 65)) (decide (negative b64 x)) lead p V e ∧
      o.ret = (hexText d a (decide (d.conv = 65)) (decide (negative b64 x)) lead p V e).length ∧ o.stores = [] ∧ o.fault = false := by
  obtain ⟨sp, hA, hl, e⟩ := vfprintf_one L m d hd (a_convs hc) a args _ ha hw
  rw [convert_a L m sp 0 d.conv hc d.size hs hl x hx] at e
  rw [e, ← neg64 hx]
  exact hex_short hexOk64 (by decide) (by decide) hA hw p hp hD (decide (d.conv = 65)) x hf hn args'

/-- C120: infinities and NaNs are named. -/
theorem C120_nonfinite (L : Nat) (m : Mem) (d : Dir) (hd : d.Ok) (hc : d.conv = 97 ∨ d.conv = 65) (hs : d.size ≠ .L)
    (a : Ask) (args args' : List Int) (x : Nat) (hx : x < 2 ^ 64) (ha : d.ask args = some (a, (x : Int) :: args'))
    (hw : a.width < 2 ^ 31) (hf : ¬ Finite b64 x) :
    ∃ o, vfprintf L m d.text args = some o ∧
      o.chunks.flatten = nameText d a (decide (negative b64 x))
        (if absOf b64 x = b64.inf then (if d.conv = 65 then [73, 78, 70] else [105, 110, 102])
         else (if d.conv = 65 then [78, 65, 78] else [110, 97, 110])) ∧
      o.ret = o.chunks.flatten.length ∧ o.stores = [] ∧ o.fault = false := by
  obtain ⟨sp, hA, hl, e⟩ := vfprintf_one L m d hd (a_convs hc) a args _ ha hw
  rw [convert_a L m sp 0 d.conv hc d.size hs hl x hx] at e
  rw [e, ← neg64 hx]
  have := hex_name hex64 hA hw (decide (d.conv = 65)) x hf args'
  simp only [decide_eq_true_eq] at this
  exact this

/-- The zeros in front of the first digit are lost: `%.3a` of 0 prints `0x0.p+0` instead of `0x0.000p+0`, and that
of `0x0.01p-1022` prints `0x1.0p-1022`, another number. -/
theorem C120_lost_zeros :
    seen (vfprintf 0 (fun _ => 0) [37, 46, 51, 97] [0]) = some ([48, 120, 48, 46, 112, 43, 48], 7) ∧
    seen (vfprintf 0 (fun _ => 0) [37, 46, 51, 97] [17592186044416]) = some ([48, 120, 49, 46, 48, 112, 45, 49, 48, 50, 50], 11) := by decide +kernel

/-- `%.2a` of 1.5 and `%a` of the largest number meet the hypotheses. -/
example : ∃ lead V e o, V < 16 ^ 2 ∧ HexNearest b64 0x3FF8000000000000 lead 2 V e ∧
    vfprintf 0 (fun _ => 0) [37, 46, 50, 97] [0x3FF8000000000000] = some o ∧ o.fault = false := by
  obtain ⟨lead, V, e, o, h1, _, _, _, h2, h3, _, _, _, h4⟩ := C120_rounded_partial 0 (fun _ => 0) ⟨[], .num [], some (.num [50]), .none, 97⟩
    ⟨by simp, ⟨by simp, by decide⟩, by simp [Field.text], by intro f hf; cases hf; exact ⟨by decide, by decide⟩⟩ (Or.inl rfl) (by decide)
    ⟨false, 0, some 2⟩ [0x3FF8000000000000] [] 0x3FF8000000000000 (by decide) (by decide +kernel) (by decide) (by unfold Finite; decide +kernel) 2 rfl
    (by decide) (Or.inl (by decide +kernel))
  exact ⟨lead, V, e, o, h1, h2, h3, h4⟩

example : seen (vfprintf 0 (fun _ => 0) [37, 97] [0x7FEFFFFFFFFFFFFF]) =
    some ([48, 120, 49, 46, 102, 102, 102, 102, 102, 102, 102, 102, 102, 102, 102, 102, 102, 112, 43, 49, 48, 50, 51], 23) := by decide +kernel

/-- C121: without a precision, `a` prints a `long double` exactly, with no more digits than needed and a
leading 1 if it is normal. -/
theorem C121_exact (L : Nat) (m : Mem) (d : Dir) (hd : d.Ok) (hc : d.conv = 97 ∨ d.conv = 65) (hs : d.size = .L)
    (a : Ask) (args args' : List Int) (x : Nat) (hx : x < 2 ^ 128) (ha : d.ask args = some (a, (x : Int) :: args'))
    (hw : a.width < 2 ^ 31) (hf : Finite b128 x) (hp : a.prec = none) :
    ∃ lead n V e o, n ≤ 28 ∧ V < 16 ^ n ∧ (n = 0 ∨ V % 16 ≠ 0) ∧ lead = (if 2 ^ b128.f ≤ absOf b128 x then 1 else 0) ∧
      (Zero b128 x → e = 0) ∧ HexExact b128 x lead n V e ∧ vfprintf L m d.text args = some o ∧
      o.chunks.flatten = hexText d a (decide (d.conv = 65)) (decide (negative b128 x)) lead n V e ∧
      o.ret = (hexText d a (decide (d.conv = 65)) (decide (negative b128 x)) lead n V e).length ∧ o.stores = [] ∧ o.fault = false := by
  obtain ⟨sp, hA, hl, e⟩ := vfprintf_one L m d hd (a_convs hc) a args _ ha hw
  rw [convert_La L m sp 0 d.conv hc (by rw [hl, hs]) x hx] at e
  rw [e, ← neg128 hx]
  exact hex_none hexOk128 (by decide) (by decide) hA hw hp (decide (d.conv = 65)) x hf args'

/-- C121: with a precision of at least 28 digits too. -/
theorem C121_padded (L : Nat) (m : Mem) (d : Dir) (hd : d.Ok) (hc : d.conv = 97 ∨ d.conv = 65) (hs : d.size = .L)
    (a : Ask) (args args' : List Int) (x : Nat) (hx : x < 2 ^ 128) (ha : d.ask args = some (a, (x : Int) :: args'))
    (hw : a.width < 2 ^ 31) (hf : Finite b128 x) (p : Nat) (hp : a.prec = some p)
    (hD : 28 ≤ p) (hp' : p + 100 < 2 ^ 31) :
    ∃ lead V e o, V < 16 ^ p ∧ lead = (if 2 ^ b128.f ≤ absOf b128 x then 1 else 0) ∧
      (Zero b128 x → e = 0) ∧ HexExact b128 x lead p V e ∧ vfprintf L m d.text args = some o ∧
      o.chunks.flatten = hexText d a (decide (d.conv = 65)) (decide (negative b128 x)) lead p V e ∧
      o.ret = (hexText d a (decide (d.conv = 65)) (decide (negative b128 x)) lead p V e).length ∧ o.stores = [] ∧ o.fault = false := by
  obtain ⟨sp, hA, hl, e⟩ := vfprintf_one L m d hd (a_convs hc) a args _ ha hw
  rw [convert_La L m sp 0 d.conv hc (by rw [hl, hs]) x hx] at e
  rw [e, ← neg128 hx]
  exact hex_wide hexOk128 (by decide) hA hw p hp hp' hD (decide (d.conv = 65)) x hf args'

/-- C121 (partial: zeros and subnormal numbers with a precision from 1 to 27 are missing, see
`C121_lost_zeros`): with a smaller precision the result is correctly rounded, for ties to even. -/
theorem C121_rounded_partial (L : Nat) (m : Mem) (d : Dir) (hd : d.Ok) (hc : d.conv = 97 ∨ d.conv = 65) (hs : d.size = .L)
    (a : Ask) (args args' : List Int) (x : Nat) (hx : x < 2 ^ 128) (ha : d.ask args = some (a, (x : Int) :: args'))
    (hw : a.width < 2 ^ 31) (hf : Finite b128 x) (p : Nat) (hp : a.prec = some p)
    (hD : p < 28) (hn : 2 ^ b128.f ≤ absOf b128 x ∨ p = 0) :
    ∃ lead V e o, V < 16 ^ p ∧ lead ≤ 2 ∧ (2 ^ b128.f ≤ absOf b128 x → 1 ≤ lead) ∧
      (Zero b128 x → e = 0) ∧ HexNearest b128 x lead p V e ∧ vfprintf L m d.text args = some o ∧
      o.chunks.flatten = hexText d a (decide (d.conv = 65)) (decide (negative b128 x)) lead p V e ∧
      o.ret = (hexText d a (decide (d.conv = 65)) (decide (negative b128 x)) lead p V e).length ∧ o.stores = [] ∧ o.fault = false := by
  obtain ⟨sp, hA, hl, e⟩ := vfprintf_one L m d hd (a_convs hc) a args _ ha hw
  rw [convert_La L m sp 0 d.conv hc (by rw [hl, hs]) x hx] at e
  rw [e, ← neg128 hx]
  exact hex_short hexOk128 (by decide) (by decide) hA hw p hp hD (decide (d.conv = 65)) x hf hn args'

/-- C121: infinities and NaNs are named. -/
theorem C121_nonfinite (L : Nat) (m : Mem) (d : Dir) (hd : d.Ok) (hc : d.conv = 97 ∨ d.conv = 65) (hs : d.size = .L)
    (a : Ask) (args args' : List Int) (x : Nat) (hx : x < 2 ^ 128) (ha : d.ask args = some (a, (x : Int) :: args'))
    (hw : a.width < 2 ^ 31) (hf : ¬ Finite b128 x) :
    ∃ o, vfprintf L m d.text args = some o ∧
      o.chunks.flatten = nameText d a (decide (negative b128 x))
        (if absOf b128 x = b128.inf then (if d.conv = 65 then [73, 78, 70] else [105, 110, 102])
         else (if d.conv = 65 then [78, 65, 78] else [110, 97, 110])) ∧
      o.ret = o.chunks.flatten.length ∧ o.stores = [] ∧ o.fault = false := by
  obtain ⟨sp, hA, hl, e⟩ := vfprintf_one L m d hd (a_convs hc) a args _ ha hw
  rw [convert_La L m sp 0 d.conv hc (by rw [hl, hs]) x hx] at e
  rw [e, ← neg128 hx]
  have := hex_name hex128 hA hw (decide (d.conv = 65)) x hf args'
  simp only [decide_eq_true_eq] at this
  exact this

/-- The zeros in front of the first digit are lost: `%.3La` of 0 prints `0x0.p+0` instead of `0x0.000p+0`, and that
of `0x0.01p-16382` prints `0x1.0p-16382`, another number. -/
theorem C121_lost_zeros :
    seen (vfprintf 0 (fun _ => 0) [37, 46, 51, 76, 97] [0]) = some ([48, 120, 48, 46, 112, 43, 48], 7) ∧
    seen (vfprintf 0 (fun _ => 0) [37, 46, 51, 76, 97] [20282409603651670423947251286016]) = some ([48, 120, 49, 46, 48, 112, 45, 49, 54, 51, 56, 50], 12) := by decide +kernel

/-- `%.2La` of 1.5 meets the hypotheses. -/
example : ∃ lead V e o, V < 16 ^ 2 ∧ HexNearest b128 0x3FFF8000000000000000000000000000 lead 2 V e ∧
    vfprintf 0 (fun _ => 0) [37, 46, 50, 76, 97] [0x3FFF8000000000000000000000000000] = some o ∧ o.fault = false := by
  obtain ⟨lead, V, e, o, h1, _, _, _, h2, h3, _, _, _, h4⟩ := C121_rounded_partial 0 (fun _ => 0) ⟨[], .num [], some (.num [50]), .L, 97⟩
    ⟨by simp, ⟨by simp, by decide⟩, by simp [Field.text], by intro f hf; cases hf; exact ⟨by decide, by decide⟩⟩ (Or.inl rfl) rfl
    ⟨false, 0, some 2⟩ [0x3FFF8000000000000000000000000000] [] 0x3FFF8000000000000000000000000000 (by decide) (by decide +kernel) (by decide)
    (by unfold Finite; decide +kernel) 2 rfl (by decide) (Or.inl (by decide +kernel))
  exact ⟨lead, V, e, o, h1, h2, h3, h4⟩

/-! ## What is not there -/

/-- C122 (violated): `%e`, `%E`, `%g` and `%G` are not implemented; a call stops there and returns -2. -/
theorem C122_no_exponents (L : Nat) (m : Mem) (d : Dir) (hd : d.Ok) (hc : d.conv ∈ [101, 69, 103, 71]) (a : Ask) (args args' : List Int)
    (ha : d.ask args = some (a, args')) (hw : a.width < 2 ^ 31) :
    ∃ o, vfprintf L m d.text args = some o ∧ o.chunks.flatten = [] ∧ o.ret = -2 := by
  obtain ⟨sp, hA, hl, e⟩ := vfprintf_one L m d hd ((by decide : ∀ c ∈ [101, 69, 103, 71], c ∈ convs) _ hc) a args _ ha hw
  rw [convert_eg L m sp 0 d.conv hc] at e
  exact ⟨_, e, rfl, rfl⟩

/-- C122 (violated): nor is `%Lf`. -/
theorem C122_no_long_double (L : Nat) (m : Mem) (d : Dir) (hd : d.Ok) (hc : d.conv = 102 ∨ d.conv = 70) (hs : d.size = .L) (a : Ask)
    (args args' : List Int) (ha : d.ask args = some (a, args')) (hw : a.width < 2 ^ 31) :
    ∃ o, vfprintf L m d.text args = some o ∧ o.chunks.flatten = [] ∧ o.ret = -2 := by
  obtain ⟨sp, hA, hl, e⟩ := vfprintf_one L m d hd (f_convs hc) a args _ ha hw
  rw [convert_Lf L m sp 0 d.conv hc (by rw [hl, hs])] at e
  exact ⟨_, e, rfl, rfl⟩

/-- `%g`. -/
example : seen (vfprintf 0 (fun _ => 0) [37, 103] [0x3FF8000000000000]) = some ([], -2) := by decide +kernel

end Verif.Printf
