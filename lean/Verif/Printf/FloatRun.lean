import Verif.Printf.Run
import Verif.Printf.FixedSmall
import Verif.Printf.HexCases
import Verif.Math.Bridge

/-! # Calls with one floating-point directive -/

namespace Verif.Printf

open Spec Verif.Float Verif.Math.Spec

theorem dir_head (d : Dir) (hd : d.Ok) (hc : d.conv ∈ convs) (rest : List Nat) : (d.text ++ rest).tail.head? ≠ some 37 := by
  intro h37
  unfold Dir.text at h37
  simp only [List.cons_append, List.tail_cons] at h37
  obtain ⟨h1, h2, h3, h4⟩ := hd
  cases hf : d.flags with
  | cons c cs =>
    rw [hf] at h37 h1
    simp at h37
    have := h1 c (by simp)
    rw [h37] at this; revert this; decide
  | nil =>
    rw [hf] at h37
    simp only [List.nil_append] at h37
    cases hwd : d.width with
    | star => rw [hwd] at h37; simp [Field.text] at h37
    | num ds =>
      rw [hwd] at h37 h2
      cases ds with
      | cons c ds =>
        simp [Field.text] at h37
        have := h2.1 c (by simp)
        omega
      | nil =>
        simp only [Field.text, List.nil_append] at h37
        cases hp : d.prec with
        | some f => rw [hp] at h37; simp [precText] at h37
        | none =>
          rw [hp] at h37
          simp only [precText, List.nil_append] at h37
          cases hsz : d.size <;> rw [hsz] at h37 <;> simp [Size.text] at h37
          rw [h37] at hc; revert hc; decide

/-- What the call makes of the one conversion. -/
def wrap : Option (Out × List Int) → Option Out
  | none => none
  | some (o, _) =>
    if o.ret < 0 then some ⟨o.fault, [] :: o.chunks, o.ret, o.stores⟩
    else some ⟨o.fault, [] :: o.chunks ++ [[]], s32 (u32 o.ret % 2 ^ 32), o.stores⟩

/-- A format that is one directive. -/
theorem vfprintf_one (L : Nat) (m : Mem) (d : Dir) (hd : d.Ok) (hc : d.conv ∈ convs) (a : Ask) (args args1 : List Int)
    (ha : d.ask args = some (a, args1)) (hw : a.width < 2 ^ 31) :
    ∃ sp, Agrees sp d a ∧ sp.length = sizeCode d.size ∧ vfprintf L m d.text args = wrap (convert L m sp 0 d.conv args1) := by
  obtain ⟨sp, e, hA, hs⟩ := parse_eq d hd hc [] args args1 a ha hw
  refine ⟨sp, hA, hs, ?_⟩
  have h37 := dir_head d hd hc []
  rw [List.append_nil] at h37 e
  have hne : d.text = 37 :: d.text.tail := by unfold Dir.text; rfl
  have hl : d.text.length = d.text.tail.length + 1 := by rw [hne]; simp
  unfold vfprintf
  rw [hl, hne, vloop, if_pos rfl]
  simp only [List.tail_cons] at h37 e ⊢
  rw [if_neg h37, e]
  simp only [List.length_nil, Nat.add_zero, Nat.zero_mod, List.headD_cons, List.tail_cons]
  cases hcv : convert L m sp 0 d.conv args1 with
  | none => rfl
  | some r =>
    obtain ⟨o, args2⟩ := r
    simp only [wrap]
    by_cases h0 : o.ret < 0
    · rw [if_pos h0, if_pos h0]
    · rw [if_neg h0, if_neg h0, vloop]
      simp [Out.after]

theorem wrap_some {o : Out} {args : List Int} {t : List Nat} (h1 : o.chunks.flatten = t) (h2 : o.ret = t.length)
    (h3 : o.stores = []) (hl : t.length < 2 ^ 31) :
    ∃ r, wrap (some (o, args)) = some r ∧ r.chunks.flatten = t ∧ r.ret = t.length ∧ r.stores = [] ∧ r.fault = o.fault := by
  unfold wrap
  simp only
  rw [if_neg (by omega), h2, u32_nat _ (by omega), Nat.mod_eq_of_lt (by omega), s32_nat _ hl]
  exact ⟨_, rfl, by simp [h1], rfl, h3, rfl⟩

theorem pat_nat (x k : Nat) (h : x < 2 ^ k) : ((x : Int) % 2 ^ k).toNat = x := by
  have : ((x : Int) % 2 ^ k) = ((x % 2 ^ k : Nat) : Int) := by push_cast; rfl
  rw [this, Int.toNat_natCast, Nat.mod_eq_of_lt h]

theorem convert_f (L : Nat) (m : Mem) (sp : Opts) (k c : Nat) (hc : c = 102 ∨ c = 70) (s : Size) (hs : s ≠ .L) (hl : sp.length = sizeCode s)
    (x : Nat) (hx : x < 2 ^ 64) (args : List Int) :
    convert L m sp k c ((x : Int) :: args) = (fixed (floatspec sp) (low (decide (c = 70))) x).map (·, args) := by
  unfold convert
  rw [if_neg (by rcases hc with rfl | rfl <;> decide), if_pos hc]
  unfold convertF
  rw [if_neg (by rw [hl]; cases s <;> first | decide | exact absurd rfl hs)]
  simp only
  rw [pat_nat x _ hx]
  rcases hc with rfl | rfl <;> rfl

theorem convert_Lf (L : Nat) (m : Mem) (sp : Opts) (k c : Nat) (hc : c = 102 ∨ c = 70) (hl : sp.length = sizeCode .L) (args : List Int) :
    convert L m sp k c args = some (⟨false, [], -2, []⟩, args) := by
  unfold convert
  rw [if_neg (by rcases hc with rfl | rfl <;> decide), if_pos hc]
  unfold convertF
  rw [if_pos (by rw [hl]; decide)]

theorem convert_eg (L : Nat) (m : Mem) (sp : Opts) (k c : Nat) (hc : c ∈ [101, 69, 103, 71]) (args : List Int) :
    convert L m sp k c args = some (⟨false, [], -2, []⟩, args) := by
  unfold convert
  have h1 : c ∉ [100, 105, 111, 117, 120, 88, 99, 115, 112, 110] := by revert c; decide
  have h2 : ¬ (c = 102 ∨ c = 70) ∧ ¬ (c = 97 ∨ c = 65) := by revert c; decide
  rw [if_neg h1, if_neg h2.1, if_neg h2.2]

theorem convert_a (L : Nat) (m : Mem) (sp : Opts) (k c : Nat) (hc : c = 97 ∨ c = 65) (s : Size) (hs : s ≠ .L) (hl : sp.length = sizeCode s)
    (x : Nat) (hx : x < 2 ^ 64) (args : List Int) :
    convert L m sp k c ((x : Int) :: args) = (hexfloat hex64 sp (low (decide (c = 65))) x).map (·, args) := by
  unfold convert
  rw [if_neg (by rcases hc with rfl | rfl <;> decide), if_neg (by omega), if_pos hc]
  unfold convertA
  simp only
  rw [if_neg (by rw [hl]; cases s <;> first | decide | exact absurd rfl hs), pat_nat x _ hx]
  rcases hc with rfl | rfl <;> rfl

theorem convert_La (L : Nat) (m : Mem) (sp : Opts) (k c : Nat) (hc : c = 97 ∨ c = 65) (hl : sp.length = sizeCode .L)
    (x : Nat) (hx : x < 2 ^ 128) (args : List Int) :
    convert L m sp k c ((x : Int) :: args) = (hexfloat hex128 sp (low (decide (c = 65))) x).map (·, args) := by
  unfold convert
  rw [if_neg (by rcases hc with rfl | rfl <;> decide), if_neg (by omega), if_pos hc]
  unfold convertA
  simp only
  rw [if_pos (by rw [hl]; decide), pat_nat x _ hx]
  rcases hc with rfl | rfl <;> rfl

/-! ## Where the methods meet -/

theorem mag_2p64 : b64.mag 0x43F0000000000000 = 2 ^ 64 * 2 ^ b64.unit := by decide +kernel
theorem mag_2m8 : b64.mag 0x3F70000000000000 * 2 ^ 8 = 2 ^ b64.unit := by decide +kernel
theorem mag_inf : b64.mag b64.inf = 2 ^ 1024 * 2 ^ b64.unit := by decide +kernel
theorem inf64 : b64.inf = 0x7FF0000000000000 := by decide +kernel

theorem le_of_mag {m n : Nat} (h : b64.mag m ≤ b64.mag n) : m ≤ n := by
  rcases Nat.lt_or_ge n m with h' | h'
  · have := b64.mag_lt_add n (m - n - 1)
    rw [show n + (m - n - 1 + 1) = m by omega] at this
    omega
  · exact h'

theorem large_iff (x : Nat) : 2 ^ 64 * 2 ^ b64.unit ≤ size b64 x ↔ 0x43F0000000000000 ≤ b64.abs x := by
  rw [← mag_2p64]
  exact ⟨le_of_mag, b64.mag_mono⟩

theorem mid_iff (x : Nat) : 2 ^ b64.unit ≤ size b64 x * 2 ^ 8 ↔ 0x3F70000000000000 ≤ b64.abs x := by
  rw [← mag_2m8]
  constructor
  · intro h
    exact le_of_mag (Nat.le_of_mul_le_mul_right h (Nat.two_pow_pos 8))
  · intro h
    exact Nat.mul_le_mul_right _ (b64.mag_mono h)

/-- The length of a decimal text. -/
theorem fixedText_length (d : Dir) (a : Ask) (neg : Bool) (P k : Nat) (hk : 1 ≤ k) (hP : P / 10 ^ decimals a < 10 ^ k) :
    (fixedText d a neg P).length ≤ max a.width (decimals a + k + 2) := by
  unfold fixedText
  rw [justifyF_length]
  simp only [List.length_append, places_length]
  have := signF_length d neg
  have := point_length d (decimals a)
  have := (numeral_length 10 false (by decide) k (P / 10 ^ decimals a) hk).2 hP
  omega

theorem f_convs {c : Nat} (h : c = 102 ∨ c = 70) : c ∈ convs := by rcases h with rfl | rfl <;> decide
theorem a_convs {c : Nat} (h : c = 97 ∨ c = 65) : c ∈ convs := by rcases h with rfl | rfl <;> decide

theorem neg64 {x : Nat} (hx : x < 2 ^ 64) : b64.neg x = decide (negative b64 x) := Verif.Math.neg_eq (F := b64) (by
  have : 2 * b64.signBit = 2 ^ 64 := by decide +kernel
  unfold Pat
  omega)

theorem neg128 {x : Nat} (hx : x < 2 ^ 128) : b128.neg x = decide (negative b128 x) := Verif.Math.neg_eq (F := b128) (by
  have : 2 * b128.signBit = 2 ^ 128 := by decide +kernel
  unfold Pat
  omega)

theorem exact_bound (N p S U : Nat) (h : N * U = S) (hS : S < 2 ^ 1024 * U) : N * 10 ^ p / 10 ^ p < 10 ^ 309 := by
  rw [Nat.mul_div_cancel _ (Nat.pow_pos (by decide))]
  have : N < 2 ^ 1024 := by
    rw [← h] at hS
    exact Nat.lt_of_mul_lt_mul_right hS
  exact Nat.lt_trans this (by decide +kernel)

theorem within_bound (P p S U : Nat) (h1 : dist (S * 10 ^ p) (P * U) ≤ U) (hS : S < 2 ^ 64 * U) :
    P / 10 ^ p < 10 ^ 20 := by
  have hd : P * U ≤ S * 10 ^ p + dist (S * 10 ^ p) (P * U) := by unfold dist; omega
  generalize dist (S * 10 ^ p) (P * U) = D at *
  have hp : 0 < 10 ^ p := Nat.pow_pos (by decide)
  have h2 : (S + U) * 10 ^ p = S * 10 ^ p + U * 10 ^ p := Nat.add_mul ..
  have h3 : U ≤ U * 10 ^ p := Nat.le_mul_of_pos_right _ hp
  have h4 : P * U < (2 ^ 64 + 1) * 10 ^ p * U := by
    have : (S + U) * 10 ^ p < (2 ^ 64 + 1) * U * 10 ^ p := Nat.mul_lt_mul_of_pos_right (by omega) hp
    rw [Nat.mul_right_comm]
    omega
  have h5 : P < (2 ^ 64 + 1) * 10 ^ p := Nat.lt_of_mul_lt_mul_right h4
  have : P / 10 ^ p < 2 ^ 64 + 1 := (Nat.div_lt_iff_lt_mul hp).2 h5
  omega

theorem finite_lt {x : Nat} (h : Finite b64 x) : b64.abs x < b64.inf := h

/-! ## Small numbers for which no rounding is needed -/

theorem fixedSmall_defined (sp : Opts) (sign : List Nat) (hsign : sign.length ≤ 1) (p : Nat) (hp : sp.precision = (p : Int)) (hp' : p + 320 < 2 ^ 31) (m : Nat)
    (hm : m < 0x3F70000000000000) (h : m = 0 ∨ 1074 ≤ p) :
    ∃ o, fixedSmall sp sign m = some o ∧ (m = 0 → o.fault = true) := by
  have main : ∀ odd e : Nat, (e : Int) ≤ p → (m = 0 → (limbsScal5n (fivesToLimbs e + 2) (limbsSet18 odd) e).1 = true) →
      ∃ o, commonFixedSmall sp sign (limbsSet18 odd) e = some o ∧ (m = 0 → o.fault = true) := by
    intro odd e he hf
    unfold commonFixedSmall
    simp only
    have hc : chk32 (sign.length + 1 + (if pointed sp then [46] else [] : List Nat).length + sp.precision) =
        some (sign.length + 1 + (if pointed sp then [46] else [] : List Nat).length + sp.precision) := by
      have : (if pointed sp then [46] else [] : List Nat).length ≤ 1 := by split <;> simp
      exact chk32_some _ (by omega) (by omega)
    rw [hc]
    simp only
    unfold limbsPlacedRint
    rw [if_pos (by omega)]
    simp only
    exact ⟨_, rfl, fun h0 => by simp [hf h0]⟩
  unfold fixedSmall
  by_cases h0 : m = 0
  · subst h0
    exact main 0 0 (by omega) (fun _ => by decide +kernel)
  · obtain ⟨odd, e, i1, _, _, i4, _⟩ := ifrexp_small m (by omega) hm
    rw [i1]
    simp only
    rw [show (- -(e : Int)).toNat = e by omega]
    exact main odd e (by omega) (fun h => absurd h h0)

theorem within_exact (S p P : Nat) (hp : 1074 ≤ p) (h : 20 * dist (S * 10 ^ p) (P * 2 ^ 1074) ≤ 11 * 2 ^ 1074) : P * 2 ^ 1074 = S * 10 ^ p := by
  have e : S * 10 ^ p = S * 5 ^ p * 2 ^ (p - 1074) * 2 ^ 1074 := by
    rw [Nat.mul_assoc _ (2 ^ (p - 1074)), ← Nat.pow_add, Nat.sub_add_cancel hp, show 10 = 5 * 2 from rfl, Nat.mul_pow, Nat.mul_assoc]
  rw [e] at h ⊢
  generalize S * 5 ^ p * 2 ^ (p - 1074) = Q at *
  have hU := Nat.two_pow_pos 1074
  generalize (2 : Nat) ^ 1074 = U at *
  rcases Nat.lt_trichotomy P Q with h' | h' | h'
  · exfalso
    have := Nat.mul_le_mul_right U (show P + 1 ≤ Q from h')
    rw [Nat.add_mul, Nat.one_mul] at this
    unfold dist at h
    omega
  · rw [h']
  · exfalso
    have := Nat.mul_le_mul_right U (show Q + 1 ≤ P from h')
    rw [Nat.add_mul, Nat.one_mul] at this
    unfold dist at h
    omega

/-! ## Hexadecimal notation -/

theorem hexText_length {d : Dir} {a : Ask} {u neg : Bool} {lead n V : Nat} {e : Int} (hw : a.width < 2 ^ 31) (hn : n + 100 < 2 ^ 31) (he : e.natAbs < 10 ^ 5) :
    (hexText d a u neg lead n V e).length < 2 ^ 31 := by
  rw [hexText_eq, justifyF_length]
  simp only [List.length_append, List.length_cons, List.length_nil, places_length]
  have := signF_length d neg
  have := point_length d n
  have := expText_length u e 5 (by decide) he
  omega

theorem hexExp_zero (F : Fmt) : hexExp F 0 = 0 := by
  unfold hexExp
  rw [if_neg (by simp), if_neg (by simp)]

theorem hexLead_eq (F : Fmt) (m : Nat) : hexLead F m = if 2 ^ F.f ≤ m then 1 else 0 := by
  unfold hexLead
  have := Nat.div_eq_zero_iff (a := m) (b := 2 ^ F.f)
  have := Nat.two_pow_pos F.f
  by_cases h : 2 ^ F.f ≤ m
  · rw [if_pos h, if_pos (by omega)]
  · rw [if_neg h, if_neg (by omega)]

theorem hex_none {H : HexFmt} {D W k : Nat} (ok : H.Ok D W k) (hk : k ≤ 5) (hD : D + 100 < 2 ^ 31) {sp : Opts} {d : Dir} {a : Ask} (hA : Agrees sp d a)
    (hw : a.width < 2 ^ 31) (ha : a.prec = none) (u : Bool) (x : Nat) (hx : Finite H.fmt x) (args : List Int) :
    ∃ lead n V e r, n ≤ D ∧ V < 16 ^ n ∧ (n = 0 ∨ V % 16 ≠ 0) ∧ lead = (if 2 ^ H.fmt.f ≤ absOf H.fmt x then 1 else 0) ∧
      (Zero H.fmt x → e = 0) ∧ HexExact H.fmt x lead n V e ∧
      wrap ((hexfloat H sp (low u) x).map (·, args)) = some r ∧ r.chunks.flatten = hexText d a u (H.fmt.neg x) lead n V e ∧
      r.ret = (hexText d a u (H.fmt.neg x) lead n V e).length ∧ r.stores = [] ∧ r.fault = false := by
  obtain ⟨n, V, h1, h2, h3, h4, o, e, c1, c2, c3, c4⟩ := hexfloat_none ok hA ha u x hx
  have hb := Nat.lt_of_lt_of_le (hexExp_bound ok _ hx) (Nat.pow_le_pow_right (show 0 < 10 by decide) hk)
  obtain ⟨r, e2, r1, r2, r3, r4⟩ := wrap_some (args := args) c1 c2 c3 (hexText_length hw (by omega) hb)
  refine ⟨_, n, V, _, r, h1, h2, h3, hexLead_eq .., ?_, h4, by rw [e]; exact e2, r1, r2, r3, by rw [r4, c4]⟩
  intro h0
  rw [show H.fmt.abs x = 0 from h0, hexExp_zero]

theorem hex_wide {H : HexFmt} {D W k : Nat} (ok : H.Ok D W k) (hk : k ≤ 5) {sp : Opts} {d : Dir} {a : Ask} (hA : Agrees sp d a)
    (hw : a.width < 2 ^ 31) (p : Nat) (ha : a.prec = some p) (hp : p + 100 < 2 ^ 31) (hD : D ≤ p) (u : Bool) (x : Nat) (hx : Finite H.fmt x) (args : List Int) :
    ∃ lead V e r, V < 16 ^ p ∧ lead = (if 2 ^ H.fmt.f ≤ absOf H.fmt x then 1 else 0) ∧ (Zero H.fmt x → e = 0) ∧
      HexExact H.fmt x lead p V e ∧
      wrap ((hexfloat H sp (low u) x).map (·, args)) = some r ∧ r.chunks.flatten = hexText d a u (H.fmt.neg x) lead p V e ∧
      r.ret = (hexText d a u (H.fmt.neg x) lead p V e).length ∧ r.stores = [] ∧ r.fault = false := by
  obtain ⟨V, h2, h4, h⟩ := hexfloat_wide ok hA p ha hD u x hx
  have hb := Nat.lt_of_lt_of_le (hexExp_bound ok _ hx) (Nat.pow_le_pow_right (show 0 < 10 by decide) hk)
  have hl := hexText_length (d := d) (u := u) (neg := H.fmt.neg x) (lead := hexLead H.fmt (H.fmt.abs x)) (V := V) hw hp hb
  obtain ⟨o, e, c1, c2, c3, c4⟩ := h hl
  obtain ⟨r, e2, r1, r2, r3, r4⟩ := wrap_some (args := args) c1 c2 c3 hl
  refine ⟨_, V, _, r, h2, hexLead_eq .., ?_, h4, by rw [e]; exact e2, r1, r2, r3, by rw [r4, c4]⟩
  intro h0
  rw [show H.fmt.abs x = 0 from h0, hexExp_zero]

theorem hex_short {H : HexFmt} {D W k : Nat} (ok : H.Ok D W k) (hk : k ≤ 5) (hD' : D + 100 < 2 ^ 31) {sp : Opts} {d : Dir} {a : Ask} (hA : Agrees sp d a)
    (hw : a.width < 2 ^ 31) (p : Nat) (ha : a.prec = some p) (hD : p < D) (u : Bool) (x : Nat) (hx : Finite H.fmt x)
    (hn : 2 ^ H.fmt.f ≤ absOf H.fmt x ∨ p = 0) (args : List Int) :
    ∃ lead V e r, V < 16 ^ p ∧ lead ≤ 2 ∧ (2 ^ H.fmt.f ≤ absOf H.fmt x → 1 ≤ lead) ∧ (Zero H.fmt x → e = 0) ∧
      HexNearest H.fmt x lead p V e ∧
      wrap ((hexfloat H sp (low u) x).map (·, args)) = some r ∧ r.chunks.flatten = hexText d a u (H.fmt.neg x) lead p V e ∧
      r.ret = (hexText d a u (H.fmt.neg x) lead p V e).length ∧ r.stores = [] ∧ r.fault = false := by
  obtain ⟨lead, V, h1, h2, h3, h4, o, e, c1, c2, c3, c4⟩ := hexfloat_short ok hA p ha hD u x hx hn
  have hb := Nat.lt_of_lt_of_le (hexExp_bound ok _ hx) (Nat.pow_le_pow_right (show 0 < 10 by decide) hk)
  obtain ⟨r, e2, r1, r2, r3, r4⟩ := wrap_some (args := args) c1 c2 c3 (hexText_length hw (by omega) hb)
  refine ⟨lead, V, _, r, h3, h1, h2, ?_, h4, by rw [e]; exact e2, r1, r2, r3, by rw [r4, c4]⟩
  intro h0
  rw [show H.fmt.abs x = 0 from h0, hexExp_zero]

/-! ## Infinities and NaNs -/

/-- The names, in the case of the conversion. -/
theorem name_low (u : Bool) : ([73, 78, 70] : List Nat).map (· ||| low u) = (if u then [73, 78, 70] else [105, 110, 102]) ∧
    ([78, 65, 78] : List Nat).map (· ||| low u) = (if u then [78, 65, 78] else [110, 97, 110]) := by
  cases u <;> decide

theorem nameText_length {d : Dir} {a : Ask} {neg : Bool} {s : List Nat} (hw : a.width < 2 ^ 31) (hs : s.length = 3) : (nameText d a neg s).length < 2 ^ 31 := by
  unfold nameText padText
  have := signF_length d neg
  split <;> simp only [List.length_append, List.length_replicate, hs] <;> omega

theorem name_call {sp : Opts} {d : Dir} {a : Ask} (hA : Agrees sp d a) (hw : a.width < 2 ^ 31) (u neg : Bool) (s : List Nat) (hs : s.length = 3) (args : List Int) :
    ∃ r, wrap ((some (nonfinite sp (low u) (signchar neg sp.flags) s)).map (·, args)) = some r ∧
      r.chunks.flatten = nameText d a neg (s.map (· ||| low u)) ∧ r.ret = (nameText d a neg (s.map (· ||| low u))).length ∧
      r.stores = [] ∧ r.fault = false := by
  obtain ⟨c1, c2, c3, c4⟩ := nonfinite_eq hA (low u) neg s hs
  obtain ⟨r, e2, r1, r2, r3, r4⟩ := wrap_some (args := args) c1 c2 c3 (nameText_length hw (by rw [List.length_map, hs]))
  exact ⟨r, e2, r1, r2, r3, by rw [r4, c4]⟩

theorem hex_name (H : HexFmt) {sp : Opts} {d : Dir} {a : Ask} (hA : Agrees sp d a) (hw : a.width < 2 ^ 31) (u : Bool) (x : Nat)
    (hf : ¬ Finite H.fmt x) (args : List Int) :
    ∃ o, wrap ((hexfloat H sp (low u) x).map (·, args)) = some o ∧
      o.chunks.flatten = nameText d a (H.fmt.neg x)
        (if absOf H.fmt x = H.fmt.inf then (if u then [73, 78, 70] else [105, 110, 102]) else (if u then [78, 65, 78] else [110, 97, 110])) ∧
      o.ret = o.chunks.flatten.length ∧ o.stores = [] ∧ o.fault = false := by
  obtain ⟨n1, n2⟩ := name_low u
  have hf' : ¬ H.fmt.abs x < H.fmt.inf := hf
  unfold hexfloat
  simp only
  by_cases h : H.fmt.abs x = H.fmt.inf
  · rw [if_pos h, if_pos (show absOf H.fmt x = H.fmt.inf from h), ← n1]
    obtain ⟨r, e2, r1, r2, r3, r4⟩ := name_call hA hw u (H.fmt.neg x) [73, 78, 70] rfl args
    exact ⟨r, e2, r1, by rw [r2, r1], r3, r4⟩
  · rw [if_neg h, if_pos (by omega), if_neg (show ¬ absOf H.fmt x = H.fmt.inf from h), ← n2]
    obtain ⟨r, e2, r1, r2, r3, r4⟩ := name_call hA hw u (H.fmt.neg x) [78, 65, 78] rfl args
    exact ⟨r, e2, r1, by rw [r2, r1], r3, r4⟩

theorem below_100 (P p S U : Nat) (hU : 0 < U) (h : 2 ^ 49 * dist (S * 10 ^ p) (P * U) ≤ (2 ^ 48 + 1) * U) (hS : S ≤ 99 * U) :
    P / 10 ^ p < 100 := by
  have hd : P * U ≤ S * 10 ^ p + dist (S * 10 ^ p) (P * U) := by unfold dist; omega
  generalize dist (S * 10 ^ p) (P * U) = D at *
  have hp : 0 < 10 ^ p := Nat.pow_pos (by decide)
  have h1 : S * 10 ^ p ≤ 99 * U * 10 ^ p := Nat.mul_le_mul_right _ hS
  have h2 : P * U < (99 * 10 ^ p + 1) * U := by
    rw [Nat.add_mul, Nat.mul_right_comm]
    omega
  have h3 := Nat.lt_of_mul_lt_mul_right h2
  exact (Nat.div_lt_iff_lt_mul hp).2 (by omega)

theorem from_100 (P p S U : Nat) (hU : 0 < U) (h : 2 ^ 49 * dist (S * 10 ^ p) (P * U) ≤ (2 ^ 48 + 1) * U) (hS : 100 * U ≤ S) :
    100 ≤ P / 10 ^ p := by
  have hd : S * 10 ^ p ≤ P * U + dist (S * 10 ^ p) (P * U) := by unfold dist; omega
  generalize dist (S * 10 ^ p) (P * U) = D at *
  have hp : 0 < 10 ^ p := Nat.pow_pos (by decide)
  have h1 : 100 * U * 10 ^ p ≤ S * 10 ^ p := Nat.mul_le_mul_right _ hS
  have h2 : 100 * 10 ^ p * U < (P + 1) * U := by
    rw [Nat.add_mul, Nat.mul_right_comm]
    omega
  have h3 := Nat.lt_of_mul_lt_mul_right h2
  exact (Nat.le_div_iff_mul_le hp).2 (by omega)

end Verif.Printf
