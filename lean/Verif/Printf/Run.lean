import Verif.Printf.Parse
import Verif.Str.Scan
import Verif.Utf.Decode

/-!
# Strings and the loop over the format
-/

namespace Verif.Printf

open Spec

/-! ## The length of a string -/

theorem strnlenScan_found (L : Nat) (h8 : L % 8 = 0) (m : Mem) (hm : ∀ a, m a < 256) (n a t : Nat) (ha : a % 8 = 0)
    (hat : a ≤ t) (htn : t < a + n) (ht : t < L) (hp : m t = 0) (hn : ∀ b, a ≤ b → b < t → m b ≠ 0) :
    Str.memchrScan L m 0 (Str.strlenHit m) n a = some (some t) := by
  induction n using Nat.strongRecOn generalizing a with
  | ind n ih =>
    unfold Str.memchrScan
    by_cases h : n ≥ 8
    · rw [if_pos h, if_pos (by omega), Str.strlenHit_finds m hm a]
      by_cases hlt : t < a + 8
      · rw [Str.find8_some m a (t - a) _ (by omega) (by simp [Nat.add_sub_cancel' hat, hp])
          (fun j hj => by simpa using hn _ (by omega) (by omega))]
        simp only [Nat.add_sub_cancel' hat]
      · rw [Str.find8_none m a _ (fun j hj => by simpa using hn _ (by omega) (by omega))]
        exact ih (n - 8) (by omega) (a + 8) (by omega) (by omega) (by omega) (fun b h1 h2 => hn b (by omega) h2)
    · rw [if_neg h]
      exact Str.memchrTail_found L m 0 n a t ht hat htn hp hn

theorem strnlenFrom_found (L : Nat) (h8 : L % 8 = 0) (m : Mem) (hm : ∀ a, m a < 256) (n a t : Nat)
    (hat : a ≤ t) (htn : t < a + n) (ht : t < L) (hp : m t = 0) (hn : ∀ b, a ≤ b → b < t → m b ≠ 0) :
    strnlenFrom L m n a = some t := by
  induction n generalizing a with
  | zero => omega
  | succ n ih =>
    unfold strnlenFrom
    by_cases h : a % 8 ≠ 0
    · rw [if_pos h]
      simp only
      rw [if_pos (by omega)]
      by_cases e : a = t
      · subst e; rw [if_pos hp]
      · rw [if_neg (hn a (by omega) (by omega))]
        exact ih (a + 1) (by omega) (by omega) (fun b h1 h2 => hn b (by omega) h2)
    · rw [if_neg h]
      unfold strnlenWords
      rw [strnlenScan_found L h8 m hm (n + 1) a t (by omega) hat htn ht hp hn]

theorem strnlenFrom_none (L : Nat) (m : Mem) (hm : ∀ a, m a < 256) (n a : Nat) (hL : a + n ≤ L)
    (ha : a % 8 = 0 ∨ 8 ≤ a % 8 + n) (hn : ∀ b, a ≤ b → b < a + n → m b ≠ 0) : strnlenFrom L m n a = some (a + n) := by
  induction n generalizing a with
  | zero =>
    unfold strnlenFrom
    rw [if_neg (by omega)]
    unfold strnlenWords
    rw [Str.memchrScan_none L m 0 _ (Str.strlenHit_finds m hm) 0 a hL hn]
  | succ n ih =>
    unfold strnlenFrom
    by_cases h : a % 8 ≠ 0
    · rw [if_pos h]
      simp only
      rw [if_pos (by omega), if_neg (hn a (by omega) (by omega)),
        ih (a + 1) (by omega) (by omega) (fun b h1 h2 => hn b (by omega) (by omega))]
      congr 1; omega
    · rw [if_neg h]
      unfold strnlenWords
      rw [Str.memchrScan_none L m 0 _ (Str.strlenHit_finds m hm) (n + 1) a hL hn]

/-- With a short misaligned limit the search goes on to the terminator. -/
theorem strnlenFrom_overrun (L : Nat) (m : Mem) (hm : ∀ a, m a < 256)
    (n a t : Nat) (ha : a % 8 ≠ 0) (han : a % 8 + n < 8) (hat : a + n ≤ t) (ht : t + 8 ≤ L) (hL : L < 4294967296)
    (hp : m t = 0) (hn : ∀ b, a ≤ b → b < t → m b ≠ 0) : strnlenFrom L m n a = some t := by
  induction n generalizing a with
  | zero =>
    unfold strnlenFrom
    rw [if_pos ha]
    simp only
    unfold strnlenWords
    rw [Str.memchrScan_found L m 0 _ (Str.strlenHit_finds m hm) 4294967295 a t (.inr ht) hat (by omega) hp hn]
  | succ n ih =>
    unfold strnlenFrom
    rw [if_pos ha]
    simp only
    rw [if_pos (by omega), if_neg (hn a (by omega) (by omega))]
    exact ih (a + 1) (by omega) (by omega) (by omega) (fun b h1 h2 => hn b (by omega) h2)

/-- The conversion `s` of a string of bytes. -/
theorem convertS_eq (L : Nat) (h8 : L % 8 = 0) (m : Mem) (hm : ∀ a, m a < 256) (hL : L < 2 ^ 32) {sp : Opts} {d : Dir} {a : Ask}
    (h : Agrees sp d a) (hs : sp.length = 0) (v : Int) (t : List Nat) (ht : StrText m (u32 v) a.prec t)
    (hend : u32 v + t.length < L ∨ (u32 v + t.length = L ∧ a.prec = some t.length)) (hfit : a.prec = some t.length → u32 v % 8 = 0 ∨ 8 ≤ u32 v % 8 + t.length) :
    ∃ o, convertS L m sp v = some o ∧ o.chunks.flatten = t ∧ o.ret = t.length ∧ o.stores = [] ∧ o.fault = false := by
  obtain ⟨h1, h2, h3⟩ := ht
  have hz : ∀ b, u32 v ≤ b → b < u32 v + t.length → m b ≠ 0 := by
    intro b hb hb'
    have := h1 (b - u32 v) (by omega)
    rw [Nat.add_sub_cancel' hb] at this
    rw [this]; exact h2 _ (List.getElem_mem _)
  have key : strnlen L m (u32 v) (if sp.precision < 0 then 4294967295 else sp.precision.toNat) = some t.length := by
    unfold strnlen
    have hp := h.prec
    cases e : a.prec with
    | none =>
      rw [e] at hp h3
      simp only at hp h3
      rw [e] at hend
      simp only [reduceCtorEq, and_false, or_false] at hend
      rw [if_pos hp, strnlenFrom_found L h8 m hm _ _ (u32 v + t.length) (by omega) (by omega) hend h3 hz]
      simp
    | some k =>
      rw [e] at hp h3 hfit hend
      simp only at hp h3
      rw [if_neg (by omega), show sp.precision.toNat = k by omega]
      rcases h3 with rfl | ⟨hlt, h0⟩
      · rw [strnlenFrom_none L m hm _ _ (by omega) (hfit rfl) hz]; simp
      · rw [strnlenFrom_found L h8 m hm _ _ (u32 v + t.length) (by omega) (by omega) (by simp at hend; omega) h0 hz]; simp
  unfold convertS
  simp only
  rw [if_neg (by rw [hs]; decide), key]
  refine ⟨_, rfl, ?_, rfl, rfl, rfl⟩
  simp only [List.flatten_singleton]
  apply List.ext_getElem
  · simp
  · intro i hi hi'
    simp only [List.getElem_map, List.getElem_range]
    exact h1 i hi'

theorem wcrtomb_wf (c : Nat) (bs : List Nat) (h : Utf.Spec.WF bs c) : Utf.wcrtomb c = (bs.length, bs) := by
  have := Utf.wcrtomb_scalar c h.scalar
  have e := h.unique this.2
  rw [Prod.ext_iff]
  exact ⟨by rw [this.1, e], e.symm⟩

theorem wf_not_err (bs : List Nat) (c : Nat) (h : Utf.Spec.WF bs c) : bs.length ≠ Utf.ERR := by
  have := h.length_le
  unfold Utf.ERR; omega

/-- The loop of `%ls`. -/
theorem convertLs_eq (L : Nat) (m : Mem) (precision : Nat) (t cs : List Nat) (he : Utf.Spec.Enc t cs) (p count : Nat)
    (hc : ∀ i (_ : i < cs.length), wchar m (p + 4 * i) = cs[i] ∧ cs[i] ≠ 0) (hL : p + 4 * cs.length + 4 ≤ L)
    (hle : count + t.length ≤ precision)
    (hend : wchar m (p + 4 * cs.length) = 0 ∨ ∃ bs, Utf.Spec.WF bs (wchar m (p + 4 * cs.length)) ∧ precision < count + t.length + bs.length) :
    ∃ ch, convertLs L m precision p count = some (ch, ((count + t.length : Nat) : Int)) ∧ ch.flatten = t := by
  induction he generalizing p count with
  | nil =>
    unfold convertLs
    rw [if_pos (by simp at hL; omega)]
    by_cases h0 : wide m p = 0
    · rw [if_pos h0]; exact ⟨[], rfl, rfl⟩
    · rw [if_neg h0]
      rcases hend with hend | ⟨bs, hw, hlt⟩
      · exact absurd hend h0
      · change Utf.Spec.WF bs (wide m p) at hw
        rw [wcrtomb_wf _ _ hw]
        simp only
        rw [if_neg (wf_not_err _ _ hw), if_pos (by simp at hlt; omega)]
        exact ⟨[], rfl, rfl⟩
  | @cons b bs c cs hw he ih =>
    have h0 := hc 0 (by simp)
    simp only [Nat.mul_zero, Nat.add_zero, List.getElem_cons_zero] at h0
    change wide m p = c ∧ _ at h0
    simp only [List.length_cons, List.length_append] at hL hle hend
    obtain ⟨ch, e, hf⟩ := ih (p + 4) (count + b.length)
      (fun i hi => by
        have := hc (i + 1) (by simp; omega)
        simp only [List.getElem_cons_succ] at this
        rw [show p + 4 + 4 * i = p + 4 * (i + 1) by omega]; exact this)
      (by omega) (by omega)
      (by
        rw [show p + 4 + 4 * cs.length = p + 4 * (cs.length + 1) by omega]
        rcases hend with h | ⟨x, hx, hlt⟩
        · exact .inl h
        · exact .inr ⟨x, hx, by omega⟩)
    unfold convertLs
    rw [if_pos (by omega), if_neg (by omega), h0.1, wcrtomb_wf _ _ hw]
    simp only
    rw [if_neg (wf_not_err _ _ hw), if_neg (by omega), e]
    refine ⟨b :: ch, ?_, by simp [hf]⟩
    simp only [List.length_append]
    rw [Nat.add_assoc]

theorem enc_length (t cs : List Nat) (h : Utf.Spec.Enc t cs) : cs.length ≤ t.length := by
  induction h with
  | nil => simp
  | cons hw _ ih => have := hw.length_pos; simp; omega

theorem convertWS_eq (L : Nat) (m : Mem) {sp : Opts} {d : Dir} {a : Ask}
    (h : Agrees sp d a) (hs : sp.length = sizeCode .l) (v : Int) (t : List Nat) (ht : WideText m (u32 v) a.prec t)
    (hend : u32 v + 4 * t.length + 4 ≤ L) (hlen : t.length < 2 ^ 31) :
    ∃ o, convertS L m sp v = some o ∧ o.chunks.flatten = t ∧ o.ret = t.length ∧ o.stores = [] ∧ o.fault = false := by
  obtain ⟨cs, he, hc, h3⟩ := ht
  have hle := enc_length t cs he
  have hp := h.prec
  unfold convertS
  simp only
  rw [if_pos (by rw [hs]; decide)]
  have : ∃ ch, convertLs L m (if sp.precision < 0 then 4294967295 else sp.precision.toNat) (u32 v) 0 =
      some (ch, ((0 + t.length : Nat) : Int)) ∧ ch.flatten = t := by
    cases e : a.prec with
    | none =>
      rw [e] at hp h3
      simp only at hp h3
      rw [if_pos hp]
      exact convertLs_eq L m _ t cs he _ 0 hc (by omega) (by omega) (.inl h3)
    | some k =>
      rw [e] at hp h3
      simp only at hp h3
      rw [if_neg (by omega), show sp.precision.toNat = k by omega]
      refine convertLs_eq L m _ t cs he _ 0 hc (by omega) (by omega) ?_
      rcases h3.2 with h | ⟨bs, h, h'⟩
      · exact .inl h
      · exact .inr ⟨bs, h, by omega⟩
  obtain ⟨ch, e, hf⟩ := this
  rw [e]
  exact ⟨_, rfl, hf, by simp, rfl, rfl⟩

/-! ## Arguments -/

theorem u32_eq (v : Int) : u32 v = (v % 2 ^ 32).toNat := rfl

theorem s32_u32_any (v : Int) : s32 (u32 v) = (v % 4294967296 + 2147483648) % 4294967296 - 2147483648 := by
  unfold s32 u32
  by_cases h : v % 4294967296 < 2147483648
  · rw [if_pos (by omega)]; omega
  · rw [if_neg (by omega)]; omega

theorem s64_u64_any (v : Int) :
    s64 (u64 v) = (v % 18446744073709551616 + 9223372036854775808) % 18446744073709551616 - 9223372036854775808 := by
  unfold s64 u64
  by_cases h : v % 18446744073709551616 < 9223372036854775808
  · rw [if_pos (by omega)]; omega
  · rw [if_neg (by omega)]; omega

theorem bmod_8 (v : Int) : v.bmod 256 = (v % 256 + 128) % 256 - 128 := by
  rw [Int.bmod_def]
  by_cases h : v % 256 < 128
  · rw [if_pos (by omega)]; omega
  · rw [if_neg (by omega)]; omega

theorem bmod_16 (v : Int) : v.bmod 65536 = (v % 65536 + 32768) % 65536 - 32768 := by
  rw [Int.bmod_def]
  by_cases h : v % 65536 < 32768
  · rw [if_pos (by omega)]; omega
  · rw [if_neg (by omega)]; omega

theorem bmod_32 (v : Int) : v.bmod 4294967296 = (v % 4294967296 + 2147483648) % 4294967296 - 2147483648 := by
  rw [Int.bmod_def]
  by_cases h : v % 4294967296 < 2147483648
  · rw [if_pos (by omega)]; omega
  · rw [if_neg (by omega)]; omega

theorem bmod_64 (v : Int) : v.bmod 18446744073709551616 = (v % 18446744073709551616 + 9223372036854775808) % 18446744073709551616 - 9223372036854775808 := by
  rw [Int.bmod_def]
  by_cases h : v % 18446744073709551616 < 9223372036854775808
  · rw [if_pos (by omega)]; omega
  · rw [if_neg (by omega)]; omega

/-- The value read at each size. -/
theorem signed_eq (s : Size) (hL : s ≠ .L) (v : Int) : s.signed v =
    match s.bytes with
    | 1 => (v % 256 + 128) % 256 - 128
    | 2 => (v % 65536 + 32768) % 65536 - 32768
    | 8 => (v % 18446744073709551616 + 9223372036854775808) % 18446744073709551616 - 9223372036854775808
    | _ => (v % 4294967296 + 2147483648) % 4294967296 - 2147483648 := by
  unfold Size.signed
  cases s
  · exact bmod_32 v
  · exact bmod_8 v
  · exact bmod_16 v
  · exact bmod_32 v
  · exact bmod_64 v
  · exact bmod_64 v
  · exact bmod_32 v
  · exact bmod_32 v
  · exact absurd rfl hL

theorem popSigned_eq (s : Size) (hL : s ≠ .L) (v : Int) : popSigned (sizeCode s) v = s.signed v := by
  rw [signed_eq s hL]
  cases s
  · exact s32_u32_any v
  · change ((u32 v : Int) % 256 + 128) % 256 - 128 = (v % 256 + 128) % 256 - 128
    unfold u32; omega
  · change ((u32 v : Int) % 65536 + 32768) % 65536 - 32768 = (v % 65536 + 32768) % 65536 - 32768
    unfold u32; omega
  · exact s32_u32_any v
  · exact s64_u64_any v
  · exact s64_u64_any v
  · exact s32_u32_any v
  · exact s32_u32_any v
  · exact absurd rfl hL

theorem popUnsigned_eq (s : Size) (hL : s ≠ .L) (v : Int) : popUnsigned (sizeCode s) v = s.unsigned v := by
  cases s
  · rfl
  · change u32 v % 256 = (v % 256).toNat
    unfold u32; omega
  · change u32 v % 65536 = (v % 65536).toNat
    unfold u32; omega
  all_goals first | rfl | exact absurd rfl hL

theorem signed_range (s : Size) (hL : s ≠ .L) (v : Int) : -2 ^ 63 ≤ s.signed v ∧ s.signed v < 2 ^ 63 := by
  rw [signed_eq s hL]
  cases s
  all_goals first | exact absurd rfl hL | (simp only [Size.bytes]; omega)

theorem unsigned_range (s : Size) (hL : s ≠ .L) (v : Int) : s.unsigned v < 2 ^ 64 := by
  cases s
  all_goals first | exact absurd rfl hL | (simp only [Size.unsigned, Size.bytes]; omega)

theorem storeSize_eq (s : Size) (hL : s ≠ .L) : storeSize (sizeCode s) = s.bytes := by
  cases s
  all_goals first | rfl | exact absurd rfl hL

/-! ## The loop -/

theorem padText_id (a : Ask) (t : List Nat) (h : a.width ≤ t.length) : padText a t = t := by
  unfold padText
  rw [Nat.sub_eq_zero_of_le h]
  split <;> simp

theorem convert_int (L : Nat) (m : Mem) {sp : Opts} {d : Dir} {a : Ask} (h : Agrees sp d a) (hs : sp.length = sizeCode d.size)
    (hi : d.isInt = true) (k : Nat) (v : Int) (args : List Int) (hc : d.Clean L m a v) (hl : (d.int a v).length < 2 ^ 31) :
    ∃ o, convert L m sp k d.conv (v :: args) = some (o, args) ∧ o.chunks.flatten = d.int a v ∧
      o.ret = (d.int a v).length ∧ o.stores = [] ∧ o.fault = d.long v := by
  unfold Dir.isInt at hi
  rw [decide_eq_true_eq] at hi
  obtain ⟨hi, hL⟩ := hi
  have hconv : convert L m sp k d.conv (v :: args) =
      (if d.conv = 100 ∨ d.conv = 105 then convertI sp (d.size.signed v)
       else if d.conv = 111 then convertO sp (d.size.unsigned v)
       else if d.conv = 117 then convertU sp (d.size.unsigned v)
       else convertX sp d.conv (d.size.unsigned v)).map (·, args) := by
    unfold convert
    rw [if_pos (by revert hi; generalize d.conv = c; intro hi; revert c; decide), hs]
    simp only [popSigned_eq _ hL, popUnsigned_eq _ hL]
    congr 1
    by_cases h1 : d.conv = 100 ∨ d.conv = 105
    · rw [if_pos h1, if_pos h1]
    · rw [if_neg h1, if_neg h1]
      by_cases h2 : d.conv = 111
      · rw [if_pos h2, if_pos h2]
      · rw [if_neg h2, if_neg h2]
        by_cases h3 : d.conv = 117
        · rw [if_pos h3, if_pos h3]
        · rw [if_neg h3, if_neg h3]
          rw [if_pos (by simp at hi; omega)]
  rw [hconv]
  unfold Dir.int at hl ⊢
  unfold Dir.long
  have hr := signed_range d.size hL v
  have hu := unsigned_range d.size hL v
  by_cases h1 : d.conv = 100 ∨ d.conv = 105
  · rw [if_pos h1] at hl ⊢
    rw [if_pos h1]
    obtain ⟨o, e, h2, h3, h4, h5⟩ := convertI_eq h (d.size.signed v) (by have := hc.1 h1; omega) hr.2 hl
    refine ⟨o, by rw [e]; rfl, h2, h3, h4, ?_⟩
    rw [Bool.eq_iff_iff, h5]
    simp only [decide_eq_true_eq]
    constructor
    · exact fun h => .inl ⟨h1, h⟩
    · rintro (h | h)
      · exact h.2
      · omega
  · rw [if_neg h1] at hl ⊢
    rw [if_neg h1]
    by_cases h2 : d.conv = 117
    · rw [if_pos h2] at hl ⊢
      rw [if_neg (by omega), if_pos h2]
      obtain ⟨o, e, h3, h4, h5, h6⟩ := convertU_eq h (d.size.unsigned v) hl
      refine ⟨o, by rw [e]; rfl, h3, h4, h5, ?_⟩
      rw [Bool.eq_iff_iff, h6]
      simp only [decide_eq_true_eq]
      constructor
      · exact fun h => .inr ⟨h2, h⟩
      · rintro (h | h)
        · exact absurd h.1 h1
        · exact h.2
    · rw [if_neg h2] at hl ⊢
      have hlong : decide ((d.conv = 100 ∨ d.conv = 105) ∧ 10 ≤ (d.size.signed v).natAbs ∨ d.conv = 117 ∧ 100 ≤ d.size.unsigned v) = false := by
        rw [decide_eq_false_iff_not]
        rintro (h | h)
        · exact h1 h.1
        · exact h2 h.1
      by_cases h3 : d.conv = 111
      · rw [if_pos h3] at hl ⊢
        rw [if_pos h3, if_neg h2]
        obtain ⟨o, e, h4, h5, h6, h7⟩ := convertO_eq h (d.size.unsigned v) hu _ rfl hl
        exact ⟨o, by rw [e]; rfl, h4, h5, h6, by rw [h7, hlong]⟩
      · rw [if_neg h3] at hl ⊢
        rw [if_neg h3, if_neg h2]
        obtain ⟨o, e, h4, h5, h6, h7⟩ := convertX_eq h (d.size.unsigned v) hu d.conv (by simp at hi; omega) _ rfl hl
        exact ⟨o, by rw [e]; rfl, h4, h5, h6, by rw [h7, hlong]⟩

theorem padText_length (a : Ask) (t : List Nat) : t.length ≤ (padText a t).length := by
  unfold padText
  split <;> simp

theorem justify_width (d : Dir) (a : Ask) (p b : List Nat) : a.width ≤ (justify d a p b).length := by
  rw [justify_length]; omega

theorem int_width (d : Dir) (a : Ask) (v : Int) : a.width ≤ (d.int a v).length := by
  unfold Dir.int
  repeat' split
  all_goals exact justify_width ..

theorem convert_c (L : Nat) (m : Mem) (sp : Opts) (k : Nat) (v : Int) (args : List Int) :
    convert L m sp k 99 (v :: args) = some (convertC sp v, args) := by
  unfold convert
  rw [if_pos (by decide)]
  rfl

theorem convertC_chr (sp : Opts) (hs : sp.length = sizeCode .none) (v : Int) :
    convertC sp v = ⟨false, [[(v % 256).toNat]], 1, []⟩ := by
  unfold convertC
  rw [if_neg (by rw [hs]; decide)]

theorem convertC_wchr (sp : Opts) (hs : sp.length = sizeCode .l) (v : Int) (bs : List Nat) (hw : Utf.Spec.WF bs (u32 v)) :
    convertC sp v = ⟨false, [bs], bs.length, []⟩ := by
  unfold convertC
  rw [if_pos (by rw [hs]; decide), wcrtomb_wf _ _ hw]
  simp only
  rw [if_neg (wf_not_err _ _ hw)]

theorem convert_str (L : Nat) (m : Mem) (sp : Opts) (k : Nat) (v : Int) (args : List Int) (o : Out)
    (h : convertS L m sp v = some o) : convert L m sp k 115 (v :: args) = some (o, args) := by
  unfold convert
  rw [if_pos (by decide)]
  change Option.map (fun x => (x, args)) (convertS L m sp v) = _
  rw [h]
  rfl

theorem convert_count (L : Nat) (m : Mem) (sp : Opts) (k : Nat) (v : Int) (args : List Int) :
    convert L m sp k 110 (v :: args) = some (storeN sp k v, args) := by
  unfold convert
  rw [if_pos (by decide)]
  rfl

theorem u32_nat (n : Nat) (h : n < 2 ^ 32) : u32 (n : Int) = n := by
  unfold u32; omega

theorem s32_nat (n : Nat) (h : n < 2 ^ 31) : s32 n = n := by
  unfold s32
  rw [if_pos (by omega), Nat.mod_eq_of_lt (by omega)]

/-- What one directive does. -/
def Does (o : Out) (t : List Nat) (st : List (Nat × Nat × Nat)) (f : Bool) : Prop :=
  o.chunks.flatten = t ∧ o.ret = t.length ∧ o.stores = st ∧ o.fault = f

/-- One directive followed by the rest of the format. -/
theorem vloop_dir (L : Nat) (m : Mem) (d : Dir) (hd : d.Ok) (hc : d.conv ∈ convs) (a : Ask) (args args1 args2 : List Int)
    (ha : d.ask args = some (a, args1)) (hw : a.width < 2 ^ 31) (rest lit : List Nat) (k count fuel : Nat)
    (t1 t : List Nat) (st1 st : List (Nat × Nat × Nat)) (f1 f : Bool) (hk : k = count + lit.length) (hcount : k + t1.length < 2 ^ 31)
    (h : ∀ sp, Agrees sp d a → sp.length = sizeCode d.size → ∃ o, convert L m sp k d.conv args1 = some (o, args2) ∧ Does o t1 st1 f1)
    (hrest : ∃ o, vloop L m fuel rest [] (k + t1.length) args2 = some o ∧ o.chunks.flatten = [] ++ t ∧
      o.ret = ((k + t1.length + t.length : Nat) : Int) ∧ o.stores = st ∧ o.fault = f) :
    ∃ o, vloop L m (fuel + 1) (d.text ++ rest) lit count args = some o ∧ o.chunks.flatten = lit ++ (t1 ++ t) ∧
      o.ret = ((k + (t1 ++ t).length : Nat) : Int) ∧ o.stores = st1 ++ st ∧ o.fault = (f1 || f) := by
  obtain ⟨sp, e, hA, hs⟩ := parse_eq d hd hc rest args args1 a ha hw
  obtain ⟨o1, e1, c1, c2, c3, c4⟩ := h sp hA hs
  obtain ⟨o, e2, r1, r2, r3, r4⟩ := hrest
  have hne : d.text ++ rest = 37 :: (d.text ++ rest).tail := by unfold Dir.text; rfl
  have h37 : (d.text ++ rest).tail.head? ≠ some 37 := by
    intro h37
    -- a directive does not begin with `%`: its first character is a flag, digit, star, period, modifier or conversion
    unfold Dir.text at h37
    simp only [List.cons_append, List.tail_cons] at h37
    obtain ⟨h1, h2, h3, h4⟩ := hd
    cases hf : d.flags with
    | cons c cs =>
      rw [hf] at h37 h1
      simp at h37
      have := h1 c (by simp)
      rw [h37] at this; revert this; decide
    | nil =>
      rw [hf] at h37
      simp only [List.nil_append] at h37
      cases hwd : d.width with
      | star => rw [hwd] at h37; simp [Field.text] at h37
      | num ds =>
        rw [hwd] at h37 h2
        cases ds with
        | cons c ds =>
          simp [Field.text] at h37
          have := h2.1 c (by simp)
          omega
        | nil =>
          simp only [Field.text, List.nil_append] at h37
          cases hp : d.prec with
          | some f => rw [hp] at h37; simp [precText] at h37
          | none =>
            rw [hp] at h37
            simp only [precText, List.nil_append] at h37
            cases hsz : d.size <;> rw [hsz] at h37 <;> simp [Size.text] at h37
            rw [h37] at hc; revert hc; decide
  rw [hne, vloop, if_pos rfl, if_neg h37, e]
  simp only
  rw [← hk, Nat.mod_eq_of_lt (a := k) (by omega), List.headD_cons, e1]
  simp only
  rw [if_neg (by omega), c2, u32_nat _ (by omega), Nat.mod_eq_of_lt (a := k + t1.length) (by omega),
    List.tail_cons, e2]
  refine ⟨_, rfl, ?_, ?_, ?_, ?_⟩
  · simp [Out.after, c1, r1]
  · simp only [Out.after, r2, List.length_append]; omega
  · simp [Out.after, c3, r3]
  · simp [Out.after, c4, r4]

theorem format_dir (d : Dir) (is : List Item) (hok : ∀ i ∈ (Item.dir d :: is), i.Ok) {fuel : Nat}
    (h' : (format (.dir d :: is)).length + 1 ≤ fuel + 1) :
    d.Ok ∧ format (.dir d :: is) = d.text ++ format is ∧ (format is).length + 1 ≤ fuel := by
  have e : format (.dir d :: is) = d.text ++ format is := rfl
  refine ⟨hok (.dir d) (by simp), e, ?_⟩
  rw [e, List.length_append] at h'
  have : 1 ≤ d.text.length := by unfold Dir.text; simp
  omega

/-- The loop prints what the format means. -/
theorem vloop_eq (L : Nat) (h8 : L % 8 = 0) (hL : L < 2 ^ 32) (m : Mem) (hm : ∀ a, m a < 256) (is : List Item) (k : Nat)
    (args : List Int) (t : List Nat) (st : List (Nat × Nat × Nat)) (h : Prints m k is args t st) (hok : ∀ i ∈ is, i.Ok)
    (hc : Clean L m is args) (hlen : k + t.length < 2 ^ 31) (lit : List Nat) (count fuel : Nat)
    (hk : k = count + lit.length) (hf : (format is).length + 1 ≤ fuel) :
    ∃ o, vloop L m fuel (format is) lit count args = some o ∧ o.chunks.flatten = lit ++ t ∧ o.ret = ((k + t.length : Nat) : Int) ∧
      o.stores = st ∧ o.fault = long is args := by
  obtain ⟨fuel, rfl⟩ : ∃ f, fuel = f + 1 := ⟨fuel - 1, by omega⟩
  induction h generalizing lit count fuel with
  | @nil k args =>
    refine ⟨_, rfl, by simp, ?_, rfl, rfl⟩
    simp only [List.length_nil] at hlen ⊢
    rw [Nat.mod_eq_of_lt (by omega), s32_nat _ (by omega)]
    omega
  | @lit k c is args t st hp ih =>
    have hc1 := hok (.lit c) (by simp)
    have e : format (.lit c :: is) = c :: format is := rfl
    rw [e, List.length_cons] at hf
    rw [e, vloop, if_neg hc1.1]
    obtain ⟨fuel, rfl⟩ : ∃ f, fuel = f + 1 := ⟨fuel - 1, by omega⟩
    simp only [List.length_cons] at hlen
    obtain ⟨o, e1, e2, e3, e4, e5⟩ := ih (fun i hi => hok i (List.mem_cons_of_mem _ hi)) hc (by omega) (lit ++ [c]) count
      (by simp; omega) fuel (by omega)
    refine ⟨o, e1, by rw [e2]; simp, by rw [e3]; simp only [List.length_cons]; omega, e4, e5⟩
  | @percent k is args t st hp ih =>
    have e : format (.percent :: is) = 37 :: 37 :: format is := rfl
    rw [e, List.length_cons, List.length_cons] at hf
    rw [e, vloop, if_pos rfl, if_pos (by rfl)]
    obtain ⟨fuel, rfl⟩ : ∃ f, fuel = f + 1 := ⟨fuel - 1, by omega⟩
    simp only [List.length_cons] at hlen
    obtain ⟨o, e1, e2, e3, e4, e5⟩ := ih (fun i hi => hok i (List.mem_cons_of_mem _ hi)) hc (by omega) [] (count + (lit.length + 1))
      (by simp; omega) fuel (by omega)
    rw [Nat.mod_eq_of_lt (a := count + (lit.length + 1)) (by omega), List.tail_cons, e1]
    refine ⟨_, rfl, ?_, ?_, ?_, ?_⟩
    · simp [Out.after, e2]
    · simp only [Out.after, e3, List.length_cons]; omega
    · simp [Out.after, e4]
    · simp [Out.after, e5, long]
  | @int k d a v is args args' t st hi ha hp ih =>
    obtain ⟨hd, e, hf'⟩ := format_dir d is hok hf
    rw [List.length_append] at hlen
    have hcl : d.Clean L m a v ∧ Clean L m is args' := by rw [Clean, ha] at hc; exact hc
    have hlong : long (.dir d :: is) args = (d.long v || long is args') := by rw [long, ha]
    have hwid := int_width d a v
    have hconv : d.conv ∈ convs := by
      unfold Dir.isInt at hi
      rw [decide_eq_true_eq] at hi
      replace hi := hi.1
      revert hi; generalize d.conv = c; intro hi; revert c; decide
    obtain ⟨fuel, rfl⟩ : ∃ f, fuel = f + 1 := ⟨fuel - 1, by omega⟩
    rw [e, hlong]
    exact vloop_dir L m d hd hconv a args _ args' ha (by omega) _ lit k count _ _ t [] st _ _ hk (by omega)
      (fun sp hA hs => convert_int L m hA hs hi k v args' hcl.1 (by omega))
      (ih (fun i hi => hok i (List.mem_cons_of_mem _ hi)) hcl.2 (by omega) [] _ rfl fuel hf')
  | @chr k d a v is args args' t st hcv hsz ha hp ih =>
    obtain ⟨hd, e, hf'⟩ := format_dir d is hok hf
    rw [List.length_append] at hlen
    have hcl : d.Clean L m a v ∧ Clean L m is args' := by rw [Clean, ha] at hc; exact hc
    have hlong : long (.dir d :: is) args = (d.long v || long is args') := by rw [long, ha]
    have hw := hcl.1.2.1 hcv
    rw [padText_id a _ (by simpa using hw)] at hlen ih ⊢
    have hl : d.long v = false := by unfold Dir.long; rw [hcv]; simp
    rw [hl] at hlong
    obtain ⟨fuel, rfl⟩ : ∃ f, fuel = f + 1 := ⟨fuel - 1, by omega⟩
    rw [e, hlong]
    exact vloop_dir L m d hd (by rw [hcv]; decide) a args _ args' ha (by omega) _ lit k count _ _ t [] st _ _ hk (by omega) 
      (fun sp _ hs => ⟨_, by rw [hcv]; exact convert_c L m sp k v args',
        by rw [hsz] at hs; rw [convertC_chr sp hs]; exact ⟨rfl, rfl, rfl, rfl⟩⟩)
      (ih (fun i hi => hok i (List.mem_cons_of_mem _ hi)) hcl.2 (by omega) [] _ rfl fuel hf')
  | @wchr k d a v bs is args args' t st hcv hsz ha hwf hp ih =>
    obtain ⟨hd, e, hf'⟩ := format_dir d is hok hf
    rw [List.length_append] at hlen
    have hcl : d.Clean L m a v ∧ Clean L m is args' := by rw [Clean, ha] at hc; exact hc
    have hlong : long (.dir d :: is) args = (d.long v || long is args') := by rw [long, ha]
    have hw := hcl.1.2.1 hcv
    have hpos := hwf.length_pos
    rw [padText_id a _ (by omega)] at hlen ih ⊢
    have hl : d.long v = false := by unfold Dir.long; rw [hcv]; simp
    rw [hl] at hlong
    obtain ⟨fuel, rfl⟩ : ∃ f, fuel = f + 1 := ⟨fuel - 1, by omega⟩
    rw [e, hlong]
    exact vloop_dir L m d hd (by rw [hcv]; decide) a args _ args' ha (by omega) _ lit k count _ _ t [] st _ _ hk (by omega) 
      (fun sp _ hs => ⟨_, by rw [hcv]; exact convert_c L m sp k v args',
        by rw [hsz] at hs; rw [convertC_wchr sp hs v bs hwf]; exact ⟨by simp, rfl, rfl, rfl⟩⟩)
      (ih (fun i hi => hok i (List.mem_cons_of_mem _ hi)) hcl.2 (by omega) [] _ rfl fuel hf')
  | @str k d a v bs is args args' t st hcv hsz ha hst hp ih =>
    obtain ⟨hd, e, hf'⟩ := format_dir d is hok hf
    rw [List.length_append] at hlen
    have hcl : d.Clean L m a v ∧ Clean L m is args' := by rw [Clean, ha] at hc; exact hc
    have hlong : long (.dir d :: is) args = (d.long v || long is args') := by rw [long, ha]
    obtain ⟨hw, hend, hfit⟩ := hcl.1.2.2.1 hcv hsz bs hst
    rw [padText_id a _ hw] at hlen ih ⊢
    have hl : d.long v = false := by unfold Dir.long; rw [hcv]; simp
    rw [hl] at hlong
    obtain ⟨fuel, rfl⟩ : ∃ f, fuel = f + 1 := ⟨fuel - 1, by omega⟩
    rw [e, hlong]
    exact vloop_dir L m d hd (by rw [hcv]; decide) a args _ args' ha (by omega) _ lit k count _ _ t [] st _ _ hk (by omega) 
      (fun sp hA hs => by
        obtain ⟨o, e1, e2⟩ := convertS_eq L h8 m hm hL hA (by rw [hs, hsz]; rfl) v bs hst hend hfit
        exact ⟨o, by rw [hcv]; exact convert_str L m sp k v args' o e1, e2⟩)
      (ih (fun i hi => hok i (List.mem_cons_of_mem _ hi)) hcl.2 (by omega) [] _ rfl fuel hf')
  | @wstr k d a v bs is args args' t st hcv hsz ha hst hp ih =>
    obtain ⟨hd, e, hf'⟩ := format_dir d is hok hf
    rw [List.length_append] at hlen
    have hcl : d.Clean L m a v ∧ Clean L m is args' := by rw [Clean, ha] at hc; exact hc
    have hlong : long (.dir d :: is) args = (d.long v || long is args') := by rw [long, ha]
    obtain ⟨hw, hend⟩ := hcl.1.2.2.2 hcv hsz bs hst
    rw [padText_id a _ hw] at hlen ih ⊢
    have hl : d.long v = false := by unfold Dir.long; rw [hcv]; simp
    rw [hl] at hlong
    obtain ⟨fuel, rfl⟩ : ∃ f, fuel = f + 1 := ⟨fuel - 1, by omega⟩
    rw [e, hlong]
    exact vloop_dir L m d hd (by rw [hcv]; decide) a args _ args' ha (by omega) _ lit k count _ _ t [] st _ _ hk (by omega) 
      (fun sp hA hs => by
        obtain ⟨o, e1, e2⟩ := convertWS_eq L m hA (by rw [hs, hsz]) v bs hst hend (by omega)
        exact ⟨o, by rw [hcv]; exact convert_str L m sp k v args' o e1, e2⟩)
      (ih (fun i hi => hok i (List.mem_cons_of_mem _ hi)) hcl.2 (by omega) [] _ rfl fuel hf')
  | @count k d v is args t st hcv hnL hfl hwd hpr hp ih =>
    obtain ⟨hd, e, hf'⟩ := format_dir d is hok hf
    have ha : d.ask (v :: args) = some (⟨false, 0, none⟩, v :: args) := by
      unfold Dir.ask; rw [hfl, hwd, hpr]; rfl
    have hcl : d.Clean L m ⟨false, 0, none⟩ v ∧ Clean L m is args := by rw [Clean, ha] at hc; exact hc
    have hlong : long (.dir d :: is) (v :: args) = (d.long v || long is args) := by rw [long, ha]
    have hl : d.long v = false := by unfold Dir.long; rw [hcv]; simp
    rw [hl] at hlong
    obtain ⟨fuel, rfl⟩ : ∃ f, fuel = f + 1 := ⟨fuel - 1, by omega⟩
    rw [e, hlong]
    exact vloop_dir L m d hd (by rw [hcv]; decide) _ (v :: args) _ args ha (by decide) _ lit k count _ [] t [_] st _ _ hk
      (by simp only [List.length_nil]; omega)
      (fun sp hA hs => ⟨_, by rw [hcv]; exact convert_count L m sp k v args,
        by unfold storeN; rw [hs, storeSize_eq _ hnL]; exact ⟨rfl, rfl, rfl, rfl⟩⟩)
      (ih (fun i hi => hok i (List.mem_cons_of_mem _ hi)) hcl.2 (by omega) [] _ rfl fuel hf')

/-! ## Where the text goes -/

theorem store_written (m : Mem) (d : Nat) (bs : List Nat) : Str.Written m (store m d bs) d bs := by
  refine ⟨fun i hi => ?_, fun a ha => ?_⟩
  · unfold store
    rw [if_pos (by omega), Nat.add_sub_cancel_left, List.getD_eq_getElem?_getD, List.getElem?_eq_getElem hi]
    rfl
  · unfold store
    rw [if_neg ha]

theorem written_append {m m' m'' : Mem} {d : Nat} {a b : List Nat} (h : Str.Written m m' d a) (h' : Str.Written m' m'' (d + a.length) b) :
    Str.Written m m'' d (a ++ b) := by
  refine ⟨fun i hi => ?_, fun x hx => ?_⟩
  · rw [List.length_append] at hi
    by_cases e : i < a.length
    · rw [List.getElem_append_left e, h'.2 _ (by omega)]
      exact h.1 i e
    · rw [List.getElem_append_right (by omega)]
      have := h'.1 (i - a.length) (by omega)
      rw [← this]
      congr 1
      omega
  · rw [List.length_append] at hx
    rw [h'.2 x (by omega), h.2 x (by omega)]

theorem written_nil (m : Mem) (d : Nat) : Str.Written m m d [] := ⟨fun i hi => absurd hi (by simp), fun _ _ => rfl⟩

/-- The writes of `vsnprintf`. -/
theorem emit_sink (cs : List (List Nat)) (ret : Int) (s : Sink) (h : s.noop = false → s.ptr ≤ s.end_) :
    ∃ s', emit sinkWrite cs ret s = (ret, s') ∧
      (s.noop = true → s' = s) ∧
      (s.noop = false → Str.Written s.mem s'.mem s.ptr (cs.flatten.take (s.end_ - s.ptr)) ∧
        s'.ptr = s.ptr + min cs.flatten.length (s.end_ - s.ptr)) := by
  induction cs generalizing s with
  | nil => exact ⟨s, rfl, fun _ => rfl, fun _ => ⟨by simpa using written_nil _ _, by simp⟩⟩
  | cons c cs ih =>
    unfold emit
    by_cases hn : s.noop = true
    · have e : sinkWrite s c = (c.length, s) := by unfold sinkWrite; rw [if_pos hn]
      rw [e]
      simp only [ne_eq, not_true_eq_false, if_false]
      obtain ⟨s', h1, h2, _⟩ := ih s h
      exact ⟨s', h1, h2, fun h => by rw [hn] at h; cases h⟩
    · rw [Bool.not_eq_true] at hn
      have hle := h hn
      by_cases hc : c.length < s.end_ - s.ptr
      · have e : sinkWrite s c = (c.length, { s with mem := store s.mem s.ptr c, ptr := s.ptr + c.length }) := by
          unfold sinkWrite; rw [if_neg (by rw [hn]; decide), if_pos hc]
        rw [e]
        simp only [ne_eq, not_true_eq_false, if_false]
        obtain ⟨s', h1, _, h3⟩ := ih { s with mem := store s.mem s.ptr c, ptr := s.ptr + c.length } (fun _ => by simp only; omega)
        obtain ⟨h4, h5⟩ := h3 hn
        refine ⟨s', h1, (fun h => by rw [hn] at h; cases h), fun _ => ⟨?_, ?_⟩⟩
        · rw [List.flatten_cons, List.take_append, List.take_of_length_le (by omega)]
          refine written_append (store_written _ _ _) ?_
          simp only at h4
          rw [← Nat.sub_sub] at h4
          exact h4
        · rw [h5, List.flatten_cons, List.length_append]
          simp only
          omega
      · have e : sinkWrite s c = (c.length, { s with mem := store s.mem s.ptr (c.take (s.end_ - s.ptr)), ptr := s.end_, noop := true }) := by
          unfold sinkWrite; rw [if_neg (by rw [hn]; decide), if_neg hc]
        rw [e]
        simp only [ne_eq, not_true_eq_false, if_false]
        obtain ⟨s', h1, h2, _⟩ := ih { s with mem := store s.mem s.ptr (c.take (s.end_ - s.ptr)), ptr := s.end_, noop := true }
          (fun h => by cases h)
        refine ⟨s', h1, (fun h => by rw [hn] at h; cases h), fun _ => ⟨?_, ?_⟩⟩
        · rw [h2 rfl, List.flatten_cons, List.take_append_of_le_length (by omega)]
          exact store_written _ _ _
        · rw [h2 rfl, List.flatten_cons, List.length_append]
          simp only
          omega

/-- The writes of `vsprintf`. -/
theorem emit_spill (cs : List (List Nat)) (ret : Int) (s : Mem × Nat) :
    ∃ s', emit spillWrite cs ret s = (ret, s') ∧ Str.Written s.1 s'.1 s.2 cs.flatten ∧ s'.2 = s.2 + cs.flatten.length := by
  induction cs generalizing s with
  | nil => exact ⟨s, rfl, written_nil _ _, by simp⟩
  | cons c cs ih =>
    unfold emit
    have e : spillWrite s c = (c.length, store s.1 s.2 c, s.2 + c.length) := rfl
    rw [e]
    simp only [ne_eq, not_true_eq_false, if_false]
    obtain ⟨s', h1, h2, h3⟩ := ih (store s.1 s.2 c, s.2 + c.length)
    refine ⟨s', h1, ?_, ?_⟩
    · rw [List.flatten_cons]
      exact written_append (store_written _ _ _) h2
    · rw [h3, List.flatten_cons, List.length_append]
      simp only
      omega

theorem vsnprintf_ret (mem : Mem) (buffer size : Nat) (o : Out) : (vsnprintf mem buffer size o).1 = o.ret := by
  unfold vsnprintf
  obtain ⟨s', e, _⟩ := emit_sink o.chunks o.ret ⟨mem, buffer, if size ≠ 0 then buffer + (size - 1) else 0, size = 0⟩ (by
    intro h
    simp only [decide_eq_false_iff_not] at h
    simp only
    rw [if_pos h]; omega)
  rw [e]

theorem vsnprintf_zero (mem : Mem) (buffer : Nat) (o : Out) : (vsnprintf mem buffer 0 o).2 = mem := by
  unfold vsnprintf
  obtain ⟨s', e, h, _⟩ := emit_sink o.chunks o.ret ⟨mem, buffer, if (0 : Nat) ≠ 0 then buffer + (0 - 1) else 0, (0 : Nat) = 0⟩ (by
    intro h; simp at h)
  rw [e, h (by simp)]
  simp

theorem vsnprintf_mem (mem : Mem) (buffer size : Nat) (o : Out) (h1 : 1 ≤ size) :
    Str.Written mem (vsnprintf mem buffer size o).2 buffer (o.chunks.flatten.take (size - 1) ++ [0]) := by
  unfold vsnprintf
  obtain ⟨s', e, _, h⟩ := emit_sink o.chunks o.ret ⟨mem, buffer, if size ≠ 0 then buffer + (size - 1) else 0, size = 0⟩ (by
    intro h
    simp only
    rw [if_pos (by omega)]; omega)
  have h := h (by simp; omega)
  rw [e]
  simp only at h ⊢
  rw [if_pos (by omega), Nat.add_sub_cancel_left] at h
  rw [if_pos (by omega)]
  refine written_append h.1 ?_
  rw [h.2, List.length_take, Nat.min_comm]
  exact store_written _ _ _

theorem vsprintf_ret (mem : Mem) (buffer : Nat) (o : Out) : (vsprintf mem buffer o).1 = o.ret := by
  unfold vsprintf
  obtain ⟨s', e, _⟩ := emit_spill o.chunks o.ret (mem, buffer)
  rw [e]

theorem vsprintf_mem (mem : Mem) (buffer : Nat) (o : Out) :
    Str.Written mem (vsprintf mem buffer o).2 buffer (o.chunks.flatten ++ [0]) := by
  unfold vsprintf
  obtain ⟨s', e, h1, h2⟩ := emit_spill o.chunks o.ret (mem, buffer)
  rw [e]
  simp only at h1 h2 ⊢
  rw [h2]
  exact written_append h1 (store_written _ _ _)

/-- The writes to a file. -/
theorem emit_file {σ : Type} (W : Stdio.Writer σ) (hW : ∀ h bs n h', W h bs = (.inr n, h') → n ≤ bs.length)
    (cs : List (List Nat)) (ret : Int) (f : Stdio.File σ) :
    ∃ t, Took W f.host t (emit (Stdio.stdioWrite W) cs ret f).2.host ∧
      (((emit (Stdio.stdioWrite W) cs ret f).1 = ret ∧ t = cs.flatten) ∨
        ((emit (Stdio.stdioWrite W) cs ret f).1 = -1 ∧ (emit (Stdio.stdioWrite W) cs ret f).2.err = true ∧
          t <+: cs.flatten ∧ t.length < cs.flatten.length)) := by
  induction cs generalizing f with
  | nil => exact ⟨[], .nil, .inl ⟨rfl, rfl⟩⟩
  | cons c cs ih =>
    unfold emit
    rcases e : W f.host c with ⟨r | n, h⟩
    · have e1 : Stdio.stdioWrite W f c = (0, { f with err := true, host := h }) := by
        unfold Stdio.stdioWrite; rw [e]
      rw [e1]
      simp only
      by_cases hc : 0 ≠ c.length
      · rw [if_pos hc]
        exact ⟨[], .fail e .nil, .inr ⟨rfl, rfl, List.nil_prefix, by rw [List.flatten_cons, List.length_append, List.length_nil]; omega⟩⟩
      · rw [if_neg hc]
        have hc' : c = [] := List.length_eq_zero_iff.1 (by omega)
        obtain ⟨t, h1, h2⟩ := ih { f with err := true, host := h }
        refine ⟨t, .fail e h1, ?_⟩
        rw [hc', List.flatten_cons, List.nil_append]
        exact h2
    · have e1 : Stdio.stdioWrite W f c = (n, { f with err := f.err || decide (n < c.length), host := h }) := by
        unfold Stdio.stdioWrite; rw [e]
      have hn := hW _ _ _ _ e
      rw [e1]
      simp only
      by_cases hc : n ≠ c.length
      · rw [if_pos hc]
        refine ⟨c.take n ++ [], .write e .nil, .inr ⟨rfl, ?_, ?_, ?_⟩⟩
        · simp; right; omega
        · rw [List.append_nil, List.flatten_cons]
          exact (List.take_prefix _ _).trans (List.prefix_append _ _)
        · rw [List.append_nil, List.length_take, List.flatten_cons, List.length_append]
          omega
      · rw [if_neg hc]
        obtain ⟨t, h1, h2⟩ := ih { f with err := f.err || decide (n < c.length), host := h }
        refine ⟨c.take n ++ t, .write e h1, ?_⟩
        rw [List.take_of_length_le (by omega), List.flatten_cons]
        rcases h2 with ⟨h2, h3⟩ | ⟨h2, h3, h4, h5⟩
        · exact .inl ⟨h2, by rw [h3]⟩
        · exact .inr ⟨h2, h3, (List.prefix_append_right_inj c).2 h4, by
            rw [List.length_append, List.length_append]; omega⟩

end Verif.Printf
