import Verif.Decimal.HexFinal

/-!
# Properties of `strtod`, `strtof` and `strtold` on hexadecimal strings

A string is `blank ++ r`: white space and what follows.  Results are `⟨bits, stop, erange⟩`.
-/

namespace Verif.Decimal
open Verif.Strtol Verif.Float Spec

/-- The ASCII codes of a string. -/
private def ascii (s : String) : List Int := s.toList.map fun c => (c.toNat : Int)

/-- C138: a hexadecimal string is converted to the nearest `double`; overflow alone is reported; the end pointer is just after the subject
sequence.  Missing: subnormal results of more than 53 bits, for which see `C138_twice`; zero with a point at the end, for which the end
pointer is one short; subject sequences of more than 7000 characters, as exponents are limited to 32000. -/
theorem C138_strtod_partial {blank r w : List Int} {neg : Bool} {n : Nat} {t : Int} (hc : IsString (blank ++ r)) (hb : Blank blank)
    (hr : ∀ c ∈ r.head?, ¬ White c) (hL : HexLongest r w neg n t) (hlen : w.length ≤ 7000) (hn : n < 2 ^ 53 ∨ AtLeastNormal b64 n t) :
    ∃ m, RoundsBin b64 n t m ∧ strtod (blank ++ r) =
      some ⟨b64.pack neg m, blank.length + w.length - (if n = 0 ∧ w.getLast? = some 46 then 1 else 0), m = b64.inf⟩ :=
  hex_strto hexOk_double hc hb hr hL (show 1074 + 4 * 16 + 4 * w.length ≤ 32000 by omega) hn

/-- C138, `float`. -/
theorem C138_strtof_partial {blank r w : List Int} {neg : Bool} {n : Nat} {t : Int} (hc : IsString (blank ++ r)) (hb : Blank blank)
    (hr : ∀ c ∈ r.head?, ¬ White c) (hL : HexLongest r w neg n t) (hlen : w.length ≤ 7000) (hn : n < 2 ^ 24 ∨ AtLeastNormal b32 n t) :
    ∃ m, RoundsBin b32 n t m ∧ strtof (blank ++ r) =
      some ⟨b32.pack neg m, blank.length + w.length - (if n = 0 ∧ w.getLast? = some 46 then 1 else 0), m = b32.inf⟩ :=
  hex_strto hexOk_single hc hb hr hL (show 149 + 4 * 8 + 4 * w.length ≤ 32000 by omega) hn

/-- C138, `long double`, up to 3800 characters; whatever the conversion of decimal strings does. -/
theorem C138_strtold_partial (dec : Dec → Option Nat) {blank r w : List Int} {neg : Bool} {n : Nat} {t : Int} (hc : IsString (blank ++ r)) (hb : Blank blank)
    (hr : ∀ c ∈ r.head?, ¬ White c) (hL : HexLongest r w neg n t) (hlen : w.length ≤ 3800) (hn : n < 2 ^ 113 ∨ AtLeastNormal b128 n t) :
    ∃ m, RoundsBin b128 n t m ∧ strtold dec (blank ++ r) =
      some ⟨b128.pack neg m, blank.length + w.length - (if n = 0 ∧ w.getLast? = some 46 then 1 else 0), m = b128.inf⟩ :=
  hex_strto (hexOk_long dec) hc hb hr hL (show 16494 + 4 * 32 + 4 * w.length ≤ 32000 by omega) hn

private theorem hexed : HexLongest (ascii "-0x1.8p-3") (ascii "-0x1.8p-3") true 24 (-7) := by
  refine ⟨List.prefix_refl _, ?_, fun _ _ _ _ h _ => h.length_le⟩
  exact HexSubject.mk [45] [48, 120] [49] [46] [56] [112, 45, 51] true (-3) (.inr (.inr ⟨rfl, rfl⟩)) (.inl rfl) (.inr rfl)
    (fun c h => by rw [List.mem_singleton.mp h]; exact (hex16 _).mpr (by omega)) (fun c h => by rw [List.mem_singleton.mp h]; exact (hex16 _).mpr (by omega))
    (by decide)
    (.some 112 [45] [51] true (.inl rfl) (.inr (.inr ⟨rfl, rfl⟩)) (by decide) fun c h => by rw [List.mem_singleton.mp h]; exact (digit10 _).mpr (by omega))

example : ∃ m, RoundsBin b64 24 (-7) m ∧ strtod ([32] ++ ascii "-0x1.8p-3") = some ⟨b64.pack true m, 10, m = b64.inf⟩ :=
  C138_strtod_partial (by unfold IsString; decide) (by unfold Blank; decide) (by decide) hexed (by decide) (.inl (by decide))

example : ∃ m, RoundsBin b32 24 (-7) m ∧ strtof ([32] ++ ascii "-0x1.8p-3") = some ⟨b32.pack true m, 10, m = b32.inf⟩ :=
  C138_strtof_partial (by unfold IsString; decide) (by unfold Blank; decide) (by decide) hexed (by decide) (.inl (by decide))

example : ∃ m, RoundsBin b128 24 (-7) m ∧ strtold (fun _ => none) ([32] ++ ascii "-0x1.8p-3") = some ⟨b128.pack true m, 10, m = b128.inf⟩ :=
  C138_strtold_partial _ (by unfold IsString; decide) (by unfold Blank; decide) (by decide) hexed (by decide) (.inl (by decide))

example : strtod (ascii "-0x1.8p-3") = some ⟨0xbfc8000000000000, 9, false⟩ ∧ strtod (ascii "0x1.fffffffffffff8p1023z") = some ⟨0x7ff0000000000000, 23, true⟩ := by
  decide +kernel

/-- Subnormal results are rounded twice: to 53 bits and to what fits.  The result is one unit too small. -/
theorem C138_twice : strtod (ascii "0x1.000000000000101p-1023") = some ⟨0x8000000000000, 25, false⟩ ∧
    RoundsBin b64 0x1000000000000101 (-1083) 0x8000000000001 ∧ ¬ RoundsBin b64 0x1000000000000101 (-1083) 0x8000000000000 ∧
    strtof (ascii "0x1.0000021p-127") = some ⟨0x400000, 16, false⟩ ∧
    RoundsBin b32 0x10000021 (-155) 0x400001 ∧ ¬ RoundsBin b32 0x10000021 (-155) 0x400000 := by
  have h : RoundsBin b64 0x1000000000000101 (-1083) 0x8000000000001 :=
    nearest_hi (n := 0x8000000000000) (by decide +kernel) (by decide +kernel) (by decide +kernel) (.inl (by decide +kernel))
  have h' : RoundsBin b32 0x10000021 (-155) 0x400001 :=
    nearest_hi (n := 0x400000) (by decide +kernel) (by decide +kernel) (by decide +kernel) (.inl (by decide +kernel))
  refine ⟨by decide +kernel, h, fun h2 => ?_, by decide +kernel, h', fun h2 => ?_⟩
  · exact absurd (h.unique (Nat.two_pow_pos _) h2) (by decide)
  · exact absurd (h'.unique (Nat.two_pow_pos _) h2) (by decide)

/-- C138: the prefix `0x` without digits is the number 0 followed by a letter.  Missing: exponent parts after the prefix, which are consumed. -/
theorem C138_prefix_partial (dec : Dec → Option Nat) {blank sign pre u : List Int} {neg : Bool} (hc : IsString (blank ++ (sign ++ (pre ++ u)))) (hb : Blank blank)
    (hs : Sign sign neg) (hx : pre = [48, 120] ∨ pre = [48, 88]) (hn : NoHex (sign ++ (pre ++ u))) (hst : ¬ StrayBinary (sign ++ (pre ++ u))) :
    strtod (blank ++ (sign ++ (pre ++ u))) = some ⟨b64.pack neg 0, blank.length + sign.length + 1, false⟩ ∧
    strtof (blank ++ (sign ++ (pre ++ u))) = some ⟨b32.pack neg 0, blank.length + sign.length + 1, false⟩ ∧
    strtold dec (blank ++ (sign ++ (pre ++ u))) = some ⟨b128.pack neg 0, blank.length + sign.length + 1, false⟩ :=
  ⟨hex_none hexOk_double hc hb hs hx hn hst, hex_none hexOk_single hc hb hs hx hn hst, hex_none (hexOk_long dec) hc hb hs hx hn hst⟩

private theorem noHex_of {s : List Int} (h : ∀ d, [48, 120, d] <+: s → ¬ IsDigit 16 d ∧ d ≠ 46) (h0 : s.head? = some 48) (h8 : ∀ d, ¬ [48, 88, d] <+: s) : NoHex s := by
  intro w neg n t hw hS
  cases hS with
  | mk sign pre ip point fp ex neg e hs hx hp hi hf hne he =>
    have hsg : sign = [] := by
      rcases hs with ⟨rfl, -⟩ | ⟨rfl, -⟩ | ⟨rfl, -⟩
      · rfl
      · obtain ⟨q, rfl⟩ := hw; simp at h0
      · obtain ⟨q, rfl⟩ := hw; simp at h0
    subst hsg
    have hd : ∃ d tl, ip ++ (point ++ (fp ++ ex)) = d :: tl ∧ (IsDigit 16 d ∨ d = 46) := by
      cases ip with
      | cons c q => exact ⟨c, _, rfl, .inl (hi c List.mem_cons_self)⟩
      | nil =>
        rcases hp with ⟨-, rfl⟩ | rfl
        · exact absurd rfl hne
        · exact ⟨46, _, rfl, .inr rfl⟩
    obtain ⟨d, tl, e1, hd⟩ := hd
    rw [e1] at hw
    rcases hx with rfl | rfl
    · have := h d ((show [48, 120, d] <+: [] ++ ([48, 120] ++ d :: tl) from ⟨tl, by simp⟩).trans hw)
      exact hd.elim this.1 this.2
    · exact h8 d ((show [48, 88, d] <+: [] ++ ([48, 88] ++ d :: tl) from ⟨tl, by simp⟩).trans hw)

example : strtod (ascii " 0xg") = some ⟨0, 2, false⟩ := by
  refine (C138_prefix_partial (fun _ => none) (blank := [32]) (sign := []) (pre := [48, 120]) (u := [103]) (neg := false) (by unfold IsString; decide)
    (by unfold Blank; decide) (.inl ⟨rfl, rfl⟩) (.inl rfl) (noHex_of ?_ rfl ?_) ?_).1
  · rintro d ⟨q, hq⟩
    simp at hq
    rw [hq.1, hex16]
    omega
  · rintro d ⟨q, hq⟩
    simp at hq
  · rintro ⟨sign, neg, pre, point, ex, e, hs, hx, hp, hne, he, hw⟩
    cases he with
    | none => exact hne rfl
    | some c sg ds ng hc hsg hdn hd =>
      have hm : ∀ x ∈ sign ++ (pre ++ (point ++ c :: (sg ++ ds))), x ∈ ([48, 120, 103] : List Int) := fun x hx => hw.subset hx
      have := hm c (by simp)
      rcases hc with rfl | rfl <;> revert this <;> decide

/-- After the prefix an exponent part without digits is consumed, and the end pointer of `0x0.` is before the point. -/
theorem C138_stray : strtod (ascii "0xp5") = some ⟨0, 4, false⟩ ∧ strtod (ascii "0x.p-1z") = some ⟨0, 6, false⟩ ∧ strtod (ascii "0x0.") = some ⟨0, 3, false⟩ ∧
    strtod (ascii "0x1.") = some ⟨0x3ff0000000000000, 4, false⟩ := by decide +kernel

end Verif.Decimal
