import Verif.Utf.Model
import Verif.Utf.Spec

namespace Verif.Utf

open Spec

theorem cont_iff (b : Nat) (h : b < 256) : (b &&& 0xC0) ≠ 0x80 ↔ ¬ (0x80 ≤ b ∧ b ≤ 0xBF) := by
  have : ∀ b, b < 256 → ((b &&& 0xC0) ≠ 0x80 ↔ ¬ (0x80 ≤ b ∧ b ≤ 0xBF)) := by decide +kernel
  exact this b h

theorem and_3F (b : Nat) : b &&& 0x3F = b % 64 := Nat.and_two_pow_sub_one_eq_mod b 6
theorem and_1F (b : Nat) : b &&& 0x1F = b % 32 := Nat.and_two_pow_sub_one_eq_mod b 5
theorem and_0F (b : Nat) : b &&& 0x0F = b % 16 := Nat.and_two_pow_sub_one_eq_mod b 4
theorem and_07 (b : Nat) : b &&& 0x07 = b % 8 := Nat.and_two_pow_sub_one_eq_mod b 3
theorem and_FFFFFF (b : Nat) : b &&& 0xFFFFFF = b % 16777216 := Nat.and_two_pow_sub_one_eq_mod b 24
theorem and_3FF (b : Nat) : b &&& 0x3FF = b % 1024 := Nat.and_two_pow_sub_one_eq_mod b 10

theorem or_of_lt (k a r : Nat) (h : r < 2 ^ k) : 2 ^ k * a ||| r = 2 ^ k * a + r :=
  (Nat.two_pow_add_eq_or_of_lt h a).symm

theorem shl6_or (code r : Nat) (hc : code < 67108864) (h : r < 64) :
    (code <<< 6) % 2^32 ||| r = code * 64 + r := by
  rw [Nat.shiftLeft_eq, Nat.mod_eq_of_lt (by omega), Nat.mul_comm, or_of_lt 6 code r h]

theorem absorb_cons (saved total a code k b : Nat) (rest : List Nat) (hb : b < 256)
    (hc : code < 67108864) (ha : a < total) :
    absorb saved total a code k (b :: rest) =
      if 0x80 ≤ b ∧ b ≤ 0xBF then absorb saved total (a + 1) (code * 64 + (b - 0x80)) (k + 1) rest
      else fail_ saved := by
  rw [absorb, if_pos ha]
  simp only [cont_iff b hb]
  by_cases h : 0x80 ≤ b ∧ b ≤ 0xBF
  · simp only [h, and_self, not_true_eq_false, if_false, if_true]
    rw [and_3F, shl6_or _ _ hc (by omega)]
    have : b % 64 = b - 128 := by omega
    rw [this]
  · simp only [h, not_false_eq_true, if_true, if_false]

theorem absorb_nil (saved total a code k : Nat) (ha : a < total) (ht : total < 16) (hc : code < 16777216) :
    absorb saved total a code k [] = ⟨INC, none, total * 268435456 + a * 16777216 + code, false⟩ := by
  rw [absorb, if_pos ha]
  simp only [MbOut.mk.injEq, true_and, and_true]
  rw [and_FFFFFF, Nat.mod_eq_of_lt hc, Nat.shiftLeft_eq, Nat.shiftLeft_eq,
    Nat.mod_eq_of_lt (by omega), Nat.mod_eq_of_lt (by omega)]
  have e1 : total * 2 ^ 28 ||| a * 2 ^ 24 = total * 2 ^ 28 + a * 2 ^ 24 := by
    rw [Nat.mul_comm total, or_of_lt 28 total _ (by omega)]
  rw [e1]
  have e2 : total * 2 ^ 28 + a * 2 ^ 24 = 2 ^ 24 * (total * 16 + a) := by omega
  rw [e2, or_of_lt 24 _ _ (by omega)]

theorem absorb_done (saved total code k : Nat) (rest : List Nat) :
    absorb saved total total code k rest = finish saved total code k := by
  rw [absorb.eq_def, if_neg (by omega)]

theorem finish2 (saved code k : Nat) : finish saved 2 code k =
    if code < 0x80 then fail_ saved else ⟨k, some code, 0, false⟩ := by
  unfold finish
  by_cases h : code < 0x80
  · simp [h]
  · have : code ≠ 0 := by omega
    simp [h, this]

theorem finish3 (saved code k : Nat) : finish saved 3 code k =
    if code < 0x800 ∨ (code ≥ 0xD800 ∧ code ≤ 0xDFFF) then fail_ saved
    else ⟨k, some code, 0, false⟩ := by
  unfold finish
  by_cases h : code < 0x800 ∨ (code ≥ 0xD800 ∧ code ≤ 0xDFFF)
  · simp [h]
  · have : code ≠ 0 := by omega
    simp [h, this]

theorem finish4 (saved code k : Nat) : finish saved 4 code k =
    if code < 0x10000 ∨ code > 0x10FFFF then fail_ saved
    else ⟨k, some code, 0, false⟩ := by
  unfold finish
  by_cases h : code < 0x10000 ∨ code > 0x10FFFF
  · simp [h]
  · have : code ≠ 0 := by omega
    simp [h, this]

theorem mbrtowc_nil (st : Nat) : mbrtowc st [] = ⟨INC, none, st, false⟩ := rfl

theorem mbrtowc_zero (lead : Nat) (rest : List Nat) (h : lead < 256) :
    mbrtowc 0 (lead :: rest) =
      if lead < 0x80 then ⟨if lead ≠ 0 then 1 else 0, some lead, 0, false⟩
      else if lead < 0xC2 ∨ lead > 0xF4 then fail_ 0
      else if lead < 0xE0 then absorb 0 2 1 (lead - 0xC0) 1 rest
      else if lead < 0xF0 then absorb 0 3 1 (lead - 0xE0) 1 rest
      else absorb 0 4 1 (lead - 0xF0) 1 rest := by
  have h0 : (0 : Nat) >>> 28 = 0 := rfl
  unfold mbrtowc
  simp only [h0, if_true, and_1F, and_0F, and_07]
  split
  · rfl
  · split
    · rfl
    · split
      · rw [show lead % 32 = lead - 0xC0 by omega]
      · split
        · rw [show lead % 16 = lead - 0xE0 by omega]
        · rw [show lead % 8 = lead - 0xF0 by omega]

/-- The mid-sequence states `mbrtowc` can leave behind. -/
def Mid (st total a code : Nat) : Prop :=
  st = total * 268435456 + a * 16777216 + code ∧ 2 ≤ total ∧ total ≤ 4 ∧ 1 ≤ a ∧ a < total ∧
  code < 32 * 64 ^ (a - 1)

theorem mbrtowc_mid (st total a code : Nat) (p : List Nat) (hp : p ≠ []) (h : Mid st total a code) :
    mbrtowc st p = absorb st total a code 0 p := by
  obtain ⟨rfl, h1, h2, h3, h4, h5⟩ := h
  have hc : code < 16777216 := by
    have : a = 1 ∨ a = 2 ∨ a = 3 := by omega
    rcases this with rfl | rfl | rfl <;> simp at h5 <;> omega
  cases p with
  | nil => exact absurd rfl hp
  | cons lead rest =>
    unfold mbrtowc
    have e1 : (total * 268435456 + a * 16777216 + code) >>> 28 = total := by
      rw [Nat.shiftRight_eq_div_pow]; omega
    have e2 : (total * 268435456 + a * 16777216 + code) >>> 24 &&& 0xF = a := by
      rw [Nat.shiftRight_eq_div_pow, and_0F]; omega
    have e3 : (total * 268435456 + a * 16777216 + code) &&& 0xFFFFFF = code := by
      rw [and_FFFFFF]; omega
    simp only [e1, e2, e3]
    rw [if_neg (by omega)]

end Verif.Utf
