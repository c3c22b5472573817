import Verif.Ctype.Model
import Verif.Ctype.Spec

namespace Verif.Ctype

theorem or_32_nat (n : Nat) : n ||| 32 = if n / 32 % 2 = 1 then n else n + 32 := by
  have key : n ||| 32 = 64 * (n / 64) + ((n % 64) ||| 32) := by
    apply Nat.eq_of_testBit_eq
    intro i
    have hr : (n % 64) ||| 32 < 2 ^ 6 := Nat.or_lt_two_pow (by omega) (by omega)
    rw [show (64 : Nat) = 2 ^ 6 from rfl] at *
    rw [Nat.testBit_two_pow_mul_add _ hr, Nat.testBit_or]
    have h32 : (32 : Nat) = 2 ^ 5 := rfl
    by_cases hi : i < 6
    · simp only [hi, if_true, Nat.testBit_or, Nat.testBit_mod_two_pow, decide_true, Bool.true_and]
    · simp only [hi, if_false, Nat.testBit_div_two_pow, h32, Nat.testBit_two_pow]
      have : ¬ (5 = i) := by omega
      have h2 : i - 6 + 6 = i := by omega
      simp [this, h2]
  have fin : ∀ r, r < 64 → r ||| 32 = if r / 32 % 2 = 1 then r else r + 32 := by decide
  rw [key, fin _ (Nat.mod_lt _ (by omega))]
  split <;> split <;> omega

theorem or32_32 (c : Int) (h : IsI32 c) :
    or32 c 32 = if c / 32 % 2 = 1 then c else c + 32 := by
  obtain ⟨h1, h2⟩ := h
  unfold or32
  have e32 : BitVec.ofInt 32 32 = 32#32 := by decide
  rw [e32, BitVec.toInt_eq_toNat_cond, BitVec.toNat_or, BitVec.toNat_ofInt, BitVec.toNat_ofNat]
  simp only [Nat.reducePow, Nat.reduceMod]
  rw [or_32_nat]
  split <;> split <;> split <;> omega

theorem or32_zero (c : Int) (h : IsI32 c) : or32 c 0 = c := by
  obtain ⟨h1, h2⟩ := h
  unfold or32
  have : BitVec.ofInt 32 0 = 0#32 := by decide
  rw [this, BitVec.or_zero, BitVec.toInt_ofInt, Int.bmod_def]
  split <;> omega

theorem and_not32_nat (n : Nat) (hn : n < 4294967296) :
    n &&& 4294967263 = if n / 32 % 2 = 1 then n - 32 else n := by
  have key : n &&& 4294967263 = 64 * (n / 64) + ((n % 64) &&& 31) := by
    apply Nat.eq_of_testBit_eq
    intro i
    have hr : (n % 64) &&& 31 < 2 ^ 6 := Nat.lt_of_le_of_lt (Nat.and_le_right) (by omega)
    rw [show (64 : Nat) = 2 ^ 6 from rfl] at *
    rw [Nat.testBit_two_pow_mul_add _ hr, Nat.testBit_and]
    have e1 : (4294967263 : Nat) = 2 ^ 6 * 67108863 + 31 := rfl
    rw [e1, Nat.testBit_two_pow_mul_add _ (by omega : 31 < 2 ^ 6)]
    by_cases hi : i < 6
    · simp only [hi, if_true, Nat.testBit_and, Nat.testBit_mod_two_pow, decide_true, Bool.true_and]
    · have h2 : i - 6 + 6 = i := by omega
      simp only [hi, if_false, Nat.testBit_div_two_pow, h2]
      rw [show (67108863 : Nat) = 2 ^ 26 - 1 from rfl, Nat.testBit_two_pow_sub_one]
      by_cases hb : i - 6 < 26
      · simp [hb]
      · have : n.testBit i = false := Nat.testBit_lt_two_pow (Nat.lt_of_lt_of_le hn (by
          rw [show (4294967296:Nat) = 2 ^ 32 from rfl]
          exact Nat.pow_le_pow_right (by omega) (by omega)))
        simp [this]
  have fin : ∀ r, r < 64 → r &&& 31 = if r / 32 % 2 = 1 then r - 32 else r := by decide
  rw [key, fin _ (Nat.mod_lt _ (by omega))]
  split <;> split <;> omega

theorem and32_not32 (c : Int) (h : IsI32 c) :
    and32 c (not32 32) = if c / 32 % 2 = 1 then c - 32 else c := by
  obtain ⟨h1, h2⟩ := h
  unfold and32
  have e : BitVec.ofInt 32 (not32 32) = 4294967263#32 := by decide
  rw [e, BitVec.toInt_eq_toNat_cond, BitVec.toNat_and, BitVec.toNat_ofInt, BitVec.toNat_ofNat]
  simp only [Nat.reducePow, Nat.reduceMod]
  rw [and_not32_nat _ (by omega)]
  split <;> split <;> split <;> omega

theorem and32_not0 (c : Int) (h : IsI32 c) : and32 c (not32 0) = c := by
  obtain ⟨h1, h2⟩ := h
  unfold and32
  have : BitVec.ofInt 32 (not32 0) = BitVec.allOnes 32 := by decide
  rw [this, BitVec.and_allOnes, BitVec.toInt_ofInt, Int.bmod_def]
  split <;> omega

theorem subLt_eq (c k : Int) (n : Nat) (hk : IsI32 (c - k)) (hn : n ≤ 2147483648) :
    subLt c k n = some (if k ≤ c ∧ c < k + n then 1 else 0) := by
  unfold subLt chk32
  rw [if_pos hk]
  obtain ⟨h1, h2⟩ := hk
  simp only [Option.map_some, u32]
  congr 1
  have : ((c - k) % 4294967296).toNat < n ↔ k ≤ c ∧ c < k + n := by omega
  simp only [this]

/-- Bring a membership in a class listed as text into interval form. -/
theorem in_iff_of_ascii (s : String) (P : Int → Prop) [DecidablePred P]
    (hs : ∀ ch ∈ s.toList, ch.toNat < 128)
    (hP : ∀ c, P c → 0 ≤ c ∧ c < 128)
    (hd : ∀ n : Fin 128, (∃ ch ∈ s.toList, (n.val : Int) = (ch.toNat : Int)) ↔ P n.val) (c : Int) :
    Spec.In s c ↔ P c := by
  constructor
  · rintro ⟨ch, hm, rfl⟩
    exact (hd ⟨ch.toNat, hs ch hm⟩).1 ⟨ch, hm, rfl⟩
  · intro h
    obtain ⟨h0, h1⟩ := hP c h
    obtain ⟨n, rfl⟩ := Int.eq_ofNat_of_zero_le h0
    exact (hd ⟨n, by omega⟩).2 h

theorem in_upper (c : Int) : Spec.In Spec.upper c ↔ 65 ≤ c ∧ c ≤ 90 :=
  in_iff_of_ascii _ (fun c => 65 ≤ c ∧ c ≤ 90) (by decide +kernel) (by intro c h; omega) (by decide +kernel) c
theorem in_lower (c : Int) : Spec.In Spec.lower c ↔ 97 ≤ c ∧ c ≤ 122 :=
  in_iff_of_ascii _ (fun c => 97 ≤ c ∧ c ≤ 122) (by decide +kernel) (by intro c h; omega) (by decide +kernel) c
theorem in_digit (c : Int) : Spec.In Spec.digit c ↔ 48 ≤ c ∧ c ≤ 57 :=
  in_iff_of_ascii _ (fun c => 48 ≤ c ∧ c ≤ 57) (by decide +kernel) (by intro c h; omega) (by decide +kernel) c
theorem in_xdigit (c : Int) : Spec.In Spec.xdigit c ↔
    (48 ≤ c ∧ c ≤ 57) ∨ (65 ≤ c ∧ c ≤ 70) ∨ (97 ≤ c ∧ c ≤ 102) :=
  in_iff_of_ascii _ (fun c => (48 ≤ c ∧ c ≤ 57) ∨ (65 ≤ c ∧ c ≤ 70) ∨ (97 ≤ c ∧ c ≤ 102))
    (by decide +kernel) (by intro c h; omega) (by decide +kernel) c
theorem in_punct (c : Int) : Spec.In Spec.punct c ↔
    (33 ≤ c ∧ c ≤ 47) ∨ (58 ≤ c ∧ c ≤ 64) ∨ (91 ≤ c ∧ c ≤ 96) ∨ (123 ≤ c ∧ c ≤ 126) :=
  in_iff_of_ascii _ (fun c => (33 ≤ c ∧ c ≤ 47) ∨ (58 ≤ c ∧ c ≤ 64) ∨ (91 ≤ c ∧ c ≤ 96) ∨ (123 ≤ c ∧ c ≤ 126))
    (by decide +kernel) (by intro c h; omega) (by decide +kernel) c
theorem in_blank (c : Int) : Spec.In Spec.blank c ↔ c = 32 ∨ c = 9 :=
  in_iff_of_ascii _ (fun c => c = 32 ∨ c = 9) (by decide +kernel) (by intro c h; omega) (by decide +kernel) c

theorem pair_iff (l u : Int) : Spec.Pair l u ↔ 97 ≤ l ∧ l ≤ 122 ∧ u = l - 32 := by
  constructor
  · rintro ⟨p, hp, rfl, rfl⟩
    have : ∀ p ∈ Spec.lower.toList.zip Spec.upper.toList,
        97 ≤ p.1.toNat ∧ p.1.toNat ≤ 122 ∧ p.2.toNat + 32 = p.1.toNat := by decide +kernel
    have := this p hp
    omega
  · rintro ⟨h1, h2, rfl⟩
    have : ∀ k : Fin 26, ∃ p ∈ Spec.lower.toList.zip Spec.upper.toList,
        (97 + k.val : Int) = p.1.toNat ∧ (97 + k.val : Int) - 32 = p.2.toNat := by decide +kernel
    obtain ⟨p, hp, e1, e2⟩ := this ⟨(l - 97).toNat, by omega⟩
    have hl : (97 + ((l - 97).toNat : Int)) = l := by omega
    simp only [hl] at e1 e2
    exact ⟨p, hp, e1, e2⟩

end Verif.Ctype

namespace Verif.Ctype

open Spec (Defined)

section
variable (c : Int) (h : Defined c)
include h

theorem isdigit_eq : isdigit c = some (if 48 ≤ c ∧ c < 58 then 1 else 0) := by
  obtain ⟨h1, h2⟩ := h
  exact subLt_eq c 48 10 ⟨by omega, by omega⟩ (by omega)
theorem islower_eq : islower c = some (if 97 ≤ c ∧ c < 123 then 1 else 0) := by
  obtain ⟨h1, h2⟩ := h
  exact subLt_eq c 97 26 ⟨by omega, by omega⟩ (by omega)
theorem isupper_eq : isupper c = some (if 65 ≤ c ∧ c < 91 then 1 else 0) := by
  obtain ⟨h1, h2⟩ := h
  exact subLt_eq c 65 26 ⟨by omega, by omega⟩ (by omega)
theorem isgraph_eq : isgraph c = some (if 33 ≤ c ∧ c < 127 then 1 else 0) := by
  obtain ⟨h1, h2⟩ := h
  exact subLt_eq c 33 94 ⟨by omega, by omega⟩ (by omega)
theorem isprint_eq : isprint c = some (if 32 ≤ c ∧ c < 127 then 1 else 0) := by
  obtain ⟨h1, h2⟩ := h
  exact subLt_eq c 32 95 ⟨by omega, by omega⟩ (by omega)

theorem defined_or32 : Defined (or32 c 32) := by
  obtain ⟨h1, h2⟩ := h
  rw [or32_32 c ⟨by omega, by omega⟩]
  unfold Defined
  split <;> omega

theorem isalpha_eq :
    isalpha c = some (if (65 ≤ c ∧ c < 91) ∨ (97 ≤ c ∧ c < 123) then 1 else 0) := by
  unfold isalpha
  rw [islower_eq _ (defined_or32 c h)]
  obtain ⟨h1, h2⟩ := h
  congr 1
  have : (97 ≤ or32 c 32 ∧ or32 c 32 < 123) ↔ ((65 ≤ c ∧ c < 91) ∨ (97 ≤ c ∧ c < 123)) := by
    rw [or32_32 c ⟨by omega, by omega⟩]
    split <;> omega
  simp only [this]

theorem isalnum_eq : isalnum c =
    some (if (48 ≤ c ∧ c < 58) ∨ (65 ≤ c ∧ c < 91) ∨ (97 ≤ c ∧ c < 123) then 1 else 0) := by
  unfold isalnum
  rw [isdigit_eq c h, isalpha_eq c h]
  by_cases h1 : 48 ≤ c ∧ c < 58 <;> by_cases h2 : (65 ≤ c ∧ c < 91) ∨ (97 ≤ c ∧ c < 123) <;>
    simp [h1, h2]

theorem isxdigit_eq : isxdigit c =
    some (if (48 ≤ c ∧ c < 58) ∨ (65 ≤ c ∧ c < 71) ∨ (97 ≤ c ∧ c < 103) then 1 else 0) := by
  unfold isxdigit
  have hd := defined_or32 c h
  obtain ⟨d1, d2⟩ := hd
  rw [isdigit_eq c h, subLt_eq (or32 c 32) 97 6 ⟨by omega, by omega⟩ (by omega)]
  obtain ⟨h1, h2⟩ := h
  have : (97 ≤ or32 c 32 ∧ or32 c 32 < 97 + (6 : Nat)) ↔ ((65 ≤ c ∧ c < 71) ∨ (97 ≤ c ∧ c < 103)) := by
    rw [or32_32 c ⟨by omega, by omega⟩]
    split <;> omega
  simp only [this]
  by_cases h1 : 48 ≤ c ∧ c < 58 <;> by_cases h2 : (65 ≤ c ∧ c < 71) ∨ (97 ≤ c ∧ c < 103) <;>
    simp [h1, h2]

theorem ispunct_eq : ispunct c =
    some (if (33 ≤ c ∧ c < 127) ∧ ¬ ((48 ≤ c ∧ c < 58) ∨ (65 ≤ c ∧ c < 91) ∨ (97 ≤ c ∧ c < 123)) then 1 else 0) := by
  unfold ispunct
  rw [isgraph_eq c h, isalnum_eq c h]
  by_cases h1 : 33 ≤ c ∧ c < 127 <;>
  by_cases h2 : (48 ≤ c ∧ c < 58) ∨ (65 ≤ c ∧ c < 91) ∨ (97 ≤ c ∧ c < 123)
  · rw [if_pos h1, if_pos h2, if_neg (by intro hh; omega)]; rfl
  · rw [if_pos h1, if_neg h2, if_pos ⟨h1, h2⟩]; rfl
  · simp only [h1, false_and, if_false]; rfl
  · simp only [h1, false_and, if_false]; rfl

theorem isspace_eq : isspace c = some (if c = 32 ∨ (9 ≤ c ∧ c < 14) then 1 else 0) := by
  obtain ⟨h1, h2⟩ := h
  unfold isspace
  rw [subLt_eq c 9 5 ⟨by omega, by omega⟩ (by omega)]
  by_cases h1 : c = 32 <;> simp [h1]

theorem iscntrl_eq : iscntrl c = some (if (0 ≤ c ∧ c < 32) ∨ c = 127 then 1 else 0) := by
  obtain ⟨h1, h2⟩ := h
  unfold iscntrl u32
  congr 1
  have : ((c % 4294967296).toNat < 32 ∨ c = 127) ↔ ((0 ≤ c ∧ c < 32) ∨ c = 127) := by omega
  simp only [this]

theorem tolower_eq : tolower c = some (if 65 ≤ c ∧ c < 91 then c + 32 else c) := by
  unfold tolower
  rw [isupper_eq c h]
  obtain ⟨h1, h2⟩ := h
  by_cases hu : 65 ≤ c ∧ c < 91
  · simp only [hu, and_self, if_true, Option.bind_eq_bind, Option.bind_some, Int.one_mul, Option.pure_def]
    rw [or32_32 c ⟨by omega, by omega⟩]
    congr 1
    split <;> omega
  · simp only [hu, if_false, Option.bind_eq_bind, Option.bind_some, Int.zero_mul, Option.pure_def]
    rw [or32_zero c ⟨by omega, by omega⟩]

theorem toupper_eq : toupper c = some (if 97 ≤ c ∧ c < 123 then c - 32 else c) := by
  unfold toupper
  rw [islower_eq c h]
  obtain ⟨h1, h2⟩ := h
  by_cases hu : 97 ≤ c ∧ c < 123
  · simp only [hu, and_self, if_true, Option.bind_eq_bind, Option.bind_some, Int.one_mul, Option.pure_def]
    rw [and32_not32 c ⟨by omega, by omega⟩]
    congr 1
    split <;> omega
  · simp only [hu, if_false, Option.bind_eq_bind, Option.bind_some, Int.zero_mul, Option.pure_def]
    rw [and32_not0 c ⟨by omega, by omega⟩]

end

end Verif.Ctype

namespace Verif.Ctype

open Spec (Defined Decides)

theorem decides_ite {P Q : Prop} [Decidable P] (h : P ↔ Q) :
    Decides (some (if P then 1 else 0)) Q := by
  refine ⟨_, rfl, ?_⟩
  by_cases hp : P
  · simp [hp, h.1 hp]
  · simp only [hp, if_false, ne_eq, not_true_eq_false, false_iff]
    exact fun hq => hp (h.2 hq)

theorem high_not (n : Int) (hx : 128 ≤ n) :
    ¬ Spec.alnum n ∧ ¬ Spec.alpha n ∧ ¬ Spec.In Spec.blank n ∧ ¬ Spec.cntrl n ∧ ¬ Spec.In Spec.digit n ∧ ¬ Spec.graph n ∧ ¬ Spec.In Spec.lower n ∧ ¬ Spec.print n ∧ ¬ Spec.In Spec.punct n ∧ ¬ Spec.space n ∧ ¬ Spec.In Spec.upper n ∧ ¬ Spec.In Spec.xdigit n := by
  simp only [Spec.alpha, Spec.alnum, Spec.graph, Spec.print, Spec.space, Spec.cntrl,
      in_upper, in_lower, in_digit, in_xdigit, in_punct, in_blank]
  refine ⟨?_, ?_, ?_, ?_, ?_, ?_, ?_, ?_, ?_, ?_, ?_, ?_⟩ <;> omega

end Verif.Ctype
