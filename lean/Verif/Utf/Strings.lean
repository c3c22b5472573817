import Verif.Utf.Decode

namespace Verif.Utf

open Spec

theorem Spec.Enc.append {a b x y : List Nat} (h : Enc a x) (g : Enc b y) : Enc (a ++ b) (x ++ y) := by
  induction h with
  | nil => simpa
  | cons hw _ ih => rw [List.append_assoc, List.cons_append]; exact .cons hw ih

theorem Spec.Enc.unique {a b x : List Nat} (h : Enc a x) (g : Enc b x) : a = b := by
  induction h generalizing b with
  | nil => cases g; rfl
  | cons hw _ ih =>
    cases g with
    | cons hw' g => rw [hw.unique hw', ih g]

theorem wcsrtombsLoop_spec (len : Nat) (junk : List Nat) (cs : List Nat) (hs : ∀ c ∈ cs, Scalar c ∧ c ≠ 0) :
    ∀ (done out : List Nat), Enc out done → out.length ≤ len →
    ∃ k e, k ≤ cs.length ∧ Enc e (done ++ cs.take k) ∧ e.length ≤ len ∧
      ((k = cs.length ∧ e.length < len ∧
          wcsrtombsLoop len (cs ++ 0 :: junk) done.length out = some ⟨e.length, e ++ [0], none⟩) ∨
       ((k = cs.length ∧ e.length = len ∨ ∃ c, cs[k]? = some c ∧ len < e.length + (wcrtomb c).2.length) ∧
          wcsrtombsLoop len (cs ++ 0 :: junk) done.length out = some ⟨e.length, e, some (done.length + k)⟩)) := by
  induction cs with
  | nil =>
    intro done out he hl
    refine ⟨0, out, by simp, by simpa using he, hl, ?_⟩
    unfold wcsrtombsLoop
    by_cases h : out.length < len
    · left; simp [h]
    · right; simp [h]; omega
  | cons c cs ih =>
    intro done out he hl
    obtain ⟨hc, hc0⟩ := hs c (by simp)
    obtain ⟨hr, hw⟩ := wcrtomb_scalar c hc
    have hwl := hw.length_le
    have hwp := hw.length_pos
    rw [wcsrtombsLoop.eq_def]
    simp only [List.cons_append]
    by_cases h : out.length < len
    · simp only [if_pos h]
      rw [if_neg hc0, if_neg (by unfold ERR; omega)]
      by_cases h2 : out.length + (wcrtomb c).1 > len
      · rw [if_pos h2]
        refine ⟨0, out, by simp, by simpa using he, hl, Or.inr ⟨Or.inr ⟨c, by simp, by omega⟩, by simp⟩⟩
      · rw [if_neg h2]
        have he' : Enc (out ++ (wcrtomb c).2) (done ++ [c]) := he.append (by simpa using Enc.cons hw .nil)
        obtain ⟨k, e, hk, h3, h4, h5⟩ := ih (fun x hx => hs x (by simp [hx])) (done ++ [c])
          (out ++ (wcrtomb c).2) he' (by simp; omega)
        refine ⟨k + 1, e, by simp; omega, by simpa using h3, h4, ?_⟩
        simp only [List.length_append, List.length_cons, List.length_nil, Nat.zero_add] at h5
        rcases h5 with ⟨h6, h7, h8⟩ | ⟨h6, h8⟩
        · left; exact ⟨by simp; omega, h7, h8⟩
        · right
          refine ⟨?_, ?_⟩
          · rcases h6 with ⟨h6, h7⟩ | ⟨d, h6, h7⟩
            · left; exact ⟨by simp; omega, h7⟩
            · right; exact ⟨d, by simpa using h6, h7⟩
          · rw [h8]; simp; omega
    · simp only [if_neg h]
      refine ⟨0, out, by simp, by simpa using he, hl, Or.inr ⟨Or.inr ⟨c, by simp, by omega⟩, by simp⟩⟩

theorem mbsrtowcsLoop_spec (len : Nat) (junk : List Nat) {bs cs : List Nat} (he : Enc bs cs)
    (hs : ∀ c ∈ cs, c ≠ 0) : ∀ (fuel off : Nat) (out : List Nat), cs.length < fuel → out.length ≤ len →
    (cs.length + out.length < len ∧
      mbsrtowcsLoop len fuel 0 (bs ++ 0 :: junk) off out =
        some ⟨out.length + cs.length, out ++ cs ++ [0], none⟩) ∨
    (∃ k e, out.length + k = len ∧ k ≤ cs.length ∧ Enc e (cs.take k) ∧
      mbsrtowcsLoop len fuel 0 (bs ++ 0 :: junk) off out = some ⟨len, out ++ cs.take k, some (off + e.length)⟩) := by
  induction he with
  | nil =>
    intro fuel off out hf hl
    match fuel, hf with
    | fuel + 1, _ =>
      by_cases h : out.length < len
      · left
        rw [mbsrtowcsLoop, if_pos h]
        have : mbrtowc 0 (0 :: junk) = ⟨0, some 0, 0, false⟩ := by
          have := decode_accept (WF.r1 (a := 0) ⟨by omega, by omega⟩) junk
          simpa using this
        simp [this, ERR, h]
      · right
        refine ⟨0, [], by simp; omega, by simp, by simpa using Enc.nil, ?_⟩
        rw [mbsrtowcsLoop, if_neg h]
        simp; omega
  | @cons b bs c cs hw he ih =>
    intro fuel off out hf hl
    match fuel, hf with
    | fuel + 1, hf =>
      have hc0 := hs c (by simp)
      have hwl := hw.length_le
      by_cases h : out.length < len
      · rw [mbsrtowcsLoop, if_pos h]
        have e1 : mbrtowc 0 ((b ++ bs) ++ 0 :: junk) = ⟨b.length, some c, 0, false⟩ := by
          rw [List.append_assoc, decode_accept hw, if_neg hc0]
        simp only [e1]
        rw [if_neg (by unfold ERR; omega), if_neg hc0]
        rw [List.append_assoc, List.drop_left]
        rcases ih (fun x hx => hs x (by simp [hx])) fuel (off + b.length) (out ++ [c]) (by simpa using hf)
          (by simp; omega) with ⟨h1, h2⟩ | ⟨k, e, h1, h2, h3, h4⟩
        · left
          refine ⟨by simp at h1 ⊢; omega, ?_⟩
          rw [h2]; simp; omega
        · right
          refine ⟨k + 1, b ++ e, by simp at h1; omega, by simp; omega, by simpa using Enc.cons hw h3, ?_⟩
          rw [h4]; simp; omega
      · right
        refine ⟨0, [], by simp; omega, by simp, by simpa using Enc.nil, ?_⟩
        rw [mbsrtowcsLoop, if_neg h]
        simp; omega

theorem Spec.Enc.length_le {bs cs : List Nat} (h : Enc bs cs) : cs.length ≤ bs.length := by
  induction h with
  | nil => simp
  | cons hw _ ih => have := hw.length_pos; simp; omega

theorem Spec.Enc.exists {cs : List Nat} (hs : ∀ c ∈ cs, Scalar c) : ∃ bs, Enc bs cs := by
  induction cs with
  | nil => exact ⟨[], .nil⟩
  | cons c cs ih =>
    obtain ⟨bs, h⟩ := ih (fun x hx => hs x (by simp [hx]))
    exact ⟨_, .cons (wcrtomb_scalar c (hs c (by simp))).2 h⟩

end Verif.Utf
