import Verif.Decimal.Digits
import Verif.Strtol.Parse

/-! # The whole conversion -/

namespace Verif.Decimal
open Verif.Strtol Verif.Float Spec

/-! ### What follows the longest subject sequence -/

theorem value_snoc (ds : List Int) (c : Int) : value 10 (ds ++ [c]) = value 10 ds * 10 + (digitVal c).getD 0 := by
  rw [value_append, value_cons]
  simp [value]

theorem prefix_snoc {a : List Int} {c : Int} {t : List Int} : a ++ [c] <+: a ++ c :: t := ⟨t, by simp⟩

theorem follow {sign ip point fp ex rest : List Int} {neg : Bool} {e : Int} (hs : Sign sign neg)
    (hp : point = [] ∧ fp = [] ∨ point = [46]) (hi : Digits ip) (hf : Digits fp) (hne : ip ++ fp ≠ []) (he : Exponent ex e)
    (hmax : ∀ w' neg' n' t', w' <+: sign ++ (ip ++ (point ++ (fp ++ (ex ++ rest)))) → Subject w' neg' n' t' →
      w'.length ≤ (sign ++ (ip ++ (point ++ (fp ++ ex)))).length) :
    (ex = [] → Stops rest) ∧ (ex = [] → point = [] → cur rest ≠ 46) ∧ NoMore ex rest := by
  refine ⟨?_, ?_, ?_⟩
  · rintro rfl hd
    cases rest with
    | nil => exact absurd hd (by decide)
    | cons c t =>
      have hd : 48 ≤ c ∧ c ≤ 57 := hd
      rcases hp with ⟨rfl, rfl⟩ | rfl
      · have S := Subject.mk sign (ip ++ [c]) [] [] [] neg 0 hs (.inl ⟨rfl, rfl⟩)
          (fun x hx => by
            rcases List.mem_append.mp hx with h | h
            · exact hi x h
            · rw [List.mem_singleton.mp h]; exact (digit10 c).mpr hd) (fun _ h => nomatch h) (by simp) .none
        have := hmax _ _ _ _ (⟨t, by simp⟩) S
        simp at this; omega
      · have S := Subject.mk sign ip [46] (fp ++ [c]) [] neg 0 hs (.inr rfl) hi
          (fun x hx => by
            rcases List.mem_append.mp hx with h | h
            · exact hf x h
            · rw [List.mem_singleton.mp h]; exact (digit10 c).mpr hd) (by simp) .none
        have := hmax _ _ _ _ (⟨t, by simp⟩) S
        simp at this; omega
  · rintro rfl rfl hd
    cases rest with
    | nil => exact absurd hd (by decide)
    | cons c t =>
      have hd : c = 46 := hd
      subst hd
      have hf0 : fp = [] := by
        rcases hp with ⟨-, h⟩ | h
        · exact h
        · cases h
      subst hf0
      have S := Subject.mk sign ip [46] [] [] neg 0 hs (.inr rfl) hi (fun _ h => nomatch h) hne .none
      have := hmax _ _ _ _ (⟨t, by simp⟩) S
      simp at this; omega
  · unfold NoMore
    cases he with
    | none =>
      rw [if_pos rfl]
      rintro ⟨c, sg, d, ng, hc, hsg, hd, t, ht⟩
      have S := Subject.mk sign ip point fp (c :: (sg ++ [d])) neg _ hs hp hi hf hne
        (.some c sg [d] ng hc hsg (by simp) (fun x hx => by rw [List.mem_singleton.mp hx]; exact (digit10 d).mpr hd))
      have := hmax _ _ _ _ (⟨t, by rw [← ht]; simp⟩) S
      simp at this; omega
    | some c sg ds ng hc hsg hdn hd =>
      rw [if_neg (by simp)]
      intro hst
      cases rest with
      | nil => exact absurd hst (by decide)
      | cons d t =>
        have hst : 48 ≤ d ∧ d ≤ 57 := hst
        have S := Subject.mk sign ip point fp (c :: (sg ++ (ds ++ [d]))) neg _ hs hp hi hf hne
          (.some c sg (ds ++ [d]) ng hc hsg (by simp) (fun x hx => by
            rcases List.mem_append.mp hx with h | h
            · exact hd x h
            · rw [List.mem_singleton.mp h]; exact (digit10 d).mpr hst))
        have := hmax _ _ _ _ (⟨t, by simp⟩) S
        simp at this; omega

/-! ### Dispatch -/

theorem or32_digit : ∀ n : Nat, n < 256 → (48 ≤ (n : Int) - 128 ∧ (n : Int) - 128 ≤ 57) ∨ (n : Int) - 128 = 46 →
    u32 ((n : Int) - 128) ||| 32 ≠ 105 ∧ u32 ((n : Int) - 128) ||| 32 ≠ 110 := by
  decide +kernel

theorem not_name {c : Int} (h : (48 ≤ c ∧ c ≤ 57) ∨ c = 46) : u32 c ||| 32 ≠ 105 ∧ u32 c ||| 32 ≠ 110 := by
  have := or32_digit (c + 128).toNat (by omega)
  have e : (((c + 128).toNat : Nat) : Int) - 128 = c := by omega
  rw [e] at this
  exact this h

theorem magnitude_dec (S : Scalar) {s : List Int} (k : Nat) (h : (48 ≤ cur s ∧ cur s ≤ 57) ∨ cur s = 46)
    (hx : ¬ (cur s = 48 ∧ u32 (cur s.tail) ||| 32 = 120)) :
    magnitude S s k = (S.ofDec (parsedec s).1).bind fun finite =>
      some ⟨finite, (match (parsedec s).2 with | some n => k + n | none => 0), finite = S.fmt.inf⟩ := by
  obtain ⟨n1, n2⟩ := not_name h
  have m1 : ∀ ts, matched s (105 :: ts) = 0 := fun ts => by unfold matched; exact if_neg n1
  have m2 : ∀ ts, matched s (110 :: ts) = 0 := fun ts => by unfold matched; exact if_neg n2
  unfold magnitude
  rw [m1, m2]
  simp only [if_neg (show ¬ 3 ≤ 0 by decide), if_neg (show ¬ 0 = 3 by decide)]
  rw [if_neg hx]
  rfl

theorem sign_split {sign u : List Int} {neg : Bool} (h : Sign sign neg) (h0 : cur u ≠ 43 ∧ cur u ≠ 45) :
    decide (cur (sign ++ u) = 45 ∨ cur (sign ++ u) = 43) = decide (sign ≠ []) ∧ (decide (cur (sign ++ u) = 45) = neg) ∧
    (if decide (cur (sign ++ u) = 45 ∨ cur (sign ++ u) = 43) = true then (sign ++ u).tail else sign ++ u) = u ∧
    bit (decide (cur (sign ++ u) = 45 ∨ cur (sign ++ u) = 43) = true) = sign.length := by
  obtain ⟨a, b, c, d⟩ := signed_cur h fun _ => h0
  refine ⟨a, ?_, c, d⟩
  cases neg with
  | false => exact decide_eq_false fun h => Bool.false_ne_true (b.mp h)
  | true => exact decide_eq_true (b.mpr rfl)

/-- `parsefloat_` after white space and the sign. -/
theorem parsefloat_eq (S : Scalar) {blank sign u : List Int} {neg : Bool} (hs : Sign sign neg) (hu : cur u ≠ 43 ∧ cur u ≠ 45)
    (hk : skipSpace (blank ++ (sign ++ u)) = some (sign ++ u, blank.length)) :
    parsefloat S (blank ++ (sign ++ u)) = (magnitude S u (blank.length + sign.length)).bind fun r =>
      some { r with bits := S.fmt.pack neg (S.fmt.abs r.bits) } := by
  obtain ⟨-, b, c, d⟩ := sign_split (u := u) hs hu
  unfold parsefloat
  rw [hk, Option.bind_some]
  simp only
  rw [c, d, b]

/-- What the conversion of a longest decimal subject sequence amounts to. -/
theorem parse_subject (S : Scalar) {blank r w : List Int} {neg : Bool} {n : Nat} {t : Int} (hc : IsString (blank ++ r)) (hb : Blank blank)
    (hr : ∀ c ∈ r.head?, ¬ White c) (hL : Longest r w neg n t) (hx : ¬ Hex r) :
    ∃ sign ip point fp ex e s, w = sign ++ (ip ++ (point ++ (fp ++ ex))) ∧ Sign sign neg ∧ Digits ip ∧ Digits fp ∧ Exponent ex e ∧
      (point = [] ∧ fp = [] ∨ point = [46]) ∧ n = value 10 (ip ++ fp) ∧ t = e - fp.length ∧
      (∃ pt, (pt = [] ∨ pt = [46]) ∧ Body (sig (ip ++ fp)) pt s) ∧
      parsefloat S (blank ++ r) = (S.ofDec (decOf (sig (ip ++ fp)) fp.length (capped e) s)).bind fun finite =>
        some ⟨S.fmt.pack neg (S.fmt.abs finite), blank.length + w.length -
          (if value 10 ip = 0 ∧ point = [46] ∧ fp = [] ∧ ex = [] then 1 else 0), finite = S.fmt.inf⟩ := by
  obtain ⟨⟨rest, rfl⟩, hS, hmax⟩ := hL
  obtain ⟨sign, ip, point, fp, ex, neg, e, hs, hp, hi, hf, hne, he⟩ := hS
  have hch : Chars (blank ++ (sign ++ (ip ++ (point ++ (fp ++ ex))) ++ rest)) := fun c h => ⟨(hc c h).1, (hc c h).2.1⟩
  have hsk := skip_eq blank _ hb hr hch
  simp only [List.append_assoc] at hmax hx hch hsk ⊢
  have hrest : Chars rest := fun c h => hch c (by simp [h])
  obtain ⟨f1, f2, f3⟩ := follow hs hp hi hf hne he hmax
  obtain ⟨s, hbody, hpd⟩ := parsedec_eq hp hi hf hne he hrest f1 f2 f3
  refine ⟨sign, ip, point, fp, ex, e, s, rfl, hs, hi, hf, he, hp, rfl, rfl, hbody, ?_⟩
  have hcur : (48 ≤ cur (ip ++ (point ++ (fp ++ (ex ++ rest)))) ∧ cur (ip ++ (point ++ (fp ++ (ex ++ rest)))) ≤ 57) ∨
      cur (ip ++ (point ++ (fp ++ (ex ++ rest)))) = 46 := by
    cases ip with
    | cons c ip => exact .inl (digits_cons hi).1
    | nil =>
      rcases hp with ⟨-, rfl⟩ | rfl
      · exact absurd rfl hne
      · exact .inr rfl
  rw [parsefloat_eq S hs (by omega) hsk, magnitude_dec S _ hcur, hpd]
  · rw [Option.bind_assoc]
    simp only [Option.bind_some]
    congr 1
    funext finite
    congr 2
    have : (if value 10 ip = 0 ∧ point = [46] ∧ fp = [] ∧ ex = [] then 1 else 0) ≤ point.length := by
      split
      · rename_i h; rw [h.2.1]; exact Nat.le_refl _
      · omega
    simp only [List.length_append]
    omega
  · rintro ⟨h1, h2⟩
    apply hx
    refine ⟨sign, neg, hs, ?_⟩
    generalize hu : ip ++ (point ++ (fp ++ (ex ++ rest))) = u at *
    have hcu : Chars u := fun c h => hch c (by simp [h])
    match u with
    | [] => exact absurd h1 (by decide)
    | [c] => exact absurd (show u32 0 ||| 32 = 120 from h2) (by decide)
    | c :: d :: u =>
      have h1 : c = 48 := h1
      subst h1
      have h2 := (hex_iff d (hcu d (by simp))).mp h2
      rcases h2 with rfl | rfl
      · exact .inl ⟨u, by simp⟩
      · exact .inr ⟨u, by simp⟩

/-! ### The digits -/

theorem feed_few {ds : List Int} (hd : Digits ds) : ∀ (a : Acc), a.consumed + ds.length ≤ 38 → a.x < 10 ^ a.consumed →
    (ds.foldl feed a).x = a.x * 10 ^ ds.length + value 10 ds ∧ (ds.foldl feed a).truncated = a.truncated := by
  induction ds with
  | nil => intro a _ _; exact ⟨by simp [value], rfl⟩
  | cons c s ih =>
    intro a h hx
    obtain ⟨h1, h2⟩ := digits_cons hd
    rw [List.length_cons] at h
    have hp : 10 ^ (a.consumed + 1) ≤ 10 ^ 38 := Nat.pow_le_pow_right (by omega) (by omega)
    have hlt : 10 * a.x + dig c < 10 ^ (a.consumed + 1) := by
      rw [dig_eq h1, Nat.pow_succ]
      omega
    have e : feed a c = { a with x := 10 * a.x + dig c, consumed := a.consumed + 1 } := by
      unfold feed
      rw [if_pos (by omega), Nat.mod_eq_of_lt (Nat.lt_of_lt_of_le hlt (Nat.le_trans hp (by decide)))]
    rw [List.foldl_cons, e]
    obtain ⟨g1, g2⟩ := ih h2 { a with x := 10 * a.x + dig c, consumed := a.consumed + 1 } (by show a.consumed + 1 + s.length ≤ 38; omega) hlt
    refine ⟨g1.trans ?_, g2⟩
    rw [value_cons, digitVal10 h1, ← dig_eq h1, List.length_cons, Nat.pow_succ, Nat.add_mul]
    have : 10 * a.x * 10 ^ s.length = a.x * (10 ^ s.length * 10) := by ac_rfl
    show 10 * a.x * 10 ^ s.length + _ + _ = _
    omega

theorem sig_length {ds : List Int} (hd : Digits ds) {k : Nat} (h : value 10 ds < 10 ^ k) : (sig ds).length ≤ k := by
  obtain ⟨z, e, hc⟩ := sig_split ds
  rw [← sig_value] at h
  have hd' : Digits (sig ds) := by
    rw [e] at hd
    exact (digits_append hd).2
  generalize sig ds = D at *
  cases D with
  | nil => exact Nat.zero_le _
  | cons c s =>
    obtain ⟨h1, -⟩ := digits_cons hd'
    have hc : c ≠ 48 := hc
    rw [value_cons, digitVal10 h1] at h
    have : 1 * 10 ^ s.length ≤ (c - 48).toNat * 10 ^ s.length := Nat.mul_le_mul_right _ (by omega)
    have : 10 ^ s.length < 10 ^ k := by omega
    have := (Nat.pow_lt_pow_iff_right (by omega)).mp this
    rw [List.length_cons]
    omega

theorem sig_digits {ds : List Int} (hd : Digits ds) : Digits (sig ds) := by
  obtain ⟨z, e, -⟩ := sig_split ds
  rw [e] at hd
  exact (digits_append hd).2

/-- The decimal of a number with at most 38 significant digits. -/
theorem decOf_few {ds : List Int} (hd : Digits ds) (h : value 10 ds < 10 ^ 38) (places : Nat) (e : Int) (s : List Int) :
    decOf (sig ds) places e s = ⟨value 10 ds, e - places, false, s, (sig ds).length⟩ := by
  have hl := sig_length hd h
  obtain ⟨g1, g2⟩ := feed_few (sig_digits hd) start (by show 0 + _ ≤ 38; omega) (by decide)
  unfold decOf
  rw [g1, g2, sig_value]
  congr 1
  · show 0 * _ + _ = _
    omega
  · omega

end Verif.Decimal
