import Verif.Trip.Lemmas
import Verif.Decimal.HexFinal
import Verif.Printf.FloatProps

/-! # Hexadecimal output read back -/

namespace Verif.Trip
open Verif.Strtol Verif.Printf.Spec Verif.Decimal.Spec Verif.Float

theorem rep_snoc (n c : Nat) : List.replicate n c ++ [c] = List.replicate (n + 1) c := List.replicate_succ'.symm

/-- The parts of a padded number: spaces, sign, prefix, zeros, digits, spaces. -/
theorem justifyF_parts (d : Dir) (a : Ask) (neg : Bool) (pfx body : List Nat) :
    ∃ j z k sg, Sign (ints sg) neg ∧ z ≤ a.width ∧
      justifyF d a (signF d neg ++ pfx) body = List.replicate j 32 ++ (sg ++ (pfx ++ (List.replicate z 48 ++ body)) ++ List.replicate k 32) := by
  obtain ⟨i, sg, hs, e⟩ : ∃ i sg, Sign (ints sg) neg ∧ signF d neg = List.replicate i 32 ++ sg := by
    unfold signF
    cases neg with
    | true => exact ⟨0, [45], .inr (.inr ⟨rfl, rfl⟩), by simp⟩
    | false =>
      rw [if_neg (by decide)]
      split
      · exact ⟨0, [43], .inr (.inl ⟨rfl, rfl⟩), by simp⟩
      · split
        · exact ⟨1, [], .inl ⟨rfl, rfl⟩, by simp⟩
        · exact ⟨0, [], .inl ⟨rfl, rfl⟩, by simp⟩
  unfold justifyF
  simp only
  rw [e]
  split
  · exact ⟨i, 0, a.width - (List.replicate i 32 ++ sg ++ pfx ++ body).length, sg, hs, Nat.zero_le _, by simp [List.append_assoc]⟩
  · split
    · exact ⟨i, a.width - (List.replicate i 32 ++ sg ++ pfx ++ body).length, 0, sg, hs, Nat.sub_le _ _, by simp [List.append_assoc]⟩
    · refine ⟨(a.width - (List.replicate i 32 ++ sg ++ pfx ++ body).length) + i, 0, 0, sg, hs, Nat.zero_le _, ?_⟩
      rw [← List.replicate_append_replicate (n := a.width - _)]
      simp only [List.append_assoc, List.length_append, List.replicate_zero, List.nil_append, List.append_nil]

theorem hexSubject_space {w : List Int} {neg : Bool} {n : Nat} {t : Int} (h : HexSubject w neg n t) : (32 : Int) ∉ w := by
  cases h with
  | mk sign pre ip point fp ex neg e hs hx hp hi hf hne he =>
    have hsg : ∀ {s : List Int} {b : Bool}, Sign s b → (32 : Int) ∉ s := by
      intro s b h
      rcases h with ⟨rfl, -⟩ | ⟨rfl, -⟩ | ⟨rfl, -⟩ <;> decide
    have hd : ∀ {s : List Int}, HexDigits s → (32 : Int) ∉ s := fun h hm => by
      have := (Decimal.hex16 32).mp (h 32 hm)
      omega
    simp only [List.mem_append, not_or]
    refine ⟨hsg hs, by rcases hx with rfl | rfl <;> decide, hd hi, by rcases hp with ⟨rfl, -⟩ | rfl <;> decide, hd hf, ?_⟩
    cases he with
    | none => simp
    | some c sg ds ng hc hsg' hdn hd' =>
      simp only [List.mem_cons, List.mem_append, not_or]
      refine ⟨by omega, hsg hsg', fun hm => ?_⟩
      have := (Decimal.digit10 32).mp (hd' 32 hm)
      omega

theorem hexSubject_ne {w : List Int} {neg : Bool} {n : Nat} {t : Int} (h : HexSubject w neg n t) : w ≠ [] := by
  cases h with
  | mk sign pre ip point fp ex neg e hs hx hp hi hf hne he => rcases hx with rfl | rfl <;> simp

theorem hexLongest_of {w : List Int} {neg : Bool} {n : Nat} {t : Int} (h : HexSubject w neg n t) (k : Nat) :
    HexLongest (w ++ List.replicate k 32) w neg n t := by
  refine ⟨List.prefix_append _ _, h, fun w' neg' n' t' hp hS => ?_⟩
  rcases Nat.lt_or_ge w.length w'.length with hlt | hge
  · exfalso
    obtain ⟨q, hq⟩ := List.prefix_of_prefix_length_le (List.prefix_append w (List.replicate k 32)) hp (Nat.le_of_lt hlt)
    subst hq
    rw [List.prefix_append_right_inj] at hp
    cases q with
    | nil => simp at hlt
    | cons c q =>
      have hc : c ∈ List.replicate k (32 : Int) := hp.subset List.mem_cons_self
      rw [(List.mem_replicate.mp hc).2] at hS
      exact hexSubject_space hS (by simp)
  · exact hge

/-- What is printed has the form expected. -/
theorem hexText_subject (d : Dir) (a : Ask) (upper neg : Bool) (lead n V : Nat) (e : Int) (hl : lead < 16) (hV : V < 16 ^ n) :
    ∃ j k w, HexSubject w neg (lead * 16 ^ n + V) (e - 4 * n) ∧ w.length ≤ a.width + n + 7 + (numeral 10 false e.natAbs).length ∧
      w.getLast? ≠ some 46 ∧ ints (hexText d a upper neg lead n V e) = List.replicate j 32 ++ (w ++ List.replicate k 32) := by
  obtain ⟨j, z, k, sg, hs, hz, he⟩ := justifyF_parts d a neg [48, if upper then 88 else 120]
    (digit upper lead :: (point d n ++ places 16 upper n V ++ [if upper then 80 else 112, if e < 0 then 45 else 43] ++ numeral 10 false e.natAbs))
  have hsl : (ints sg).length ≤ 1 := by rcases hs with ⟨h, -⟩ | ⟨h, -⟩ | ⟨h, -⟩ <;> rw [h] <;> decide
  have hnn : ints (numeral 10 false e.natAbs) ≠ [] := by
    intro h
    exact Printf.numeral_ne_nil 10 false e.natAbs (List.map_eq_nil_iff.mp h)
  have hpd : point d n = [] ∧ n = 0 ∨ point d n = [46] := by
    unfold point
    split
    · exact .inr rfl
    · exact .inl ⟨rfl, by omega⟩
  have hpl : (ints (point d n)).length ≤ 1 := by rcases hpd with ⟨h, -⟩ | h <;> rw [h] <;> decide
  have hpt : (ints (point d n) = [] ∧ ints (places 16 upper n V) = []) ∨ ints (point d n) = [46] := by
    rcases hpd with ⟨h, h0⟩ | h
    · left
      rw [h]
      subst h0
      exact ⟨rfl, rfl⟩
    · exact .inr (by rw [h]; rfl)
  have S := HexSubject.mk (ints sg) (ints [48, if upper then 88 else 120]) (List.replicate z 48 ++ [((digit upper lead : Nat) : Int)]) (ints (point d n))
    (ints (places 16 upper n V)) ((if upper then 80 else 112) :: ((if e < 0 then [45] else [43]) ++ ints (numeral 10 false e.natAbs))) neg
    (if decide (e < 0) then -(Strtol.value 10 (ints (numeral 10 false e.natAbs)) : Int) else Strtol.value 10 (ints (numeral 10 false e.natAbs)))
    hs (by cases upper; exact .inl rfl; exact .inr rfl) hpt
    (by
      intro c hc
      rw [List.mem_append] at hc
      rcases hc with hc | hc
      · rw [(List.mem_replicate.mp hc).2]; exact (Decimal.hex16 48).mpr (by omega)
      · rw [List.mem_singleton.mp hc]; exact digit_is 16 (by omega) upper hl)
    (places_is 16 (by omega) (by omega) upper n V) (by simp)
    (.some _ _ _ (decide (e < 0)) (by cases upper <;> simp) (by
      by_cases h : e < 0
      · rw [if_pos h, decide_eq_true h]; exact .inr (.inr ⟨rfl, rfl⟩)
      · rw [if_neg h, decide_eq_false h]; exact .inr (.inl ⟨rfl, rfl⟩)) hnn (numeral_is 10 (by omega) (by omega) false _))
  rw [numeral_value 10 (by omega) (by omega), ints_length, Printf.places_length] at S
  have hv : Strtol.value 16 ((List.replicate z 48 ++ [((digit upper lead : Nat) : Int)]) ++ ints (places 16 upper n V)) = lead * 16 ^ n + V := by
    rw [List.append_assoc, Decimal.value_rep, List.singleton_append, Decimal.value_cons, digit_val upper hl, places_value 16 (by omega) (by omega), ints_length,
      Printf.places_length, Nat.mod_eq_of_lt hV]
    rfl
  have hE : (if decide (e < 0) = true then -(e.natAbs : Int) else e.natAbs) = e := by
    split
    · have : e < 0 := of_decide_eq_true ‹_›
      omega
    · have : ¬ e < 0 := by simpa using ‹¬ decide (e < 0) = true›
      omega
  rw [hv, hE] at S
  refine ⟨j, k, _, S, ?_, ?_, ?_⟩
  · simp only [List.length_append, List.length_cons, List.length_replicate, List.length_nil, ints_length, Printf.places_length] at *
    have : (if e < 0 then [(45 : Int)] else [43]).length = 1 := by split <;> rfl
    omega
  · intro h
    have hmem : ∀ (l m : List Int), m ≠ [] → (l ++ m).getLast? = some 46 → (46 : Int) ∈ m := by
      intro l m hm h
      rw [List.getLast?_append] at h
      cases hg : m.getLast? with
      | none => exact absurd (List.getLast?_eq_none_iff.mp hg) hm
      | some x =>
        rw [hg] at h
        have : x = 46 := Option.some.inj h
        rw [this] at hg
        exact List.mem_of_getLast? hg
    have h' := hmem (ints sg ++ ints [48, if upper then 88 else 120] ++ (List.replicate z 48 ++ [((digit upper lead : Nat) : Int)]) ++ ints (point d n) ++
      ints (places 16 upper n V) ++ ((if upper then 80 else 112) :: (if e < 0 then [45] else [43]))) _ hnn (by simpa [List.append_assoc] using h)
    have := (Decimal.digit10 46).mp (numeral_is 10 (by omega) (by omega) false _ 46 h')
    omega
  · unfold hexText
    rw [he]
    simp only [ints_append, ints_cons, ints_rep, List.append_assoc, List.cons_append, List.nil_append]
    have h1 : ((if upper = true then 80 else 112 : Nat) : Int) = (if upper = true then 80 else 112) := by split <;> rfl
    have h2 : ints [if e < 0 then 45 else 43] = if e < 0 then [45] else [43] := by split <;> rfl
    rw [← h2, ← h1]
    simp [ints]

theorem exact_rounds {F : Fmt} (n k : Nat) (e : Int) (x : Nat) (hx : x ≤ F.inf) (h0 : 0 ≤ e + F.unit)
    (h : n * 2 ^ (e + F.unit).toNat = F.mag x * 16 ^ k) : RoundsBin F n (e - 4 * k) x := by
  unfold RoundsBin
  refine nearest_exact (Nat.two_pow_pos _) hx ?_
  have h16 : 16 ^ k = 2 ^ (4 * k) := by rw [Nat.pow_mul]
  rw [h16] at h
  refine Nat.eq_of_mul_eq_mul_right (Nat.two_pow_pos (4 * k)) ?_
  have e1 : (e - 4 * k).toNat + F.unit + 4 * k = (-(e - 4 * k)).toNat + (e + F.unit).toNat := by omega
  calc n * 2 ^ (e - 4 * k).toNat * 2 ^ F.unit * 2 ^ (4 * k) = n * 2 ^ ((e - 4 * k).toNat + F.unit + 4 * k) := by simp only [Nat.pow_add]; ac_rfl
    _ = n * 2 ^ (e + F.unit).toNat * 2 ^ (-(e - 4 * (k : Int))).toNat := by rw [e1, Nat.pow_add]; ac_rfl
    _ = 2 ^ (-(e - 4 * (k : Int))).toNat * F.mag x * 2 ^ (4 * k) := by rw [h]; ac_rfl

theorem numeral_length_le (n k : Nat) (h : n < 10 ^ (k + 1)) : (numeral 10 false n).length ≤ k + 1 := by
  induction k generalizing n with
  | zero => rw [Printf.numeral_small 10 false n (by simpa using h)]; simp
  | succ k ih =>
    by_cases h9 : n < 10
    · rw [Printf.numeral_small 10 false n h9]; simp
    · rw [Printf.numeral_big 10 false n (by omega) (by omega), List.length_append]
      have := ih (n / 10) (by rw [Nat.div_lt_iff_lt_mul (by omega)]; rw [Nat.pow_succ] at h; exact h)
      simp only [List.length_cons, List.length_nil]
      omega

theorem string_of {s t : List Int} {n : Nat} (hs : IsString s) (ht : IsString t) : IsString (List.replicate n 32 ++ (s ++ t)) := by
  intro c hc
  rw [List.mem_append, List.mem_append] at hc
  rcases hc with hc | hc | hc
  · rw [(List.mem_replicate.mp hc).2]; decide
  · exact hs c hc
  · exact ht c hc

theorem rep_string (n : Nat) : IsString (List.replicate n 32) := by
  intro c hc
  rw [(List.mem_replicate.mp hc).2]
  decide

theorem hexSubject_chars {w : List Int} {neg : Bool} {n : Nat} {t : Int} (h : HexSubject w neg n t) : IsString w ∧ ∀ c ∈ w.head?, ¬ White c := by
  have hall : ∀ c ∈ w, 43 ≤ c ∧ c ≤ 120 := by
    cases h with
    | mk sign pre ip point fp ex neg e hs hx hp hi hf hne he =>
      have hsg : ∀ {s : List Int} {b : Bool}, Sign s b → ∀ c ∈ s, 43 ≤ c ∧ c ≤ 120 := by
        intro s b h
        rcases h with ⟨rfl, -⟩ | ⟨rfl, -⟩ | ⟨rfl, -⟩ <;> decide
      have hd : ∀ {s : List Int}, HexDigits s → ∀ c ∈ s, 43 ≤ c ∧ c ≤ 120 := fun h c hm => by
        have := (Decimal.hex16 c).mp (h c hm)
        omega
      intro c hc
      simp only [List.mem_append] at hc
      rcases hc with hc | hc | hc | hc | hc | hc
      · exact hsg hs c hc
      · revert c; rcases hx with rfl | rfl <;> decide
      · exact hd hi c hc
      · revert c; rcases hp with ⟨rfl, -⟩ | rfl <;> decide
      · exact hd hf c hc
      · cases he with
        | none => simp at hc
        | some c' sg ds ng hc' hsg' hdn hd' =>
          simp only [List.mem_cons, List.mem_append] at hc
          rcases hc with hc | hc | hc
          · omega
          · exact hsg hsg' c hc
          · have := (Decimal.digit10 c).mp (hd' c hc)
            omega
  refine ⟨fun c hc => by have := hall c hc; omega, fun c hc => ?_⟩
  have := hall c (List.mem_of_head? hc)
  unfold White
  omega

/-- Text of a number, read back. -/
theorem read_back {S : Decimal.Scalar} (h : S.HexOk) (d : Dir) (a : Ask) (upper neg : Bool) (lead n V : Nat) (e : Int) (hl : lead ≤ 1) (hV : V < 16 ^ n)
    (hn : 4 * n ≤ S.fmt.f) (x : Nat) (hx : x < S.fmt.inf) (h0 : 0 ≤ e + S.fmt.unit) (hex : (lead * 16 ^ n + V) * 2 ^ (e + S.fmt.unit).toNat = S.fmt.mag x * 16 ^ n)
    (hd : (numeral 10 false e.natAbs).length ≤ 5) (hlen : S.fmt.unit + 4 * S.capacity + 4 * (a.width + n + 12) ≤ 32000) :
    ∃ stop, Decimal.parsefloat S (ints (hexText d a upper neg lead n V e)) = some ⟨S.fmt.pack neg x, stop, false⟩ ∧
      ∀ c ∈ (hexText d a upper neg lead n V e).drop stop, c = 32 := by
  obtain ⟨j, k, w, hS, hwl, hlast, ht⟩ := hexText_subject d a upper neg lead n V e (by omega) hV
  have hL := hexLongest_of hS k
  obtain ⟨c1, c2⟩ := hexSubject_chars hS
  have hne := hexSubject_ne hS
  have hlt : lead * 16 ^ n + V < 2 ^ (S.fmt.f + 1) := by
    have k1 : lead * 16 ^ n ≤ 1 * 16 ^ n := Nat.mul_le_mul_right _ hl
    have k2 : 2 ^ (4 * n + 1) ≤ 2 ^ (S.fmt.f + 1) := Nat.pow_le_pow_right (by omega) (by omega)
    rw [Nat.pow_succ, Nat.pow_mul, show 2 ^ 4 = 16 from rfl] at k2
    omega
  obtain ⟨m, hm, hp⟩ := Decimal.hex_strto h (blank := List.replicate j 32) (string_of c1 (rep_string k))
    (fun c hc => by rw [(List.mem_replicate.mp hc).2]; unfold White; decide)
    (by
      intro c hc
      apply c2 c
      cases w with
      | nil => exact absurd rfl hne
      | cons b w => exact hc) hL (by omega) (.inl hlt)
  have hm' : m = x := hm.unique (Nat.two_pow_pos _) (exact_rounds _ _ _ _ (Nat.le_of_lt hx) h0 hex)
  subst hm'
  rw [if_neg fun h => hlast h.2, List.length_replicate, Nat.sub_zero, decide_eq_false (by omega)] at hp
  refine ⟨_, by rw [ht]; exact hp, ?_⟩
  intro c hc
  have hc' : (c : Int) ∈ ints ((hexText d a upper neg lead n V e).drop (j + w.length)) := List.mem_map.mpr ⟨c, hc, rfl⟩
  rw [show ints ((hexText d a upper neg lead n V e).drop (j + w.length)) = (ints (hexText d a upper neg lead n V e)).drop (j + w.length) from List.map_drop, ht,
    ← List.append_assoc, List.drop_left' (by simp)] at hc'
  have := (List.mem_replicate.mp hc').2
  omega

end Verif.Trip
