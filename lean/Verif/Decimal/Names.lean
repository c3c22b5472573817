import Verif.Decimal.Final

/-! # Infinities, NaNs and strings that hold no number -/

namespace Verif.Decimal
open Verif.Strtol Verif.Float Spec

/-- Where a sign may stand. -/
theorem sign_start : ∀ r : List Int, ∃ sg u neg, r = sg ++ u ∧ Sign sg neg ∧ (sg = [] → cur u ≠ 43 ∧ cur u ≠ 45)
  | [] => ⟨[], [], false, rfl, .inl ⟨rfl, rfl⟩, fun _ => by decide⟩
  | d :: t => by
    by_cases h1 : d = 43
    · exact ⟨[43], t, false, by rw [h1]; rfl, .inr (.inl ⟨rfl, rfl⟩), fun h => by cases h⟩
    · by_cases h2 : d = 45
      · exact ⟨[45], t, true, by rw [h2]; rfl, .inr (.inr ⟨rfl, rfl⟩), fun h => by cases h⟩
      · exact ⟨[], d :: t, false, rfl, .inl ⟨rfl, rfl⟩, fun _ => ⟨h1, h2⟩⟩

theorem parsefloat_sign (S : Scalar) {blank sign u : List Int} {neg : Bool} (hs : Sign sign neg)
    (hu : sign = [] → cur u ≠ 43 ∧ cur u ≠ 45) (hk : skipSpace (blank ++ (sign ++ u)) = some (sign ++ u, blank.length)) :
    parsefloat S (blank ++ (sign ++ u)) = (magnitude S u (blank.length + sign.length)).bind fun r =>
      some { r with bits := S.fmt.pack neg (S.fmt.abs r.bits) } := by
  obtain ⟨-, b, c, d⟩ := signed_cur hs hu
  have b' : decide (cur (sign ++ u) = 45) = neg := by
    cases neg with
    | false => exact decide_eq_false fun h => Bool.false_ne_true (b.mp h)
    | true => exact decide_eq_true (b.mpr rfl)
  unfold parsefloat
  rw [hk, Option.bind_some]
  simp only
  rw [c, d, b']

theorem lower_iff {c : Int} {t : Nat} (hc : -128 ≤ c ∧ c ≤ 127) (ht : 97 ≤ t ∧ t ≤ 122) : u32 c ||| 32 = t ↔ lower c = t := by
  have : ∀ n : Nat, n < 256 → ∀ t : Nat, t < 26 → (u32 ((n : Int) - 128) ||| 32 = t + 97 ↔ lower ((n : Int) - 128) = (t + 97 : Nat)) := by
    decide +kernel
  have := this (c + 128).toNat (by omega) (t - 97) (by omega)
  rw [show (((c + 128).toNat : Nat) : Int) - 128 = c by omega, show t - 97 + 97 = t by omega] at this
  exact this

theorem matched_iff : ∀ {ts : List Nat} {s : List Int} (more : List Nat), Chars s → (∀ t ∈ ts, 97 ≤ t ∧ t ≤ 122) →
    (ts.length ≤ matched s (ts ++ more) ↔ ts.map (fun t : Nat => (t : Int)) <+: s.map lower)
  | [], s, more, _, _ => by simp
  | t :: ts, s, more, hs, ht => by
    have ht0 := ht t List.mem_cons_self
    cases s with
    | nil =>
      rw [List.cons_append]
      unfold matched
      rw [if_neg (show ¬ u32 (cur []) ||| 32 = t by show ¬ 32 = t; omega)]
      simp
    | cons c s =>
      have ih := matched_iff (ts := ts) (s := s) more (fun x hx => hs x (List.mem_cons_of_mem _ hx)) (fun x hx => ht x (List.mem_cons_of_mem _ hx))
      have hl := lower_iff (hs c List.mem_cons_self) ht0
      rw [List.cons_append]
      unfold matched
      rw [show cur (c :: s) = c from rfl, List.tail_cons, List.map_cons, List.map_cons, List.cons_prefix_cons, List.length_cons]
      by_cases h : u32 c ||| 32 = t
      · rw [if_pos h, ← ih]
        have := hl.mp h
        omega
      · rw [if_neg h]
        have : ¬ (t : Int) = lower c := fun e => h (hl.mpr e.symm)
        constructor
        · intro h; omega
        · intro h; exact absurd h.1 this

theorem matched_le : ∀ (ts : List Nat) (s : List Int), matched s ts ≤ ts.length
  | [], _ => Nat.le_refl 0
  | t :: ts, s => by
    unfold matched
    have := matched_le ts s.tail
    split <;> simp <;> omega

theorem map_prefix {a : List Int} : ∀ {s : List Int}, a <+: s.map lower → ∃ v rest, s = v ++ rest ∧ v.map lower = a := by
  intro s h
  refine ⟨s.take a.length, s.drop a.length, (List.take_append_drop ..).symm, ?_⟩
  rw [List.map_take]
  exact (List.prefix_iff_eq_take.mp h).symm

theorem names_letters : (∀ t ∈ [105, 110, 102], 97 ≤ t ∧ t ≤ 122) ∧ (∀ t ∈ [105, 110, 102, 105, 110, 105, 116, 121], 97 ≤ t ∧ t ≤ 122) ∧
    (∀ t ∈ [110, 97, 110], 97 ≤ t ∧ t ≤ 122) := by decide

/-- How `magnitude_` recognises infinities. -/
theorem inf_iff {s : List Int} (h : Chars s) :
    (3 ≤ matched s [105, 110, 102, 105, 110, 105, 116, 121] ↔ [105, 110, 102] <+: s.map lower) ∧
    (matched s [105, 110, 102, 105, 110, 105, 116, 121] = 8 ↔ [105, 110, 102, 105, 110, 105, 116, 121] <+: s.map lower) ∧
    (matched s [110, 97, 110] = 3 ↔ [110, 97, 110] <+: s.map lower) := by
  obtain ⟨a, b, c⟩ := names_letters
  have h1 := matched_iff (ts := [105, 110, 102]) [105, 110, 105, 116, 121] h a
  have h2 := matched_iff (ts := [105, 110, 102, 105, 110, 105, 116, 121]) [] h b
  have h3 := matched_iff (ts := [110, 97, 110]) [] h c
  have l2 := matched_le [105, 110, 102, 105, 110, 105, 116, 121] s
  have l3 := matched_le [110, 97, 110] s
  simp only [List.length_cons, List.length_nil, List.cons_append, List.nil_append, List.map_cons, List.map_nil, Nat.zero_add, Nat.reduceAdd] at *
  refine ⟨h1, ?_, ?_⟩
  · exact ⟨fun e => h2.mp (by omega), fun e => by have := h2.mpr e; omega⟩
  · exact ⟨fun e => h3.mp (by omega), fun e => by have := h3.mpr e; omega⟩

/-- No number: zero, and the end is the start of the string. -/
theorem no_number (S : Scalar) {blank r : List Int} (hc : IsString (blank ++ r)) (hb : Blank blank)
    (hr : ∀ c ∈ r.head?, ¬ White c) (hn : NoNumber r) (hm : ¬ Named r) (hx : ¬ StrayExponent r)
    (h0 : ∀ s l, S.ofDec ⟨0, 0, false, s, l⟩ = some 0) (hi : 0 ≠ S.fmt.inf) :
    ∃ neg, (neg = true ↔ r.head? = some 45) ∧ parsefloat S (blank ++ r) = some ⟨S.fmt.pack neg (S.fmt.abs 0), 0, false⟩ := by
  have hch : Chars (blank ++ r) := fun c h => ⟨(hc c h).1, (hc c h).2.1⟩
  have hsk := skip_eq blank _ hb hr hch
  obtain ⟨sign, u, neg, rfl, hs, hu⟩ := sign_start r
  have hcu : Chars u := fun c h => hch c (by simp [h])
  have hst : Stops u := by
    intro hd
    cases u with
    | nil => exact absurd hd (by decide)
    | cons c t =>
      exact hn _ _ _ _ ⟨t, by simp⟩ (Subject.mk sign [c] [] [] [] neg 0 hs (.inl ⟨rfl, rfl⟩)
        (fun x hx => by rw [List.mem_singleton.mp hx]; exact (digit10 c).mpr hd) (fun _ h => nomatch h) (by simp) .none)
  have hn1 : ¬ [105, 110, 102] <+: u.map lower := fun h => by
    obtain ⟨v, rest, rfl, hv⟩ := map_prefix h
    exact hm (.inl ⟨sign ++ v, neg, ⟨rest, by simp⟩, sign, v, hs, rfl, .inl hv⟩)
  have hn2 : ¬ [110, 97, 110] <+: u.map lower := fun h => by
    obtain ⟨v, rest, rfl, hv⟩ := map_prefix h
    exact hm (.inr ⟨sign ++ v, neg, none, ⟨rest, by simp⟩, sign, v, [], hs, by simp, hv, rfl⟩)
  have hneg : neg = true ↔ (sign ++ u).head? = some 45 := by
    obtain ⟨-, b, -⟩ := signed_cur hs hu
    rw [← b]
    unfold cur
    cases (sign ++ u).head? <;> simp
  refine ⟨neg, hneg, ?_⟩
  rw [parsefloat_sign S hs hu hsk]
  obtain ⟨i1, i2, i3⟩ := inf_iff hcu
  have hpd : ∃ s, parsedec u = (⟨0, 0, false, s, 0⟩, none) := by
    by_cases hp : cur u = 46
    · cases u with
      | nil => exact absurd hp (by decide)
      | cons c t =>
        have hp : c = 46 := hp
        subst hp
        have ht : Chars t := fun c h => hcu c (List.mem_cons_of_mem _ h)
        have hst2 : Stops t := by
          intro hd
          cases t with
          | nil => exact absurd hd (by decide)
          | cons c t =>
            exact hn _ _ _ _ ⟨t, by simp⟩ (Subject.mk sign [] [46] [c] [] neg 0 hs (.inr rfl) (fun _ h => nomatch h)
              (fun x hx => by rw [List.mem_singleton.mp hx]; exact (digit10 c).mpr hd) (by simp) .none)
        have hz : zeros t = 0 := zeros_rep (stops_zero hst2) 0
        have he : parseexp 101 t = (0, 0) := by
          have := parseexp_eq (rest := t) .none ht (by
            unfold NoMore
            rw [if_pos rfl]
            rintro ⟨c, sg, d, ng, hc, hsg, hd, q, hq⟩
            exact hx ⟨sign, neg, [46], c :: (sg ++ [d]), _, hs, .inr rfl, by simp, .some c sg [d] ng hc hsg (by simp)
              (fun x hx => by rw [List.mem_singleton.mp hx]; exact (digit10 d).mpr hd), q, by rw [← hq]; simp⟩)
          exact this
        refine ⟨t, ?_⟩
        rw [parsedec_steps (s := 46 :: t) (s1 := 46 :: t) (s2 := t) (s3 := t) (z1 := 0) (z2 := 0) (point := true) (r := (⟨0, 0, 0, true, false⟩, 0)) (e := (0, 0))
          (zeros_rep (x := 46 :: t) (by decide : (46 : Int) ≠ 48) 0) rfl (decide_eq_true rfl) rfl hz rfl (decLoop_stop ht hst2 (by simp)) he]
        rfl
    · have hz : zeros u = 0 := zeros_rep (stops_zero hst) 0
      have he : parseexp 101 u = (0, 0) := by
        have := parseexp_eq (rest := u) .none hcu (by
          unfold NoMore
          rw [if_pos rfl]
          rintro ⟨c, sg, d, ng, hc, hsg, hd, q, hq⟩
          exact hx ⟨sign, neg, [], c :: (sg ++ [d]), _, hs, .inl rfl, by simp, .some c sg [d] ng hc hsg (by simp)
            (fun x hx => by rw [List.mem_singleton.mp hx]; exact (digit10 d).mpr hd), q, by rw [← hq]; simp⟩)
        exact this
      refine ⟨u, ?_⟩
      rw [parsedec_steps (s := u) (s1 := u) (s2 := u) (s3 := u) (z1 := 0) (z2 := 0) (point := false) (r := (⟨0, 0, 0, false, false⟩, 0)) (e := (0, 0))
        hz rfl (decide_eq_false hp) rfl rfl rfl (decLoop_stop hcu hst fun _ => hp) he]
      rfl
  obtain ⟨s, hpd⟩ := hpd
  have hmag : magnitude S u (blank.length + sign.length) = some ⟨0, 0, false⟩ := by
    unfold magnitude
    simp only
    rw [if_neg (by rw [i1]; exact hn1), if_neg (by rw [i3]; exact hn2), if_neg fun h => stops_zero hst h.1, hpd]
    simp only
    rw [h0, Option.bind_some, decide_eq_false hi]
  rw [hmag, Option.bind_some]

theorem name_skip {blank sign u : List Int} {neg : Bool} (hs : Sign sign neg) (hb : Blank blank) (hch : Chars (blank ++ (sign ++ u)))
    (hu : 65 ≤ cur u) : skipSpace (blank ++ (sign ++ u)) = some (sign ++ u, blank.length) := by
  refine skip_eq blank (sign ++ u) hb ?_ hch
  have hw : ∀ c : Int, (65 ≤ c ∨ c = 43 ∨ c = 45) → ¬ White c := fun c h => by unfold White; omega
  intro c hcm
  apply hw
  rcases hs with ⟨rfl, -⟩ | ⟨rfl, -⟩ | ⟨rfl, -⟩
  · cases u with
    | nil => simp at hcm
    | cons d t =>
      have e : d = c := by simpa using hcm
      have : 65 ≤ d := hu
      omega
  · have : (43 : Int) = c := by simpa using hcm
    omega
  · have : (45 : Int) = c := by simpa using hcm
    omega

theorem name_cur {t : Int} {ts u : List Int} (ht : 97 ≤ t) (h : t :: ts <+: u.map lower) : 65 ≤ cur u := by
  cases u with
  | nil => simp at h
  | cons c u =>
    rw [List.map_cons, List.cons_prefix_cons] at h
    have := h.1
    show 65 ≤ c
    unfold lower at this
    split at this <;> omega

theorem infinite (S : Scalar) {blank r w : List Int} {neg : Bool} (hc : IsString (blank ++ r)) (hb : Blank blank)
    (hw : w <+: r) (hI : Infinite w neg) (hmax : ∀ w' neg', w' <+: r → Infinite w' neg' → w'.length ≤ w.length) :
    parsefloat S (blank ++ r) = some ⟨S.fmt.pack neg (S.fmt.abs S.fmt.inf), blank.length + w.length, false⟩ := by
  obtain ⟨sign, v, hs, rfl, hv⟩ := hI
  obtain ⟨rest, rfl⟩ := hw
  rw [List.append_assoc] at *
  have hch : Chars (blank ++ (sign ++ (v ++ rest))) := fun c h => ⟨(hc c h).1, (hc c h).2.1⟩
  have hcv : Chars (v ++ rest) := fun c h => hch c (by simp at h ⊢; simp [h])
  have hi : [105, 110, 102] <+: (v ++ rest).map lower := by
    rw [List.map_append]
    rcases hv with h | h <;> rw [h]
    · exact ⟨_, rfl⟩
    · exact ⟨105 :: 110 :: 105 :: 116 :: 121 :: rest.map lower, rfl⟩
  have hu := name_cur (by decide) hi
  rw [parsefloat_sign S hs (fun _ => by omega) (name_skip hs hb hch hu)]
  obtain ⟨i1, i2, i3⟩ := inf_iff hcv
  unfold magnitude
  simp only
  rw [if_pos (i1.mpr hi), Option.bind_some]
  have hlen : (if matched (v ++ rest) [105, 110, 102, 105, 110, 105, 116, 121] = 8 then 8 else 3) = v.length := by
    rcases hv with h | h
    · have h3 : v.length = 3 := by rw [← List.length_map lower, h]; rfl
      rw [if_neg, h3]
      intro e
      obtain ⟨v', rest', e', hv'⟩ := map_prefix (i2.mp e)
      have := hmax (sign ++ v') neg ⟨rest', by rw [e']; simp⟩ ⟨sign, v', hs, rfl, .inr hv'⟩
      have h8 : v'.length = 8 := by rw [← List.length_map lower, hv']; rfl
      simp only [List.length_append] at this
      omega
    · rw [if_pos (i2.mpr (by rw [List.map_append, h]; exact ⟨_, rfl⟩)), ← List.length_map lower, h]; rfl
  rw [hlen, List.length_append, Nat.add_assoc]

/-! ### NaN -/

theorem tag_digit {b : Nat} {c : Int} (h : IsDigit b c) : TagChar c := by
  obtain ⟨d, h, -⟩ := h
  unfold digitVal at h
  unfold TagChar
  split at h
  · omega
  · split at h
    · omega
    · split at h
      · omega
      · cases h

theorem nanLoop_run (bits : Nat) {b : Nat} (hb : b ≤ 36) : ∀ {s : List Int} (m : Nat), Chars s →
    ∃ ds rest, s = ds ++ rest ∧ ds.length = (nanLoop bits b s m).2 ∧ (∀ c ∈ ds, IsDigit b c) ∧ ∀ c ∈ rest.head?, ¬ IsDigit b c
  | [], m, _ => ⟨[], [], rfl, rfl, fun _ h => (nomatch h), fun _ h => (nomatch h)⟩
  | c :: s, m, hs => by
    have hl := digit_lt c (hs c List.mem_cons_self) b hb
    unfold nanLoop
    by_cases h : digit c < b
    · rw [if_pos h]
      obtain ⟨ds, rest, e, hl', hd, hr⟩ := nanLoop_run bits hb (s := s) ((m * b + digit c) % 2 ^ bits) fun x hx => hs x (List.mem_cons_of_mem _ hx)
      refine ⟨c :: ds, rest, by rw [e]; rfl, by rw [List.length_cons, hl'], ?_, hr⟩
      intro x hx
      rcases List.mem_cons.mp hx with rfl | hx
      · exact hl.mp h
      · exact hd x hx
    · rw [if_neg h]
      refine ⟨[], c :: s, rfl, rfl, fun _ h => (nomatch h), ?_⟩
      intro x hx
      have : c = x := by simpa using hx
      rw [← this, ← hl]
      exact h

theorem run_unique {P : Int → Prop} : ∀ {a b s t : List Int}, a ++ s = b ++ t → (∀ c ∈ a, P c) → (∀ c ∈ b, P c) →
    (∀ c ∈ s.head?, ¬ P c) → (∀ c ∈ t.head?, ¬ P c) → a = b
  | [], [], _, _, _, _, _, _, _ => rfl
  | [], c :: b, s, t, e, _, hb, hs, _ => by
    rw [List.nil_append] at e
    subst e
    exact absurd (hb c List.mem_cons_self) (hs c rfl)
  | c :: a, [], s, t, e, ha, _, _, ht => by
    rw [List.nil_append] at e
    subst e
    exact absurd (ha c List.mem_cons_self) (ht c rfl)
  | c :: a, d :: b, s, t, e, ha, hb, hs, ht => by
    rw [List.cons_append, List.cons_append] at e
    injection e with e1 e2
    rw [e1, run_unique e2 (fun x hx => ha x (List.mem_cons_of_mem _ hx)) (fun x hx => hb x (List.mem_cons_of_mem _ hx)) hs ht]

theorem nan_tag {F : Fmt} (o : F.Ok) (y : Nat) : F.inf < (F.nan ||| y % F.signBit) ∧ (F.nan ||| y % F.signBit) < F.signBit ∧
    F.inf < F.nan ∧ F.nan < F.signBit := by
  have h1 : F.inf < F.nan := by
    have := Nat.two_pow_pos (F.f - 1)
    unfold Fmt.nan
    omega
  have h2 : F.nan < F.signBit := by
    have := Fmt.inf_add (F := F)
    have e : 2 ^ F.f = 2 * 2 ^ (F.f - 1) := by
      rw [← Nat.pow_succ']
      congr 1
      have := o.f
      omega
    have := Nat.two_pow_pos (F.f - 1)
    unfold Fmt.nan
    omega
  have h3 := Nat.left_le_or (n := F.nan) (m := y % F.signBit)
  exact ⟨by omega, Nat.or_lt_two_pow h2 (Nat.mod_lt _ Fmt.signBit_pos), h1, h2⟩

theorem stop_not_digit {b : Nat} : ¬ IsDigit b 41 := by
  rintro ⟨d, h, -⟩
  rw [show digitVal 41 = none from rfl] at h
  cases h

theorem cur_drop_append (a t : List Int) (c : Int) : cur ((a ++ c :: t).drop a.length) = c := by
  rw [List.drop_left' rfl]; rfl

/-- The tags accepted hold the characters allowed. -/
theorem nanTag_some {F : Fmt} {s : List Int} {n : Nat} (hs : Chars s) (h : (nanTag F s).2 = some n) :
    ∃ tag rest, s = tag ++ 41 :: rest ∧ (∀ c ∈ tag, TagChar c) ∧ n = tag.length + 1 := by
  have key : ∀ (pre u : List Int) (b : Nat), b ≤ 36 → s = pre ++ u → (∀ c ∈ pre, TagChar c) →
      cur (s.drop (pre.length + (nanLoop (F.f + F.w + 1) b (s.drop pre.length) 0).2)) = 41 →
      ∃ tag rest, s = tag ++ 41 :: rest ∧ (∀ c ∈ tag, TagChar c) ∧ pre.length + (nanLoop (F.f + F.w + 1) b (s.drop pre.length) 0).2 + 1 = tag.length + 1 := by
    intro pre u b hb e hp hcur
    obtain ⟨ds, rest, e2, hl, hd, -⟩ := nanLoop_run (F.f + F.w + 1) hb (s := u) 0 fun c hc => hs c (by rw [e]; simp [hc])
    have hdrop : s.drop pre.length = u := by rw [e, List.drop_left' rfl]
    rw [hdrop, ← hl] at hcur ⊢
    rw [← List.drop_drop, hdrop, e2, List.drop_left' rfl] at hcur
    cases rest with
    | nil => exact absurd hcur (by decide)
    | cons c rest =>
      have hcur : c = 41 := hcur
      refine ⟨pre ++ ds, rest, by rw [e, e2, hcur, List.append_assoc], ?_, by rw [List.length_append]⟩
      intro x hx
      rcases List.mem_append.mp hx with hx | hx
      · exact hp x hx
      · exact tag_digit (hd x hx)
  unfold nanTag at h
  simp only at h
  by_cases hz : cur s = 48
  · cases s with
    | nil => exact absurd hz (by decide)
    | cons c s =>
      have hz : c = 48 := hz
      subst hz
      by_cases hx : u32 (cur s) ||| 32 = 120
      · cases s with
        | nil => exact absurd hx (by decide)
        | cons x s =>
          have hx' : x = 120 ∨ x = 88 := (hex_iff x (hs x (by simp))).mp hx
          rw [decide_eq_true (show cur (48 :: x :: s) = 48 from rfl)] at h
          rw [decide_eq_true (show true = true ∧ u32 (cur (48 :: x :: s).tail) ||| 32 = 120 from ⟨rfl, hx⟩)] at h
          simp only [if_true] at h
          split at h
          · rename_i hcur
            obtain ⟨tag, rest, a, b, c⟩ := key [48, x] s 16 (by decide) rfl (by
              intro y hy
              unfold TagChar
              simp only [List.mem_cons, List.not_mem_nil, or_false] at hy
              omega) hcur
            have h : 2 + _ + 1 = n := Option.some.inj h
            exact ⟨tag, rest, a, b, h ▸ c⟩
          · cases h
      · rw [decide_eq_true (show cur (48 :: s) = 48 from rfl)] at h
        rw [decide_eq_false (show ¬ (true = true ∧ u32 (cur (48 :: s).tail) ||| 32 = 120) from fun h => hx h.2)] at h
        simp only [if_true, Bool.false_eq_true, if_false] at h
        split at h
        · rename_i hcur
          obtain ⟨tag, rest, a, b, c⟩ := key [48] s 8 (by decide) rfl (by
              intro y hy
              unfold TagChar
              simp only [List.mem_cons, List.not_mem_nil, or_false] at hy
              omega) hcur
          have h : 1 + _ + 1 = n := Option.some.inj h
          exact ⟨tag, rest, a, b, h ▸ c⟩
        · cases h
  · rw [decide_eq_false hz] at h
    simp only [Bool.false_eq_true, false_and, decide_false, if_false] at h
    split at h
    · rename_i hcur
      obtain ⟨tag, rest, a, b, c⟩ := key [] s 10 (by decide) rfl (fun _ h => nomatch h) hcur
      have h : 0 + _ + 1 = n := Option.some.inj h
      exact ⟨tag, rest, a, b, h ▸ c⟩
    · cases h

/-- Numerals are accepted. -/
theorem nanTag_numeral {F : Fmt} {tag rest : List Int} (hs : Chars (tag ++ 41 :: rest)) (hn : Numeral tag) :
    (nanTag F (tag ++ 41 :: rest)).2 = some (tag.length + 1) := by
  have key : ∀ (pre ds : List Int) (b : Nat), b ≤ 36 → tag = pre ++ ds → (∀ c ∈ ds, IsDigit b c) →
      pre.length + (nanLoop (F.f + F.w + 1) b ((tag ++ 41 :: rest).drop pre.length) 0).2 = tag.length := by
    intro pre ds b hb e hd
    subst e
    rw [List.append_assoc, List.drop_left' rfl]
    obtain ⟨ds', rest', e2, hl, hd', hr⟩ := nanLoop_run (F.f + F.w + 1) hb (s := ds ++ 41 :: rest) 0 fun c hc => hs c (by
      rw [List.append_assoc]; exact List.mem_append_right _ hc)
    have := run_unique e2 hd hd' (fun c hc => by
      have : 41 = c := by simpa using hc
      rw [← this]; exact stop_not_digit) hr
    rw [← hl, ← this, List.length_append]
  have hcur := cur_drop_append tag rest 41
  unfold nanTag
  simp only
  rcases hn with ⟨hd, h0⟩ | ⟨ds, e, hd⟩ | ⟨x, ds, e, hx, hd⟩
  · have hz : ¬ cur (tag ++ 41 :: rest) = 48 := by
      cases tag with
      | nil => exact fun h => absurd (show (41 : Int) = 48 from h) (by decide)
      | cons c tag => exact fun h => h0 (by rw [show c = 48 from h]; rfl)
    rw [decide_eq_false hz]
    simp only [Bool.false_eq_true, false_and, decide_false, if_false]
    have := key [] tag 10 (by decide) rfl hd
    rw [show bit False = 0 from rfl, show List.drop 0 (tag ++ 41 :: rest) = tag ++ 41 :: rest from rfl]
    rw [show (List.length ([] : List Int)) = 0 from rfl, show List.drop 0 (tag ++ 41 :: rest) = tag ++ 41 :: rest from rfl] at this
    rw [this, if_pos hcur]
  · have := key [48] ds 8 (by decide) e hd
    have hx : ¬ (true = true ∧ u32 (cur (tag ++ 41 :: rest).tail) ||| 32 = 120) := by
      rintro ⟨-, h⟩
      rw [e, List.cons_append, List.tail_cons] at h
      cases ds with
      | nil => exact absurd (show u32 41 ||| 32 = 120 from h) (by decide)
      | cons d ds =>
        have hc := hs d (by rw [e]; simp)
        have hdd := hd d List.mem_cons_self
        rcases (hex_iff d hc).mp h with rfl | rfl
        · obtain ⟨v, hv, hl⟩ := hdd
          rw [show digitVal 120 = some 33 from rfl] at hv
          cases hv; omega
        · obtain ⟨v, hv, hl⟩ := hdd
          rw [show digitVal 88 = some 33 from rfl] at hv
          cases hv; omega
    rw [decide_eq_true (show cur (tag ++ 41 :: rest) = 48 by rw [e]; rfl), decide_eq_false hx]
    simp only [if_true, Bool.false_eq_true, if_false]
    rw [show bit True = 1 from rfl]
    rw [show (List.length [(48 : Int)]) = 1 from rfl] at this
    rw [this, if_pos hcur]
  · have := key [48, x] ds 16 (by decide) e hd
    have hxx : true = true ∧ u32 (cur (tag ++ 41 :: rest).tail) ||| 32 = 120 := by
      refine ⟨rfl, ?_⟩
      rw [e, List.cons_append, List.tail_cons, List.cons_append]
      exact (hex_iff x (hs x (by rw [e]; simp))).mpr hx
    rw [decide_eq_true (show cur (tag ++ 41 :: rest) = 48 by rw [e]; rfl), decide_eq_true hxx]
    simp only [if_true]
    rw [show (List.length [(48 : Int), x]) = 2 from rfl] at this
    rw [this, if_pos hcur]

theorem nanTag_nan {F : Fmt} (o : F.Ok) (s : List Int) : F.inf < (nanTag F s).1 ∧ (nanTag F s).1 < F.signBit := by
  have key : ∀ (p : Prop) [Decidable p] (y n : Nat), F.inf < (if p then (F.nan ||| y % F.signBit, some n) else (F.nan, none)).1 ∧
      (if p then (F.nan ||| y % F.signBit, some n) else (F.nan, none)).1 < F.signBit := by
    intro p _ y n
    split
    · exact ⟨(nan_tag o _).1, (nan_tag o _).2.1⟩
    · exact ⟨(nan_tag o 0).2.2.1, (nan_tag o 0).2.2.2⟩
  exact key _ _ _

theorem not_number (S : Scalar) (o : S.fmt.Ok) {blank r w : List Int} {neg : Bool} {tag : Option (List Int)} (hc : IsString (blank ++ r)) (hb : Blank blank)
    (hw : w <+: r) (hI : NotNumber w neg tag) (hmax : ∀ w' neg' tag', w' <+: r → NotNumber w' neg' tag' → w'.length ≤ w.length) :
    ∃ m stop, S.fmt.inf < m ∧ m < S.fmt.signBit ∧ parsefloat S (blank ++ r) = some ⟨S.fmt.pack neg m, stop, false⟩ ∧
      ((∀ cs, tag = some cs → Numeral cs) → stop = blank.length + w.length) := by
  obtain ⟨sign, v, tail, hs, rfl, hv, ht⟩ := hI
  obtain ⟨rest, rfl⟩ := hw
  have e0 : sign ++ (v ++ tail) ++ rest = sign ++ (v ++ (tail ++ rest)) := by simp only [List.append_assoc]
  rw [e0] at hc hmax ⊢
  have hch : Chars (blank ++ (sign ++ (v ++ (tail ++ rest)))) := fun c h => ⟨(hc c h).1, (hc c h).2.1⟩
  have hcv : Chars (v ++ (tail ++ rest)) := fun c h => hch c (List.mem_append_right _ (List.mem_append_right _ h))
  have hct : Chars (tail ++ rest) := fun c h => hcv c (List.mem_append_right _ h)
  have hi : [110, 97, 110] <+: (v ++ (tail ++ rest)).map lower := by
    rw [List.map_append, hv]
    exact ⟨_, rfl⟩
  have hni : ¬ [105, 110, 102] <+: (v ++ (tail ++ rest)).map lower := by
    rw [List.map_append, hv]
    intro h
    exact absurd (List.cons_prefix_cons.mp h).1 (by decide)
  have hu := name_cur (by decide) hi
  have h3 : v.length = 3 := by rw [← List.length_map lower, hv]; rfl
  rw [parsefloat_sign S hs (fun _ => by omega) (name_skip hs hb hch hu)]
  obtain ⟨i1, i2, i3⟩ := inf_iff hcv
  have d3 : (v ++ (tail ++ rest)).drop 3 = tail ++ rest := List.drop_left' h3
  have d4 : (v ++ (tail ++ rest)).drop 4 = (tail ++ rest).drop 1 := by
    rw [show 4 = 3 + 1 from rfl, ← List.drop_drop, d3]
  have nt := nan_tag o 0
  unfold magnitude
  simp only
  rw [if_neg (by rw [i1]; exact hni), if_pos (i3.mpr hi), d3, d4]
  by_cases hp : cur (tail ++ rest) = 40
  · obtain ⟨q, hq⟩ : ∃ q, tail ++ rest = 40 :: q := by
      cases h : tail ++ rest with
      | nil => rw [h] at hp; exact absurd hp (by decide)
      | cons c q => rw [h] at hp; exact ⟨q, by rw [show c = 40 from hp]⟩
    have hcq : Chars q := fun c h => hct c (by rw [hq]; exact List.mem_cons_of_mem _ h)
    obtain ⟨n1, n2⟩ := nanTag_nan o q
    rw [if_pos hp, hq, Option.bind_some]
    refine ⟨(nanTag S.fmt q).1, blank.length + sign.length + (match (nanTag S.fmt (List.drop 1 (40 :: q))).2 with
      | some n => 4 + n
      | none => 3), n1, n2, ?_, ?_⟩
    · show some (Result.mk (S.fmt.pack neg (S.fmt.abs (nanTag S.fmt q).1)) _ _) = _
      rw [Fmt.abs_of_lt n2]
      rfl
    · intro hnum
      cases tag with
      | none =>
        have ht : tail = [] := ht
        subst ht
        have hno : (nanTag S.fmt q).2 = none := by
          cases h : (nanTag S.fmt q).2 with
          | none => rfl
          | some n =>
            obtain ⟨tg, r', e, hc', -⟩ := nanTag_some hcq h
            have := hmax (sign ++ (v ++ 40 :: (tg ++ [41]))) neg (some tg) ⟨r', by
              rw [show ([] : List Int) ++ rest = 40 :: q from hq, e]; simp⟩ ⟨sign, v, _, hs, rfl, hv, rfl, hc'⟩
            simp at this
            omega
        rw [show List.drop 1 (40 :: q) = q from rfl, hno]
        simp only [List.length_append, List.length_nil]
        omega
      | some cs =>
        obtain ⟨ht, hcs⟩ : tail = 40 :: (cs ++ [41]) ∧ ∀ c ∈ cs, TagChar c := ht
        have hqq : q = cs ++ 41 :: rest := by
          rw [ht] at hq
          have : cs ++ [41] ++ rest = q := by
            rw [List.cons_append] at hq
            exact (List.cons.inj hq).2
          rw [← this]; simp
        have := nanTag_numeral (F := S.fmt) (hqq ▸ hcq) (hnum cs rfl)
        rw [show List.drop 1 (40 :: q) = q from rfl, hqq, this, ht]
        simp only [List.length_append, List.length_cons, List.length_nil]
        omega
  · rw [if_neg hp, Option.bind_some]
    refine ⟨S.fmt.nan, blank.length + sign.length + 3, nt.2.2.1, nt.2.2.2, by rw [Fmt.abs_of_lt nt.2.2.2], ?_⟩
    intro _
    cases tag with
    | none =>
      have ht : tail = [] := ht
      subst ht
      simp only [List.length_append, List.length_nil]
      omega
    | some cs =>
      obtain ⟨ht, hcs⟩ : tail = 40 :: (cs ++ [41]) ∧ ∀ c ∈ cs, TagChar c := ht
      exact absurd (by rw [ht]; rfl) hp

end Verif.Decimal
