import Verif.Strtol.Lemmas

/-!
# `parseint_` finds the longest subject sequence
-/

namespace Verif.Strtol

/-- Split off the sign. -/
theorem split_sign (r : List Int) : ∃ sg r1 neg, r = sg ++ r1 ∧ sgn neg sg ∧ (sg = [] → cur r1 ≠ 43 ∧ cur r1 ≠ 45) := by
  match r with
  | [] => exact ⟨[], [], false, rfl, .inl ⟨rfl, rfl⟩, fun _ => by simp [cur]⟩
  | c :: s =>
    by_cases h1 : c = 43
    · exact ⟨[43], s, false, by rw [h1]; rfl, .inr (.inl ⟨rfl, rfl⟩), fun h => by simp at h⟩
    · by_cases h2 : c = 45
      · exact ⟨[45], s, true, by rw [h2]; rfl, .inr (.inr ⟨rfl, rfl⟩), fun h => by simp at h⟩
      · exact ⟨[], c :: s, false, rfl, .inl ⟨rfl, rfl⟩, fun _ => ⟨h1, h2⟩⟩

theorem not_digit_sign (b : Nat) (c : Int) (h : IsDigit b c) : c ≠ 43 ∧ c ≠ 45 := by
  obtain ⟨d, e, _⟩ := h
  constructor
  · rintro rfl
    have h : digitVal 43 = none := by decide
    rw [h] at e; simp at e
  · rintro rfl
    have h : digitVal 45 = none := by decide
    rw [h] at e; simp at e

/-- A subject sequence at the start of a string uses the sign of the string. -/
theorem subject_sign {base : Nat} {sg r1 w digits : List Int} {neg neg' : Bool} {radix : Nat}
    (hsg : sgn neg sg) (h0 : sg = [] → cur r1 ≠ 43 ∧ cur r1 ≠ 45) (hw : w <+: sg ++ r1)
    (hS : Subject base w neg' radix digits) :
    neg' = neg ∧ ∃ pre, w = sg ++ (pre ++ digits) ∧ pre ++ digits <+: r1 ∧
      (pre = [] ∨ ((base = 16 ∨ base = 0) ∧ (pre = [48, 120] ∨ pre = [48, 88]))) ∧
      (radix = if base ≠ 0 then base else if pre ≠ [] then 16 else if digits.head? = some 48 then 8 else 10) ∧
      digits ≠ [] ∧ ∀ c ∈ digits, IsDigit radix c := by
  obtain ⟨sign, pre, _, _, _, hsign, hpre, hradix, hne, hd⟩ := hS
  have hnd : ∀ c t, pre ++ digits = c :: t → c ≠ 43 ∧ c ≠ 45 := by
    intro c t e
    rcases hpre with rfl | ⟨_, rfl | rfl⟩
    · rw [List.nil_append] at e; subst e; exact not_digit_sign _ c (hd c (by simp))
    · simp at e; rw [← e.1]; decide
    · simp at e; rw [← e.1]; decide
  have hne2 : pre ++ digits ≠ [] := by simp [hne]
  obtain ⟨c, t, hct⟩ := List.exists_cons_of_ne_nil hne2
  have hcc := hnd c t hct
  have key : sign = sg ∧ neg' = neg := by
    rw [List.append_assoc, hct] at hw
    rcases hsign with ⟨rfl, rfl⟩ | ⟨rfl, rfl⟩ | ⟨rfl, rfl⟩ <;>
      rcases hsg with ⟨rfl, rfl⟩ | ⟨rfl, rfl⟩ | ⟨rfl, rfl⟩
    · exact ⟨rfl, rfl⟩
    · have := (List.cons_prefix_cons.mp hw).1; exact absurd this hcc.1
    · have := (List.cons_prefix_cons.mp hw).1; exact absurd this hcc.2
    · cases r1 with
      | nil => simp at hw
      | cons a r => have := (List.cons_prefix_cons.mp hw).1; exact absurd this.symm (h0 rfl).1
    · exact ⟨rfl, rfl⟩
    · have := (List.cons_prefix_cons.mp hw).1; simp at this
    · cases r1 with
      | nil => simp at hw
      | cons a r => have := (List.cons_prefix_cons.mp hw).1; exact absurd this.symm (h0 rfl).2
    · have := (List.cons_prefix_cons.mp hw).1; simp at this
    · exact ⟨rfl, rfl⟩
  obtain ⟨rfl, rfl⟩ := key
  refine ⟨rfl, pre, List.append_assoc .., ?_, hpre, hradix, hne, hd⟩
  rw [List.append_assoc] at hw
  exact (List.prefix_append_right_inj _).mp hw

theorem prefix_eq_of_length {a b : List Int} (h : a <+: b) (hl : b.length ≤ a.length) : a = b :=
  h.eq_of_length (Nat.le_antisymm h.length_le hl)

theorem value_eq (b : Nat) (d : List Int) : d.foldl (fun v c => v * b + (digitVal c).getD 0) 0 = value b d := rfl

theorem rep_zero (N : Nat) : Rep N ⟨0, false⟩ 0 :=
  ⟨fun _ => ⟨rfl, Nat.two_pow_pos N⟩, fun h => by simp at h⟩

theorem sgn_mem {neg sg} (h : sgn neg sg) : ∀ c ∈ sg, c = 43 ∨ c = 45 := by
  rcases h with ⟨rfl, -⟩ | ⟨rfl, -⟩ | ⟨rfl, -⟩ <;> simp

/-- The longest subject sequence is what `parseint_` evaluates. -/
theorem parse_longest (N : Nat) (hN : 6 ≤ N) (signed : Bool) (blank r : List Int) (base max : Nat)
    (hbase : base = 0 ∨ (2 ≤ base ∧ base ≤ 36)) (hs : IsString (blank ++ r)) (hb : Blank blank)
    (hr : ∀ c ∈ r.head?, ¬ White c) (w : List Int) (neg : Bool) (radix : Nat) (digits : List Int)
    (hL : Longest base r w neg radix digits) :
    ∃ acc, Rep N acc (value radix digits) ∧
      parseint N signed (blank ++ r) base max = finish N signed neg max acc (blank.length + w.length) := by
  have hs' : ∀ c ∈ blank ++ r, -128 ≤ c ∧ c ≤ 127 := fun c hc => ⟨(hs c hc).1, (hs c hc).2.1⟩
  obtain ⟨sg, r1, neg0, rfl, hsg, h0⟩ := split_sign r
  obtain ⟨hpfx, hS, hmax⟩ := hL
  obtain ⟨rfl, pre, rfl, hp1, hpre, hradix, hne, hd⟩ := subject_sign hsg h0 hpfx hS
  have hs1 : ∀ c ∈ r1, -128 ≤ c ∧ c ≤ 127 := fun c hc => hs' c (by simp [hc])
  by_cases hhex : cur r1 = 48 ∧ (base = 0 ∨ base = 16) ∧ (cur r1.tail = 120 ∨ cur r1.tail = 88)
  · obtain ⟨h48, hb16, hx⟩ := hhex
    match r1 with
    | [] => simp [cur] at h48
    | [c] => simp [cur] at hx
    | c :: x :: r2 =>
      have hc : c = 48 := h48
      subst hc
      have hx : x = 120 ∨ x = 88 := hx
      have hs2 : ∀ c ∈ r2, -128 ≤ c ∧ c ≤ 127 := fun c hc => hs1 c (by simp [hc])
      rw [parse_hex N signed blank sg r2 x neg base max hb hsg hs' hb16 hx]
      obtain ⟨hrep, hlen⟩ := loop_eq N 16 (by decide) (by decide) hN r2 hs2 ⟨0, false⟩ 0 (rep_zero N)
      -- the subject with the prefix, when there are digits after it
      have hcand : run 16 r2 ≠ [] → (run 16 r2).length + 2 ≤ (pre ++ digits).length := by
        intro hne2
        have hS2 : Subject base (sg ++ [48, x] ++ run 16 r2) neg 16 (run 16 r2) :=
          .mk sg [48, x] _ neg 16 hsg (.inr ⟨by omega, by rcases hx with rfl | rfl; exact .inl rfl; exact .inr rfl⟩)
            (by rcases hb16 with rfl | rfl <;> simp) hne2 (run_digits 16 r2 hs2 (by decide))
        have := hmax _ _ _ _ (by
          rw [List.append_assoc]
          refine (List.prefix_append_right_inj _).mpr ?_
          exact (List.prefix_cons_inj _).mpr ((List.prefix_cons_inj _).mpr (run_prefix 16 r2))) hS2
        simp at this ⊢
        omega
      rcases hpre with rfl | ⟨-, hpre⟩
      · -- only the zero
        rw [List.nil_append] at hp1 hcand ⊢
        have hd1 : digits.length = 1 := by
          match digits with
          | [] => exact absurd rfl hne
          | [_] => rfl
          | a :: y :: t =>
            exfalso
            obtain ⟨rfl, hp2⟩ := List.cons_prefix_cons.mp hp1
            obtain ⟨rfl, -⟩ := List.cons_prefix_cons.mp hp2
            have hr16 : radix ≤ 16 := by
              rw [hradix]; rcases hb16 with rfl | rfl <;> simp
            obtain ⟨dv, e, hlt⟩ := hd y (by simp)
            rcases hx with rfl | rfl
            · have : digitVal 120 = some 33 := by decide
              rw [this] at e; simp at e; omega
            · have : digitVal 88 = some 33 := by decide
              rw [this] at e; simp at e; omega
        have hrun : run 16 r2 = [] := by
          apply Classical.byContradiction
          intro h
          have := hcand h
          omega
        rw [hrun] at hrep hlen
        refine ⟨(digitLoop N 16 ((2 ^ N - 1) / 16) r2 ⟨0, false⟩).1, ?_, ?_⟩
        · have hv : value radix digits = 0 := by
            match digits, hd1 with
            | [a], _ =>
              obtain ⟨rfl, -⟩ := List.cons_prefix_cons.mp hp1
              have : digitVal 48 = some 0 := by decide
              simp [value, this]
          rw [hv]
          exact hrep
        · simp only [hlen, List.length_nil, if_true, List.length_append, hd1]
          congr 1
      · have hpx : ∃ y, pre = [48, y] := by rcases hpre with rfl | rfl; exact ⟨_, rfl⟩; exact ⟨_, rfl⟩
        obtain ⟨y, rfl⟩ := hpx
        have hp2 : digits <+: r2 :=
          (List.cons_prefix_cons.mp (List.cons_prefix_cons.mp hp1).2).2
        have hr16 : radix = 16 := by
          rw [hradix]; rcases hb16 with rfl | rfl <;> simp
        subst hr16
        have hpr := run_longest 16 r2 hs2 (by decide) digits hp2 hd
        have hrne : run 16 r2 ≠ [] := by
          intro h; rw [h] at hpr; simp at hpr; exact hne hpr
        have hle := hcand hrne
        have heq : digits = run 16 r2 := prefix_eq_of_length hpr (by simp at hle; omega)
        rw [← heq] at hrep hlen
        refine ⟨_, hrep, ?_⟩
        have hpos : digits.length ≠ 0 := by simp [hne]
        simp only [hlen, if_neg hpos, List.length_append, List.length_cons, List.length_nil]
        congr 1
        omega
  · have hhd : sg = [] → cur r1 ≠ 43 ∧ cur r1 ≠ 45 ∧ ∀ c ∈ r1.head?, ¬ White c := by
      intro e
      refine ⟨(h0 e).1, (h0 e).2, ?_⟩
      subst e; exact hr
    have hprenil : pre = [] := by
      rcases hpre with h | ⟨hb16, hp⟩
      · exact h
      · exfalso
        apply hhex
        match r1 with
        | [] => rcases hp with rfl | rfl <;> simp at hp1
        | [_] => rcases hp with rfl | rfl <;> simp at hp1
        | a :: y :: t =>
          rcases hp with rfl | rfl
          · obtain ⟨rfl, hp2⟩ := List.cons_prefix_cons.mp hp1
            obtain ⟨rfl, -⟩ := List.cons_prefix_cons.mp hp2
            exact ⟨rfl, by omega, .inl rfl⟩
          · obtain ⟨rfl, hp2⟩ := List.cons_prefix_cons.mp hp1
            obtain ⟨rfl, -⟩ := List.cons_prefix_cons.mp hp2
            exact ⟨rfl, by omega, .inr rfl⟩
    subst hprenil
    rw [List.nil_append] at hp1 hpfx ⊢
    rw [parse_plain N signed blank sg r1 neg base max hb hsg hhd hs' hhex]
    have hrad : (if base = 0 then (if cur r1 = 48 then 8 else 10) else base) = radix := by
      rw [hradix]
      by_cases hb0 : base = 0
      · simp only [hb0, if_true, ne_eq, not_true_eq_false, if_false]
        match digits with
        | [] => exact absurd rfl hne
        | a :: t =>
          cases r1 with
          | nil => simp at hp1
          | cons a' r =>
            obtain ⟨rfl, -⟩ := List.cons_prefix_cons.mp hp1
            by_cases h : a = 48 <;> simp [cur, h]
      · simp [hb0]
    have hb2 : 2 ≤ radix ∧ radix ≤ 36 := by
      rw [← hrad]; split
      · split <;> omega
      · omega
    simp only [hrad]
    obtain ⟨hrep, hlen⟩ := loop_eq N radix hb2.1 hb2.2 hN r1 hs1 ⟨0, false⟩ 0 (rep_zero N)
    have hpr := run_longest radix r1 hs1 hb2.2 digits hp1 hd
    have hrne : run radix r1 ≠ [] := by
      intro h; rw [h] at hpr; simp at hpr; exact hne hpr
    have hS2 : Subject base (sg ++ [] ++ run radix r1) neg radix (run radix r1) := by
      refine .mk sg [] _ neg radix hsg (.inl rfl) ?_ hrne (run_digits radix r1 hs1 hb2.2)
      rw [hradix]
      have : (run radix r1).head? = digits.head? := by
        match digits with
        | [] => exact absurd rfl hne
        | a :: t =>
          cases hrun : run radix r1 with
          | nil => exact absurd hrun hrne
          | cons a' r =>
            rw [hrun] at hpr
            obtain ⟨rfl, -⟩ := List.cons_prefix_cons.mp hpr
            rfl
      rw [← hradix, this]
      exact hradix
    have hle := hmax _ _ _ _ (by
      rw [List.append_nil]
      exact (List.prefix_append_right_inj _).mpr (run_prefix radix r1)) hS2
    have heq : digits = run radix r1 := prefix_eq_of_length hpr (by simp at hle; omega)
    rw [← heq] at hrep hlen
    refine ⟨_, hrep, ?_⟩
    have hpos : digits.length ≠ 0 := by simp [hne]
    simp only [hlen, if_neg hpos, List.length_append]
    congr 1
    omega

/-- Without a subject sequence nothing is consumed. -/
theorem parse_none (N : Nat) (hN : 6 ≤ N) (signed : Bool) (blank r : List Int) (base max : Nat)
    (hbase : base = 0 ∨ (2 ≤ base ∧ base ≤ 36)) (hs : IsString (blank ++ r)) (hb : Blank blank)
    (hr : ∀ c ∈ r.head?, ¬ White c)
    (hno : ∀ w neg radix digits, w <+: r → ¬ Subject base w neg radix digits) :
    ∃ neg acc, Rep N acc 0 ∧ parseint N signed (blank ++ r) base max = finish N signed neg max acc 0 := by
  have hs' : ∀ c ∈ blank ++ r, -128 ≤ c ∧ c ≤ 127 := fun c hc => ⟨(hs c hc).1, (hs c hc).2.1⟩
  obtain ⟨sg, r1, neg, rfl, hsg, h0⟩ := split_sign r
  have hs1 : ∀ c ∈ r1, -128 ≤ c ∧ c ≤ 127 := fun c hc => hs' c (by simp [hc])
  have hhex : ¬ (cur r1 = 48 ∧ (base = 0 ∨ base = 16) ∧ (cur r1.tail = 120 ∨ cur r1.tail = 88)) := by
    rintro ⟨h48, hb16, -⟩
    match r1 with
    | [] => simp [cur] at h48
    | c :: t =>
      have hc : c = 48 := h48
      subst hc
      refine hno (sg ++ [] ++ [48]) neg (if base ≠ 0 then base else 8) [48] ?_
        (.mk sg [] [48] neg _ hsg (.inl rfl) (by simp) (by simp) ?_)
      · rw [List.append_nil]
        exact (List.prefix_append_right_inj _).mpr ((List.prefix_cons_inj _).mpr List.nil_prefix)
      · intro c hc
        simp at hc; subst hc
        exact ⟨0, by decide, by split <;> omega⟩
  have hhd : sg = [] → cur r1 ≠ 43 ∧ cur r1 ≠ 45 ∧ ∀ c ∈ r1.head?, ¬ White c := by
    intro e
    refine ⟨(h0 e).1, (h0 e).2, ?_⟩
    subst e; exact hr
  rw [parse_plain N signed blank sg r1 neg base max hb hsg hhd hs' hhex]
  obtain ⟨radix, hrad⟩ : ∃ radix, radix = (if base = 0 then (if cur r1 = 48 then 8 else 10) else base) := ⟨_, rfl⟩
  have hb2 : 2 ≤ radix ∧ radix ≤ 36 := by
    rw [hrad]; split
    · split <;> omega
    · omega
  simp only [← hrad]
  obtain ⟨hrep, hlen⟩ := loop_eq N radix hb2.1 hb2.2 hN r1 hs1 ⟨0, false⟩ 0 (rep_zero N)
  have hrun : run radix r1 = [] := by
    apply Classical.byContradiction
    intro hne
    refine hno (sg ++ [] ++ run radix r1) neg radix (run radix r1) ?_
      (.mk sg [] _ neg radix hsg (.inl rfl) ?_ hne (run_digits radix r1 hs1 hb2.2))
    · rw [List.append_nil]
      exact (List.prefix_append_right_inj _).mpr (run_prefix radix r1)
    · rw [hrad]
      by_cases hb0 : base = 0
      · simp only [hb0, if_true, ne_eq, not_true_eq_false, if_false]
        rw [hb0] at hrad
        simp only [if_true] at hrad
        rw [← hrad]
        cases hrun : run radix r1 with
        | nil => exact absurd hrun hne
        | cons a t =>
          have hp := run_prefix radix r1
          rw [hrun] at hp
          cases r1 with
          | nil => simp at hp
          | cons a' t' =>
            obtain ⟨rfl, -⟩ := List.cons_prefix_cons.mp hp
            rw [hrad]; by_cases h : a = 48 <;> simp [cur, h]
      · simp [hb0]
  rw [hrun] at hrep hlen
  refine ⟨neg, _, hrep, ?_⟩
  simp only [hlen, List.length_nil, if_true]

end Verif.Strtol
