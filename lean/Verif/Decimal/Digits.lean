import Verif.Decimal.Parse

/-! # The digit loop and the decimal parser (float.h:84-126) -/

namespace Verif.Decimal
open Verif.Strtol Spec

/-- One digit, float.h:103-110. -/
def feed (a : Acc) (c : Int) : Acc :=
  { (if a.consumed < 38 then { a with x := (10 * a.x + dig c) % 2 ^ 128 }
     else if dig c ≠ 0 then { a with x := a.x ||| 1, truncated := true } else a : Acc) with consumed := a.consumed + 1 }

theorem feed_point (a : Acc) (c : Int) : (feed a c).pointed = a.pointed ∧ (feed a c).position = a.position ∧
    (feed a c).consumed = a.consumed + 1 := by
  unfold feed
  split
  · exact ⟨rfl, rfl, rfl⟩
  · split <;> exact ⟨rfl, rfl, rfl⟩

theorem fold_point (ds : List Int) (a : Acc) : (ds.foldl feed a).pointed = a.pointed ∧ (ds.foldl feed a).position = a.position ∧
    (ds.foldl feed a).consumed = a.consumed + ds.length := by
  induction ds generalizing a with
  | nil => exact ⟨rfl, rfl, rfl⟩
  | cons c s ih =>
    rw [List.foldl_cons]
    obtain ⟨h1, h2, h3⟩ := ih (feed a c)
    obtain ⟨g1, g2, g3⟩ := feed_point a c
    exact ⟨h1.trans g1, h2.trans g2, by rw [h3, g3, List.length_cons]; omega⟩

/-- Feeding commutes with noting the point. -/
theorem fold_note (ds : List Int) (a : Acc) (p : Int) (b : Bool) :
    ds.foldl feed { a with position := p, pointed := b } = { ds.foldl feed a with position := p, pointed := b } := by
  induction ds generalizing a with
  | nil => rfl
  | cons c s ih =>
    rw [List.foldl_cons, List.foldl_cons, ← ih]
    have : feed { a with position := p, pointed := b } c = { feed a c with position := p, pointed := b } := by
      unfold feed
      by_cases h : a.consumed < 38
      · rw [if_pos h, if_pos h]
      · rw [if_neg h, if_neg h]
        by_cases g : dig c ≠ 0
        · rw [if_pos g, if_pos g]
        · rw [if_neg g, if_neg g]
    rw [this]

theorem decLoop_digits : ∀ {ds t : List Int} {a : Acc}, Digits ds →
    decLoop (ds ++ t) a = ((decLoop t (ds.foldl feed a)).1, (decLoop t (ds.foldl feed a)).2 + ds.length)
  | [], t, a, _ => rfl
  | c :: ds, t, a, hd => by
    obtain ⟨h1, h2⟩ := digits_cons hd
    rw [List.cons_append, List.foldl_cons, List.length_cons, ← Nat.add_assoc]
    conv => lhs; unfold decLoop
    rw [if_pos ((dig_lt (by omega)).mpr h1)]
    have : ∀ b, b = feed a c → ((decLoop (ds ++ t) b).1, (decLoop (ds ++ t) b).2 + 1) =
        ((decLoop t (ds.foldl feed (feed a c))).1, (decLoop t (ds.foldl feed (feed a c))).2 + ds.length + 1) := by
      rintro b rfl
      rw [decLoop_digits h2]
    exact this _ rfl

theorem decLoop_stop {t : List Int} {a : Acc} (ht : Chars t) (hs : Stops t) (hp : a.pointed = false → cur t ≠ 46) : decLoop t a = (a, 0) := by
  cases t with
  | nil => rfl
  | cons c t =>
    unfold decLoop
    rw [if_neg (by rw [dig_lt (ht c List.mem_cons_self)]; exact hs), if_neg fun h => hp h.2 h.1]

theorem decLoop_dot {t : List Int} {a : Acc} (hp : a.pointed = false) :
    decLoop (46 :: t) a = ((decLoop t { a with position := a.consumed, pointed := true }).1,
      (decLoop t { a with position := a.consumed, pointed := true }).2 + 1) := by
  conv => lhs; unfold decLoop
  rw [if_neg (by decide), if_pos ⟨rfl, hp⟩]

/-- The significant digits of a run. -/
def sig (ds : List Int) : List Int := ds.dropWhile (· = 48)

theorem sig_rep (z : Nat) (ds : List Int) (h : cur ds ≠ 48) : sig (List.replicate z 48 ++ ds) = ds := by
  unfold sig
  induction z with
  | zero =>
    rw [List.replicate_zero, List.nil_append]
    cases ds with
    | nil => rfl
    | cons c s => rw [List.dropWhile_cons_of_neg (by have h : c ≠ 48 := h; simpa using h)]
  | succ z ih => rw [List.replicate_succ, List.cons_append, List.dropWhile_cons_of_pos (by decide), ih]

theorem sig_split (ds : List Int) : ∃ z, ds = List.replicate z 48 ++ sig ds ∧ cur (sig ds) ≠ 48 := by
  obtain ⟨z, ds', e, h⟩ := zeros_split ds
  refine ⟨z, ?_, ?_⟩
  · conv => lhs; rw [e]
    rw [e, sig_rep z ds' h]
  · rw [e, sig_rep z ds' h]; exact h

theorem sig_value (ds : List Int) : value 10 (sig ds) = value 10 ds := by
  obtain ⟨z, e, -⟩ := sig_split ds
  conv => rhs; rw [e]
  rw [value_rep]

/-- The state before any digit. -/
def start : Acc := ⟨0, 0, 0, false, false⟩

/-- The decimal read from digits `D`, of which `places` are after the point, exponent `e` and the string from the first
significant digit on. -/
def decOf (D : List Int) (places : Nat) (e : Int) (s : List Int) : Dec :=
  ⟨(D.foldl feed start).x, D.length - places - min 38 D.length + e, (D.foldl feed start).truncated, s, D.length⟩

/-- The characters of a number from the first significant digit on. -/
def Body (D point s : List Int) : Prop := ∃ a b t, D = a ++ b ∧ s = a ++ (point ++ (b ++ t)) ∧ Digits D

theorem parsedec_steps {s s1 s2 s3 : List Int} {z1 z2 : Nat} {point : Bool} {r : Acc × Nat} {e : Int × Nat} (h1 : zeros s = z1)
    (h2 : s.drop z1 = s1) (h3 : decide (cur s1 = 46) = point) (h4 : (if point then s1.tail else s1) = s2)
    (h5 : (if point then zeros s2 else 0) = z2) (h6 : s2.drop z2 = s3) (h7 : decLoop s3 ⟨0, 0, -z2, point, false⟩ = r)
    (h8 : parseexp 101 (s3.drop r.2) = e) :
    parsedec s = (⟨r.1.x, (if r.1.pointed then r.1.position else r.1.consumed) - min 38 r.1.consumed + e.1, r.1.truncated, s3, r.1.consumed⟩,
      later (later (later (later none z1 z1) z2 (z1 + bit (point = true) + z2)) r.2 (z1 + bit (point = true) + z2 + r.2)) e.2
        (z1 + bit (point = true) + z2 + r.2 + e.2)) := by
  subst h1 h2 h3 h4 h5 h6 h7 h8
  rfl

theorem parsedec_eq {ip point fp ex rest : List Int} {e : Int} (hp : point = [] ∧ fp = [] ∨ point = [46])
    (hi : Digits ip) (hf : Digits fp) (hne : ip ++ fp ≠ []) (he : Exponent ex e) (hr : Chars rest)
    (h1 : ex = [] → Stops rest) (h2 : ex = [] → point = [] → cur rest ≠ 46) (h3 : NoMore ex rest) :
    ∃ s, (∃ pt, (pt = [] ∨ pt = [46]) ∧ Body (sig (ip ++ fp)) pt s) ∧
      parsedec (ip ++ (point ++ (fp ++ (ex ++ rest)))) = (decOf (sig (ip ++ fp)) fp.length (capped e) s,
        some (ip.length + point.length + fp.length + ex.length -
          (if value 10 ip = 0 ∧ point = [46] ∧ fp = [] ∧ ex = [] then 1 else 0))) := by
  have hexr : Stops (ex ++ rest) ∧ (point = [] → cur (ex ++ rest) ≠ 46) := by
    cases he with
    | none => exact ⟨h1 rfl, h2 rfl⟩
    | some c sign ds neg hc hs hne hd =>
      unfold Stops
      rw [List.cons_append]
      show ¬ (48 ≤ c ∧ c ≤ 57) ∧ (_ → c ≠ 46)
      omega
  have hch : Chars (ex ++ rest) := by
    cases he with
    | none => exact hr
    | some c sign ds neg hc hs hne hd =>
      intro x hx
      rw [List.cons_append, List.mem_cons, List.mem_append, List.mem_append] at hx
      rcases hx with rfl | (hx | hx) | hx
      · omega
      · rcases hs with ⟨rfl, -⟩ | ⟨rfl, -⟩ | ⟨rfl, -⟩
        · exact nomatch hx
        · rw [List.mem_singleton] at hx; omega
        · rw [List.mem_singleton] at hx; omega
      · exact digits_chars hd x hx
      · exact hr x hx
  have hpe := parseexp_eq he hr h3
  obtain ⟨z1, ip', rfl, hz1⟩ := zeros_split ip
  have hip' := (digits_append hi).2
  rw [value_rep]
  by_cases hip : ip' = []
  · subst hip
    rw [List.append_nil] at *
    have hrep : ∀ z : Nat, (List.replicate z (48 : Int)).length = z := fun z => List.length_replicate ..
    rcases hp with ⟨rfl, rfl⟩ | rfl
    · -- only zeros, no point
      have hz : z1 ≠ 0 := by rintro rfl; exact hne rfl
      have hD : sig (List.replicate z1 48 ++ []) = [] := sig_rep z1 [] (by decide)
      refine ⟨ex ++ rest, ⟨[], .inl rfl, [], [], ex ++ rest, by rw [hD]; rfl, rfl, by rw [hD]; exact fun _ h => nomatch h⟩, ?_⟩
      have hc46 := hexr.2 rfl
      rw [List.nil_append, List.nil_append, parsedec_steps (zeros_rep (stops_zero hexr.1) z1) (drop_rep ..) (decide_eq_false hc46) rfl rfl rfl
        (decLoop_stop hch hexr.1 fun _ => hc46) hpe, hD]
      unfold decOf later start
      simp only [List.length_nil, List.foldl_nil, hrep]
      refine Prod.ext ?_ ?_
      · simp
      · by_cases hx : ex = []
        · simp [hx, hz]
        · simp [hx, bit]
    · -- zeros and the point
      obtain ⟨z2, fp', rfl, hz2⟩ := zeros_split fp
      have hfp' := (digits_append hf).2
      have hD : sig (List.replicate z1 48 ++ (List.replicate z2 48 ++ fp')) = fp' := by
        rw [← List.append_assoc, List.replicate_append_replicate]
        exact sig_rep _ _ hz2
      have hc : cur (fp' ++ (ex ++ rest)) ≠ 48 := by
        cases fp' with
        | nil => exact stops_zero hexr.1
        | cons c s => exact hz2
      refine ⟨fp' ++ (ex ++ rest), ⟨[], .inl rfl, [], fp', ex ++ rest, by rw [hD]; rfl, rfl, by rw [hD]; exact hfp'⟩, ?_⟩
      have hloop : decLoop (fp' ++ (ex ++ rest)) ⟨0, 0, -z2, true, false⟩ =
          ({ fp'.foldl feed start with position := -(z2 : Int), pointed := true }, fp'.length) := by
        rw [decLoop_digits hfp', decLoop_stop hch hexr.1 (by rw [(fold_point _ _).1]; exact fun h => by cases h), Nat.zero_add, ← fold_note]
        rfl
      rw [List.append_assoc (List.replicate z2 48), parsedec_steps (e := (capped e, ex.length))
        (zeros_rep (show cur ([46] ++ (List.replicate z2 48 ++ (fp' ++ (ex ++ rest)))) ≠ 48 from fun h => absurd (show (46 : Int) = 48 from h) (by decide)) z1) (drop_rep ..)
        (decide_eq_true rfl) rfl (zeros_rep hc z2) (drop_rep ..) hloop
        (show parseexp 101 ((fp' ++ (ex ++ rest)).drop fp'.length) = _ by rw [List.drop_left' rfl]; exact hpe), hD]
      unfold decOf later
      obtain ⟨-, -, k3⟩ := fold_point fp' start
      rw [k3]
      simp only [List.length_append, hrep, List.length_cons, List.length_nil, start]
      refine Prod.ext ?_ ?_
      · simp; omega
      · simp only [bit, if_true, value, List.foldl_nil, true_and]
        by_cases hx : ex = []
        · by_cases hf0 : fp' = []
          · by_cases hz0 : z2 = 0
            · have : z1 ≠ 0 := by
                rintro rfl
                apply hne
                rw [hz0, hf0]; rfl
              simp [hx, hf0, hz0, this]
            · simp [hx, hf0, hz0]
          · have : fp'.length ≠ 0 := fun h => hf0 (List.length_eq_zero_iff.mp h)
            simp [hx, hf0, this]; omega
        · have : ex.length ≠ 0 := fun h => hx (List.length_eq_zero_iff.mp h)
          simp [hx, this]; omega
  · -- a nonzero digit before the point
    have hcur := digits_cur hip' hip
    have hD : sig (List.replicate z1 48 ++ ip' ++ fp) = ip' ++ fp := by
      rw [List.append_assoc]
      exact sig_rep _ _ (by rw [cur_append hip]; exact hz1)
    have hpos : value 10 ip' ≠ 0 := by
      cases ip' with
      | nil => exact absurd rfl hip
      | cons c s =>
        have hc : 48 ≤ c ∧ c ≤ 57 := hcur
        have hc2 : c ≠ 48 := hz1
        rw [value_cons, digitVal10 hc]
        have : 1 * 1 ≤ (c - 48).toNat * 10 ^ s.length := Nat.mul_le_mul (by omega) (Nat.pow_pos (by omega))
        omega
    refine ⟨ip' ++ (point ++ (fp ++ (ex ++ rest))), ⟨point, ?_, ip', fp, ex ++ rest, hD, rfl, ?_⟩, ?_⟩
    · rcases hp with ⟨h, -⟩ | h
      · exact .inl h
      · exact .inr h
    · rw [hD]
      intro c hc
      rcases List.mem_append.mp hc with h | h
      · exact hip' c h
      · exact hf c h
    have hc48 : cur (ip' ++ (point ++ (fp ++ (ex ++ rest)))) ≠ 48 := by rw [cur_append hip]; exact hz1
    have hc46 : cur (ip' ++ (point ++ (fp ++ (ex ++ rest)))) ≠ 46 := by rw [cur_append hip]; omega
    have hl : ip'.length ≠ 0 := fun h => hip (List.length_eq_zero_iff.mp h)
    have hst : (⟨0, 0, -((0 : Nat) : Int), false, false⟩ : Acc) = start := rfl
    obtain ⟨k1, k2, k3⟩ := fold_point ip' start
    have hrep : ∀ z : Nat, (List.replicate z (48 : Int)).length = z := fun z => List.length_replicate ..
    rcases hp with ⟨rfl, rfl⟩ | rfl
    · have hloop : decLoop (ip' ++ ([] ++ ([] ++ (ex ++ rest)))) ⟨0, 0, -((0 : Nat) : Int), false, false⟩ = (ip'.foldl feed start, ip'.length) := by
        rw [hst, decLoop_digits hip', List.nil_append, List.nil_append, decLoop_stop hch hexr.1 fun _ => hexr.2 rfl, Nat.zero_add]
      rw [List.append_assoc, parsedec_steps (e := (capped e, ex.length)) (zeros_rep hc48 z1) (drop_rep ..) (decide_eq_false hc46) rfl rfl rfl hloop
        (show parseexp 101 ((ip' ++ ([] ++ ([] ++ (ex ++ rest)))).drop ip'.length) = _ by rw [List.drop_left' rfl]; exact hpe), hD, List.append_nil, k1, k3]
      unfold decOf later
      simp only [List.length_append, hrep, List.length_nil]
      refine Prod.ext ?_ ?_
      · simp [start]
      · by_cases hx : ex = []
        · simp [hx, hl, bit]
        · have : ex.length ≠ 0 := fun h => hx (List.length_eq_zero_iff.mp h)
          simp [this, bit]
    · have hloop : decLoop (ip' ++ ([46] ++ (fp ++ (ex ++ rest)))) ⟨0, 0, -((0 : Nat) : Int), false, false⟩ =
          ({ (ip' ++ fp).foldl feed start with position := (ip'.length : Int), pointed := true }, fp.length + 1 + ip'.length) := by
        rw [hst, decLoop_digits hip', List.cons_append, List.nil_append, decLoop_dot (by rw [k1]; rfl), decLoop_digits hf,
          decLoop_stop hch hexr.1 (by rw [(fold_point _ _).1]; exact fun h => by cases h), fold_note, ← List.foldl_append, k3]
        simp [start]
      have hdrop : (ip' ++ ([46] ++ (fp ++ (ex ++ rest)))).drop (fp.length + 1 + ip'.length) = ex ++ rest := by
        rw [Nat.add_comm, ← List.drop_drop, List.drop_left' rfl, List.cons_append, List.nil_append, List.drop_succ_cons, List.drop_left' rfl]
      rw [List.append_assoc, parsedec_steps (e := (capped e, ex.length)) (zeros_rep hc48 z1) (drop_rep ..) (decide_eq_false hc46) rfl rfl rfl hloop
        (show parseexp 101 ((ip' ++ ([46] ++ (fp ++ (ex ++ rest)))).drop (fp.length + 1 + ip'.length)) = _ by rw [hdrop]; exact hpe), hD]
      obtain ⟨-, -, k4⟩ := fold_point (ip' ++ fp) start
      rw [k4]
      unfold decOf later
      simp only [List.length_append, hrep, List.length_cons, List.length_nil]
      refine Prod.ext ?_ ?_
      · simp [start]
      · by_cases hx : ex = []
        · simp [hx, hpos, bit]; omega
        · have : ex.length ≠ 0 := fun h => hx (List.length_eq_zero_iff.mp h)
          simp [this, hpos, bit]; omega

end Verif.Decimal
