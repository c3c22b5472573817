import Verif.Decimal.HexSpec
import Verif.Decimal.Whole

/-! # The hexadecimal parser (float.h:47-82) -/

namespace Verif.Decimal
open Verif.Strtol Verif.Float Spec

/-! ### The exponent -/

theorem p_iff {c : Int} (h : -128 ≤ c ∧ c ≤ 127) : u32 c ||| 32 = 112 ↔ c = 112 ∨ c = 80 := by
  have : ∀ n : Nat, n < 256 → (u32 ((n : Int) - 128) ||| 32 = 112 ↔ ((n : Int) - 128 = 112 ∨ (n : Int) - 128 = 80)) := by
    decide +kernel
  have := this (c + 128).toNat (by omega)
  have e : (((c + 128).toNat : Nat) : Int) - 128 = c := by omega
  rw [e] at this
  exact this

/-- A binary exponent part at the start. -/
def BinAhead (s : List Int) : Prop :=
  ∃ c sign d neg, (c = 112 ∨ c = 80) ∧ Sign sign neg ∧ (48 ≤ d ∧ d ≤ 57) ∧ c :: (sign ++ [d]) <+: s

/-- What follows a subject sequence cannot continue it. -/
def NoMoreBin (ex rest : List Int) : Prop := if ex = [] then ¬ BinAhead rest else Stops rest

theorem parsep_cons {c : Int} (hc : c = 112 ∨ c = 80) (t : List Int) : parseexp 112 (c :: t) = parseexp 101 (101 :: t) := by
  unfold parseexp
  rw [if_neg (by rw [Decidable.not_not]; exact (p_iff (show -128 ≤ c ∧ c ≤ 127 by omega)).mpr hc),
    if_neg (by rw [Decidable.not_not]; exact (exp_iff (show -128 ≤ (101 : Int) ∧ (101 : Int) ≤ 127 by omega)).mpr (.inl rfl))]
  rfl

theorem parsep_eq {ex rest : List Int} {e : Int} (he : Binary ex e) (hr : Chars rest) (hn : NoMoreBin ex rest) :
    parseexp 112 (ex ++ rest) = (capped e, ex.length) := by
  cases he with
  | none =>
    rw [List.nil_append]
    unfold NoMoreBin at hn
    rw [if_pos rfl] at hn
    by_cases hc : u32 (cur rest) ||| 32 ≠ 112
    · unfold parseexp
      rw [if_pos hc]; rfl
    · rw [Decidable.not_not, p_iff (cur_char hr)] at hc
      cases rest with
      | nil => exact absurd hc (by decide)
      | cons c t =>
        have hc : c = 112 ∨ c = 80 := hc
        rw [parsep_cons hc]
        have hr' : Chars ((101 : Int) :: t) := fun x hx => by
          rcases List.mem_cons.mp hx with rfl | h
          · omega
          · exact hr x (List.mem_cons_of_mem _ h)
        have := parseexp_eq (rest := 101 :: t) Exponent.none hr' (by
          unfold NoMore
          rw [if_pos rfl]
          rintro ⟨c', sg, d, ng, -, hsg, hd, u, hu⟩
          rw [List.cons_append] at hu
          exact hn ⟨c, sg, d, ng, hc, hsg, hd, u, by rw [List.cons_append, (List.cons.inj hu).2]⟩)
        exact this
  | some c sign ds neg hc hsg hne hd =>
    unfold NoMoreBin at hn
    rw [if_neg (by simp)] at hn
    rw [List.cons_append, parsep_cons hc]
    have := parseexp_eq (Exponent.some 101 sign ds neg (.inl rfl) hsg hne hd) hr (by unfold NoMore; rw [if_neg (by simp)]; exact hn)
    exact this

/-! ### The digits -/

/-- No hexadecimal digit follows. -/
def HexStops (t : List Int) : Prop := ¬ IsDigit 16 (cur t)

theorem hex16 (c : Int) : IsDigit 16 c ↔ (48 ≤ c ∧ c ≤ 57) ∨ (97 ≤ c ∧ c ≤ 102) ∨ (65 ≤ c ∧ c ≤ 70) := by
  unfold IsDigit digitVal
  constructor
  · rintro ⟨d, h, hd⟩
    split at h
    · exact .inl (by assumption)
    · split at h
      · have := Option.some.inj h; omega
      · split at h
        · have := Option.some.inj h; omega
        · cases h
  · intro h
    by_cases h1 : 48 ≤ c ∧ c ≤ 57
    · rw [if_pos h1]; exact ⟨_, rfl, by omega⟩
    · rw [if_neg h1]
      by_cases h2 : 97 ≤ c ∧ c ≤ 122
      · rw [if_pos h2]; exact ⟨_, rfl, by omega⟩
      · rw [if_neg h2, if_pos (by omega)]; exact ⟨_, rfl, by omega⟩

theorem hexdigits_cons {c : Int} {s : List Int} (h : HexDigits (c :: s)) : IsDigit 16 c ∧ HexDigits s :=
  ⟨h c List.mem_cons_self, fun x hx => h x (List.mem_cons_of_mem _ hx)⟩

theorem hexdigits_append {s t : List Int} (h : HexDigits (s ++ t)) : HexDigits s ∧ HexDigits t :=
  ⟨fun c hc => h c (List.mem_append_left _ hc), fun c hc => h c (List.mem_append_right _ hc)⟩

theorem hexdigits_cur {s : List Int} (h : HexDigits s) (hne : s ≠ []) : IsDigit 16 (cur s) := by
  cases s with
  | nil => exact absurd rfl hne
  | cons c s => exact (hexdigits_cons h).1

theorem hexstops_zero {t : List Int} (h : HexStops t) : cur t ≠ 48 := by
  unfold HexStops at h
  rw [hex16] at h
  omega

/-- The value of a hexadecimal digit. -/
def hexVal (c : Int) : Nat := (digitVal c).getD 0

theorem hexVal_lt {c : Int} (h : IsDigit 16 c) : hexVal c < 16 := by
  obtain ⟨d, h1, h2⟩ := h
  unfold hexVal
  rw [h1]; exact h2

theorem digit_hex {c : Int} (h : IsDigit 16 c) : digit c = hexVal c := by
  have hc := (hex16 c).mp h
  rw [digit_eq c (by omega)]
  obtain ⟨d, h1, h2⟩ := h
  unfold hexVal
  rw [h1]; rfl

theorem digit_lt16 {c : Int} (h : -128 ≤ c ∧ c ≤ 127) : digit c < 16 ↔ IsDigit 16 c := digit_lt c h 16 (by omega)

/-- One digit, float.h:68-69. -/
def hexFeed (cap : Nat) (a : Acc) (c : Int) : Acc :=
  { a with x := a.x * 2 ^ (4 * bit (a.consumed < cap)) % 2 ^ (4 * cap) ||| digit c, consumed := a.consumed + 1 }

theorem hexFold_point (cap : Nat) (ds : List Int) (a : Acc) : (ds.foldl (hexFeed cap) a).pointed = a.pointed ∧
    (ds.foldl (hexFeed cap) a).position = a.position ∧ (ds.foldl (hexFeed cap) a).consumed = a.consumed + ds.length := by
  induction ds generalizing a with
  | nil => exact ⟨rfl, rfl, rfl⟩
  | cons c s ih =>
    rw [List.foldl_cons]
    obtain ⟨h1, h2, h3⟩ := ih (hexFeed cap a c)
    exact ⟨h1, h2, by rw [h3, List.length_cons]; show a.consumed + 1 + _ = _; omega⟩

theorem hexFold_note (cap : Nat) (ds : List Int) (a : Acc) (p : Int) (b : Bool) :
    ds.foldl (hexFeed cap) { a with position := p, pointed := b } = { ds.foldl (hexFeed cap) a with position := p, pointed := b } := by
  induction ds generalizing a with
  | nil => rfl
  | cons c s ih =>
    rw [List.foldl_cons, List.foldl_cons, ← ih]
    rfl

theorem hexLoop_digits (cap : Nat) : ∀ {ds t : List Int} {a : Acc}, HexDigits ds →
    hexLoop cap (ds ++ t) a = ((hexLoop cap t (ds.foldl (hexFeed cap) a)).1, (hexLoop cap t (ds.foldl (hexFeed cap) a)).2 + ds.length)
  | [], t, a, _ => rfl
  | c :: ds, t, a, hd => by
    obtain ⟨h1, h2⟩ := hexdigits_cons hd
    rw [List.cons_append, List.foldl_cons, List.length_cons, ← Nat.add_assoc]
    conv => lhs; unfold hexLoop
    rw [if_pos ((digit_lt16 (by have := (hex16 c).mp h1; omega)).mpr h1)]
    have : ∀ b, b = hexFeed cap a c → ((hexLoop cap (ds ++ t) b).1, (hexLoop cap (ds ++ t) b).2 + 1) =
        ((hexLoop cap t (ds.foldl (hexFeed cap) (hexFeed cap a c))).1, (hexLoop cap t (ds.foldl (hexFeed cap) (hexFeed cap a c))).2 + ds.length + 1) := by
      rintro b rfl
      rw [hexLoop_digits cap h2]
    exact this _ rfl

theorem hexLoop_stop (cap : Nat) {t : List Int} {a : Acc} (ht : Chars t) (hs : HexStops t) (hp : a.pointed = false → cur t ≠ 46) :
    hexLoop cap t a = (a, 0) := by
  cases t with
  | nil => rfl
  | cons c t =>
    unfold hexLoop
    rw [if_neg (by rw [digit_lt16 (ht c List.mem_cons_self)]; exact hs), if_neg fun h => hp h.2 h.1]

theorem hexLoop_dot (cap : Nat) {t : List Int} {a : Acc} (hp : a.pointed = false) :
    hexLoop cap (46 :: t) a = ((hexLoop cap t { a with position := a.consumed, pointed := true }).1,
      (hexLoop cap t { a with position := a.consumed, pointed := true }).2 + 1) := by
  conv => lhs; unfold hexLoop
  rw [if_neg (by decide), if_pos ⟨rfl, hp⟩]

theorem sig_value16 (ds : List Int) : value 16 (sig ds) = value 16 ds := by
  obtain ⟨z, e, -⟩ := sig_split ds
  conv => rhs; rw [e]
  rw [value_rep]

/-- What is passed to `ldexp` for the digits `D`, of which `places` are after the point, and the exponent `e`. -/
def hexOf (cap : Nat) (D : List Int) (places : Nat) (e : Int) : Nat × Int :=
  ((D.foldl (hexFeed cap) start).x, 4 * ((D.length : Int) - places - min cap D.length) + e)

theorem parsehex_steps (S : Scalar) {s t s1 s2 s3 : List Int} {z1 z2 : Nat} {point : Bool} {r : Acc × Nat} {e : Int × Nat} (h0 : s.tail.tail = t)
    (h1 : zeros t = z1) (h2 : t.drop z1 = s1) (h3 : decide (cur s1 = 46) = point) (h4 : (if point then s1.tail else s1) = s2)
    (h5 : (if point then zeros s2 else 0) = z2) (h6 : s2.drop z2 = s3) (h7 : hexLoop S.capacity s3 ⟨0, 0, -z2, point, false⟩ = r)
    (h8 : parseexp 112 (s3.drop r.2) = e) :
    parsehex S s = (S.ofHex r.1.x (4 * ((if r.1.pointed then r.1.position else r.1.consumed) - min S.capacity r.1.consumed) + e.1),
      later (later (later (later (some 1) z1 (2 + z1)) z2 (2 + z1 + bit (point = true) + z2)) r.2 (2 + z1 + bit (point = true) + z2 + r.2)) e.2
        (2 + z1 + bit (point = true) + z2 + r.2 + e.2)) := by
  subst h0 h1 h2 h3 h4 h5 h6 h7 h8
  rfl

theorem parsehex_eq (S : Scalar) {x : Int} {ip point fp ex rest : List Int} {e : Int} (hp : point = [] ∧ fp = [] ∨ point = [46])
    (hi : HexDigits ip) (hf : HexDigits fp) (hne : ip ++ fp ≠ []) (he : Binary ex e) (hr : Chars rest)
    (h1 : ex = [] → HexStops rest) (h2 : ex = [] → point = [] → cur rest ≠ 46) (h3 : NoMoreBin ex rest) :
    parsehex S (48 :: x :: (ip ++ (point ++ (fp ++ (ex ++ rest))))) =
      (S.ofHex (hexOf S.capacity (sig (ip ++ fp)) fp.length (capped e)).1 (hexOf S.capacity (sig (ip ++ fp)) fp.length (capped e)).2,
        some (2 + ip.length + point.length + fp.length + ex.length -
          (if value 16 ip = 0 ∧ point = [46] ∧ fp = [] ∧ ex = [] then 1 else 0))) := by
  have htl : ∀ l : List Int, (48 :: x :: l).tail.tail = l := fun _ => rfl
  have hexr : HexStops (ex ++ rest) ∧ (point = [] → cur (ex ++ rest) ≠ 46) := by
    cases he with
    | none => exact ⟨h1 rfl, h2 rfl⟩
    | some c sign ds neg hc hs hne hd =>
      unfold HexStops
      rw [List.cons_append]
      show ¬ IsDigit 16 c ∧ (_ → c ≠ 46)
      rw [hex16]
      omega
  have hch : Chars (ex ++ rest) := by
    cases he with
    | none => exact hr
    | some c sign ds neg hc hs hne hd =>
      intro x hx
      rw [List.cons_append, List.mem_cons, List.mem_append, List.mem_append] at hx
      rcases hx with rfl | (hx | hx) | hx
      · omega
      · rcases hs with ⟨rfl, -⟩ | ⟨rfl, -⟩ | ⟨rfl, -⟩
        · exact nomatch hx
        · rw [List.mem_singleton] at hx; omega
        · rw [List.mem_singleton] at hx; omega
      · exact digits_chars hd x hx
      · exact hr x hx
  have hpe := parsep_eq he hr h3
  obtain ⟨z1, ip', rfl, hz1⟩ := zeros_split ip
  have hip' := (hexdigits_append hi).2
  rw [value_rep]
  by_cases hip : ip' = []
  · subst hip
    rw [List.append_nil] at *
    have hrep : ∀ z : Nat, (List.replicate z (48 : Int)).length = z := fun z => List.length_replicate ..
    rcases hp with ⟨rfl, rfl⟩ | rfl
    · -- only zeros, no point
      have hz : z1 ≠ 0 := by rintro rfl; exact hne rfl
      have hD : sig (List.replicate z1 48 ++ []) = [] := sig_rep z1 [] (by decide)
      have hc46 := hexr.2 rfl
      rw [List.nil_append, List.nil_append, parsehex_steps S (htl _) (zeros_rep (hexstops_zero hexr.1) z1) (drop_rep ..) (decide_eq_false hc46) rfl rfl rfl
        (hexLoop_stop S.capacity hch hexr.1 fun _ => hc46) hpe, hD]
      unfold hexOf later start
      simp only [List.length_nil, List.foldl_nil, hrep]
      refine Prod.ext ?_ ?_
      · simp
      · by_cases hx : ex = []
        · simp [hx, hz]
        · simp [hx, bit]
    · -- zeros and the point
      obtain ⟨z2, fp', rfl, hz2⟩ := zeros_split fp
      have hfp' := (hexdigits_append hf).2
      have hD : sig (List.replicate z1 48 ++ (List.replicate z2 48 ++ fp')) = fp' := by
        rw [← List.append_assoc, List.replicate_append_replicate]
        exact sig_rep _ _ hz2
      have hc : cur (fp' ++ (ex ++ rest)) ≠ 48 := by
        cases fp' with
        | nil => exact hexstops_zero hexr.1
        | cons c s => exact hz2
      have hloop : hexLoop S.capacity (fp' ++ (ex ++ rest)) ⟨0, 0, -z2, true, false⟩ =
          ({ fp'.foldl (hexFeed S.capacity) start with position := -(z2 : Int), pointed := true }, fp'.length) := by
        rw [hexLoop_digits _ hfp', hexLoop_stop _ hch hexr.1 (by rw [(hexFold_point _ _ _).1]; exact fun h => by cases h), Nat.zero_add, ← hexFold_note]
        rfl
      rw [List.append_assoc (List.replicate z2 48), parsehex_steps S (e := (capped e, ex.length)) (htl _)
        (zeros_rep (show cur ([46] ++ (List.replicate z2 48 ++ (fp' ++ (ex ++ rest)))) ≠ 48 from fun h => absurd (show (46 : Int) = 48 from h) (by decide)) z1) (drop_rep ..)
        (decide_eq_true rfl) rfl (zeros_rep hc z2) (drop_rep ..) hloop
        (show parseexp 112 ((fp' ++ (ex ++ rest)).drop fp'.length) = _ by rw [List.drop_left' rfl]; exact hpe), hD]
      unfold hexOf later
      obtain ⟨-, -, k3⟩ := hexFold_point S.capacity fp' start
      rw [k3]
      simp only [List.length_append, hrep, List.length_cons, List.length_nil, start]
      refine Prod.ext ?_ ?_
      · simp; congr 1; omega
      · simp only [bit, if_true, value, List.foldl_nil, true_and]
        by_cases hx : ex = []
        · by_cases hf0 : fp' = []
          · by_cases hz0 : z2 = 0
            · have : z1 ≠ 0 := by
                rintro rfl
                apply hne
                rw [hz0, hf0]; rfl
              simp [hx, hf0, hz0, this]
            · simp [hx, hf0, hz0]
          · have : fp'.length ≠ 0 := fun h => hf0 (List.length_eq_zero_iff.mp h)
            simp [hx, hf0, this]; omega
        · have : ex.length ≠ 0 := fun h => hx (List.length_eq_zero_iff.mp h)
          simp [hx, this]; omega
  · -- a nonzero digit before the point
    have hcur := hexdigits_cur hip' hip
    have hD : sig (List.replicate z1 48 ++ ip' ++ fp) = ip' ++ fp := by
      rw [List.append_assoc]
      exact sig_rep _ _ (by rw [cur_append hip]; exact hz1)
    have hpos : value 16 ip' ≠ 0 := by
      cases ip' with
      | nil => exact absurd rfl hip
      | cons c s =>
        have hc : IsDigit 16 c := hcur
        have hc2 : c ≠ 48 := hz1
        rw [value_cons]
        have hv : 1 ≤ (digitVal c).getD 0 := by
          unfold digitVal
          have := (hex16 c).mp hc
          split
          · show 1 ≤ (c - 48).toNat; omega
          · split
            · show 1 ≤ (c - 87).toNat; omega
            · split
              · show 1 ≤ (c - 55).toNat; omega
              · omega
        have : 1 * 1 ≤ (digitVal c).getD 0 * 16 ^ s.length := Nat.mul_le_mul hv (Nat.pow_pos (by omega))
        omega
    have hc48 : cur (ip' ++ (point ++ (fp ++ (ex ++ rest)))) ≠ 48 := by rw [cur_append hip]; exact hz1
    have hc46 : cur (ip' ++ (point ++ (fp ++ (ex ++ rest)))) ≠ 46 := by rw [cur_append hip]; have := (hex16 _).mp hcur; omega
    have hl : ip'.length ≠ 0 := fun h => hip (List.length_eq_zero_iff.mp h)
    have hst : (⟨0, 0, -((0 : Nat) : Int), false, false⟩ : Acc) = start := rfl
    obtain ⟨k1, k2, k3⟩ := hexFold_point S.capacity ip' start
    have hrep : ∀ z : Nat, (List.replicate z (48 : Int)).length = z := fun z => List.length_replicate ..
    rcases hp with ⟨rfl, rfl⟩ | rfl
    · have hloop : hexLoop S.capacity (ip' ++ ([] ++ ([] ++ (ex ++ rest)))) ⟨0, 0, -((0 : Nat) : Int), false, false⟩ = (ip'.foldl (hexFeed S.capacity) start, ip'.length) := by
        rw [hst, hexLoop_digits _ hip', List.nil_append, List.nil_append, hexLoop_stop _ hch hexr.1 fun _ => hexr.2 rfl, Nat.zero_add]
      rw [List.append_assoc, parsehex_steps S (e := (capped e, ex.length)) (htl _) (zeros_rep hc48 z1) (drop_rep ..) (decide_eq_false hc46) rfl rfl rfl hloop
        (show parseexp 112 ((ip' ++ ([] ++ ([] ++ (ex ++ rest)))).drop ip'.length) = _ by rw [List.drop_left' rfl]; exact hpe), hD, List.append_nil, k1, k3]
      unfold hexOf later
      simp only [List.length_append, hrep, List.length_nil]
      refine Prod.ext ?_ ?_
      · simp [start]
      · by_cases hx : ex = []
        · simp [hx, hl, bit]; omega
        · have : ex.length ≠ 0 := fun h => hx (List.length_eq_zero_iff.mp h)
          simp [this, bit]; omega
    · have hloop : hexLoop S.capacity (ip' ++ ([46] ++ (fp ++ (ex ++ rest)))) ⟨0, 0, -((0 : Nat) : Int), false, false⟩ =
          ({ (ip' ++ fp).foldl (hexFeed S.capacity) start with position := (ip'.length : Int), pointed := true }, fp.length + 1 + ip'.length) := by
        rw [hst, hexLoop_digits _ hip', List.cons_append, List.nil_append, hexLoop_dot _ (by rw [k1]; rfl), hexLoop_digits _ hf,
          hexLoop_stop _ hch hexr.1 (by rw [(hexFold_point _ _ _).1]; exact fun h => by cases h), hexFold_note, ← List.foldl_append, k3]
        simp [start]
      have hdrop : (ip' ++ ([46] ++ (fp ++ (ex ++ rest)))).drop (fp.length + 1 + ip'.length) = ex ++ rest := by
        rw [Nat.add_comm, ← List.drop_drop, List.drop_left' rfl, List.cons_append, List.nil_append, List.drop_succ_cons, List.drop_left' rfl]
      rw [List.append_assoc, parsehex_steps S (e := (capped e, ex.length)) (htl _) (zeros_rep hc48 z1) (drop_rep ..) (decide_eq_false hc46) rfl rfl rfl hloop
        (show parseexp 112 ((ip' ++ ([46] ++ (fp ++ (ex ++ rest)))).drop (fp.length + 1 + ip'.length)) = _ by rw [hdrop]; exact hpe), hD]
      obtain ⟨-, -, k4⟩ := hexFold_point S.capacity (ip' ++ fp) start
      rw [k4]
      unfold hexOf later
      simp only [List.length_append, hrep, List.length_cons, List.length_nil]
      refine Prod.ext ?_ ?_
      · simp [start]
      · by_cases hx : ex = []
        · simp [hx, hpos, bit]; omega
        · have : ex.length ≠ 0 := fun h => hx (List.length_eq_zero_iff.mp h)
          simp [this, hpos, bit]; omega

/-! ### What follows the longest subject sequence -/

theorem hex_follow {sign pre ip point fp ex rest : List Int} {neg : Bool} {e : Int} (hs : Sign sign neg) (hx : pre = [48, 120] ∨ pre = [48, 88])
    (hp : point = [] ∧ fp = [] ∨ point = [46]) (hi : HexDigits ip) (hf : HexDigits fp) (hne : ip ++ fp ≠ []) (he : Binary ex e)
    (hmax : ∀ w' neg' n' t', w' <+: sign ++ (pre ++ (ip ++ (point ++ (fp ++ (ex ++ rest))))) → HexSubject w' neg' n' t' →
      w'.length ≤ (sign ++ (pre ++ (ip ++ (point ++ (fp ++ ex))))).length) :
    (ex = [] → HexStops rest) ∧ (ex = [] → point = [] → cur rest ≠ 46) ∧ NoMoreBin ex rest := by
  refine ⟨?_, ?_, ?_⟩
  · rintro rfl hd
    cases rest with
    | nil => rw [hex16] at hd; exact absurd hd (by decide)
    | cons c t =>
      have hd : IsDigit 16 c := hd
      rcases hp with ⟨rfl, rfl⟩ | rfl
      · have S := HexSubject.mk sign pre (ip ++ [c]) [] [] [] neg 0 hs hx (.inl ⟨rfl, rfl⟩)
          (fun x hx => by
            rcases List.mem_append.mp hx with h | h
            · exact hi x h
            · rw [List.mem_singleton.mp h]; exact hd) (fun _ h => nomatch h) (by simp) .none
        have := hmax _ _ _ _ (⟨t, by simp⟩) S
        simp at this; omega
      · have S := HexSubject.mk sign pre ip [46] (fp ++ [c]) [] neg 0 hs hx (.inr rfl) hi
          (fun x hx => by
            rcases List.mem_append.mp hx with h | h
            · exact hf x h
            · rw [List.mem_singleton.mp h]; exact hd) (by simp) .none
        have := hmax _ _ _ _ (⟨t, by simp⟩) S
        simp at this; omega
  · rintro rfl rfl hd
    cases rest with
    | nil => exact absurd hd (by decide)
    | cons c t =>
      have hd : c = 46 := hd
      subst hd
      have hf0 : fp = [] := by
        rcases hp with ⟨-, h⟩ | h
        · exact h
        · cases h
      subst hf0
      have S := HexSubject.mk sign pre ip [46] [] [] neg 0 hs hx (.inr rfl) hi (fun _ h => nomatch h) hne .none
      have := hmax _ _ _ _ (⟨t, by simp⟩) S
      simp at this; omega
  · unfold NoMoreBin
    cases he with
    | none =>
      rw [if_pos rfl]
      rintro ⟨c, sg, d, ng, hc, hsg, hd, t, ht⟩
      have S := HexSubject.mk sign pre ip point fp (c :: (sg ++ [d])) neg _ hs hx hp hi hf hne
        (.some c sg [d] ng hc hsg (by simp) (fun x hx => by rw [List.mem_singleton.mp hx]; exact (digit10 d).mpr hd))
      have := hmax _ _ _ _ (⟨t, by rw [← ht]; simp⟩) S
      simp at this; omega
    | some c sg ds ng hc hsg hdn hd =>
      rw [if_neg (by simp)]
      intro hst
      cases rest with
      | nil => exact absurd hst (by decide)
      | cons d t =>
        have hst : 48 ≤ d ∧ d ≤ 57 := hst
        have S := HexSubject.mk sign pre ip point fp (c :: (sg ++ (ds ++ [d]))) neg _ hs hx hp hi hf hne
          (.some c sg (ds ++ [d]) ng hc hsg (by simp) (fun x hx => by
            rcases List.mem_append.mp hx with h | h
            · exact hd x h
            · rw [List.mem_singleton.mp h]; exact (digit10 d).mpr hst))
        have := hmax _ _ _ _ (⟨t, by simp⟩) S
        simp at this; omega

/-! ### Dispatch -/

theorem magnitude_hex (S : Scalar) {x : Int} (s : List Int) (k : Nat) (hx : x = 120 ∨ x = 88) :
    magnitude S (48 :: x :: s) k = (parsehex S (48 :: x :: s)).1.bind fun finite =>
      some ⟨finite, (match (parsehex S (48 :: x :: s)).2 with | some n => k + n | none => 0), finite = S.fmt.inf⟩ := by
  obtain ⟨n1, n2⟩ := not_name (c := 48) (.inl (by omega))
  have m1 : ∀ ts, matched (48 :: x :: s) (105 :: ts) = 0 := fun ts => by unfold matched; exact if_neg n1
  have m2 : ∀ ts, matched (48 :: x :: s) (110 :: ts) = 0 := fun ts => by unfold matched; exact if_neg n2
  unfold magnitude
  rw [m1, m2]
  simp only [if_neg (show ¬ 3 ≤ 0 by decide), if_neg (show ¬ 0 = 3 by decide)]
  rw [if_pos ⟨rfl, (hex_iff x (by omega)).mpr hx⟩]
  rfl

theorem parse_hex (S : Scalar) {blank r w : List Int} {neg : Bool} {n : Nat} {t : Int} (hc : IsString (blank ++ r)) (hb : Blank blank)
    (hr : ∀ c ∈ r.head?, ¬ White c) (hL : HexLongest r w neg n t) :
    ∃ sign pre ip point fp ex e, w = sign ++ (pre ++ (ip ++ (point ++ (fp ++ ex)))) ∧ Sign sign neg ∧ (pre = [48, 120] ∨ pre = [48, 88]) ∧
      HexDigits ip ∧ HexDigits fp ∧ Binary ex e ∧
      (point = [] ∧ fp = [] ∨ point = [46]) ∧ n = value 16 (ip ++ fp) ∧ t = e - 4 * fp.length ∧
      parsefloat S (blank ++ r) = (S.ofHex (hexOf S.capacity (sig (ip ++ fp)) fp.length (capped e)).1
          (hexOf S.capacity (sig (ip ++ fp)) fp.length (capped e)).2).bind fun finite =>
        some ⟨S.fmt.pack neg (S.fmt.abs finite), blank.length + w.length -
          (if value 16 ip = 0 ∧ point = [46] ∧ fp = [] ∧ ex = [] then 1 else 0), finite = S.fmt.inf⟩ := by
  obtain ⟨⟨rest, rfl⟩, hS, hmax⟩ := hL
  obtain ⟨sign, pre, ip, point, fp, ex, neg, e, hs, hx, hp, hi, hf, hne, he⟩ := hS
  have hch : Chars (blank ++ (sign ++ (pre ++ (ip ++ (point ++ (fp ++ ex)))) ++ rest)) := fun c h => ⟨(hc c h).1, (hc c h).2.1⟩
  have hsk := skip_eq blank _ hb hr hch
  simp only [List.append_assoc] at hmax hch hsk ⊢
  have hrest : Chars rest := fun c h => hch c (by simp [h])
  obtain ⟨f1, f2, f3⟩ := hex_follow hs hx hp hi hf hne he hmax
  refine ⟨sign, pre, ip, point, fp, ex, e, rfl, hs, hx, hi, hf, he, hp, rfl, rfl, ?_⟩
  obtain ⟨y, hy, rfl⟩ : ∃ y, (y = 120 ∨ y = 88) ∧ pre = [48, y] := by
    rcases hx with h | h
    · exact ⟨120, .inl rfl, h⟩
    · exact ⟨88, .inr rfl, h⟩
  have hpd := parsehex_eq S (x := y) hp hi hf hne he hrest f1 f2 f3
  have happ : ∀ l : List Int, [48, y] ++ l = 48 :: y :: l := fun _ => rfl
  rw [happ] at hsk ⊢
  rw [parsefloat_eq S hs (by exact ⟨show (48 : Int) ≠ 43 by decide, show (48 : Int) ≠ 45 by decide⟩) hsk, magnitude_hex S _ _ hy, hpd]
  rw [Option.bind_assoc]
  simp only [Option.bind_some]
  congr 1
  funext finite
  congr 2
  have : (if value 16 ip = 0 ∧ point = [46] ∧ fp = [] ∧ ex = [] then 1 else 0) ≤ point.length := by
    split
    · rename_i h; rw [h.2.1]; exact Nat.le_refl _
    · omega
  simp only [List.length_append, List.length_cons, List.length_nil]
  omega

end Verif.Decimal
