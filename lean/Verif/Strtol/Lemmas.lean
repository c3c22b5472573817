import Verif.Strtol.Model
import Verif.Strtol.Spec
import Verif.Ctype.Lemmas

/-!
# Correctness of `parseint_`
-/

namespace Verif.Strtol

theorem digit_table : ∀ n : Nat, n < 256 → digit ((n : Int) - 128) = (digitVal ((n : Int) - 128)).getD 4294967295 := by
  decide +kernel

theorem digit_eq (c : Int) (h : -128 ≤ c ∧ c ≤ 127) : digit c = (digitVal c).getD 4294967295 := by
  have := digit_table (c + 128).toNat (by omega)
  have e : (((c + 128).toNat : Nat) : Int) - 128 = c := by omega
  rw [e] at this
  exact this

theorem digit_lt (c : Int) (h : -128 ≤ c ∧ c ≤ 127) (b : Nat) (hb : b ≤ 36) :
    digit c < b ↔ IsDigit b c := by
  rw [digit_eq c h]
  unfold IsDigit
  cases hd : digitVal c with
  | none => simp; omega
  | some d => simp

theorem digit_val (c : Int) (h : -128 ≤ c ∧ c ≤ 127) (b : Nat) (hd : IsDigit b c) :
    digit c = (digitVal c).getD 0 := by
  rw [digit_eq c h]
  obtain ⟨d, e, _⟩ := hd
  rw [e]; rfl

/-- One more digit: the wrap-around tests detect exactly the overflow. -/
theorem step_ok (M b v d : Nat) (hb : 0 < b) (hd : d < b) (hbM : b ≤ M) (hv : v < M) :
    ((decide ((M - 1) / b < v) || decide ((v * b + d) % M < d)) = false →
      v * b + d < M ∧ (v * b + d) % M = v * b + d) ∧
    ((decide ((M - 1) / b < v) || decide ((v * b + d) % M < d)) = true → M ≤ v * b + d) := by
  constructor
  · intro h
    simp only [Bool.or_eq_false_iff, decide_eq_false_iff_not, Nat.not_lt] at h
    obtain ⟨h1, h2⟩ := h
    have h3 : v * b ≤ M - 1 := Nat.le_trans (Nat.mul_le_mul_right b h1) (Nat.div_mul_le_self _ _)
    by_cases hlt : v * b + d < M
    · exact ⟨hlt, Nat.mod_eq_of_lt hlt⟩
    · exfalso
      rw [Nat.mod_eq_sub_mod (by omega), Nat.mod_eq_of_lt (by omega)] at h2
      omega
  · intro h
    simp only [Bool.or_eq_true, decide_eq_true_eq] at h
    rcases h with h | h
    · have := (Nat.div_lt_iff_lt_mul hb).mp h
      omega
    · by_cases hlt : v * b + d < M
      · rw [Nat.mod_eq_of_lt hlt] at h; omega
      · omega

/-- The accumulator represents `v`. -/
def Rep (N : Nat) (a : Acc) (v : Nat) : Prop :=
  (a.overflow = false → a.magnitude = v ∧ v < 2 ^ N) ∧ (a.overflow = true → 2 ^ N ≤ v)

/-- The longest run of digits at the start. -/
def run (b : Nat) : List Int → List Int
  | [] => []
  | c :: s => if digit c < b then c :: run b s else []

theorem run_prefix (b : Nat) (s : List Int) : run b s <+: s := by
  induction s with
  | nil => exact List.prefix_refl _
  | cons c s ih =>
    unfold run
    split
    · exact (List.prefix_cons_inj c).mpr ih
    · exact List.nil_prefix

theorem run_digits (b : Nat) (s : List Int) (hs : ∀ c ∈ s, -128 ≤ c ∧ c ≤ 127) (hb : b ≤ 36) :
    ∀ c ∈ run b s, IsDigit b c := by
  induction s with
  | nil => intro c hc; simp [run] at hc
  | cons c s ih =>
    unfold run
    split
    · intro x hx
      simp only [List.mem_cons] at hx
      rcases hx with rfl | hx
      · exact (digit_lt x (hs x (by simp)) b hb).mp ‹_›
      · exact ih (fun c hc => hs c (by simp [hc])) x hx
    · intro x hx; simp at hx

theorem run_longest (b : Nat) (s : List Int) (hs : ∀ c ∈ s, -128 ≤ c ∧ c ≤ 127) (hb : b ≤ 36)
    (d : List Int) (hd : d <+: s) (hdd : ∀ c ∈ d, IsDigit b c) : d <+: run b s := by
  induction s generalizing d with
  | nil => simpa [run] using hd
  | cons c s ih =>
    cases d with
    | nil => exact List.nil_prefix
    | cons x d =>
      obtain ⟨rfl, hd'⟩ := List.cons_prefix_cons.mp hd
      unfold run
      rw [if_pos ((digit_lt x (hs x (by simp)) b hb).mpr (hdd x (by simp)))]
      exact (List.prefix_cons_inj x).mpr (ih (fun c hc => hs c (by simp [hc])) d hd' (fun c hc => hdd c (by simp [hc])))

theorem loop_eq (N b : Nat) (hb1 : 2 ≤ b) (hb2 : b ≤ 36) (hN : 6 ≤ N) (s : List Int) (hs : ∀ c ∈ s, -128 ≤ c ∧ c ≤ 127)
    (a : Acc) (v : Nat) (ha : Rep N a v) :
    Rep N (digitLoop N b ((2 ^ N - 1) / b) s a).1
      ((run b s).foldl (fun v c => v * b + (digitVal c).getD 0) v) ∧
    (digitLoop N b ((2 ^ N - 1) / b) s a).2 = (run b s).length := by
  have hM : 64 ≤ 2 ^ N := Nat.le_trans (by decide : 64 ≤ 2 ^ 6) (Nat.pow_le_pow_right (by decide) hN)
  induction s generalizing a v with
  | nil => exact ⟨ha, rfl⟩
  | cons c s ih =>
    unfold digitLoop run
    by_cases hc : digit c < b
    · rw [if_pos hc, if_pos hc]
      have hdig := (digit_lt c (hs c (by simp)) b hb2).mp hc
      have hval := digit_val c (hs c (by simp)) b hdig
      simp only [List.foldl_cons, List.length_cons]
      have := ih (fun c hc => hs c (by simp [hc]))
        ⟨(a.magnitude * b + digit c) % 2 ^ N, a.overflow || decide ((2 ^ N - 1) / b < a.magnitude) ||
          decide ((a.magnitude * b + digit c) % 2 ^ N < digit c)⟩ (v * b + (digitVal c).getD 0) (by
          rw [← hval]
          unfold Rep at ha ⊢
          generalize digit c = d at *
          generalize 2 ^ N = M at *
          obtain ⟨a1, a2⟩ := ha
          constructor
          · intro h
            simp only [Bool.or_assoc, Bool.or_eq_false_iff] at h
            obtain ⟨h1, h2⟩ := h
            obtain ⟨e, hv⟩ := a1 h1
            rw [e] at h2 ⊢
            obtain ⟨s1, -⟩ := step_ok M b v d (by omega) hc (by omega) hv
            obtain ⟨l1, l2⟩ := s1 (by simpa using h2)
            exact ⟨l2, l1⟩
          · intro h
            simp only [Bool.or_assoc, Bool.or_eq_true] at h
            by_cases ho : a.overflow = true
            · have := a2 ho
              have : v * 1 ≤ v * b := Nat.mul_le_mul_left v (by omega)
              omega
            · have ho' : a.overflow = false := by simpa using ho
              obtain ⟨e, hv⟩ := a1 ho'
              rw [e] at h
              obtain ⟨-, s2⟩ := step_ok M b v d (by omega) hc (by omega) hv
              exact s2 (by rcases h with h | h; exact absurd h ho; simpa using h))
      exact ⟨this.1, by rw [this.2]⟩
    · rw [if_neg hc, if_neg hc]
      exact ⟨ha, rfl⟩

theorem isspace_iff (c : Int) (h : -128 ≤ c ∧ c ≤ 127) : ∃ r, Ctype.isspace c = some r ∧ (r ≠ 0 ↔ White c) := by
  refine ⟨_, Ctype.isspace_eq c ⟨by omega, by omega⟩, ?_⟩
  unfold White
  split <;> simp <;> omega

theorem skip_eq (blank r : List Int) (hb : Blank blank) (hr : ∀ c ∈ r.head?, ¬ White c)
    (hs : ∀ c ∈ blank ++ r, -128 ≤ c ∧ c ≤ 127) : skipSpace (blank ++ r) = some (r, blank.length) := by
  induction blank with
  | nil =>
    cases r with
    | nil =>
      obtain ⟨x, e, hx⟩ := isspace_iff 0 (by decide)
      unfold skipSpace
      rw [List.nil_append, e]
      simp only [Option.bind_some]
      rw [if_neg (by rw [hx]; decide)]; rfl
    | cons c s =>
      obtain ⟨x, e, hx⟩ := isspace_iff c (hs c (by simp))
      rw [List.nil_append]
      unfold skipSpace
      rw [e]
      simp only [Option.bind_some]
      rw [if_neg (by rw [hx]; exact hr c (by simp))]; rfl
  | cons c s ih =>
    obtain ⟨x, e, hx⟩ := isspace_iff c (hs c (by simp))
    rw [List.cons_append]
    unfold skipSpace
    rw [e]
    simp only [Option.bind_some]
    rw [if_pos (by rw [hx]; exact hb c (by simp)), ih (fun c hc => hb c (by simp [hc])) (fun c hc => hs c (by
      simp only [List.cons_append, List.mem_cons]; right; exact hc))]
    rfl

/-- The value of the result once the digits are known. -/
def finish (N : Nat) (signed neg : Bool) (max : Nat) (acc : Acc) (stop : Nat) : Option Result :=
  let max := if neg ∧ signed then max + 1 else max
  if acc.overflow ∨ max < acc.magnitude then
    some ⟨toInteger N signed (if neg ∧ signed then (2 ^ N - max) % 2 ^ N else max), stop, true⟩
  else if signed then
    let r := (if neg then -1 else 1) * toInteger N true acc.magnitude
    if -2 ^ (N - 1) ≤ r ∧ r < 2 ^ (N - 1) then some ⟨r, stop, false⟩ else none
  else
    some ⟨((if neg then 2 ^ N - 1 else 1) * acc.magnitude % 2 ^ N : Nat), stop, false⟩

/-- The sign characters that `parseint_` skips. -/
def sgn (neg : Bool) (sg : List Int) : Prop :=
  (sg = [] ∧ neg = false) ∨ (sg = [43] ∧ neg = false) ∨ (sg = [45] ∧ neg = true)

theorem hex_iff (c : Int) (h : -128 ≤ c ∧ c ≤ 127) : u32 c ||| 32 = 120 ↔ c = 120 ∨ c = 88 := by
  have : ∀ n : Nat, n < 256 → (u32 ((n : Int) - 128) ||| 32 = 120 ↔ ((n : Int) - 128 = 120 ∨ (n : Int) - 128 = 88)) := by
    decide +kernel
  have := this (c + 128).toNat (by omega)
  have e : (((c + 128).toNat : Nat) : Int) - 128 = c := by omega
  rw [e] at this
  exact this

/-- `parseint_` on a string split into blanks, sign and rest, without hexadecimal prefix. -/
theorem parse_plain (N : Nat) (signed : Bool) (blank sg r1 : List Int) (neg : Bool) (base max : Nat)
    (hb : Blank blank) (hsg : sgn neg sg) (h0 : sg = [] → cur r1 ≠ 43 ∧ cur r1 ≠ 45 ∧ ∀ c ∈ r1.head?, ¬ White c)
    (hs : ∀ c ∈ blank ++ (sg ++ r1), -128 ≤ c ∧ c ≤ 127)
    (hhex : ¬ (cur r1 = 48 ∧ (base = 0 ∨ base = 16) ∧ (cur r1.tail = 120 ∨ cur r1.tail = 88))) :
    parseint N signed (blank ++ (sg ++ r1)) base max =
      (let b := if base = 0 then (if cur r1 = 48 then 8 else 10) else base
       let l := digitLoop N b ((2 ^ N - 1) / b) r1 ⟨0, false⟩
       finish N signed neg max l.1 (if l.2 = 0 then 0 else blank.length + sg.length + l.2)) := by
  have hcur : -128 ≤ cur r1.tail ∧ cur r1.tail ≤ 127 := by
    match r1 with
    | [] => simp [cur]
    | [_] => simp [cur]
    | _ :: c :: _ => exact hs c (by simp)
  have hskip : skipSpace (blank ++ (sg ++ r1)) = some (sg ++ r1, blank.length) := by
    refine skip_eq _ _ hb ?_ hs
    rcases hsg with ⟨rfl, -⟩ | ⟨rfl, -⟩ | ⟨rfl, -⟩
    · exact (h0 rfl).2.2
    · intro c hc; simp at hc; subst hc; decide
    · intro c hc; simp at hc; subst hc; decide
  unfold parseint
  rw [hskip]
  simp only [Option.bind_eq_bind, Option.bind_some]
  have hx : (decide (cur r1 = 48 ∧ (base = 0 ∨ base = 16) ∧ u32 (cur r1.tail) ||| 32 = 120)) = false := by
    rw [decide_eq_false_iff_not, hex_iff _ hcur]; exact hhex
  rcases hsg with ⟨rfl, rfl⟩ | ⟨rfl, rfl⟩ | ⟨rfl, rfl⟩
  · obtain ⟨n1, n2, -⟩ := h0 rfl
    simp only [List.nil_append, n1, n2, or_self, if_false, decide_false, hx, Bool.false_eq_true, false_and,
      List.length_nil, Nat.add_zero, finish]
    rfl
  · have hc : cur ([43] ++ r1) = 43 := rfl
    have ht : ([43] ++ r1).tail = r1 := rfl
    have hl : [(43 : Int)].length = 1 := rfl
    simp only [hc, ht, hl, show ((43 : Int) = 45) = False by simp, or_true, if_true, decide_false, hx, Bool.false_eq_true, false_and,
      if_false, finish]
    rfl
  · have hc : cur ([45] ++ r1) = 45 := rfl
    have ht : ([45] ++ r1).tail = r1 := rfl
    have hl : [(45 : Int)].length = 1 := rfl
    simp only [hc, ht, hl, show ((45 : Int) = 43) = False by simp, or_false, if_true, decide_true, hx, Bool.false_eq_true, false_and,
      if_false, finish]
    rfl

/-- `parseint_` on a string with a hexadecimal prefix. -/
theorem parse_hex (N : Nat) (signed : Bool) (blank sg r2 : List Int) (x : Int) (neg : Bool) (base max : Nat)
    (hb : Blank blank) (hsg : sgn neg sg)
    (hs : ∀ c ∈ blank ++ (sg ++ 48 :: x :: r2), -128 ≤ c ∧ c ≤ 127)
    (hbase : base = 0 ∨ base = 16) (hxx : x = 120 ∨ x = 88) :
    parseint N signed (blank ++ (sg ++ 48 :: x :: r2)) base max =
      (let l := digitLoop N 16 ((2 ^ N - 1) / 16) r2 ⟨0, false⟩
       finish N signed neg max l.1 (if l.2 = 0 then blank.length + sg.length + 1 else blank.length + sg.length + 2 + l.2)) := by
  have hcur : -128 ≤ x ∧ x ≤ 127 := by omega
  have hskip : skipSpace (blank ++ (sg ++ 48 :: x :: r2)) = some (sg ++ 48 :: x :: r2, blank.length) := by
    refine skip_eq _ _ hb ?_ hs
    rcases hsg with ⟨rfl, -⟩ | ⟨rfl, -⟩ | ⟨rfl, -⟩
    · intro c hc; simp at hc; subst hc; decide
    · intro c hc; simp at hc; subst hc; decide
    · intro c hc; simp at hc; subst hc; decide
  unfold parseint
  rw [hskip]
  simp only [Option.bind_eq_bind, Option.bind_some]
  have c48 : cur (48 :: x :: r2) = 48 := rfl
  have t48 : (48 :: x :: r2 : List Int).tail = x :: r2 := rfl
  have cx : cur (x :: r2) = x := rfl
  have tx : (x :: r2 : List Int).tail = r2 := rfl
  have hx : (decide (True ∧ (base = 0 ∨ base = 16) ∧ u32 x ||| 32 = 120)) = true := by
    rw [decide_eq_true_iff, hex_iff _ hcur]; exact ⟨trivial, hbase, hxx⟩
  rcases hsg with ⟨rfl, rfl⟩ | ⟨rfl, rfl⟩ | ⟨rfl, rfl⟩
  · simp only [List.nil_append, c48, show ((48 : Int) = 45) = False by simp, show ((48 : Int) = 43) = False by simp,
      or_self, if_false, decide_false, t48, cx, tx, hx, if_true, Bool.false_eq_true, false_and, List.length_nil, Nat.add_zero, finish]
    rfl
  · have hc : cur ([43] ++ 48 :: x :: r2) = 43 := rfl
    have ht : ([43] ++ 48 :: x :: r2).tail = 48 :: x :: r2 := rfl
    have hl : [(43 : Int)].length = 1 := rfl
    simp only [hc, ht, hl, show ((43 : Int) = 45) = False by simp, or_true, if_true, decide_false, c48, t48, cx, tx, hx,
      Bool.false_eq_true, false_and, if_false, finish]
    rfl
  · have hc : cur ([45] ++ 48 :: x :: r2) = 45 := rfl
    have ht : ([45] ++ 48 :: x :: r2).tail = 48 :: x :: r2 := rfl
    have hl : [(45 : Int)].length = 1 := rfl
    simp only [hc, ht, hl, show ((45 : Int) = 43) = False by simp, or_false, if_true, decide_true, c48, t48, cx, tx, hx,
      finish]
    rfl

end Verif.Strtol
