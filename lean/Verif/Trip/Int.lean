import Verif.Trip.Hex
import Verif.Strtol.Props
import Verif.Printf.Props

/-! # Integers read back -/

namespace Verif.Trip
open Verif.Strtol Verif.Printf.Spec

theorem justify_parts (d : Dir) (a : Ask) (pre body : List Nat) :
    ∃ j z k, justify d a pre body = List.replicate j 32 ++ (pre ++ (List.replicate z 48 ++ body) ++ List.replicate k 32) := by
  unfold justify
  simp only
  split
  · exact ⟨0, 0, a.width - (pre ++ body).length, by simp [List.append_assoc]⟩
  · split
    · exact ⟨0, a.width - (pre ++ body).length, 0, by simp [List.append_assoc]⟩
    · exact ⟨a.width - (pre ++ body).length, 0, 0, by simp [List.append_assoc]⟩

theorem sign_parts (d : Dir) (x : Int) : ∃ i sg, (ints sg = [] ∧ decide (x < 0) = false ∨ ints sg = [43] ∧ decide (x < 0) = false ∨ ints sg = [45] ∧ decide (x < 0) = true) ∧
    sign d x = List.replicate i 32 ++ sg := by
  unfold sign
  split
  · exact ⟨0, [45], .inr (.inr ⟨rfl, decide_eq_true ‹_›⟩), by simp⟩
  · have := decide_eq_false ‹¬ x < 0›
    split
    · exact ⟨0, [43], .inr (.inl ⟨rfl, this⟩), by simp⟩
    · split
      · exact ⟨1, [], .inl ⟨rfl, this⟩, by simp⟩
      · exact ⟨0, [], .inl ⟨rfl, this⟩, by simp⟩

theorem digits_is (prec : Option Nat) (b : Nat) (hb : b ≤ 16) (h2 : 2 ≤ b) (u : Bool) (n : Nat) : ∀ c ∈ ints (digits prec b u n), IsDigit b c := by
  unfold digits
  split
  · intro c hc; cases hc
  · rw [ints_append, ints_rep]
    intro c hc
    rw [List.mem_append] at hc
    rcases hc with hc | hc
    · rw [(List.mem_replicate.mp hc).2]
      exact ⟨0, rfl, by omega⟩
    · exact numeral_is b hb h2 u n c hc

theorem digits_value (prec : Option Nat) (b : Nat) (hb : b ≤ 16) (h2 : 2 ≤ b) (u : Bool) (n : Nat) : Strtol.value b (ints (digits prec b u n)) = n := by
  unfold digits
  split
  · have : n = 0 := And.left ‹_›
    rw [this]; rfl
  · rw [ints_append, ints_rep]
    exact (Decimal.value_rep b _ _).trans (numeral_value b hb h2 u n)

theorem digits_ne (prec : Option Nat) (b : Nat) (u : Bool) (n : Nat) (h : ¬ (n = 0 ∧ prec = some 0)) : ints (digits prec b u n) ≠ [] := by
  unfold digits
  rw [if_neg h, ints_append]
  intro he
  have := (List.append_eq_nil_iff.mp he).2
  exact Printf.numeral_ne_nil b u n (List.map_eq_nil_iff.mp this)

theorem subject_chars {base : Nat} {w : List Int} {neg : Bool} {radix : Nat} {ds : List Int} (h : Subject base w neg radix ds) :
    w ≠ [] ∧ ∀ c ∈ w, 43 ≤ c ∧ c ≤ 122 := by
  cases h with
  | mk sign pre ds neg radix hsign hpre hradix hne hd =>
    refine ⟨by simp [hne], fun c hc => ?_⟩
    rw [List.mem_append, List.mem_append] at hc
    rcases hc with (hc | hc) | hc
    · revert c; rcases hsign with ⟨rfl, -⟩ | ⟨rfl, -⟩ | ⟨rfl, -⟩ <;> decide
    · revert c; rcases hpre with rfl | ⟨-, rfl | rfl⟩ <;> decide
    · obtain ⟨v, hv, -⟩ := hd c hc
      unfold digitVal at hv
      split at hv
      · omega
      · split at hv
        · omega
        · split at hv
          · omega
          · cases hv

theorem longest_of {base : Nat} {w : List Int} {neg : Bool} {radix : Nat} {ds : List Int} (h : Subject base w neg radix ds) (k : Nat) :
    Longest base (w ++ List.replicate k 32) w neg radix ds := by
  refine ⟨List.prefix_append _ _, h, fun w' neg' n' t' hp hS => ?_⟩
  rcases Nat.lt_or_ge w.length w'.length with hlt | hge
  · exfalso
    obtain ⟨q, hq⟩ := List.prefix_of_prefix_length_le (List.prefix_append w (List.replicate k 32)) hp (Nat.le_of_lt hlt)
    subst hq
    rw [List.prefix_append_right_inj] at hp
    cases q with
    | nil => simp at hlt
    | cons c q =>
      have hc : c ∈ List.replicate k (32 : Int) := hp.subset List.mem_cons_self
      rw [(List.mem_replicate.mp hc).2] at hS
      have := (subject_chars hS).2 32 (by simp)
      omega
  · exact hge

/-- A text: spaces, a subject sequence, spaces. -/
structure Field (base : Nat) (text : List Nat) (neg : Bool) (radix n stop : Nat) : Prop where
  form : ∃ blank r w ds, ints text = blank ++ r ∧ IsString (blank ++ r) ∧ Blank blank ∧ (∀ c ∈ r.head?, ¬ White c) ∧
    Longest base r w neg radix ds ∧ Strtol.value radix ds = n ∧ stop = blank.length + w.length
  rest : ∀ c ∈ text.drop stop, c = 32

theorem field_of {base : Nat} {text : List Nat} {neg : Bool} {radix n j k : Nat} {w ds : List Int} (h : Subject base w neg radix ds)
    (hv : Strtol.value radix ds = n) (ht : ints text = List.replicate j 32 ++ (w ++ List.replicate k 32)) : Field base text neg radix n (j + w.length) := by
  obtain ⟨c1, c2⟩ := subject_chars h
  refine ⟨⟨List.replicate j 32, w ++ List.replicate k 32, w, ds, ht, ?_, ?_, ?_, longest_of h k, hv, by rw [List.length_replicate]⟩, ?_⟩
  · exact string_of (fun c hc => by have := c2 c hc; omega) (rep_string k)
  · intro c hc
    rw [(List.mem_replicate.mp hc).2]
    unfold White
    decide
  · intro c hc
    cases w with
    | nil => exact absurd rfl c1
    | cons b w =>
      have : b = c := Option.some.inj hc
      have := c2 b List.mem_cons_self
      unfold White
      omega
  · intro c hc
    have hc' : (c : Int) ∈ ints (text.drop (j + w.length)) := List.mem_map.mpr ⟨c, hc, rfl⟩
    rw [show ints (text.drop (j + w.length)) = (ints text).drop (j + w.length) from List.map_drop, ht, ← List.append_assoc, List.drop_left' (by simp)] at hc'
    have := (List.mem_replicate.mp hc').2
    omega

/-- Signed decimal. -/
theorem field_signed (d : Dir) (hc : d.conv = 100 ∨ d.conv = 105) (a : Ask) (v : Int) (h0 : ¬ (d.size.signed v = 0 ∧ a.prec = some 0)) :
    ∃ stop, Field 10 (d.int a v) (decide (d.size.signed v < 0)) 10 (d.size.signed v).natAbs stop := by
  unfold Dir.int
  rw [if_pos hc]
  generalize d.size.signed v = x at *
  obtain ⟨i, sg, hs, e1⟩ := sign_parts d x
  obtain ⟨j, z, k, e2⟩ := justify_parts d a (sign d x) (digits a.prec 10 false x.natAbs)
  refine ⟨_, field_of (j := j + i) (k := k) (Subject.mk (ints sg) [] (List.replicate z 48 ++ ints (digits a.prec 10 false x.natAbs)) _ 10 hs (.inl rfl) rfl ?_ ?_) ?_ ?_⟩
  · intro h
    exact digits_ne a.prec 10 false x.natAbs (fun h => h0 ⟨Int.natAbs_eq_zero.mp h.1, h.2⟩) (List.append_eq_nil_iff.mp h).2
  · intro c hc
    rw [List.mem_append] at hc
    rcases hc with hc | hc
    · rw [(List.mem_replicate.mp hc).2]; exact ⟨0, rfl, by omega⟩
    · exact digits_is a.prec 10 (by omega) (by omega) false _ c hc
  · rw [Decimal.value_rep, digits_value a.prec 10 (by omega) (by omega)]
  · rw [e2, e1, ← List.replicate_append_replicate]
    simp only [ints_append, ints_rep, List.append_assoc, List.append_nil]
    rfl

/-- The base in which an unsigned conversion prints. -/
def radixOf (conv : Nat) : Nat := if conv = 117 then 10 else if conv = 111 then 8 else 16

/-- Unsigned, to be read in the same base. -/
theorem field_unsigned (d : Dir) (hc : d.conv = 117 ∨ d.conv = 111 ∨ d.conv = 120 ∨ d.conv = 88) (a : Ask) (v : Int)
    (h0 : ¬ (d.size.unsigned v = 0 ∧ a.prec = some 0)) :
    ∃ stop, Field (radixOf d.conv) (d.int a v) false (radixOf d.conv) (d.size.unsigned v) stop := by
  have key : ∀ (b : Nat) (u : Bool) (pre body : List Nat), (b = 10 ∨ b = 8 ∨ b = 16) → (pre = [] ∨ b = 16 ∧ (ints pre = [48, 120] ∨ ints pre = [48, 88])) → body ≠ [] →
      (∀ c ∈ ints body, IsDigit b c) → Strtol.value b (ints body) = d.size.unsigned v →
      ∃ stop, Field b (justify d a pre body) false b (d.size.unsigned v) stop := by
    intro b u pre body hb hpre hne hd hv
    obtain ⟨j, z, k, e2⟩ := justify_parts d a pre body
    refine ⟨_, field_of (j := j) (k := k) (Subject.mk [] (ints pre) (List.replicate z 48 ++ ints body) _ b (.inl ⟨rfl, rfl⟩) ?_ (by rw [if_pos (by omega)]) ?_ ?_) ?_ ?_⟩
    · rcases hpre with rfl | ⟨h, h'⟩
      · exact .inl rfl
      · exact .inr ⟨.inl h, h'⟩
    · intro h
      exact hne (List.map_eq_nil_iff.mp (List.append_eq_nil_iff.mp h).2)
    · intro c hc
      rw [List.mem_append] at hc
      rcases hc with hc | hc
      · rw [(List.mem_replicate.mp hc).2]; exact ⟨0, rfl, by omega⟩
      · exact hd c hc
    · rw [Decimal.value_rep, hv]
    · rw [e2]
      simp only [ints_append, ints_rep, List.append_assoc, List.nil_append]
      rfl
  have ne : ∀ b u, digits a.prec b u (d.size.unsigned v) ≠ [] := by
    intro b u h
    exact digits_ne a.prec b u (d.size.unsigned v) h0 (by rw [h]; rfl)
  unfold Dir.int radixOf
  rw [if_neg (show ¬ (d.conv = 100 ∨ d.conv = 105) by omega)]
  by_cases h1 : d.conv = 117
  · simp only [if_pos h1]
    exact key 10 false [] _ (.inl rfl) (.inl rfl) (ne _ _) (digits_is _ 10 (by omega) (by omega) _ _) (digits_value _ 10 (by omega) (by omega) _ _)
  · simp only [if_neg h1]
    by_cases h2 : d.conv = 111
    · simp only [if_pos h2]
      split
      · unfold altOctal
        split
        · exact key 8 false [] _ (.inr (.inl rfl)) (.inl rfl) (ne _ _) (digits_is _ 8 (by omega) (by omega) _ _) (digits_value _ 8 (by omega) (by omega) _ _)
        · refine key 8 false [] _ (.inr (.inl rfl)) (.inl rfl) (by simp) ?_ ?_
          · intro c hc
            rw [ints_cons, List.mem_cons] at hc
            rcases hc with rfl | hc
            · exact ⟨0, rfl, by omega⟩
            · exact digits_is _ 8 (by omega) (by omega) _ _ c hc
          · rw [ints_cons]
            exact (Decimal.value_rep 8 1 _).trans (digits_value _ 8 (by omega) (by omega) _ _)
      · exact key 8 false [] _ (.inr (.inl rfl)) (.inl rfl) (ne _ _) (digits_is _ 8 (by omega) (by omega) _ _) (digits_value _ 8 (by omega) (by omega) _ _)
    · simp only [if_neg h2]
      refine key 16 false _ _ (.inr (.inr rfl)) ?_ (ne _ _) (digits_is _ 16 (by omega) (by omega) _ _) (digits_value _ 16 (by omega) (by omega) _ _)
      split
      · refine .inr ⟨rfl, ?_⟩
        have : d.conv = 120 ∨ d.conv = 88 := by omega
        rcases this with h | h <;> rw [h]
        · exact .inl rfl
        · exact .inr rfl
      · exact .inl rfl

end Verif.Trip
