import Verif.Process.Model

/-!
# Lemmas about process services
-/

namespace Verif.Process

/-! ## The orbit of the default seed -/

/-- The first `n` states from `s` are nonzero and the next one is `t`. -/
def orbit : Nat → Nat → Nat → Bool
  | 0, s, t => s == t
  | n + 1, s, t => s != 0 && orbit n (rand s) t

/-- A chain of orbit segments: lengths and end points. -/
def chain : Nat → List (Nat × Nat) → Bool
  | _, [] => true
  | s, (k, t) :: r => orbit k s t && chain t r

/-- The end of a chain. -/
def chainEnd : Nat → List (Nat × Nat) → Nat
  | s, [] => s
  | _, (_, t) :: r => chainEnd t r

/-- The length of a chain. -/
def chainLen (l : List (Nat × Nat)) : Nat := (l.map (·.1)).sum

/-- Segments of the orbit of 1: the first 44 lead into the cycle, the others go round it. -/
def segments : List (Nat × Nat) := [(1000, 890365234),
  (1000, 1538877132),
  (1000, 1537618059),
  (1000, 2132767723),
  (1000, 50390572),
  (1000, 404705906),
  (1000, 161130972),
  (1000, 1088117278),
  (1000, 427847858),
  (1000, 1247578735),
  (1000, 1995810888),
  (1000, 1922825115),
  (1000, 970601950),
  (1000, 1220324676),
  (1000, 1600646233),
  (1000, 1657755314),
  (1000, 1443703716),
  (1000, 1849018863),
  (1000, 228386557),
  (1000, 1175088694),
  (1000, 54778393),
  (1000, 2059201724),
  (1000, 1219810192),
  (1000, 67835777),
  (1000, 1472574469),
  (1000, 20393482),
  (1000, 1360174977),
  (1000, 866527477),
  (1000, 1044737837),
  (1000, 1933078019),
  (1000, 622746480),
  (1000, 1748145697),
  (1000, 1045968236),
  (1000, 1360219996),
  (1000, 391963311),
  (1000, 1627217849),
  (1000, 912866539),
  (1000, 1422101692),
  (1000, 754074955),
  (1000, 677367686),
  (1000, 2044083226),
  (1000, 107687248),
  (1000, 1207603626),
  (635, 1775017015),
  (1000, 1622097651),
  (1000, 21938506),
  (1000, 1285640053),
  (1000, 1608511293),
  (1000, 1720411376),
  (1000, 1053913017),
  (1000, 2007748291),
  (1000, 1892816557),
  (1000, 982914151),
  (1000, 1579374137),
  (1000, 1152578377),
  (1000, 1211173870),
  (1000, 592014512),
  (1000, 121275303),
  (1000, 2037672466),
  (1000, 1622020041),
  (1000, 1437104798),
  (1000, 2110622232),
  (1000, 337053937),
  (1000, 213932194),
  (1000, 456965586),
  (1000, 538525260),
  (1000, 1991531363),
  (1000, 1638424629),
  (1000, 1586074891),
  (1000, 507878825),
  (1000, 162095966),
  (1000, 1835979204),
  (1000, 1781096102),
  (1000, 566354231),
  (1000, 1435106233),
  (396, 1775017015)]

theorem randN_add (m n s : Nat) : randN (m + n) s = randN n (randN m s) := by
  induction m generalizing s with
  | zero => rw [Nat.zero_add]; rfl
  | succ m ih => rw [Nat.succ_add]; exact ih (rand s)

theorem orbit_spec (n s t : Nat) (h : orbit n s t = true) : randN n s = t ∧ ∀ i, i < n → randN i s ≠ 0 := by
  induction n generalizing s with
  | zero => simp [orbit] at h; exact ⟨h, fun i hi => by omega⟩
  | succ n ih =>
    simp [orbit] at h
    obtain ⟨h1, h2⟩ := ih (rand s) h.2
    refine ⟨h1, fun i hi => ?_⟩
    cases i with
    | zero => exact h.1
    | succ i => exact h2 i (by omega)

theorem chain_spec (l : List (Nat × Nat)) (s : Nat) (h : chain s l = true) :
    randN (chainLen l) s = chainEnd s l ∧ ∀ i, i < chainLen l → randN i s ≠ 0 := by
  induction l generalizing s with
  | nil => exact ⟨rfl, fun i hi => by simp [chainLen] at hi⟩
  | cons p r ih =>
    obtain ⟨k, t⟩ := p
    simp [chain] at h
    obtain ⟨h1, h2⟩ := orbit_spec k s t h.1
    obtain ⟨h3, h4⟩ := ih t h.2
    have e : chainLen ((k, t) :: r) = k + chainLen r := by simp [chainLen]
    rw [e]
    refine ⟨by rw [randN_add, h1, h3]; rfl, fun i hi => ?_⟩
    by_cases hik : i < k
    · exact h2 i hik
    · have := h4 (i - k) (by omega)
      rw [← h1, ← randN_add] at this
      rwa [show k + (i - k) = i by omega] at this

theorem segments_ok : chain 1 segments = true := by decide +kernel
theorem segments_len : chainLen segments = 75031 ∧ chainLen (segments.take 44) = 43635 := by decide +kernel
theorem segments_end : chainEnd 1 segments = 1775017015 ∧ chainEnd 1 (segments.take 44) = 1775017015 := by decide +kernel

theorem chain_take (l : List (Nat × Nat)) (s k : Nat) (h : chain s l = true) : chain s (l.take k) = true := by
  induction l generalizing s k with
  | nil => simp [chain]
  | cons p r ih =>
    cases k with
    | zero => simp [chain]
    | succ k =>
      obtain ⟨a, t⟩ := p
      simp [chain] at h ⊢
      exact ⟨h.1, ih t k h.2⟩

theorem orbit_cycle : randN 31396 1775017015 = 1775017015 ∧ randN 43635 1 = 1775017015 := by
  have h1 := (chain_spec segments 1 segments_ok).1
  have h2 := (chain_spec _ 1 (chain_take segments 1 44 segments_ok)).1
  rw [segments_len.1, segments_end.1] at h1
  rw [segments_len.2, segments_end.2] at h2
  refine ⟨?_, h2⟩
  rw [show (75031 : Nat) = 43635 + 31396 from rfl, randN_add, h2] at h1
  exact h1

theorem randN_cycle (n : Nat) : randN n 1775017015 = randN (n % 31396) 1775017015 := by
  have : ∀ q r, randN (31396 * q + r) 1775017015 = randN r 1775017015 := by
    intro q
    induction q with
    | zero => intro r; rw [Nat.mul_zero, Nat.zero_add]
    | succ q ih =>
      intro r
      rw [show 31396 * (q + 1) + r = 31396 + (31396 * q + r) by omega, randN_add, orbit_cycle.1, ih]
  conv => lhs; rw [← Nat.div_add_mod n 31396]
  exact this _ _

theorem default_nonzero (n : Nat) : randN n 1 ≠ 0 := by
  have h := (chain_spec segments 1 segments_ok).2
  rw [segments_len.1] at h
  by_cases hn : n < 43635
  · exact h n (by omega)
  · rw [show n = 43635 + (n - 43635) by omega, randN_add, orbit_cycle.2, randN_cycle]
    have := h (43635 + (n - 43635) % 31396) (by omega)
    rwa [randN_add, orbit_cycle.2] at this

theorem mod_zero (r : Nat) (hlt : r < 4294967296) (h : r % 2147483647 = 0) : r = 0 ∨ r = 2147483647 ∨ r = 4294967294 := by
  omega

theorem rand_zero (seed : Nat) (hs : seed < 4294967296) (h0 : seed ≠ 0) (h1 : seed ≠ 1622613393) (h2 : seed ≠ 3245226786) :
    ¬ seed * 48271 % 4294967296 % 2147483647 = 0 := by
  intro h
  have hr := mod_zero _ (Nat.mod_lt _ (by decide)) h
  have hq := Nat.div_add_mod (seed * 48271) 4294967296
  clear h
  generalize seed * 48271 / 4294967296 = q at hq
  generalize seed * 48271 % 4294967296 = r at *
  omega

/-! ## Well-nested logs -/

theorem Nested.append {v w : List Event} (hv : Nested v) (hw : Nested w) : Nested (v ++ w) := by
  induction hv with
  | nil => exact hw
  | pair h inner rest hi hr _ ih =>
    have : Event.reg h :: (inner ++ Event.call h :: rest) ++ w = Event.reg h :: (inner ++ Event.call h :: (rest ++ w)) := by
      simp
    rw [this]
    exact .pair h inner _ hi ih

/-- Logs with open registrations, the most recent first. -/
inductive Open : List Event → List Nat → Prop
  | nil (w : List Event) (hw : Nested w) : Open w []
  | push (l : List Event) (st : List Nat) (h : Nat) (w : List Event) (ho : Open l st) (hw : Nested w) :
      Open (l ++ Event.reg h :: w) (h :: st)

theorem Open.append {l st} (h : Open l st) {x : List Event} (hx : Nested x) : Open (l ++ x) st := by
  cases h with
  | nil w hw => exact .nil _ (hw.append hx)
  | push l st h w ho hw =>
    rw [List.append_assoc]
    exact .push l st h _ ho (hw.append hx)

theorem Open.reg {l st} (h : Open l st) (f : Nat) : Open (l ++ [Event.reg f]) (f :: st) := .push l st f [] h .nil

theorem Open.call {l f st} (h : Open l (f :: st)) : Open (l ++ [Event.call f]) st := by
  cases h with
  | push l st f w ho hw =>
    have := ho.append (Nested.pair f w [] hw .nil)
    simpa using this

/-- The pending functions of a table. -/
def pending (t : Nat → Nat) (c : Nat) : List Nat := ((List.range c).map t).reverse

theorem pending_succ (t : Nat → Nat) (c : Nat) : pending t (c + 1) = t c :: pending t c := by
  simp [pending, List.range_succ]

theorem pending_congr {t t' : Nat → Nat} {c : Nat} (h : ∀ i, i < c → t i = t' i) : pending t c = pending t' c := by
  unfold pending
  congr 1
  apply List.map_congr_left
  intro i hi
  exact h i (List.mem_range.mp hi)

/-- The table and the log agree. -/
structure Good (st : Slots) (log : List Event) : Prop where
  nonneg : 0 ≤ st.count
  le : st.count ≤ 32
  op : Open log (pending st.table st.count.toNat)

theorem registerAll_good (fns : List Nat) (st : Slots) (log : List Event) (h : Good st log) :
    ∃ st' l, registerAll st fns = some (st', l) ∧ Good st' (log ++ l) := by
  induction fns generalizing st log with
  | nil => exact ⟨st, [], rfl, by simpa using h⟩
  | cons f fns ih =>
    unfold registerAll atexit
    by_cases hfull : st.count ≥ 32
    · rw [if_pos hfull]
      obtain ⟨st', l, e, hg⟩ := ih st log h
      simp only [e]
      exact ⟨st', l, by simp, hg⟩
    · rw [if_neg hfull, if_pos h.nonneg]
      have hn := h.nonneg
      have hg : Good ⟨fun i => if i = st.count.toNat then f else st.table i, st.count + 1⟩ (log ++ [Event.reg f]) := by
        refine ⟨by simp only; omega, by simp only; omega, ?_⟩
        simp only
        rw [show (st.count + 1).toNat = st.count.toNat + 1 by omega, pending_succ]
        simp only [if_true]
        rw [pending_congr (t' := st.table) (fun i hi => by rw [if_neg (by omega)])]
        exact h.op.reg f
      obtain ⟨st', l, e, hg'⟩ := ih _ _ hg
      simp only [e]
      refine ⟨st', Event.reg f :: l, by simp, ?_⟩
      simpa using hg'

theorem runAtexit_good (behaviour : List Event → Nat → List Nat) (fuel : Nat) (st : Slots) (log : List Event)
    (h : Good st log) : (∃ st' log', runAtexit behaviour fuel st log = .done (st', log') ∧ Nested log') ∨
      runAtexit behaviour fuel st log = .more := by
  induction fuel generalizing st log with
  | zero => exact .inr rfl
  | succ fuel ih =>
    unfold runAtexit
    by_cases h0 : st.count = 0
    · rw [if_pos h0]
      refine .inl ⟨_, _, rfl, ?_⟩
      have := h.op
      rw [h0] at this
      cases this with
      | nil _ hw => exact hw
    · rw [if_neg h0]
      have h1 := h.nonneg
      have h2 := h.le
      simp only
      rw [if_pos (by omega)]
      have hg : Good ⟨st.table, st.count - 1⟩ (log ++ [Event.call (st.table (st.count - 1).toNat)]) := by
        refine ⟨by simp only; omega, by simp only; omega, ?_⟩
        have := h.op
        rw [show st.count.toNat = (st.count - 1).toNat + 1 by omega, pending_succ] at this
        exact this.call
      obtain ⟨st', l, e, hg'⟩ := registerAll_good (behaviour (log ++ [Event.call (st.table (st.count - 1).toNat)])
        (st.table (st.count - 1).toNat)) _ _ hg
      rw [e]
      exact ih st' _ hg'

theorem good_init : Good Slots.init [] := ⟨by decide, by decide, .nil _ .nil⟩

/-- What a sequence of registrations does when there is room. -/
theorem registerAll_take (fns : List Nat) (st : Slots) (hn : 0 ≤ st.count) (hle : st.count ≤ 32) :
    ∃ st', registerAll st fns = some (st', (fns.take (32 - st.count.toNat)).map Event.reg) ∧
      registerAll st (fns.take (32 - st.count.toNat)) = some (st', (fns.take (32 - st.count.toNat)).map Event.reg) ∧
      0 ≤ st'.count ∧ st'.count ≤ 32 ∧ st'.count.toNat = st.count.toNat + min (32 - st.count.toNat) fns.length := by
  induction fns generalizing st with
  | nil => refine ⟨st, by simp [registerAll], by simp [registerAll], hn, hle, by simp⟩
  | cons f fns ih =>
    by_cases hfull : st.count ≥ 32
    · obtain ⟨st', e1, e2, h1, h2, h3⟩ := ih st hn hle
      rw [show 32 - st.count.toNat = 0 by omega] at e1 e2 h3 ⊢
      simp only [List.take_zero, List.map_nil] at e1 e2 ⊢
      refine ⟨st', ?_, e2, h1, h2, by simpa using h3⟩
      unfold registerAll atexit
      rw [if_pos hfull]
      simp only [e1]
      simp
    · obtain ⟨st', e1, e2, h1, h2, h3⟩ := ih ⟨fun i => if i = st.count.toNat then f else st.table i, st.count + 1⟩
        (by simp only; omega) (by simp only; omega)
      simp only at e1 e2 h3
      rw [show (st.count + 1).toNat = st.count.toNat + 1 by omega] at e1 e2 h3
      rw [show 32 - st.count.toNat = (32 - (st.count.toNat + 1)) + 1 by omega]
      refine ⟨st', ?_, ?_, h1, h2, by simp only [List.length_cons]; omega⟩
      · unfold registerAll atexit
        rw [if_neg hfull, if_pos hn]
        simp only [e1]
        simp
      · rw [List.take_succ_cons]
        unfold registerAll atexit
        rw [if_neg hfull, if_pos hn]
        simp only [e2]
        simp

theorem runAtexit_plain (fuel : Nat) (st : Slots) (log : List Event) (hn : 0 ≤ st.count) (hle : st.count ≤ 32)
    (hf : st.count.toNat < fuel) :
    ∃ st', runAtexit (fun _ _ => []) fuel st log = .done (st', log ++ (pending st.table st.count.toNat).map Event.call) := by
  induction fuel generalizing st log with
  | zero => omega
  | succ fuel ih =>
    unfold runAtexit
    by_cases h0 : st.count = 0
    · rw [if_pos h0, h0]; exact ⟨st, by simp [pending]⟩
    · rw [if_neg h0]
      simp only
      rw [if_pos (by omega)]
      simp only [registerAll, List.append_nil]
      obtain ⟨st', e⟩ := ih ⟨st.table, st.count - 1⟩ (log ++ [Event.call (st.table (st.count - 1).toNat)])
        (by simp only; omega) (by simp only; omega) (by simp only; omega)
      refine ⟨st', ?_⟩
      rw [e, show st.count.toNat = (st.count - 1).toNat + 1 by omega, pending_succ]
      simp

/-! ## Environment -/

theorem at?_eq (s : List Nat) (i : Nat) (h : i ≤ s.length) : at? s i = some ((s.drop i).head?.getD 0) := by
  unfold at?
  rw [List.head?_drop]
  by_cases hi : i < s.length
  · rw [List.getElem?_append_left hi, List.getElem?_eq_getElem hi]; rfl
  · have : i = s.length := by omega
    subst this
    simp

theorem matches_spec (e n : List Nat) (hn : ∀ c ∈ n, c ≠ 0 ∧ c ≠ 61) (he : ∀ c ∈ e, c ≠ 0) (k i : Nat)
    (hi : i + k = n.length) (hie : i ≤ e.length) :
    matchesFrom e n (k + 1) i = some ((n.drop i ++ [61]).isPrefixOf (e.drop i)) := by
  induction k generalizing i with
  | zero =>
    have hd : n.drop i = [] := List.drop_eq_nil_of_le (by omega)
    unfold matchesFrom
    rw [at?_eq n i (by omega), at?_eq e i hie, hd]
    cases h : e.drop i with
    | nil => simp
    | cons x r =>
      by_cases hx : x = 61
      · simp [List.isPrefixOf, hx]
      · simp [List.isPrefixOf, hx, Ne.symm hx]
  | succ k ih =>
    have hlt : i < n.length := by omega
    have hd : n.drop i = n[i] :: n.drop (i + 1) := List.drop_eq_getElem_cons hlt
    have hx := hn n[i] (List.getElem_mem hlt)
    have hni : at? n i = some n[i] := by rw [at?_eq n i (by omega), hd]; rfl
    unfold matchesFrom
    rw [hni, hd]
    simp only [Option.bind_eq_bind, Option.bind_some]
    rw [if_pos hx]
    cases h : e.drop i with
    | nil =>
      have hei : at? e i = some 0 := by rw [at?_eq e i hie, h]; rfl
      rw [hei]
      simp only [Option.bind_some]
      rw [if_pos (Ne.symm hx.1)]
      simp
    | cons x r =>
      have hei : at? e i = some x := by rw [at?_eq e i hie, h]; rfl
      rw [hei]
      simp only [Option.bind_some]
      have hlen : i < e.length := by
        have := congrArg List.length h
        rw [List.length_drop] at this
        simp only [List.length_cons] at this
        omega
      by_cases hxe : x ≠ n[i]
      · rw [if_pos hxe]
        simp only [List.cons_append, List.isPrefixOf, pure]
        have : (n[i] == x) = false := by simpa using Ne.symm hxe
        rw [this, Bool.false_and]
      · rw [if_neg hxe, ih (i + 1) (by omega) (by omega)]
        have hx2 : x = n[i] := Classical.not_not.mp hxe
        have hr : e.drop (i + 1) = r := by
          rw [← List.drop_drop, h]; rfl
        rw [hr, hx2]
        simp only [List.cons_append, List.isPrefixOf, beq_self_eq_true, Bool.true_and]

theorem value_spec (n v : List Nat) (hn : ∀ c ∈ n, c ≠ 0 ∧ c ≠ 61) (fuel j : Nat) (hj : j ≤ n.length)
    (hf : n.length - j < fuel) : valueFrom (n ++ 61 :: v) fuel j = some (some v) := by
  induction fuel generalizing j with
  | zero => omega
  | succ fuel ih =>
    unfold valueFrom
    have hat := at?_eq (n ++ 61 :: v) j (by simp; omega)
    by_cases hjn : j < n.length
    · have hx := hn n[j] (List.getElem_mem hjn)
      have : (n ++ 61 :: v).drop j = n[j] :: (n.drop (j + 1) ++ 61 :: v) := by
        rw [List.drop_append_of_le_length (by omega), List.drop_eq_getElem_cons hjn]; rfl
      rw [this] at hat
      have hat : at? (n ++ 61 :: v) j = some n[j] := hat
      rw [hat]
      simp only [Option.bind_eq_bind, Option.bind_some]
      rw [if_pos hx]
      exact ih (j + 1) (by omega) (by omega)
    · have hj2 : j = n.length := by omega
      subst hj2
      rw [List.drop_left] at hat
      have hat : at? (n ++ 61 :: v) n.length = some 61 := hat
      rw [hat]
      simp [List.drop_append]

theorem find_spec (name : List Nat) (hn : ∀ c ∈ name, c ≠ 0 ∧ c ≠ 61) (es : List (List Nat))
    (he : ∀ e ∈ es, ∀ c ∈ e, c ≠ 0) : findEntry name es = some (lookup name es) := by
  induction es with
  | nil => rfl
  | cons e es ih =>
    unfold findEntry lookup
    rw [matches_spec e name hn (he e (by simp)) name.length 0 (by omega) (by omega)]
    simp only [List.drop_zero, Option.bind_eq_bind, Option.bind_some]
    by_cases h : (name ++ [61]).isPrefixOf e = true
    · rw [if_pos h, if_pos h]
      obtain ⟨v, rfl⟩ := List.isPrefixOf_iff_prefix.mp h
      rw [List.append_assoc]
      have := value_spec name v hn ((name ++ ([61] ++ v)).length + 1) 0 (by omega) (by simp; omega)
      rw [show name ++ ([61] ++ v) = name ++ 61 :: v from rfl] at *
      rw [this]
      simp [List.drop_append]
    · rw [if_neg h, if_neg h]
      exact ih (fun e' h' => he e' (by simp [h']))

/-! ## The break -/

/-- One call, when nothing wraps around. -/
theorem sbrk_spec (limit : Nat) (hlimit : limit ≤ 65536) (m : Memory) (h0 : 1 ≤ m.pages) (hp : m.pages ≤ limit)
    (n : Int) (hmem : m.brk ≤ 65536 * m.pages) (hlo : 0 ≤ m.brk + n) (hhi : m.brk + n < 4294967296) :
    (∃ m', sbrk limit m n = (m', some m.brk) ∧ (m'.brk : Int) = m.brk + n ∧ m.pages ≤ m'.pages ∧ m'.pages ≤ limit ∧
      m'.brk ≤ 65536 * m'.pages) ∨ sbrk limit m n = (m, none) := by
  obtain ⟨brk, pages⟩ := m
  simp only at *
  have hw : u32 (brk + n) = (brk + n).toNat := by unfold u32; omega
  unfold sbrk
  simp only
  rw [hw]
  obtain ⟨w, hwn⟩ : ∃ w : Nat, w = (brk + n).toNat := ⟨_, rfl⟩
  rw [← hwn]
  have hw2 : (w : Int) = brk + n := by omega
  have hwlt : w < 4294967296 := by omega
  by_cases hfull : pages = 65536
  · subst hfull
    rw [show 65536 * 65536 % 4294967296 = 0 from rfl]
    by_cases hz : w > 0
    · rw [if_pos hz]
      by_cases hg : 65536 + (65535 + (w - 0)) % 4294967296 / 65536 > limit
      · rw [if_pos hg]; exact .inr rfl
      · rw [if_neg hg]
        refine .inl ⟨_, rfl, hw2, by simp, by simp only; omega, ?_⟩
        simp only; omega
    · rw [if_neg hz]
      exact .inl ⟨_, rfl, hw2, by simp, hp, by simp only; omega⟩
  · have hcap : 65536 * pages % 4294967296 = 65536 * pages := Nat.mod_eq_of_lt (by omega)
    rw [hcap]
    by_cases hz : w > 65536 * pages
    · rw [if_pos hz]
      have hmod : (65535 + (w - 65536 * pages)) % 4294967296 = 65535 + (w - 65536 * pages) := Nat.mod_eq_of_lt (by omega)
      rw [hmod]
      by_cases hg : pages + (65535 + (w - 65536 * pages)) / 65536 > limit
      · rw [if_pos hg]; exact .inr rfl
      · rw [if_neg hg]
        exact .inl ⟨_, rfl, hw2, by simp, by simp only; omega, by simp only; omega⟩
    · rw [if_neg hz]
      exact .inl ⟨_, rfl, hw2, by simp, hp, by simp only; omega⟩

theorem sbrks_spec (limit : Nat) (hlimit : limit ≤ 32768) (ns : List Int) (m : Memory) (h0 : 1 ≤ m.pages) (hp : m.pages ≤ limit)
    (hmem : m.brk ≤ 65536 * m.pages) (hns : ∀ n ∈ ns, 0 ≤ n ∧ n < 2147483648) :
    Regions m.brk (sbrks limit m ns).2 ∧ (∀ r ∈ (sbrks limit m ns).2, r.1 + r.2 ≤ (sbrks limit m ns).1.brk) ∧
      (sbrks limit m ns).1.brk ≤ 65536 * (sbrks limit m ns).1.pages ∧ (sbrks limit m ns).1.pages ≤ limit ∧
      m.brk ≤ (sbrks limit m ns).1.brk := by
  induction ns generalizing m with
  | nil => exact ⟨trivial, by simp [sbrks], hmem, hp, Nat.le_refl _⟩
  | cons n ns ih =>
    have hn := hns n (by simp)
    have hns' : ∀ n ∈ ns, 0 ≤ n ∧ n < 2147483648 := fun n h => hns n (by simp [h])
    rcases sbrk_spec limit (by omega) m h0 hp n hmem (by omega) (by omega) with ⟨m', e, h1, h2, h3, h4⟩ | e
    · obtain ⟨i1, i2, i3, i4, i5⟩ := ih m' (by omega) h3 h4 hns'
      simp only [sbrks, e]
      refine ⟨⟨Nat.le_refl _, ?_⟩, ?_, i3, i4, by omega⟩
      · rw [show m.brk + n.toNat = m'.brk by omega]; exact i1
      · intro r hr
        rcases List.mem_cons.mp hr with rfl | hr
        · simp only; omega
        · exact i2 r hr
    · simp only [sbrks, e]
      exact ih m h0 hp hmem hns'

theorem initialBreak_le (frame : Nat) : 1 ≤ initialBreak frame ∧ initialBreak frame ≤ 256 := by
  unfold initialBreak
  have : frame &&& 255 ≤ 255 := Nat.and_le_right
  omega

end Verif.Process
