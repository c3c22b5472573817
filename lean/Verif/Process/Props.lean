import Verif.Process.Lemmas
import Mathlib.Data.List.Induction

/-!
# Properties of process services
-/

namespace Verif.Process

/-- **C35**. After `srand(s)` every value of `rand` is between 0 and RAND_MAX = 2147483646, and the whole
sequence depends on `s` only (the state before plays no role in `srand`). -/
theorem C35_rand_range (seed n : Nat) :
    0 ≤ randValue (randN n (srand seed)) ∧ randValue (randN n (srand seed)) ≤ 2147483646 := by
  unfold randValue rand s32
  have := Nat.mod_lt (randN n (srand seed) * 48271 % 4294967296) (show 2147483647 > 0 by decide)
  generalize randN n (srand seed) * 48271 % 4294967296 % 2147483647 = r at *
  split <;> omega

/-- **C36** (violation). Seeded with 0, 1622613393 or 3245226786, `rand` returns 0 forever. -/
theorem C36_stuck (seed n : Nat) (h : seed = 0 ∨ seed = 1622613393 ∨ seed = 3245226786) :
    randValue (randN n (srand seed)) = 0 := by
  have h0 : ∀ n, randN n 0 = 0 := by
    intro n
    induction n with
    | zero => rfl
    | succ n ih => exact ih
  have h1 : rand (srand seed) = 0 := by rcases h with rfl | rfl | rfl <;> decide
  cases n with
  | zero => show s32 (rand (srand seed)) = 0; rw [h1]; decide
  | succ n =>
    show s32 (rand (randN n (rand (srand seed)))) = 0
    rw [h1, h0]; decide

/-- **C36** (violation). In the default sequence, from its 43636th value on, everything repeats with
period 31396 (the multiplier and modulus are those of a generator of period 2147483646). -/
theorem C36_short_period (n : Nat) :
    randValue (randN (43635 + n + 31396) randInit) = randValue (randN (43635 + n) randInit) := by
  have e : randN (43635 + n + 31396) randInit = randN (43635 + n) randInit := by
    rw [show 43635 + n + 31396 = 43635 + (31396 + n) by omega, randN_add, randN_add 43635 n]
    show randN (31396 + n) (randN 43635 1) = _
    rw [show randInit = 1 from rfl, orbit_cycle.2, randN_add, orbit_cycle.1]
  rw [e]

/-- **C36** (partial). The default sequence never contains 0, so it never gets stuck there; and a seed
other than the three of `C36_stuck` does not give 0 at once. Missing: whether other seeds reach 0
later. -/
theorem C36_partial : (∀ n, randN n randInit ≠ 0) ∧
    ∀ seed, seed < 4294967296 → seed ≠ 0 → seed ≠ 1622613393 → seed ≠ 3245226786 → rand (srand seed) ≠ 0 := by
  refine ⟨default_nonzero, fun seed hs h0 h1 h2 h => ?_⟩
  unfold rand srand at h
  rw [Nat.mod_eq_of_lt hs] at h
  exact rand_zero seed hs h0 h1 h2 h

/-- The first values of the default sequence. -/
example : randValue randInit = 48271 ∧ randValue (randN 1 randInit) = 182605794 := by decide

/-- **C37**. Whatever functions the program has registered with `atexit` and whatever functions these
register in turn, `exit` never goes wrong, and when it ends, the log of registrations and calls is
well nested (each registered function is called exactly once, in reverse order of registration), stdout
and stderr have been flushed after that, and the process ends with the given status. -/
theorem C37_exit_lifo (behaviour : List Event → Nat → List Nat) (fns : List Nat) (fuel : Nat) (rc : Int) :
    ∃ st log, registerAll Slots.init fns = some (st, log) ∧
      (exit behaviour fuel st log rc = .more ∨
       ∃ w, Nested w ∧ exit behaviour fuel st log rc = .done (w ++ [Event.flush 1, Event.flush 2, Event.exit (u32 rc)])) := by
  obtain ⟨st, l, e, hg⟩ := registerAll_good fns Slots.init [] good_init
  refine ⟨st, l, e, ?_⟩
  unfold exit
  rcases runAtexit_good behaviour fuel st l (by simpa using hg) with ⟨st', log', e', hn⟩ | e'
  · rw [e']; exact .inr ⟨log', hn, rfl⟩
  · rw [e']; exact .inl rfl

/-- **C37** (`quick_exit`). The same, without flushing. -/
theorem C37_quick_exit_lifo (behaviour : List Event → Nat → List Nat) (fns : List Nat) (fuel : Nat) (rc : Int) :
    ∃ st log, registerAll Slots.init fns = some (st, log) ∧
      (quickExit behaviour fuel st log rc = .more ∨
       ∃ w, Nested w ∧ quickExit behaviour fuel st log rc = .done (w ++ [Event.exit (u32 rc)])) := by
  obtain ⟨st, l, e, hg⟩ := registerAll_good fns Slots.init [] good_init
  refine ⟨st, l, e, ?_⟩
  unfold quickExit
  rcases runAtexit_good behaviour fuel st l (by simpa using hg) with ⟨st', log', e', hn⟩ | e'
  · rw [e']; exact .inr ⟨log', hn, rfl⟩
  · rw [e']; exact .inl rfl

/-- **C37** (termination). When no handler registers further functions, `exit` ends. -/
theorem C37_exit_ends (fns : List Nat) (rc : Int) :
    ∃ st log, registerAll Slots.init fns = some (st, log) ∧ ∃ w, exit (fun _ _ => []) 33 st log rc = .done w := by
  obtain ⟨st, e, -, h1, h2, h3⟩ := registerAll_take fns Slots.init (by decide) (by decide)
  obtain ⟨st', e'⟩ := runAtexit_plain 33 st _ h1 h2 (by omega)
  refine ⟨st, _, e, ?_⟩
  unfold exit
  rw [e']
  exact ⟨_, rfl⟩

/-- **C38**. Of any sequence of registrations the first 32 succeed and the others fail, and the failed
ones leave everything as it was. -/
theorem C38_capacity (fns : List Nat) :
    ∃ st, registerAll Slots.init fns = some (st, (fns.take 32).map Event.reg) ∧
      registerAll Slots.init (fns.take 32) = some (st, (fns.take 32).map Event.reg) := by
  obtain ⟨st, e1, e2, -⟩ := registerAll_take fns Slots.init (by decide) (by decide)
  exact ⟨st, e1, e2⟩

/-- Two registrations, and a handler that registers another function: 0 and 1 are registered; 1 is
called and registers 2; 2 is called, then 0. -/
example : ∃ st log, registerAll Slots.init [0, 1] = some (st, log) ∧
    exit (fun _ h => if h = 1 then [2] else []) 9 st log (-1) = .done
      [.reg 0, .reg 1, .call 1, .reg 2, .call 2, .call 0, .flush 1, .flush 2, .exit 4294967295] :=
  ⟨_, _, rfl, by rfl⟩

/-- That log is well nested, the one with the calls in order of registration is not. -/
example : Nested [.reg 0, .reg 1, .call 1, .reg 2, .call 2, .call 0] ∧
    ¬ Nested [.reg 0, .reg 1, .call 0, .call 1] := by
  constructor
  · exact .pair 0 [.reg 1, .call 1, .reg 2, .call 2] [] (.pair 1 [] _ .nil (.pair 2 [] [] .nil .nil)) .nil
  · intro h
    generalize hl : [Event.reg 0, .reg 1, .call 0, .call 1] = l at h
    cases h with
    | nil => simp at hl
    | pair h inner rest hi hr =>
      simp at hl
      obtain ⟨rfl, hl⟩ := hl
      cases hi with
      | nil => simp at hl
      | pair h inner' rest' hi' hr' =>
        simp at hl
        obtain ⟨rfl, hl⟩ := hl
        cases hi' with
        | nil => simp at hl
        | pair => simp at hl

/-- **C39** (violation). With the default action for SIGABRT, `abort` calls `raise`, which calls `abort`,
without end: no number of calls reaches the termination of the process. -/
theorem C39_abort_diverges (hs : Handlers) (h : hs 6 = .dfl) (fuel : Nat) : abort hs fuel = none := by
  induction fuel with
  | zero => rfl
  | succ fuel ih =>
    unfold abort
    have : raise hs 6 = .abort := by simp [raise, lookupHandler, h]
    rw [this]; exact ih

/-- **C39** (partial). When SIGABRT is ignored or has a handler that returns, `abort` terminates the
process with status 134, after calling the handler. Missing: the default action, see above. -/
theorem C39_abort_partial (hs : Handlers) (h : hs 6 ≠ .dfl) :
    ∃ l, abort hs 1 = some (l, 134) ∧ ∀ id, hs 6 = .fn id → l = [id] := by
  unfold abort raise lookupHandler
  rw [if_neg (by omega)]
  simp only [show (6 : Int).toNat = 6 from rfl]
  cases e : hs 6 with
  | dfl => exact absurd e h
  | ign => exact ⟨[], rfl, fun id he => by simp at he⟩
  | fn id => exact ⟨[id], rfl, fun id he => by simp at he; simp [he]⟩

/-- **C40**. `getenv` returns the value of the first entry `name=value`, and null if there is none, reading
no entry beyond its terminator. -/
theorem C40_getenv (h : Host) (name : List Nat) (hn : ∀ c ∈ name, c ≠ 0 ∧ c ≠ 61)
    (he : ∀ e ∈ h.entries, ∀ c ∈ e, c ≠ 0)
    (hok : h.sizesErr = 0 ∧ h.environc ≠ 0 ∧ h.bufSize ≠ 0 ∧ h.padOk ∧ h.ptrsOk ∧ h.bufOk ∧ h.getErr = 0) :
    getenv h (some name) = some (lookup name h.entries) := by
  obtain ⟨h1, h2, h3, h4, h5, h6, h7⟩ := hok
  unfold getenv environInit
  simp only [h1, h2, h3, h4, h5, h6, h7, ne_eq, not_true_eq_false, if_false, or_self]
  exact find_spec name hn h.entries he

/-- **C40** (failure). If the host or the allocator fails, or the environment is empty, or the name is a
null pointer, the result is null. -/
theorem C40_failure (h : Host) (name : Option (List Nat)) (hf : name = none ∨ h.sizesErr ≠ 0 ∨ h.environc = 0 ∨
    h.bufSize = 0 ∨ h.padOk = false ∨ h.ptrsOk = false ∨ h.bufOk = false ∨ h.getErr ≠ 0) :
    getenv h name = some none := by
  unfold getenv
  cases name with
  | none => rfl
  | some n =>
    have : environInit h = none := by
      unfold environInit
      simp only [reduceCtorEq, false_or] at hf
      repeat' split
      all_goals first | rfl | (exfalso; simp_all)
    simp only [this]

/-- Looking up "A" and "AB" in the environment "AB=1", "A=2". -/
example : lookup [65] [[65, 66, 61, 49], [65, 61, 50]] = some [50] ∧
    getenv ⟨0, 2, 9, true, true, true, 0, [[65, 66, 61, 49], [65, 61, 50]]⟩ (some [65]) = some (some [50]) ∧
    getenv ⟨0, 2, 9, true, true, true, 0, [[65, 66, 61, 49], [65, 61, 50]]⟩ (some [65, 66]) = some (some [49]) ∧
    getenv ⟨0, 2, 9, true, true, true, 0, [[65, 66, 61, 49], [65, 61, 50]]⟩ (some [66]) = some none := by decide

/-- **C41**. After any sequence of `signal` calls, a further one for a valid signal returns the handler
most recently installed for that signal, one for an invalid signal fails and changes nothing, and
`raise` acts on the handler most recently installed: it calls a function, ignores SIG_IGN, and for
SIG_DFL aborts exactly for the terminating signals. -/
theorem C41_signal (ops : List (Int × Handler)) (sig : Int) (h : Handler) :
    (0 ≤ sig → sig < 32 → (signal (signals ops) sig h).2 = some (lastSet ops sig) ∧
      (∀ id, lastSet ops sig = .fn id → raise (signals ops) sig = .call id) ∧
      (lastSet ops sig = .ign → raise (signals ops) sig = .ret) ∧
      (lastSet ops sig = .dfl → raise (signals ops) sig = if sig ∈ terminating then .abort else .ret)) ∧
    ((sig < 0 ∨ 32 ≤ sig) → (signal (signals ops) sig h).2 = none ∧ signals (ops ++ [(sig, h)]) = signals ops) := by
  have key : ∀ (ops : List (Int × Handler)) (s : Int), 0 ≤ s → s < 32 → signals ops s.toNat = lastSet ops s := by
    intro ops
    induction ops using List.reverseRecOn with
    | nil => intro s _ _; rfl
    | append_singleton ops op ih =>
      intro s h1 h2
      obtain ⟨t, g⟩ := op
      have e : signals (ops ++ [(t, g)]) = (signal (signals ops) t g).1 := by simp [signals]
      rw [e]
      unfold signal
      by_cases ht : t < 0 ∨ t ≥ 32
      · rw [if_pos ht]
        have : lastSet (ops ++ [(t, g)]) s = lastSet ops s := by
          unfold lastSet
          rw [List.filter_append]
          have : (t == s) = false := by simp; omega
          simp [this]
        rw [this]; exact ih s h1 h2
      · rw [if_neg ht]
        by_cases hst : t = s
        · subst hst
          simp [lastSet]
        · have : lastSet (ops ++ [(t, g)]) s = lastSet ops s := by
            unfold lastSet
            rw [List.filter_append]
            have : (t == s) = false := by simp; exact hst
            simp [this]
          rw [this]
          simp only
          rw [if_neg (by omega)]
          exact ih s h1 h2
  constructor
  · intro h1 h2
    have hk := key ops sig h1 h2
    refine ⟨?_, ?_, ?_, ?_⟩
    · unfold signal; rw [if_neg (by omega), hk]
    · intro id hid
      unfold raise lookupHandler
      rw [if_neg (by omega), hk, hid]
    · intro hid
      unfold raise lookupHandler
      rw [if_neg (by omega), hk, hid]
    · intro hid
      unfold raise lookupHandler
      rw [if_neg (by omega), hk, hid]
      by_cases ht : sig ∈ terminating
      · rw [if_pos ht]
        simp only [terminating, List.mem_cons, List.not_mem_nil, or_false] at ht
        simp only
        rw [if_pos (by omega)]
      · rw [if_neg ht]
        simp only [terminating, List.mem_cons, List.not_mem_nil, or_false] at ht
        simp only
        rw [if_neg (by omega)]
  · intro hs
    constructor
    · unfold signal; rw [if_pos (by omega)]
    · simp only [signals, List.foldl_append, List.foldl_cons, List.foldl_nil, signal]
      rw [if_pos (by omega)]

/-- SIGUSR1 = 10 is given handler 7, then ignored; the second call returns handler 7. -/
example : (signal (signals [(10, .fn 7)]) 10 .ign).2 = some (.fn 7) ∧ raise (signals [(10, .fn 7)]) 10 = .call 7 ∧
    (signal (signals []) 40 (.fn 7)).2 = none ∧ raise (signals []) 15 = .abort ∧ raise (signals []) 10 = .ret := by decide

/-- **C53** (partial). With at most 2 GiB of memory, any sequence of `__sbrk` calls with nonnegative
increments returns pairwise disjoint regions at ascending addresses from the first break on, all inside
linear memory as it is at the end; failed calls return no region. Missing: larger memories, see
`C53_wraps`. -/
theorem C53_regions_partial (limit : Nat) (hlimit : limit ≤ 32768) (m : Memory) (h0 : 1 ≤ m.pages) (hp : m.pages ≤ limit)
    (hmem : m.brk ≤ 65536 * m.pages) (ns : List Int) (hns : ∀ n ∈ ns, 0 ≤ n ∧ n < 2147483648) :
    Regions m.brk (sbrks limit m ns).2 ∧ (∀ r ∈ (sbrks limit m ns).2, r.1 + r.2 ≤ (sbrks limit m ns).1.brk) ∧
      (sbrks limit m ns).1.brk ≤ 65536 * (sbrks limit m ns).1.pages ∧ (sbrks limit m ns).1.pages ≤ limit := by
  obtain ⟨h1, h2, h3, h4, -⟩ := sbrks_spec limit hlimit ns m h0 hp hmem hns
  exact ⟨h1, h2, h3, h4⟩

/-- **C53** (one call). A call that does not wrap around returns the old break and raises it by the
increment, growing memory to cover it; or fails and changes nothing. -/
theorem C53_step (limit : Nat) (hlimit : limit ≤ 65536) (m : Memory) (h0 : 1 ≤ m.pages) (hp : m.pages ≤ limit)
    (n : Int) (hmem : m.brk ≤ 65536 * m.pages) (hlo : 0 ≤ m.brk + n) (hhi : m.brk + n < 4294967296) :
    (∃ m', sbrk limit m n = (m', some m.brk) ∧ (m'.brk : Int) = m.brk + n ∧ m.pages ≤ m'.pages ∧ m'.pages ≤ limit ∧
      m'.brk ≤ 65536 * m'.pages) ∨ sbrk limit m n = (m, none) :=
  sbrk_spec limit hlimit m h0 hp n hmem hlo hhi

/-- **C53** (violation). With the break at 0x90000000, a request for 0x7FFFFFFF bytes wraps around: the call
succeeds without growing memory, and the break moves down below the region just handed out. -/
theorem C53_wraps : sbrk 65536 ⟨2415919104, 36864⟩ 2147483647 = (⟨268435455, 36864⟩, some 2415919104) := by
  decide

/-- A request of 100000 bytes from a break of 100 in one page grows memory to two pages. -/
example : sbrk 32768 ⟨100, 1⟩ 100000 = (⟨100100, 2⟩, some 100) ∧
    sbrks 32768 ⟨100, 1⟩ [50, 100000] = (⟨100150, 2⟩, [(100, 50), (150, 100000)]) := by decide

/-- **C75** (violation). Whatever the frame address of `_start`, the first break is at most 256, so for a
program with static data at `data`, 256 ≤ `data` (the linker puts it from 1024 on), the first
allocation that is longer than `data` bytes overlaps the static data. -/
theorem C75_heap_overlaps_data (frame pages limit data n : Nat) (hdata : 256 ≤ data) (hn : data < n)
    (hn2 : n < 2147483648) (hpages : 1 ≤ pages ∧ pages ≤ limit) (hlimit : limit ≤ 32768)
    (hfit : n + 256 ≤ 65536 * pages) :
    ∃ p m', sbrk limit ⟨initialBreak frame, pages⟩ n = (m', some p) ∧ p ≤ data ∧ data < p + n := by
  have hb := initialBreak_le frame
  unfold sbrk
  simp only
  have hw : u32 ((initialBreak frame : Int) + (n : Int)) = initialBreak frame + n := by unfold u32; omega
  rw [hw, Nat.mod_eq_of_lt (show 65536 * pages < 4294967296 by omega), if_neg (by omega)]
  exact ⟨_, _, rfl, by omega, by omega⟩

/-- The hypotheses hold for two pages of memory, static data at 1024 and an allocation of 64 KiB. -/
example : ∃ p m', sbrk 32768 ⟨initialBreak 66544, 2⟩ 65536 = (m', some p) ∧ p ≤ 1024 ∧ 1024 < p + 65536 :=
  C75_heap_overlaps_data 66544 2 32768 1024 65536 (by decide) (by decide) (by decide) (by decide) (by decide) (by decide)

end Verif.Process
