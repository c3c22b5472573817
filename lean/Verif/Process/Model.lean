import Verif.Base
import Verif.Process.Spec

/-!
# Model of process services
-/

namespace Verif.Process

/-! ## Pseudo-random numbers, src/stdlib/rand.c -/

/-- `srand`, rand.c:5-8: the new state. -/
def srand (seed : Nat) : Nat := seed % 4294967296

/-- `rand`, rand.c:10-13: the new state; `uint_fast32_t` is `uintptr_t` (include/stdint.h:44), which
has 32 bits. -/
def rand (state : Nat) : Nat := state * 48271 % 4294967296 % 2147483647

/-- The value `rand` returns, converted to `int`. -/
def randValue (state : Nat) : Int := s32 (rand state)

/-- Initial state, rand.c:3. -/
def randInit : Nat := 1

/-- The state after `n` calls. -/
def randN : Nat → Nat → Nat
  | 0, s => s
  | n + 1, s => randN n (rand s)

/-! ## `atexit` and `exit`, src/stdlib/atexit.c, src/stdlib/exit.c -/

/-- `table_` and `count_`, atexit.c:6-7 (and quick_exit.c:9-10). -/
structure Slots where
  table : Nat → Nat
  count : Int

/-- Program start: zero-initialised. -/
def Slots.init : Slots := ⟨fun _ => 0, 0⟩

/-- `atexit`, atexit.c:9-16; `none` is a store outside the table. -/
def atexit (st : Slots) (fn : Nat) : Option (Slots × Int) :=
  if st.count ≥ 32 then some (st, 1)
  else if 0 ≤ st.count then
    some (⟨fun i => if i = st.count.toNat then fn else st.table i, st.count + 1⟩, 0)
  else none

/-- A sequence of `atexit` calls, with the log of those that succeeded. -/
def registerAll : Slots → List Nat → Option (Slots × List Event)
  | st, [] => some (st, [])
  | st, fn :: fns =>
    match atexit st fn with
    | none => none
    | some (st, r) =>
      match registerAll st fns with
      | none => none
      | some (st, log) => some (st, if r = 0 then Event.reg fn :: log else log)

/-- The outcome of a computation that may not end. -/
inductive Run (α : Type)
  | more
  | undefined
  | done (a : α)

/-- `__run_atexit_`, atexit.c:18-22. `behaviour log h` is the sequence of functions that handler `h`
registers when called after `log`. The log grows at its end. -/
def runAtexit (behaviour : List Event → Nat → List Nat) : Nat → Slots → List Event → Run (Slots × List Event)
  | 0, _, _ => .more
  | fuel + 1, st, log =>
    if st.count = 0 then .done (st, log)
    else
      let c := st.count - 1
      if 0 ≤ c ∧ c < 32 then
        let h := st.table c.toNat
        let log := log ++ [Event.call h]
        match registerAll ⟨st.table, c⟩ (behaviour log h) with
        | none => .undefined
        | some (st, more) => runAtexit behaviour fuel st (log ++ more)
      else .undefined

/-- `exit`, exit.c:13-19: run the handlers, flush stdout and stderr, terminate with the status. -/
def exit (behaviour : List Event → Nat → List Nat) (fuel : Nat) (st : Slots) (log : List Event) (rc : Int) :
    Run (List Event) :=
  match runAtexit behaviour fuel st log with
  | .more => .more
  | .undefined => .undefined
  | .done (_, log) => .done (log ++ [Event.flush 1, Event.flush 2, Event.exit (u32 rc)])

/-- `quick_exit`, quick_exit.c:21-27: its table and loop are those of atexit.c. -/
def quickExit (behaviour : List Event → Nat → List Nat) (fuel : Nat) (st : Slots) (log : List Event) (rc : Int) :
    Run (List Event) :=
  match runAtexit behaviour fuel st log with
  | .more => .more
  | .undefined => .undefined
  | .done (_, log) => .done (log ++ [Event.exit (u32 rc)])

/-! ## Signals, src/signal -/

/-- `handlers_`, signal.c:18. -/
abbrev Handlers := Nat → Handler

/-- `signal`, signal.c:20-28; the result is `none` for SIG_ERR. -/
def signal (hs : Handlers) (sig : Int) (h : Handler) : Handlers × Option Handler :=
  if sig < 0 ∨ sig ≥ 32 then (hs, none)
  else (fun i => if i = sig.toNat then h else hs i, some (hs sig.toNat))

/-- The handlers after a sequence of `signal` calls from program start. -/
def signals (ops : List (Int × Handler)) : Handlers :=
  ops.foldl (fun hs op => (signal hs op.1 op.2).1) fun _ => .dfl

/-- `__metallic_signal_handler`, signal.c:33-38. -/
def lookupHandler (hs : Handlers) (sig : Int) : Handler :=
  if sig < 0 ∨ sig ≥ 32 then .dfl else hs sig.toNat

/-- What `raise` does: return 0, call `abort`, or call a handler and return 0. -/
inductive RaiseAction
  | ret
  | abort
  | call (id : Nat)
  deriving DecidableEq, Repr

/-- `raise`, raise.c:7-36. -/
def raise (hs : Handlers) (sig : Int) : RaiseAction :=
  match lookupHandler hs sig with
  | .ign => .ret
  | .dfl => if sig = 6 ∨ sig = 8 ∨ sig = 4 ∨ sig = 2 ∨ sig = 11 ∨ sig = 15 then .abort else .ret
  | .fn id => .call id

/-- `abort`, exit.c:25-29, which raises SIGABRT and terminates with 134. A handler that returns may
change the table in between, which no longer matters. The result is the list of handlers called and
the exit code; `none` if this takes more than `fuel` nested calls. -/
def abort (hs : Handlers) : Nat → Option (List Nat × Nat)
  | 0 => none
  | fuel + 1 =>
    match raise hs 6 with
    | .ret => some ([], 134)
    | .abort => abort hs fuel
    | .call id => some ([id], 134)

/-- `raise` from the outside: the handlers called, and the exit code if it terminates the process. -/
def raiseRun (hs : Handlers) (sig : Int) (fuel : Nat) : Option (List Nat × Option Nat) :=
  match raise hs sig with
  | .ret => some ([], none)
  | .call id => some ([id], none)
  | .abort => (abort hs fuel).map fun (l, c) => (l, some c)

/-! ## Environment, src/stdlib/environ.c, src/stdlib/getenv.c

A C string is the list of its bytes without the terminator; `at?` reads the terminator at the end of
the list and is undefined beyond. -/

/-- Byte `i` of a string. -/
def at? (s : List Nat) (i : Nat) : Option Nat := (s ++ [0])[i]?

/-- `matches`, environ.c:84-93, from index `i`; the loop ends within the length of the name. -/
def matchesFrom (entry name : List Nat) : Nat → Nat → Option Bool
  | 0, _ => none
  | fuel + 1, i => do
    let n ← at? name i
    if n ≠ 0 ∧ n ≠ 61 then
      let e ← at? entry i
      if e ≠ n then return false
      matchesFrom entry name fuel (i + 1)
    else
      let e ← at? entry i
      return e = 61

/-- environ.c:110-113: the value of a matching entry, as the rest of the entry. -/
def valueFrom (entry : List Nat) : Nat → Nat → Option (Option (List Nat))
  | 0, _ => none
  | fuel + 1, j => do
    let e ← at? entry j
    if e ≠ 0 ∧ e ≠ 61 then valueFrom entry fuel (j + 1)
    else return if e ≠ 0 then some (entry.drop (j + 1)) else none

/-- The loop of `__environ_find`, environ.c:105-116; entries are non-null. -/
def findEntry (name : List Nat) : List (List Nat) → Option (Option (List Nat))
  | [] => some none
  | e :: es => do
    if ← matchesFrom e name (name.length + 1) 0 then valueFrom e (e.length + 1) 0
    else findEntry name es

/-- What the host and the allocator answer to `environ_init`: the errors of the two host calls, the two
sizes, and whether the three `__sbrk` calls succeed. `entries` is what a successful call stores. -/
structure Host where
  sizesErr : Nat
  environc : Nat
  bufSize : Nat
  padOk : Bool
  ptrsOk : Bool
  bufOk : Bool
  getErr : Nat
  entries : List (List Nat)

/-- `environ_init` on first use, environ.c:28-82: the entries if it succeeds (`s_state` 1), `none` for
`s_state` 2. -/
def environInit (h : Host) : Option (List (List Nat)) :=
  if h.sizesErr ≠ 0 then none
  else if h.environc = 0 ∨ h.bufSize = 0 then none
  else if ¬ h.padOk then none
  else if ¬ h.ptrsOk then none
  else if ¬ h.bufOk then none
  else if h.getErr ≠ 0 then none
  else some h.entries

/-- `getenv`, getenv.c:11-14, with `__environ_find`, environ.c:99-117. The name is `none` for a null
pointer. -/
def getenv (h : Host) (name : Option (List Nat)) : Option (Option (List Nat)) :=
  match name with
  | none => some none
  | some n =>
    match environInit h with
    | none => some none
    | some es => findEntry n es

/-! ## The program break, src/unistd/sbrk.c, src/crt/crt1.c -/

/-- The break and the size of linear memory in pages of 64 KiB. -/
structure Memory where
  brk : Nat
  pages : Nat
  deriving DecidableEq, Repr

/-- `__sbrk`, sbrk.c:5-20. `limit` is the number of pages beyond which `memory.grow` fails. The result
is the address returned, or `none` for `(void*)-1`. -/
def sbrk (limit : Nat) (m : Memory) (increment : Int) : Memory × Option Nat :=
  let capacity := 65536 * m.pages % 4294967296
  let wanted := u32 (m.brk + increment)
  if wanted > capacity then
    let excess := wanted - capacity
    let pages := (65535 + excess) % 4294967296 / 65536
    if m.pages + pages > limit then (m, none)
    else (⟨wanted, m.pages + pages⟩, some m.brk)
  else (⟨wanted, m.pages⟩, some m.brk)

/-- A sequence of `__sbrk` calls: the final state and the regions returned by those that succeed. -/
def sbrks (limit : Nat) : Memory → List Int → Memory × List (Nat × Nat)
  | m, [] => (m, [])
  | m, n :: ns =>
    match sbrk limit m n with
    | (m', none) => sbrks limit m' ns
    | (m', some p) => let r := sbrks limit m' ns; (r.1, (p, n.toNat) :: r.2)

/-- The initial break, crt1.c:51, from the frame address of `_start`. -/
def initialBreak (frame : Nat) : Nat := (frame &&& 255) + 1

end Verif.Process
