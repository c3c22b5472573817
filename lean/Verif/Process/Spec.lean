/-!
# Specification of process services: termination, environment, signals
-/

namespace Verif.Process

/-- What can be observed of the life of a process: a successful registration of a function to be called
at exit, the call of such a function, the flushing of a standard stream, termination. -/
inductive Event
  | reg (handler : Nat)
  | call (handler : Nat)
  | flush (fd : Nat)
  | exit (code : Nat)
  deriving DecidableEq, Repr

/-- Well-nested logs: every registration is matched by exactly one later call of the function
registered, and between the two everything registered has also been called. Thus functions are called
in the reverse order of registration. -/
inductive Nested : List Event → Prop
  | nil : Nested []
  | pair (h : Nat) (inner rest : List Event) (hi : Nested inner) (hr : Nested rest) :
      Nested (Event.reg h :: (inner ++ Event.call h :: rest))

/-- The value of the first entry `name=value`. -/
def lookup (name : List Nat) : List (List Nat) → Option (List Nat)
  | [] => none
  | e :: es => if (name ++ [61]).isPrefixOf e then some (e.drop (name.length + 1)) else lookup name es

/-- A handler: SIG_DFL, SIG_IGN or a function. -/
inductive Handler
  | dfl
  | ign
  | fn (id : Nat)
  deriving DecidableEq, Repr

/-- The handler most recently given for a signal; SIG_DFL at first. -/
def lastSet (ops : List (Int × Handler)) (sig : Int) : Handler :=
  ((ops.filter fun op => op.1 == sig).getLast?.map (·.2)).getD .dfl

/-- The signals of C11 whose default action terminates the program: SIGABRT 6, SIGFPE 8, SIGILL 4,
SIGINT 2, SIGSEGV 11, SIGTERM 15. -/
def terminating : List Int := [2, 4, 6, 8, 11, 15]

/-- Regions (address and length) at ascending addresses from `b` on, hence pairwise disjoint. -/
def Regions (b : Nat) : List (Nat × Nat) → Prop
  | [] => True
  | (p, n) :: r => b ≤ p ∧ Regions (p + n) r

end Verif.Process
