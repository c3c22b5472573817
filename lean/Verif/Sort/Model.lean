import Verif.Base

/-!
# Model of `qsort` and `bsearch` (src/stdlib/qsort.c, src/stdlib/bsearch.c)

The unit of the model is one element: `E` is the type of the contents of `size` bytes, the array is a
function from the element index to contents, and the comparison function is a function of two contents.
A call on a subarray carries the index `lo` of its first element. `none` is undefined behaviour: an
access outside the subarray `[lo, lo + count)` a function was called on.

`copy_` and `swap_` (qsort.c:23-52) are taken to copy and exchange one element; the model does not
express that an element is sometimes exchanged with itself through `restrict` pointers. Offsets of
elements inside the array are exact natural numbers, since an object has at most PTRDIFF_MAX bytes.
-/

namespace Verif.Sort

variable {E : Type}

/-- Store one element. -/
def upd (a : Nat → E) (i : Nat) (x : E) : Nat → E := fun j => if j = i then x else a j

/-- `swap_`, qsort.c:37-52, on two elements. -/
def swap (a : Nat → E) (i j : Nat) : Nat → E := upd (upd a i (a j)) j (a i)

/-- `guard` for an access to element `i`. -/
def inb (lo count i : Nat) : Option Unit := if lo ≤ i ∧ i < lo + count then some () else none

section
variable (cmp : E → E → Int)

/-- Inner loop of `insertion_sort_`, qsort.c:16-17. The argument is one more than the element index of
`b`; it is 0 when `b` is `size` bytes before the whole array, which lies at address `base`: then
`b >= begin` is a comparison of addresses modulo 2^32, and if it holds, line 16 reads outside the array.
The result is the array and the index of `b + size`. -/
def insLoop (base size lo count : Nat) (c : E) : Nat → (Nat → E) → Option ((Nat → E) × Nat)
  | 0, a => if base ≤ (base + 4294967296 - size) % 4294967296 then none else some (a, 0)
  | b + 1, a =>
    if lo ≤ b then do
      inb lo count b
      if cmp c (a b) < 0 then do
        inb lo count (b + 1)
        insLoop base size lo count c b (upd a (b + 1) (a b))
      else some (a, b + 1)
    else some (a, b + 1)

/-- Outer loop of `insertion_sort_`, qsort.c:9-20; `k` iterations remain, starting at `i`. -/
def insOuter (base size lo count : Nat) : Nat → Nat → (Nat → E) → Option (Nat → E)
  | 0, _, a => some a
  | k + 1, i, a => do
    inb lo count (lo + i)
    let c := a (lo + i)
    let (a, b) ← insLoop cmp base size lo count c (lo + i) a
    inb lo count b
    insOuter base size lo count k (i + 1) (upd a b c)

/-- `insertion_sort_`, qsort.c:5-21. -/
def insertionSort (base size lo count : Nat) (a : Nat → E) : Option (Nat → E) :=
  insOuter cmp base size lo count (count - 1) 1 a

/-- Element index of heap node `k` (nodes count from 1). -/
def node (lo count k : Nat) : Option Nat :=
  if k = 0 then none else do inb lo count (lo + (k - 1)); some (lo + (k - 1))

/-- `leaf_`, qsort.c:54-61; `m` is the parameter `count`, the number of nodes, and `count` the size of
the array. The loop runs at most `m` times as the node doubles. -/
def leaf (lo count m : Nat) (a : Nat → E) (i : Nat) : Option Nat :=
  if h : 2 * i < m then
    if hi : i = 0 then none else do
      let x ← node lo count (2 * i)
      let y ← node lo count (2 * i + 1)
      leaf lo count m a (2 * i + if cmp (a x) (a y) < 0 then 1 else 0)
  else some (if 2 * i = m then 2 * i else i)
termination_by m - i
decreasing_by split <;> omega

/-- qsort.c:69-70. -/
def climb (lo count stem : Nat) (a : Nat → E) (o : Nat) : Option Nat :=
  if h : o = 0 then none else do
    let x ← node lo count o
    let y ← node lo count stem
    if cmp (a x) (a y) < 0 then climb lo count stem a (o / 2) else some o
termination_by o
decreasing_by omega

/-- qsort.c:75-78. -/
def rotate (lo count stem : Nat) (a : Nat → E) (buffer : E) (o : Nat) : Option (Nat → E) :=
  if h : stem < o then do
    let x ← node lo count (o / 2)
    rotate lo count stem (upd a x buffer) (a x) (o / 2)
  else some a
termination_by o
decreasing_by omega

/-- `siftdown_`, qsort.c:63-79. -/
def siftdown (lo count stem m : Nat) (a : Nat → E) : Option (Nat → E) := do
  let o ← leaf cmp lo count m a stem
  let o ← climb cmp lo count stem a o
  let x ← node lo count o
  let y ← node lo count stem
  rotate lo count stem (upd a x (a y)) (a x) o

/-- qsort.c:83-84. -/
def heapify (lo count : Nat) : Nat → (Nat → E) → Option (Nat → E)
  | 0, a => some a
  | parent + 1, a => do
    let a ← siftdown cmp lo count (parent + 1) count a
    heapify lo count parent a

/-- qsort.c:86-89. -/
def extract (lo count : Nat) : Nat → (Nat → E) → Option (Nat → E)
  | 0, a => some a
  | m + 1, a => do
    inb lo count lo
    inb lo count (lo + m)
    let a ← siftdown cmp lo count 1 m (swap a lo (lo + m))
    extract lo count m a

/-- `heapsort_`, qsort.c:81-90. -/
def heapsort (lo count : Nat) (a : Nat → E) : Option (Nat → E) := do
  let a ← heapify cmp lo count (count / 2) a
  extract cmp lo count count a

/-- qsort.c:110; `p` is the pivot. -/
def scanUp (lo count p : Nat) (a : Nat → E) (i : Nat) : Option Nat :=
  if h : lo ≤ i + 1 ∧ i + 1 < lo + count then
    if cmp (a (i + 1)) (a p) < 0 then scanUp lo count p a (i + 1) else some (i + 1)
  else none
termination_by lo + count - i
decreasing_by omega

/-- qsort.c:111. -/
def scanDown (lo count p : Nat) (a : Nat → E) : Nat → Option Nat
  | 0 => none
  | j + 1 =>
    if lo ≤ j ∧ j < lo + count then
      if cmp (a p) (a j) < 0 then scanDown lo count p a j else some j
    else none

theorem scanDown_lt (lo count p : Nat) (a : Nat → E) (j j' : Nat) (h : scanDown cmp lo count p a j = some j') :
    j' < j := by
  induction j with
  | zero => simp [scanDown] at h
  | succ j ih =>
    unfold scanDown at h
    split at h
    · split at h
      · have := ih h; omega
      · simp at h; omega
    · simp at h

/-- qsort.c:109-118: front at `i`, back at `j`, pivot at `p`. -/
def partLoop (lo count p : Nat) (a : Nat → E) (i j : Nat) : Option ((Nat → E) × Nat) :=
  match scanUp cmp lo count p a i with
  | none => none
  | some i =>
    match h : scanDown cmp lo count p a j with
    | none => none
    | some j' =>
      if j' ≤ i then some (swap a i p, i)
      else partLoop lo count p (swap a i j') i j'
termination_by j
decreasing_by exact scanDown_lt cmp _ _ _ _ _ _ h

/-- `partition_`, qsort.c:92-119: the array and the index of the element returned. -/
def partition (lo count : Nat) (a : Nat → E) : Option ((Nat → E) × Nat) := do
  let middle := lo + count / 2
  let back := lo + (count - 1)
  inb lo count lo
  inb lo count middle
  inb lo count back
  let a := if cmp (a middle) (a lo) < 0 then swap a lo middle else a
  let a := if cmp (a back) (a lo) < 0 then swap a lo back else a
  let a := if cmp (a middle) (a back) < 0 then swap a middle back else a
  partLoop cmp lo count back a lo back

/-- `introsort_`, qsort.c:121-134. -/
def introsort (base size lo count : Nat) (ttl : Int) (a : Nat → E) : Option (Nat → E) :=
  if count ≤ 8 then insertionSort cmp base size lo count a
  else if h : ttl < 0 then heapsort cmp lo count a
  else do
    let (a, pivot) ← partition cmp lo count a
    let index := pivot - lo
    let a ← introsort base size lo index (ttl - 1) a
    introsort base size pivot (count - index) (ttl - 1) a
termination_by (ttl + 1).toNat
decreasing_by all_goals omega

/-- `qsort`, qsort.c:136-141, on `count` elements of `size` bytes at address `base`. `clz0` is whatever
`__builtin_clz(0)` gives, which is undefined. -/
def qsort (clz0 : Int) (base size count : Nat) (a : Nat → E) : Option (Nat → E) :=
  let clz : Int := if count = 0 then clz0 else 31 - Nat.log2 count
  introsort cmp base size 0 count (31 - clz) a

/-- `bsearch`, bsearch.c:3-19, on the `count` elements from index `lo`. The outcome is `none` if the
recursion has not ended after `fuel` calls; otherwise the index found, or `none` for a null pointer. -/
def bsearch {K : Type} (cmpk : K → E → Int) (key : K) (a : Nat → E) : Nat → Nat → Nat → Option (Option Nat)
  | 0, _, _ => none
  | fuel + 1, lo, count =>
    if count = 0 then some none
    else
      let half := count / 2
      let pivot := lo + half
      if cmpk key (a pivot) < 0 then bsearch cmpk key a fuel lo half
      else if cmpk key (a pivot) ≠ 0 then bsearch cmpk key a fuel pivot (count - half)
      else some (some pivot)

end

end Verif.Sort
