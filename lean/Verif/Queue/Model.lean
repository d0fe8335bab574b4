/-!
# Model of the FIFO coordinate queue

Models `/repo/src/modules/cross-level/queue-cl.c`.
-/

namespace Verif.Queue

/-- The conversion `(short)x` of an `int`. -/
def toShort (x : Int) : Int := (BitVec.ofInt 16 x).toInt

/-- queue-cl.h `queue_t`: circular buffer; the two coordinate buffers are one buffer of pairs. -/
structure Q where
  head : Nat
  tail : Nat
  size : Nat
  buf : Nat → Int × Int

/-- queue-cl.c:37-47 `create_queue`; the buffer is zeroed by `alloc`. -/
def create (size : Nat) : Q := ⟨0, 0, size, fun _ => (0, 0)⟩

/-- Result of a call. `ub`: access outside the buffer. -/
inductive Res where
  | failure | success (x y : Int) | ub
  deriving DecidableEq, Repr

/-- queue-cl.c:73-86 `enqueue`. -/
def enqueue (q : Q) (x y : Int) : Res × Q :=
  if q.head + 1 = q.tail ∨ (q.head + 1 = q.size ∧ q.tail = 0) then (.failure, q)
  else if q.head ≥ q.size then (.ub, q)
  else
    let buf := fun i => if i = q.head then (toShort x, toShort y) else q.buf i
    let head := q.head + 1
    let head := if head = q.size then 0 else head
    (.success x y, { q with buf := buf, head := head })

/-- queue-cl.c:95-108 `dequeue`. -/
def dequeue (q : Q) : Res × Q :=
  if q.tail ≠ q.head then
    if q.tail ≥ q.size then (.ub, q)
    else
      let xy := q.buf q.tail
      let tail := q.tail + 1
      let tail := if tail = q.size then 0 else tail
      (.success xy.1 xy.2, { q with tail := tail })
  else (.failure, q)

/-- A call of the queue API. -/
inductive Op where
  | enq (x y : Int)
  | deq

/-- One call. -/
def step (q : Q) : Op → Res × Q
  | .enq x y => enqueue q x y
  | .deq => dequeue q

/-- A sequence of calls; the list of results. -/
def run (q : Q) : List Op → List Res
  | [] => []
  | o :: os => (step q o).1 :: run (step q o).2 os

end Verif.Queue
