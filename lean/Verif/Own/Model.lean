import Verif.Str.Model
import Mathlib.Data.Finset.Basic

/-! Model of the nested array allocators (`cross-level/alloc-cl.c`) and of the memory of tables
(`cross-level/table-cl.c`): which blocks of memory are obtained and given back. Contents of blocks and running
out of memory are not modelled (contents after reallocation: C32). Blocks are numbers. -/

namespace Verif.Own

open Verif.Str (Out)

/-- The heap of libc: the blocks in use, and the next unused number. -/
structure Heap where
  next : Nat
  live : Finset Nat
deriving DecidableEq

/-- alloc-cl.c:38-46 `alloc`: a new block. Simplified: `calloc` of zero bytes also returns a block (glibc). -/
def alloc (h : Heap) : Heap × Nat := (⟨h.next + 1, insert h.next h.live⟩, h.next)

/-- libc `free`, used by alloc-cl.c:272-273, 288-289, 306-309 and table-cl.c:474-504; a block that is not in use is undefined
behaviour. -/
def free (h : Heap) (p : Nat) : Out Heap := if p ∈ h.live then .ok { h with live := h.live.erase p } else .ub

/-- An array of pointers (block `base`) to blocks `rows`. -/
structure Arr2 where
  base : Nat
  rows : List Nat
deriving DecidableEq

/-- alloc-cl.c:62, 109: the loop that allocates `n` blocks. -/
def allocN (h : Heap) : Nat → Heap × List Nat
  | 0 => (h, [])
  | n + 1 => ((allocN (alloc h).1 n).1, (alloc h).2 :: (allocN (alloc h).1 n).2)

/-- alloc-cl.c:57-66 `alloc_2D`. -/
def alloc2D (h : Heap) (n1 : Nat) : Heap × Arr2 :=
  let b := alloc h
  let r := allocN b.1 n1
  (r.1, ⟨b.2, r.2⟩)

/-- alloc-cl.c:272, 306: `n` elements of an array of pointers are freed; an element beyond the array is undefined behaviour. -/
def freeN (h : Heap) : List Nat → Nat → Out Heap
  | _, 0 => .ok h
  | [], _ + 1 => .ub
  | p :: ps, n + 1 => (free h p).bind fun h' => freeN h' ps n

/-- alloc-cl.c:269-276 `free_2D`; the array of pointers must still be in use to be read. -/
def free2D (h : Heap) (a : Arr2) (n : Nat) : Out Heap :=
  if 0 < n ∧ a.base ∉ h.live then .ub
  else (freeN h a.rows n).bind fun h' => free h' a.base

/-- A contiguous array: the data, and a block of pointers into it, given as offsets in elements. -/
structure Arr2C where
  base : Nat
  rows : List (Nat × Nat)
deriving DecidableEq

/-- alloc-cl.c:79-90 `alloc_2DC`. -/
def alloc2DC (h : Heap) (n1 n2 : Nat) : Heap × Arr2C :=
  let d := alloc h
  let b := alloc d.1
  (b.1, ⟨b.2, (List.range n1).map fun i => (d.2, i * n2)⟩)

/-- alloc-cl.c:286-292 `free_2DC`; only the start of a block can be freed. -/
def free2DC (h : Heap) (a : Arr2C) : Out Heap :=
  if a.base ∉ h.live then .ub
  else match a.rows with
    | [] => .ub
    | (d, o) :: _ => if o ≠ 0 then .ub else (free h d).bind fun h' => free h' a.base

/-- An array of pointers to arrays of pointers. -/
structure Arr3 where
  base : Nat
  rows : List Arr2
deriving DecidableEq

/-- alloc-cl.c:107-110: the loop of `alloc_3D`. -/
def allocRows (h : Heap) (n2 : Nat) : Nat → Heap × List Arr2
  | 0 => (h, [])
  | n + 1 => ((allocRows (alloc2D h n2).1 n2 n).1, (alloc2D h n2).2 :: (allocRows (alloc2D h n2).1 n2 n).2)

/-- alloc-cl.c:102-114 `alloc_3D`. -/
def alloc3D (h : Heap) (n1 n2 : Nat) : Heap × Arr3 :=
  let b := alloc h
  let r := allocRows b.1 n2 n1
  (r.1, ⟨b.2, r.2⟩)

/-- alloc-cl.c:305-308: the loop of `free_3D`. -/
def freeRows (h : Heap) (n2 : Nat) : List Arr2 → Nat → Out Heap
  | _, 0 => .ok h
  | [], _ + 1 => .ub
  | a :: as, n + 1 => (free2D h a n2).bind fun h' => freeRows h' n2 as n

/-- alloc-cl.c:302-312 `free_3D`. -/
def free3D (h : Heap) (a : Arr3) (n1 n2 : Nat) : Out Heap :=
  if 0 < n1 ∧ a.base ∉ h.live then .ub
  else (freeRows h n2 a.rows n1).bind fun h' => free h' a.base

/-- The pointers of a table (`none`: NULL). The cells, masks' values and statistics are in module Csv and Table. -/
structure Tab where
  nrow : Nat
  ncol : Nat
  hasRowNames : Bool
  hasColNames : Bool
  data : Option Arr2
  rowNames : Option Arr2
  colNames : Option Arr2
  rowMask : Option Nat
  colMask : Option Nat
  mean : Option Nat
  sd : Option Nat
  min : Option Nat
  max : Option Nat
  sum : Option Nat
deriving DecidableEq

/-- table-cl.c:269-274, 276-281: names are only allocated if the table has them. -/
def allocNames (h : Heap) (has : Bool) (n : Nat) : Heap × Option Arr2 :=
  if has then ((alloc2D h n).1, some (alloc2D h n).2) else (h, none)

/-- table-cl.c:258-299 `allocate_table`. -/
def allocateTable (h : Heap) (nrow ncol : Nat) (hasRow hasCol : Bool) : Heap × Tab :=
  let d := alloc2D h nrow
  let r := allocNames d.1 hasRow nrow
  let c := allocNames r.1 hasCol ncol
  let rm := alloc c.1
  let cm := alloc rm.1
  let me := alloc cm.1
  let sd := alloc me.1
  let mi := alloc sd.1
  let ma := alloc mi.1
  let su := alloc ma.1
  (su.1, { nrow := nrow, ncol := ncol, hasRowNames := hasRow, hasColNames := hasCol, data := some d.2, rowNames := r.2,
           colNames := c.2, rowMask := some rm.2, colMask := some cm.2, mean := some me.2, sd := some sd.2,
           min := some mi.2, max := some ma.2, sum := some su.2 })

/-- table-cl.c:460-462, 464-466: names are freed, the pointer is kept. -/
def freeNames (h : Heap) (has : Bool) (a : Option Arr2) (n : Nat) : Out Heap :=
  match has, a with
  | true, some a => free2D h a n
  | _, _ => .ok h

/-- table-cl.c:468-471: the cells. -/
def freeData (h : Heap) (a : Option Arr2) (n : Nat) : Out Heap :=
  match a with
  | some a => free2D h a n
  | none => .ok h

/-- table-cl.c:473-476 and the following: a pointer that is not NULL is freed. -/
def freeOpt (h : Heap) (a : Option Nat) : Out Heap :=
  match a with
  | some p => free h p
  | none => .ok h

/-- table-cl.c:452-509 `free_table`: the heap and the table afterwards. -/
def freeTable (h : Heap) (t : Tab) : Out (Heap × Tab) :=
  if t.nrow < 1 ∨ t.ncol < 1 then .exit
  else
    (freeNames h t.hasRowNames t.rowNames t.nrow).bind fun h =>
    (freeNames h t.hasColNames t.colNames t.ncol).bind fun h =>
    (freeData h t.data t.nrow).bind fun h =>
    (freeOpt h t.rowMask).bind fun h =>
    (freeOpt h t.colMask).bind fun h =>
    (freeOpt h t.mean).bind fun h =>
    (freeOpt h t.sd).bind fun h =>
    (freeOpt h t.min).bind fun h =>
    (freeOpt h t.max).bind fun h =>
    (freeOpt h t.sum).bind fun h =>
    .ok (h, { t with data := none, rowMask := none, colMask := none, mean := none, sd := none, min := none,
                     max := none, sum := none })

end Verif.Own
