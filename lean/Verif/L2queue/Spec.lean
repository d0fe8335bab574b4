import Verif.L2queue.Model

/-!
# Specification of the Level 2 queue
-/

namespace Verif.L2queue.Spec

/-- A line of the queue: image and status. -/
structure Entry where
  path : List Char
  status : List Char
deriving DecidableEq

/-- The line in the file. -/
def Entry.line (e : Entry) : List Char := e.path ++ ' ' :: e.status

def QUEUED : List Char := ['Q', 'U', 'E', 'U', 'E', 'D']
def DONE : List Char := ['D', 'O', 'N', 'E']
def FAIL : List Char := ['F', 'A', 'I', 'L']

/-- The text `t` is described by the path `p`, with points as placeholders. -/
def Looks (p t : List Char) : Prop := List.Forall₂ (fun a b => a = '.' ∨ a = b) p t

/-- Path `p` describes the end of path `q`. -/
def Collide (p q : List Char) : Prop := ∃ pre t, q = pre ++ t ∧ Looks p t

/-- A usable queue: paths are not empty and contain neither blanks nor `+` nor the word QUEUED; the status is one of
three words; no path describes the end of another path. -/
structure GoodQueue (es : List Entry) : Prop where
  path : ∀ e ∈ es, e.path ≠ [] ∧ ' ' ∉ e.path ∧ '+' ∉ e.path ∧ hasQueued e.path = false
  status : ∀ e ∈ es, e.status = QUEUED ∨ e.status = DONE ∨ e.status = FAIL
  apart : es.Pairwise fun a b => ¬ Collide a.path b.path ∧ ¬ Collide b.path a.path

/-- All workers have finished. -/
def Finished (s : Sys) : Prop := ∀ pc ∈ s.pcs, pc = .done

end Verif.L2queue.Spec
