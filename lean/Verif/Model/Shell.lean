import Verif.Model.Py

/-!
# The pager of the migration shell (/repo/QTIMigration/lib/qtish.py)
-/

namespace Verif.Shell

open Verif

/-- The paging attributes of `QTIMigrationShell` (qtish.py:49-58).  `pageSize` is 30 and never assigned again. -/
structure St (α : Type) where
  list : List α
  pageNum : Int
  pageSize : Nat

/-- The page clamping at the start of `PrintPage` (qtish.py:81-89): `nPages` and the new `pageNum`. -/
def clamp {α} (s : St α) : Int × Int :=
  if s.list ≠ [] then
    let nPages := ((s.list.length : Int) - 1) / s.pageSize + 1
    (nPages, if s.pageNum ≥ nPages then nPages - 1 else if s.pageNum < 0 then 0 else s.pageNum)
  else (0, 0)

/-- `PrintPage` (qtish.py:80-96): the entries printed and the new state.  The slice is `self.list[start:start+size]`; the
clamped start is never negative. The header and the page counter line are not modelled. -/
def printPage {α} (s : St α) : List α × St α :=
  let p := (clamp s).2
  let start := p * s.pageSize
  ((s.list.drop start.toNat).take s.pageSize, { s with pageNum := p })

/-- The paging commands. -/
inductive Cmd where
  | next
  | back
deriving DecidableEq, Repr

/-- `do_next` and `do_back` (qtish.py:103-105, 115-117). -/
def doCmd {α} (s : St α) : Cmd → List α × St α
  | .next => printPage { s with pageNum := s.pageNum + 1 }
  | .back => printPage { s with pageNum := s.pageNum - 1 }

/-- The pages printed: the one printed by the command that produced the list (with `pageNum` 0 after `ClearPages`,
qtish.py:55-58), and then one for each paging command. -/
def pages {α} (s : St α) : List Cmd → List (List α)
  | [] => []
  | c :: cs => (doCmd s c).1 :: pages (doCmd s c).2 cs

/-- A session: list command followed by paging commands. -/
def session {α} (list : List α) (pageSize : Nat) (cs : List Cmd) : List (List α) :=
  let r := printPage ⟨list, 0, pageSize⟩
  r.1 :: pages r.2 cs

end Verif.Shell
