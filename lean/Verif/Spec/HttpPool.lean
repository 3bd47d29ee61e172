import Verif.Model.HttpPool

/-!
# What is asked of the connections of an HTTP client

Said in terms of the calls of the manager and of the connections that are made, bound to threads, closed and killed.
-/

namespace Verif.Spec.HttpPool

open Verif.Http.Pool

/-- The manager is in a state that some schedule leads to, with what has been seen on the way. -/
def Reached (max : Nat) (S : State) (H : List Obs) : Prop := ∃ sched, run max init sched = (S, H)

/-- `ActiveCount()`. -/
def activeCount (S : State) : Nat := S.active.length

/-- `ThreadActiveCount()` in a thread. -/
def threadActiveCount (S : State) (t : Tid) : Nat := (S.threads.filter fun p => p.1 = t).length

/-- A thread uses a connection: its next `ThreadTask` processes it, or the one that is going on does or will. -/
def Uses (S : State) (t : Tid) (c : Conn) : Prop := (t, c) ∈ S.threads ∨ c ∈ S.task t

/-- A connection was made, and has been neither closed nor killed. -/
def Open (H : List Obs) (c : Conn) : Prop := .made c ∈ H ∧ .shut c ∉ H ∧ .killed c ∉ H

/-- `ActiveCleanup` is used as it is meant to: it never kills a connection of a thread that is in `ThreadTask`. -/
def OnlyAbandoned (max : Nat) : State → List (Env × Event) → Prop
  | _, [] => True
  | S, (E, e) :: rest =>
    (∀ limit order, e = .activeCleanup limit order →
      ∀ t c, (t, c) ∈ S.threads → (S.info c).last + limit < E.now → S.task t = []) ∧
    OnlyAbandoned max (step max E S e).1 rest

/-- A thread waits in `QueueRequest` and has not been notified. -/
def Sleeps (S : State) (t : Tid) : Prop := ∃ g, (t, g) ∈ S.sleeping

/-- A thread in `QueueRequest` has been notified and will go on. -/
def Woken (S : State) (t : Tid) : Prop := ∃ g, (t, g) ∈ S.awake

end Verif.Spec.HttpPool
