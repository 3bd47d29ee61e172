import Verif.Model.SqlPool

/-!
# What is asked of a pool of connections

Said in terms of what can be seen: connections that are opened, closed, handed out and given back.
-/

namespace Verif.Spec.Pool

open Verif.OData.Pool

/-- A thread has a connection: it got it more often than it gave it back. -/
def Has (H : List Obs) (t : Tid) (c : Conn) : Prop := H.count (.released t c) < H.count (.got t c)

/-- The number of connections that have been opened. -/
def openings (H : List Obs) : Nat := H.countP fun o => match o with | .opened _ _ => true | _ => false

/-- The number of connections that have been closed. -/
def closings (H : List Obs) : Nat := H.countP fun o => match o with | .closed _ => true | _ => false

/-- The schedule does not close the container. -/
def Open (sched : List (Env × Event)) : Prop := ∀ p ∈ sched, ∀ t, p.2 ≠ .close t

/-- Every attempt to open a connection is successful. -/
def AllOpen (sched : List (Env × Event)) : Prop := ∀ p ∈ sched, p.1.opens = true

/-- No thread runs out of time. -/
def InTime (sched : List (Env × Event)) : Prop := ∀ p ∈ sched, p.1.late = false

/-- A call of the thread waits. -/
def Waits (S : State) (t : Tid) : Prop := (waiting t (S.awake ++ S.sleeping)).isSome

/-- The thread waits no longer for a notification, but only for its turn. -/
def Notified (S : State) (t : Tid) : Prop := (waiting t S.awake).isSome

end Verif.Spec.Pool
