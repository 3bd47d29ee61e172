/-!
# The connections of the HTTP client

Models `HTTPRequestManager` (`pyslet/pyslet/rfc2616.py:555-889`, cited as *http*): which connection a request is put on, how
threads wait for one, and how connections become idle and are cleaned up.

Everything between two `wait`s is done with the lock of the manager held, and is one step here.  A schedule is a list of events;
what depends on the world around is part of the event: the time, whether a time limit has passed, which of several connections
that were last active at the same time comes first, and the order of a dictionary.

What a connection does in `ConnectionTask` is left open: it may run for some time, in which the requests it finishes may queue
further requests, and ends either idle or not.  `ThreadTask` is not called from inside of `ThreadTask`.  A cleanup kills or closes
the connections after it has released the lock; here it does so in the same step, since neither `Kill` nor `Close` of a connection
that is in no pool changes the manager.
-/

namespace Verif.Http.Pool

/-- Threads, by their identifiers. -/
abbrev Tid := Nat

/-- Connections, by their `id`. -/
abbrev Conn := Nat

/-- `TargetKey` (http:106-107): scheme, host and port. -/
structure Target where
  scheme : List Char
  host : List Char
  port : Nat
deriving DecidableEq, Repr

/-- The members of a connection that the manager uses (http:79-86). -/
structure Info where
  target : Target
  /-- `threadId` -/
  thread : Option Tid
  /-- `lastActive` -/
  last : Nat
deriving DecidableEq

/-- `cActiveThreadTargets` (http:606). -/
abbrev Active := List ((Tid × Target) × Conn)

/-- The members of the manager (http:603-615), the queue of its condition variable, the threads that have been notified but did
not run since, and for each thread the connections its `ThreadTask` still has to process (http:785-801), the first of which it
is processing.  `threads` is `cActiveThreads`, without the threads that have no connection.  `idle` is `cIdleList`;
`cIdleTargets` has the same connections by their targets: both are always changed together (http:715-719, 731-735, 746-751,
833-838). -/
structure State where
  closing : Bool
  active : Active
  threads : List (Tid × Conn)
  idle : List Conn
  info : Conn → Info
  next : Conn
  sleeping : List (Tid × Target)
  awake : List (Tid × Target)
  task : Tid → List Conn

/-- A new manager (http:603-620). -/
def init : State where
  closing := false
  active := []
  threads := []
  idle := []
  info := fun _ => ⟨⟨[], [], 0⟩, none, 0⟩
  next := 1
  sleeping := []
  awake := []
  task := fun _ => []

/-- What can be seen from outside. -/
inductive Obs where
  /-- a connection is made -/
  | made (c : Conn)
  /-- `QueueRequest` puts a request on a connection -/
  | queued (t : Tid) (target : Target) (c : Conn)
  /-- `QueueRequest` raises `ConnectionClosed` -/
  | refused (t : Tid)
  /-- `QueueRequest` raises `RequestManagerBusy` -/
  | busy (t : Tid)
  /-- an idle connection is closed -/
  | shut (c : Conn)
  /-- an active connection is killed -/
  | killed (c : Conn)
  /-- `ActiveCleanup` raises `KeyError` -/
  | keyError
deriving DecidableEq

/-- What is done by the world in a step: the time, whether a time limit has passed, and which of `n` connections that were last
active at the same time comes first. -/
structure Env where
  now : Nat
  late : Bool
  pick : Nat → Nat

/-- `d[k]`, if there is one. -/
def find (k : Tid × Target) : Active → Option Conn
  | [] => none
  | (j, c) :: rest => if j = k then some c else find k rest

/-- `del d[k]`. -/
def del (k : Tid × Target) (d : Active) : Active := d.filter fun p => p.1 ≠ k

/-- Some member of a list. -/
def choose (pick : Nat → Nat) (l : List Conn) : Option Conn := l[pick l.length % l.length]?

/-- The last of the sorted list (http:658-662): one that was active last. -/
def youngest (E : Env) (info : Conn → Info) (l : List Conn) : Option Conn :=
  choose E.pick (l.filter fun c => l.all fun d => (info d).last ≤ (info c).last)

/-- The first of the sorted list (http:672-674): one that was active longest ago. -/
def oldest (E : Env) (info : Conn → Info) (l : List Conn) : Option Conn :=
  choose E.pick (l.filter fun c => l.all fun d => (info c).last ≤ (info d).last)

/-- An assignment to `info`. -/
def setInfo (info : Conn → Info) (c : Conn) (i : Info) : Conn → Info := fun d => if d = c then i else info d

/-- `_ActivateConnection` (http:704-719). -/
def activate (S : State) (c : Conn) (t : Tid) : State :=
  { S with
    info := setInfo S.info c { S.info c with thread := some t }
    active := ((t, (S.info c).target), c) :: del (t, (S.info c).target) S.active
    threads := (t, c) :: S.threads.filter fun p => p ≠ (t, c)
    idle := S.idle.filter fun d => d ≠ c }

/-- `_NewConnection` (http:761-770) and `Connection.__init__` (http:79-101). -/
def make (S : State) (target : Target) : State :=
  { S with next := S.next + 1, info := setInfo S.info S.next ⟨target, none, 0⟩ }

/-- The loop of `QueueRequest` (http:650-690) up to the next `wait`.  The number is a bound on the repetitions, one for each idle
connection and one more. -/
def search (max : Nat) (E : Env) (t : Tid) (target : Target) : Nat → State → State × List Obs
  | 0, S => (S, [])
  | n + 1, S =>
    match find (t, target) S.active with
    | some c => (S, [.queued t target c])
    | none =>
      match youngest E S.info (S.idle.filter fun c => (S.info c).target = target) with
      | some c => (activate S c t, [.queued t target c])
      | none =>
        if S.active.length + S.idle.length < max then
          (activate (make S target) S.next t, [.made S.next, .queued t target S.next])
        else
          match oldest E S.info S.idle with
          | some c =>
            let r := search max E t target n { S with idle := S.idle.filter fun d => d ≠ c }
            (r.1, .shut c :: r.2)
          | none => if E.late then (S, [.busy t]) else ({ S with sleeping := S.sleeping ++ [(t, target)] }, [])

/-- `QueueRequest` (http:623-690) up to its first `wait`. -/
def queue (max : Nat) (E : Env) (S : State) (t : Tid) (target : Target) : State × List Obs :=
  if S.closing then (S, [.refused t]) else search max E t target (S.idle.length + 1) S

/-- `managerLock.notify(n)`: the first of the queue. -/
def notify (n : Nat) (S : State) : State := { S with sleeping := S.sleeping.drop n, awake := S.awake ++ S.sleeping.take n }

/-- An assignment to `task`. -/
def setTask (task : Tid → List Conn) (t : Tid) (l : List Conn) : Tid → List Conn := fun u => if u = t then l else task u

/-- `_DeactivateConnection` (http:721-743).  No key of `cActiveThreadTargets` has `None` for the thread. -/
def deactivate (S : State) (c : Conn) : State :=
  match (S.info c).thread with
  | none => S
  | some u =>
    let S' := match find (u, (S.info c).target) S.active with
      | some _ => notify 1 { S with active := del (u, (S.info c).target) S.active, idle := (S.idle.filter fun d => d ≠ c) ++ [c] }
      | none => S
    { S' with threads := S'.threads.filter fun p => p ≠ (u, c), info := setInfo S'.info c { S.info c with thread := none } }

/-- The test of the cleanups (http:831, 863): not active for more than some time. -/
def stale (E : Env) (limit : Nat) (i : Info) : Bool := i.last + limit < E.now

/-- The loops of `ActiveCleanup` (http:861-867) over the connections of all threads: the connections to be killed, and `false`
after a `KeyError`. -/
def purge (E : Env) (limit : Nat) : List (Tid × Conn) → State → State × List Conn × Bool
  | [], S => (S, [], true)
  | (t, c) :: rest, S =>
    if stale E limit (S.info c) then
      let S' := { S with threads := S.threads.filter fun p => p ≠ (t, c) }
      match (S.info c).thread with
      | none => (S', [], false)
      | some u =>
        match find (u, (S.info c).target) S.active with
        | none => (S', [], false)
        | some _ =>
          let r := purge E limit rest { S' with active := del (u, (S.info c).target) S.active }
          (r.1, c :: r.2.1, r.2.2)
    else purge E limit rest S

/-- `ActiveCleanup` (http:845-876); `order` is the order of the dictionaries. -/
def activeCleanup (E : Env) (S : State) (limit : Nat) (order : List (Tid × Conn)) : State × List Obs :=
  if order.isPerm S.threads then
    match purge E limit order S with
    | (S', cs, true) => (notify cs.length S', cs.map .killed)
    | (S', _, false) => (S', [.keyError])
  else (S, [])

/-- `IdleCleanup` (http:824-843). -/
def idleCleanup (E : Env) (S : State) (limit : Nat) : State × List Obs :=
  ({ S with idle := S.idle.filter fun c => ¬ stale E limit (S.info c) },
    (S.idle.filter fun c => stale E limit (S.info c)).map .shut)

/-- What threads do. -/
inductive Event where
  /-- `QueueRequest` -/
  | queue (t : Tid) (target : Target)
  /-- `QueueRequest` goes on after a `wait` that has been notified or whose time is up -/
  | resume (t : Tid)
  /-- `ThreadTask` starts (http:785-789) -/
  | start (t : Tid)
  /-- the connection the thread processes notes the time (http:153) -/
  | touch (t : Tid)
  /-- the connection the thread processes becomes idle (http:241-247) -/
  | rest (t : Tid)
  /-- the thread leaves the connection it processes: it waits for its socket, or has failed (http:239, 799-801) -/
  | leave (t : Tid)
  | activeCleanup (limit : Nat) (order : List (Tid × Conn))
  | idleCleanup (limit : Nat)
  /-- `Close` sets `closing` (http:885); the cleanups it repeats are events of their own -/
  | close
deriving DecidableEq

/-- The target a thread waits for. -/
def waiting (t : Tid) : List (Tid × Target) → Option Target
  | [] => none
  | (u, g) :: rest => if u = t then some g else waiting t rest

/-- A thread that waits does nothing else. -/
def waits (S : State) (t : Tid) : Bool := (waiting t (S.awake ++ S.sleeping)).isSome

/-- One step. -/
def step (max : Nat) (E : Env) (S : State) : Event → State × List Obs
  | .queue t target => if waits S t then (S, []) else queue max E S t target
  | .resume t =>
    match waiting t S.awake with
    | some g => search max E t g (S.idle.length + 1) { S with awake := S.awake.filter fun w => w.1 ≠ t }
    | none =>
      match waiting t S.sleeping with
      | some g => search max E t g (S.idle.length + 1) { S with sleeping := S.sleeping.filter fun w => w.1 ≠ t }
      | none => (S, [])
  | .start t =>
    if waits S t ∨ S.task t ≠ [] then (S, [])
    else ({ S with task := setTask S.task t ((S.threads.filter fun p => p.1 = t).map (·.2)) }, [])
  | .touch t =>
    if waits S t then (S, [])
    else
      match S.task t with
      | [] => (S, [])
      | c :: _ => ({ S with info := setInfo S.info c { S.info c with last := E.now } }, [])
  | .rest t =>
    if waits S t then (S, [])
    else
      match S.task t with
      | [] => (S, [])
      | c :: cs => (deactivate { S with task := setTask S.task t cs } c, [])
  | .leave t => if waits S t then (S, []) else ({ S with task := setTask S.task t (S.task t).tail }, [])
  | .activeCleanup limit order => activeCleanup E S limit order
  | .idleCleanup limit => idleCleanup E S limit
  | .close => ({ S with closing := true }, [])

/-- A schedule from a state: the state it leads to, and what has been seen. -/
def run (max : Nat) : State → List (Env × Event) → State × List Obs
  | S, [] => (S, [])
  | S, (E, e) :: rest =>
    let r := step max E S e
    let r' := run max r.1 rest
    (r'.1, r.2 ++ r'.2)

end Verif.Http.Pool
