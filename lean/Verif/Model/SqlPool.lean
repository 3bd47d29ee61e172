/-!
# The pool of database connections

Models `SQLEntityContainer.AcquireConnection`, `ReleaseConnection` and `close` with the locks they use
(`pyslet/pyslet/odata2/sqlds.py:2493-2520, 2567-2590, 2877-2996, 3025-3087`, cited as *sqlds*).

Everything between two `wait`s is done with the lock of the pool held, and is one step here.  A schedule is a list of events;
what depends on the world around is part of the event: whether a connection can be opened, whether the time is up, which entry
of a dictionary `popitem` takes, and which threads are alive.

Threads are named by their identifiers, as the code names them.
-/

namespace Verif.OData.Pool

/-- Threads. -/
abbrev Tid := Nat

/-- Connections. -/
abbrev Conn := Nat

/-- A `threading.RLock`: its owner and how often it has been acquired. -/
abbrev RLock := Option (Tid × Nat)

/-- `RLock.acquire(False)`. -/
def tryLock (me : Tid) : RLock → Option RLock
  | none => some (some (me, 1))
  | some (o, n) => if o = me then some (some (me, n + 1)) else none

/-- `RLock.release()`: `RuntimeError` for all but the owner. -/
def unlock (me : Tid) : RLock → Option RLock
  | none => none
  | some (o, n) => if o = me then some (if n ≤ 1 then none else some (o, n - 1)) else none

/-- `SQLConnectionLock` (sqlds:2509-2519) without `thread` and `threadId`, which are those of the entry it is stored in. -/
structure Entry where
  dbc : Conn
  lock : RLock
  locked : Nat
deriving DecidableEq

/-- The level of thread safety of the database module, and `maxConnections`. -/
structure Config where
  safety : Nat
  max : Nat

/-- `cPoolMax` (sqlds:2573-2582). -/
def Config.cap (K : Config) : Nat := if K.safety = 0 then 1 else K.max

/-- Where a thread waits: for the module (sqlds:2886), for a connection (sqlds:2926), or in `close` for the thread that uses a
connection (sqlds:3067, 3083). -/
inductive Point where
  | module
  | pool
  | closing (user : Tid) (l : Entry)
deriving DecidableEq

/-- The members of the container (sqlds:2571-2586), the queue of the condition variable, the threads that have been notified but
did not run since, the name of the next connection, and whether a thread loops for ever with the lock of the pool. -/
structure State where
  closing : Bool
  moduleLock : RLock
  inUse : List (Tid × Entry)
  unused : List (Tid × Entry)
  dead : List (Tid × Entry)
  sleeping : List (Tid × Point)
  awake : List (Tid × Point)
  next : Conn
  stuck : Bool

/-- A new container. -/
def init : State where
  closing := false
  moduleLock := none
  inUse := []
  unused := []
  dead := []
  sleeping := []
  awake := []
  next := 0
  stuck := false

/-- What can be seen from outside. -/
inductive Obs where
  /-- a connection is opened in a thread -/
  | opened (t : Tid) (c : Conn)
  /-- a connection is closed -/
  | closed (c : Conn)
  /-- `AcquireConnection` returns a connection -/
  | got (t : Tid) (c : Conn)
  /-- `AcquireConnection` returns `None` because the container is closing -/
  | refused (t : Tid)
  /-- `AcquireConnection` returns `None` because the time is up -/
  | timedOut (t : Tid)
  /-- `AcquireConnection` raises the exception of `OpenConnection` -/
  | failed (t : Tid)
  /-- `ReleaseConnection` has released a connection -/
  | released (t : Tid) (c : Conn)
  /-- `ReleaseConnection` has logged an error and done nothing -/
  | unknown (t : Tid) (c : Conn)
  /-- `ReleaseConnection` raises `RuntimeError` -/
  | runtimeError (t : Tid)
  /-- `close` returns -/
  | finished (t : Tid)
deriving DecidableEq

/-- What is done by the world in a step: whether connections can be opened, whether the time is up, which of `n` entries
`popitem` takes, which threads are alive. -/
structure Env where
  opens : Bool
  late : Bool
  pick : Nat → Nat
  alive : Tid → Bool

/-- The entry of a thread. -/
def entryOf (t : Tid) : List (Tid × Entry) → Option Entry
  | [] => none
  | (u, l) :: rest => if u = t then some l else entryOf t rest

/-- `del d[t]`. -/
def del (t : Tid) (d : List (Tid × Entry)) : List (Tid × Entry) := d.filter fun p => p.1 ≠ t

/-- `d[t] = l`. -/
def put (t : Tid) (l : Entry) (d : List (Tid × Entry)) : List (Tid × Entry) := (t, l) :: del t d

/-- `popitem`: one of the entries. -/
def popitem (pick : Nat → Nat) (d : List (Tid × Entry)) : Option (Tid × Entry) := d[pick d.length % d.length]?

/-- The first entry with the connection. -/
def byConn (c : Conn) : List (Tid × Entry) → Option (Tid × Entry)
  | [] => none
  | (u, l) :: rest => if l.dbc = c then some (u, l) else byConn c rest

/-- `moduleLock.acquire(False)`; the lock of the module is a dummy unless the module is not safe at all (sqlds:2573-2581). -/
def tryModule (K : Config) (me : Tid) (l : RLock) : Option RLock := if K.safety = 0 then tryLock me l else some l

/-- `moduleLock.release()`. -/
def unlockModule (K : Config) (me : Tid) (l : RLock) : Option RLock := if K.safety = 0 then unlock me l else some l

/-- `lock.acquire(False)` of the lock of a connection, which is a dummy if the module is not safe at all. -/
def tryConn (K : Config) (me : Tid) (l : RLock) : Option RLock := if K.safety = 0 then some l else tryLock me l

/-- `lock.release()`. -/
def unlockConn (K : Config) (me : Tid) (l : RLock) : Option RLock := if K.safety = 0 then some l else unlock me l

/-- `cPoolLock.notify()`: the first of the queue. -/
def notify (S : State) : State :=
  match S.sleeping with
  | [] => S
  | w :: rest => { S with sleeping := rest, awake := S.awake ++ [w] }

/-- The end of the loop (sqlds:2929-2934): the lock of the connection is acquired, which blocks if another thread has it. -/
def take (K : Config) (S : State) (t : Tid) (l : Entry) (obs : List Obs) : State × List Obs :=
  match tryConn K t l.lock with
  | none => ({ S with stuck := true }, obs)
  | some k => ({ S with inUse := put t { l with lock := k, locked := l.locked + 1 } S.inUse }, obs ++ [.got t l.dbc])

/-- The loop for a connection (sqlds:2902-2934) up to the next `wait`, and what follows it (sqlds:2935-2938). -/
def search (K : Config) (E : Env) (S : State) (t : Tid) : State × List Obs :=
  match entryOf t S.unused with
  | some l => take K { S with unused := del t S.unused } t l []
  | none =>
    if S.unused.length + S.inUse.length < K.cap then
      if E.opens then take K { S with next := S.next + 1 } t ⟨S.next, none, 0⟩ [.opened t S.next]
      else (S, [.failed t])
    else
      match popitem E.pick S.unused with
      | some (u, l) =>
        let S' := { S with unused := del u S.unused }
        if K.safety > 1 then take K S' t l []
        else if E.opens then
          take K { S' with next := S.next + 1 } t { l with dbc := S.next } [.closed l.dbc, .opened t S.next]
        else (S', [.closed l.dbc, .failed t])
      | none =>
        if E.late then
          match unlockModule K t S.moduleLock with
          | some m => ({ S with moduleLock := m }, [.timedOut t])
          | none => (S, [.runtimeError t])
        else ({ S with sleeping := S.sleeping ++ [(t, .pool)] }, [])

/-- With the lock of the module: the connection the thread has already (sqlds:2892-2901). -/
def owned (K : Config) (E : Env) (S : State) (t : Tid) : State × List Obs :=
  match entryOf t S.inUse with
  | some l =>
    match tryConn K t l.lock with
    | some k => ({ S with inUse := put t { l with lock := k, locked := l.locked + 1 } S.inUse }, [.got t l.dbc])
    | none => search K E { S with dead := S.dead ++ [(t, l)], inUse := del t S.inUse } t
  | none => search K E S t

/-- The loop for the lock of the module (sqlds:2885-2891) up to the next `wait`. -/
def enter (K : Config) (E : Env) (S : State) (t : Tid) : State × List Obs :=
  match tryModule K t S.moduleLock with
  | none => ({ S with sleeping := S.sleeping ++ [(t, .module)] }, [])
  | some m => owned K E { S with moduleLock := m } t

/-- `AcquireConnection` up to its first `wait` (sqlds:2877-2938). -/
def acquire (K : Config) (E : Env) (S : State) (t : Tid) : State × List Obs :=
  if S.closing then (S, [.refused t]) else enter K E S t

/-- The release of an entry of `cPoolLocked` stored for `u` by the thread `t` (sqlds:2947-2954, 2964-2972). -/
def releaseEntry (K : Config) (S : State) (t u : Tid) (l : Entry) : State × List Obs :=
  match unlockConn K t l.lock with
  | none => (S, [.runtimeError t])
  | some k =>
    match unlockModule K t S.moduleLock with
    | none => ({ S with inUse := put u { l with lock := k } S.inUse }, [.runtimeError t])
    | some m =>
      let l' : Entry := { l with lock := k, locked := l.locked - 1 }
      if l'.locked = 0 then
        (notify { S with moduleLock := m, inUse := del u S.inUse, unused := put u l' S.unused }, [.released t l.dbc])
      else ({ S with moduleLock := m, inUse := put u l' S.inUse }, [.released t l.dbc])

/-- The release of an entry of the dead pool (sqlds:2975-2994). -/
def releaseDead (K : Config) (S : State) (t u : Tid) (l : Entry) : State × List Obs :=
  match unlockConn K t l.lock with
  | none => (S, [.runtimeError t])
  | some k =>
    let rest := S.dead.filter fun p => p.2.dbc ≠ l.dbc
    match unlockModule K t S.moduleLock with
    | none => ({ S with dead := (u, { l with lock := k }) :: rest }, [.runtimeError t])
    | some m =>
      let l' : Entry := { l with lock := k, locked := l.locked - 1 }
      if l'.locked = 0 then ({ S with moduleLock := m, dead := rest }, [.released t l.dbc, .closed l.dbc])
      else ({ S with moduleLock := m, dead := (u, l') :: rest }, [.released t l.dbc])

/-- `ReleaseConnection` after the test for the thread's own connection (sqlds:2955-2996). -/
def releaseOther (K : Config) (S : State) (t : Tid) (c : Conn) : State × List Obs :=
  match byConn c S.inUse with
  | some (u, l) => releaseEntry K S t u l
  | none =>
    match byConn c S.dead with
    | some (u, l) => releaseDead K S t u l
    | none => (S, [.unknown t c])

/-- `ReleaseConnection` (sqlds:2940-2996). -/
def release (K : Config) (S : State) (t : Tid) (c : Conn) : State × List Obs :=
  match entryOf t S.inUse with
  | some l => if l.dbc = c then releaseEntry K S t t l else releaseOther K S t c
  | none => releaseOther K S t c

/-- The inner loop of `close` (sqlds:3057-3071, 3074-3087) for an entry of `u` that has been taken out of the pool, before
(`again` false) or after its `wait`: `some` if the next entry follows, with what has been closed; `none` in the second place
for the `wait`; a thread that is not alive makes it close the
connection again and again for ever (which is written down once). -/
inductive Attempt where
  | closed
  | left
  | wait
  | loop

/-- One try. -/
def attempt (K : Config) (E : Env) (me u : Tid) (l : Entry) (again : Bool) : Attempt :=
  match tryConn K me l.lock with
  | some _ => .closed
  | none => if E.alive u then (if again then .left else .wait) else .loop

/-- The loops over `cPoolLocked` and `cPoolDead` (sqlds:3053-3087); `fuel` is the number of entries. -/
def closeLoop (K : Config) (E : Env) (me : Tid) : Nat → State → List Obs → State × List Obs
  | 0, S, obs => (S, obs ++ [.finished me])
  | n + 1, S, obs =>
    match popitem E.pick S.inUse, S.dead with
    | some (u, l), _ =>
      let S' := { S with inUse := del u S.inUse }
      match attempt K E me u l false with
      | .closed | .left => closeLoop K E me n S' (obs ++ [.closed l.dbc])
      | .wait => ({ S' with sleeping := S.sleeping ++ [(me, .closing u l)] }, obs)
      | .loop => ({ S' with stuck := true }, obs ++ [.closed l.dbc])
    | none, (u, l) :: rest =>
      let S' := { S with dead := rest }
      match attempt K E me u l false with
      | .closed | .left => closeLoop K E me n S' (obs ++ [.closed l.dbc])
      | .wait => ({ S' with sleeping := S.sleeping ++ [(me, .closing u l)] }, obs)
      | .loop => ({ S' with stuck := true }, obs ++ [.closed l.dbc])
    | none, [] => (S, obs ++ [.finished me])

/-- `close` up to its first `wait` (sqlds:3025-3087). -/
def close (K : Config) (E : Env) (S : State) (me : Tid) : State × List Obs :=
  closeLoop K E me (S.inUse.length + S.dead.length) { S with closing := true, unused := [] }
    (S.unused.map fun p => .closed p.2.dbc)

/-- `close` after a `wait`. -/
def closeAgain (K : Config) (E : Env) (S : State) (me u : Tid) (l : Entry) : State × List Obs :=
  match attempt K E me u l true with
  | .closed => closeLoop K E me (S.inUse.length + S.dead.length) S [.closed l.dbc]
  | .left | .wait => closeLoop K E me (S.inUse.length + S.dead.length) S []
  | .loop => ({ S with stuck := true }, [.closed l.dbc])

/-- Where a thread waits. -/
def waiting (t : Tid) : List (Tid × Point) → Option Point
  | [] => none
  | (u, p) :: rest => if u = t then some p else waiting t rest

/-- The return from a `wait`. -/
def resume (K : Config) (E : Env) (S : State) (t : Tid) : Point → State × List Obs
  | .module => if E.late then (S, [.timedOut t]) else enter K E S t
  | .pool => search K E S t
  | .closing u l => closeAgain K E S t u l

/-- What threads do. -/
inductive Event where
  | acquire (t : Tid)
  | release (t : Tid) (c : Conn)
  | close (t : Tid)
  /-- a thread that has been notified, or whose time is up, goes on -/
  | resume (t : Tid)
deriving DecidableEq

/-- The thread of an event. -/
def Event.thread : Event → Tid
  | .acquire t | .release t _ | .close t | .resume t => t

/-- One step; a thread that waits does nothing else, and nothing happens while a thread loops with the lock of the pool. -/
def step (K : Config) (E : Env) (S : State) (e : Event) : State × List Obs :=
  if S.stuck then (S, [])
  else
    match e with
    | .resume t =>
      match waiting t S.awake with
      | some p => resume K E { S with awake := S.awake.filter fun w => w.1 ≠ t } t p
      | none =>
        match waiting t S.sleeping with
        | some p => resume K E { S with sleeping := S.sleeping.filter fun w => w.1 ≠ t } t p
        | none => (S, [])
    | .acquire t => if (waiting t (S.awake ++ S.sleeping)).isSome then (S, []) else acquire K E S t
    | .release t c => if (waiting t (S.awake ++ S.sleeping)).isSome then (S, []) else release K S t c
    | .close t => if (waiting t (S.awake ++ S.sleeping)).isSome then (S, []) else close K E S t

/-- A schedule from a state: the state it leads to, and what has been seen. -/
def run (K : Config) : State → List (Env × Event) → State × List Obs
  | S, [] => (S, [])
  | S, (E, e) :: rest =>
    let (S', o) := step K E S e
    let (S'', o') := run K S' rest
    (S'', o ++ o')

end Verif.OData.Pool
