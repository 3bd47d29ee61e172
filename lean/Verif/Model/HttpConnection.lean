import Verif.Model.HttpMessage

/-!
# A connection of the HTTP client

Models `Connection` (`pyslet/pyslet/rfc2616.py:44-520`, cited as *http*) with what it calls in the requests and responses it
carries: the queue of requests, the pipeline of responses, sending, receiving, waiting for `100 Continue`, closing and being
killed.

A round of the loop of `ConnectionTask` is one step.  A call of `ConnectionTask` that returns is resumed at the beginning of the
loop by the next one, so that calls need not be told apart.  What depends on the world around is part of the step: whether the
socket can be written to or read from, how much `send` takes, what `recv` returns, whether a connection can be made, and whether
the time limit for `100 Continue` has passed.

`select` itself does not fail.  Requests do not redirect or try credentials when they are finished: a request that is sent again is
another request, which is queued afterwards.  The body of a response is kept by the request (`resBody`).  `Kill` comes between two
rounds.
-/

namespace Verif.Http.Conn

open Verif Msg

/-- Requests, in the order in which they are queued. -/
abbrev Rid := Nat

/-- The errors that a connection is closed with. -/
inductive Cause where
  /-- an error of the socket -/
  | socket
  /-- an exception -/
  | exn (e : Exn)
deriving DecidableEq, Repr

/-- `HTTPRequest` (http:1364-1398). -/
structure Req where
  method : Str
  /-- what `ReadRequestHeader` returns (http:1544-1561), which fails if the length of the body is not the announced one -/
  head : Except Exn Str
  /-- `GetExpectContinue` -/
  expect : Bool
  /-- what `ReadRequestBody` reads from -/
  body : Sending
  /-- whether `connection` is this connection -/
  connected : Bool := false
  status : Nat := 0
  error : Option Cause := none
  /-- `resBuffer` -/
  buffer : Str := []
  /-- `resBody` -/
  result : Str := []

/-- `requestMode` (http:70-73). -/
inductive Phase where
  | ready | waiting | sending | closeWait
deriving DecidableEq, Repr

/-- `Connection` (http:79-101).  A response that is not read yet is as it was created; all but the first are. -/
structure State where
  /-- `requestQueue` -/
  queue : List Rid := []
  request : Option Rid := none
  response : Option (Rid × Resp) := none
  /-- `responseQueue`, by the requests of the responses -/
  responses : List Rid := []
  /-- `requestMode` -/
  phase : Phase := .ready
  /-- whether `continueWaitStart` is set -/
  since : Bool := false
  /-- whether there is a `socket` -/
  socket : Bool := false
  /-- `connectionClosed` -/
  dead : Bool := false
  /-- `sendBuffer` -/
  out : List Str := []
  /-- `recvBuffer` and `recvBufferSize` -/
  buf : Buf := {}
  /-- the requests that have been queued -/
  reqs : Rid → Req
  /-- the next request to be queued -/
  next : Rid := 0

/-- What can be seen of a connection. -/
inductive Obs where
  /-- `_StartRequest` -/
  | started (q : Rid)
  /-- a socket is connected -/
  | opened
  /-- the socket takes some bytes -/
  | sent (d : Str)
  /-- the socket gives some bytes -/
  | received (d : Str)
  /-- `ResponseFinished` of a request, called by `Finished` of a response that has been read to its end, or else by
  `ServerDisconnect`, with the status of the response, the error, and `resBody` after the call -/
  | answered (q : Rid) (whole : Bool) (status : Option Nat) (error : Option Cause) (data : Str)
  /-- `Finished` of a request, with its `status`, `error` and `resBody` -/
  | finished (q : Rid) (status : Nat) (error : Option Cause) (data : Str)
  /-- the warning that `100 Continue` did not come (http:186) -/
  | timeout
  /-- the end of `Close` -/
  | closed
  /-- `_DeactivateConnection` -/
  | idle
  /-- an exception that leaves `ThreadTask` -/
  | raised (e : Exn)
deriving DecidableEq

/-- The outcome of a piece of the code: the state, what was seen and the exception that ended it. -/
structure Out where
  s : State
  obs : List Obs := []
  exn : Option Exn := none

/-- One piece of the code after another. -/
def Out.andThen (o : Out) (f : State → Out) : Out :=
  match o.exn with
  | some _ => o
  | none => ⟨(f o.s).s, o.obs ++ (f o.s).obs, (f o.s).exn⟩

/-- `IDEMPOTENT` (http:77). -/
def idempotent (method : Str) : Bool :=
  ["GET".toList, "HEAD".toList, "PUT".toList, "DELETE".toList, "OPTIONS".toList, "TRACE".toList].contains method

/-- A change of a request. -/
def setReq (S : State) (q : Rid) (f : Req → Req) : State := { S with reqs := fun p => if p = q then f (S.reqs q) else S.reqs p }

/-- `Finished` (http:1678-1699). -/
def finishedObs (S : State) (q : Rid) : Obs := .finished q (S.reqs q).status (S.reqs q).error (S.reqs q).result

/-- `Disconnect` of a request (http:1535-1542). -/
def disconnect (q : Rid) (S : State) : Out :=
  let S' := setReq S q fun r => { r with connected := false }
  ⟨S', if (S.reqs q).status > 0 then [finishedObs S' q] else [], none⟩

/-- `RequestDisconnect` (http:250-258).  It is called by a request whose response is being read, so that there is a response. -/
def requestDisconnect (S : State) : Out :=
  match S.request with
  | none => ⟨S, [], some (.fault .attributeError)⟩
  | some p =>
    let o := disconnect p S
    ⟨{ o.s with request := none, out := [], phase := .closeWait }, o.obs, none⟩

/-- `Continue` (http:260-269). -/
def continueBody (q : Rid) (S : State) : State :=
  if S.request = some q ∧ S.phase = .waiting then { S with phase := .sending } else S

/-- `ResponseFinished` (http:1636-1676).  The comparison of the response with 200 (http:1667) is always true. -/
def settle (size : Nat) (q : Rid) (whole : Bool) (status : Option Nat) (error : Option Cause) (S : State) : Out :=
  match status with
  | none =>
    let S' := setReq S q fun r => { r with status := 0, error := error }
    ⟨S', [.answered q whole none error (S.reqs q).result, finishedObs S' q], none⟩
  | some n =>
    let S' := setReq S q fun r => { r with status := n, error := error, result := r.buffer, buffer := [] }
    let a : Obs := .answered q whole (some n) error (S.reqs q).buffer
    if informational n then ⟨if (S.reqs q).connected then continueBody q S' else S', [a], none⟩
    else if (S.reqs q).connected then
      if 300 ≤ n then
        match readBody size (S.reqs q).body with
        | .error e => ⟨S', [a], some e⟩
        | .ok (d, b) =>
          let S'' := setReq S' q fun r => { r with body := b }
          if d = [] then ⟨S'', [a], none⟩ else Out.andThen ⟨S'', [a], none⟩ requestDisconnect
      else ⟨S', [a], none⟩
    else ⟨S', [a, finishedObs S' q], none⟩

/-- `self.response.status` in a request, if the given response to it is being read: the response of a request is the last one that
was created for it (http:1531-1533, 1729-1733), and one that is still queued has no status. -/
def lastStatus (S : State) (q : Rid) (status : Option Nat) : Option Nat := if S.responses.contains q then none else status

/-- The responses that `Close` cuts off (http:289-297).  Their requests are disconnected, so that `ResponseFinished` does not call
the connection or fail (`Verif.Http.Conn.settle_cut`). -/
def cutResponses (size : Nat) (error : Option Cause) : List Rid → Rid × Resp → State → State × List Obs
  | [], (q, r), S =>
    let o := settle size q false (lastStatus S q r.status) error S
    ({ o.s with response := none }, o.obs)
  | p :: ps, (q, r), S =>
    let o := settle size q false (lastStatus S q r.status) error S
    let x := cutResponses size error ps (p, {}) { o.s with response := some (p, {}), responses := ps }
    (x.1, o.obs ++ x.2)

/-- The first part of `Close` (http:285-288). -/
def cutRequest (S : State) : State × List Obs :=
  match S.request with
  | none => (S, [])
  | some p => ({ (disconnect p S).s with request := none, phase := .closeWait }, (disconnect p S).obs)

/-- `Close` (http:271-307). -/
def close (size : Nat) (error : Option Cause) (S : State) : Out :=
  let a := cutRequest S
  let b := match a.1.response with
    | none => (a.1, [])
    | some x => cutResponses size error a.1.responses x a.1
  ⟨{ b.1 with socket := false, out := [], buf := {}, phase := .ready }, a.2 ++ b.2 ++ [.closed], none⟩

/-- `_StartRequest` (http:337-357). -/
def start (q : Rid) (S : State) : Out :=
  let S' := { setReq S q (fun r => { r with connected := true }) with request := some q }
  match (S.reqs q).head with
  | .error e => ⟨S', [], some e⟩
  | .ok h =>
    ⟨{ S' with
        out := S.out ++ [h]
        phase := if (S.reqs q).expect then .waiting else .sending
        since := if (S.reqs q).expect then false else S.since
        response := match S.response with
          | none => some (q, {})
          | some x => some x
        responses := match S.response with
          | none => S.responses
          | some _ => S.responses ++ [q] }, [.started q], none⟩

/-- The start of a request (http:154-159).  `_StartRequest` is called even if the request stays in the queue. -/
def begin (S : State) : Out :=
  match S.queue, S.phase with
  | q :: qs, .ready =>
    start q (if S.response.isNone ∨ idempotent (S.reqs q).method then { S with queue := qs } else S)
  | _, _ => ⟨S, [], none⟩

/-- What `recv` gives: nothing if the socket cannot be read from, and no bytes if the server has hung up or `recv` fails. -/
inductive Read where
  | blocked
  /-- `select` reports an error of the socket -/
  | failed
  | ready (d : Str)

/-- What depends on the world around in a round. -/
structure Env where
  /-- the exception that making a connection ends with -/
  connect : Option Exn := none
  /-- whether the socket can be written to -/
  writable : Bool := false
  /-- how many bytes `send` takes; `none` is an error of the socket -/
  accepted : Option Nat := none
  /-- whether the time to wait for `100 Continue` has passed -/
  late : Bool := false
  read : Read := .blocked

/-- `NewSocket` (http:485-519), if there is no socket. -/
def connect (E : Env) (S : State) : Out :=
  if S.socket then ⟨S, [], none⟩
  else if S.dead then ⟨S, [], some .http⟩
  else
    match E.connect with
    | some e => ⟨S, [], some e⟩
    | none => ⟨{ S with socket := true }, [.opened], none⟩

/-- `_SendRequestData` (http:359-390).  `requestMode==CLOSE_WAIT` is a comparison. -/
def send (size : Nat) (E : Env) (S : State) : Out :=
  match S.out with
  | [] => ⟨S, [], none⟩
  | d :: ds =>
    if d = [] then ⟨{ S with out := ds }, [], none⟩
    else
      match E.accepted with
      | none => close size (some .socket) S
      | some n =>
        if n = 0 then
          match S.request with
          | none => ⟨S, [], some (.fault .attributeError)⟩
          | some p => ⟨{ (disconnect p S).s with request := none, out := [] }, (disconnect p S).obs, none⟩
        else if n < d.length then ⟨{ S with out := d.drop n :: ds }, [.sent (d.take n)], none⟩
        else ⟨{ S with out := ds }, [.sent d], none⟩

/-- The sending part of a round (http:168-205), and whether the round ends with it. -/
def transmit (size : Nat) (E : Env) (S : State) : Out × Bool :=
  if S.out ≠ [] then
    let o := if E.writable then send size E S else ⟨S, [], none⟩
    (o, o.s.out.isEmpty)
  else
    match S.phase with
    | .waiting =>
      if S.since then (if E.late then (⟨{ S with phase := .sending }, [.timeout], none⟩, false) else (⟨S, [], none⟩, false))
      else (⟨{ S with since := true }, [], none⟩, false)
    | .sending =>
      match S.request with
      | none => (⟨S, [], some (.fault .attributeError)⟩, true)
      | some q =>
        match readBody size (S.reqs q).body with
        | .error e => (⟨S, [], some e⟩, true)
        | .ok (d, b) =>
          let S' := setReq S q fun r => { r with body := b }
          if d ≠ [] then (⟨{ S' with out := [d] }, [], none⟩, true)
          else (⟨{ (disconnect q S').s with request := none, phase := .ready }, (disconnect q S').obs, none⟩, false)
    | _ => (⟨S, [], none⟩, false)

/-- What a response does to its request. -/
def apply (size : Nat) (q : Rid) : List Ev → State → Out
  | [], S => ⟨S, [], none⟩
  | .header :: es, S => apply size q es S
  | .data d :: es, S => apply size q es (setReq S q fun r => { r with buffer := r.buffer ++ d })
  | .finished n :: es, S => Out.andThen (settle size q true (lastStatus S q (some n)) none S) (apply size q es)

/-- The loop of `_RecvResponseData` (http:416-484), and whether the response is complete. -/
def drain (size : Nat) : Nat → Option Str → State → Out × Bool
  | 0, _, S => (⟨S, [], some .endless⟩, false)
  | n + 1, last, S =>
    match S.response with
    | none => (⟨S, [], none⟩, false)
    | some (q, r) =>
      match round (S.reqs q).method r S.buf last with
      | .error e => (⟨S, [], some e⟩, false)
      | .ok .blocked => (⟨S, [], none⟩, false)
      | .ok .complete => (⟨S, [], none⟩, true)
      | .ok (.next r' b' last' evs) =>
        let o := apply size q evs { S with response := some (q, r'), buf := b' }
        match o.exn with
        | some _ => (o, false)
        | none =>
          let x := drain size n last' o.s
          (⟨x.1.s, o.obs ++ x.1.obs, x.1.exn⟩, x.2)

/-- Whether the server closes the connection after a response (http:223). -/
def closes (r : Resp) : Except Exn Bool :=
  match connectionTokens r.headers with
  | .error e => .error e
  | .ok ts => .ok (ts.contains "close".toList || (match r.version with
      | some v => cmpVersion v ⟨1, 1⟩ = .lt
      | none => true))

/-- What follows a complete response (http:219-233). -/
def complete (size : Nat) (S : State) : Out :=
  match S.response with
  | none => ⟨S, [], none⟩
  | some (_, r) =>
    match closes r with
    | .error e => ⟨S, [], some e⟩
    | .ok c =>
      match S.responses with
      | p :: ps =>
        let S' := { S with response := some (p, {}), responses := ps }
        if c then close size none S' else ⟨S', [], none⟩
      | [] =>
        let S' := { S with response := none }
        if c ∨ S.phase = .closeWait then close size none S' else ⟨S', [], none⟩

/-- `_RecvResponseData` (http:392-484) and what follows it. -/
def receive (size : Nat) (d : Str) (S : State) : Out :=
  if d = [] then close size none S
  else
    let S' := { S with buf := ⟨S.buf.pieces ++ [d], S.buf.size + d.length⟩ }
    let x := drain size (2 * S'.buf.pieces.flatten.length + 3) none S'
    let o : Out := ⟨x.1.s, .received d :: x.1.obs, x.1.exn⟩
    if x.2 then o.andThen (complete size) else o

/-- The receiving part of a round (http:209-239). -/
def respond (size : Nat) (E : Env) (S : State) : Out :=
  match S.response with
  | none => ⟨S, [], none⟩
  | some _ =>
    match E.read with
    | .blocked => ⟨S, [], none⟩
    | .failed => close size (some .socket) S
    | .ready d => receive size d S

/-- A round of the loop of `ConnectionTask` (http:151-248). -/
def turn (size : Nat) (E : Env) (S : State) : Out :=
  (begin S).andThen fun S =>
    if S.request.isSome ∨ S.response.isSome then
      (connect E S).andThen fun S =>
        let x := transmit size E S
        if x.2 then x.1 else x.1.andThen (respond size E)
    else
      let o := if S.phase = .closeWait then close size none S else ⟨S, [], none⟩
      ⟨o.s, o.obs ++ [.idle], o.exn⟩

/-- Whether an exception is an `HTTPException` (`pyslet/pyslet/rfc2616_core.py:6-14`). -/
def isHttp : Exn → Bool
  | .http => true
  | .fault .syntaxError => true
  | _ => false

/-- A round as `ThreadTask` calls it (http:792-801). -/
def task (size : Nat) (E : Env) (S : State) : State × List Obs :=
  let o := turn size E S
  match o.exn with
  | none => (o.s, o.obs)
  | some e =>
    if isHttp e then ((close size (some (.exn e)) o.s).s, o.obs ++ (close size (some (.exn e)) o.s).obs)
    else (o.s, o.obs ++ [.raised e])

/-- What happens to a connection. -/
inductive Event where
  /-- `QueueRequest` puts a request on the connection (http:688-690). -/
  | queue (method : Str) (head : Except Exn Str) (expect : Bool) (body : Sending)
  | task (E : Env)
  /-- `Close` by the manager, which does so with idle connections (http:752, 843). -/
  | close
  /-- `Kill` (http:309-335), which does nothing if there is no socket. -/
  | kill

/-- A step of a connection. -/
def step (size : Nat) : Event → State → State × List Obs
  | .queue method head expect body, S =>
    ({ S with
        queue := S.queue ++ [S.next]
        next := S.next + 1
        reqs := fun p => if p = S.next then { method := method, head := head, expect := expect, body := body } else S.reqs p }, [])
  | .task E, S => task size E S
  | .close, S => ((close size none S).s, (close size none S).obs)
  | .kill, S => ({ S with dead := S.dead || S.socket }, [])

/-- A new connection (http:79-101). -/
def fresh : State := { reqs := fun _ => { method := [], head := .ok [], expect := false, body := ⟨.text [], false, none, 0, true⟩ } }

/-- A history of a connection, and what was seen. -/
def run (size : Nat) (es : List Event) : State × List Obs :=
  es.foldl (fun x e => ((step size e x.1).1, x.2 ++ (step size e x.1).2)) (fresh, [])

end Verif.Http.Conn
