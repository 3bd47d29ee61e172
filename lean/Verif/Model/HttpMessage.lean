import Verif.Model.HttpValues
import Verif.Model.Dict
import Verif.Model.XsdText

/-!
# HTTP messages of the client

Models `pyslet/pyslet/rfc2616.py` (cited as *http*): the headers and the framing of requests and responses
(`HTTPMessage`, `HTTPRequest`, `HTTPResponse`) and the loop of a connection that cuts what is received in lines and blocks
(`Connection._RecvResponseData`).  Bytes are characters below 256.
-/

namespace Verif.Http.Msg

open Verif

/-- The exceptions of the client. -/
inductive Exn where
  /-- an exception of a parser or a conversion; `NameError` also for `HTTP2616ProtocolError`, which does not exist -/
  | fault (e : Fault)
  /-- `HTTPException` (`pyslet/pyslet/rfc2616_core.py:6-8`) -/
  | http
  /-- `UnboundLocalError` -/
  | unbound
  /-- a parser that never returns -/
  | endless
deriving DecidableEq, Repr

/-- `CRLF`. -/
def crlfStr : Str := ['\r', '\n']

/-- A white space character of `strip()`. -/
def isWs (c : Char) : Bool := (9 ≤ c.toNat && c.toNat ≤ 13) || c == ' '

/-- `strip()` of a byte string. -/
def strip (s : Str) : Str := ((s.dropWhile isWs).reverse.dropWhile isWs).reverse

/-! ## Headers -/

/-- `headers`: the name and the value under the name in small letters (http:961). -/
abbrev Headers := List (Str × Str × Str)

/-- `GetHeader` (http:981-986). -/
def getHeader (h : Headers) (name : Str) : Option Str := (Dict.get h (Py.lower name)).map (·.2)

/-- `SetHeader` (http:988-1010). -/
def setHeader (h : Headers) (name : Str) (value : Option Str) (append : Bool) : Headers :=
  match value with
  | none => Dict.del h (Py.lower name)
  | some v =>
    match Dict.get h (Py.lower name) with
    | some old => Dict.set h (Py.lower name) (name, if append then old.2 ++ [',', ' '] ++ v else v)
    | none => Dict.set h (Py.lower name) (name, v)

/-- `GetTransferEncoding` (http:1268-1269). -/
def transferEncoding (h : Headers) : Option Str := getHeader h "Transfer-Encoding".toList

/-- `GetContentLength` (http:1130-1139). -/
def contentLength (h : Headers) : Except Exn (Option Int) :=
  match getHeader h "Content-Length".toList with
  | none => .ok none
  | some v =>
    match Xsd.pyInt (strip v) with
    | .ok n => .ok (some n)
    | .error _ => .error (.fault .valueError)

/-- `GetConnection` (http:1064-1073): the words of the value without white space that are tokens, in small letters. -/
def connectionTokens (h : Headers) : Except Exn (List Str) :=
  match getHeader h "Connection".toList with
  | none => .ok []
  | some v =>
    if v = [] then .ok []
    else
      match words true v with
      | none => .error .endless
      | some (.error e) => .error (.fault e)
      | some (.ok ws) => .ok ((parseTokenList ws).1.map Py.lower)

/-- `GetExpectContinue` (http:1255-1260). -/
def expectContinue (h : Headers) : Bool :=
  match getHeader h "Expect".toList with
  | some v => Py.lower (strip v) = "100-continue".toList
  | none => false

/-! ## Responses -/

/-- The modes of a response (http:1720-1727). -/
inductive Mode where
  | status | header | chunkSize | chunkData | chunkTrailer | data | done
deriving DecidableEq, Repr

/-- `HTTPResponse` (http:1729-1742), after `Reset`.  `transferPos` is never negative. -/
structure Resp where
  headers : Headers := []
  /-- `transferChunked` -/
  chunked : Bool := false
  /-- `transferLength` -/
  length : Option Int := none
  /-- `transferPos` -/
  pos : Nat := 0
  version : Option HttpVersion := none
  status : Option Nat := none
  reason : Str := []
  mode : Mode := .status
  /-- `currHeader` -/
  curr : Option (Str × Str) := none
deriving DecidableEq, Repr

/-- What a response does to its request. -/
inductive Ev where
  /-- `HandleResponseHeader` -/
  | header
  /-- `WriteResponse` of data that are not empty -/
  | data (d : Str)
  /-- `ResponseFinished`, with the status of the response -/
  | finished (status : Nat)
deriving DecidableEq, Repr

/-- Whether a status is informational (http:1296, 1963). -/
def informational (status : Nat) : Bool := 100 ≤ status && status ≤ 199

/-- `CalculateTransferLength` of a response to a request with the method (http:1280-1333). -/
def responseLength (method : Str) (r : Resp) : Except Exn Resp :=
  let status := r.status.getD 0
  if status / 100 = 1 ∨ status = 204 ∨ status = 304 ∨ method = "HEAD".toList then
    .ok { r with chunked := false, length := some 0 }
  else
    let identity := match transferEncoding r.headers with
      | none => true
      | some e => decide (e = "identity".toList)
    if identity then
      match contentLength r.headers with
      | .error e => .error e
      | .ok (some n) => .ok { r with chunked := false, length := some n }
      | .ok none => .ok { r with chunked := false }
    else .ok { r with chunked := true, length := none }

/-- `self.SetHeader(self.currHeader[0],self.currHeader[1][:-2],True)` if there is a header (http:1913-1916, 1923-1924). -/
def flush (r : Resp) : Resp :=
  match r.curr with
  | some (n, v) => { r with headers := setHeader r.headers n (some v.dropLast.dropLast) true }
  | none => r

/-- `ReadHeader` (http:1911-1932). -/
def readHeader (r : Resp) (line : Str) : Except Exn Resp :=
  if line = crlfStr then .ok { flush r with curr := none }
  else
    match (lws line).isSome, r.curr with
    | true, some (n, v) => .ok { r with curr := some (n, v ++ line) }
    | _, _ =>
      if ':' ∈ line then
        .ok { flush r with curr := some (line.takeWhile (· ≠ ':'), (line.dropWhile (· ≠ ':')).drop 1) }
      else .error (.fault .nameError)

/-- The status line (http:1857-1866): version, status and reason. -/
def statusParser : P (HttpVersion × Nat × Str) := do
  let v ← parseHttpVersion
  parseSP
  let ws ← get
  let status ← if isInteger ws then requireInteger else pure 0
  parseSP
  let reason ← parseRemainder
  return (v, status, reason)

/-- `ParameterParser(…)` and a method of it. -/
def parsed {α : Type} (ignoreSpace : Bool) (s : Str) (m : P α) : Except Exn α :=
  match words ignoreSpace s with
  | none => .error .endless
  | some (.error e) => .error (.fault e)
  | some (.ok ws) =>
    match m ws with
    | .ok (a, _) => .ok a
    | .error e => .error (.fault e)

/-- The digits that `int(s,16)` reads after the sign: `0x` may come before them. -/
def hexPrefix : Str → Str
  | '0' :: 'x' :: u => u
  | '0' :: 'X' :: u => u
  | u => u

/-- `int(s,16)` without a sign. -/
def hexNat (s : Str) : Except Exn Nat :=
  if hexPrefix s ≠ [] ∧ (hexPrefix s).all Py.isHex then .ok (Py.digitsVal 16 (hexPrefix s)) else .error (.fault .valueError)

/-- `int(chunkLine,16)` (http:1886).  Python also accepts the suffix `L` of numbers that do not fit a machine word. -/
def hexInt (s : Str) : Except Exn Int :=
  match s with
  | '-' :: t => (hexNat t).map fun n : Nat => -(n : Int)
  | '+' :: t => (hexNat t).map fun n : Nat => (n : Int)
  | t => (hexNat t).map fun n : Nat => (n : Int)

/-- The size of a chunk (http:1884-1886). -/
def chunkSize (line : Str) : Except Exn Int :=
  match parsed true line.dropLast.dropLast parseToken with
  | .error e => .error e
  | .ok none => .error (.fault .typeError)
  | .ok (some t) => hexInt t

/-- `Finished` of a response (http:1961-1965). -/
def finish (r : Resp) : Resp × List Ev :=
  (if informational (r.status.getD 0) then {} else r, [.finished (r.status.getD 0)])

/-- What follows the end of the headers (http:1871-1881). -/
def startBody (r : Resp) : Resp :=
  if r.chunked then { r with mode := .chunkSize }
  else
    match r.length with
    | none => { r with length := some 0, pos := 0, mode := .data }
    | some n => if n ≠ 0 then { r with pos := 0, mode := .data } else { r with length := some 0, pos := 0, mode := .done }

/-- `if self.mode==self.RESP_DONE: self.Finished()` (http:1908-1909, 1958-1959). -/
def ended (r : Resp) (evs : List Ev) : Resp × List Ev :=
  if r.mode = .done then ((finish r).1, evs ++ (finish r).2) else (r, evs)

/-- `RecvLine` (http:1854-1909). -/
def recvLine (method : Str) (r : Resp) (line : Str) : Except Exn (Resp × List Ev) :=
  match r.mode with
  | .status =>
    match parsed false line.dropLast.dropLast statusParser with
    | .error e => .error e
    | .ok (v, status, reason) => .ok ({ r with version := some v, status := some status, reason := reason, mode := .header }, [])
  | .header =>
    match readHeader r line with
    | .error e => .error e
    | .ok r =>
      if line = crlfStr then
        match responseLength method r with
        | .error e => .error e
        | .ok r => .ok (ended (startBody r) [.header])
      else .ok (r, [])
  | .chunkSize =>
    match chunkSize line with
    | .error e => .error e
    | .ok n =>
      .ok (if n = 0 then { r with length := some 0, pos := 0, mode := .chunkTrailer }
        else { r with length := some (n + 2), pos := 0, mode := .chunkData }, [])
  | .chunkTrailer =>
    match readHeader r line with
    | .error e => .error e
    | .ok r => .ok (if line = crlfStr then ended { r with mode := .done } [] else (r, []))
  | .chunkData | .data | .done => .error .http

/-- `WriteResponse` (http:1629-1634). -/
def write (d : Str) : List Ev := if d = [] then [] else [.data d]

/-- `RecvBytes` (http:1934-1959).  The slice `data[:-extra]` is empty if `extra` is more than there is. -/
def recvBytes (r : Resp) (d : Str) : Resp × List Ev :=
  let n := r.length.getD 0
  let pos := r.pos + d.length
  match r.mode with
  | .chunkData =>
    let extra : Int := pos - (n - 2)
    let out := if extra > 0 then d.take (d.length - extra.toNat) else d
    ({ r with pos := pos, mode := if (pos : Int) ≥ n then .chunkSize else .chunkData }, write out)
  | .data =>
    if n ≠ 0 then
      let out := if (pos : Int) > n then d.take (pos - n).toNat else d
      ended { r with pos := pos, mode := if (pos : Int) ≥ n then .done else .data } (write out)
    else ({ r with pos := pos }, write d)
  | _ => ended r []

/-- The answer of `RecvNeeds`. -/
inductive Need where
  /-- `CRLF` -/
  | line
  /-- a number of bytes, zero for all there are -/
  | bytes (n : Int)
  /-- a `long`, which is no `IntType` -/
  | long
  /-- `None` -/
  | nothing
deriving DecidableEq, Repr

/-- `RecvNeeds` (http:1829-1852).  A number is a `long` if it does not fit 64 bits. -/
def needs (r : Resp) : Need :=
  match r.mode with
  | .status | .header | .chunkSize | .chunkTrailer => .line
  | .done => .nothing
  | .chunkData | .data =>
    match r.length with
    | some n => if n = 0 then .bytes 0 else if -(2 ^ 63) ≤ n ∧ n < 2 ^ 63 then .bytes (n - r.pos) else .long
    | none => .bytes 0

/-! ## The buffer of a connection -/

/-- `recvBuffer` and `recvBufferSize` (http:100-101). -/
structure Buf where
  pieces : List Str := []
  size : Int := 0
deriving DecidableEq, Repr

/-- `find(CRLF)` (http:421-424): the line with its end, and the rest. -/
def cutLine : Str → Option (Str × Str)
  | [] => none
  | '\r' :: '\n' :: t => some (crlfStr, t)
  | c :: t => (cutLine t).map fun p => (c :: p.1, p.2)

/-- The inner loop that takes some bytes from the pieces (http:457-473); `none` is an `IndexError`. -/
def takePieces : Nat → List Str → Option (Str × List Str)
  | _, [] => none
  | n, d :: ps =>
    if d.length < n then (takePieces (n - d.length) ps).map fun p => (d ++ p.1, p.2)
    else if d.length = n then some (d, ps)
    else some (d.take n, d.drop n :: ps)

/-- What a round of the loop of `_RecvResponseData` comes to. -/
inductive Round where
  /-- the response needs more than there is (`break`, `False`) -/
  | blocked
  /-- the response is complete (`True`) -/
  | complete
  /-- something was passed to the response -/
  | next (r : Resp) (b : Buf) (last : Option Str) (evs : List Ev)

/-- A round of the loop of `_RecvResponseData` (http:415-484).  `last` is the local variable `bytes`, which keeps its value
from round to round. -/
def round (method : Str) (r : Resp) (b : Buf) (last : Option Str) : Except Exn Round :=
  match needs r with
  | .line =>
    match cutLine b.pieces.flatten with
    | none => .ok .blocked
    | some (line, rest) =>
      match recvLine method r line with
      | .error e => .error e
      | .ok (r', evs) => .ok (.next r' (if rest ≠ [] then ⟨[rest], rest.length⟩ else ⟨[], 0⟩) last evs)
  | .bytes n =>
    if n = 0 then
      if b.size > 0 then
        .ok (.next (recvBytes r b.pieces.flatten).1 ⟨[], 0⟩ (some b.pieces.flatten) (recvBytes r b.pieces.flatten).2)
      else .ok .blocked
    else if b.size < n then .ok .blocked
    else if n < 0 then
      match last with
      | none => .error .unbound
      | some d => .ok (.next (recvBytes r d).1 { b with size := b.size - d.length } last (recvBytes r d).2)
    else
      match takePieces n.toNat b.pieces with
      | none => .error (.fault .valueError)
      | some (d, ps) => .ok (.next (recvBytes r d).1 ⟨ps, b.size - d.length⟩ (some d) (recvBytes r d).2)
  | .nothing => .ok .complete
  | .long => .error .http

/-- The state after `_RecvResponseData`: the response, the buffer, what was done to the request and what is returned. -/
structure Received where
  r : Resp
  b : Buf
  evs : List Ev
  complete : Bool
deriving DecidableEq, Repr

/-- The loop of `_RecvResponseData` (http:414-484) for a number of rounds.  Each round shortens the buffer or ends a block, so
that twice the size of the buffer is enough (`Verif.Props.http_reading_ends`); after that the answer is `endless`. -/
def loop (method : Str) : Nat → Resp → Buf → Option Str → Except Exn Received
  | 0, _, _, _ => .error .endless
  | n + 1, r, b, last =>
    match round method r b last with
    | .error e => .error e
    | .ok .blocked => .ok ⟨r, b, [], false⟩
    | .ok .complete => .ok ⟨r, b, [], true⟩
    | .ok (.next r' b' last' evs) => (loop method n r' b' last').map fun x => { x with evs := evs ++ x.evs }

/-- `_RecvResponseData` after `recv` has returned some bytes (http:392-484). -/
def receive (method : Str) (r : Resp) (b : Buf) (d : Str) : Except Exn Received :=
  let b' : Buf := ⟨b.pieces ++ [d], b.size + d.length⟩
  loop method (2 * b'.pieces.flatten.length + 3) r b' none

/-- The bytes received one after another while the response is not complete. -/
def receiveAll (method : Str) : Resp → Buf → List Str → Except Exn (Received × List Str)
  | r, b, [] => .ok (⟨r, b, [], false⟩, [])
  | r, b, d :: ds =>
    match receive method r b d with
    | .error e => .error e
    | .ok x =>
      if x.complete then .ok (x, ds)
      else (receiveAll method x.r x.b ds).map fun y => ({ y.1 with evs := x.evs ++ y.1.evs }, y.2)

/-! ## Requests -/

/-- `CalculateTransferLength` of a request (http:1280-1333): the headers, whether the body is sent in chunks, and its length.
The body is absent if it is a stream. -/
def requestLength (method : Str) (h : Headers) (body : Option Str) : Except Exn (Headers × Bool × Option Int) :=
  let identity := match transferEncoding h with
    | none => true
    | some e => decide (e = "identity".toList)
  if identity then
    match contentLength h with
    | .error e => .error e
    | .ok (some n) =>
      match body with
      | some d => if (d.length : Int) < n ∨ (d.length : Int) > n then .error .http else .ok (h, false, some n)
      | none => .ok (h, false, some n)
    | .ok none =>
      match body with
      | none => .ok (setHeader h "Transfer-Encoding".toList (some "chunked".toList) false, true, none)
      | some d =>
        if d ≠ [] ∨ ¬ (Py.lower method ∈ ["get".toList, "head".toList, "delete".toList]) then
          .ok (setHeader h "Content-Length".toList (some (Py.strNat d.length)) false, false, some d.length)
        else .ok (h, false, none)
  else .ok (h, true, none)

/-- `GetHeaderList` (http:969-974). -/
def headerList (h : Headers) : List Str := Paging.stableSort (fun a b => decide (a ≤ b)) (Dict.keys h)

/-- A line of a header (http:1558-1560). -/
def headerLine (name value : Str) : Str := name ++ [':', ' '] ++ value ++ crlfStr

/-- The headers of a request when it is sent (http:1549-1554): credentials are added if there are none. -/
def withCredentials (h : Headers) (credentials : Option Str) : Headers :=
  match getHeader h "Authorization".toList, credentials with
  | none, some c => setHeader h "Authorization".toList (some c) false
  | _, _ => h

/-- `ReadRequestHeader` (http:1544-1562) after the length was calculated.  `credentials` is what
`FindCredentialsForURL` finds. -/
def requestHeader (method url : Str) (version : HttpVersion) (h : Headers) (credentials : Option Str) : Str :=
  let h := withCredentials h credentials
  method ++ [' '] ++ url ++ [' '] ++ version.format ++ crlfStr ++
    ((headerList h).flatMap fun k => match Dict.get h k with
      | some (n, v) => headerLine n v
      | none => []) ++ crlfStr

/-- A stream as what its `read` returns one after another, if asked for enough. -/
abbrev Stream := List Str

/-- `read(n)`. -/
def Stream.read (n : Nat) : Stream → Str × Stream
  | [] => ([], [])
  | d :: ds => if d.length ≤ n then (d, ds) else (d.take n, d.drop n :: ds)

/-- The body of a request. -/
inductive Body where
  | text (d : Str)
  | stream (s : Stream)
deriving DecidableEq, Repr

/-- The state of sending a body (http:961-967). -/
structure Sending where
  body : Body
  chunked : Bool
  /-- `transferLength` -/
  length : Option Int
  /-- `transferPos` -/
  pos : Nat := 0
  /-- `transferDone` -/
  over : Bool := false
deriving DecidableEq, Repr

/-- `"%x"`. -/
def hexText (n : Nat) : Str :=
  if n < 16 then [Py.hexDigitChar n] else hexText (n / 16) ++ [Py.hexDigitChar (n % 16)]
termination_by n

/-- A chunk as it is sent (http:1574-1577, 1602-1604). -/
def chunk (d : Str) : Str := hexText d.length ++ crlfStr ++ d ++ crlfStr

/-- `"0\r\n\r\n"`. -/
def lastChunk : Str := '0' :: crlfStr ++ crlfStr

/-- `ReadRequestBody` (http:1564-1612).  `size` is `SOCKET_CHUNK`.  A stream that is not sent in chunks and has no length is
`None-0`, a `TypeError`; a negative length asks the stream for everything, which is not modelled: it is taken for the length
zero. -/
def readBody (size : Nat) (s : Sending) : Except Exn (Str × Sending) :=
  if s.over then .ok ([], s)
  else
    match s.body with
    | .stream ds =>
      if s.chunked then
        let x := Stream.read size ds
        if x.1 ≠ [] then .ok (chunk x.1, { s with body := .stream x.2, pos := s.pos + x.1.length })
        else .ok (lastChunk, { s with body := .stream x.2, over := true })
      else
        match s.length with
        | none => .error (.fault .typeError)
        | some n =>
          let left := n.toNat - s.pos
          if left ≠ 0 then
            let x := Stream.read (min left size) ds
            if x.1 ≠ [] then .ok (x.1, { s with body := .stream x.2, pos := s.pos + x.1.length })
            else .error .http
          else .ok ([], { s with over := true })
    | .text d =>
      if s.chunked then .ok (chunk d ++ lastChunk, { s with pos := d.length, over := true })
      else .ok (d, { s with pos := d.length, over := true })

/-- What is sent of a body in a number of calls, up to the first that returns nothing (http:186-204). -/
def sendBody (size : Nat) : Nat → Sending → Except Exn Str
  | 0, _ => .error .endless
  | n + 1, s =>
    match readBody size s with
    | .error e => .error e
    | .ok (d, s') => if d = [] then .ok [] else (sendBody size n s').map fun t => d ++ t

end Verif.Http.Msg
