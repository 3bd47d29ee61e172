import Verif.Model.Py
import Verif.Model.Uri
import Verif.Model.HttpWords
import Verif.Model.HttpMessage
import Verif.Model.HttpDate
import Verif.Model.Dict

/-!
# Credentials, challenges and redirects of the HTTP client

`pyslet/pyslet/rfc2617.py` (auth), the parts of `pyslet/pyslet/rfc2616.py` (http) that send a request again, and the
URLs of `pyslet/pyslet/rfc2616_params.py` (params).  All credentials are `BasicCredentials`, the only class there is.
Byte strings are lists of characters below 256.  Locks, logging (but for the errors of formatting its arguments) and
the connections are left out: `Model/HttpPool` and `Model/HttpConnection` have the latter.
-/

namespace Verif.Http.Auth

open Verif Verif.Http Verif.Http.Msg

/-- The exceptions that reach the caller. -/
inductive Trouble where
  /-- an exception of a parser, or a built-in one; `NameError` also for `HTTPInvalidBasicCredentials`, which does not
  exist -/
  | fault (e : Fault)
  /-- `HTTPException` (`pyslet/pyslet/rfc2616_core.py:6-8`) -/
  | http
  /-- `URIException` (rfc2396.py:7-8) -/
  | uri
  /-- `NotImplementedError` -/
  | notImplemented
  /-- a parser that never returns -/
  | endless
deriving DecidableEq, Repr

/-! ## Base 64 -/

/-- The character for six bits (`base64.b64encode` of the standard library). -/
def b64Char (n : Nat) : Char := "ABCDEFGHIJKLMNOPQRSTUVWXYZabcdefghijklmnopqrstuvwxyz0123456789+/".toList.getD n 'A'

/-- `table_a2b_base64` of the standard library: the six bits of a character.  The pad character has an entry, zero. -/
def b64Val (c : Char) : Option Nat :=
  let n := c.toNat
  if 65 ≤ n ∧ n ≤ 90 then some (n - 65)
  else if 97 ≤ n ∧ n ≤ 122 then some (n - 71)
  else if 48 ≤ n ∧ n ≤ 57 then some (n + 4)
  else if n = 43 then some 62
  else if n = 47 then some 63
  else if n = 61 then some 0
  else none

/-- `base64.b64encode` of the standard library. -/
def b64encode : Str → Str
  | [] => []
  | [a] => [b64Char (a.toNat / 4), b64Char (a.toNat % 4 * 16), '=', '=']
  | [a, b] => [b64Char (a.toNat / 4), b64Char (a.toNat % 4 * 16 + b.toNat / 16), b64Char (b.toNat % 16 * 4), '=']
  | a :: b :: c :: t =>
    b64Char (a.toNat / 4) :: b64Char (a.toNat % 4 * 16 + b.toNat / 16) :: b64Char (b.toNat % 16 * 4 + c.toNat / 64) ::
      b64Char (c.toNat % 64) :: b64encode t

/-- The loop of `binascii.a2b_base64` of the standard library.  `quad` counts characters modulo four, `left` and `bits`
are the bits not yet written.  Characters outside the alphabet are passed over, and so are pad characters out of place;
two of them in place end the text.  Bits left over are an error, which `b64decode` makes a `TypeError`. -/
def b64Loop (quad left bits : Nat) : Str → Except Fault Str
  | [] => if bits ≠ 0 then .error .typeError else .ok []
  | c :: t =>
    if c = '=' then
      if quad < 2 ∨ (quad = 2 ∧ (t.filter fun d => (b64Val d).isSome).head? ≠ some '=') then b64Loop quad left bits t
      else .ok []
    else
      match b64Val c with
      | none => b64Loop quad left bits t
      | some v =>
        if 8 ≤ bits + 6 then
          (b64Loop ((quad + 1) % 4) ((left * 64 + v) % 2 ^ (bits + 6 - 8)) (bits + 6 - 8) t).map
            (Char.ofNat ((left * 64 + v) / 2 ^ (bits + 6 - 8) % 256) :: ·)
        else b64Loop ((quad + 1) % 4) (left * 64 + v) (bits + 6) t

/-- `base64.b64decode` of the standard library. -/
def b64decode (s : Str) : Except Fault Str := b64Loop 0 0 0 s

/-! ## Credentials -/

/-- A `BasicCredentials` object (auth:122-134, 187-192).  The protection space is a `URI`, compared by its text
(rfc2396.py:849-851). -/
structure Credentials where
  space : Option Str := none
  realm : Option Str := none
  userid : Option Str := none
  password : Option Str := none
  prefixes : List (List Str) := []
deriving DecidableEq, Repr

/-- `BasicCredentials.__str__` (auth:269-273). -/
def Credentials.str (c : Credentials) : Str :=
  "Basic ".toList ++
    (match c.userid, c.password with
     | some u, some p => b64encode (u ++ ':' :: p)
     | _, _ => [])

/-- `split(':')`. -/
def splitColon : Str → List Str
  | [] => [[]]
  | c :: t =>
    match splitColon t with
    | [] => [[]]
    | s :: ss => if c = ':' then [] :: s :: ss else (c :: s) :: ss

/-- `SetBasicCredentials` (auth:194-199) on new credentials. -/
def setBasic (text : Str) : Except Trouble Credentials :=
  match b64decode text with
  | .error e => .error (.fault e)
  | .ok s =>
    match splitColon s with
    | [u, p] => .ok { userid := some u, password := some p }
    | _ => .error (.fault .nameError)

/-- `Credentials.FromHTTPString` (auth:176-183) with `FromWords` (auth:165-174). -/
def Credentials.fromString (source : Str) : Except Trouble Credentials :=
  match words true source with
  | none => .error .endless
  | some (.error e) => .error (.fault e)
  | some (.ok ws) =>
    match requireToken ws with
    | .error e => .error (.fault e)
    | .ok (scheme, ws) =>
      if Py.lower scheme = "basic".toList then
        match parseRemainder ws with
        | .error e => .error (.fault e)
        | .ok (rest, ws) =>
          match setBasic rest with
          | .error e => .error e
          | .ok c =>
            match requireEnd ws with
            | .error e => .error (.fault e)
            | .ok _ => .ok c
      else .error .notImplemented

/-- `IsPrefix` (auth:258-267). -/
def isPrefix : List Str → List Str → Bool
  | [], _ => true
  | _ :: _, [] => false
  | p :: ps, q :: qs => (p.isEmpty || p == q) && isPrefix ps qs

/-- `SplitPath` and `NormalizeSegments` of a path, which may be `None` (auth:227-228, 240-241). -/
def segments (path : Option Str) : List Str := Uri.normalizeSegments (Uri.splitAbsPath (path.getD []))

/-- `TestPath` (auth:225-232). -/
def Credentials.testPath (c : Credentials) (path : Option Str) : Bool :=
  c.prefixes.any fun p => isPrefix p (segments path)

/-- The loop of `AddSuccessPath` (auth:244-254): the prefixes afterwards and `keep`. -/
def addLoop (new : List Str) : List (List Str) → List (List Str) × Bool
  | [] => ([], true)
  | p :: ps =>
    if isPrefix p new then (p :: ps, false)
    else if isPrefix new p then addLoop new ps
    else (p :: (addLoop new ps).1, (addLoop new ps).2)

/-- `AddSuccessPath` (auth:234-256). -/
def Credentials.addSuccessPath (c : Credentials) (path : Option Str) : Credentials :=
  let r := addLoop (segments path) c.prefixes
  { c with prefixes := if r.2 then r.1 ++ [segments path] else r.1 }

/-! ## Challenges -/

/-- A `Challenge` (auth:29-42).  The scheme is absent where a parameter has been taken for it.  The protection space is
an argument of what uses it. -/
structure Challenge where
  scheme : Option Str
  params : List (Str × Str × Bool)
deriving DecidableEq, Repr

/-- The loop of `Challenge.__init__` that fills `_pdict` (auth:32-37). -/
def pdict (params : List (Str × Str × Bool)) : List (Str × Str) :=
  params.foldl (fun d p =>
    let d := Dict.set d p.1 p.2.1
    if (Dict.get d (Py.lower p.1)).isSome then d else Dict.set d (Py.lower p.1) p.2.1) []

/-- `Challenge.__init__` (auth:29-42): a challenge without a realm gets one. -/
def mkChallenge (scheme : Option Str) (params : List (Str × Str × Bool)) : Challenge :=
  ⟨scheme, if (Dict.get (pdict params) "realm".toList).isSome then params
    else params ++ [("realm".toList, "Default".toList, true)]⟩

/-- `Challenge.__getitem__` with a name (auth:86-94); `none` is `KeyError`.  The dictionary is that of the parameters
with the realm that has been added. -/
def Challenge.lookup (c : Challenge) (name : Str) : Option Str :=
  match Dict.get (pdict c.params) name with
  | some v => some v
  | none => Dict.get (pdict c.params) (Py.lower name)

/-- `Challenge.__str__` (auth:68-75).  A scheme that is not a string is a `TypeError` of `string.join`. -/
def Challenge.str (c : Challenge) : Except Fault Str :=
  match c.scheme with
  | none => .error .typeError
  | some s =>
    let params := c.params.map fun p => p.1 ++ '=' :: quoteString p.2.1 p.2.2
    .ok (if params.isEmpty then s else s ++ ' ' :: List.intercalate [',', ' '] params)

/-- The value of a parameter with its name (auth:288-297). -/
def challengeValue (name : Str) : P (Str × Str × Bool) := do
  parseSP
  requireSeparator '='
  parseSP
  let ws ← get
  if isToken ws then
    let v ← requireToken
    pure (name, v, false)
  else
    match ← parseQuotedString with
    | some v => pure (name, v, true)
    | none => throw .syntaxError

/-- The parameter of a round of the loop, if there is one (auth:286-297). -/
def challengeParam : P (List (Str × Str × Bool)) := do
  match ← parseToken with
  | none => pure []
  | some name =>
    let p ← challengeValue name
    pure [p]

/-- The loop of `RequireChallenge` over the parameters (auth:285-300).  Every round but the last takes a separator, so
that there are no more rounds than words. -/
def challengeParams : Nat → P (List (Str × Str × Bool))
  | 0 => pure []
  | n + 1 => do
    let ws ← get
    if (cWord ws).isNone then pure []
    else
      let here ← challengeParam
      parseSP
      let more ← parseSeparator ','
      if more then
        let rest ← challengeParams n
        pure (here ++ rest)
      else pure here

/-- `RequireChallenge` (auth:278-304).  `Challenge(*params)` takes the first parameter for the scheme, and without
parameters it is a `TypeError`. -/
def requireChallenge : P Challenge := do
  parseSP
  let scheme ← requireToken
  parseSP
  let ws ← get
  let params ← challengeParams (ws.length + 1)
  if Py.lower scheme = "basic".toList then pure (mkChallenge (some "Basic".toList) params)
  else match params with
    | [] => throw .typeError
    | _ :: rest => pure (mkChallenge none rest)

/-- `Challenge.FromString` (auth:44-52). -/
def Challenge.fromString (source : Str) : Option (Except Fault Challenge) :=
  Http.fromString false (do
    parseSP
    let c ← requireChallenge
    parseSP
    requireEnd
    pure c) source

/-- The loop of `ListFromString` (auth:59-64); every round but the last takes a separator. -/
def challengeLoop : Nat → P (List Challenge)
  | 0 => pure []
  | n + 1 => do
    let c ← parseProduction requireChallenge
    let more ← parseSeparator ','
    let rest ← (if more then challengeLoop n else pure [])
    pure (c.toList ++ rest)

/-- `Challenge.ListFromString` (auth:54-66). -/
def Challenge.listFromString (source : Str) : Option (Except Fault (List Challenge)) :=
  Http.fromString true (do
    let ws ← get
    let cs ← challengeLoop (ws.length + 1)
    requireEnd
    pure cs) source

/-! ## URLs -/

/-- The class of a URI (rfc2396.py:886-891, 1100; params:111-112). -/
inductive Kind where
  /-- `HTTPURL` -/
  | http
  /-- `HTTPSURL` -/
  | https
  /-- `FileURL` -/
  | file
  /-- `URI`, which has no attributes `host`, `port` and `userinfo` -/
  | other
deriving DecidableEq, Repr

/-- The class that `URIFactory.URI` takes for the scheme (rfc2396.py:886-891). -/
def kind (u : Uri.URI) : Kind :=
  match u.scheme with
  | none => .other
  | some s =>
    if Py.lower s = "http".toList then .http
    else if Py.lower s = "https".toList then .https
    else if Py.lower s = "file".toList then .file
    else .other

/-- `URIFactory.URI` (rfc2396.py:886-891). -/
def readUri (s : Str) : Except Trouble Uri.URI :=
  match Uri.mkURI s with
  | .ok u => .ok u
  | .error _ => .error .uri

/-- `host` of a server-based URL (rfc2396.py:989). -/
def hostOf (u : Uri.URI) : Option Str := (Uri.splitServer u.parts.authority).2.1

/-- `userinfo` of a server-based URL (rfc2396.py:989). -/
def userinfoOf (u : Uri.URI) : Option Str := (Uri.splitServer u.parts.authority).1

/-- `port` of a server-based URL (rfc2396.py:989). -/
def portOf (u : Uri.URI) : Option Str := (Uri.splitServer u.parts.authority).2.2

/-- `DEFAULT_PORT` (params:63, 105). -/
def defaultPort (https : Bool) : Nat := if https then 443 else 80

/-- The port in a canonical URL (params:80-84). -/
def portPart (u : Uri.URI) : Str :=
  match portOf u with
  | some p =>
    if p.isEmpty ∨ Py.digitsVal 10 p = defaultPort (kind u == .https) then [] else ':' :: Py.strNat (Py.digitsVal 10 p)
  | none => []

/-- The user information in a canonical URL (params:76-78). -/
def userPart (u : Uri.URI) : Str :=
  match userinfoOf u with
  | some i => i ++ ['@']
  | none => []

/-- `GetCanonicalRoot` (rfc2396.py:631-643) of an `http` or `https` URL with a host, as text (params:68-99).  The two
readings of intermediate texts by `URIFactory.URI` are left out: they change nothing in a text of this form. -/
def canonicalRoot (u : Uri.URI) : Str :=
  (if kind u == .https then "https://".toList else "http://".toList) ++
    (userPart u ++ (Py.lower ((hostOf u).getD []) ++ portPart u))

/-! ## Requests -/

/-- An `HTTPRequest` (http:1360-1398): what sending it again involves.  The body is a string, or a stream that `Resend`
rewinds to where it began (http:1407-1408). -/
structure Request where
  method : Str
  uri : Uri.URI
  /-- `url`, for the request line -/
  line : Str
  https : Bool
  hostname : Str
  port : Nat
  headers : Headers
  body : Str
  autoRedirect : Bool := true
  /-- `tryCredentials`: the place of the credentials in the list of the manager -/
  trying : Option Nat := none
deriving DecidableEq, Repr

/-- `SetRequestURI` (http:1417-1457) with the text of a URI.  The host of an `http` URL is a string: `hostname` is `None`
only without an authority, which counts as no host.  Fields set before an exception are not modelled. -/
def setRequestURI (r : Request) (text : Str) : Except Trouble Request :=
  match readUri text with
  | .error e => .error e
  | .ok u =>
    if kind u = .other then .error (.fault .attributeError)
    else if Uri.truthy (userinfoOf u) then .error .http
    else if kind u = .file then .error .http
    else
      let https := kind u == .https
      let path := if Uri.truthy u.parts.absPath then u.parts.absPath.getD [] else ['/']
      let line := path ++ (match u.parts.query with | some q => '?' :: q | none => [])
      let port := if Uri.truthy (portOf u) then Py.digitsVal 10 ((portOf u).getD []) else defaultPort https
      if Uri.truthy (hostOf u) then
        let host := (hostOf u).getD []
        .ok { r with
          uri := u, line := line, https := https, hostname := host, port := port,
          headers := setHeader r.headers "Host".toList
            (some (if port = defaultPort https then host else host ++ ':' :: Py.strNat port)) false }
      else .error .http

/-- `HTTPRequest(url,method,reqBody)` with headers set by the caller (http:1360-1398): the host comes from the URL. -/
def newRequest (method url body : Str) (headers : Headers) (autoRedirect : Bool) : Except Trouble Request :=
  setRequestURI ⟨method, ⟨[], none, none, {}⟩, [], false, [], 0, headers, body, autoRedirect, none⟩ url

/-- What goes out for a request, and to which server. -/
structure Sent where
  https : Bool
  hostname : Str
  port : Nat
  method : Str
  line : Str
  headers : Headers
  body : Str
deriving DecidableEq, Repr

/-- `TestURL` (auth:214-223) of the URL of a request, which is absolute. -/
def Credentials.testURL (c : Credentials) (u : Uri.URI) : Bool :=
  c.space == some (canonicalRoot u) && c.testPath u.parts.absPath

/-- `ReadRequestHeader` (http:1544-1562) and what follows it: the request with its headers, and what is sent. -/
def send (creds : List Credentials) (r : Request) : Request × Sent :=
  let r := if (getHeader r.headers "Authorization".toList).isSome then r
    else match creds.find? (·.testURL r.uri) with
      | some c => { r with headers := setHeader r.headers "Authorization".toList (some c.str) false }
      | none => r
  (r, ⟨r.https, r.hostname, r.port, r.method, r.line, r.headers, r.body⟩)

/-- What `Finished` looks at of a response. -/
structure Reply where
  status : Nat
  location : Option Str := none
  authenticate : Option Str := none
deriving DecidableEq, Repr

/-- `MatchChallenge` (auth:136-153).  A challenge has no attribute `realm`. -/
def Credentials.matchChallenge (c : Credentials) (space : Str) (ch : Challenge) : Except Trouble Bool :=
  if some "Basic".toList ≠ ch.scheme then .ok false
  else if c.space ≠ some space then .ok false
  else if Uri.truthy c.realm then .error (.fault .attributeError)
  else .ok true

/-- The loop of `FindCredentials` (http:930-932): the place of the first match. -/
def findLoop (space : Str) (ch : Challenge) : Nat → List Credentials → Except Trouble (Option Nat)
  | _, [] => .ok none
  | i, c :: cs =>
    match c.matchChallenge space ch with
    | .error e => .error e
    | .ok true => .ok (some i)
    | .ok false => findLoop space ch (i + 1) cs

/-- `FindCredentials` (http:926-932): the message for the log is made first. -/
def findCredentials (creds : List Credentials) (space : Str) (ch : Challenge) : Except Trouble (Option Nat) :=
  match ch.str with
  | .error e => .error (.fault e)
  | .ok _ => findLoop space ch 0 creds

/-- The loop of `Finished` over the challenges (http:1711-1716): the request and how often it has been queued.  There is
never more than one challenge (`Verif.Http.Auth.list_at_most_one`). -/
def tryChallenges (creds : List Credentials) : Request → Nat → List Challenge → Except Trouble (Request × Nat)
  | r, n, [] => .ok (r, n)
  | r, n, ch :: chs =>
    match findCredentials creds (canonicalRoot r.uri) ch with
    | .error e => .error e
    | .ok none => tryChallenges creds { r with trying := none } n chs
    | .ok (some i) =>
      tryChallenges creds
        { r with
          trying := some i,
          headers := setHeader r.headers "Authorization".toList (some ((creds.getD i {}).str)) false }
        (n + 1) chs

/-- The credentials after a response other than 401 to a request that tried some of them (http:1693-1697). -/
def noteSuccess (creds : List Credentials) (r : Request) : List Credentials :=
  match r.trying with
  | some i => creds.modify i (·.addSuccessPath r.uri.parts.absPath)
  | none => creds

/-- `Finished` (http:1678-1716), called when the response is complete: the credentials afterwards, the request, and
how often it has been queued again.  `RemoveCredentials` does not exist, nor does `Resolve` of a string. -/
def finished (creds : List Credentials) (r : Request) (a : Reply) : Except Trouble (List Credentials × Request × Nat) :=
  if r.trying.isSome ∧ a.status = 401 then .error (.fault .attributeError)
  else
    let creds := noteSuccess creds r
    let r := { r with trying := none }
    if r.autoRedirect ∧ 300 ≤ a.status ∧ a.status ≤ 399 ∧
        (a.status ≠ 302 ∨ r.method.map upperChar ∈ ["GET".toList, "HEAD".toList]) then
      match a.location with
      | none => .error (.fault .attributeError)
      | some l =>
        let location := strip l
        if location.isEmpty then .ok (creds, r, 0)
        else
          match readUri location with
          | .error e => .error e
          | .ok u =>
            if kind u = .other then .error (.fault .attributeError)
            else if !Uri.truthy (hostOf u) then .error (.fault .attributeError)
            else
              match setRequestURI r location with
              | .error e => .error e
              | .ok r => .ok (creds, r, 1)
    else if a.status = 401 then
      match a.authenticate with
      | none => .error (.fault .typeError)
      | some v =>
        match Challenge.listFromString v with
        | none => .error .endless
        | some (.error e) => .error (.fault e)
        | some (.ok chs) =>
          match tryChallenges creds r 0 chs with
          | .error e => .error e
          | .ok (r, n) => .ok (creds, r, n)
    else .ok (creds, r, 0)

/-- How a request ends. -/
inductive Outcome where
  /-- a response that is not followed by another request -/
  | answered (a : Reply)
  /-- an exception, in the thread that reads the response -/
  | raised (e : Trouble)
  /-- the request has been sent, and there is no response yet -/
  | waiting
deriving DecidableEq, Repr

/-- A request and the replies it gets, one after the other (http:1400-1415, 1544-1562, 1678-1716): what is sent, the
credentials afterwards and the outcome. -/
def exchange (creds : List Credentials) (r : Request) : List Reply → List Sent × List Credentials × Outcome
  | [] => ([(send creds r).2], creds, .waiting)
  | a :: as =>
    match finished creds (send creds r).1 a with
    | .error e =>
      ([(send creds r).2], if r.trying.isSome ∧ a.status = 401 then creds else noteSuccess creds r, .raised e)
    | .ok (creds', r', n) =>
      if n = 0 then ([(send creds r).2], creds', .answered a)
      else
        let rest := exchange creds' r' as
        ((send creds r).2 :: rest.1, rest.2)

end Verif.Http.Auth
