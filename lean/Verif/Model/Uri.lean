import Verif.Model.Py

/-!
# Uniform resource identifiers (/repo/pyslet/pyslet/rfc2396.py)

Octet strings are strings of characters with codes below 256.  `URIException` and `URIRelativeError` are reported as
`valueError`.  The URI classes registered for particular schemes parse their components with the code modelled here; the
extra attributes they compute (server components) are modelled by `splitServer`.
-/

namespace Verif.Uri

open Verif

set_option linter.unusedVariables false

/-- `IsUpAlpha`, `IsLowAlpha`, `IsAlpha` (rfc2396.py:16-23). -/
def isAlpha (c : Char) : Bool := (0x41 ≤ c.toNat && c.toNat ≤ 0x5A) || (0x61 ≤ c.toNat && c.toNat ≤ 0x7A)

/-- `IsDigit` (rfc2396.py:25-26). -/
def isDigit (c : Char) : Bool := 0x30 ≤ c.toNat && c.toNat ≤ 0x39

/-- `IsAlphaNum` (rfc2396.py:28-29). -/
def isAlphaNum (c : Char) : Bool := isAlpha c || isDigit c

/-- `IsReserved` (rfc2396.py:31-32). -/
def isReserved (c : Char) : Bool := c.toNat ∈ [0x3B, 0x2F, 0x3F, 0x3A, 0x40, 0x26, 0x3D, 0x2B, 0x24, 0x2C]

/-- `IsMark` (rfc2396.py:37-38). -/
def isMark (c : Char) : Bool := c.toNat ∈ [0x2D, 0x5F, 0x2E, 0x21, 0x7E, 0x2A, 0x27, 0x28, 0x29]

/-- `IsUnreserved` (rfc2396.py:34-35). -/
def isUnreserved (c : Char) : Bool := isAlphaNum c || isMark c

/-- `IsHex` (rfc2396.py:40-41). -/
def isHex (c : Char) : Bool :=
  isDigit c || (0x41 ≤ c.toNat && c.toNat ≤ 0x46) || (0x61 ≤ c.toNat && c.toNat ≤ 0x66)

/-- `IsSchemeChar` (rfc2396.py:55-56). -/
def isSchemeChar (c : Char) : Bool := isAlphaNum c || c.toNat ∈ [0x2B, 0x2D, 0x2E]

/-- The states of `ParseURIC`: between characters, after a percent sign, after its first digit. -/
inductive UricMode where
  | plain
  | pct
  | digit
deriving DecidableEq, Repr

/-- `ParseURIC` from position 0 (rfc2396.py:61-87): the number of octets recognised. -/
def uricLoop : UricMode → Nat → Str → Nat
  | _, n, [] => n
  | .plain, n, c :: t =>
    if isReserved c || isUnreserved c then uricLoop .plain (n + 1) t
    else if c.toNat = 0x25 then uricLoop .pct n t
    else n
  | .pct, n, c :: t => if isHex c then uricLoop .digit n t else n
  | .digit, n, c :: t => if isHex c then uricLoop .plain (n + 3) t else n

/-- `ParseURIC(source)`. -/
def parseURIC (s : Str) : Nat := uricLoop .plain 0 s

/-- The loop of `ParseScheme` (rfc2396.py:93-101); `acc` is `octets[:pos]`. -/
def schemeLoop (acc : Str) : Str → Option Str
  | [] => none
  | c :: t =>
    if (acc ≠ [] && isSchemeChar c) || isAlpha c then schemeLoop (acc ++ [c]) t
    else if c.toNat = 0x3A then some acc
    else none

/-- `ParseScheme` (rfc2396.py:90-102). -/
def parseScheme (octets : Str) : Option Str := schemeLoop [] octets

/-- `"%02X"%n` for `n < 256`. -/
def hex2 (n : Nat) : Str :=
  let d := fun n => if n < 10 then Char.ofNat (48 + n) else Char.ofNat (55 + n)
  [d (n / 16), d (n % 16)]

/-- Body of the loop of `EscapeData` (rfc2396.py:135-140). -/
def escapeChar (reserved : Char → Bool) (c : Char) : Str :=
  if reserved c || !(isUnreserved c || isReserved c) then '%' :: hex2 c.toNat else [c]

/-- `EscapeData` (rfc2396.py:133-141). -/
def escapeData (reserved : Char → Bool) (s : Str) : Str := s.flatMap (escapeChar reserved)

/-- The states of `UnescapeData`. -/
inductive UnMode where
  | plain
  | pct
  | digit (c : Char)
deriving DecidableEq, Repr

/-- `UnescapeData` (rfc2396.py:144-170). -/
def unescapeLoop : UnMode → Str → Str
  | _, [] => []
  | .plain, c :: t => if c.toNat = 0x25 then unescapeLoop .pct t else c :: unescapeLoop .plain t
  | .pct, c :: t => if isHex c then unescapeLoop (.digit c) t else '%' :: c :: unescapeLoop .plain t
  | .digit d, c :: t =>
    if isHex c then Char.ofNat (Py.digitsVal 16 [d, c]) :: unescapeLoop .plain t
    else '%' :: d :: unescapeLoop .plain t

/-- `UnescapeData(source)`. -/
def unescapeData (s : Str) : Str := unescapeLoop .plain s

/-- `CanonicalizeData` (rfc2396.py:105-130).  `int(escape,16)` is modelled for one or two hexadecimal digits; the signs
and blanks it also accepts are reported as the error it raises for other text. -/
def canonicalizeData : Str → Except Err Str
  | [] => .ok []
  | c :: t =>
    if c = '%' then
      match t with
      | [] => .error .valueError
      | [a] => if isHex a then .ok ['%', a] else .error .valueError
      | a :: b :: t' =>
        if isHex a && isHex b then
          let d := Char.ofNat (Py.digitsVal 16 [a, b])
          canonicalizeData t' >>= fun r => .ok (if isUnreserved d then d :: r else '%' :: a :: b :: r)
        else .error .valueError
    else canonicalizeData t >>= fun r =>
      .ok (if !(isUnreserved c || isReserved c) then '%' :: hex2 c.toNat ++ r else c :: r)

/-- The loop of `SplitPathSegment` in mode `;` (rfc2396.py:382-388). -/
def paramLoop (acc : Str) : Str → List Str
  | [] => [acc]
  | c :: t => if c.toNat = 0x3B then acc :: paramLoop [] t else paramLoop (acc ++ [c]) t

/-- The loop of `SplitPathSegment` before a semicolon (rfc2396.py:372-381). -/
def segmentLoop (acc : Str) : Str → Str × List Str
  | [] => (acc, [])
  | c :: t => if c.toNat = 0x3B then (acc, paramLoop [] t) else segmentLoop (acc ++ [c]) t

/-- `SplitPathSegment` (rfc2396.py:363-390). -/
def splitPathSegment (segment : Str) : Str × List Str := segmentLoop [] segment

/-- Bytes of the UTF-8 encoding of a character above U+007F. -/
def utf8Bytes (n : Nat) : List Nat :=
  if n < 0x800 then [0xC0 + n / 64, 0x80 + n % 64]
  else if n < 0x10000 then [0xE0 + n / 4096, 0x80 + n / 64 % 64, 0x80 + n % 64]
  else [0xF0 + n / 262144, 0x80 + n / 4096 % 64, 0x80 + n / 64 % 64, 0x80 + n % 64]

/-- `EncodeUnicodeURI` (rfc2396.py:397-410).  `"%2X"` and `"%02X"` agree on the bytes it is used for, all above 15. -/
def encodeUnicodeURI (s : Str) : Str :=
  s.flatMap fun c => if c.toNat > 0x7F then (utf8Bytes c.toNat).flatMap (fun b => '%' :: hex2 b) else [c]

/-! ## Path segments -/

/-- The loop of `SplitPath` (rfc2396.py:255-266); `cur` is `path[segStart:pos]`, absent before the first slash of an
absolute path. -/
def splitLoop (cur : Option Str) : Str → List Str
  | [] => match cur with
    | some s => [s]
    | none => []
  | c :: t =>
    if c.toNat = 0x2F then
      match cur with
      | some s => s :: splitLoop (some []) t
      | none => splitLoop (some []) t
    else splitLoop (cur.map (· ++ [c])) t

/-- `SplitAbsPath` (rfc2396.py:247-273). -/
def splitAbsPath (path : Str) : List Str := if path ≠ [] then splitLoop none path else []

/-- `SplitRelPath` (rfc2396.py:247-276). -/
def splitRelPath (path : Str) : List Str := if path ≠ [] then splitLoop (some []) path else [[]]

/-- `'.'`. -/
def dot : Str := ['.']
/-- `'..'`. -/
def dotdot : Str := ['.', '.']

/-- The loop of `NormalizeSegments` (rfc2396.py:284-300).  `pre` is `pathSegments[:i]` in reverse order and the second
argument `pathSegments[i:]`.  A final `.` becomes an empty segment, which the next iteration passes over; a final `..`
that removes its predecessor becomes an empty segment in its place, and the index is then past the end. -/
def normLoop (pre : List Str) : List Str → List Str
  | [] => pre.reverse
  | s :: rest =>
    if s = dot then
      if rest = [] then normLoop ([] :: pre) rest else normLoop pre rest
    else if s = dotdot then
      match pre with
      | p :: ps =>
        if p ≠ dotdot then
          if rest = [] then normLoop ([] :: ps) rest else normLoop ps rest
        else normLoop (s :: pre) rest
      | [] => normLoop (s :: pre) rest
    else normLoop (s :: pre) rest

/-- `NormalizeSegments` (rfc2396.py:278-303): the list afterwards. -/
def normalizeSegments (segs : List Str) : List Str :=
  let r := normLoop [] segs
  if r.getLast? = some dotdot then r ++ [[]] else r

/-- The loop of `RelativizeSegments` (rfc2396.py:308-314); the path and base arguments are the segments from `pos` on. -/
def relLoop (result : List Str) (path : List Str) : List Str → List Str
  | [] => result
  | b :: base =>
    if result ≠ [] then relLoop (dotdot :: result) path.tail base
    else if path.head? ≠ some b then relLoop (result ++ path) path.tail base
    else relLoop result path.tail base

/-- `RelativizeSegments` (rfc2396.py:305-321).  (`pathSegments[len(baseSegments)-1:]` with an empty base is
`pathSegments[-1:]`.) -/
def relativizeSegments (path base : List Str) : List Str :=
  let result := relLoop [] path base
  if result = [] ∧ path.length > base.length then
    if base = [] then path.drop (path.length - 1) else path.drop (base.length - 1)
  else if result = [[]] then [dot] ++ result
  else result

/-- `string.join(segments,'/')`. -/
def joinSlash (segs : List Str) : Str := Py.join '/' segs

/-- `MakeRelPathAbs` (rfc2396.py:323-330). -/
def makeRelPathAbs (absPath basePath : Str) : Str :=
  joinSlash (relativizeSegments (normalizeSegments (splitAbsPath absPath)) (normalizeSegments (splitAbsPath basePath)))

/-- `MakeRelPathRel` (rfc2396.py:332-360). -/
def makeRelPathRel (relPath baseRelPath : Str) : Str :=
  let path := normalizeSegments (splitRelPath relPath)
  let base := normalizeSegments (splitRelPath baseRelPath)
  let i := (path.takeWhile (· = dotdot)).length
  let j := (base.takeWhile (· = dotdot)).length
  let i := if j > i then j else i
  if i ≠ 0 then
    joinSlash (relativizeSegments (normalizeSegments (List.replicate i ['x'] ++ path))
      (normalizeSegments (List.replicate i ['x'] ++ base)))
  else joinSlash (relativizeSegments path base)

/-! ## URI references -/

/-- The components of a URI (rfc2396.py:431-441). -/
structure Parts where
  opaquePart : Option Str := none
  authority : Option Str := none
  absPath : Option Str := none
  relPath : Option Str := none
  query : Option Str := none
deriving DecidableEq, Repr

/-- The modes of `ParseSchemeSpecificPart` and `ParseRelativeURI`. -/
inductive Mode where
  /-- `'/'`: after a first slash -/
  | slash
  /-- `'a'` -/
  | auth
  /-- `'p'` -/
  | path
  /-- `'r'` -/
  | rel
  /-- `'?'` -/
  | query
deriving DecidableEq, Repr

/-- The modes after the first octet, common to `ParseSchemeSpecificPart` (rfc2396.py:472-519) and `ParseRelativeURI`
(rfc2396.py:547-604).  `acc` is the text from `aStart`, `pStart`, `rStart` or `qStart` to `pos`. -/
def parseLoop : Mode → Str → Parts → Str → Parts
  | .slash, _, p, [] => { p with absPath := some ['/'] }
  | .slash, _, p, c :: t =>
    if c.toNat = 0x2F then parseLoop .auth [] p t
    else if c.toNat = 0x3F then parseLoop .query [] { p with absPath := some ['/'] } t
    else parseLoop .path ['/', c] p t
  | .auth, acc, p, [] => { p with authority := some acc }
  | .auth, acc, p, c :: t =>
    if c.toNat = 0x2F then parseLoop .path ['/'] { p with authority := some acc } t
    else if c.toNat = 0x3F then parseLoop .query [] { p with authority := some acc } t
    else parseLoop .auth (acc ++ [c]) p t
  | .path, acc, p, [] => { p with absPath := some acc }
  | .path, acc, p, c :: t =>
    if c.toNat = 0x3F then parseLoop .query [] { p with absPath := some acc } t
    else parseLoop .path (acc ++ [c]) p t
  | .rel, acc, p, [] => { p with relPath := some acc }
  | .rel, acc, p, c :: t =>
    if c.toNat = 0x3F then parseLoop .query [] { p with relPath := some acc } t
    else parseLoop .rel (acc ++ [c]) p t
  | .query, acc, p, [] => { p with query := some acc }
  | .query, acc, p, c :: t => parseLoop .query (acc ++ [c]) p t

/-- `ParseSchemeSpecificPart` (rfc2396.py:452-519). -/
def parseSchemeSpecificPart (s : Str) : Parts :=
  match s with
  | [] => {}
  | c :: t => if c.toNat = 0x2F then parseLoop .slash ['/'] {} t else { opaquePart := some s }

/-- `ParseRelativeURI` (rfc2396.py:521-604). -/
def parseRelativeURI (s : Str) : Parts :=
  match s with
  | [] => { relPath := some [] }
  | c :: t =>
    if c.toNat = 0x2F then parseLoop .slash ['/'] {} t
    else if c.toNat = 0x3F then parseLoop .query [] { relPath := some [] } t
    else parseLoop .rel [c] {} t

/-- A `URI` object (rfc2396.py:413-450). -/
structure URI where
  octets : Str
  fragment : Option Str
  scheme : Option Str
  parts : Parts
deriving DecidableEq, Repr

/-- `URI.__init__` on an octet string (rfc2396.py:416-450). -/
def mkURI (octets : Str) : Except Err URI :=
  let uriLen := parseURIC octets
  let o := octets.take uriLen
  (if uriLen < octets.length then
    match octets.drop uriLen with
    | c :: t => if c.toNat = 0x23 then .ok (some t) else .error .valueError
    | [] => .ok none
   else .ok none) >>= fun fragment =>
  match parseScheme o with
  | some scheme => .ok ⟨o, fragment, some scheme, parseSchemeSpecificPart (o.drop (scheme.length + 1))⟩
  | none => .ok ⟨o, fragment, none, parseRelativeURI o⟩

/-- `URI.__str__` (rfc2396.py:830-847). -/
def URI.str (u : URI) : Str :=
  match u.fragment with
  | some f => u.octets ++ '#' :: f
  | none => u.octets

/-- Python truth value of an optional string. -/
def truthy : Option Str → Bool
  | none => false
  | some s => !s.isEmpty

/-- The composition of a result string at the end of `Resolve` and `Relative` (rfc2396.py:712-729, 814-828). -/
def compose (scheme authority absPath relPath query fragment : Option Str) : Str :=
  (scheme.elim [] (· ++ [':'])) ++
  (authority.elim [] ('/' :: '/' :: ·)) ++
  (match absPath with | some p => p | none => match relPath with | some r => r | none => []) ++
  (query.elim [] ('?' :: ·)) ++
  (fragment.elim [] ('#' :: ·))

/-- `URI.Resolve(base)` (rfc2396.py:645-729), for `currentDocRef` not given. -/
def resolve (self base : URI) : Except Err URI :=
  let p := self.parts
  if !(truthy p.absPath || truthy p.relPath) ∧ self.scheme = none ∧ p.authority = none ∧ p.query = none then
    match self.fragment with
    | none => mkURI base.octets
    | some f => mkURI (base.octets ++ '#' :: f)
  else if self.scheme ≠ none then mkURI self.str
  else
    match p.authority with
    | none =>
      match p.absPath with
      | none =>
        match base.parts.absPath with
        | some bp =>
          let segs := normalizeSegments ((splitAbsPath bp).dropLast ++ splitRelPath (p.relPath.getD []))
          mkURI (compose base.scheme base.parts.authority (some ('/' :: joinSlash segs)) none p.query self.fragment)
        | none =>
          let segs := normalizeSegments ((splitRelPath (base.parts.relPath.getD [])).dropLast ++
            splitRelPath (p.relPath.getD []))
          let r := joinSlash segs
          mkURI (compose base.scheme base.parts.authority none (some (if r = [] then ['.', '/'] else r)) p.query
            self.fragment)
      | some a => mkURI (compose base.scheme base.parts.authority (some a) none p.query self.fragment)
    | some a => mkURI (compose base.scheme (some a) p.absPath none p.query self.fragment)

/-- `URI.Relative(base)` (rfc2396.py:731-828). -/
def relative (self base : URI) : Except Err URI :=
  let p := self.parts
  let b := base.parts
  if p.opaquePart ≠ none then mkURI self.str
  else
    match (match self.scheme, base.scheme with
      | none, some _ => some (Except.error Err.valueError)
      | none, none => none
      | some _, none => some (mkURI self.str)
      | some s, some t => if Py.lower s ≠ Py.lower t then some (mkURI self.str) else none : Option (Except Err URI)) with
    | some r => r
    | none =>
      if p.authority = none ∧ b.authority ≠ none then .error .valueError
      else if p.authority ≠ b.authority then
        mkURI (compose none p.authority p.absPath p.relPath p.query self.fragment)
      else
        match p.absPath, b.absPath with
        | none, some _ => .error .valueError
        | none, none =>
          match p.relPath, b.relPath with
          | none, _ => .error .valueError
          | some r, none => mkURI (compose none none none (some r) p.query self.fragment)
          | some r, some br => mkURI (compose none none none (some (makeRelPathRel r br)) p.query self.fragment)
        | some _, none => mkURI self.str
        | some a, some ba => mkURI (compose none none none (some (makeRelPathAbs a ba)) p.query self.fragment)

/-! ## Server components -/

/-- The modes of `SplitServer`: the first component, the host after user information, the port, and user information
after a colon that does not begin a port. -/
inductive SMode where
  | start
  | host
  | port
  | user
deriving DecidableEq, Repr

/-- The loop of `SplitServer` (rfc2396.py:181-239).  `all` is `authority[:pos]`, `acc` the text from `hStart` or
`pStart` to `pos`. -/
def serverLoop : SMode → (all acc : Str) → (userinfo host : Option Str) → Str → Option Str × Option Str × Option Str
  | .start, all, _, u, h, [] => (u, some all, none)
  | .start, all, _, u, h, c :: t =>
    if c.toNat = 0x40 then serverLoop .host (all ++ [c]) [] (some all) h t
    else if c.toNat = 0x3A then serverLoop .port (all ++ [c]) [] u (some all) t
    else serverLoop .start (all ++ [c]) [] u h t
  | .host, all, acc, u, h, [] => (u, some acc, none)
  | .host, all, acc, u, h, c :: t =>
    if c.toNat = 0x3A then serverLoop .port (all ++ [c]) [] u (some acc) t
    else serverLoop .host (all ++ [c]) (acc ++ [c]) u h t
  | .port, all, acc, u, h, [] => (u, h, some acc)
  | .port, all, acc, u, h, c :: t =>
    if c.toNat = 0x40 ∧ u = none then serverLoop .host (all ++ [c]) [] (some all) none t
    else if !isDigit c then
      if u = none then serverLoop .user (all ++ [c]) [] u none t
      else (u, h, some acc)
    else serverLoop .port (all ++ [c]) (acc ++ [c]) u h t
  | .user, all, _, u, h, [] => (some all, some [], none)
  | .user, all, _, u, h, c :: t =>
    if c.toNat = 0x40 then serverLoop .host (all ++ [c]) [] (some all) h t
    else serverLoop .user (all ++ [c]) [] u h t

/-- `SplitServer` (rfc2396.py:173-242): user information, host and port. -/
def splitServer (authority : Option Str) : Option Str × Option Str × Option Str :=
  match authority with
  | none => (none, none, none)
  | some a => if a ≠ [] then serverLoop .start [] [] none none a else (none, some [], none)

end Verif.Uri
