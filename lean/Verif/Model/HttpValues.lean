import Verif.Model.HttpWords
import Verif.Model.Paging
import Verif.Model.Calendar

/-!
# The values of HTTP headers

Models `pyslet/pyslet/rfc2616_params.py` (cited as *params*) and `pyslet/pyslet/rfc2616_headers.py` (cited as
*headers*): media types and their negotiation, tokens, languages, entity tags, versions, dates and byte ranges.  Python's
`cmp` is an `Ordering`.  Qualities are whole thousandths.  Lists are sorted with a stable sort, as `list.sort` does.
-/

namespace Verif.Http

open Verif

/-! ## Media types -/

/-- `MediaType` (params:198-213) and `MediaRange` (headers:12-40): the attributes `type`, `subtype`, `parameters`. -/
structure MediaType where
  type : Str
  subtype : Str
  params : Params
deriving DecidableEq, Repr

/-- `MediaType.__str__` (params:229-230). -/
def MediaType.format (m : MediaType) : Str := m.type ++ '/' :: m.subtype ++ formatParameters m.params

/-- `RequireMediaType` (params:711-721), and `RequireMediaRange` (headers:741-751), which ends at a parameter `q`. -/
def requireMediaType (qMode : Option Str) : P MediaType := do
  parseSP
  let type ← requireToken
  requireSeparator '/'
  let subtype ← requireToken
  parseSP
  let params ← parseParameters false qMode
  return ⟨Py.lower type, Py.lower subtype, params⟩

/-- `MediaType.FromString` (params:215-227). -/
def mediaTypeFromString : Str → Option (Except Fault MediaType) :=
  fromString false do
    let m ← requireMediaType none
    parseSP
    requireEnd
    return m

/-- `MediaType._hp` (params:212-213): the keys and values of the parameters in order. -/
def MediaType.hp (m : MediaType) : List (Str × Str) := m.params.map fun p => (p.key, p.value)

/-- `MediaType.__cmp__` (params:238-249). -/
def cmpMedia (a b : MediaType) : Ordering :=
  (compare (Py.lower a.type) (Py.lower b.type)).then <|
  (compare (Py.lower a.subtype) (Py.lower b.subtype)).then <|
  List.compareLex (compareLex (compareOn (·.1)) (compareOn (·.2))) a.hp b.hp

/-- `cmp` of two items of a dictionary of parameters: the key and then the list of name and value (core:648). -/
def cmpParam : Param → Param → Ordering :=
  compareLex (compareOn Param.key) (compareLex (compareOn Param.name) (compareOn Param.value))

/-- `MediaRange.CompareTypes` (headers:68-78). -/
def compareTypes (a b : Str) : Ordering :=
  if a = ['*'] then (if b = ['*'] then .eq else .gt)
  else if b = ['*'] then .lt
  else compare (Py.lower a) (Py.lower b)

/-- `MediaRange.__cmp__` (headers:55-66).  Dictionaries of the same size are compared item by item in the order of their
keys. -/
def cmpRange (a b : MediaType) : Ordering :=
  (compareTypes a.type b.type).then <|
  (compareTypes a.subtype b.subtype).then <|
  (compare b.params.length a.params.length).then <|
  List.compareLex cmpParam a.params b.params

/-- `MediaRange.MatchMediaType` (headers:80-117). -/
def rangeMatches (range m : MediaType) : Bool :=
  if range.type = ['*'] then true
  else if Py.lower range.type ≠ Py.lower m.type then false
  else if range.subtype = ['*'] then true
  else if Py.lower range.subtype ≠ Py.lower m.subtype then false
  else range.params.all fun p => m.params.get p.key = some p.value

/-! ## Qualities -/

/-- The thousandths of the digits after the point, `"%.3f"%float(...)` (params:746).  Whether a number with more than
three digits is rounded up depends on the floating point arithmetic: `up` stands for it. -/
def thousandths (up : Str → Bool) (b : Str) : Nat :=
  Py.digitsVal 10 ((b ++ ['0', '0', '0']).take 3) + (if (b.drop 3).any (· ≠ '0') && up b then 1 else 0)

/-- The quality of a word (params:738-752). -/
def qualityOf (up : Str → Bool) (w : Str) : Option Nat :=
  match Py.split '.' w with
  | [a] => if isDigits a then some (min 1000 (Py.digitsVal 10 a * 1000)) else none
  | [a, b] => if isDigits a && isDigits b then some (min 1000 (Py.digitsVal 10 a * 1000 + thousandths up b)) else none
  | _ => none

/-- `ParseQualityValue` (params:735-756) with the `SyntaxError` its callers raise if it returns `None` (headers:769-771,
815-817). -/
def requireQuality (up : Str → Bool) : P Nat := fun ws =>
  match isToken ws, cWord ws with
  | true, some w =>
    match qualityOf up w with
    | some q => .ok (q, ws.tail)
    | none => .error .syntaxError
  | _, _ => .error .syntaxError

/-- `s.rstrip(c)`. -/
def rstrip (c : Char) (s : Str) : Str := (s.reverse.dropWhile (· == c)).reverse

/-- `"%.3f"%self.q` with `rstrip('0')` and `rstrip('.')` (headers:154-156, 268-270). -/
def formatQ (q : Nat) : Str :=
  rstrip '.' <| rstrip '0' <|
    Py.strNat (q / 1000) ++ '.' :: [Py.digitChar (q / 100 % 10), Py.digitChar (q / 10 % 10), Py.digitChar (q % 10)]

/-! ## Accept -/

/-- `AcceptItem` (headers:136-139). -/
structure AcceptItem where
  range : MediaType
  q : Nat
  params : Params
deriving DecidableEq, Repr

/-- `AcceptItem.__str__` (headers:151-159). -/
def AcceptItem.format (i : AcceptItem) : Str :=
  i.range.format ++
    if !i.params.isEmpty || i.q ≠ 1000 then [';', ' ', 'q', '='] ++ formatQ i.q ++ formatParameters i.params else []

/-- `AcceptItem.__cmp__` (headers:161-172). -/
def cmpItem (a b : AcceptItem) : Ordering := (cmpRange a.range b.range).then (compare b.q a.q)

/-- `self._items.sort()` (headers:191-192). -/
def acceptList (items : List AcceptItem) : List AcceptItem := Paging.stableSort (fun a b => (cmpItem a b).isLE) items

/-- The optional `;q=` of an item (headers:761-775, 807-819): the quality and whether it was written. -/
def optQuality (up : Str → Bool) : P (Nat × Bool) := do
  parseSP
  if ← parseSeparator ';' then
    parseSP
    let qParam ← requireToken
    if Py.lower qParam ≠ ['q'] then throw .syntaxError
    parseSP
    requireSeparator '='
    parseSP
    let q ← requireQuality up
    return (q, true)
  else return (1000, false)

/-- `RequireAcceptItem` (headers:753-775). -/
def requireAcceptItem (up : Str → Bool) : P AcceptItem := do
  parseSP
  let range ← requireMediaType (some ['q'])
  let q ← optQuality up
  if q.2 then
    let ext ← parseParameters true none
    return ⟨range, q.1, ext⟩
  else return ⟨range, q.1, []⟩

/-- The loop of `RequireAcceptList` (headers:783-790) and `RequireAcceptTokenList` (headers:832-839), for as many rounds
as there are words. -/
def itemLoop {α : Type} (m : P α) : Nat → P (List α)
  | 0 => pure []
  | n + 1 => fun ws =>
    if (cWord ws).isNone then .ok ([], ws)
    else
      (do
        match ← parseProduction m with
        | none => return []
        | some a =>
          parseSP
          if ← parseSeparator ',' then
            let as ← itemLoop m n
            return a :: as
          else return [a] : P (List α)) ws

/-- `RequireAcceptList` (headers:777-794). -/
def requireAcceptList (up : Str → Bool) : P (List AcceptItem) := do
  parseSP
  let ws ← get
  let items ← itemLoop (requireAcceptItem up) ws.length
  if items.isEmpty then throw .syntaxError
  return acceptList items

/-- `AcceptList.FromString` (headers:214-220). -/
def acceptFromString (up : Str → Bool) : Str → Option (Except Fault (List AcceptItem)) :=
  fromString true do
    let l ← requireAcceptList up
    requireEnd
    return l

/-- `string.join(...,', ')` (headers:223, 348, 557). -/
def commaJoin : List Str → Str
  | [] => []
  | [a] => a
  | a :: b :: l => a ++ [',', ' '] ++ commaJoin (b :: l)

/-- `AcceptList.__str__` (headers:222-223). -/
def formatAccept (l : List AcceptItem) : Str := commaJoin (l.map AcceptItem.format)

/-- One round of a selection: a candidate takes the place of the best so far if its quality is greater
(headers:205-210). -/
def better {α : Type} (best : Option α × Nat) (x : α) (q : Nat) : Option α × Nat := if q > best.2 then (some x, q) else best

/-- `AcceptList.SelectType` (headers:194-212). -/
def selectType (items : List AcceptItem) (types : List MediaType) : Option MediaType :=
  (types.foldl (fun best m =>
    match items.find? fun i => rangeMatches i.range m with
    | some i => better best m i.q
    | none => best) (none, 0)).1

/-- The outcome of `ContentNegotiation` (`pyslet/pyslet/odata2/server.py:931-953`) for a request without `$format` option:
a header that is a syntax error counts as missing.  `none` is a request that is never answered. -/
def negotiate (up : Str → Bool) (default : List AcceptItem) (header : Option Str) (types : List MediaType) :
    Option (Except Fault (Option MediaType)) :=
  match header with
  | none => some (.ok (selectType default types))
  | some h =>
    (acceptFromString up h).map fun
      | .ok l => .ok (selectType l types)
      | .error .syntaxError => .ok (selectType default types)
      | .error e => .error e

/-! ## Accept-Charset, Accept-Encoding, Accept-Language -/

/-- `AcceptToken` (headers:250-253): `_token` is `lower token`. -/
structure AcceptToken where
  token : Str
  q : Nat
deriving DecidableEq, Repr

/-- `AcceptToken.__str__` (headers:265-272). -/
def AcceptToken.format (t : AcceptToken) : Str := t.token ++ if t.q ≠ 1000 then [';', 'q', '='] ++ formatQ t.q else []

/-- `AcceptToken.__cmp__` (headers:274-293). -/
def cmpToken (a b : AcceptToken) : Ordering :=
  if a.token = ['*'] then
    if b.token = ['*'] then compare b.q a.q else .gt
  else if b.token = ['*'] then .lt
  else (compare (Py.lower a.token) (Py.lower b.token)).then (compare b.q a.q)

/-- `AcceptTokenList.__init__` (headers:313-315). -/
def tokenList (items : List AcceptToken) : List AcceptToken := Paging.stableSort (fun a b => (cmpToken a b).isLE) items

/-- The item that decides about a token (headers:326-327). -/
def tokenItem (items : List AcceptToken) (token : Str) : Option AcceptToken :=
  items.find? fun i => Py.lower i.token = Py.lower token || Py.lower i.token = ['*']

/-- `AcceptTokenList.SelectToken` (headers:317-337). -/
def selectToken (items : List AcceptToken) (tokens : List Str) : Option Str :=
  (tokens.foldl (fun best t =>
    match tokenItem items t with
    | some i => better best t i.q
    | none => best) (none, 0)).1

/-- `"iso-8859-1"`. -/
def latin1 : Str := ['i', 's', 'o', '-', '8', '8', '5', '9', '-', '1']

/-- `AcceptCharsetList.SelectToken` (headers:368-387). -/
def selectCharset (items : List AcceptToken) (tokens : List Str) : Option Str :=
  (tokens.foldl (fun best t =>
    match tokenItem items t with
    | some i => better best t i.q
    | none => if Py.lower t = latin1 then better best t 1000 else best) (none, 0)).1

/-- `"identity"`. -/
def identity : Str := ['i', 'd', 'e', 'n', 't', 'i', 't', 'y']

/-- `AcceptEncodingList.SelectToken` (headers:397-422). -/
def selectEncoding (items : List AcceptToken) (tokens : List Str) : Option Str :=
  (tokens.foldl (fun best t =>
    match tokenItem items t with
    | some i => better best t i.q
    | none => if Py.lower t = identity ∧ best.2 = 0 then (some t, best.2) else best) (none, 0)).1

/-- `RequireAcceptToken` (headers:796-820). -/
def requireAcceptToken (up : Str → Bool) : P AcceptToken := do
  parseSP
  let token ← requireToken
  let q ← optQuality up
  return ⟨token, q.1⟩

/-- `AcceptTokenList.FromString` (headers:339-345) with `RequireAcceptTokenList` (headers:822-840); `sort` is the
constructor of the class. -/
def tokensFromString (up : Str → Bool) (sort : List AcceptToken → List AcceptToken) :
    Str → Option (Except Fault (List AcceptToken)) :=
  fromString true do
    parseSP
    let ws ← get
    let items ← itemLoop (requireAcceptToken up) ws.length
    requireEnd
    return sort items

/-- `LanguageTag` (params:434-440). -/
structure LanguageTag where
  primary : Str
  subtags : List Str
deriving DecidableEq, Repr

/-- `LanguageTag._tag` (params:437-440). -/
def LanguageTag.tag (l : LanguageTag) : List Str := Py.lower l.primary :: l.subtags.map Py.lower

/-- `LanguageTag.PartialMatch` (params:458-463). -/
def LanguageTag.partialMatch (l : LanguageTag) (range : List Str) : Bool :=
  if range.length > l.tag.length then false
  else (List.range range.length).all fun i => l.tag[i]? = range[i]?

/-- `LanguageTag.__str__` (params:496-497). -/
def LanguageTag.format (l : LanguageTag) : Str := Py.join '-' (l.primary :: l.subtags)

/-- `RequireLanguageTag` (params:758-765). -/
def requireLanguageTag : P LanguageTag := do
  parseSP
  let t ← requireToken
  parseSP
  match Py.split '-' t with
  | [] => throw .typeError
  | p :: s => return ⟨p, s⟩

/-- `LanguageTag.FromString` (params:465-477). -/
def languageFromString : Str → Option (Except Fault LanguageTag) :=
  fromString false do
    parseSP
    let l ← requireLanguageTag
    parseSP
    requireEnd
    return l

/-- `AcceptLanguageItem._range` (headers:429-432). -/
def AcceptToken.langRange (t : AcceptToken) : List Str :=
  if t.token = ['*'] then [] else Py.split '-' (Py.lower t.token)

/-- `AcceptLanguageItem.__cmp__` (headers:434-444). -/
def cmpLanguage (a b : AcceptToken) : Ordering :=
  (compare b.langRange.length a.langRange.length).then (compare a.langRange b.langRange)

/-- `AcceptLanguageList.__init__` (headers:451-452). -/
def languageList (items : List AcceptToken) : List AcceptToken :=
  Paging.stableSort (fun a b => (cmpLanguage a b).isLE) items

/-- `AcceptLanguageList.SelectLanguage` (headers:458-469). -/
def selectLanguage (items : List AcceptToken) (langs : List LanguageTag) : Option LanguageTag :=
  (langs.foldl (fun best l =>
    match items.find? fun i => l.partialMatch i.langRange with
    | some i => better best l i.q
    | none => best) (none, 0)).1

/-- `str(...)` of what `SelectLanguage` returns, in `AcceptLanguageList.SelectToken` (headers:454-456), for tags that are
already parsed. -/
def selectLanguageToken (items : List AcceptToken) (langs : List LanguageTag) : Str :=
  match selectLanguage items langs with
  | some l => l.format
  | none => ['N', 'o', 'n', 'e']

/-! ## Entity tags, versions, byte ranges -/

/-- `EntityTag` (params:533-535). -/
structure EntityTag where
  tag : Str
  weak : Bool
deriving DecidableEq, Repr

/-- `EntityTag.__str__` (params:545-549). -/
def EntityTag.format (e : EntityTag) : Str := (if e.weak then ['W', '/'] else []) ++ quoteString e.tag true

/-- `EntityTag.FromString` (params:537-543) with `RequireEntityTag` (params:767-784). -/
def entityTagFromString : Str → Option (Except Fault EntityTag) :=
  fromString true do
    parseSP
    let w ← parseToken
    parseSP
    match w with
    | some w => do
      if w ≠ ['W'] ∧ w ≠ ['w'] then throw .syntaxError
      requireSeparator '/'
      parseSP
    | none => pure ()
    match ← parseQuotedString with
    | none => throw .syntaxError
    | some t => do
      parseSP
      requireEnd
      return ⟨t, w.isSome⟩

/-- `HTTPVersion` (params:25-29). -/
structure HttpVersion where
  major : Nat
  minor : Nat
deriving DecidableEq, Repr

/-- `HTTPVersion.__str__` (params:39-40). -/
def HttpVersion.format (v : HttpVersion) : Str :=
  ['H', 'T', 'T', 'P', '/'] ++ Py.strNat v.major ++ '.' :: Py.strNat v.minor

/-- `HTTPVersion.__cmp__` (params:45-57). -/
def cmpVersion (a b : HttpVersion) : Ordering :=
  if a.major < b.major then .lt else if a.major > b.major then .gt
  else if a.minor < b.minor then .lt else if a.minor > b.minor then .gt else .eq

/-- The body of the `try` of `ParseHTTPVersion` (params:580-591). -/
def requireHttpVersion : P HttpVersion := do
  parseSP
  let token ← requireToken
  if Py.lower token ≠ ['h', 't', 't', 'p'] then throw .syntaxError
  parseSP
  requireSeparator '/'
  parseSP
  let v ← requireToken
  match Py.split '.' v with
  | [a, b] => if isDigits a && isDigits b then return ⟨Py.digitsVal 10 a, Py.digitsVal 10 b⟩ else throw .syntaxError
  | _ => throw .syntaxError

/-- `ParseHTTPVersion` (params:575-594): the handler of a `SyntaxError` names a variable, `savePost`, that does not
exist. -/
def parseHttpVersion : P HttpVersion := fun ws =>
  match requireHttpVersion ws with
  | .error .syntaxError => .error .nameError
  | r => r

/-- `HTTPVersion.FromString` (params:31-37). -/
def versionFromString : Str → Option (Except Fault HttpVersion) :=
  fromString true do
    let v ← parseHttpVersion
    requireEnd
    return v

/-- A part of an exploded version: a number or a text (params:311-321). -/
inductive Piece where
  | num (n : Int)
  | txt (s : Str)
deriving DecidableEq, Repr

/-- The numbers and texts of a component (params:308-321), without the leading -1. -/
def pieces (s : Str) : List Piece :=
  match s with
  | [] => []
  | c :: t =>
    if Py.isDigit c then
      have : (t.dropWhile Py.isDigit).length < (c :: t).length := Nat.lt_succ_of_le (dropWhile_le _ _)
      .num (Py.digitsVal 10 (c :: t.takeWhile Py.isDigit)) :: pieces (t.dropWhile Py.isDigit)
    else
      have : (t.dropWhile (fun d => !Py.isDigit d)).length < (c :: t).length := Nat.lt_succ_of_le (dropWhile_le _ _)
      .txt (c :: t.takeWhile fun d => !Py.isDigit d) :: pieces (t.dropWhile fun d => !Py.isDigit d)
termination_by s.length

/-- A component of an exploded version (params:306-322): one that begins with text gets a leading -1. -/
def component (s : Str) : List Piece :=
  match pieces s with
  | .txt t :: ps => .num (-1) :: .txt t :: ps
  | ps => ps

/-- `ProductToken.Explode` (params:289-324): the components between the points; a point at the end begins no
component. -/
def explode (version : Str) : List (List Piece) :=
  let parts := Py.split '.' version
  (if parts.getLast? = some [] then parts.dropLast else parts).map component

/-- `cmp(vv,vvOther)` (params:411): numbers come before texts. -/
def cmpPiece : Piece → Piece → Ordering
  | .num a, .num b => compare a b
  | .num _, .txt _ => .lt
  | .txt _, .num _ => .gt
  | .txt a, .txt b => compare a b

/-- The inner loop of `ProductToken.__cmp__` (params:391-414): a missing piece comes after. -/
def cmpComponent : List Piece → List Piece → Ordering
  | [], [] => .eq
  | [], _ :: _ => .gt
  | _ :: _, [] => .lt
  | a :: as, b :: bs => (cmpPiece a b).then (cmpComponent as bs)

/-- The outer loop of `ProductToken.__cmp__` (params:370-415): a missing component comes before. -/
def cmpExploded : List (List Piece) → List (List Piece) → Ordering
  | [], [] => .eq
  | [], _ :: _ => .lt
  | _ :: _, [] => .gt
  | a :: as, b :: bs => (cmpComponent a b).then (cmpExploded as bs)

/-- `ProductToken` (params:280-287). -/
structure Product where
  token : Str
  version : Option Str
deriving DecidableEq, Repr

/-- `ProductToken._version` (params:283-287). -/
def Product.exploded (p : Product) : List (List Piece) :=
  match p.version with
  | some v => explode v
  | none => []

/-- `ProductToken.__cmp__` (params:362-417). -/
def cmpProduct (a b : Product) : Ordering := (compare a.token b.token).then (cmpExploded a.exploded b.exploded)

/-- `ProductToken.__str__` (params:350-354). -/
def Product.format (p : Product) : Str :=
  match p.version with
  | none => p.token
  | some v => p.token ++ '/' :: v

/-- What `ProductToken.__hash__` is the hash of (params:419-422). -/
def Product.hashKey (p : Product) : Str × List (List Piece) := (p.token, p.exploded)

/-- `RequireProductToken` (params:723-733). -/
def requireProduct : P Product := do
  parseSP
  let token ← requireToken
  parseSP
  if ← parseSeparator '/' then
    let version ← requireToken
    return ⟨token, some version⟩
  else return ⟨token, none⟩

/-- `ProductToken.FromString` (params:326-334). -/
def productFromString : Str → Option (Except Fault Product) :=
  fromString true do
    parseSP
    let p ← requireProduct
    parseSP
    requireEnd
    return p

/-- The loop of `ProductToken.ListFromString` (params:344-346), for as many rounds as there are words. -/
def productLoop : Nat → P (List Product)
  | 0 => pure []
  | n + 1 => fun ws =>
    if (cWord ws).isNone then .ok ([], ws)
    else
      (do
        let p ← requireProduct
        parseSP
        let ps ← productLoop n
        return p :: ps : P (List Product)) ws

/-- `ProductToken.ListFromString` (params:336-348). -/
def productsFromString : Str → Option (Except Fault (List Product)) :=
  fromString true do
    parseSP
    let ws ← get
    let ps ← productLoop ws.length
    requireEnd
    return ps

/-- `LanguageTag.__cmp__` (params:505-511). -/
def cmpLanguageTag (a b : LanguageTag) : Ordering := compare a.tag b.tag

/-- What `LanguageTag.__hash__` is the hash of (params:513-514). -/
def LanguageTag.hashKey (l : LanguageTag) : List Str := l.tag

/-- `EntityTag.__cmp__` (params:557-567). -/
def cmpEntityTag (a b : EntityTag) : Ordering := (compare a.tag b.tag).then (compare a.weak b.weak)

/-- What `EntityTag.__hash__` is the hash of (params:569-570). -/
def EntityTag.hashKey (e : EntityTag) : Str × Bool := (e.tag, e.weak)

/-- What `HTTPVersion.__hash__` is the hash of (params:42-43). -/
def HttpVersion.hashKey (v : HttpVersion) : Nat × Nat := (v.major, v.minor)

/-- A value as Python sees it when it is hashed: texts, numbers and tuples of such can be hashed, lists can not. -/
inductive Hashed where
  | text (s : Str)
  | list (l : List (Str × Str))
  | tuple (l : List Hashed)

mutual
/-- Whether `hash` returns or raises `TypeError`. -/
def Hashed.ok : Hashed → Bool
  | .text _ => true
  | .list _ => false
  | .tuple l => Hashed.allOk l
/-- `Hashed.ok` of all. -/
def Hashed.allOk : List Hashed → Bool
  | [] => true
  | a :: l => a.ok && Hashed.allOk l
end

/-- What `MediaType.__hash__` is the hash of (params:251-252): `_hp` is a list, made by `map` (params:212-213). -/
def MediaType.hashed (m : MediaType) : Hashed :=
  .tuple [.text (Py.lower m.type), .text (Py.lower m.subtype), .list m.hp]

/-- `ContentRange` (headers:683-688): the bytes, both `None` or neither, and the length.  A `ContentRange` with a last
byte and no first byte is not modelled. -/
structure ContentRange where
  bytes : Option (Nat × Nat)
  total : Option Nat
deriving DecidableEq, Repr

/-- `ContentRange.__str__` (headers:700-711). -/
def ContentRange.format (r : ContentRange) : Str :=
  ['b', 'y', 't', 'e', 's', ' '] ++
  (match r.bytes with
   | none => ['*']
   | some (a, b) => Py.strNat a ++ '-' :: Py.strNat b) ++
  ['/'] ++
  (match r.total with
   | none => ['*']
   | some n => Py.strNat n)

/-- `ContentRange.__len__` (headers:713-718). -/
def ContentRange.len (r : ContentRange) : Except Fault Nat :=
  match r.bytes with
  | none => .error .valueError
  | some (a, b) => if a ≤ b then .ok (b - a + 1) else .error .valueError

/-- `ContentRange.IsValid` (headers:720-727). -/
def ContentRange.isValid (r : ContentRange) : Bool :=
  match r.bytes with
  | none => false
  | some (a, b) =>
    a ≤ b &&
      match r.total with
      | none => true
      | some n => b < n

/-- `RequireContentRangeSpec` (headers:842-870) and `ContentRange.FromString` (headers:690-698). -/
def contentRangeFromString : Str → Option (Except Fault ContentRange) :=
  fromString true do
    parseSP
    let unit ← requireToken
    if Py.lower unit ≠ ['b', 'y', 't', 'e', 's'] then throw .syntaxError
    parseSP
    let spec ← requireToken
    let bytes ←
      if spec = ['*'] then pure none
      else
        match Py.split '-' spec with
        | [a, b] =>
          if isDigits a && isDigits b then pure (some (Py.digitsVal 10 a, Py.digitsVal 10 b)) else throw .syntaxError
        | _ => throw .syntaxError
    parseSP
    requireSeparator '/'
    parseSP
    let total ← requireToken
    let total ←
      if total = ['*'] then pure none
      else if isDigits total then pure (some (Py.digitsVal 10 total))
      else throw .syntaxError
    parseSP
    requireEnd
    return ⟨bytes, total⟩

end Verif.Http
