import Verif.Model.ODataOptions
import Verif.Model.HttpValues
import Verif.Model.Uri
import Verif.Model.Dict

/-!
# OData URIs

Models `ODataURI` and the enumerations it uses, `pyslet/pyslet/odata2/core.py` (cited as *core*).  URIs, escaped text and
encoded text are octets (characters below 256).
-/

namespace Verif.OData

open Verif

/-! ## UTF-8 -/

/-- `encode('utf-8')` of Unicode text (core:1989, 2005). -/
def utf8Encode (s : Str) : Str := s.flatMap fun c => if c.toNat < 0x80 then [c] else (Uri.utf8Bytes c.toNat).map Char.ofNat

/-- A continuation byte. -/
def isCont (c : Char) : Bool := 0x80 ≤ c.toNat && c.toNat < 0xC0

/-- `decode('utf-8')` (core:1822-1824, 1828, 1945, 1962, 1967).  Python 2 also decodes the three bytes of a surrogate,
which is no character here: they are refused. -/
def utf8Decode : Str → Option Str
  | [] => some []
  | a :: s =>
    if a.toNat < 0x80 then (utf8Decode s).map (a :: ·)
    else if a.toNat < 0xC2 then none
    else if a.toNat < 0xE0 then
      match s with
      | b :: s =>
        if isCont b then (utf8Decode s).map (Char.ofNat ((a.toNat - 0xC0) * 64 + (b.toNat - 0x80)) :: ·) else none
      | [] => none
    else if a.toNat < 0xF0 then
      match s with
      | b :: c :: s =>
        let n := (a.toNat - 0xE0) * 4096 + (b.toNat - 0x80) * 64 + (c.toNat - 0x80)
        if isCont b && isCont c && 0x800 ≤ n && !(0xD800 ≤ n && n < 0xE000) then (utf8Decode s).map (Char.ofNat n :: ·) else none
      | _ => none
    else if a.toNat < 0xF5 then
      match s with
      | b :: c :: d :: s =>
        let n := (a.toNat - 0xF0) * 262144 + (b.toNat - 0x80) * 4096 + (c.toNat - 0x80) * 64 + (d.toNat - 0x80)
        if isCont b && isCont c && isCont d && 0x10000 ≤ n && n < 0x110000 then (utf8Decode s).map (Char.ofNat n :: ·) else none
      | _ => none
    else none

/-! ## Enumerations -/

/-- `SystemQueryOption` (core:1602-1623). -/
inductive SysOpt where
  | expand | filter | orderby | format | skip | top | skiptoken | inlinecount | select
deriving DecidableEq, Repr

/-- `SystemQueryOption.EncodeValue` (core:1611-1620). -/
def SysOpt.name : SysOpt → Str
  | .expand => "expand".toList
  | .filter => "filter".toList
  | .orderby => "orderby".toList
  | .format => "format".toList
  | .skip => "skip".toList
  | .top => "top".toList
  | .skiptoken => "skiptoken".toList
  | .inlinecount => "inlinecount".toList
  | .select => "select".toList

/-- All system query options. -/
def SysOpt.all : List SysOpt := [.expand, .filter, .orderby, .format, .skip, .top, .skiptoken, .inlinecount, .select]

/-- The white space `strip` removes from Unicode text. -/
def isSpace (c : Char) : Bool :=
  c.toNat ∈ [9, 10, 11, 12, 13, 28, 29, 30, 31, 32, 0x85, 0xA0, 0x1680, 0x180E, 0x2028, 0x2029, 0x202F, 0x205F, 0x3000] ||
    (0x2000 ≤ c.toNat && c.toNat ≤ 0x200A)

/-- `strip()` (pyslet/pyslet/xsdatatypes20041028.py:466, 477). -/
def strip (s : Str) : Str := ((s.dropWhile isSpace).reverse.dropWhile isSpace).reverse

/-- `SystemQueryOption.DecodeValue` (pyslet/pyslet/xsdatatypes20041028.py:461-469). -/
def SysOpt.decode (s : Str) : Option SysOpt := SysOpt.all.find? (·.name = strip s)

/-- `PathOption` (core:1641-1658). -/
inductive PathOpt where
  | metadata | batch | count | value | links
deriving DecidableEq, Repr

/-- The names of the path options (core:1651-1657). -/
def PathOpt.name : PathOpt → Str
  | .metadata => "metadata".toList
  | .batch => "batch".toList
  | .count => "count".toList
  | .value => "value".toList
  | .links => "links".toList

/-- All path options. -/
def PathOpt.all : List PathOpt := [.metadata, .batch, .count, .value, .links]

/-- `PathOption.DecodeLowerValue` (pyslet/pyslet/xsdatatypes20041028.py:471-480). -/
def PathOpt.decode (s : Str) : Option PathOpt := PathOpt.all.find? (·.name = Py.lower (strip s))

/-- `InlineCount.DecodeLowerValue` (core:1626-1638): `true` is `allpages`, `false` is `none`. -/
def inlineCount (s : Str) : Option Bool :=
  if Py.lower (strip s) = "allpages".toList then some true
  else if Py.lower (strip s) = "none".toList then some false
  else none

/-! ## Errors and values -/

/-- The exceptions of `ODataURI`. -/
inductive UriFault where
  /-- `InvalidPathOption`, a `ServerError` -/
  | pathOption
  /-- `InvalidSystemQueryOption`, a `ServerError` -/
  | queryOption
  /-- `ValueError`, also from text that is not UTF-8 -/
  | valueError
  /-- `TypeError` -/
  | typeError
  /-- another exception of a reader -/
  | other
  /-- reading does not end -/
  | endless
deriving DecidableEq, Repr

/-- What a reader of expressions and literals raises. -/
def UriFault.of : Fault → UriFault
  | .valueError => .valueError
  | .typeError => .typeError
  | _ => .other

/-- The values of the system query options (core:1881-1891). -/
inductive OptValue where
  | filter (e : Expr)
  | expand (f : Forest)
  | format (l : List Http.AcceptItem)
  | orderby (l : List (Expr × Bool))
  | skip (n : Nat)
  | top (n : Nat)
  | skiptoken (s : Str)
  | inlinecount (allPages : Bool)
  | select (f : Forest)
deriving DecidableEq

/-- What is left open: the classes of characters, and which texts `float` accepts as a quality (see `Model/HttpValues`). -/
structure UriTables where
  tables : Tables
  quality : Str → Bool

/-- `http.AcceptList.FromString(paramValue)` and the short names (core:1905-1916). -/
def formatOption (U : UriTables) (s : Str) : Except UriFault OptValue :=
  let read : Str → (Http.Fault → Except UriFault OptValue) → Except UriFault OptValue := fun s g =>
    match Http.acceptFromString U.quality s with
    | none => .error .endless
    | some (.ok l) => .ok (.format l)
    | some (.error e) => g e
  let raises : Http.Fault → Except UriFault OptValue := fun e =>
    match e with
    | .valueError => .error .valueError
    | .typeError => .error .typeError
    | _ => .error .other
  read s fun e =>
    match e with
    | .syntaxError =>
      if Py.lower s = "atom".toList then read "application/atom+xml".toList raises
      else if Py.lower s = "json".toList then read "application/json".toList raises
      else if Py.lower s = "xml".toList then read "application/xml".toList raises
      else .error .queryOption
    | e => raises e

/-- `RequireProductionEnd(paramParser.ParseInteger())` (core:1920, 1922, pyslet/pyslet/unicode5.py:743-781). -/
def integerOption (s : Str) : Except UriFault Nat :=
  let d := s.takeWhile Py.isDigit
  if d = [] then .error .valueError
  else if s.dropWhile Py.isDigit = [] then .ok (Py.digitsVal 10 d)
  else .error .valueError

/-- The result of a reader of expressions. -/
def lift {α β : Type} (x : Except Fault α) (f : α → β) : Except UriFault β :=
  match x with
  | .ok a => .ok (f a)
  | .error e => .error (.of e)

/-- The value of a system query option (core:1896-1928). -/
def optionValue (U : UriTables) (p : SysOpt) (s : Str) : Except UriFault OptValue :=
  match p with
  | .filter => lift (parseExpr U.tables s) .filter
  | .expand => lift (parseExpand U.tables s) .expand
  | .format => formatOption U s
  | .orderby => lift (parseOrder U.tables s) .orderby
  | .skip => (integerOption s).map .skip
  | .top => (integerOption s).map .top
  | .inlinecount => match inlineCount s with
    | some b => .ok (.inlinecount b)
    | none => .error .valueError
  | .select => lift (parseSelect U.tables s) .select
  | .skiptoken => .ok (.skiptoken s)

/-- `except ValueError, e: raise InvalidSystemQueryOption` (core:1929-1930).  If the message has characters beyond ASCII,
`str(e)` raises `UnicodeEncodeError`, a `ValueError`, instead; this is not modelled. -/
def guarded {α : Type} : Except UriFault α → Except UriFault α
  | .error .valueError => .error .queryOption
  | x => x

/-- `ParseSystemQueryOption` (core:1881-1931). -/
def systemOption (U : UriTables) (name value : Str) : Except UriFault (SysOpt × OptValue) :=
  guarded (match SysOpt.decode name with
    | none => .error .valueError
    | some p => (optionValue U p value).map fun v => (p, v))

/-! ## Queries -/

/-- `uri.UnescapeData(s).decode('utf-8')`. -/
def decodeText (s : Str) : Except UriFault Str :=
  match utf8Decode (Uri.unescapeData s) with
  | some t => .ok t
  | none => .error .valueError

/-- What has been read of a query (core:1803-1805). -/
structure Query where
  /-- `sysQueryOptions` -/
  sys : List (SysOpt × OptValue)
  /-- `queryOptions` -/
  options : List Str
  /-- `paramTable` -/
  table : List (Str × Nat)
deriving DecidableEq

/-- The text before and after the first equals sign, if there is one. -/
def atEquals (s : Str) : Option (Str × Str) :=
  match s.dropWhile (· != '=') with
  | [] => none
  | _ :: v => some (s.takeWhile (· != '='), v)

/-- One part of the query (core:1821-1830). -/
def queryPart (U : UriTables) (q : Query) (d : Str) : Except UriFault Query :=
  match d with
  | '$' :: r =>
    match atEquals r with
    | none => .error .valueError
    | some (n, v) =>
      (decodeText n).bind fun name =>
      (decodeText v).bind fun value =>
      (systemOption U name value).bind fun pv =>
      .ok { q with sys := Dict.set q.sys pv.1 pv.2 }
  | d =>
    match atEquals d with
    | some (n, _) => (decodeText n).bind fun name =>
      .ok { q with table := Dict.set q.table name q.options.length, options := q.options ++ [d] }
    | none => .ok { q with options := q.options ++ [d] }

/-- Unpacking the query (core:1818-1830). -/
def readQuery (U : UriTables) : Option Str → Except UriFault Query
  | none => .ok ⟨[], [], []⟩
  | some s => (Py.split '&' s).foldlM (queryPart U) ⟨[], [], []⟩

/-! ## Paths -/

/-- The keys of a segment: `None` without brackets. -/
abbrev Keys := Option (List (Str × Lit))

/-- `ParseURILiteral` of a part of the URI (core:1954, 1963). -/
def keyLiteral (U : UriTables) (s : Str) : Except UriFault Lit := lift (parseURILiteral U.tables s) id

/-- The loop over the named keys (core:1957-1964). -/
def namedKeys (U : UriTables) (d : List (Str × Lit)) (k : Str) : Except UriFault (List (Str × Lit)) :=
  match Py.split '=' k with
  | [n, v] =>
    (decodeText n).bind fun name =>
    (keyLiteral U v).bind fun value =>
    .ok (Dict.set d name value)
  | _ => .error .valueError

/-- `SplitSegment` (core:1939-1967). -/
def splitSegment (U : UriTables) (segment : Str) : Except UriFault (Str × Keys) :=
  if segment.head? = some '$' then .ok (segment, none)
  else if '(' ∈ segment ∧ segment.getLast? = some ')' then
    (decodeText (segment.takeWhile (· != '('))).bind fun name =>
    let keys := ((segment.dropWhile (· != '(')).drop 1).dropLast
    if keys = [] then .ok (name, some [])
    else
      match Py.split ',' keys with
      | [k] =>
        if '=' ∈ k then (namedKeys U [] k).map fun d => (name, some d)
        else (keyLiteral U k).map fun v => (name, some [([], v)])
      | ks => (ks.foldlM (namedKeys U) []).map fun d => (name, some d)
  else (decodeText segment).map fun name => (name, none)

/-- What has been read of the path (core:1800-1802). -/
structure Path where
  navPath : List (Str × Keys)
  option : Option PathOpt
  linksProperty : Option Str
deriving DecidableEq

/-- One segment of the path (core:1839-1865).  The tests of `self.pathOption` after it was found to be `None` (core:1855-1859)
never succeed: they are kept as they are. -/
def pathStep (U : UriTables) (p : Path) (segment : Str) : Except UriFault Path :=
  if p.option = some .links then
    if p.linksProperty.isSome then .error .pathOption
    else if segment.head? = some '$' then .error .pathOption
    else (splitSegment U segment).map fun np => { p with navPath := p.navPath ++ [np], linksProperty := some np.1 }
  else if segment.head? = some '$' then
    match PathOpt.decode segment.tail with
    | none => .error .valueError
    | some o =>
      if p.option.isSome then .error .pathOption
      else if p.navPath ≠ [] ∧ (p.option = some .batch ∨ p.option = some .metadata) then .error .pathOption
      else if p.option = some .links ∧ p.navPath = [] then .error .pathOption
      else .ok { p with option := some o }
  else if p.option.isSome then .error .pathOption
  else (splitSegment U segment).map fun np => { p with navPath := p.navPath ++ [np] }

/-- Unpacking the resource path (core:1833-1867). -/
def readPath (U : UriTables) (resource : Str) : Except UriFault Path :=
  if resource = ['/'] then .ok ⟨[], none, none⟩
  else
    ((Py.split '/' resource).drop 1).foldlM (pathStep U) ⟨[], none, none⟩ |>.bind fun p =>
    if p.option = some .links ∧ p.linksProperty = none then .error .pathOption else .ok p

/-! ## URIs -/

/-- `SupportedSystemQueryOptions` (core:1680-1744). -/
def supported : Nat → List SysOpt
  | 1 => SysOpt.all
  | 2 => [.expand, .filter, .format, .select]
  | 3 => [.filter, .format]
  | 4 => [.format]
  | 5 => [.format]
  | 61 => [.expand, .filter, .format, .select]
  | 62 => SysOpt.all
  | 7 => [.format, .skip, .top, .skiptoken, .inlinecount]
  | 10 => [.format]
  | 11 => [.format]
  | 12 => [.format]
  | 13 => [.format]
  | 14 => [.format]
  | 15 => [.expand, .filter, .orderby, .skip, .top]
  | 16 => [.expand, .filter]
  | 17 => [.format]
  | _ => []

/-- `ValidateSystemQueryOptions` (core:1933-1937). -/
def validate (q : Query) (n : Nat) : Except UriFault Unit :=
  if q.sys.all fun x => supported n |>.contains x.1 then .ok () else .error .queryOption

/-- `self.navPath[-1][1]` is neither `None` nor empty (core:1876). -/
def keyed (nav : List (Str × Keys)) : Bool :=
  match nav.getLast? with
  | some (_, some (_ :: _)) => true
  | _ => false

/-- The tests at the end (core:1868-1879). -/
def validation (p : Path) (q : Query) : Except UriFault Unit :=
  match p.option with
  | some .links => validate q 7
  | some .metadata => validate q 8
  | some .batch => validate q 9
  | some .count => if keyed p.navPath then validate q 16 else validate q 15
  | _ => .ok ()

/-- An `ODataURI`: its `resourcePath`, the rest of the path, and the query. -/
structure ODataURI where
  resourcePath : Option Str
  path : Path
  query : Query
deriving DecidableEq

/-- An `ODataURI` of a path that is not below the prefix (core:1813-1815). -/
def ODataURI.foreign : ODataURI := ⟨none, ⟨[], none, none⟩, ⟨[], [], []⟩⟩

/-- `ODataURI.__init__` once there is an absolute path (core:1813-1879). -/
def readURI (U : UriTables) (pre absPath : Str) (query : Option Str) : Except UriFault ODataURI :=
  if pre ≠ [] ∧ ¬ pre <+: absPath then .ok .foreign
  else
    (readQuery U query).bind fun q =>
    (readPath U (absPath.drop pre.length)).bind fun p =>
    (validation p q).map fun _ => ⟨some (absPath.drop pre.length), p, q⟩

/-- `ODataURI.__init__` on a string (core:1792-1879). -/
def odataURI (U : UriTables) (s pre : Str) : Except UriFault ODataURI :=
  let fail : Err → UriFault := fun _ => .valueError
  ((Uri.mkURI s).mapError fail).bind fun u =>
  (match u.parts.absPath with
    | some _ => .ok u
    | none => ((Uri.mkURI (pre ++ ['/'])).mapError fail).bind fun b => (Uri.resolve u b).mapError fail :
    Except UriFault Uri.URI).bind fun u =>
  match u.parts.absPath with
  | some a => readURI U pre a u.parts.query
  | none => .error .valueError

/-- `GetParamValue` (core:1969-1975): `none` is `KeyError`. -/
def getParamValue (U : UriTables) (q : Query) (name : Str) : Option (Except UriFault Lit) :=
  match Dict.get q.table name with
  | none => none
  | some i =>
    match q.options[i]? with
    | none => none
    | some d => match atEquals d with
      | none => some (.error .valueError)
      | some (_, v) => some (keyLiteral U v)

/-! ## Writing -/

/-- `FormatKeyDict` (core:1977-1998), for a dictionary with its names in the order in which it yields them. -/
def formatKeyDict (fin : Bool → Nat → Int → Str) (d : List (Str × Lit)) : Str :=
  let text : Str := match d with
    | [(_, v)] => '(' :: (litText fin v ++ [')'])
    | d => '(' :: (Py.join ',' (d.map fun x => x.1 ++ '=' :: litText fin x.2) ++ [')'])
  Uri.escapeData Uri.isReserved (utf8Encode text)

/-- `FormatSysQueryOptions` (core:2000-2007), for a dictionary with its items in the order in which it yields them. -/
def formatSysQueryOptions (l : List (SysOpt × Str)) : Str :=
  Py.join '&' (l.map fun x => '$' :: (x.1.name ++ '=' :: Uri.escapeData Uri.isReserved (utf8Encode x.2)))

end Verif.OData
