import Verif.Model.Names

/-!
# The XML library: reading and writing documents

/repo/pyslet/pyslet/xml20081126/parser.py and structures.py: a document without a document type declaration is
read by `Document.Read` and written by `Document.GenerateXML`, for the generic classes `Document` and `Element`
(mixed content, no mapped attributes) and the parser's default options (checking well-formedness, no SGML
options, no validation).

The source is a unicode string.  A unicode string is a list of code points (a wide build), none of them a
surrogate.  The state of the parser is the text still to be read: `theChar` is its first character, `NextChar`
drops it and `BuffText` puts characters back.  Loops that may never end take fuel and answer `none` when it runs out.
A document type declaration answers `Err.unmodelled`.
-/

namespace Verif.PyXml

open Verif Verif.Names

/-- A child of an element: a string or an element with its name, its attributes and its children
(`Element._children`, structures.py:1073-1120; attributes are a dictionary there, a list without repeated names
here). -/
inductive Node where
  | text (s : Str)
  | elem (name : Str) (attrs : List (Str × Str)) (kids : List Node)
deriving Repr, Inhabited

/-- `XMLWellFormedError` (structures.py:23-50) is an `XMLError`. -/
def bad {α} : Except Err α := .error .xmlException

/-! ## The characters of the source -/

/-- `XMLEntity.NextChar` (structures.py:2797-2826), over the whole source: a carriage return is read as a line
feed and the line feed after it is skipped.  `ign` is `ignoreLF`. -/
def eol (ign : Bool) : Str → Str
  | [] => []
  | c :: t => if c = '\r' then '\n' :: eol true t
    else if c = '\n' then (if ign then eol false t else '\n' :: eol false t)
    else c :: eol false t

/-- `XMLEntity.Reset` (structures.py:2771-2788), for the encoding of a unicode source (`OpenUnicode`,
2644-2651): a byte order mark is skipped. -/
def entity (src : Str) : Str :=
  match eol false src with
  | c :: t => if c = '\uFEFF' then t else c :: t
  | [] => []

/-- `IsS` (structures.py:594-602). -/
def isS (c : Char) : Bool :=
  if c.toNat > 0x20 then false
  else c.toNat == 0x20 || c.toNat == 0x9 || c.toNat == 0xA || c.toNat == 0xD

/-- `IsChar` (structures.py:567-574), of a code point. -/
def isChar (n : Nat) : Bool :=
  n == 0x9 || n == 0xA || n == 0xD || (n ≥ 0x20 && n ≤ 0xD7FF) || (n ≥ 0xE000 && n ≤ 0xFFFD) ||
    (n ≥ 0x10000 && n ≤ 0x10FFFF)

/-! ## Tokens -/

/-- `ParseLiteral` (parser.py:322-337): the rest after the literal, if it is there. -/
def lit : Str → Str → Option Str
  | [], s => some s
  | m :: ms, c :: t => if m = c then lit ms t else none
  | _ :: _, [] => none

/-- `ParseRequiredLiteral` (parser.py:339-346). -/
def need (m s : Str) : Except Err Str :=
  match lit m s with
  | some r => .ok r
  | none => bad

/-- The longest prefix whose characters pass the test, and the rest: the `while` loops of `ParseName`,
`ParseS`, `ParseDecimalDigits`, `ParseHexDigits` and `ParseEncName`. -/
def span (p : Char → Bool) : Str → Str × Str
  | [] => ([], [])
  | c :: t => if p c then (c :: (span p t).1, (span p t).2) else ([], c :: t)

/-- `ParseS` (parser.py:502-539) outside a document type declaration. -/
def parseS (s : Str) : Str × Str := span isS s

/-- `ParseName` (parser.py:553-568). -/
def parseName : Str → Option (Str × Str)
  | [] => none
  | c :: t => if isNameStartChar c then some (c :: (span isNameChar t).1, (span isNameChar t).2) else none

/-- `ParseRequiredName` (parser.py:570-579). -/
def needName (s : Str) : Except Err (Str × Str) :=
  match parseName s with
  | some r => .ok r
  | none => bad

/-- `ParseQuote` without an argument (parser.py:384-398). -/
def quote : Str → Except Err (Char × Str)
  | c :: t => if c = '"' ∨ c = '\'' then .ok (c, t) else bad
  | [] => bad

/-- `ParseQuote` with an argument (parser.py:384-398). -/
def closeQuote (q : Char) : Str → Except Err Str
  | c :: t => if c = q then .ok t else bad
  | [] => bad

/-- `ParseEq` (parser.py:1026-1030). -/
def eq (s : Str) : Except Err Str :=
  match need ['='] (parseS s).2 with
  | .ok r => .ok (parseS r).2
  | .error e => .error e

/-- `ParseDecimalDigits` (parser.py:348-354), the test. -/
def isDec (c : Char) : Bool := '0' ≤ c && c ≤ '9'

/-- `ParseHexDigits` (parser.py:366-372), the test. -/
def isHex (c : Char) : Bool := isDec c || ('a' ≤ c && c ≤ 'f') || ('A' ≤ c && c ≤ 'F')

/-- The value of a digit for `int(digits,16)` (parser.py:2305). -/
def digitVal (c : Char) : Nat :=
  if isDec c then c.toNat - 48 else if 'a' ≤ c then c.toNat - 87 else c.toNat - 55

/-- `int(digits,base)` (parser.py:2305, 2309). -/
def number (base : Nat) (ds : Str) : Nat := ds.foldl (fun n d => base * n + digitVal d) 0

/-- The part of `ParseCharRef` after the digits (parser.py:2305-2318): `unichr` raises `ValueError` for numbers
beyond the last code point, then the semicolon is read, then the character is checked.  A surrogate fails the
check, so it is never made. -/
def refChar (n : Nat) (s : Str) : Except Err (Char × Str) :=
  if n > 0x10FFFF then .error .valueError
  else match need [';'] s with
    | .error e => .error e
    | .ok r => if isChar n then .ok (Char.ofNat n, r) else bad

/-- `ParseCharRef` (parser.py:2291-2318) after `&#`. -/
def charRef (s : Str) : Except Err (Char × Str) :=
  match lit ['x'] s with
  | some t => if (span isHex t).1 = [] then bad else refChar (number 16 (span isHex t).1) (span isHex t).2
  | none => if (span isDec s).1 = [] then bad else refChar (number 10 (span isDec s).1) (span isDec s).2

/-- `LookupPredefinedEntity` (parser.py:2408-2420). -/
def predefined (name : Str) : Option Char :=
  if name = ['l', 't'] then some '<'
  else if name = ['g', 't'] then some '>'
  else if name = ['a', 'p', 'o', 's'] then some '\''
  else if name = ['q', 'u', 'o', 't'] then some '"'
  else if name = ['a', 'm', 'p'] then some '&'
  else none

/-- `ParseEntityRef` (parser.py:2333-2406) after `&`, without a document type declaration: an entity that is not
predefined is not declared and the document is standalone. -/
def entityRef (s : Str) : Except Err (Char × Str) :=
  match needName s with
  | .error e => .error e
  | .ok (name, r) => match need [';'] r with
    | .error e => .error e
    | .ok r' => match predefined name with
      | some c => .ok (c, r')
      | none => bad

/-- `ParseReference` (parser.py:2320-2331) after `&`. -/
def reference : Str → Except Err (Char × Str)
  | '#' :: t => charRef t
  | s => entityRef s

/-! ## Tags -/

/-- Puts a character before the value read. -/
def pre (c : Char) : Option (Except Err (Str × Str)) → Option (Except Err (Str × Str))
  | some (.ok (v, r)) => some (.ok (c :: v, r))
  | x => x

/-- The loop of `ParseAttValue` (parser.py:687-728) up to the quote `q`. -/
def attLoop (q : Char) : Nat → Str → Option (Except Err (Str × Str))
  | 0, _ => none
  | _ + 1, [] => some bad
  | n + 1, c :: t =>
    if c = q then some (.ok ([], t))
    else if c = '&' then match reference t with
      | .error e => some (.error e)
      | .ok (d, r) => pre d (attLoop q n r)
    else if isS c then pre ' ' (attLoop q n t)
    else if c = '<' then some bad
    else pre c (attLoop q n t)

/-- `ParseAttribute` (parser.py:1560-1582) with `ParseAttValue` (669-686). -/
def attSpec (n : Nat) (s : Str) : Option (Except Err (Str × Str × Str)) :=
  match needName s with
  | .error e => some (.error e)
  | .ok (name, r) => match eq r with
    | .error e => some (.error e)
    | .ok r1 => match quote r1 with
      | .error e => some (.error e)
      | .ok (q, r2) => match attLoop q n r2 with
        | none => none
        | some (.error e) => some (.error e)
        | some (.ok (v, r3)) => some (.ok (name, v, r3))

/-- The loop of `ParseSTag` (parser.py:1534-1558): the attributes read so far, then whether the tag is that of an
empty element. -/
def stagLoop : Nat → List (Str × Str) → Str → Option (Except Err (List (Str × Str) × Bool × Str))
  | 0, _, _ => none
  | n + 1, as, s =>
    match (parseS s).2 with
    | '>' :: t => some (.ok (as, false, t))
    | '/' :: t => match need ['>'] t with
      | .error e => some (.error e)
      | .ok r => some (.ok (as, true, r))
    | r => if (parseS s).1 = [] then some bad
      else match attSpec n r with
        | none => none
        | some (.error e) => some (.error e)
        | some (.ok (name, v, r')) =>
          if as.any (fun a => a.1 = name) then some bad else stagLoop n (as ++ [(name, v)]) r'

/-- `ParseSTag` (parser.py:1517-1558). -/
def stag (n : Nat) (s : Str) : Option (Except Err (Str × List (Str × Str) × Bool × Str)) :=
  match need ['<'] s with
  | .error e => some (.error e)
  | .ok r => match needName r with
    | .error e => some (.error e)
    | .ok (name, r1) => match stagLoop n [] r1 with
      | none => none
      | some (.error e) => some (.error e)
      | some (.ok (as, empty, r2)) => some (.ok (name, as, empty, r2))

/-- `ParseETag` (parser.py:1584-1605). -/
def etag (s : Str) : Except Err (Str × Str) :=
  match need ['<', '/'] s with
  | .error e => .error e
  | .ok r => match needName r with
    | .error e => .error e
    | .ok (name, r1) => match need ['>'] (parseS r1).2 with
      | .error e => .error e
      | .ok r2 => .ok (name, r2)

/-! ## Content -/

/-- `ParseCharData` (parser.py:772-811): the data up to `<`, `&`, `]]>` or the end.  The code hands over the data
in pieces of 4096 characters. -/
def charData : Str → Str × Str
  | [] => ([], [])
  | c :: t =>
    if c = '<' ∨ c = '&' then ([], c :: t)
    else if c = ']' ∧ (lit [']', ']', '>'] (c :: t)).isSome then ([], c :: t)
    else (c :: (charData t).1, (charData t).2)

/-- The loop of `ParseComment` (parser.py:824-857) with its count of hyphens, answering the rest. -/
def comment : Nat → Str → Except Err Str
  | _, [] => .ok []
  | k, c :: t =>
    if c = '-' then (if k + 1 > 2 then bad else comment (k + 1) t)
    else if c = '>' then (if k = 2 then .ok t else comment 0 t)
    else if isS c then (if k < 2 then comment 0 t else comment k t)
    else if k ≥ 2 then bad else comment 0 t

/-- The loop of `ParsePI` (parser.py:873-886) after white space, answering the rest.  At the end of the text
after a question mark `None` is added to the data and joining it raises `TypeError`. -/
def piData : Str → Except Err Str
  | [] => .ok []
  | '?' :: '>' :: t => .ok t
  | ['?'] => .error .typeError
  | '?' :: _ :: t => piData t
  | _ :: t => piData t

/-- `ParsePI` (parser.py:859-892) and `ParsePITarget` (894-900) after `<?`.  Without a target,
`None.lower()` raises `AttributeError`. -/
def parsePI (s : Str) : Except Err Str :=
  match parseName s with
  | none => .error .attributeError
  | some (name, r) =>
    if name.map Char.toLower = ['x', 'm', 'l'] then bad
    else if (parseS r).1 = [] then need ['?', '>'] r
    else piData (parseS r).2

/-- `ParseCData` (parser.py:920-937): the data up to `]]>` or the end. -/
def cdata : Str → Str × Str
  | [] => ([], [])
  | c :: t =>
    if (lit [']', ']', '>'] (c :: t)).isSome then ([], c :: t)
    else (c :: (cdata t).1, (cdata t).2)

/-- `HandleData` (parser.py:1686-1702) and `AddData` (structures.py:1749-1768): adds data before the children
that follow it.  The code adds each piece after the children that precede it; both join adjacent strings and
ignore empty ones. -/
def addData (d : Str) (kids : List Node) : List Node :=
  if d = [] then kids
  else match kids with
    | .text s :: r => .text (d ++ s) :: r
    | _ => .text d :: kids

/-- Puts data before the children read. -/
def preData (d : Str) : Option (Except Err (List Node × Str)) → Option (Except Err (List Node × Str))
  | some (.ok (ks, r)) => some (.ok (addData d ks, r))
  | x => x

/-- Puts an element before the children read. -/
def preElem (e : Node) : Option (Except Err (List Node × Str)) → Option (Except Err (List Node × Str))
  | some (.ok (ks, r)) => some (.ok (e :: ks, r))
  | x => x

/-- What follows `<` in content (the tests of `ParseContent`, parser.py:1625-1662). -/
inductive Markup where
  | comment (rest : Str)
  | cdata (rest : Str)
  | bad
  | pi (rest : Str)
  | close
  | elem

/-- The tests of `ParseContent` on the text after `<` (parser.py:1625-1662). -/
def markup : Str → Markup
  | '!' :: t => match t with
    | '-' :: r => .comment r
    | '[' :: r => .cdata r
    | _ => .bad
  | '?' :: r => .pi r
  | '/' :: _ => .close
  | _ => .elem

mutual
/-- `ParseElement` (parser.py:1209-1348). -/
def element : Nat → Str → Option (Except Err (Node × Str))
  | 0, _ => none
  | n + 1, s => match stag n s with
    | none => none
    | some (.error e) => some (.error e)
    | some (.ok (name, as, true, r)) => some (.ok (.elem name as [], r))
    | some (.ok (name, as, false, r)) => match content n r with
      | none => none
      | some (.error e) => some (.error e)
      | some (.ok (ks, r1)) => match etag r1 with
        | .error e => some (.error e)
        | .ok (name', r2) => if name' = name then some (.ok (.elem name as ks, r2)) else some bad

/-- `ParseContent` (parser.py:1607-1684). -/
def content : Nat → Str → Option (Except Err (List Node × Str))
  | 0, _ => none
  | _ + 1, [] => some (.ok ([], []))
  | n + 1, c :: t =>
    if c = '<' then match markup t with
      | .comment t1 => match need ['-'] t1 with
        | .error e => some (.error e)
        | .ok r => match comment 0 r with
          | .error e => some (.error e)
          | .ok r' => content n r'
      | .cdata t1 => match need ['C', 'D', 'A', 'T', 'A', '['] t1 with
        | .error e => some (.error e)
        | .ok r => match need [']', ']', '>'] (cdata r).2 with
          | .error e => some (.error e)
          | .ok r' => preData (cdata r).1 (content n r')
      | .bad => some bad
      | .pi t1 => match parsePI t1 with
        | .error e => some (.error e)
        | .ok r => content n r
      | .close => some (.ok ([], c :: t))
      | .elem => match element n (c :: t) with
        | none => none
        | some (.error e) => some (.error e)
        | some (.ok (e, r)) => preElem e (content n r)
    else if c = '&' then match reference t with
      | .error e => some (.error e)
      | .ok (d, r) => preData [d] (content n r)
    else preData (charData (c :: t)).1 (content n (charData (c :: t)).2)
end

/-! ## Documents -/

/-- `ParseMisc` (parser.py:1039-1055). -/
def misc : Nat → Str → Option (Except Err Str)
  | 0, _ => none
  | n + 1, s =>
    match s with
    | [] => some (.ok [])
    | c :: t =>
      if isS c then misc n t
      else match lit ['<', '!', '-', '-'] (c :: t) with
        | some r => match comment 0 r with
          | .error e => some (.error e)
          | .ok r' => misc n r'
        | none => match lit ['<', '?'] (c :: t) with
          | some r => match parsePI r with
            | .error e => some (.error e)
            | .ok r' => misc n r'
          | none => some (.ok (c :: t))

/-- `ParseVersionInfo` (parser.py:1009-1024). -/
def versionInfo (s : Str) : Except Err Str :=
  if (parseS s).1 = [] then bad
  else match need ['v', 'e', 'r', 's', 'i', 'o', 'n'] (parseS s).2 with
    | .error e => .error e
    | .ok r => match eq r with
      | .error e => .error e
      | .ok r1 => match quote r1 with
        | .error e => .error e
        | .ok (q, r2) => match need ['1', '.'] r2 with
          | .error e => .error e
          | .ok r3 => if (span isDec r3).1 = [] then bad else closeQuote q (span isDec r3).2

/-- `EncNameStartCharClass` (structures.py:3186). -/
def isEncStart (c : Char) : Bool := ('A' ≤ c && c ≤ 'Z') || ('a' ≤ c && c ≤ 'z')

/-- `EncNameCharClass` (structures.py:3188-3189). -/
def isEncChar (c : Char) : Bool := c == '-' || c == '.' || isDec c || isEncStart c || c == '_'

/-- `ParseEncodingDecl` after the literal (parser.py:2674-2706). -/
def encodingDecl (s : Str) : Except Err Str :=
  match eq s with
  | .error e => .error e
  | .ok r => match quote r with
    | .error e => .error e
    | .ok (q, r1) => match r1 with
      | [] => bad
      | c :: t => if isEncStart c then closeQuote q (span isEncChar t).2 else bad

/-- `ParseSDDecl` after the literal (parser.py:1188-1207). -/
def sdDecl (s : Str) : Except Err Str :=
  match eq s with
  | .error e => .error e
  | .ok r => match quote r with
    | .error e => .error e
    | .ok (q, r1) => match need (match r1 with | 'y' :: _ => ['y', 'e', 's'] | _ => ['n', 'o']) r1 with
      | .error e => .error e
      | .ok r2 => closeQuote q r2

/-- `ParseXMLDecl` after the literal (parser.py:977-1007).  The encoding of a unicode source is not changed
(`ChangeEncoding`, structures.py:2871-2908). -/
def xmlDecl (s : Str) : Except Err Str :=
  match versionInfo s with
  | .error e => .error e
  | .ok r =>
    let after : Except Err Str :=
      if (parseS r).1 = [] then .ok r
      else match lit ['e', 'n', 'c', 'o', 'd', 'i', 'n', 'g'] (parseS r).2 with
        | some r1 => match encodingDecl r1 with
          | .error e => .error e
          | .ok r2 =>
            if (parseS r2).1 = [] then .ok r2
            else match lit ['s', 't', 'a', 'n', 'd', 'a', 'l', 'o', 'n', 'e'] (parseS r2).2 with
              | some r3 => sdDecl r3
              | none => .ok (parseS r2).2
        | none => match lit ['s', 't', 'a', 'n', 'd', 'a', 'l', 'o', 'n', 'e'] (parseS r).2 with
          | some r1 => sdDecl r1
          | none => .ok (parseS r).2
    match after with
    | .error e => .error e
    | .ok r' => need ['?', '>'] (parseS r').2

/-- `ParseProlog` (parser.py:944-975), the XML declaration. -/
def decl (s : Str) : Except Err Str :=
  match lit ['<', '?', 'x', 'm', 'l'] s with
  | some r => xmlDecl r
  | none => .ok s

/-- `ParseDocument` (parser.py:401-436) and `ParseProlog` (944-975). -/
def document (n : Nat) (s : Str) : Option (Except Err Node) :=
  match decl s with
  | .error e => some (.error e)
  | .ok r => match misc n r with
    | none => none
    | some (.error e) => some (.error e)
    | some (.ok r1) =>
      if (lit ['<', '!', 'D', 'O', 'C', 'T', 'Y', 'P', 'E'] r1).isSome then some (.error .unmodelled)
      else match element n r1 with
        | none => none
        | some (.error e) => some (.error e)
        | some (.ok (root, r2)) => match misc n r2 with
          | none => none
          | some (.error e) => some (.error e)
          | some (.ok r3) => if r3 = [] then some (.ok root) else some bad

/-- `Document.Read` of a unicode string (structures.py:393-426): the root element.  An empty source is no source:
`XMLMissingLocationError`. -/
def read (n : Nat) (src : Str) : Option (Except Err Node) :=
  if src = [] then some bad else document n (entity src)

/-! ## Writing -/

/-- A character in `EscapeCharData` (structures.py:66-84). -/
def escChar (c : Char) : Str :=
  if c = '&' then ['&', 'a', 'm', 'p', ';']
  else if c = '<' then ['&', 'l', 't', ';']
  else if c = '>' then ['&', 'g', 't', ';']
  else if c = '\r' then ['&', '#', 'x', 'D', ';']
  else [c]

/-- `EscapeCharData` without quotes (structures.py:60-99). -/
def escape (s : Str) : Str := s.flatMap escChar

/-- `EscapeCharData` with quotes (structures.py:85-99). -/
def escapeQuoted (s : Str) : Str :=
  if s.count '"' > s.count '\'' then
    '\'' :: s.flatMap (fun c => if c = '\'' then ['&', 'a', 'p', 'o', 's', ';'] else escChar c) ++ ['\'']
  else
    '"' :: s.flatMap (fun c => if c = '"' then ['&', 'q', 'u', 'o', 't', ';'] else escChar c) ++ ['"']

/-- An upper-case hexadecimal digit. -/
def hexDigit (n : Nat) : Char := if n < 10 then Char.ofNat (48 + n) else Char.ofNat (55 + n)

/-- `"%0kX"%n`: at least `k` hexadecimal digits. -/
def hexDigits : Nat → Nat → Str
  | 0, _ => []
  | k + 1, n => hexDigits k (n / 16) ++ [hexDigit (n % 16)]

/-- A character in `EscapeCharData7` (structures.py:116-138).  No code point is greater than 0xFFFFFF, so the
last format is never used; `%06X` of a number below 16^6 has exactly six digits, and so on. -/
def escChar7 (q : Option Char) (qs : Str) (c : Char) : Str :=
  if c.toNat > 0x7F then
    if c.toNat > 0xFF then
      if c.toNat > 0xFFFF then ['&', '#', 'x'] ++ hexDigits 6 c.toNat ++ [';']
      else ['&', '#', 'x'] ++ hexDigits 4 c.toNat ++ [';']
    else ['&', '#', 'x'] ++ hexDigits 2 c.toNat ++ [';']
  else if c = '<' then ['&', 'l', 't', ';']
  else if c = '&' then ['&', 'a', 'm', 'p', ';']
  else if c = '>' then ['&', 'g', 't', ';']
  else if c = '\r' then ['&', '#', 'x', 'D', ';']
  else if some c = q then qs
  else [c]

/-- `EscapeCharData7` without quotes (structures.py:102-142). -/
def escape7 (s : Str) : Str := s.flatMap (escChar7 none [])

/-- `EscapeCharData7` with quotes (structures.py:105-114, 139-142). -/
def escapeQuoted7 (s : Str) : Str :=
  if '\'' ∈ s then '"' :: s.flatMap (escChar7 (some '"') ['&', '#', 'x', '2', '2', ';']) ++ ['"']
  else if '"' ∈ s then '\'' :: s.flatMap (escChar7 (some '\'') ['&', '#', 'x', '2', '7', ';']) ++ ['\'']
  else '"' :: s.flatMap (escChar7 (some '"') ['&', '#', 'x', '2', '2', ';']) ++ ['"']

/-- The escape functions passed to `GenerateXML`: for data and for attribute values. -/
structure Escape where
  data : Str → Str
  att : Str → Str

/-- `EscapeCharData` (structures.py:60), the default. -/
def stdEscape : Escape := ⟨escape, escapeQuoted⟩

/-- `EscapeCharData7` (structures.py:102), used by `Element.__str__` (1937-1946). -/
def asciiEscape : Escape := ⟨escape7, escapeQuoted7⟩

/-- The loop of `CollapseSpace` (structures.py:664-670). -/
def collapseLoop : Bool → Str → Str
  | _, [] => []
  | m, c :: t => if isS c then (if m then collapseLoop true t else ' ' :: collapseLoop true t)
    else c :: collapseLoop false t

/-- `CollapseSpace` (structures.py:650-674). -/
def collapse (m : Bool) (s : Str) : Str :=
  if collapseLoop m s = [] then [' '] else collapseLoop m s

/-- The loop of `GetCanonicalChildren` (structures.py:1437-1469): the data gathered so far, `sMode`, and the
children to come. -/
def canonLoop : Option Str → Bool → List Node → List Node
  | none, _, [] => []
  | some d, m, [] =>
    if collapse m d = [' '] then (if m then [.text [], .text [' ']] else [])
    else if (collapse m d).getLast? = some ' ' then [.text (collapse m d).dropLast]
    else [.text (collapse m d)]
  | none, m, .text s :: r => canonLoop (some s) m r
  | some d, m, .text s :: r => canonLoop (some (d ++ s)) m r
  | none, _, .elem n as ks :: r => .elem n as ks :: canonLoop none false r
  | some d, m, .elem n as ks :: r =>
    (if m = false ∨ collapse m d ≠ [' '] then [.text (collapse m d)] else []) ++
      .elem n as ks :: canonLoop none false r

/-- `GetCanonicalChildren` (structures.py:1397-1470) when white space is not preserved. -/
def canonKids : List Node → List Node
  | [] => []
  | [.text s] => [.text (collapse true s)]
  | [.elem n as ks] => [.elem n as ks]
  | .text s :: r => canonLoop (some s) true r
  | .elem n as ks :: r => .elem n as ks :: canonLoop none false r

/-- The value of an attribute, if given. -/
def attr (as : List (Str × Str)) (n : Str) : Option Str := (as.find? (fun a => a.1 = n)).map Prod.snd

/-- The search of `GetCanonicalChildren` for `xml:space` in the element and its parents (structures.py:1409-1421),
from the answer for the parent. -/
def preserves (inherited : Bool) (as : List (Str × Str)) : Bool :=
  match attr as "xml:space".toList with
  | some v => v = "preserve".toList
  | none => inherited

mutual
/-- The tree of canonical children (`GetCanonicalChildren`, structures.py:1397-1470, at every element).  The code
makes the children canonical while it writes or compares them. -/
def canon (inherited : Bool) : Node → Node
  | .text s => .text s
  | .elem n as ks =>
    .elem n as (if preserves inherited as then canonAll (preserves inherited as) ks
      else canonKids (canonAll (preserves inherited as) ks))
/-- `canon` of each child. -/
def canonAll (inherited : Bool) : List Node → List Node
  | [] => []
  | k :: r => canon inherited k :: canonAll inherited r
end

/-- `≤` on unicode strings: by code points. -/
def strLe : Str → Str → Bool
  | [], _ => true
  | _ :: _, [] => false
  | a :: s, b :: t => if a.toNat < b.toNat then true else if b.toNat < a.toNat then false else strLe s t

/-- `SortNames` (structures.py:1871-1878) on the attributes: ascending by name. -/
def insertAttr (a : Str × Str) : List (Str × Str) → List (Str × Str)
  | [] => [a]
  | b :: r => if strLe a.1 b.1 then a :: b :: r else b :: insertAttr a r

/-- `SortNames` (structures.py:1871-1878) on the attributes. -/
def sortAttrs : List (Str × Str) → List (Str × Str)
  | [] => []
  | a :: r => insertAttr a (sortAttrs r)

/-- `WriteXMLAttributes` (structures.py:2126-2136), joined as `GenerateXML` does (2154-2159). -/
def writeAttrs (esc : Escape) (as : List (Str × Str)) : Str :=
  (sortAttrs as).flatMap (fun a => ' ' :: a.1 ++ '=' :: esc.att a.2)

mutual
/-- `Element.GenerateXML` (structures.py:2138-2190) of an element whose children are canonical: generic elements
are not pretty-printed (`PrettyPrint`, 2089-2124), so only the root has white space before it. -/
def write (esc : Escape) : Node → Str
  | .text s => esc.data s
  | .elem n as ks =>
    if ks.isEmpty then '<' :: n ++ writeAttrs esc as ++ ['/', '>']
    else '<' :: n ++ writeAttrs esc as ++ '>' :: writeAll esc ks ++ '<' :: '/' :: n ++ ['>']
/-- The children, one after another. -/
def writeAll (esc : Escape) : List Node → Str
  | [] => []
  | k :: r => write esc k ++ writeAll esc r
end

/-- `Document.GenerateXML` (structures.py:456-463): the XML declaration, a line feed and the root.  With a `tab`
the line feed comes from the root's white space, without one from the declaration. -/
def writeDocument (esc : Escape) (root : Node) : Str :=
  "<?xml version=\"1.0\" encoding=\"UTF-8\"?>".toList ++ '\n' :: write esc (canon false root)

/-- `EscapeCDSect` (structures.py:753-768), `split` given the pieces between occurrences of `]]>`. -/
def splitCDEnd : Str → List Str
  | [] => [[]]
  | ']' :: ']' :: '>' :: r => [] :: splitCDEnd r
  | c :: t => match splitCDEnd t with
    | d :: ds => (c :: d) :: ds
    | [] => [[c]]

/-- `EscapeCDSect` (structures.py:753-768). -/
def escapeCDSect (s : Str) : Str :=
  match splitCDEnd s with
  | [] => []
  | d :: ds => "<!CDATA[[".toList ++ d ++ ds.flatMap (fun x => "]]>]]&gt;<!CDATA[[".toList ++ x) ++ "]]>".toList

/-! ## Values -/

/-- `GetValue` (structures.py:1816-1839) with `GenerateValue` (1796-1811): its argument is not passed on, so a
child element raises `XMLMixedContentError` whatever it is. -/
def getValue (_ignoreElements : Bool) : List Node → Except Err Str
  | [] => .ok []
  | .text s :: r => match getValue false r with
    | .ok v => .ok (s ++ v)
    | .error e => .error e
  | .elem .. :: _ => .error .xmlException

/-- `SetValue` (structures.py:1841-1855). -/
def setValue (_kids : List Node) (v : Option Str) : List Node :=
  match v with
  | none => []
  | some s => [.text s]

end Verif.PyXml
