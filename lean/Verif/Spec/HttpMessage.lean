import Verif.Model.Py

/-!
# HTTP messages

What a response is on the wire and what it means: a status line, header fields, and a body whose end is known from its length,
from its chunks or from the status and the method.  Bytes are characters.
-/

namespace Verif.Spec.HttpMessage

open Verif

/-- The end of a line. -/
def eol : Str := ['\r', '\n']

/-- Text within a line. -/
def Inline (s : Str) : Prop := ∀ c ∈ s, c ≠ '\r' ∧ c ≠ '\n'

/-- A header field: its name, what is written after the colon, and the lines that continue it. -/
structure Field where
  name : Str
  value : Str
  more : List Str := []

/-- A field that can be written: the name has no colon and does not begin with white space, a continuation does. -/
structure Field.OK (f : Field) : Prop where
  name : Inline f.name
  colon : ':' ∉ f.name
  start : ∀ c t, f.name = c :: t → c ≠ ' ' ∧ c ≠ '\t'
  value : Inline f.value
  more : ∀ l ∈ f.more, Inline l ∧ ∃ c t, l = c :: t ∧ (c = ' ' ∨ c = '\t')

/-- The whole value: the lines as they are written. -/
def Field.content (f : Field) : Str := f.value ++ f.more.flatMap (eol ++ ·)

/-- A field as it is written. -/
def Field.text (f : Field) : Str := f.name ++ ':' :: f.content ++ eol

/-- Names are compared without regard to capital letters. -/
def sameName (a b : Str) : Bool := Py.lower a = Py.lower b

/-- The values of the fields with a name, in their order. -/
def valuesOf (fs : List Field) (name : Str) : List Str := (fs.filter fun f => sameName f.name name).map Field.content

/-- A list with commas. -/
def commas : List Str → Str
  | [] => []
  | [v] => v
  | v :: vs => v ++ [',', ' '] ++ commas vs

/-- The value of the fields with a name: fields that occur more than once are one list. -/
def valueOf (fs : List Field) (name : Str) : Option Str := if valuesOf fs name = [] then none else some (commas (valuesOf fs name))

/-- A number in decimal digits. -/
def Decimal (s : Str) (n : Nat) : Prop := s ≠ [] ∧ s.all Py.isDigit = true ∧ Py.digitsVal 10 s = n

/-- A number in hexadecimal digits, of any case and with any number of leading zeros. -/
def Hexadecimal (s : Str) (n : Nat) : Prop := s ≠ [] ∧ s.all Py.isHex = true ∧ Py.digitsVal 16 s = n

/-- White space. -/
def isSpace (c : Char) : Prop := c = ' ' ∨ c = '\t'

/-- Text without controls, brackets that begin a comment and quotes. -/
def Safe (s : Str) : Prop := ∀ c ∈ s, c = '\t' ∨ (32 ≤ c.toNat ∧ c.toNat ≠ 127 ∧ c ≠ '(' ∧ c ≠ '"')

/-- The status line: the numbers of the version, the status and the reason, as they are written. -/
structure StatusLine where
  major : Str
  minor : Str
  status : Str
  reason : Str

/-- A status line with a status.  The reason is text that does not end in white space. -/
structure StatusLine.OK (l : StatusLine) (major minor status : Nat) : Prop where
  major : Decimal l.major major
  minor : Decimal l.minor minor
  status : Decimal l.status status
  safe : Safe l.reason
  trimmed : ∀ c, l.reason.getLast? = some c → ¬ isSpace c

/-- A status line as it is written. -/
def StatusLine.text (l : StatusLine) : Str :=
  ['H', 'T', 'T', 'P', '/'] ++ l.major ++ '.' :: l.minor ++ ' ' :: l.status ++ ' ' :: l.reason ++ eol

/-- A chunk: its size as it is written, what follows the size on the line, and the data. -/
structure Chunk where
  size : Str
  ext : Str
  data : Str

/-- What can follow a size: nothing, or a semicolon or a space and any text without quotes. -/
def Extension (s : Str) : Prop := Safe s ∧ ∀ c t, s = c :: t → c = ';' ∨ isSpace c

/-- A chunk of some data. -/
structure Chunk.OK (c : Chunk) : Prop where
  size : Hexadecimal c.size c.data.length
  some : c.data ≠ []
  small : c.data.length + 2 < 2 ^ 63
  ext : Extension c.ext

/-- A chunk as it is written. -/
def Chunk.text (c : Chunk) : Str := c.size ++ c.ext ++ eol ++ c.data ++ eol

/-- Chunks, the last line with a size of zero, and the fields after it. -/
structure Chunks where
  chunks : List Chunk
  zero : Str
  ext : Str
  trailer : List Field

structure Chunks.OK (c : Chunks) : Prop where
  chunks : ∀ x ∈ c.chunks, x.OK
  zero : Hexadecimal c.zero 0
  ext : Extension c.ext
  trailer : ∀ f ∈ c.trailer, f.OK

/-- A body in chunks as it is written. -/
def Chunks.text (c : Chunks) : Str := c.chunks.flatMap Chunk.text ++ c.zero ++ c.ext ++ eol ++ c.trailer.flatMap Field.text ++ eol

/-- The data of a body in chunks. -/
def Chunks.data (c : Chunks) : Str := c.chunks.flatMap Chunk.data

/-- Whether a response to a request with the method has no body, whatever its fields say. -/
def bodyless (method : Str) (status : Nat) : Prop :=
  (100 ≤ status ∧ status ≤ 199) ∨ status = 204 ∨ status = 304 ∨ method = "HEAD".toList

/-- The end of a body as the fields announce it: the text of the body, its data and the fields after it. -/
inductive Framed (method : Str) (status : Nat) (fields : List Field) : Str → Str → List Field → Prop where
  /-- There is no body. -/
  | none : bodyless method status → Framed method status fields [] [] []
  /-- The body has the length of the field `Content-Length`, which may have white space around it. -/
  | sized (a v b data : Str) : ¬ bodyless method status → valueOf fields "Transfer-Encoding".toList = Option.none →
      valueOf fields "Content-Length".toList = some (a ++ v ++ b) → (∀ c ∈ a ++ b, isSpace c) → Decimal v data.length →
      data.length < 2 ^ 63 → Framed method status fields data data []
  /-- The body is sent in chunks. -/
  | chunked (e : Str) (c : Chunks) : ¬ bodyless method status → valueOf fields "Transfer-Encoding".toList = some e →
      e ≠ "identity".toList → c.OK → Framed method status fields c.text c.data c.trailer

/-- A response with a version, a status, fields and a body, as it is written. -/
structure Response (method : Str) (major minor status : Nat) (fields : List Field) (data : Str) (text : Str) : Prop where
  written : ∃ (l : StatusLine) (head : List Field) (body : Str) (trailer : List Field),
    l.OK major minor status ∧ (∀ f ∈ head, f.OK) ∧ Framed method status head body data trailer ∧ fields = head ++ trailer ∧
    text = l.text ++ head.flatMap Field.text ++ eol ++ body

/-- What answers a request: informational responses, given by their statuses, and a final one. -/
inductive Answer (method : Str) (major minor status : Nat) (fields : List Field) (data : Str) : List Nat → Str → Prop where
  | final {text : Str} : Response method major minor status fields data text → ¬ (100 ≤ status ∧ status ≤ 199) →
      Answer method major minor status fields data [] text
  | before {a b s : Nat} {fs : List Field} {d t : Str} {ss : List Nat} {text : Str} : Response method a b s fs d t →
      100 ≤ s ∧ s ≤ 199 → Answer method major minor status fields data ss text →
      Answer method major minor status fields data (s :: ss) (t ++ text)

/-- The head of a response whose body ends with the connection: no field announces an end. -/
def OpenHead (method : Str) (major minor status : Nat) (head : List Field) (text : Str) : Prop :=
  ∃ l : StatusLine, l.OK major minor status ∧ (∀ f ∈ head, f.OK) ∧ ¬ bodyless method status ∧
    valueOf head "Transfer-Encoding".toList = none ∧ valueOf head "Content-Length".toList = none ∧
    text = l.text ++ head.flatMap Field.text ++ eol


/-- The body of a request as its fields announce it: the values of `Transfer-Encoding` and `Content-Length`, what is sent and the
data. -/
inductive RequestBody : Option Str → Option Str → Str → Str → Prop where
  /-- Neither field: there is no body. -/
  | none (te : Option Str) : (∀ e, te = some e → e = "identity".toList) → RequestBody te Option.none [] []
  /-- The length is announced. -/
  | sized (te : Option Str) (v data : Str) : (∀ e, te = some e → e = "identity".toList) → Decimal v data.length →
      RequestBody te (some v) data data
  /-- The body is sent in chunks. -/
  | chunked (e : Str) (cl : Option Str) (c : Chunks) : e ≠ "identity".toList → c.OK → c.trailer = [] →
      RequestBody (some e) cl c.text c.data

end Verif.Spec.HttpMessage
