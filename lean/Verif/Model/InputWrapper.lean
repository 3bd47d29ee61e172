import Verif.Model.Py

/-!
# Bodies of requests as files

Models `InputWrapper` of `pyslet/pyslet/rfc5023.py:177-375`.  The stream of the server
(`environ['wsgi.input']`) has the bytes of the body and whatever follows them; a plan says how
short each read is, as sockets give what has arrived.  Characters stand for bytes.  Simplified: the
wrapper is not closed, sizes given to `read` are −1 (`readAll`) or not negative, and
`CONTENT_LENGTH`, if present, is a natural number.
-/

namespace Verif.InputWrapper

open Verif

/-- `environ['wsgi.input']` (rfc5023.py:195): the bytes to come, and for each read how many bytes
beyond the first it may give (reads after the plan are as long as asked). -/
structure Stream where
  data : Str
  plan : List Nat

/-- `inputStream.read(n)`, as called at rfc5023.py:209 and 237: a negative size is everything to the
end of the stream; other reads give at least one byte if there is one. -/
def Stream.read (s : Stream) (n : Int) : Str × Stream :=
  if n < 0 then (s.data, { s with data := [] })
  else
    match s.plan with
    | [] => (s.data.take n.toNat, { s with data := s.data.drop n.toNat })
    | p :: ps => (s.data.take (min n.toNat (p + 1)), ⟨s.data.drop (min n.toNat (p + 1)), ps⟩)

/-- The attributes of `InputWrapper` (rfc5023.py:193-217).  `live` is false once `inputStream` is
`None`; `bpos` is the position of the `StringIO`, whose contents are `buffer` (empty if `None`). -/
structure Wrapper where
  input : Stream
  live : Bool
  length : Option Nat
  pos : Nat
  buffer : Str
  bpos : Nat

/-- The loop that fills the buffer, `rfc5023.py:208-215`.  Every turn adds a byte, so `seekSize`
turns are enough. -/
def fill : Nat → Nat → Stream → Str → Str × Stream × Bool
  | 0, _, s, buf => (buf, s, true)
  | f + 1, seekSize, s, buf =>
    if buf.length < seekSize then
      match s.read ((seekSize - buf.length : Nat) : Int) with
      | ([], s') => (buf, s', false)
      | (c :: cs, s') => fill f seekSize s' (buf ++ c :: cs)
    else (buf, s, true)

/-- The size of the buffer, `rfc5023.py:196-201`: not more than `CONTENT_LENGTH`. -/
def bufferSize (length : Option Nat) (seekSize : Nat) : Nat :=
  match length with
  | some l => if l < seekSize then l else seekSize
  | none => seekSize

/-- `InputWrapper.__init__`, `rfc5023.py:193-217`. -/
def new (length : Option Nat) (seekSize : Nat) (s : Stream) : Wrapper :=
  let r := fill (bufferSize length seekSize) (bufferSize length seekSize) s []
  { input := r.2.1, live := r.2.2, length := length, pos := 0, buffer := r.1, bpos := 0 }

/-- How many bytes `read` asks the stream for, `rfc5023.py:234-236`; the difference may be
negative. -/
def asked (length : Option Nat) (pos n : Nat) : Int :=
  match length with
  | some l => if pos + n > l then (l : Int) - pos else n
  | none => n

/-- The second half of `InputWrapper.read`, `rfc5023.py:233-246`: from the stream. -/
def readStream (w : Wrapper) (data : Str) (n : Nat) : Str × Wrapper :=
  if n ≠ 0 ∧ w.live = true then
    match w.input.read (asked w.length w.pos n) with
    | ([], s') => (data, { w with input := s', live := false })
    | (c :: cs, s') => (data ++ c :: cs, { w with input := s', pos := w.pos + (c :: cs).length })
  else (data, w)

/-- `InputWrapper.read(n)` for `n ≥ 0`, `rfc5023.py:219-246`: from the buffer, then from the
stream. -/
def read (w : Wrapper) (n : Nat) : Str × Wrapper :=
  if n ≠ 0 ∧ w.pos < w.buffer.length then
    let data := (w.buffer.drop w.bpos).take n
    readStream { w with pos := w.pos + data.length, bpos := w.bpos + data.length } data
      (n - data.length)
  else readStream w [] n

/-- `InputWrapper.tell`, `rfc5023.py:356-357`. -/
def tell (w : Wrapper) : Nat := w.pos

/-- The loop of `InputWrapper.readall`, `rfc5023.py:300-308`; `size` is `io.DEFAULT_BUFFER_SIZE`. -/
def readAllLoop (size : Nat) : Nat → Wrapper → Str × Wrapper
  | 0, w => ([], w)
  | f + 1, w =>
    match read w size with
    | ([], w') => ([], w')
    | (c :: cs, w') => (c :: cs ++ (readAllLoop size f w').1, (readAllLoop size f w').2)

/-- `InputWrapper.readall`, `rfc5023.py:300-308`.  Every turn takes a byte of the buffer or of the
stream. -/
def readAll (size : Nat) (w : Wrapper) : Str × Wrapper :=
  readAllLoop size (w.buffer.length + w.input.data.length + 1) w

/-- The condition of the loop of `readline`, `rfc5023.py:325`: `limit<0 or len(line)<limit`. -/
def below (limit : Option Nat) (n : Nat) : Bool :=
  match limit with
  | none => true
  | some l => decide (n < l)

/-- The condition that ends `readlines`, `rfc5023.py:343`: `hint>=0 and total>hint`. -/
def exceeds (hint : Option Nat) (total : Nat) : Bool :=
  match hint with
  | none => false
  | some h => decide (total > h)

/-- The loop of `InputWrapper.readline`, `rfc5023.py:324-332`. -/
def readLineLoop (limit : Option Nat) : Nat → Str → Wrapper → Str × Wrapper
  | 0, line, w => (line, w)
  | f + 1, line, w =>
    if below limit line.length = true then
      match read w 1 with
      | ([], w') => (line, w')
      | (c :: cs, w') =>
        if c :: cs = ['\n'] then (line ++ c :: cs, w')
        else readLineLoop limit f (line ++ c :: cs) w'
    else (line, w)

/-- `InputWrapper.readline(limit)`, `rfc5023.py:319-332`; no limit is −1. -/
def readLine (limit : Option Nat) (w : Wrapper) : Str × Wrapper :=
  readLineLoop limit (w.buffer.length + w.input.data.length + 1) [] w

/-- `InputWrapper.readlines(hint)` over `__iter__`, `rfc5023.py:334-345` and `371-375`: the iterator
goes on for ever, after the end of the data as well.  `none` if the loop has not ended after that
many lines were asked for. -/
def readLines (hint : Option Nat) : Nat → Nat → List Str → Wrapper → Option (List Str × Wrapper)
  | 0, _, _, _ => none
  | f + 1, total, lines, w =>
    match readLine none w with
    | ([], w') => readLines hint f total lines w'
    | (c :: cs, w') =>
      if exceeds hint (total + (c :: cs).length) = true then
        some (lines ++ [c :: cs], w')
      else readLines hint f (total + (c :: cs).length) (lines ++ [c :: cs]) w'

/-- The loop of `InputWrapper.iterblocks`, `rfc5023.py:349-354`: the size is
`io.DEFAULT_BUFFER_SIZE`. -/
def blocksLoop (size : Nat) : Nat → Wrapper → List Str
  | 0, _ => []
  | f + 1, w =>
    match read w size with
    | ([], _) => []
    | (c :: cs, w') => (c :: cs) :: blocksLoop size f w'

/-- `InputWrapper.iterblocks(maxSize)`, `rfc5023.py:347-354`: `maxSize` is not used. -/
def iterBlocks (size _maxSize : Nat) (w : Wrapper) : List Str :=
  blocksLoop size (w.buffer.length + w.input.data.length + 1) w

/-- `io.SEEK_SET`, `io.SEEK_CUR`, `io.SEEK_END`. -/
inductive Whence
  | set | cur | fromEnd

/-- The loop of `InputWrapper.seek` that discards bytes, `rfc5023.py:269-277`: `read` has added the
length already. -/
def discard (size newPos : Nat) : Nat → Wrapper → Wrapper
  | 0, w => w
  | f + 1, w =>
    if newPos > w.pos then
      match read w (if newPos - w.pos > size then size else newPos - w.pos) with
      | ([], w') => w'
      | (c :: cs, w') => discard size newPos f { w' with pos := w'.pos + (c :: cs).length }
    else w

/-- The new position of `InputWrapper.seek`, `rfc5023.py:251-262`; `none` is an `IOError`. -/
def target (w : Wrapper) (offset : Int) : Whence → Option Int
  | .set => some offset
  | .cur => some (w.pos + offset)
  | .fromEnd =>
    match w.length with
    | none => none
    | some l => some ((l : Int) + offset)

/-- `InputWrapper.seek`, `rfc5023.py:248-279`; `none` is an `IOError`. -/
def seek (size : Nat) (w : Wrapper) (offset : Int) (whence : Whence) : Option Wrapper :=
  if w.pos > w.buffer.length then none
  else
    match target w offset whence with
    | none => none
    | some t =>
      if t < 0 then none
      else if t.toNat = w.pos then some w
      else if t.toNat ≤ w.buffer.length then some { w with bpos := t.toNat, pos := t.toNat }
      else some { discard size t.toNat t.toNat w with pos := t.toNat }

end Verif.InputWrapper
