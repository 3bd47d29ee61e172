import Verif.Model.Py

/-!
# Consumers of tools

Models `pyslet/pyslet/imsbltiv1p0.py` (cited as *blti*): nonces, keys and files of consumers.  Authorization itself is in the `oauth`
library and not modelled.

Times are integers in units of any size, and exact; the program uses floats of seconds.  Random bytes are an argument.
-/

namespace Verif.Blti
open Verif

/-! ## Nonces -/

/-- `CheckNonce` (blti:33-48) at time `now`, with the 90 minutes as `window`: whether the nonce is reported, and the nonces afterwards. -/
def checkNonce (window : Int) (nonces : List (Str × Int)) (nonce : Str) (now : Int) : Bool × List (Str × Int) :=
  let kept := nonces.dropWhile fun e => e.2 < now - window
  if kept.any fun e => e.1 = nonce then (true, kept) else (false, kept ++ [(nonce, now)])

/-- A history of calls, each with its answer; at the start there are no nonces (blti:31). -/
def history (window : Int) : List (Str × Int) → List (Str × Int) → List ((Str × Int) × Bool)
  | _, [] => []
  | nonces, c :: cs => (c, (checkNonce window nonces c.1 c.2).1) :: history window (checkNonce window nonces c.1 c.2).2 cs

/-- The nonces that are kept after a history. -/
def keptAfter (window : Int) : List (Str × Int) → List (Str × Int) → List (Str × Int)
  | nonces, [] => nonces
  | nonces, c :: cs => keptAfter window (checkNonce window nonces c.1 c.2).2 cs

/-! ## Keys -/

/-- The number of groups (blti:66). -/
def groups (keyLength : Nat) : Nat := (keyLength + 1) / 16

/-- A digit of `%X`. -/
def hexDigit (n : Nat) : Char := "0123456789ABCDEF".toList.getD n '0'

/-- `"%02X%02X"` (blti:70). -/
def four (a b : Fin 256) : Str := [hexDigit (a.val / 16), hexDigit (a.val % 16), hexDigit (b.val / 16), hexDigit (b.val % 16)]

/-- The groups of the bytes (blti:69-71). -/
def fours : List (Fin 256) → List Str
  | a :: b :: r => four a b :: fours r
  | _ => []

/-- `GenerateKey` with the bytes of `os.urandom(2*nFours)` (blti:59-78). -/
def generateKey (bytes : List (Fin 256)) : Str := Py.join '.' (fours bytes)

/-! ## Consumers -/

/-- The secrets of consumers by their keys (blti:53). -/
abbrev Consumers := List (Str × Str)

/-- `consumers.get(key,None)` (blti:94-95). -/
def lookup (key : Str) : Consumers → Option Str
  | [] => none
  | (k, v) :: l => if k = key then some v else lookup key l

/-- `consumers[key]=…` -/
def put (key secret : Str) (l : Consumers) : Consumers := (key, secret) :: l.filter fun e => e.1 ≠ key

/-- The exception of this module. -/
inductive Fault where
  /-- `BLTIDuplicateKeyError` -/
  | duplicateKey (key : Str)
deriving DecidableEq

/-- `NewConsumer` (blti:80-92), with the bytes for a key, if one is made, and for the secret. -/
def newConsumer (key : Option Str) (keyBytes secretBytes : List (Fin 256)) (l : Consumers) : Except Fault ((Str × Str) × Consumers) :=
  match key with
  | none => .ok ((generateKey keyBytes, generateKey secretBytes), put (generateKey keyBytes) (generateKey secretBytes) l)
  | some k =>
    if (lookup k l).isSome then .error (.duplicateKey k)
    else .ok ((k, generateKey secretBytes), put k (generateKey secretBytes) l)

/-! ## Files -/

/-- White space of `str.split()`. -/
def isSpace (c : Char) : Bool := (9 ≤ c.toNat && c.toNat ≤ 13) || c.toNat == 32

/-- `f.readlines()` (blti:111); `cur` is the line so far. -/
def readlines : Str → Str → List Str
  | [], [] => []
  | cur, [] => [cur]
  | cur, c :: cs => if c = '\n' then (cur ++ ['\n']) :: readlines [] cs else readlines (cur ++ [c]) cs

/-- `line.split()` (blti:115); `cur` is the field so far. -/
def fields : Str → Str → List Str
  | [], [] => []
  | cur, [] => [cur]
  | cur, c :: cs =>
    if isSpace c then (match cur with
      | [] => fields [] cs
      | _ :: _ => cur :: fields [] cs)
    else fields (cur ++ [c]) cs

/-- The loop of `LoadFromFile` (blti:112-119): the consumers, also those read before an exception. -/
def loadLines : List Str → Consumers → Option Fault × Consumers
  | [], l => (none, l)
  | line :: lines, l =>
    if line.head? = some '#' then loadLines lines l
    else match fields [] line with
      | k :: v :: _ => if (lookup k l).isSome then (some (.duplicateKey k), l) else loadLines lines (put k v l)
      | _ => loadLines lines l

/-- `LoadFromFile` (blti:104-119). -/
def load (text : Str) (l : Consumers) : Option Fault × Consumers := loadLines (readlines [] text) l

/-- `SaveToFile` (blti:121-127), for the consumers in any order; the program sorts them by their keys. -/
def save : Consumers → Str
  | [] => []
  | (k, v) :: l => k ++ ' ' :: v ++ '\n' :: save l

end Verif.Blti
