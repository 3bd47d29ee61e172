import Verif.Model.ODataExpr

/-!
# Evaluation of OData expressions

Models `Evaluate` of the expression objects of `pyslet/pyslet/odata2/core.py` (cited as *core*) on simple values, complex
values and entities of `pyslet/pyslet/odata2/csdl.py` (cited as *csdl*).

Decimals and finite floats are exact rational numbers; the rounding of each operation is a parameter.  The sign of zero
and the number of zeros at the end of a Decimal are not modelled.
-/

namespace Verif.OData.Eval

open Verif

/-- The exceptions `Evaluate` lets through: `EvaluationError`, `ValueError`, `KeyError`, `IndexError`, `AttributeError`,
`TypeError`, `decimal.InvalidOperation` and `NavigationError`. -/
inductive Raise where
  | evaluation
  | value
  | key
  | index
  | attribute
  | type
  | invalidOperation
  | navigation
deriving DecidableEq, Repr

/-- `SimpleType` (csdl:457-473). -/
inductive Ty where
  | binary | boolean | byte | dateTime | offset | time | decimal | double | single | guid | int16 | int32 | int64 | string
  | sbyte
deriving DecidableEq, Repr

/-- A Python float: not a number, infinite, or its exact value. -/
inductive Fl where
  | nan
  | inf (neg : Bool)
  | fin (q : Rat)
deriving DecidableEq, Repr

/-- Simple values (csdl:809-848) with their type code; `null` has the value `None`, and `null none` is the value without
type. -/
inductive SVal where
  | null (ty : Option Ty)
  | bool (b : Bool)
  | byte (n : Int)
  | sbyte (n : Int)
  | int16 (n : Int)
  | int32 (n : Int)
  | int64 (n : Int)
  | decimal (q : Rat)
  | double (x : Fl)
  | single (x : Fl)
  | string (s : Str)
  | binary (bytes : List Nat)
  | guid (n : Nat)
  | dateTime (date : Cal.Date) (hour minute second : Nat) (frac : Str)
  | time (hour minute second : Nat) (frac : Str)
  | offset (text : Str)
deriving DecidableEq

/-- The attribute `typeCode` (csdl:814-817). -/
def SVal.ty : SVal → Option Ty
  | .null t => t
  | .bool _ => some .boolean
  | .byte _ => some .byte
  | .sbyte _ => some .sbyte
  | .int16 _ => some .int16
  | .int32 _ => some .int32
  | .int64 _ => some .int64
  | .decimal _ => some .decimal
  | .double _ => some .double
  | .single _ => some .single
  | .string _ => some .string
  | .binary _ => some .binary
  | .guid _ => some .guid
  | .dateTime .. => some .dateTime
  | .time .. => some .time
  | .offset _ => some .offset

/-- `IsNull` (csdl:850-851). -/
def SVal.isNull : SVal → Bool
  | .null _ => true
  | _ => false

/-- What is left open: the rounding of the Decimal context, the rounding to doubles (infinite on overflow), and the case
and white space of Unicode. -/
structure Env where
  rnd : Rat → Rat
  dbl : Rat → Fl
  lower : Str → Str
  upper : Str → Str
  space : Char → Bool

/-! ## Types -/

/-- `NUMERIC_TYPES` (core:54-61): `SByte` is not a member. -/
def numericTypes : List Ty := [.double, .single, .decimal, .int64, .int32, .int16, .byte]

/-- `PromoteTypes` (core:63-91). -/
def promoteTypes (a b : Option Ty) : Except Raise (Option Ty) :=
  if a = b then .ok a
  else match a, b with
    | none, b => .ok b
    | a, none => .ok a
    | some x, some y =>
      if x ∉ numericTypes ∨ y ∉ numericTypes then .error .evaluation
      else if x = .double ∨ y = .double then .ok (some .double)
      else if x = .single ∨ y = .single then .ok (some .single)
      else if x = .decimal ∨ y = .decimal then .ok (some .decimal)
      else if x = .int64 ∨ y = .int64 then .ok (some .int64)
      else if x = .int32 ∨ y = .int32 then .ok (some .int32)
      else if x = .int16 ∨ y = .int16 then .ok (some .int16)
      else .ok none

/-- `CanCastMethodArgument` (core:94-119). -/
def canCast (a : Option Ty) (b : Ty) : Bool :=
  match a with
  | none => true
  | some a =>
    if a = b then true
    else match b with
      | .double | .single | .int64 | .int32 | .int16 | .byte => numericTypes.contains a
      | .decimal => [Ty.decimal, .int64, .int32, .int16].contains a
      | _ => false

/-! ## Setting values -/

/-- `Int32Value.SetFromValue` of an integer (csdl:1531-1540). -/
def setInt32 (n : Int) : Except Raise SVal :=
  if n < -2147483648 ∨ n > 2147483647 then .error .value else .ok (.int32 n)

/-- `Int64Value.SetFromValue` of an integer (csdl:1554-1563). -/
def setInt64 (n : Int) : Except Raise SVal :=
  if n < -9223372036854775808 ∨ n > 9223372036854775807 then .error .value else .ok (.int64 n)

/-- `Int16Value.SetFromValue` of an integer (csdl:1508-1517). -/
def setInt16 (n : Int) : Except Raise SVal :=
  if n < -32768 ∨ n > 32767 then .error .value else .ok (.int16 n)

/-- `DecimalValue.SetFromValue` of a Decimal (csdl:1266-1274, 1303-1318): `Max` is `10^29` in the default context, and the
minus of `abs` rounds. -/
def setDecimal (E : Env) (q : Rat) : Except Raise SVal :=
  if (if q < 0 then E.rnd (-q) else q) > 10 ^ 29 then .error .value else .ok (.decimal q)

/-- `DoubleValue.SetFromValue` of a float (csdl:1343-1350): no finite float is out of range. -/
def setDouble (x : Fl) : Except Raise SVal := .ok (.double x)

/-- `SingleValue.Max` (csdl:1449-1452). -/
def singleMax : Rat := (2 ^ 24 - 1) * 2 ^ 104

/-- `SingleValue.SetFromValue` of a float (csdl:1343-1350): infinite values and `nan` pass. -/
def setSingle : Fl → Except Raise SVal
  | .fin q => if q < -singleMax ∨ q > singleMax then .error .value else .ok (.single (.fin q))
  | x => .ok (.single x)

/-- The integer of a value of an integer type. -/
def SVal.int : SVal → Option Int
  | .byte n | .int16 n | .int32 n | .int64 n => some n
  | _ => none

/-- `SetFromValue` of an integer on a new value of a numeric type (csdl:1068-1077, 1303-1352, 1508-1562); `SByte` is not
modelled, being no target of a cast here.  The floating-point types hold every integer in their range, rounded. -/
def setInteger (E : Env) (t : Ty) (n : Int) : Except Raise SVal :=
  match t with
  | .byte => if n < 0 ∨ n > 255 then .error .value else .ok (.byte n)
  | .int16 => setInt16 n
  | .int32 => setInt32 n
  | .int64 => setInt64 n
  | .decimal => setDecimal E n
  | .double => setDouble (E.dbl n)
  | .single => setSingle (E.dbl n)
  | _ => .error .type

/-- `SimpleCast` and `Cast` (csdl:853-876): nothing changes if the type is the same, nulls can be cast to every type.  Of the other
casts those between numeric types towards larger ones are modelled, which are all that occur here. -/
def SVal.cast (E : Env) (v : SVal) (t : Ty) : Except Raise SVal :=
  if v.ty = some t then .ok v
  else match v with
    | .null _ => .ok (.null (some t))
    | .decimal q =>
      match t with
      | .double => setDouble (E.dbl q)
      | .single => setSingle (E.dbl q)
      | _ => .error .type
    | .single x =>
      match t with
      | .double => setDouble x
      | _ => .error .type
    | v =>
      match v.int with
      | some n => setInteger E t n
      | none => .error .type

/-! ## Floats -/

/-- The negative of a float. -/
def Fl.neg : Fl → Fl
  | .nan => .nan
  | .inf s => .inf (!s)
  | .fin q => .fin (-q)

/-- `+` of floats. -/
def Fl.add (E : Env) : Fl → Fl → Fl
  | .fin a, .fin b => E.dbl (a + b)
  | .nan, _ | _, .nan => .nan
  | .inf s, .inf t => if s = t then .inf s else .nan
  | .inf s, .fin _ => .inf s
  | .fin _, .inf t => .inf t

/-- `*` of floats. -/
def Fl.mul (E : Env) : Fl → Fl → Fl
  | .fin a, .fin b => E.dbl (a * b)
  | .nan, _ | _, .nan => .nan
  | .inf s, .inf t => .inf (s != t)
  | .inf s, .fin b => if b = 0 then .nan else .inf (s != decide (b < 0))
  | .fin a, .inf t => if a = 0 then .nan else .inf (t != decide (a < 0))

/-- `/` of floats: nothing for a `ZeroDivisionError`. -/
def Fl.div (E : Env) (x y : Fl) : Option Fl :=
  if y = .fin 0 then none
  else some (match x, y with
    | .fin a, .fin b => E.dbl (a / b)
    | .nan, _ | _, .nan => .nan
    | .inf _, .inf _ => .nan
    | .inf s, .fin b => .inf (s != decide (b < 0))
    | .fin _, .inf _ => .fin 0)

/-- The integer next to a rational number on the side of zero. -/
def trunc (q : Rat) : Int := if q < 0 then q.ceil else q.floor

/-- `math.fmod`: nothing for a `ValueError`. -/
def Fl.fmod : Fl → Fl → Option Fl
  | .nan, _ | _, .nan => some .nan
  | .inf _, _ => none
  | .fin a, .inf _ => some (.fin a)
  | .fin a, .fin b => if b = 0 then none else some (.fin (a - b * trunc (a / b)))

/-- `int` of a float; the floats it is used on are finite. -/
def Fl.toInt : Fl → Int
  | .fin q => trunc q
  | _ => 0

/-- The order of floats, nothing if one is `nan`. -/
def Fl.cmp : Fl → Fl → Option Ordering
  | .nan, _ | _, .nan => none
  | .inf s, .inf t => some (compare t s)
  | .inf s, .fin _ => some (if s then .lt else .gt)
  | .fin _, .inf t => some (if t then .gt else .lt)
  | .fin a, .fin b => some (if a < b then .lt else if a = b then .eq else .gt)

/-! ## Comparing -/

/-- The order of Unicode strings: by characters (a build of Python with wide characters). -/
def cmpStr : Str → Str → Ordering
  | [], [] => .eq
  | [], _ :: _ => .lt
  | _ :: _, [] => .gt
  | a :: s, b :: t => if a.toNat < b.toNat then .lt else if a.toNat = b.toNat then cmpStr s t else .gt

/-- The digits of the fraction of a second as units of `10^-7` seconds; there are at most seven digits. -/
def fraction (f : Str) : Nat := Py.digitsVal 10 f * 10 ^ (7 - f.length)

/-- The numbers `TimePoint.__cmp__` compares one after the other (pyslet/pyslet/iso8601.py:906-932, 1728-1752, 2289-2311);
points of time without zone. -/
def pointKey (d : Cal.Date) (hour minute second : Nat) (frac : Str) : List Int :=
  [d.century, d.year, d.month, d.day, hour, minute, second, fraction frac]

/-- Lists of numbers from the left. -/
def cmpInts : List Int → List Int → Ordering
  | [], [] => .eq
  | [], _ :: _ => .lt
  | _ :: _, [] => .gt
  | a :: s, b :: t => if a < b then .lt else if a = b then cmpInts s t else .gt

/-- `TimePoint()` (pyslet/pyslet/iso8601.py:2057-2069): midnight of the first day of year 1. -/
def origin : List Int := [0, 1, 1, 1, 0, 0, 0, 0]

/-- Python's comparison of the raw values of two values of type String, DateTime or Guid (or null): `None` is smaller than
every string and every `UUID`; a `TimePoint` compares itself with `TimePoint(None)`, which is the origin
(pyslet/pyslet/iso8601.py:2296-2297). -/
def cmpRaw : SVal → SVal → Ordering
  | .string a, .string b => cmpStr a b
  | .guid a, .guid b => compare a b
  | .dateTime d h m s f, .dateTime d' h' m' s' f' => cmpInts (pointKey d h m s f) (pointKey d' h' m' s' f')
  | .dateTime d h m s f, .null _ => cmpInts (pointKey d h m s f) origin
  | .null _, .dateTime d h m s f => cmpInts origin (pointKey d h m s f)
  | .null _, .null _ => .eq
  | .null _, _ => .lt
  | _, _ => .gt

/-- Python's comparison of two numbers of the same type; nothing if one is `nan`.  Nulls are dealt with before. -/
def cmpNum : SVal → SVal → Option Ordering
  | .int32 a, .int32 b => some (compare a b)
  | .int64 a, .int64 b => some (compare a b)
  | .decimal a, .decimal b => some (if a < b then .lt else if a = b then .eq else .gt)
  | .double a, .double b => a.cmp b
  | .single a, .single b => a.cmp b
  | _, _ => none

/-- The functions `EvaluateLt`, `EvaluateGt`, `EvaluateLe` and `EvaluateGe` pass (core:568-578). -/
def relation (op : Oper) : Ordering → Bool
  | .lt => op = .lt || op = .le
  | .eq => op = .le || op = .ge
  | .gt => op = .gt || op = .ge

/-! ## Entities -/

/-- What an entity expression or a property can stand for: entities are named by a number. -/
inductive Value where
  | simple (v : SVal)
  | complex (fields : List (Str × Value))
  | entity (id : Nat)

/-- A navigation property as `GetEntity` finds it (csdl:1731-1745): a collection, one entity or none, or an error. -/
inductive Nav where
  | many
  | one (target : Option Nat)
  | broken

/-- An entity: its entity set, the name of its type, its key (nothing if it is null; keys are numbered such that equal keys
have the same number), its data properties and its navigation properties. -/
structure Ent where
  set : Nat
  typeName : Str
  key : Option Nat
  data : List (Str × Value)
  nav : List (Str × Nav)

/-- All entities. -/
abbrev World := Nat → Ent

/-- The value stored under a name. -/
def lookup {α : Type} (name : Str) : List (Str × α) → Option α
  | [] => none
  | (n, v) :: rest => if n = name then some v else lookup name rest

/-- The test `if value:` (csdl:738-741, 1659-1661): nulls only are false; an entity has at least one property. -/
def Value.truthy : Value → Bool
  | .simple v => !v.isNull
  | _ => true

/-- `PropertyExpression.Evaluate` (core:776-795). -/
def property (W : World) (ctx : Option Value) (name : Str) : Except Raise Value :=
  match ctx with
  | none => .error .evaluation
  | some (.entity id) =>
    match lookup name (W id).nav with
    | some .many => .error .evaluation
    | some (.one (some t)) => .ok (.entity t)
    | some (.one none) => .ok (.simple (.null none))
    | some .broken => .error .navigation
    | none =>
      match lookup name (W id).data with
      | some v => .ok v
      | none => .error .key
  | some (.complex fields) =>
    match lookup name fields with
    | some v => .ok v
    | none => .error .evaluation
  | some (.simple v) => if v.isNull then .error .evaluation else .error .type

/-! ## Operators of one operand -/

/-- `EvaluateNegate` (core:334-349). -/
def negate (E : Env) : Value → Except Raise Value
  | .simple v => do
    let v ← if v.ty = some .byte ∨ v.ty = some .int16 then v.cast E .int32
      else if v.ty = some .single then v.cast E .double
      else .ok v
    match v with
    | .int32 n => (setInt32 (0 - n)).map .simple
    | .int64 n => (setInt64 (0 - n)).map .simple
    | .double x => (setDouble ((Fl.fin 0).add E x.neg)).map .simple
    | .decimal q => (setDecimal E (E.rnd (0 - q))).map .simple
    | .null (some t) =>
      if t = .int32 ∨ t = .int64 ∨ t = .double ∨ t = .decimal then .ok (.simple (.null (some t))) else .error .evaluation
    | .null none => .ok (.simple (.null (some .int32)))
    | _ => .error .evaluation
  | _ => .error .attribute

/-- `EvaluateNot` (core:351-365). -/
def boolNot : Value → Except Raise Value
  | .simple (.null _) => .ok (.simple (.null (some .boolean)))
  | .simple (.bool b) => .ok (.simple (.bool (!b)))
  | _ => .error .evaluation

/-! ## Operators of two operands -/

/-- `PromoteOperands` (core:430-434). -/
def promoteOperands : Value → Value → Except Raise (SVal × SVal × Option Ty)
  | .simple l, .simple r => (promoteTypes l.ty r.ty).map fun t => (l, r, t)
  | _, _ => .error .evaluation

/-- The types of arithmetic (core:473-474). -/
def arithTypes : List Ty := [.int32, .int64, .single, .double, .decimal]

/-- `+`, `-` and `*` of integers. -/
def intOp (op : Oper) (a b : Int) : Int :=
  match op with
  | .add => a + b
  | .sub => a - b
  | _ => a * b

/-- `+`, `-` and `*` of Decimals. -/
def decOp (E : Env) (op : Oper) (a b : Rat) : Rat :=
  match op with
  | .add => E.rnd (a + b)
  | .sub => E.rnd (a - b)
  | _ => E.rnd (a * b)

/-- `+`, `-` and `*` of floats. -/
def fltOp (E : Env) (op : Oper) (a b : Fl) : Fl :=
  match op with
  | .add => a.add E b
  | .sub => a.add E b.neg
  | _ => a.mul E b

/-- The calculation of `EvaluateMul`, `EvaluateAdd` and `EvaluateSub` with operands of the same type
(core:475-480, 542-547, 557-562). -/
def compute (E : Env) (op : Oper) (t : Ty) : SVal → SVal → Except Raise SVal
  | .int32 a, .int32 b => setInt32 (intOp op a b)
  | .int64 a, .int64 b => setInt64 (intOp op a b)
  | .decimal a, .decimal b => setDecimal E (decOp E op a b)
  | .double a, .double b => setDouble (fltOp E op a b)
  | .single a, .single b => setSingle (fltOp E op a b)
  | _, _ => .ok (.null (some t))

/-- The calculation of `EvaluateDiv` (core:489-510): `ZeroDivisionError` becomes `EvaluationError`; `0/0` of Decimals raises
`InvalidOperation`, which is no `ZeroDivisionError`. -/
def computeDiv (E : Env) (t : Ty) : SVal → SVal → Except Raise SVal
  | .int32 a, .int32 b =>
    match (E.dbl a).div E (E.dbl b) with
    | none => .error .evaluation
    | some x => setInt32 x.toInt
  | .int64 a, .int64 b =>
    match (E.dbl a).div E (E.dbl b) with
    | none => .error .evaluation
    | some x => setInt64 x.toInt
  | .decimal a, .decimal b =>
    if b = 0 then (if a = 0 then .error .invalidOperation else .error .evaluation) else setDecimal E (E.rnd (a / b))
  | .double a, .double b =>
    match a.div E b with
    | none => .error .evaluation
    | some x => setDouble x
  | .single a, .single b =>
    match a.div E b with
    | none => .error .evaluation
    | some x => setSingle x
  | _, _ => .ok (.null (some t))

/-- The exact value of a float that is finite. -/
def Fl.value : Fl → Rat
  | .fin q => q
  | _ => 0

/-- The calculation of `EvaluateMod` (core:515-536): `ValueError` becomes `EvaluationError`, also that of `SetFromValue`;
Decimals are taken as floats. -/
def computeMod (E : Env) (t : Ty) (l r : SVal) : Except Raise SVal :=
  match l, r with
  | .int32 a, .int32 b =>
    match (E.dbl a).fmod (E.dbl b) with
    | none => .error .evaluation
    | some x => caught (setInt32 x.toInt)
  | .int64 a, .int64 b =>
    match (E.dbl a).fmod (E.dbl b) with
    | none => .error .evaluation
    | some x => caught (setInt64 x.toInt)
  | .decimal a, .decimal b =>
    match (E.dbl a).fmod (E.dbl b) with
    | none => .error .evaluation
    | some x => caught (setDecimal E x.value)
  | .double a, .double b =>
    match a.fmod b with
    | none => .error .evaluation
    | some x => caught (setDouble x)
  | .single a, .single b =>
    match a.fmod b with
    | none => .error .evaluation
    | some x => caught (setSingle x)
  | _, _ => .ok (.null (some t))
where
  /-- The handler of `ValueError` (core:535-536). -/
  caught (x : Except Raise SVal) : Except Raise SVal :=
    match x with
    | .error .value => .error .evaluation
    | x => x

/-- `EvaluateMul`, `EvaluateDiv`, `EvaluateMod`, `EvaluateAdd` and `EvaluateSub` (core:471-566). -/
def arithmetic (E : Env) (op : Oper) (l r : Value) : Except Raise Value := do
  let (l, r, t) ← promoteOperands l r
  match t with
  | none => .ok (.simple (.null (some .int32)))
  | some t =>
    if t ∈ arithTypes then do
      let l ← l.cast E t
      let r ← r.cast E t
      let v ← match op with
        | .div => computeDiv E t l r
        | .mod => computeMod E t l r
        | _ => compute E op t l r
      .ok (.simple v)
    else .error .evaluation

/-- `EvaluateRelation` (core:580-602). -/
def relate (E : Env) (op : Oper) (l r : Value) : Except Raise Value := do
  let (l, r, t) ← promoteOperands l r
  match t with
  | none => .ok (.simple (.bool false))
  | some t =>
    if t ∈ arithTypes then do
      let l ← l.cast E t
      let r ← r.cast E t
      match cmpNum l r with
      | some o => .ok (.simple (.bool (relation op o)))
      | none => .ok (.simple (.bool false))
    else if t = .string ∨ t = .dateTime ∨ t = .guid then .ok (.simple (.bool (relation op (cmpRaw l r))))
    else .error .evaluation

/-- Python's `==` of the raw values of two numbers of the same type, or nulls. -/
def eqNum : SVal → SVal → Bool
  | .null _, .null _ => true
  | l, r => cmpNum l r = some .eq

/-- Python's `==` of the raw values of two values of type String, DateTime, Guid or Binary, or nulls. -/
def eqRaw : SVal → SVal → Bool
  | .binary a, .binary b => a = b
  | l, r => cmpRaw l r = .eq

/-- `EvaluateEq` (core:636-664). -/
def equal (E : Env) (W : World) (l r : Value) : Except Raise Bool :=
  match l, r with
  | .entity a, .entity b =>
    if (W a).set = (W b).set then
      match (W a).key, (W b).key with
      | some k, some m => .ok (k = m)
      | _, _ => .error .key
    else .ok false
  | l, r => do
    let (l, r, t) ← promoteOperands l r
    match t with
    | none => .ok true
    | some t =>
      if t ∈ arithTypes then do
        let l ← l.cast E t
        let r ← r.cast E t
        .ok (eqNum l r)
      else if t = .string ∨ t = .dateTime ∨ t = .guid ∨ t = .binary then .ok (eqRaw l r)
      else .error .evaluation

/-- `EvaluateAnd` and `EvaluateOr` (core:671-707): a null makes both false. -/
def logic (op : Oper) (l r : Value) : Except Raise Value := do
  let (l, r, t) ← promoteOperands l r
  match t with
  | none => .ok (.simple (.bool false))
  | some .boolean =>
    match l, r with
    | .bool a, .bool b => .ok (.simple (.bool (if op = .boolAnd then a && b else a || b)))
    | _, _ => .ok (.simple (.bool false))
  | _ => .error .evaluation

/-- The names of the types (csdl:457-473, 515-531), without the prefix and in lower case. -/
def tyNames : List (Str × Str × Ty) :=
  [("Binary".toList, "binary".toList, .binary), ("Boolean".toList, "boolean".toList, .boolean),
    ("Byte".toList, "byte".toList, .byte), ("DateTime".toList, "datetime".toList, .dateTime),
    ("DateTimeOffset".toList, "datetimeoffset".toList, .offset), ("Time".toList, "time".toList, .time),
    ("Decimal".toList, "decimal".toList, .decimal), ("Double".toList, "double".toList, .double),
    ("Single".toList, "single".toList, .single), ("Guid".toList, "guid".toList, .guid),
    ("Int16".toList, "int16".toList, .int16), ("Int32".toList, "int32".toList, .int32),
    ("Int64".toList, "int64".toList, .int64), ("String".toList, "string".toList, .string),
    ("SByte".toList, "sbyte".toList, .sbyte)]

/-- `unicode.strip`. -/
def strip (E : Env) (s : Str) : Str := ((s.dropWhile E.space).reverse.dropWhile E.space).reverse

/-- `SimpleType.DecodeValue` (pyslet/pyslet/xsdatatypes20041028.py:461-469) with the aliases (csdl:514-532). -/
def decodeType (E : Env) (name : Str) : Option Ty :=
  let n := strip E name
  (tyNames.find? fun p => n = p.1 || n = p.2.1 || n = "Edm.".toList ++ p.1 || n = "edm.".toList ++ p.2.1).map (·.2.2)

/-- The type name `rValue.value` where it is a string, which the parser makes sure of (core:1209-1230); the `strip` of
`DecodeValue` raises `AttributeError` otherwise, and so does an entity, having no `value`. -/
def typeName : Value → Except Raise Str
  | .simple (.string s) => .ok s
  | _ => .error .attribute

/-- `EvaluateCast` (core:436-469). -/
def castTo (E : Env) (W : World) (l : Option Value) (r : Value) : Except Raise Value :=
  match l with
  | some (.entity id) => do
    let n ← typeName r
    if (W id).typeName = n then .ok (.entity id) else .error .evaluation
  | some (.complex _) => .error .evaluation
  | some (.simple v) =>
    if v.isNull then do
      let n ← typeName r
      .ok (.simple (.null (decodeType E n)))
    else do
      let n ← typeName r
      match decodeType E n with
      | none => .error .evaluation
      | some t => do
        let t' ← promoteTypes (some t) v.ty
        if some t ≠ t' then .error .evaluation else (v.cast E t).map .simple
  | none => do
    let n ← typeName r
    .ok (.simple (.null (decodeType E n)))

/-- `EvaluateIsOf` (core:604-634). -/
def isOf (E : Env) (W : World) (l : Option Value) (r : Value) : Except Raise Value :=
  match l with
  | some (.entity id) => do
    let n ← typeName r
    .ok (.simple (.bool ((W id).typeName = n)))
  | some (.complex _) => .error .evaluation
  | some (.simple v) =>
    if v.isNull then .ok (.simple (.bool false))
    else do
      let n ← typeName r
      match decodeType E n with
      | none => .error .evaluation
      | some t => .ok (.simple (.bool (promoteTypes (some t) v.ty = .ok (some t))))
  | none => .ok (.simple (.bool false))

/-- `BinaryExpression.EvalMethod` without `member`, `cast` and `isof` (core:709-724). -/
def binary (E : Env) (W : World) (op : Oper) (l r : Value) : Except Raise Value :=
  match op with
  | .mul | .div | .mod | .add | .sub => arithmetic E op l r
  | .lt | .gt | .le | .ge => relate E op l r
  | .eq => (equal E W l r).map fun b => .simple (.bool b)
  | .ne => (equal E W l r).map fun b => .simple (.bool (!b))
  | .boolAnd | .boolOr => logic op l r
  | _ => .error .key

/-! ## Methods -/

/-- `PromoteParameter` (core:816-821). -/
def promoteParameter (E : Env) (t : Ty) : Value → Except Raise SVal
  | .simple v => if canCast v.ty t then v.cast E t else .error .evaluation
  | _ => .error .evaluation

/-- `CheckStrictParameter` (core:823-828). -/
def strictParameter (t : Ty) : Value → Except Raise SVal
  | .simple v => if v.ty = some t then .ok v else .error .evaluation
  | _ => .error .evaluation

/-- `unicode.find`: where the string is first found. -/
def find (needle : Str) : Str → Option Nat
  | [] => if needle = [] then some 0 else none
  | c :: t => if needle.isPrefixOf (c :: t) then some 0 else (find needle t).map (· + 1)

/-- `unicode.replace` of a string that is not empty, given as its first character and the rest. -/
def replaceLoop (a : Char) (old new : Str) : Str → Str
  | [] => []
  | c :: t =>
    if (a :: old).isPrefixOf (c :: t) then new ++ replaceLoop a old new (t.drop old.length)
    else c :: replaceLoop a old new t
termination_by s => s.length
decreasing_by all_goals (simp only [List.length_drop, List.length_cons]; omega)

/-- `unicode.replace`: the empty string is found before every character and at the end. -/
def replace (s old new : Str) : Str :=
  match old with
  | [] => new ++ s.flatMap fun c => c :: new
  | a :: old => replaceLoop a old new s

/-- A bound of a slice. -/
def bound (len : Nat) (i : Int) : Nat := if i < 0 then (i + len).toNat else min i.toNat len

/-- `s[i:j]`. -/
def slice (s : Str) (i j : Int) : Str := (s.drop (bound s.length i)).take (bound s.length j - bound s.length i)

/-- `Decimal.to_integral` with `ROUND_HALF_UP`: halves away from zero. -/
def roundHalfUp (q : Rat) : Int := if q < 0 then -((-q + 1 / 2).floor) else (q + 1 / 2).floor

/-- `Decimal.to_integral` with `ROUND_HALF_EVEN`. -/
def roundHalfEven (q : Rat) : Int :=
  if q - q.floor < 1 / 2 then q.floor
  else if q - q.floor > 1 / 2 then q.floor + 1
  else if q.floor % 2 = 0 then q.floor else q.floor + 1

/-- `EvaluateRound`, `EvaluateFloor` and `EvaluateCeiling` for a value that can be promoted to Decimal. -/
def roundDecimal (m : Meth) (q : Rat) : Rat :=
  match m with
  | .round => roundHalfUp q
  | .floor => q.floor
  | _ => q.ceil

/-- The same for a float (core:1025-1030, 1043-1047, 1059-1063): infinite values and `nan` stay what they are, except that
`math.floor` and `math.ceil` return them and `float(Decimal(x).to_integral())` does. -/
def roundFloat (E : Env) (m : Meth) : Fl → Fl
  | .fin q =>
    match m with
    | .round => E.dbl (roundHalfEven q)
    | .floor => E.dbl q.floor
    | _ => E.dbl q.ceil
  | x => x

/-- `EvaluateRound`, `EvaluateFloor` and `EvaluateCeiling` (core:1015-1066): what cannot be promoted to Decimal is tried as
Double. -/
def rounded (E : Env) (m : Meth) (x : Value) : Except Raise Value :=
  match promoteParameter E .decimal x with
  | .ok (.decimal q) => (setDecimal E (roundDecimal m q)).map .simple
  | .ok _ => .ok (.simple (.null (some .decimal)))
  | .error .evaluation => do
    let v ← promoteParameter E .double x
    match v with
    | .double f => (setDouble (roundFloat E m f)).map .simple
    | _ => .ok (.simple (.null (some .double)))
  | .error e => .error e

/-- Methods of two strings (core:830-850, 864-873, 923-943). -/
def twoStrings (l r : SVal) (null : Ty) (f : Str → Str → Except Raise SVal) : Except Raise Value :=
  match l, r with
  | .string a, .string b => (f a b).map .simple
  | _, _ => .ok (.simple (.null (some null)))

/-- Methods of one string (core:875-903, 945-953). -/
def oneString (x : SVal) (null : Ty) (f : Str → Except Raise SVal) : Except Raise Value :=
  match x with
  | .string a => (f a).map .simple
  | _ => .ok (.simple (.null (some null)))

/-- `EvaluateSubstring` after its arguments have been checked (core:905-921): a null length counts as no length. -/
def substring (target start : SVal) (length : Option SVal) : Value :=
  match target, start with
  | .string s, .int32 i =>
    match length with
    | some (.int32 n) => .simple (.string (slice s i (i + n)))
    | _ => .simple (.string (slice s i s.length))
  | _, _ => .simple (.null (some .string))

/-- The methods for dates (core:955-1013): the seconds are cut to whole ones. -/
def datePart (m : Meth) (d : Cal.Date) (hour minute second : Nat) : Int :=
  match m with
  | .year => d.century * 100 + d.year
  | .month => d.month
  | .day => d.day
  | .hour => hour
  | .minute => minute
  | _ => second

/-- `CallExpression.EvalMethod` (core:830-1090). -/
def method (E : Env) (m : Meth) (args : List Value) : Except Raise Value :=
  match m, args with
  | .endswith, [x, y] => do
    let x ← promoteParameter E .string x
    let y ← promoteParameter E .string y
    twoStrings x y .boolean fun a b => .ok (.bool (b.isSuffixOf a))
  | .startswith, [x, y] => do
    let x ← promoteParameter E .string x
    let y ← promoteParameter E .string y
    twoStrings x y .boolean fun a b => .ok (.bool (b.isPrefixOf a))
  | .substringof, [x, y] => do
    let x ← promoteParameter E .string x
    let y ← promoteParameter E .string y
    twoStrings x y .boolean fun a b => .ok (.bool (find a b).isSome)
  | .indexof, [x, y] => do
    let x ← promoteParameter E .string x
    let y ← promoteParameter E .string y
    twoStrings x y .int32 fun a b => setInt32 (match find b a with | some i => (i : Int) | none => -1)
  | .concat, [x, y] => do
    let x ← strictParameter .string x
    let y ← strictParameter .string y
    twoStrings x y .string fun a b => .ok (.string (a ++ b))
  | .replace, [x, y, z] => do
    let x ← promoteParameter E .string x
    let y ← promoteParameter E .string y
    let z ← promoteParameter E .string z
    match x, y, z with
    | .string a, .string b, .string c => .ok (.simple (.string (replace a b c)))
    | _, _, _ => .ok (.simple (.null (some .string)))
  | .tolower, [x] => do oneString (← promoteParameter E .string x) .string fun a => .ok (.string (E.lower a))
  | .toupper, [x] => do oneString (← promoteParameter E .string x) .string fun a => .ok (.string (E.upper a))
  | .trim, [x] => do oneString (← promoteParameter E .string x) .string fun a => .ok (.string (strip E a))
  | .length, [x] => do oneString (← strictParameter .string x) .int32 fun a => setInt32 a.length
  | .substring, [x, y] => do
    let x ← strictParameter .string x
    let y ← strictParameter .int32 y
    .ok (substring x y none)
  | .substring, [x, y, z] => do
    let x ← strictParameter .string x
    let y ← strictParameter .int32 y
    let z ← strictParameter .int32 z
    .ok (substring x y (some z))
  | .year, [x] | .month, [x] | .day, [x] | .hour, [x] | .minute, [x] | .second, [x] => do
    match ← strictParameter .dateTime x with
    | .dateTime d h mi s _ => (setInt32 (datePart m d h mi s)).map .simple
    | _ => .ok (.simple (.null (some .int32)))
  | .round, [x] | .floor, [x] | .ceiling, [x] => rounded E m x
  | _, _ => .error .evaluation

/-! ## Expressions -/

/-- The exact value of `±m·10^e`. -/
def decimalValue (neg : Bool) (m : Nat) (e : Int) : Rat :=
  let a : Rat := if e ≥ 0 then (m : Rat) * 10 ^ e.toNat else (m : Rat) / 10 ^ (-e).toNat
  if neg then -a else a

/-- The float of the text of a number. -/
def ofFlt (E : Env) : Flt → Fl
  | .nan => .nan
  | .inf s => .inf s
  | .fin neg m e => E.dbl (decimalValue neg m e)

/-- The value of a literal (core:762-764). -/
def ofLit (E : Env) : Lit → SVal
  | .null => .null none
  | .bool b => .bool b
  | .int32 n => .int32 n
  | .int64 n => .int64 n
  | .decimal neg c scale => .decimal (decimalValue neg c (-scale))
  | .double x => .double (ofFlt E x)
  | .single x => .single (ofFlt E x)
  | .string s => .string s
  | .binary b => .binary b
  | .guid n => .guid n
  | .dateTime d h m s f => .dateTime d h m s f
  | .time h m s f => .time h m s f
  | .offset t => .offset t

mutual
/-- `Evaluate` (core:330-332, 410-428, 762-764, 776-795, 812-814) in a context, which is `None`, an entity, or what stands
left of a `/`. -/
def eval (E : Env) (W : World) : Option Value → Expr → Except Raise Value
  | _, .absent => .error .attribute
  | _, .lit v => .ok (.simple (ofLit E v))
  | ctx, .prop name => property W ctx name
  | ctx, .unary op (x :: _) => do
    let v ← eval E W ctx x
    match op with
    | .negate => negate E v
    | .boolNot => boolNot v
    | _ => .error .key
  | _, .unary _ [] => .error .index
  | _, .binary _ [] => .error .index
  | ctx, .binary op [x] => do
    let l ← eval E W ctx x
    match op with
    | .cast => castTo E W ctx l
    | .isof => isOf E W ctx l
    | _ => .error .index
  | ctx, .binary op (x :: y :: _) => do
    let l ← eval E W ctx x
    match op with
    | .member => eval E W (some l) y
    | .cast => do
      let r ← eval E W ctx y
      castTo E W (some l) r
    | .isof => do
      let r ← eval E W ctx y
      isOf E W (some l) r
    | op => do
      let r ← eval E W ctx y
      binary E W op l r
  | ctx, .call m args => do
    let vs ← evalList E W ctx args
    method E m vs

/-- The operands of a call (core:812-814). -/
def evalList (E : Env) (W : World) : Option Value → List Expr → Except Raise (List Value)
  | _, [] => .ok []
  | ctx, x :: rest => do
    let v ← eval E W ctx x
    let vs ← evalList E W ctx rest
    .ok (v :: vs)
end

end Verif.OData.Eval
