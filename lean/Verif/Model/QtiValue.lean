import Verif.Model.XsdText
import Verif.Model.Names
import Verif.Model.Dict
import Verif.Model.Shapes

/-!
# Values of QTI variables

`BaseType`, `Cardinality`, `Value` and its subclasses, mappings and lookup tables
(/repo/pyslet/pyslet/qtiv2/variables.py:28-1580), and the session state (variables.py:1614-1931).
-/

namespace Verif.Qti

open Verif

/-- `BaseType` (variables.py:28-76). -/
inductive BaseType where
  | boolean | directedPair | duration | file | float | identifier | integer | pair | point | string | uri
deriving DecidableEq, Repr

/-- `Cardinality` (variables.py:114-145). -/
inductive Card where
  | multiple | ordered | record | single
deriving DecidableEq, Repr

/-- The Python objects kept in the `value` of a single value (variables.py:214-262): floats are
rationals; URIs are kept as their text (simplification). -/
inductive Atom where
  | bool (b : Bool)
  | int (i : Int)
  | num (q : Rat)
  | str (s : Str)
  | pair (a b : Str)
  | point (x y : Int)
deriving DecidableEq, Repr

/-- A `Value` (variables.py:204-978).  `unknown` is a plain `Value()`, `container` a plain
`Container(baseType)`; both are NULL and have no cardinality.  An empty list stands for a NULL
container.  A multiple container is kept as the list of its members in any order, standing for the
code's dictionary from members to how often they occur (variables.py:834-877); only the choice made by
`random` depends on the order. -/
inductive Value where
  | unknown
  | container (bt : Option BaseType)
  | single (bt : Option BaseType) (v : Option Atom)
  | ordered (bt : Option BaseType) (vs : List Atom)
  | multiple (bt : Option BaseType) (vs : List Atom)
  | record (fields : List (Str × BaseType × Atom))
deriving DecidableEq, Repr

/-- `Value.Cardinality()` (variables.py:302, 377, 793, 837, 886). -/
def Value.card : Value → Option Card
  | .unknown => none
  | .container _ => none
  | .single _ _ => some .single
  | .ordered _ _ => some .ordered
  | .multiple _ _ => some .multiple
  | .record _ => some .record

/-- `value.baseType`. -/
def Value.bt : Value → Option BaseType
  | .unknown => none
  | .container bt => bt
  | .single bt _ => bt
  | .ordered bt _ => bt
  | .multiple bt _ => bt
  | .record _ => none

/-- `not value` (variables.py:313-326). -/
def Value.isNull : Value → Bool
  | .unknown => true
  | .container _ => true
  | .single _ v => v.isNone
  | .ordered _ vs => vs.isEmpty
  | .multiple _ vs => vs.isEmpty
  | .record fs => fs.isEmpty

/-- `CheckBaseTypes` (variables.py:79-93), from the base type found so far. -/
def checkBaseTypesFrom (b : Option BaseType) : List (Option BaseType) → Except Err (Option BaseType)
  | [] => .ok b
  | none :: bs => checkBaseTypesFrom b bs
  | some c :: bs =>
    match b with
    | none => checkBaseTypesFrom (some c) bs
    | some d => if c = d then checkBaseTypesFrom (some d) bs else .error .processingError

/-- `CheckBaseTypes` (variables.py:79-93). -/
def checkBaseTypes (bs : List (Option BaseType)) : Except Err (Option BaseType) := checkBaseTypesFrom none bs

/-- `CheckNumericalTypes` (variables.py:96-111), from the base type found so far. -/
def checkNumericalTypesFrom (b : Option BaseType) : List (Option BaseType) → Except Err (Option BaseType)
  | [] => .ok b
  | none :: bs => checkNumericalTypesFrom b bs
  | some c :: bs =>
    if c = .float ∨ c = .integer then
      match b with
      | none => checkNumericalTypesFrom (some c) bs
      | some d => checkNumericalTypesFrom (some (if c = d then d else .float)) bs
    else .error .processingError

/-- `CheckNumericalTypes` (variables.py:96-111). -/
def checkNumericalTypes (bs : List (Option BaseType)) : Except Err (Option BaseType) :=
  checkNumericalTypesFrom none bs

/-- `CheckCardinalities` (variables.py:148-163), from the cardinality found so far. -/
def checkCardinalitiesFrom (b : Option Card) : List (Option Card) → Except Err (Option Card)
  | [] => .ok b
  | none :: bs => checkCardinalitiesFrom b bs
  | some c :: bs =>
    match b with
    | none => checkCardinalitiesFrom (some c) bs
    | some d => if c = d then checkCardinalitiesFrom (some d) bs else .error .processingError

/-- `CheckCardinalities` (variables.py:148-163). -/
def checkCardinalities (bs : List (Option Card)) : Except Err (Option Card) := checkCardinalitiesFrom none bs

/-- `BooleanValue(b)` (variables.py:411-444); `none` is NULL. -/
def boolV (b : Option Bool) : Value := .single (some .boolean) (b.map .bool)

/-- `FloatValue(q)` (variables.py:529-559); `none` is NULL. -/
def floatV (q : Option Rat) : Value := .single (some .float) (q.map .num)

/-- The range check of integers (variables.py:633). -/
def int32 (i : Int) : Bool := decide (-2147483648 ≤ i) && decide (i ≤ 2147483647)

/-- `IntegerValue(i)` (variables.py:608-640); `none` is NULL. -/
def intV : Option Int → Except Err Value
  | none => .ok (.single (some .integer) none)
  | some i => if int32 i then .ok (.single (some .integer) (some (.int i))) else .error .valueError

/-- `string.split(s)`: the maximal runs of non-space characters. -/
def words : Str → Str → List Str
  | [], [] => []
  | w, [] => [w.reverse]
  | w, c :: cs =>
    if Names.isSpace c then (if w = [] then words [] cs else w.reverse :: words [] cs)
    else words (c :: w) cs

/-- `PairValue` keeps its identifiers in order (variables.py:655-656). -/
def sortPair (a b : Str) : Atom := if b < a then .pair b a else .pair a b

/-- `SetValue` of a single value of known base type from a string (variables.py:426, 462, 544, 587, 623,
652, 675, 709, 735).  The constructor of `FileValue` does not accept a value (variables.py:392, 487). -/
def fromText (bt : BaseType) (s : Str) : Except Err (Option Atom) :=
  match bt with
  | .boolean => Xsd.decodeBoolean s >>= fun b => .ok (some (.bool b))
  | .directedPair =>
    match words [] s with
    | [a, b] =>
      if Names.isValidNCName a ∧ Names.isValidNCName b then .ok (some (.pair a b)) else .error .valueError
    | _ => .error .valueError
  | .pair =>
    match words [] s with
    | [a, b] =>
      if Names.isValidNCName a ∧ Names.isValidNCName b then .ok (some (sortPair a b)) else .error .valueError
    | _ => .error .valueError
  | .duration => Xsd.decodeDouble s >>= fun q => .ok (some (.num q))
  | .float => Xsd.decodeDouble s >>= fun q => .ok (some (.num q))
  | .file => .error .typeError
  | .identifier => if Names.isValidNCName s then .ok (some (.str s)) else .error .valueError
  | .integer => Xsd.decodeInteger s >>= fun i => .ok (some (.int i))
  | .point =>
    (words [] s).mapM Xsd.decodeInteger >>= fun l =>
    match l with
    | [x, y] => if int32 x ∧ int32 y then .ok (some (.point x y)) else .error .valueError
    | _ => .error .valueError
  | .string => .ok (if s = [] then none else some (.str s))
  | .uri => .ok (some (.str s))

/-- `SetValue` of a single value of known base type from a Python object that is the value of another
`Value` (same places).  -/
def fromAtom (bt : BaseType) (a : Atom) : Except Err (Option Atom) :=
  match bt, a with
  | .boolean, .bool b => .ok (some (.bool b))
  | .boolean, .int i => .ok (some (.bool (i ≠ 0)))
  | .directedPair, .pair x y => .ok (some (.pair x y))
  | .pair, .pair x y =>
    if Names.isValidNCName x ∧ Names.isValidNCName y then .ok (some (sortPair x y)) else .error .valueError
  | .duration, .num q => .ok (some (.num q))
  | .float, .num q => .ok (some (.num q))
  | .file, _ => .error .typeError
  | .integer, .int i => if int32 i then .ok (some (.int i)) else .error .valueError
  | .point, .point x y => if int32 x ∧ int32 y then .ok (some (.point x y)) else .error .valueError
  | bt, .str s => fromText bt s
  | _, _ => .error .valueError

/-- `SingleValue.NewValue(baseType,text)` (variables.py:380-408); without a base type the text is
ignored. -/
def newSingle (bt : Option BaseType) (text : Str) : Except Err Value :=
  match bt with
  | none => .ok (.single none none)
  | some b => fromText b text >>= fun v => .ok (.single (some b) v)

/-- `SingleValue.NewValue(baseType)`: NULL; impossible for files (variables.py:392, 487). -/
def newNull (bt : Option BaseType) : Except Err Value :=
  if bt = some .file then .error .typeError else .ok (.single bt none)

/-- The loop of `OrderedContainer.SetValue` and `MultipleContainer.SetValue` over the values of other
`Value`s (variables.py:814-822, 857-865). -/
def containerOf (bt : Option BaseType) : List Atom → Except Err (List Atom)
  | [] => .ok []
  | a :: as =>
    match bt with
    | none => .error .valueError
    | some b => do
      let v ← fromAtom b a
      let vs ← containerOf bt as
      return v.toList ++ vs

/-- Distinct members, in order of first occurrence: the keys of the dictionary of a multiple
container. -/
def distinct : List Atom → List Atom
  | [] => []
  | a :: as => a :: (distinct as).filter (fun b => b ≠ a)

/-- `Mapping` (variables.py:1084-1173) after `ContentChanged`: `entries` in document order, the keys
already converted to values. -/
structure Mapping where
  lower : Option Rat
  upper : Option Rat
  default : Rat
  entries : List (Atom × Rat)

/-- `self.map.get(v,self.defaultValue)` (variables.py:1130-1133, 1162): `self.map[key]=...` in document
order, so the last entry for a key counts. -/
def Mapping.get (m : Mapping) (v : Atom) : Rat :=
  match m.entries.reverse.find? (fun e => e.1 = v) with
  | some e => e.2
  | none => m.default

/-- The final clamp of a mapping (variables.py:1168-1171, 1332-1335). -/
def clamp (lower upper : Option Rat) (r : Rat) : Rat :=
  match lower with
  | some l =>
    if r < l then l else
      match upper with
      | some u => if r > u then u else r
      | none => r
  | none =>
    match upper with
    | some u => if r > u then u else r
    | none => r

/-- The source values of `MapValue` (variables.py:1138-1149, 1294-1305): `none` for records. -/
def mapSources (value : Value) : Except Err (List Atom) :=
  if value.isNull then .ok []
  else match value with
    | .single _ (some a) => .ok [a]
    | .ordered _ vs => .ok vs
    | .multiple _ vs => .ok (distinct vs)
    | _ => .error .valueError

/-- The loop of `Mapping.MapValue` (variables.py:1150-1162). -/
def Mapping.loop (m : Mapping) (beenThere : List Atom) (result : Rat) : List Atom → Rat
  | [] => result
  | v :: vs =>
    if v ∈ beenThere then m.loop beenThere result vs
    else m.loop (v :: beenThere) (result + m.get v) vs

/-- `Mapping.MapValue` (variables.py:1135-1173). -/
def Mapping.mapValue (m : Mapping) (value : Value) : Except Err Value := do
  let src ← mapSources value
  let result := m.loop [] 0 src
  if value.isNull ∨ value.bt = none then return floatV (some 0)
  else return floatV (some (clamp m.lower m.upper result))

/-- `AreaMapEntry` (variables.py:1340-1356). -/
structure AreaEntry where
  shape : Shapes.Shape
  coords : List Shapes.Len
  value : Rat

/-- `AreaMapping` (variables.py:1251-1337). -/
structure AreaMapping where
  lower : Option Rat
  upper : Option Rat
  default : Rat
  entries : List AreaEntry

/-- The first area hit by a point (variables.py:1316-1323). -/
def hitArea (x y : Int) (width height : Option Int) : List AreaEntry → Except Err (Option Nat)
  | [] => .ok none
  | e :: es => do
    if ← Shapes.testPoint e.shape e.coords x y width height then return some 0
    else return (← hitArea x y width height es).map (· + 1)

/-- The loop of `AreaMapping.MapValue` (variables.py:1314-1326). -/
def AreaMapping.loop (m : AreaMapping) (width height : Option Int) (beenThere : List Nat) (result : Rat) :
    List Atom → Except Err Rat
  | [] => .ok result
  | .point x y :: vs => do
    match ← hitArea x y width height m.entries with
    | none => m.loop width height beenThere (result + m.default) vs
    | some i =>
      if i ∈ beenThere then m.loop width height beenThere result vs
      else m.loop width height (i :: beenThere) (result + ((m.entries[i]?).map (·.value)).getD 0) vs
  | _ :: _ => .error .typeError

/-- `AreaMapping.MapValue` (variables.py:1282-1337). -/
def AreaMapping.mapValue (m : AreaMapping) (width height : Option Int) (value : Value) : Except Err Value := do
  let src ← mapSources value
  if value.bt ≠ none ∧ value.bt ≠ some .point then throw .valueError
  let result ← m.loop width height [] 0 src
  if value.isNull ∨ value.bt = none then return floatV (some 0)
  else return floatV (some (clamp m.lower m.upper result))

/-- `MatchTable` (variables.py:1437-1480) after `ContentChanged`: target values already converted. -/
structure MatchTable where
  bt : BaseType
  default : Option Atom
  entries : List (Int × Option Atom)

/-- `dstValue.SetValue(v)` with a Python object or `None`. -/
def setSingle (bt : BaseType) (v : Option Atom) : Except Err Value :=
  match v with
  | none => .ok (.single (some bt) none)
  | some a => fromAtom bt a >>= fun w => .ok (.single (some bt) w)

/-- `MatchTable.Lookup` (variables.py:1464-1480): `self.map[source]=target` in document order, so the
last entry for a source value counts. -/
def MatchTable.lookup (t : MatchTable) (value : Value) : Except Err Value :=
  if value.isNull then newNull (some t.bt)
  else match value with
    | .single (some .integer) (some (.int i)) =>
      match t.entries.reverse.find? (fun e => e.1 = i) with
      | some e => setSingle t.bt e.2
      | none => setSingle t.bt t.default
    | _ => .error .valueError

/-- `InterpolationTable` (variables.py:1507-1558) after `ContentChanged`: source value, whether the
boundary counts, target value. -/
structure InterpolationTable where
  bt : BaseType
  default : Option Atom
  entries : List (Rat × Bool × Option Atom)

/-- The number in a numeric single value. -/
def Value.rat? : Value → Option Rat
  | .single _ (some (.int i)) => some i
  | .single _ (some (.num q)) => some q
  | _ => none

/-- The integer in an integer single value. -/
def Value.int? : Value → Option Int
  | .single _ (some (.int i)) => some i
  | _ => none

/-- The truth value in a boolean single value. -/
def Value.bool? : Value → Option Bool
  | .single _ (some (.bool b)) => some b
  | _ => none

/-- The loop of `InterpolationTable.Lookup` (variables.py:1553-1557). -/
def interpolate (src : Rat) (default : Option Atom) : List (Rat × Bool × Option Atom) → Option Atom
  | [] => default
  | (test, lte, target) :: es =>
    if test < src ∨ (lte = true ∧ test = src) then target else interpolate src default es

/-- `InterpolationTable.Lookup` (variables.py:1535-1558). -/
def InterpolationTable.lookup (t : InterpolationTable) (value : Value) : Except Err Value :=
  if value.isNull then newNull (some t.bt)
  else match value with
    | .single (some bt) (some a) =>
      if bt = .integer ∨ bt = .float ∨ bt = .duration then
        match (Value.single (some bt) (some a)).rat? with
        | some q => setSingle t.bt (interpolate q t.default t.entries)
        | none => .error .valueError
      else .error .valueError
    | _ => .error .valueError

/-- The kind of a variable declaration (variables.py:1195, 1359, 1593). -/
inductive Kind where
  | response | outcome | template
deriving DecidableEq, Repr

/-- A variable declaration (variables.py:981-1048, 1195-1242, 1359-1404, 1593-1611); default and correct
values live in the session state. -/
structure Decl where
  kind : Kind
  card : Card
  bt : Option BaseType
  mapping : Option Mapping := none
  areaMapping : Option AreaMapping := none

/-- `ItemSessionState` (variables.py:1695-1730): the map from names to values, and the declarations of
the item. -/
structure State where
  vars : List (Str × Value)
  decls : List (Str × Decl)

/-- `state[name]` (variables.py:1924-1925). -/
def State.get (st : State) (name : Str) : Except Err Value :=
  match Dict.get st.vars name with
  | some v => .ok v
  | none => .error .keyError

/-- `GetDeclaration` (variables.py:1885-1889): `none` for built-in variables. -/
def State.getDecl (st : State) (name : Str) : Except Err (Option Decl) :=
  if Dict.has st.vars name then .ok (Dict.get st.decls name) else .error .keyError

/-- `IsOutcome` (variables.py:1901-1909). -/
def State.isOutcome (st : State) (name : Str) : Except Err Bool := do
  match ← st.getDecl name with
  | none => return name = "completionStatus".toList
  | some d => return d.kind = .outcome

/-- `v.SetValue(x)` where `v` is an existing variable and `x` the `value` of a `Value` that passed the
checks of `SessionState.__setitem__` (variables.py:1683).  Iterating over the dictionary of a multiple
container yields each member once (variables.py:857). -/
def copyInto (v value : Value) : Except Err Value :=
  if value.isNull then
    match v with
    | .unknown => .ok .unknown
    | .container bt => .ok (.container bt)
    | .single bt _ => .ok (.single bt none)
    | .ordered bt _ => .ok (.ordered bt [])
    | .multiple bt _ => .ok (.multiple bt [])
    | .record _ => .ok (.record [])
  else
    match v, value with
    | .single (some bt) _, .single _ (some a) => fromAtom bt a >>= fun w => .ok (.single (some bt) w)
    | .ordered bt _, .ordered _ vs => containerOf bt vs >>= fun ws => .ok (.ordered bt ws)
    | .multiple bt _, .multiple _ vs => containerOf bt (distinct vs) >>= fun ws => .ok (.multiple bt ws)
    | .record _, .record fs => .ok (.record fs)
    | _, _ => .error .valueError

/-- `SessionState.__setitem__` (variables.py:1656-1683). -/
def State.set (st : State) (name : Str) (value : Value) : Except Err State := do
  let v ← st.get name
  if value.card ≠ none ∧ value.card ≠ v.card then throw .valueError
  if value.bt ≠ none ∧ value.bt ≠ v.bt then throw .valueError
  let w ← copyInto v value
  return { st with vars := Dict.set st.vars name w }

end Verif.Qti
