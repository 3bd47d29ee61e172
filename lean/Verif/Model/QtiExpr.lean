import Verif.Model.QtiValue

/-!
# Evaluation of QTI expressions

`Expression` and its subclasses (/repo/pyslet/pyslet/qtiv2/expressions.py:12-1741).

Not modelled (evaluation reports `unmodelled`): `patternMatch` (expressions.py:966-1001), `equalRounded`
(1138-1183) and `power` (1557-1587).  Random choices are part of the expression: every node that draws a
random number carries the number drawn, so a theorem about every expression is a theorem about every
outcome of the generator.
-/

namespace Verif.Qti

open Verif

/-- `ToleranceMode` (expressions.py:1004-1032). -/
inductive ToleranceMode where
  | absolute | exact | relative
deriving DecidableEq, Repr

/-- Expressions without sub-expressions (expressions.py:81-314). -/
inductive Leaf where
  /-- `BaseValue` -/
  | baseValue (bt : BaseType) (text : Str)
  /-- `Variable` -/
  | variable (identifier : Str)
  /-- `Default` -/
  | default (identifier : Str)
  /-- `Correct` -/
  | correct (identifier : Str)
  /-- `MapResponse` -/
  | mapResponse (identifier : Str)
  /-- `MapResponsePoint` -/
  | mapResponsePoint (identifier : Str)
  /-- `Null` -/
  | null
  /-- `RandomInteger`; a missing attribute is `none` -/
  | randomInteger (min max step : Option Str) (draw : Nat)
  /-- `RandomFloat`; `draw` is the result of `random.random()` -/
  | randomFloat (min max : Option Str) (draw : Rat)

/-- Operators (expressions.py:347-1741). -/
inductive Op where
  | multiple | ordered | containerSize | isNull
  | index (n : Option Int)
  | fieldValue (identifier : Str)
  | random (draw : Nat)
  | member | delete | contains
  | substring (caseSensitive : Bool)
  | not | and | or
  | anyN (min max : Option Str)
  | match
  | stringMatch (caseSensitive substring : Bool)
  | patternMatch (pattern : Str)
  | equal (mode : ToleranceMode) (tolerance : List Str) (includeLower includeUpper : Bool)
  | equalRounded
  | inside (shape : Shapes.Shape) (coords : List Shapes.Len)
  | lt | gt | lte | gte | durationLT | durationGTE
  | sum | product | subtract | divide | power | integerDivide | integerModulus
  | truncate | round | integerToFloat
  | custom

/-- Expressions.  All the operators evaluate their sub-expressions in order before anything else that
can fail, except that `anyN` reads its attributes first. -/
inductive Expr where
  | leaf (l : Leaf)
  | node (op : Op) (args : List Expr)

/-- `core.GetTemplateRef` (core.py:364-372): the function `xsi.IsValidNCName` it calls does not
exist (xsdatatypes20041028.py imports only `IsValidName`), and a missing attribute has no method
`startswith`. -/
def checkTemplateRef : Option Str → Except Err Str
  | none => .error .attributeError
  | some value =>
    if value.head? = some '{' ∧ value.getLast? = some '}' then .error .attributeError else .ok value

/-- `IntegerOrTemplateRef` (expressions.py:19-35). -/
def integerAttr (value : Option Str) : Except Err Int := checkTemplateRef value >>= Xsd.decodeInteger

/-- `FloatOrTemplateRef` (expressions.py:37-53). -/
def floatAttr (value : Option Str) : Except Err Rat := checkTemplateRef value >>= Xsd.decodeDouble

/-- A `KeyError` is turned into a `ProcessingError` (expressions.py:129-132 and others). -/
def declared {α} (r : Except Err α) : Except Err α :=
  match r with
  | .error .keyError => .error .processingError
  | r => r

/-- The common part of `Correct`, `MapResponse` and `MapResponsePoint` (expressions.py:174-183,
203-214, 233-247): the declaration must be that of a response. -/
def responseDecl (st : State) (identifier : Str) : Except Err Decl := do
  match ← st.getDecl identifier with
  | some d => if d.kind = .response then return d else throw .processingError
  | none => throw .processingError

/-- `random.randint(0,k)`. -/
def randint (k : Int) (draw : Nat) : Except Err Int :=
  if k < 0 then .error .valueError else .ok ((draw % (k.toNat + 1) : Nat) : Int)

/-- `Evaluate` of the expressions without sub-expressions. -/
def evalLeaf (st : State) : Leaf → Except Err Value
  -- expressions.py:105-106
  | .baseValue bt text => newSingle (some bt) text
  -- expressions.py:128-132
  | .variable i => declared (st.get i)
  -- expressions.py:149-154
  | .default i => declared (st.getDecl i >>= fun _ => st.get (i ++ ".DEFAULT".toList))
  -- expressions.py:173-183
  | .correct i => declared (responseDecl st i >>= fun _ => st.get (i ++ ".CORRECT".toList))
  -- expressions.py:202-214
  | .mapResponse i => declared (responseDecl st i >>= fun d =>
      match d.mapping with
      | none => .error .processingError
      | some m => st.get i >>= m.mapValue)
  -- expressions.py:232-247; the stage is always taken to be 100 by 100 (variables.py:1228-1242)
  | .mapResponsePoint i => declared (responseDecl st i >>= fun d =>
      if d.bt ≠ some .point then .error .processingError
      else match d.areaMapping with
        | none => .error .processingError
        | some m => st.get i >>= m.mapValue (some 100) (some 100))
  -- expressions.py:259-260
  | .null => .ok .unknown
  -- expressions.py:284-288; a zero step is a `ZeroDivisionError`, reported as `unmodelled`
  | .randomInteger min max step draw => do
    let min ← integerAttr min
    let max ← integerAttr max
    let step ← integerAttr step
    if step = 0 then throw .unmodelled
    let r ← randint (Int.fdiv (max - min) step) draw
    intV (some (min + step * r))
  -- expressions.py:309-314
  | .randomFloat min max draw => do
    let min ← floatAttr min
    let max ← floatAttr max
    return floatV (some (min + draw * (max - min)))

/-- `len(values)!=2` is a `ProcessingError`. -/
def two : List Value → Except Err (Value × Value)
  | [a, b] => .ok (a, b)
  | _ => .error .processingError

/-- The sub-expression of a unary operator; `None.Evaluate` if there is none.  (More than one cannot be
built.) -/
def one : List Value → Except Err Value
  | [a] => .ok a
  | [] => .error .attributeError
  | _ => .error .unmodelled

/-- The loop of `Multiple.Evaluate` and `Ordered.Evaluate` (expressions.py:363-381, 404-420); `inner` is
the container cardinality allowed among the operands. -/
def gather (inner : Card) (bt : Option BaseType) : List Value → Except Err (Option BaseType × List Atom)
  | [] => .ok (bt, [])
  | v :: vs =>
    match v.bt with
    | none => gather inner bt vs
    | some c =>
      if bt ≠ none ∧ bt ≠ some c then .error .processingError
      else if v.isNull then gather inner (some c) vs
      else match v with
        | .single _ (some a) => gather inner (some c) vs >>= fun r => .ok (r.1, a :: r.2)
        | .multiple _ as =>
          if inner = .multiple then gather inner (some c) vs >>= fun r => .ok (r.1, as ++ r.2)
          else .error .processingError
        | .ordered _ as =>
          if inner = .ordered then gather inner (some c) vs >>= fun r => .ok (r.1, as ++ r.2)
          else .error .processingError
        | _ => .error .processingError

/-- All operands must be single values of the given base type (e.g. expressions.py:800-801). -/
def allSingle (bt : BaseType) (vs : List Value) : Except Err Unit := do
  let _ ← checkCardinalities (vs.map Value.card ++ [some .single])
  let _ ← checkBaseTypes (vs.map Value.bt ++ [some bt])

/-- The loop of `And.Evaluate` (expressions.py:802-808). -/
def andLoop (result : Option Bool) : List (Option Bool) → Option Bool
  | [] => result
  | some false :: _ => some false
  | none :: vs => andLoop none vs
  | some true :: vs => andLoop result vs

/-- The loop of `Or.Evaluate` (expressions.py:830-836). -/
def orLoop (result : Option Bool) : List (Option Bool) → Option Bool
  | [] => result
  | some true :: _ => some true
  | none :: vs => orLoop none vs
  | some false :: vs => orLoop result vs

/-- The decision of `AnyN.Evaluate` (expressions.py:871-893). -/
def anyNResult (min max : Int) (vs : List (Option Bool)) : Option Bool :=
  let nTrue : Int := vs.count (some true)
  let nNull : Int := vs.count none
  if nTrue ≥ min then
    if nTrue > max then some false
    else if nTrue + nNull > max then none
    else some true
  else if nTrue + nNull ≥ min then none
  else some false

/-- Equality of the dictionaries of two records: same size, and every field of the first is a field of
the second with an equal value; comparing values of different base types is a `ProcessingError`.  (The
order in which fields are compared, which decides between `False` and an error, is that of the model's
list.) -/
def recordEq (fs gs : List (Str × BaseType × Atom)) : Except Err Bool :=
  if fs.length ≠ gs.length then .ok false
  else loop fs
where
  /-- The fields of the first record in turn. -/
  loop : List (Str × BaseType × Atom) → Except Err Bool
    | [] => .ok true
    | (n, bt, a) :: rest =>
      match Dict.get gs n with
      | none => .ok false
      | some (bt', a') =>
        if bt ≠ bt' ∨ bt = .duration then .error .processingError
        else if a = a' then loop rest else .ok false

/-- `Value.__eq__` (variables.py:330-343); `none` is the `NullResult` exception. -/
def valueEq (a b : Value) : Except Err (Option Bool) := do
  let _ ← checkCardinalities [a.card, b.card]
  let bt ← checkBaseTypes [a.bt, b.bt]
  if bt = some .duration then throw .processingError
  if a.isNull ∨ b.isNull then return none
  match a, b with
  | .single _ x, .single _ y => return some (x = y)
  | .ordered _ xs, .ordered _ ys => return some (xs = ys)
  | .multiple _ xs, .multiple _ ys => return some (xs.isPerm ys)
  | .record fs, .record gs => return some (← recordEq fs gs)
  | _, _ => return some false

/-- Is the first list a contiguous part of the second?  (The loop of `Contains.Evaluate` for ordered
containers, expressions.py:697-707: with `zip`, a start position needs only `len(v1)` elements after it,
which the bounds of the outer loop guarantee.) -/
def isInfix (xs : List Atom) : List Atom → Bool
  | [] => xs.isEmpty
  | y :: ys => xs.isPrefixOf (y :: ys) || isInfix xs ys

/-- The loop of `Contains.Evaluate` for multiple containers (expressions.py:710-716). -/
def isSubBag (xs ys : List Atom) : Bool := xs.all fun x => decide (xs.count x ≤ ys.count x)

/-- Python `a in b` on strings. -/
def isSubstr (a : Str) : Str → Bool
  | [] => a.isEmpty
  | c :: cs => a.isPrefixOf (c :: cs) || isSubstr a cs

/-- The string in a string single value. -/
def Value.str? : Value → Option Str
  | .single _ (some (.str s)) => some s
  | _ => none

/-- Comparison of two numbers (expressions.py:1248-1348, 1364-1407). -/
def compareNum (f : Rat → Rat → Bool) (a b : Value) : Value :=
  match a.rat?, b.rat? with
  | some x, some y => boolV (some (f x y))
  | _, _ => boolV none

/-- Operands of numeric operators: two single numeric values; the result is their common base type. -/
def twoNumeric (vs : List Value) : Except Err (Value × Value × Option BaseType) := do
  let (a, b) ← two vs
  let bt ← checkNumericalTypes [a.bt, b.bt]
  let _ ← checkCardinalities [a.card, b.card, some .single]
  return (a, b, bt)

/-- Operands of integer operators: two single integer values. -/
def twoIntegers (vs : List Value) : Except Err (Value × Value) := do
  let (a, b) ← two vs
  let _ ← checkBaseTypes [a.bt, b.bt, some .integer]
  let _ ← checkCardinalities [a.card, b.card, some .single]
  return (a, b)

/-- `Sum.Evaluate` and `Product.Evaluate` (expressions.py:1423-1483), for the operation on rationals
and on integers. -/
def fold (q0 : Rat) (qf : Rat → Rat → Rat) (i0 : Int) (f : Int → Int → Int) (vs : List Value) :
    Except Err Value := do
  if vs.length < 1 then throw .processingError
  let _ ← checkCardinalities (vs.map Value.card ++ [some .single])
  match ← checkNumericalTypes (vs.map Value.bt) with
  | none => return .single none none
  | some .float =>
    match vs.mapM Value.rat? with
    | some qs => return floatV (some (qs.foldl qf q0))
    | none => return floatV none
  | some _ =>
    match vs.mapM Value.int? with
    | some is => intV (some (is.foldl f i0))
    | none => intV none

/-- `int(q)`: towards zero. -/
def truncRat (q : Rat) : Int := if q < 0 then -(-q).floor else q.floor

/-- The test of `Equal.Evaluate` with tolerances (expressions.py:1081-1108). -/
def equalTest (mode : ToleranceMode) (tolerance : List Str) (includeLower includeUpper : Bool) (x y : Rat) :
    Except Err Bool :=
  match mode with
  | .exact => .ok (x = y)
  | mode =>
    match tolerance with
    | [] => .error .processingError
    | s0 :: rest => do
      let t0 ← floatAttr (some s0)
      let t1 ← (match rest with | [] => .ok t0 | s1 :: _ => floatAttr (some s1))
      let lower := if mode = .absolute then x - t0 else x * (1 - t0 / 100)
      let upper := if mode = .absolute then x + t1 else x * (1 + t1 / 100)
      return (if includeLower then decide (y ≥ lower) else decide (y > lower)) &&
        (if includeUpper then decide (y ≤ upper) else decide (y < upper))

/-- Does one of the points lie in the shape?  (expressions.py:1223-1226) -/
def anyInside (shape : Shapes.Shape) (coords : List Shapes.Len) : List Atom → Except Err Bool
  | [] => .ok false
  | .point x y :: vs => do
    if ← Shapes.testPoint shape coords x y none none then return true
    else anyInside shape coords vs
  | _ :: _ => .error .typeError

/-- `Container.NewValue(cardinality,baseType)` (variables.py:775-787). -/
def newContainer (card : Option Card) (bt : Option BaseType) : Except Err Value :=
  match card with
  | some .single => .error .valueError
  | some .ordered => .ok (.ordered bt [])
  | some .multiple => .ok (.multiple bt [])
  | some .record => .ok (.record [])
  | none => .ok (.container bt)

/-- `Delete.Evaluate` (expressions.py:636-665). -/
def evalDelete (s c : Value) : Except Err Value :=
  if c.bt = none then newContainer c.card s.bt
  else if s.bt = none then newContainer c.card c.bt
  else if s.bt ≠ c.bt then .error .processingError
  else if s.bt = some .duration then .error .processingError
  else if s.card ≠ some .single ∧ s.card ≠ none then .error .processingError
  else if c.card ≠ some .ordered ∧ c.card ≠ some .multiple ∧ c.card ≠ none then .error .processingError
  else match s, c with
    | .single _ (some a), .ordered bt vs => containerOf bt (vs.filter (· ≠ a)) >>= fun ws => .ok (.ordered bt ws)
    | .single _ (some a), .multiple bt vs => containerOf bt (vs.filter (· ≠ a)) >>= fun ws => .ok (.multiple bt ws)
    | _, _ => newContainer c.card c.bt

/-- `Member.Evaluate` (expressions.py:596-619). -/
def evalMember (s c : Value) : Except Err Value :=
  if s.bt = none ∨ c.bt = none then .ok (boolV none)
  else if s.bt ≠ c.bt then .error .processingError
  else if s.bt = some .duration then .error .processingError
  else if s.isNull ∨ c.isNull then .ok (boolV none)
  else match s with
    | .single _ (some a) =>
      match c with
      | .ordered _ vs => .ok (boolV (some (a ∈ vs)))
      | .multiple _ vs => .ok (boolV (some (a ∈ vs)))
      | _ => .error .processingError
    | _ => .error .processingError

/-- `Contains.Evaluate` (expressions.py:682-721): note which operand is searched for in which. -/
def evalContains (v1 v2 : Value) : Except Err Value := do
  let bt ← checkBaseTypes [v1.bt, v2.bt]
  let card ← checkCardinalities [v1.card, v2.card]
  if bt = some .duration then throw .processingError
  if card = none ∨ bt = none then return boolV none
  if v1.isNull ∨ v2.isNull then return boolV none
  match v1, v2 with
  | .ordered _ xs, .ordered _ ys => return boolV (some (isInfix xs ys))
  | .multiple _ xs, .multiple _ ys => return boolV (some (isSubBag xs ys))
  | _, _ => throw .processingError

/-- `Evaluate` of the operators, given the values of the sub-expressions. -/
def applyOp (op : Op) (vs : List Value) : Except Err Value :=
  match op with
  -- expressions.py:358-385
  | .multiple => do
    let (bt, as) ← gather .multiple none vs
    return .multiple bt (← containerOf bt as)
  -- expressions.py:399-424
  | .ordered => do
    let (bt, as) ← gather .ordered none vs
    return .ordered bt (← containerOf bt as)
  -- expressions.py:438-455
  | .containerSize => do
    match ← one vs with
    | .ordered _ as => intV (some as.length)
    | .multiple _ as => intV (some as.length)
    | _ => throw .processingError
  -- expressions.py:470-475
  | .isNull => do return boolV (some (← one vs).isNull)
  -- expressions.py:499-512; in Python 2 a missing index compares below every number
  | .index n => do
    match ← one vs with
    | .ordered bt as => do
      let result ← newNull bt
      if as.isEmpty then return result
      match n with
      | none => throw .typeError
      | some n =>
        if n < 1 then throw .processingError
        match as[n.toNat - 1]?, bt with
        | some a, some bt => setSingle bt (some a)
        | some _, none => throw .valueError
        | none, _ => return result
    | _ => throw .processingError
  -- expressions.py:536-546
  | .fieldValue i => do
    match ← one vs with
    | .record fs =>
      match Dict.get fs i with
      | some (bt, a) => return .single (some bt) (some a)
      | none => return .single none none
    | _ => throw .processingError
  -- expressions.py:561-579
  | .random draw => do
    match ← one vs with
    | .ordered bt as => pick bt as draw
    | .multiple bt as => pick bt as draw
    | .unknown => return .single none none
    | .container _ => return .single none none
    | _ => throw .processingError
  -- expressions.py:596-619
  | .member => do
    let (s, c) ← two vs
    evalMember s c
  -- expressions.py:636-665
  | .delete => do
    let (s, c) ← two vs
    evalDelete s c
  -- expressions.py:682-721
  | .contains => do
    let (a, b) ← two vs
    evalContains a b
  -- expressions.py:746-759
  | .substring caseSensitive => do
    let (a, b) ← two vs
    let _ ← checkBaseTypes [a.bt, b.bt, some .string]
    let _ ← checkCardinalities [a.card, b.card, some .single]
    match a.str?, b.str? with
    | some x, some y =>
      if caseSensitive then return boolV (some (isSubstr x y))
      else return boolV (some (isSubstr (Py.lower x) (Py.lower y)))
    | _, _ => return boolV none
  -- expressions.py:774-781
  | .not => do
    let v ← one vs
    let _ ← checkBaseTypes [v.bt, some .boolean]
    let _ ← checkCardinalities [v.card, some .single]
    return boolV (v.bool?.map (!·))
  -- expressions.py:796-808
  | .and => do
    allSingle .boolean vs
    return boolV (andLoop (some true) (vs.map Value.bool?))
  -- expressions.py:823-836
  | .or => do
    allSingle .boolean vs
    return boolV (orLoop (some false) (vs.map Value.bool?))
  -- expressions.py:864-893
  | .anyN min max => do
    let min ← integerAttr min
    let max ← integerAttr max
    allSingle .boolean vs
    return boolV (anyNResult min max (vs.map Value.bool?))
  -- expressions.py:909-917
  | .match => do
    let (a, b) ← two vs
    return boolV (← valueEq a b)
  -- expressions.py:944-963
  | .stringMatch caseSensitive substring => do
    let (a, b) ← two vs
    let _ ← checkBaseTypes [a.bt, b.bt, some .string]
    let _ ← checkCardinalities [a.card, b.card, some .single]
    match a.str?, b.str? with
    | some x, some y =>
      let x' := if caseSensitive then x else Py.lower x
      let y' := if caseSensitive then y else Py.lower y
      if substring then return boolV (some (isSubstr x' y'))
      else return boolV (some (x' = y'))
    | _, _ => return boolV none
  | .patternMatch _ => .error .unmodelled
  -- expressions.py:1070-1110
  | .equal mode tolerance includeLower includeUpper => do
    let (a, b, _) ← twoNumeric vs
    match a.rat?, b.rat? with
    | some x, some y => return boolV (some (← equalTest mode tolerance includeLower includeUpper x y))
    | _, _ => return boolV none
  | .equalRounded => .error .unmodelled
  -- expressions.py:1209-1232
  | .inside shape coords => do
    let v ← one vs
    let _ ← checkBaseTypes [v.bt, some .point]
    match v with
    | .single _ none => return boolV none
    | .single _ (some a) => return boolV (some (← anyInside shape coords [a]))
    | .ordered _ as => if as.isEmpty then return boolV none else return boolV (some (← anyInside shape coords as))
    | .multiple _ as =>
      if as.isEmpty then return boolV none else return boolV (some (← anyInside shape coords (distinct as)))
    | .record _ => throw .processingError
    | _ => return boolV none
  -- expressions.py:1248-1261
  | .lt => do
    let (a, b, _) ← twoNumeric vs
    return compareNum (fun x y => x < y) a b
  -- expressions.py:1277-1290
  | .gt => do
    let (a, b, _) ← twoNumeric vs
    return compareNum (fun x y => x > y) a b
  -- expressions.py:1306-1319
  | .lte => do
    let (a, b, _) ← twoNumeric vs
    return compareNum (fun x y => x ≤ y) a b
  -- expressions.py:1335-1348
  | .gte => do
    let (a, b, _) ← twoNumeric vs
    return compareNum (fun x y => x ≥ y) a b
  -- expressions.py:1364-1377
  | .durationLT => do
    let (a, b) ← two vs
    let _ ← checkBaseTypes [a.bt, b.bt, some .duration]
    let _ ← checkCardinalities [a.card, b.card, some .single]
    return compareNum (fun x y => x < y) a b
  -- expressions.py:1394-1407
  | .durationGTE => do
    let (a, b) ← two vs
    let _ ← checkBaseTypes [a.bt, b.bt, some .duration]
    let _ ← checkCardinalities [a.card, b.card, some .single]
    return compareNum (fun x y => x ≥ y) a b
  -- expressions.py:1423-1445
  | .sum => fold 0 (· + ·) 0 (· + ·) vs
  -- expressions.py:1461-1483
  | .product => fold 1 (· * ·) 1 (· * ·) vs
  -- expressions.py:1499-1521
  | .subtract => do
    let (a, b, bt) ← twoNumeric vs
    match bt with
    | none => return .single none none
    | some .float =>
      match a.rat?, b.rat? with
      | some x, some y => return floatV (some (x - y))
      | _, _ => return floatV none
    | some _ =>
      match a.int?, b.int? with
      | some x, some y => intV (some (x - y))
      | _, _ => intV none
  -- expressions.py:1536-1554
  | .divide => do
    let (a, b, _) ← twoNumeric vs
    match a.rat?, b.rat? with
    | some x, some y => if y = 0 then return floatV none else return floatV (some (x / y))
    | _, _ => return floatV none
  | .power => .error .unmodelled
  -- expressions.py:1603-1616; Python's `//` rounds down
  | .integerDivide => do
    let (a, b) ← twoIntegers vs
    match a.int?, b.int? with
    | some x, some y => if y = 0 then intV none else intV (some (Int.fdiv x y))
    | _, _ => intV none
  -- expressions.py:1633-1646; Python's `%` goes with `//`
  | .integerModulus => do
    let (a, b) ← twoIntegers vs
    match a.int?, b.int? with
    | some x, some y => if y = 0 then intV none else intV (some (Int.fmod x y))
    | _, _ => intV none
  -- expressions.py:1661-1668
  | .truncate => do
    let v ← one vs
    let _ ← checkBaseTypes [v.bt, some .float]
    let _ ← checkCardinalities [v.card, some .single]
    match v.rat? with
    | some q => intV (some (truncRat q))
    | none => intV none
  -- expressions.py:1684-1691
  | .round => do
    let v ← one vs
    let _ ← checkBaseTypes [v.bt, some .float]
    let _ ← checkCardinalities [v.card, some .single]
    match v.rat? with
    | some q => intV (some (q + 1 / 2).floor)
    | none => intV none
  -- expressions.py:1706-1713
  | .integerToFloat => do
    let v ← one vs
    let _ ← checkBaseTypes [v.bt, some .integer]
    let _ ← checkCardinalities [v.card, some .single]
    match v.int? with
    | some i => return floatV (some (i : Rat))
    | none => return floatV none
  -- expressions.py:1739-1741; the sub-expressions are not evaluated, see `eval`
  | .custom => .error .processingError
where
  /-- `random.choice` of a container's values (expressions.py:563-573). -/
  pick (bt : Option BaseType) (as : List Atom) (draw : Nat) : Except Err Value := do
    let result ← newNull bt
    match as[draw % as.length]?, bt with
    | some a, some bt => setSingle bt (some a)
    | some _, none => throw .valueError
    | none, _ => return result

mutual
/-- `Evaluate(state)`. -/
def eval (st : State) : Expr → Except Err Value
  | .leaf l => evalLeaf st l
  | .node .custom _ => .error .processingError
  | .node op args => evalAll st args >>= applyOp op
/-- `list(self.EvaluateChildren(state))` (expressions.py:328-332). -/
def evalAll (st : State) : List Expr → Except Err (List Value)
  | [] => .ok []
  | e :: es => eval st e >>= fun v => evalAll st es >>= fun vs => .ok (v :: vs)
end

end Verif.Qti
