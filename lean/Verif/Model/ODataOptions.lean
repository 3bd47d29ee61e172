import Verif.Model.ODataExpr
import Verif.Model.Paging

/-!
# The options `$expand`, `$select` and `$orderby`

Models `ParseExpandOption`, `ParseSelectOption`, `ParseOrderbyOption`, `FormatExpand`, `FormatSelect`, `OrderByFromString`
and `OrderByToString` of `pyslet/pyslet/odata2/core.py` (cited as *core*).
-/

namespace Verif.OData

open Verif

/-- The nested dictionaries of `$expand` and `$select` (core:1248-1268): the names of one dictionary with what they are
mapped to.  `None` and an empty dictionary are not distinguished: `nil` (the readers leave no empty dictionary, and the
writer treats both alike). -/
inductive Forest where
  | nil
  | cons (name : Str) (sub rest : Forest)
deriving DecidableEq, Repr

/-- `if navPath not in parent: parent[navPath]=None`, going on with `parent[navPath]` (core:1256-1264). -/
def Forest.put (n : Str) (g : Forest → Forest) : Forest → Forest
  | .nil => .cons n (g .nil) .nil
  | .cons m s r => if m = n then .cons m (g s) r else .cons m s (r.put n g)

/-- What reading one path does to the dictionary (core:1254-1264); it is done after the path has been read, and not while
it is read: if reading fails the dictionary is lost. -/
def Forest.insert : List Str → Forest → Forest
  | [], f => f
  | n :: p, f => f.put n (Forest.insert p)

/-- One path of `$expand` (core:1255-1264). -/
def expandPath (T : Tables) : Nat → Str → Except Fault (List Str × Str)
  | 0, _ => .error .outOfFuel
  | k + 1, s =>
    match simpleIdentifier T s with
    | none => .error .valueError
    | some (n, t) =>
      match parseChar '/' t with
      | some u => (expandPath T k u).map fun r => (n :: r.1, r.2)
      | none => .ok ([n], t)

/-- The loop of `ParseExpandOption` (core:1253-1267). -/
def expandLoop (T : Tables) : Nat → Forest → Str → Except Fault Forest
  | 0, _, _ => .error .outOfFuel
  | k + 1, f, s =>
    match expandPath T (s.length + 1) s with
    | .error e => .error e
    | .ok (p, t) =>
      match parseChar ',' t with
      | some u => expandLoop T k (f.insert p) u
      | none => if t = [] then .ok (f.insert p) else .error .valueError

/-- `ParseExpandOption` (core:1248-1268). -/
def parseExpand (T : Tables) (s : Str) : Except Fault Forest := expandLoop T (s.length + 1) .nil s

/-- `ParseStarOrIdentifier` (core:1328-1333). -/
def starOrIdent (T : Tables) (s : Str) : Option (Str × Str) :=
  match parseChar '*' (wsp s) with
  | some t => some (['*'], t)
  | none => simpleIdentifier T (wsp s)

/-- One path of `$select` (core:1313-1323): nothing follows a star. -/
def selectPath (T : Tables) : Nat → Str → Except Fault (List Str × Str)
  | 0, _ => .error .outOfFuel
  | k + 1, s =>
    match starOrIdent T s with
    | none => .error .valueError
    | some (n, t) =>
      if n = ['*'] then .ok ([n], t)
      else match parseChar '/' t with
        | some u => (selectPath T k u).map fun r => (n :: r.1, r.2)
        | none => .ok ([n], t)

/-- The loop of `ParseSelectOption` (core:1310-1325). -/
def selectLoop (T : Tables) : Nat → Forest → Str → Except Fault Forest
  | 0, _, _ => .error .outOfFuel
  | k + 1, f, s =>
    match selectPath T (s.length + 1) (wsp s) with
    | .error e => .error e
    | .ok (p, t) =>
      match parseChar ',' (wsp t) with
      | some u => selectLoop T k (f.insert p) u
      | none => if wsp t = [] then .ok (f.insert p) else .error .valueError

/-- `ParseSelectOption` (core:1294-1326). -/
def parseSelect (T : Tables) (s : Str) : Except Fault Forest := selectLoop T (s.length + 1) .nil s

/-- `_FormatExpandList` (core:1759-1767). -/
def Forest.leaves : Forest → List Str
  | .nil => []
  | .cons n .nil r => n :: r.leaves
  | .cons n (.cons m s t) r => ((Forest.cons m s t).leaves.map fun x => n ++ '/' :: x) ++ r.leaves

/-- `a <= b` for Unicode strings. -/
def strLe : Str → Str → Bool
  | [], _ => true
  | _ :: _, [] => false
  | a :: s, b :: t => a.toNat < b.toNat || (a.toNat == b.toNat && strLe s t)

/-- `FormatExpand` and `FormatSelect` (core:1753-1757, 1769-1771). -/
def formatExpand (f : Forest) : Str := Py.join ',' (Paging.stableSort strLe f.leaves)

/-- `asc`, `desc` or neither (core:1281-1286): whether the order is ascending. -/
def direction (s : Str) : Bool × Str :=
  match parseInsensitive ['a', 's', 'c'] s with
  | some t => (true, t)
  | none =>
    match parseInsensitive ['d', 'e', 's', 'c'] s with
    | some t => (false, t)
    | none => (true, s)

/-- The loop of `ParseOrderbyOption` (core:1277-1291). -/
def orderLoop (T : Tables) : Nat → Str → Except Fault (List (Expr × Bool))
  | 0, _ => .error .outOfFuel
  | k + 1, s =>
    match common T (3 * (wsp s).length + 3) [] (wsp s) with
    | .error e => .error e
    | .ok (none, _) => .error .valueError
    | .ok (some e, t) =>
      let d := direction (wsp t)
      match parseChar ',' (wsp d.2) with
      | some u => (orderLoop T k u).map fun r => (e, d.1) :: r
      | none => if wsp d.2 = [] then .ok [(e, d.1)] else .error .valueError

/-- `ParseOrderbyOption` and `OrderByFromString` (core:1270-1292, 294-297). -/
def parseOrder (T : Tables) (s : Str) : Except Fault (List (Expr × Bool)) := orderLoop T (s.length + 1) s

/-- One rule of `OrderByToString` (core:301). -/
def ruleText (fin : Bool → Nat → Int → Str) (r : Expr × Bool) : Except Fault Str :=
  (r.1.text fin).map fun t => t ++ ' ' :: (if r.2 then ['a', 's', 'c'] else ['d', 'e', 's', 'c'])

/-- `string.join(l,', ')`. -/
def commaSpace : List Str → Str
  | [] => []
  | [s] => s
  | s :: t :: r => s ++ ',' :: ' ' :: commaSpace (t :: r)

/-- `OrderByToString` (core:299-301). -/
def orderText (fin : Bool → Nat → Int → Str) (l : List (Expr × Bool)) : Except Fault Str := (l.mapM (ruleText fin)).map commaSpace

end Verif.OData
