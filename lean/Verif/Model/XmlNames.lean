import Verif.Model.Py

/-!
# Namespaces of XML

Models `pyslet/pyslet/xmlnames20091208.py` (cited as *names*): the declarations of elements, the names that are written for elements
and attributes, and the names that are read.  What is written and read is a tree of tags with names and attributes as texts; how such
trees are written and read as text is modelled in `Model/PyXml`.

The order of attributes is not modelled (the program sorts them).  Documents have no default namespace of their own (`DefaultNS`), and
elements are made without inferred tags (`sgmlOmittag`).  Errors of the parser are `xmlException`.
-/

namespace Verif.PyXml.Names
open Verif

/-- `XML_NAMESPACE` (names:6). -/
def xmlNS : Str := "http://www.w3.org/XML/1998/namespace".toList

/-- `XMLNS_NAMESPACE` (names:7). -/
def xmlnsNS : Str := "http://www.w3.org/2000/xmlns/".toList

/-- `NO_NAMESPACE` (names:8). -/
def noNS : Str := "~".toList

/-- `d.get(k,None)` of a dictionary. -/
def get {α : Type} (k : Str) : List (Str × α) → Option α
  | [] => none
  | (x, v) :: l => if x = k then some v else get k l

/-- `d[k]=v`. -/
def put {α : Type} (k : Str) (v : α) (l : List (Str × α)) : List (Str × α) := (k, v) :: l.filter fun e => e.1 ≠ k

/-- The two dictionaries of an element or document (names:40-44). -/
structure Maps where
  /-- `prefixToNS` -/
  toNS : List (Str × Str)
  /-- `nsToPrefix` -/
  toPrefix : List (Str × Str)

/-- No declarations (names:40-44). -/
def Maps.empty : Maps := ⟨[], []⟩

/-- The name of an attribute: the namespace, which is `noNS` if it has none, and the local name; `none` is Python's `None`. -/
abbrev AttrName := Option Str × Str

/-- Elements and data. -/
inductive Node where
  | text (s : Str)
  | elem (ns : Option Str) (name : Str) (attrs : List (AttrName × Str)) (maps : Maps) (children : List Node)

/-- Tags with the texts of their names and attributes. -/
inductive Raw where
  | text (s : Str)
  | elem (start : Str) (attrs : List (Str × Str)) (children : List Raw)

/-- The loop of `GetNS` (names:92-102): the declarations of an element and of those around it, from the inside. -/
def searchNS (p : Str) : List (List (Str × Str)) → Option Str
  | [] => none
  | m :: r =>
    match get p m with
    | some (c :: u) => some (c :: u)
    | _ => searchNS p r

/-- `GetNS` (names:83-103). -/
def getNS (p : Str) (scope : List (List (Str × Str))) : Option Str := if p = "xml".toList then some xmlNS else searchNS p scope

/-! ## Writing -/

/-- The loops of `GetPrefix` (names:66-80): `inner` are the declarations that were passed. -/
def searchPrefix (ns : Str) (inner : List Maps) : List Maps → Option Str
  | [] => none
  | m :: r =>
    match get ns m.toPrefix with
    | some p => if inner.any fun x => (get p x.toNS).isSome then searchPrefix ns (inner ++ [m]) r else some p
    | none => searchPrefix ns (inner ++ [m]) r

/-- `GetPrefix` (names:54-81). -/
def getPrefix (ns : Option Str) (scope : List Maps) : Option Str :=
  match ns with
  | none => some []
  | some ns => if ns = xmlNS then some "xml".toList else if ns = noNS then some [] else searchPrefix ns [] scope

/-- The prefix with a number (names:119). -/
def numbered (k : Nat) : Str := "ns".toList ++ Py.strNat k

/-- The loop of `NewPrefix` (names:116-124), for at most `fuel` numbers from `k` on. -/
def newPrefixFrom (scope : List (List (Str × Str))) : Nat → Nat → Option Str
  | 0, _ => none
  | fuel + 1, k => if (getNS (numbered k) scope).isSome then newPrefixFrom scope fuel (k + 1) else some (numbered k)

/-- `NewPrefix` (names:105-125).  The number of all declarations and one more is enough (`Verif.Props.Names.new_prefix`). -/
def newPrefix (scope : List (List (Str × Str))) : Option Str := newPrefixFrom scope (scope.flatten.length + 1) 1

/-- `MakePrefix` with a prefix (names:134-138). -/
def makePrefix (m : Maps) (ns p : Str) : Except Err Maps :=
  if (get p m.toNS).isSome then .error .valueError else .ok ⟨put p ns m.toNS, put ns p m.toPrefix⟩

/-- A name with a prefix (names:318-320, 350-351). -/
def qname (p name : Str) : Str := if p = [] then name else p ++ ':' :: name

/-- The attributes in `WriteXMLAttributes` (names:304-320): what is written, and the declarations of the element afterwards. -/
def writeAttrs (outer : List Maps) : Maps → List (AttrName × Str) → Except Err (List (Str × Str) × Maps)
  | m, [] => .ok ([], m)
  | m, ((ns, a), v) :: l =>
    match getPrefix ns (m :: outer) with
    | some p => do
      let r ← writeAttrs outer m l
      .ok ((qname p a, v) :: r.1, r.2)
    | none =>
      match newPrefix ((m :: outer).map Maps.toNS) with
      | some p => do
        let m ← makePrefix m (ns.getD []) p
        let r ← writeAttrs outer m l
        .ok ((qname p a, v) :: r.1, r.2)
      | none => .error .unmodelled

/-- `GetPrefixMap` (names:140-150). -/
def prefixMap : List (List (Str × Str)) → List (Str × Str)
  | [] => []
  | m :: r => m ++ (prefixMap r).filter fun e => (get e.1 m).isNone

/-- The attributes that declare (names:152-166). -/
def declare (l : List (Str × Str)) : List (Str × Str) :=
  l.map fun e => (if e.1 = [] then "xmlns".toList else "xmlns:".toList ++ e.1, e.2)

/-- The prefix of an element, and its declarations afterwards (names:341-349). -/
def elementPrefix (outer : List Maps) (m : Maps) (ns : Option Str) : Except Err (Str × Maps) :=
  match ns with
  | none => .ok ([], m)
  | some [] => .ok ([], m)
  | some (c :: u) =>
    match getPrefix (some (c :: u)) (m :: outer) with
    | some p => .ok (p, m)
    | none => do
      let m ← makePrefix m (c :: u) []
      .ok ([], m)

mutual
/-- `GenerateXML` (names:324-387).  Only the root writes the declarations of what is around it. -/
def write (outer : List Maps) (root : Bool) : Node → Except Err Raw
  | .text s => .ok (.text s)
  | .elem ns name attrs m children => do
    let (p, m) ← elementPrefix outer m ns
    let (as, m) ← writeAttrs outer m attrs
    let cs ← writeAll (m :: outer) children
    let decls := if root then prefixMap ((m :: outer).map Maps.toNS) else m.toNS
    .ok (.elem (qname p name) (declare decls ++ as) cs)

/-- The children (names:365-380). -/
def writeAll (outer : List Maps) : List Node → Except Err (List Raw)
  | [] => .ok []
  | n :: ns => do
    let r ← write outer false n
    let rs ← writeAll outer ns
    .ok (r :: rs)
end

/-- Writing the root of a document with these declarations. -/
def writeRoot (doc : Maps) (n : Node) : Except Err Raw := write [doc] true n

/-! ## Reading -/

/-- `ExpandQName` (names:422-463). -/
def expand (defs : List (Str × Str)) (scope : List (List (Str × Str))) (q : Str) (useDefault : Bool) : Except Err AttrName :=
  match Py.split ':' q with
  | [q] =>
    if q = "xmlns".toList then .ok (some xmlnsNS, [])
    else if useDefault then
      .ok (match get [] defs with
        | some u => some u
        | none => getNS [] scope, q)
    else .ok (some noNS, q)
  | [p, l] =>
    if p = "xml".toList then .ok (some xmlNS, l)
    else if p = "xmlns".toList then .ok (some xmlnsNS, l)
    else
      .ok (match get p defs with
        | some u => some u
        | none => getNS p scope, l)
  | _ => .error .xmlException

/-- The declarations among the attributes (names:486-494). -/
def declarations : List (Str × Str) → List (Str × Str)
  | [] => []
  | (a, v) :: l =>
    if a.take 5 = "xmlns".toList then
      if a.length = 5 then ([], v) :: declarations l
      else if a.drop 5 |>.head? |> (· == some ':') then (a.drop 6, v) :: declarations l
      else declarations l
    else declarations l

/-- The other attributes with their names expanded (names:495-498): a dictionary, of attributes with the same name one is kept. -/
def expandAttrs (defs : List (Str × Str)) (scope : List (List (Str × Str))) : List (Str × Str) → Except Err (List (AttrName × Str))
  | [] => .ok []
  | (a, v) :: l =>
    if a.take 5 = "xmlns".toList then expandAttrs defs scope l
    else do
      let n ← expand defs scope a false
      let r ← expandAttrs defs scope l
      .ok ((n, v) :: r.filter fun e => e.1 ≠ n)

/-- The inverse of the declarations (names:233-234). -/
def inverse (l : List (Str × Str)) : List (Str × Str) := l.foldr (fun e r => put e.2 e.1 r) []

mutual
/-- An element: `GetSTagClass` and `SetAttribute` (names:504-559, 225-239).  `scope` are the declarations of the elements around it. -/
def read (scope : List (List (Str × Str))) : Raw → Except Err Node
  | .text s => .ok (.text s)
  | .elem start attrs children => do
    let defs := declarations attrs
    let as ← expandAttrs defs scope attrs
    let name ← expand defs scope start true
    let cs ← readAll (defs :: scope) children
    .ok (.elem name.1 name.2 as ⟨defs, inverse defs⟩ cs)

/-- The children. -/
def readAll (scope : List (List (Str × Str))) : List Raw → Except Err (List Node)
  | [] => .ok []
  | r :: rs => do
    let n ← read scope r
    let ns ← readAll scope rs
    .ok (n :: ns)
end

end Verif.PyXml.Names
