import Verif.Model.ODataLit

/-!
# Expressions of `$filter` and `$orderby`

Models the operators, the expression objects, their text and `Parser.ParseCommonExpression` of
`pyslet/pyslet/odata2/core.py` (cited as *core*).
-/

namespace Verif.OData

open Verif

/-- `Operator` (core:148-207). -/
inductive Oper where
  | paren | member | methodCall | negate | boolNot | cast | mul | div | mod | add | sub | lt | gt | le | ge | isof | eq | ne
  | boolAnd | boolOr
deriving DecidableEq, Repr

/-- `Operator.Category` with the numbers of `OperatorCategory` (core:122-145, 209-229). -/
def Oper.cat : Oper → Nat
  | .paren => 10
  | .member | .methodCall => 9
  | .negate | .boolNot | .cast => 8
  | .mul | .div | .mod => 7
  | .add | .sub => 6
  | .lt | .gt | .le | .ge | .isof => 5
  | .eq | .ne => 4
  | .boolAnd => 3
  | .boolOr => 2

/-- `Operator.IsSpecial` (core:231-232): `not` is not in the set. -/
def Oper.special : Oper → Bool
  | .paren | .member | .methodCall | .negate | .cast | .isof => true
  | _ => false

/-- `Operator.EncodeValue` (core:161-182). -/
def Oper.name : Oper → Str
  | .paren => ['p', 'a', 'r', 'e', 'n']
  | .member => ['m', 'e', 'm', 'b', 'e', 'r']
  | .methodCall => ['m', 'e', 't', 'h', 'o', 'd', 'C', 'a', 'l', 'l']
  | .negate => ['n', 'e', 'g', 'a', 't', 'e']
  | .boolNot => ['n', 'o', 't']
  | .cast => ['c', 'a', 's', 't']
  | .mul => ['m', 'u', 'l']
  | .div => ['d', 'i', 'v']
  | .mod => ['m', 'o', 'd']
  | .add => ['a', 'd', 'd']
  | .sub => ['s', 'u', 'b']
  | .lt => ['l', 't']
  | .gt => ['g', 't']
  | .le => ['l', 'e']
  | .ge => ['g', 'e']
  | .isof => ['i', 's', 'o', 'f']
  | .eq => ['e', 'q']
  | .ne => ['n', 'e']
  | .boolAnd => ['a', 'n', 'd']
  | .boolOr => ['o', 'r']

/-- All operators. -/
def Oper.all : List Oper :=
  [.paren, .member, .methodCall, .negate, .boolNot, .cast, .mul, .div, .mod, .add, .sub, .lt, .gt, .le, .ge, .isof, .eq, .ne,
    .boolAnd, .boolOr]

/-- The aliases, which `MakeEnumerationAliases` adds to the names that are decoded
(core:201-207, pyslet/pyslet/xsdatatypes20041028.py:599-608). -/
def Oper.aliases : List (Str × Oper) :=
  [("boolParen".toList, .paren), ("boolMethodCall".toList, .methodCall), ("boolNot".toList, .boolNot),
    ("boolAnd".toList, .boolAnd), ("boolOr".toList, .boolOr)]

/-- `Operator.DecodeValue` (pyslet/pyslet/xsdatatypes20041028.py:461-469): identifiers have no white space around them. -/
def Oper.decode (name : Str) : Option Oper :=
  (Oper.all.find? (·.name = name)).or ((Oper.aliases.find? (·.1 = name)).map (·.2))

/-- `Method` (core:236-266). -/
inductive Meth where
  | endswith | indexof | replace | startswith | tolower | toupper | trim | substring | substringof | concat | length | year
  | month | day | hour | minute | second | round | floor | ceiling
deriving DecidableEq, Repr

/-- `Method.EncodeValue` (core:244-265). -/
def Meth.name : Meth → Str
  | .endswith => "endswith".toList
  | .indexof => "indexof".toList
  | .replace => "replace".toList
  | .startswith => "startswith".toList
  | .tolower => "tolower".toList
  | .toupper => "toupper".toList
  | .trim => "trim".toList
  | .substring => "substring".toList
  | .substringof => "substringof".toList
  | .concat => "concat".toList
  | .length => "length".toList
  | .year => "year".toList
  | .month => "month".toList
  | .day => "day".toList
  | .hour => "hour".toList
  | .minute => "minute".toList
  | .second => "second".toList
  | .round => "round".toList
  | .floor => "floor".toList
  | .ceiling => "ceiling".toList

/-- All methods. -/
def Meth.all : List Meth :=
  [.endswith, .indexof, .replace, .startswith, .tolower, .toupper, .trim, .substring, .substringof, .concat, .length, .year,
    .month, .day, .hour, .minute, .second, .round, .floor, .ceiling]

/-- `Method.DecodeValue`. -/
def Meth.decode (name : Str) : Option Meth := Meth.all.find? (·.name = name)

/-- Expression objects (core:269-278, 307-315, 373-381, 727-731, 767-771, 798-807) with their list of operands; `absent` is
`None` as an operand. -/
inductive Expr where
  | absent
  | lit (v : Lit)
  | prop (name : Str)
  | unary (op : Oper) (args : List Expr)
  | binary (op : Oper) (args : List Expr)
  | call (m : Meth) (args : List Expr)

mutual
/-- Equality of trees is decidable. -/
def Expr.decEq : (a b : Expr) → Decidable (a = b)
  | .absent, b => by cases b <;> first | exact isTrue rfl | exact isFalse (by simp)
  | .lit v, b => match b with
    | .lit w => if h : v = w then isTrue (by rw [h]) else isFalse (by simp [h])
    | .absent | .prop _ | .unary .. | .binary .. | .call .. => isFalse (by simp)
  | .prop v, b => match b with
    | .prop w => if h : v = w then isTrue (by rw [h]) else isFalse (by simp [h])
    | .absent | .lit _ | .unary .. | .binary .. | .call .. => isFalse (by simp)
  | .unary o l, b => match b with
    | .unary p m => if h : o = p then (match Expr.decEqList l m with
      | isTrue h' => isTrue (by rw [h, h'])
      | isFalse h' => isFalse (by simp [h'])) else isFalse (by simp [h])
    | .absent | .lit _ | .prop _ | .binary .. | .call .. => isFalse (by simp)
  | .binary o l, b => match b with
    | .binary p m => if h : o = p then (match Expr.decEqList l m with
      | isTrue h' => isTrue (by rw [h, h'])
      | isFalse h' => isFalse (by simp [h'])) else isFalse (by simp [h])
    | .absent | .lit _ | .prop _ | .unary .. | .call .. => isFalse (by simp)
  | .call o l, b => match b with
    | .call p m => if h : o = p then (match Expr.decEqList l m with
      | isTrue h' => isTrue (by rw [h, h'])
      | isFalse h' => isFalse (by simp [h'])) else isFalse (by simp [h])
    | .absent | .lit _ | .prop _ | .unary .. | .binary .. => isFalse (by simp)

/-- Equality of lists of trees is decidable. -/
def Expr.decEqList : (a b : List Expr) → Decidable (a = b)
  | [], [] => isTrue rfl
  | [], _ :: _ => isFalse (by simp)
  | _ :: _, [] => isFalse (by simp)
  | x :: a, y :: b => match Expr.decEq x y, Expr.decEqList a b with
    | isTrue h, isTrue h' => isTrue (by rw [h, h'])
    | isFalse h, _ => isFalse (by simp [h])
    | _, isFalse h => isFalse (by simp [h])
end

instance : DecidableEq Expr := Expr.decEq

/-- The attribute `operator` (core:274, 730, 770, 806). -/
def Expr.oper : Expr → Option Oper
  | .unary op _ => some op
  | .binary op _ => some op
  | .call .. => some .methodCall
  | _ => none

/-- An operator with the operands it has so far: `leftOp`, `rightOp` and the members of `opStack` (core:1096-1098) are
objects of the classes `UnaryExpression` and `BinaryExpression`. -/
structure Open where
  unary : Bool
  op : Oper
  args : List Expr

/-- The expression object. -/
def Open.expr (o : Open) : Expr := if o.unary then .unary o.op o.args else .binary o.op o.args

/-- `AddOperand` (core:277-278), also of `None`. -/
def Open.take (o : Open) (x : Option Expr) : Open := { o with args := o.args ++ [x.getD .absent] }

/-- `AddOperand` unless the operand is `None` (core:1176-1177). -/
def Open.give (o : Open) (x : Option Expr) : Open :=
  match x with
  | some e => { o with args := o.args ++ [e] }
  | none => o

/-- The inner loop (core:1173-1191): binds the operand to the operator on the right or to that on the left.  `leftOp` is the
head of the list and `opStack` the rest: `leftOp` is `None` exactly if both are empty. -/
def bindOp : List Open → Option Expr → Open → List Open
  | [], x, r => [r.give x]
  | l :: rest, x, r => if l.op.cat < r.op.cat then r.give x :: l :: rest else bindOp rest (some (l.take x).expr) r

/-- The end of an expression (core:1157-1165). -/
def finish : List Open → Expr → Expr
  | [], e => e
  | l :: rest, e => finish rest (l.take (some e)).expr

/-- What follows an operand (core:1137-1165): an operator, or the end of the expression, and the rest of the text. -/
def nextOp (T : Tables) (s : Str) : Option Open × Str :=
  match wsp s with
  | '/' :: t => (some { unary := false, op := .member, args := [] }, t)
  | s =>
    match simpleIdentifier T s with
    | none => (none, s)
    | some (name, t) =>
      match Oper.decode name with
      | some op => if op.special then (none, s) else (some { unary := false, op := op, args := [] }, t)
      | none => (none, s)

/-- `Parse` of a character whose result is not looked at: `RequireProduction(self.Parse(c))` raises nothing, as `Parse`
returns an empty string and not `None` (unicode5:621-631, 661-670; core:1125, 1195, 1221, 1226). -/
def skipChar (c : Char) (s : Str) : Str := (parseChar c s).getD s

/-- What an operand position holds. -/
inductive Operand where
  /-- an operand -/
  | value (e : Expr)
  /-- a `UnaryExpression`: an operator, or an expression in brackets (core:1135) -/
  | operator (o : Open)
  /-- nothing -/
  | nothing

/-- `isinstance(rightOp,UnaryExpression)` (core:1135). -/
def operand : Expr → Operand
  | .unary op args => .operator { unary := true, op := op, args := args }
  | e => .value e

/-- `stringParam.value.typeCode` is that of a string (core:1228). -/
def isString : Expr → Bool
  | .lit (.string _) => true
  | _ => false

mutual

/-- `ParseCommonExpression` (core:1094-1191): one turn of the loop for every unit of `n`; an expression in brackets, a call
and a cast take one too. -/
def common (T : Tables) : Nat → List Open → Str → Except Fault (Option Expr × Str)
  | 0, _, _ => .error .outOfFuel
  | n + 1, ops, s =>
    match term T n (wsp s) with
    | .error e => .error e
    | .ok (.nothing, s) => if ops.isEmpty then .ok (none, s) else .error .valueError
    | .ok (.operator o, s) => common T n (bindOp ops none o) s
    | .ok (.value e, s) =>
      match nextOp T s with
      | (none, s) => .ok (some (finish ops e), s)
      | (some r, s) => common T n (bindOp ops (some e) r) s

/-- The operand or unary operator at the beginning of a turn (core:1100-1133). -/
def term (T : Tables) : Nat → Str → Except Fault (Operand × Str)
  | 0, _ => .error .outOfFuel
  | n + 1, s =>
    match uriLiteral T s with
    | .error e => .error e
    | .ok (some v, s) => .ok (.value (.lit v), s)
    | .ok (none, s) =>
      match simpleIdentifier T s with
      | some (name, t) =>
        if name = ['n', 'o', 't'] then
          if wsp t = t then .error .valueError
          else .ok (.operator { unary := true, op := .boolNot, args := [] }, wsp t)
        else if name = ['i', 's', 'o', 'f'] then
          (castLike T n .isof (wsp t)).map fun r => (.value r.1, r.2)
        else if name = ['c', 'a', 's', 't'] then
          (castLike T n .cast (wsp t)).map fun r => (.value r.1, r.2)
        else
          match wsp t with
          | '(' :: u =>
            match Meth.decode name with
            | none => .error .valueError
            | some m => (arguments T n u).map fun r => (.value (.call m r.1), r.2)
          | u => .ok (.value (.prop name), u)
      | none =>
        match s with
        | '(' :: t =>
          match common T n [] t with
          | .error e => .error e
          | .ok (none, _) => .error .valueError
          | .ok (some e, t) => .ok (operand e, skipChar ')' t)
        | '-' :: t => .ok (.operator { unary := true, op := .negate, args := [] }, t)
        | s => .ok (.nothing, s)

/-- `ParseMethodCallExpression` after the opening bracket (core:1196-1207). -/
def arguments (T : Tables) : Nat → Str → Except Fault (List Expr × Str)
  | 0, _ => .error .outOfFuel
  | n + 1, s =>
    match common T n [] (wsp s) with
    | .error e => .error e
    | .ok (none, _) => .error .valueError
    | .ok (some e, s) =>
      match wsp s with
      | ',' :: t => (arguments T n t).map fun r => (e :: r.1, r.2)
      | ')' :: t => .ok ([e], t)
      | _ => .error .valueError

/-- `ParseCastLike` (core:1209-1232); the result `None` is refused by the callers (core:1111, 1114). -/
def castLike (T : Tables) : Nat → Oper → Str → Except Fault (Expr × Str)
  | 0, _, _ => .error .outOfFuel
  | n + 1, op, s =>
    match wsp s with
    | '(' :: t =>
      match common T n [] t with
      | .error e => .error e
      | .ok (none, _) => .error .valueError
      | .ok (some e, t) =>
        match wsp t with
        | ')' :: u => if isString e then .ok (.binary op [e], u) else .error .valueError
        | u =>
          match common T n [] (wsp (skipChar ',' u)) with
          | .error e => .error e
          | .ok (none, _) => .error .valueError
          | .ok (some f, u) =>
            if isString f then .ok (.binary op [e, f], skipChar ')' (wsp u)) else .error .valueError
    | _ => .error .valueError

end

/-- `CommonExpression.FromString` (core:289-292): the whole text must be read. -/
def parseExpr (T : Tables) (s : Str) : Except Fault Expr :=
  match common T (3 * s.length + 3) [] s with
  | .error e => .error e
  | .ok (some e, []) => .ok e
  | .ok _ => .error .valueError

/-! ## Writing -/

/-- `rValue.operator is not None and rValue<self` (core:323, 398, 403). -/
def weaker (e : Expr) (op : Oper) : Bool :=
  match e.oper with
  | some o => o.cat < op.cat
  | none => false

/-- `"(%s)"%unicode(e)` or `unicode(e)` (core:323-327, 398-407). -/
def bracketed (b : Bool) (t : Str) : Str := if b then '(' :: (t ++ [')']) else t

/-- The text of a binary operator: prefix, infix and suffix (core:384-395).  `paren`, `methodCall` and `negate` are never
operators of a `BinaryExpression`; the message for them is an error of its own (core:393). -/
def binaryText (op : Oper) : Except Fault (Str × Str × Str) :=
  if op.special then
    match op with
    | .member => .ok ([], ['/'], [])
    | .cast | .isof => .ok (op.name ++ ['('], [','], [')'])
    | _ => .error .typeError
  else .ok ([], ' ' :: (op.name ++ [' ']), [])

mutual

/-- `unicode(e)` (core:317-328, 383-408, 733-760, 773-774, 809-810): an operand that is missing raises `IndexError`, and
`None` as an operand `AttributeError`.  Only the operands that are written are looked at. -/
def Expr.text (fin : Bool → Nat → Int → Str) : Expr → Except Fault Str
  | .absent => .error .attributeError
  | .lit v => .ok (litText fin v)
  | .prop name => .ok name
  | .unary op args =>
    match args with
    | [] => .error .indexError
    | x :: _ =>
      (x.text fin).map fun t =>
        (if op = .negate then ['-'] else op.name ++ [' ']) ++ bracketed (weaker x op) t
  | .binary op args =>
    match binaryText op with
    | .error e => .error e
    | .ok (p, i, q) =>
      match args with
      | [] => .error .indexError
      | [_] => .error .indexError
      | x :: y :: _ =>
        match x.text fin with
        | .error e => .error e
        | .ok a =>
          match y.text fin with
          | .error e => .error e
          | .ok b => .ok (p ++ bracketed (weaker x op) a ++ i ++ bracketed (weaker y op) b ++ q)
  | .call m args => (textList fin args).map fun ts => m.name ++ '(' :: (Py.join ',' ts ++ [')'])

/-- `map(lambda x:unicode(x),self.operands)` (core:810). -/
def textList (fin : Bool → Nat → Int → Str) : List Expr → Except Fault (List Str)
  | [] => .ok []
  | x :: rest =>
    match x.text fin with
    | .error e => .error e
    | .ok t => (textList fin rest).map (t :: ·)

end

end Verif.OData
