import Verif.Model.SqlExpr

/-!
# What SQL conditions mean

A database reads the text of a condition with its own table of precedences, operators of one level from the left, and
gives the parameters to the question marks in their order.
-/

namespace Verif.Spec.Sql

open Verif Verif.OData Verif.OData.Sql

/-- Conditions as trees. -/
inductive Tree where
  | param (p : Param)
  | column (q : Str)
  | percent
  | bin (o : Op) (a b : Tree)
  | call1 (opening closing : Str) (a : Tree)
  | call2 (opening mid closing : Str) (a b : Tree)
deriving DecidableEq

/-- What is left to be read: the text and the parameters. -/
abbrev Input := List Piece × List Param

mutual

/-- An operand: a parameter, a column, a literal, something in brackets or a call. -/
def operand (lv : Op → Nat) : Nat → Input → Option (Tree × Input)
  | 0, _ => none
  | n + 1, inp =>
    match inp with
    | (.hole :: q, p :: ps) => some (.param p, q, ps)
    | (.name s :: q, ps) => some (.column s, q, ps)
    | (.percent :: q, ps) => some (.percent, q, ps)
    | (.lp :: q, ps) =>
      match condition lv n 0 (q, ps) with
      | some (t, .rp :: q', ps') => some (t, q', ps')
      | _ => none
    | (.opening f :: q, ps) =>
      match condition lv n 0 (q, ps) with
      | some (t, .closing c :: q', ps') => some (.call1 f c t, q', ps')
      | some (t, .mid m :: q', ps') =>
        match condition lv n 0 (q', ps') with
        | some (u, .closing c :: q'', ps'') => some (.call2 f m c t u, q'', ps'')
        | _ => none
      | _ => none
    | _ => none

/-- Operands joined by operators of the level `k` and above. -/
def condition (lv : Op → Nat) : Nat → Nat → Input → Option (Tree × Input)
  | 0, _, _ => none
  | n + 1, k, inp =>
    match operand lv n inp with
    | some (t, rest) => more lv n k t rest
    | none => none

/-- The operators after what has been read. -/
def more (lv : Op → Nat) : Nat → Nat → Tree → Input → Option (Tree × Input)
  | 0, _, _, _ => none
  | n + 1, k, t, inp =>
    match inp with
    | (.op o :: q, ps) =>
      if k ≤ lv o then
        match condition lv n (lv o + 1) (q, ps) with
        | some (u, rest) => more lv n k (.bin o t u) rest
        | none => none
      else some (t, inp)
    | _ => some (t, inp)

end

/-- The whole text is read as `t`, however much time is given above some bound. -/
def ReadsAs (lv : Op → Nat) (q : List Piece) (ps : List Param) (t : Tree) : Prop :=
  ∃ n, ∀ m, n ≤ m → condition lv m 0 (q, ps) = some (t, [], [])

/-! ## What a filter should become -/

/-- The names on the way to a property: `Address/City` has the names `Address` and `City`. -/
inductive Path : Expr → List Str → Prop where
  | prop (n) : Path (.prop n) [n]
  | member {a b more x y} : Path a x → Path b y → Path (.binary .member (a :: b :: more)) (x ++ y)

/-- The operator of SQL for an operator of OData. -/
def opOf : Oper → Option Op
  | .mul => some .mul
  | .div => some .div
  | .add => some .add
  | .sub => some .sub
  | .lt => some .lt
  | .gt => some .gt
  | .le => some .le
  | .ge => some .ge
  | .eq => some .eq
  | .ne => some .ne
  | .boolAnd => some .and
  | .boolOr => some .or
  | _ => none

/-- `Meant C e t`: the tree `t` has the structure of the filter `e`. -/
inductive Meant (C : Coll) : Expr → Tree → Prop where
  | lit {v p} : prepare v = .ok p → Meant C (.lit v) (.param p)
  | prop {name q} : C.mangled [name] = some q → Meant C (.prop name) (.column (C.column q))
  | member {args names q} : Path (.binary .member args) names → C.mangled names = some q →
      Meant C (.binary .member args) (.column (C.column q))
  | bin {op o a b more x y} : opOf op = some o → Meant C a x → Meant C b y →
      Meant C (.binary op (a :: b :: more)) (.bin o x y)
  | startswith {a b more x y} : Meant C a x → Meant C b y →
      Meant C (.call .startswith (a :: b :: more)) (.bin .like x (.bin .concat y .percent))
  | endswith {a b more x y} : Meant C a x → Meant C b y →
      Meant C (.call .endswith (a :: b :: more)) (.bin .like x (.bin .concat .percent y))
  | substringof {a b more x y} : Meant C a x → Meant C b y →
      Meant C (.call .substringof (a :: b :: more))
        (.bin .like y (.bin .concat .percent (.bin .concat x .percent)))
  | concat {a b more x y} : Meant C a x → Meant C b y → Meant C (.call .concat (a :: b :: more)) (.bin .concat x y)
  | indexof {a b more x y} : Meant C a x → Meant C b y →
      Meant C (.call .indexof (a :: b :: more)) (.call2 "POSITION(".toList " IN ".toList ")".toList x y)
  | function {m f c a more x} : function C.lite m = some (f, c) → Meant C a x →
      Meant C (.call m (a :: more)) (.call1 f c x)

/-- The operators that may be regrouped. -/
def regroups : Op → Bool
  | .or | .and | .concat => true
  | _ => false

/-- Trees that differ in the grouping of `AND`, `OR` and `||` only. -/
inductive Regrouped : Tree → Tree → Prop where
  | refl (t) : Regrouped t t
  | symm {s t} : Regrouped s t → Regrouped t s
  | trans {s t u} : Regrouped s t → Regrouped t u → Regrouped s u
  | bin {o a a' b b'} : Regrouped a a' → Regrouped b b' → Regrouped (.bin o a b) (.bin o a' b')
  | call1 {f c a a'} : Regrouped a a' → Regrouped (.call1 f c a) (.call1 f c a')
  | call2 {f m c a a' b b'} : Regrouped a a' → Regrouped b b' → Regrouped (.call2 f m c a b) (.call2 f m c a' b')
  | assoc {o a b c} : regroups o = true → Regrouped (.bin o (.bin o a b) c) (.bin o a (.bin o b c))

/-! ## The tables of databases -/

/-- What every table of precedences has in common: `OR` is below `AND`, `AND` below the comparisons, these below `+` and
`-`, which are on one level below `*` and `/`, which are on one level; `||` is above the comparisons. -/
structure Precedences (lv : Op → Nat) : Prop where
  orAnd : lv .or < lv .and
  andCmp : ∀ o ∈ [Op.eq, .ne, .lt, .gt, .le, .ge, .like], lv .and < lv o
  cmpAdd : ∀ o ∈ [Op.eq, .ne, .lt, .gt, .le, .ge, .like], lv o < lv .add
  cmpConcat : ∀ o ∈ [Op.eq, .ne, .lt, .gt, .le, .ge, .like], lv o < lv .concat
  addSub : lv .add = lv .sub
  addMul : lv .add < lv .mul
  mulDiv : lv .mul = lv .div

/-- The table of SQLite. -/
def sqlite : Op → Nat
  | .or => 1
  | .and => 2
  | .eq | .ne | .like => 3
  | .lt | .gt | .le | .ge => 4
  | .add | .sub => 5
  | .mul | .div => 6
  | .concat => 7

/-- The table of the SQL standard, with `||` among the operators `+` and `-`. -/
def standard : Op → Nat
  | .or => 1
  | .and => 2
  | .eq | .ne | .like | .lt | .gt | .le | .ge => 3
  | .add | .sub | .concat => 4
  | .mul | .div => 5

/-! ## Filters whose brackets are not needed -/

/-- Shapes of filters by their outermost operator. -/
inductive Shape where
  | or | and | cmp | add | sub | mul | div | concat | other
deriving DecidableEq

/-- The shape of a filter. -/
def shapeOf : Expr → Shape
  | .binary .boolOr _ => .or
  | .binary .boolAnd _ => .and
  | .binary .eq _ | .binary .ne _ | .binary .lt _ | .binary .gt _ | .binary .le _ | .binary .ge _ => .cmp
  | .call .startswith _ | .call .endswith _ | .call .substringof _ => .cmp
  | .binary .add _ => .add
  | .binary .sub _ => .sub
  | .binary .mul _ => .mul
  | .binary .div _ => .div
  | .call .concat _ => .concat
  | _ => .other

/-- What may stand left and right of an operator so that the text keeps its meaning: no comparison is compared, the text of
`concat` is not calculated with, and what is on the right of `-`, `/`, `+` and `*` is not of the same level. -/
def mayStand (o : Shape) (l r : Shape) : Bool :=
  match o with
  | .or | .and => true
  | .cmp => l != .cmp && r != .cmp
  | .add | .sub => l != .concat && r != .concat && r != .sub && r != .add
  | .mul | .div => l != .concat && r != .concat && r != .div && r != .mul
  | .concat => l != .mul && l != .div && r != .mul && r != .div
  | .other => true

/-- Filters all of whose operators stand so. -/
inductive Orderly : Expr → Prop where
  | lit (v) : Orderly (.lit v)
  | prop (n) : Orderly (.prop n)
  | member (args) : Orderly (.binary .member args)
  | binary {op a b more} : Orderly a → Orderly b → mayStand (shapeOf (.binary op (a :: b :: more))) (shapeOf a) (shapeOf b) = true →
      Orderly (.binary op (a :: b :: more))
  | startswith {a b more} : Orderly a → Orderly b → shapeOf a ≠ .cmp → shapeOf b ≠ .mul → shapeOf b ≠ .div →
      Orderly (.call .startswith (a :: b :: more))
  | endswith {a b more} : Orderly a → Orderly b → shapeOf a ≠ .cmp → shapeOf b ≠ .mul → shapeOf b ≠ .div →
      Orderly (.call .endswith (a :: b :: more))
  | substringof {a b more} : Orderly a → Orderly b → shapeOf b ≠ .cmp → shapeOf a ≠ .mul → shapeOf a ≠ .div →
      Orderly (.call .substringof (a :: b :: more))
  | concat {a b more} : Orderly a → Orderly b → mayStand .concat (shapeOf a) (shapeOf b) = true →
      Orderly (.call .concat (a :: b :: more))
  | indexof {a b more} : Orderly a → Orderly b → Orderly (.call .indexof (a :: b :: more))
  | function {m a more} : m ≠ .startswith → m ≠ .endswith → m ≠ .substringof → m ≠ .concat → m ≠ .indexof → Orderly a →
      Orderly (.call m (a :: more))

end Verif.Spec.Sql
