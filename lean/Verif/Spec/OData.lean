import Verif.Model.ODataExpr

/-!
# What the texts of OData expressions mean

The literals and the expressions of the OData 2 URI conventions, with the values they stand for, written as relations
between texts and values.  Nothing here mentions how texts are read.
-/

namespace Verif.Spec.OData

open Verif Verif.OData

/-- White space. -/
def Blank (w : Str) : Prop := ∀ c ∈ w, c = ' ' ∨ c = '\t'

/-- Decimal digits, at least one. -/
def Digits (d : Str) : Prop := d ≠ [] ∧ ∀ c ∈ d, Py.isDigit c = true

/-- Hexadecimal digits. -/
def Hex (d : Str) : Prop := ∀ c ∈ d, Py.isHex c = true

/-- Names: segments that begin with a letter, joined by points. -/
inductive Ident (T : Tables) : Str → Prop
  | one {c : Char} {t : Str} : T.start c = true → (∀ d ∈ t, T.more d = true) → Ident T (c :: t)
  | dotted {c : Char} {t n : Str} : T.start c = true → (∀ d ∈ t, T.more d = true) → Ident T n → Ident T (c :: (t ++ '.' :: n))

/-- An optional sign. -/
def sign (neg : Bool) (t : Str) : Str := if neg then '-' :: t else t

/-- The number with the given sign. -/
def signed (neg : Bool) (n : Nat) : Int := if neg then -n else n

/-- The text in quotes with the quotes inside doubled. -/
def quote (s : Str) : Str := '\'' :: (s.flatMap (fun c => if c = '\'' then ['\'', '\''] else [c]) ++ ['\''])

/-- A time of day: hours, minutes and, if given, seconds with a fraction of at most seven digits. -/
inductive Clock : Str → Nat → Nat → Nat → Str → Prop
  | short {h m : Str} : Digits h → h.length ≤ 2 → Digits m → m.length ≤ 2 →
    Clock (h ++ ':' :: m) (Py.digitsVal 10 h) (Py.digitsVal 10 m) 0 []
  | whole {h m s : Str} : Digits h → h.length ≤ 2 → Digits m → m.length ≤ 2 → Digits s → s.length ≤ 2 →
    Clock (h ++ ':' :: (m ++ ':' :: s)) (Py.digitsVal 10 h) (Py.digitsVal 10 m) (Py.digitsVal 10 s) []
  | fraction {h m s f : Str} : Digits h → h.length ≤ 2 → Digits m → m.length ≤ 2 → Digits s → s.length ≤ 2 →
    Digits f → f.length ≤ 7 →
    Clock (h ++ ':' :: (m ++ ':' :: (s ++ '.' :: f))) (Py.digitsVal 10 h) (Py.digitsVal 10 m) (Py.digitsVal 10 s) f

/-- Times of day that exist: up to 23:59:60, and midnight as 24:00:00. -/
def TimeOfDay (h m s : Nat) (f : Str) : Prop :=
  (h < 24 ∧ m < 60 ∧ s ≤ 60) ∨ (h = 24 ∧ m = 0 ∧ s = 0 ∧ ∀ c ∈ f, c = '0')

/-- The number of days of a month. -/
def daysIn (year month : Nat) : Nat :=
  if month = 2 then (if (year % 4 = 0 ∧ year % 100 ≠ 0) ∨ year % 400 = 0 then 29 else 28)
  else if month = 4 ∨ month = 6 ∨ month = 9 ∨ month = 11 then 30 else 31

/-- `m·10^e` is at most `bound`. -/
def Below (m : Nat) (e : Int) (bound : Nat) : Prop :=
  (0 ≤ e → m * 10 ^ e.toNat ≤ bound) ∧ (e < 0 → m ≤ bound * 10 ^ (-e).toNat)

/-- The texts of literals and their values. -/
inductive Literal (T : Tables) : Str → Lit → Prop
  | null {t : Str} : Py.lower t = "null".toList → Literal T t .null
  | true {t : Str} : Py.lower t = "true".toList → Literal T t (.bool true)
  | false {t : Str} : Py.lower t = "false".toList → Literal T t (.bool false)
  | int32 {neg : Bool} {d : Str} : Digits d → d.length ≤ 10 → -2147483648 ≤ signed neg (Py.digitsVal 10 d) →
    signed neg (Py.digitsVal 10 d) ≤ 2147483647 → Literal T (sign neg d) (.int32 (signed neg (Py.digitsVal 10 d)))
  | int64 {neg : Bool} {d : Str} {c : Char} : Digits d → d.length ≤ 19 → c = 'L' ∨ c = 'l' →
    -9223372036854775808 ≤ signed neg (Py.digitsVal 10 d) → signed neg (Py.digitsVal 10 d) ≤ 9223372036854775807 →
    Literal T (sign neg (d ++ [c])) (.int64 (signed neg (Py.digitsVal 10 d)))
  | whole {neg : Bool} {d : Str} {c : Char} : Digits d → d.length ≤ 29 → c = 'M' ∨ c = 'm' →
    Literal T (sign neg (d ++ [c])) (.decimal neg (Py.digitsVal 10 d) 0)
  | decimal {neg : Bool} {d f : Str} {c : Char} : Digits d → d.length ≤ 29 → Digits f → f.length ≤ 29 → c = 'M' ∨ c = 'm' →
    Literal T (sign neg (d ++ '.' :: (f ++ [c]))) (.decimal neg (Py.digitsVal 10 (d ++ f)) f.length)
  | double {neg : Bool} {d f : Str} {c : Char} : Digits d → Digits f → d.length ≤ 308 → c = 'D' ∨ c = 'd' →
    Literal T (sign neg (d ++ '.' :: (f ++ [c]))) (.double (.fin neg (Py.digitsVal 10 (d ++ f)) (-f.length)))
  | doubleWhole {neg : Bool} {d : Str} {c : Char} : Digits d → d.length ≤ 17 → c = 'D' ∨ c = 'd' →
    Literal T (sign neg (d ++ [c])) (.double (.fin neg (Py.digitsVal 10 d) 0))
  | singleWhole {neg : Bool} {d : Str} {c : Char} : Digits d → d.length ≤ 8 → c = 'F' ∨ c = 'f' →
    Literal T (sign neg (d ++ [c])) (.single (.fin neg (Py.digitsVal 10 d) 0))
  | doubleExp {neg eneg : Bool} {d f x : Str} {m c : Char} : Digits d → Digits f → d.length + f.length ≤ 17 → Digits x →
    x.length ≤ 3 → m = 'E' ∨ m = 'e' → c = 'D' ∨ c = 'd' →
    Below (Py.digitsVal 10 (d ++ f)) (signed eneg (Py.digitsVal 10 x) - f.length) (2 ^ 1024 - 2 ^ 970) →
    Literal T (sign neg (d ++ '.' :: (f ++ m :: (sign eneg (x ++ [c])))))
      (.double (.fin neg (Py.digitsVal 10 (d ++ f)) (signed eneg (Py.digitsVal 10 x) - f.length)))
  | single {neg : Bool} {d f : Str} {c : Char} : Digits d → Digits f → d.length ≤ 38 → c = 'F' ∨ c = 'f' →
    Literal T (sign neg (d ++ '.' :: (f ++ [c]))) (.single (.fin neg (Py.digitsVal 10 (d ++ f)) (-f.length)))
  | singleExp {neg eneg : Bool} {d f x : Str} {m c : Char} : Digits d → Digits f → d.length + f.length ≤ 9 → Digits x →
    x.length ≤ 2 → m = 'E' ∨ m = 'e' → c = 'F' ∨ c = 'f' →
    Below (Py.digitsVal 10 (d ++ f)) (signed eneg (Py.digitsVal 10 x) - f.length) ((2 ^ 24 - 1) * 2 ^ 104) →
    Literal T (sign neg (d ++ '.' :: (f ++ m :: (sign eneg (x ++ [c])))))
      (.single (.fin neg (Py.digitsVal 10 (d ++ f)) (signed eneg (Py.digitsVal 10 x) - f.length)))
  | nanDouble {t : Str} : Py.lower t = "nand".toList → Literal T t (.double .nan)
  | infDouble {t : Str} : Py.lower t = "infd".toList → Literal T t (.double (.inf false))
  | negInfDouble {t : Str} {c : Char} : Py.lower t = "inf".toList → c = 'D' ∨ c = 'd' →
    Literal T ('-' :: (t ++ [c])) (.double (.inf true))
  | nanSingle {t : Str} : Py.lower t = "nanf".toList → Literal T t (.single .nan)
  | infSingle {t : Str} : Py.lower t = "inff".toList → Literal T t (.single (.inf false))
  | negInfSingle {t : Str} {c : Char} : Py.lower t = "inf".toList → c = 'F' ∨ c = 'f' →
    Literal T ('-' :: (t ++ [c])) (.single (.inf true))
  | string {s : Str} : Literal T (quote s) (.string s)
  | binary {p : Str} {b : List (Char × Char)} : p = ['X'] ∨ Py.lower p = "binary".toList →
    (∀ x ∈ b, Py.isHex x.1 = true ∧ Py.isHex x.2 = true) →
    Literal T (p ++ '\'' :: (b.flatMap (fun x => [x.1, x.2]) ++ ['\'']))
      (.binary (b.map fun x => 16 * Py.hexVal x.1 + Py.hexVal x.2))
  | guid {p a b c d e : Str} : Py.lower p = "guid".toList → Hex a → a.length = 8 → Hex b → b.length = 4 → Hex c →
    c.length = 4 → Hex d → d.length = 4 → Hex e → e.length = 12 →
    Literal T (p ++ '\'' :: (a ++ '-' :: (b ++ '-' :: (c ++ '-' :: (d ++ '-' :: (e ++ ['\'']))))))
      (.guid (Py.digitsVal 16 (a ++ b ++ c ++ d ++ e)))
  | dateTime {p y mo d clock f : Str} {h m s : Nat} : Py.lower p = "datetime".toList →
    Digits y → y.length = 4 → Digits mo → mo.length ≤ 2 → Digits d → d.length ≤ 2 → Clock clock h m s f →
    1 ≤ Py.digitsVal 10 y → 1 ≤ Py.digitsVal 10 mo → Py.digitsVal 10 mo ≤ 12 → 1 ≤ Py.digitsVal 10 d →
    Py.digitsVal 10 d ≤ daysIn (Py.digitsVal 10 y) (Py.digitsVal 10 mo) → TimeOfDay h m s f →
    Literal T (p ++ '\'' :: (y ++ '-' :: (mo ++ '-' :: (d ++ 'T' :: (clock ++ ['\''])))))
      (.dateTime { century := (Py.digitsVal 10 y / 100 : Nat), year := (Py.digitsVal 10 y % 100 : Nat),
                   month := Py.digitsVal 10 mo, day := Py.digitsVal 10 d } h m s f)
  | time {p clock f : Str} {h m s : Nat} : Py.lower p = "time".toList → Clock clock h m s f → TimeOfDay h m s f →
    Literal T (p ++ '\'' :: (clock ++ ['\''])) (.time h m s f)
  | offset {p t : Str} : Py.lower p = "datetimeoffset".toList → '\'' ∉ t → T.offset t = true →
    Literal T (p ++ '\'' :: (t ++ ['\''])) (.offset t)

/-- The values that can be written: those of their type, without finite floats, without a fraction of a second, and dates
with a zone without quotes. -/
def Sound (T : Tables) : Lit → Prop
  | .null => True
  | .bool _ => True
  | .int32 n => -2147483648 ≤ n ∧ n ≤ 2147483647
  | .int64 n => -9223372036854775808 ≤ n ∧ n ≤ 9223372036854775807
  | .decimal _ c scale => scale ≤ 29 ∧ c < 10 ^ (29 + scale)
  | .double x => ∀ neg m e, x ≠ .fin neg m e
  | .single x => ∀ neg m e, x ≠ .fin neg m e
  | .string _ => True
  | .binary b => ∀ n ∈ b, n < 256
  | .guid n => n < 16 ^ 32
  | .dateTime d h m s f =>
    ∃ y mo da : Nat, d = { century := (y / 100 : Nat), year := (y % 100 : Nat), month := (mo : Nat), day := (da : Nat) } ∧
      1 ≤ y ∧ y ≤ 9999 ∧ 1 ≤ mo ∧ mo ≤ 12 ∧ 1 ≤ da ∧ da ≤ daysIn y mo ∧ TimeOfDay h m s f ∧ f = []
  | .time h m s f => TimeOfDay h m s f ∧ f = []
  | .offset t => '\'' ∉ t ∧ T.offset t = true

/-- Names that are no literal and no operator, so that they are names of properties. -/
def PropertyName (T : Tables) (n : Str) : Prop :=
  Ident T n ∧ n ≠ "X".toList ∧ n ≠ "not".toList ∧ n ≠ "isof".toList ∧ n ≠ "cast".toList ∧
    Py.lower n ∉ ["null".toList, "true".toList, "false".toList, "datetimeoffset".toList, "datetime".toList, "time".toList,
      "binary".toList, "nand".toList, "nanf".toList, "infd".toList, "inff".toList, "guid".toList]

/-- The text begins like a number, so that a minus before it belongs to the number. -/
def NumberLike (t : Str) : Prop :=
  (∃ c u, t = c :: u ∧ (Py.isDigit c = true ∨ c = '.')) ∨ Py.lower (t.take 3) = "inf".toList ∨
    Py.lower (t.take 3) = "nan".toList

/-- The binary operators with a name, from the one that binds least: `or`, `and`, equality, relations, sums, products. -/
inductive Infix : Nat → Str → Oper → Prop
  | or : Infix 2 "or".toList .boolOr
  | and : Infix 3 "and".toList .boolAnd
  | eq : Infix 4 "eq".toList .eq
  | ne : Infix 4 "ne".toList .ne
  | lt : Infix 5 "lt".toList .lt
  | gt : Infix 5 "gt".toList .gt
  | le : Infix 5 "le".toList .le
  | ge : Infix 5 "ge".toList .ge
  | add : Infix 6 "add".toList .add
  | sub : Infix 6 "sub".toList .sub
  | mul : Infix 7 "mul".toList .mul
  | div : Infix 7 "div".toList .div
  | mod : Infix 7 "mod".toList .mod

/-- The tree is not that of a sign or of `not`. -/
def NotPrefixed : Expr → Prop
  | .unary .. => False
  | _ => True

mutual

/-- `Denotes T k t e`: the text `t` is an expression all of whose open operators bind at least as strongly as level `k`, and
`e` is its tree.  Operators of the same level group to the left. -/
inductive Denotes (T : Tables) : Nat → Str → Expr → Prop
  | lit {t : Str} {v : Lit} : Literal T t v → Denotes T 10 t (.lit v)
  | prop {n : Str} : PropertyName T n → Denotes T 10 n (.prop n)
  | paren {t w w' : Str} {e : Expr} : Denotes T 2 t e → NotPrefixed e → Blank w → Blank w' →
    Denotes T 10 ('(' :: (w ++ (t ++ (w' ++ [')'])))) e
  | call {m : Meth} {t : Str} {es : List Expr} : DenoteArgs T t es → Denotes T 10 (m.name ++ '(' :: t) (.call m es)
  | isof {t w : Str} {e : Expr} {s : Str} : Denotes T 2 t e → Blank w →
    Denotes T 10 ("isof".toList ++ '(' :: (t ++ ',' :: (w ++ (quote s ++ [')'])))) (.binary .isof [e, .lit (.string s)])
  | cast {t w : Str} {e : Expr} {s : Str} : Denotes T 2 t e → Blank w →
    Denotes T 10 ("cast".toList ++ '(' :: (t ++ ',' :: (w ++ (quote s ++ [')'])))) (.binary .cast [e, .lit (.string s)])
  | member {t u : Str} {e f : Expr} : Denotes T 9 t e → Denotes T 10 u f →
    Denotes T 9 (t ++ '/' :: u) (.binary .member [e, f])
  | negate {t w : Str} {e : Expr} : Denotes T 9 t e → Blank w → ¬ NumberLike (w ++ t) →
    Denotes T 8 ('-' :: (w ++ t)) (.unary .negate [e])
  | not {t w : Str} {e : Expr} : Denotes T 9 t e → Blank w → w ≠ [] →
    Denotes T 8 ("not".toList ++ (w ++ t)) (.unary .boolNot [e])
  | infix {k : Nat} {t u w w' name : Str} {op : Oper} {e f : Expr} : Infix k name op → Denotes T k t e → Denotes T (k + 1) u f →
    Blank w → w ≠ [] → Blank w' → w' ≠ [] → Denotes T k (t ++ (w ++ (name ++ (w' ++ u)))) (.binary op [e, f])
  | up {k : Nat} {t : Str} {e : Expr} : Denotes T (k + 1) t e → Denotes T k t e

/-- The operands of a call with the closing bracket: at least one, separated by commas. -/
inductive DenoteArgs (T : Tables) : Str → List Expr → Prop
  | last {t w w' : Str} {e : Expr} : Denotes T 2 t e → Blank w → Blank w' → DenoteArgs T (w ++ (t ++ (w' ++ [')']))) [e]
  | more {t u w w' : Str} {e : Expr} {es : List Expr} : Denotes T 2 t e → Blank w → Blank w' → DenoteArgs T u es →
    DenoteArgs T (w ++ (t ++ (w' ++ ',' :: u))) (e :: es)

end

/-- How strongly the outermost operator of the text of a tree binds: the levels of `Denotes`. -/
def level : Expr → Nat
  | .unary .. => 8
  | .binary op _ => match op with
    | .boolOr => 2
    | .boolAnd => 3
    | .eq | .ne => 4
    | .lt | .gt | .le | .ge => 5
    | .add | .sub => 6
    | .mul | .div | .mod => 7
    | .member => 9
    | _ => 10
  | _ => 10

/-- Trees whose text can be read back: the right operand of an infix operator is no expression of the same level, a prefix
operator is not applied to an expression with a prefix operator, such an expression is no operand of a path, calls have
operands, and a minus does not stand before a text that begins like a number. -/
inductive Printable (T : Tables) (fin : Bool → Nat → Int → Str) : Expr → Prop
  | lit {v : Lit} : Sound T v → Printable T fin (.lit v)
  | prop {n : Str} : PropertyName T n → Printable T fin (.prop n)
  | negate {x : Expr} : Printable T fin x → NotPrefixed x → (∀ t, x.text fin = .ok t → ¬ NumberLike t) →
    Printable T fin (.unary .negate [x])
  | not {x : Expr} : Printable T fin x → NotPrefixed x → Printable T fin (.unary .boolNot [x])
  | infix {k : Nat} {name : Str} {op : Oper} {x y : Expr} : Infix k name op → Printable T fin x → Printable T fin y →
    level y ≠ k → Printable T fin (.binary op [x, y])
  | member {x y : Expr} : Printable T fin x → Printable T fin y → NotPrefixed x → NotPrefixed y → level y ≠ 9 →
    Printable T fin (.binary .member [x, y])
  | isof {x : Expr} {s : Str} : Printable T fin x → Printable T fin (.binary .isof [x, .lit (.string s)])
  | cast {x : Expr} {s : Str} : Printable T fin x → Printable T fin (.binary .cast [x, .lit (.string s)])
  | call {m : Meth} {args : List Expr} : args ≠ [] → (∀ x ∈ args, Printable T fin x) → Printable T fin (.call m args)

end Verif.Spec.OData
