import Verif.Model.XmlNames

/-!
# What names with prefixes mean

The recommendation on namespaces in XML, for trees of tags.
-/

namespace Verif.PyXml.Names
open Verif

/-- A tree of elements with their namespaces; attributes without prefix have none. -/
inductive Tree where
  | text (s : Str)
  | elem (ns : Option Str) (name : Str) (attrs : List ((Option Str × Str) × Str)) (children : List Tree)

/-- What is bound to each prefix; the empty prefix is the default namespace of elements. -/
abbrev Env := Str → Option Str

/-- At the start only `xml` is bound. -/
def Env.base : Env := fun p => if p = "xml".toList then some xmlNS else none

/-- The name of the attribute that declares a prefix. -/
def declName (p : Str) : Str := if p = [] then "xmlns".toList else "xmlns:".toList ++ p

/-- Whether an attribute is a declaration. -/
def IsDecl (a : Str) : Prop := ∃ p, a = declName p

/-- The value of an attribute. -/
def value (a : Str) : List (Str × Str) → Option Str
  | [] => none
  | (x, v) :: l => if x = a then some v else value a l

/-- What is bound inside a tag with these attributes: what it declares, where an empty value removes a binding, else what is bound
outside. -/
def Env.extend (env : Env) (attrs : List (Str × Str)) : Env := fun p =>
  if p = "xml".toList then some xmlNS
  else match value (declName p) attrs with
    | none => env p
    | some [] => none
    | some (c :: u) => some (c :: u)

/-- The name of an element. -/
inductive NameOf (env : Env) : Str → Option Str × Str → Prop where
  | plain {q} : ':' ∉ q → NameOf env q (env [], q)
  | prefixed {p l u} : p ≠ [] → ':' ∉ p → ':' ∉ l → env p = some u → NameOf env (p ++ ':' :: l) (some u, l)

/-- The name of an attribute. -/
inductive AttrOf (env : Env) : Str → Option Str × Str → Prop where
  | plain {q} : ':' ∉ q → AttrOf env q (none, q)
  | prefixed {p l u} : p ≠ [] → ':' ∉ p → ':' ∉ l → env p = some u → AttrOf env (p ++ ':' :: l) (some u, l)

/-- The attributes that do not declare. -/
inductive AttrsMean (env : Env) : List (Str × Str) → List ((Option Str × Str) × Str) → Prop where
  | nil : AttrsMean env [] []
  | decl {a v l r} : IsDecl a → AttrsMean env l r → AttrsMean env ((a, v) :: l) r
  | attr {a v n l r} : ¬ IsDecl a → AttrOf env a n → AttrsMean env l r → AttrsMean env ((a, v) :: l) ((n, v) :: r)

mutual
/-- What a tree of tags means.  No two attributes may have the same name, before and after prefixes are replaced. -/
inductive Means : Env → Raw → Tree → Prop where
  | text {env s} : Means env (.text s) (.text s)
  | elem {env q attrs cs ns name as ts} : NameOf (env.extend attrs) q (ns, name) → AttrsMean (env.extend attrs) attrs as →
      (attrs.map Prod.fst).Nodup → (as.map Prod.fst).Nodup → MeanAll (env.extend attrs) cs ts →
      Means env (.elem q attrs cs) (.elem ns name as ts)

/-- What the tags of a list mean. -/
inductive MeanAll : Env → List Raw → List Tree → Prop where
  | nil {env} : MeanAll env [] []
  | cons {env r t rs ts} : Means env r t → MeanAll env rs ts → MeanAll env (r :: rs) (t :: ts)
end

/-- The name of an attribute of the program. -/
def attrTree (n : AttrName) : Option Str × Str := if n.1 = some noNS then (none, n.2) else n

mutual
/-- The tree of an element of the program. -/
def Node.tree : Node → Tree
  | .text s => .text s
  | .elem ns name attrs _ cs => .elem ns name (attrs.map fun a => (attrTree a.1, a.2)) (Node.trees cs)

/-- The trees of a list. -/
def Node.trees : List Node → List Tree
  | [] => []
  | n :: ns => n.tree :: Node.trees ns
end

/-! ## Conditions -/

/-- A name that does not begin with the reserved letters. -/
def Free (a : Str) : Prop := a.take 5 ≠ "xmlns".toList

mutual
/-- No namespace is removed or called `~`, and names that begin with `xmlns` are only used for declarations. -/
def Raw.Plain : Raw → Prop
  | .text _ => True
  | .elem q attrs cs => Free q ∧ (∀ e ∈ attrs, (IsDecl e.1 → e.2 ≠ [] ∧ e.2 ≠ noNS) ∧ (¬ IsDecl e.1 → Free e.1)) ∧ Raw.AllPlain cs

/-- All of a list. -/
def Raw.AllPlain : List Raw → Prop
  | [] => True
  | r :: rs => r.Plain ∧ Raw.AllPlain rs
end

/-- The dictionaries of an element fit each other, and hold proper prefixes and namespaces; the default namespace is in `D`. -/
structure Maps.Ok (D : Str → Prop) (m : Maps) : Prop where
  fits : ∀ u p, get u m.toPrefix = some p → get p m.toNS = some u
  keys : (m.toNS.map Prod.fst).Nodup
  clean : ∀ e ∈ m.toNS, ':' ∉ e.1 ∧ e.1 ≠ "xml".toList ∧ Free e.1 ∧ e.2 ≠ [] ∧ e.2 ≠ noNS
  default : ∀ u, get [] m.toNS = some u → D u

/-- A local name. -/
def Local (a : Str) : Prop := ':' ∉ a ∧ Free a

mutual
/-- All elements have a namespace, which is in `D`, and no attribute has one that is in `D`. -/
def Node.Ok (D : Str → Prop) : Node → Prop
  | .text _ => True
  | .elem ns name attrs m cs =>
    (∃ u, ns = some u ∧ u ≠ [] ∧ u ≠ noNS ∧ D u) ∧ Local name ∧
    (∀ e ∈ attrs, Local e.1.2 ∧ (e.1.1 = some noNS ∨ ∃ u, e.1.1 = some u ∧ u ≠ [] ∧ u ≠ noNS ∧ ¬ D u)) ∧
    (attrs.map Prod.fst).Nodup ∧ m.Ok D ∧ Node.AllOk D cs

/-- All of a list. -/
def Node.AllOk (D : Str → Prop) : List Node → Prop
  | [] => True
  | n :: ns => n.Ok D ∧ Node.AllOk D ns
end

mutual
/-- No element has declarations: it was made by a program and not read. -/
def Node.Fresh : Node → Prop
  | .text _ => True
  | .elem _ _ _ m cs => m = Maps.empty ∧ Node.AllFresh cs

/-- All of a list. -/
def Node.AllFresh : List Node → Prop
  | [] => True
  | n :: ns => n.Fresh ∧ Node.AllFresh ns
end

/-- What a tag declares. -/
def Declares (attrs : List (Str × Str)) (p u : Str) : Prop := (declName p, u) ∈ attrs

mutual
/-- Prefixes are proper names, and no tag declares two prefixes for one namespace. -/
def Raw.Single : Raw → Prop
  | .text _ => True
  | .elem _ attrs cs => (∀ p u, Declares attrs p u → ':' ∉ p ∧ p ≠ "xml".toList ∧ Free p) ∧
      (∀ p q u, Declares attrs p u → Declares attrs q u → p = q) ∧ Raw.AllSingle cs

/-- All of a list. -/
def Raw.AllSingle : List Raw → Prop
  | [] => True
  | r :: rs => r.Single ∧ Raw.AllSingle rs
end

mutual
/-- Only namespaces in `D` are default namespaces. -/
def Raw.Defaults (D : Str → Prop) : Raw → Prop
  | .text _ => True
  | .elem _ attrs cs => (∀ u, Declares attrs [] u → D u) ∧ Raw.AllDefaults D cs

/-- All of a list. -/
def Raw.AllDefaults (D : Str → Prop) : List Raw → Prop
  | [] => True
  | r :: rs => r.Defaults D ∧ Raw.AllDefaults D rs
end

mutual
/-- All elements have a namespace, which is in `D`, and no attribute has one that is in `D`; local names do not begin with the reserved
letters. -/
def Tree.Apart (D : Str → Prop) : Tree → Prop
  | .text _ => True
  | .elem ns name attrs ts => (∃ u, ns = some u ∧ D u) ∧ Free name ∧
      (∀ e ∈ attrs, Free e.1.2 ∧ ∀ u, e.1.1 = some u → ¬ D u) ∧ Tree.AllApart D ts

/-- All of a list. -/
def Tree.AllApart (D : Str → Prop) : List Tree → Prop
  | [] => True
  | t :: ts => t.Apart D ∧ Tree.AllApart D ts
end

end Verif.PyXml.Names
