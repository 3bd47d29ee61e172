import Verif.Model.Py

/-!
# What credentials and redirects of the HTTP client are held to

Nothing here refers to the model of the code, but for the texts of numbers.
-/

namespace Verif.Spec.HttpAuth

open Verif

/-- The host and, unless it is the usual one of the scheme, the port. -/
def serverText (https : Bool) (host : Str) (port : Nat) : Str :=
  host ++ (if port = (if https then 443 else 80) then [] else ':' :: Py.strNat port)

/-- A text of a protection space names a server: `http://host:port`.  A host is not empty and has no colon in it.  An at
sign before the host, with no user name before it, is kept. -/
def Names (text : Str) (https : Bool) (host : Str) (port : Nat) : Prop :=
  host ≠ [] ∧ ':' ∉ host ∧
  (('@' ∉ host ∧ text = (if https then "https://".toList else "http://".toList) ++ serverText https host port) ∨
   text = (if https then "https://".toList else "http://".toList) ++ '@' :: serverText https host port)

/-- The segments of one path cover those of another: there are as many of them at least, and those of the first are
either empty or the same. -/
def Covers (p q : List Str) : Prop :=
  p.length ≤ q.length ∧ ∀ i (h : i < p.length) (h' : i < q.length), p[i] = [] ∨ p[i] = q[i]

/-- A path is that of another, or below it.  What is below a directory, with an empty segment at its end, has another
segment in its place. -/
def Below (p q : List Str) : Prop :=
  (∃ rest, q = p ++ rest) ∨ ∃ dir x rest, p = dir ++ [[]] ∧ q = dir ++ x :: rest

/-- No empty segment but at the end. -/
def Plain (p : List Str) : Prop := ∀ s ∈ p.dropLast, s ≠ []

/-- Equal but for the case of letters. -/
def SameName (a b : Str) : Prop := Py.lower a = Py.lower b

end Verif.Spec.HttpAuth
