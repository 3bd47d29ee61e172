import Verif.Model.Py

/-!
# Reading a collection page by page

`csdl.EntityCollection` (pyslet/pyslet/odata2/csdl.py:2324-2822): ordering, the page settings and `iterpage`.
Simplifications: `$top` and `$skip` are not negative (they are written as digits in a URI); a page is read to its end
before anything else happens to the collection (a generator that is abandoned leaves the page settings as they were).
-/

namespace Verif.Paging

open Verif

/-- The digits of `"%X"%n` for a non-negative integer. -/
def hexNat (n : Nat) : Str :=
  let digit (k : Nat) : Char := if k % 16 < 10 then Char.ofNat (48 + k % 16) else Char.ofNat (55 + k % 16)
  if n < 16 then [digit n] else hexNat (n / 16) ++ [digit n]
termination_by n

/-- `"%X"%i` (pyslet/pyslet/odata2/csdl.py:2773). -/
def hexFormat (i : Int) : Str := if i < 0 then '-' :: hexNat i.natAbs else hexNat i.natAbs

/-- The page settings of a collection (pyslet/pyslet/odata2/csdl.py:2420-2424). -/
structure Page where
  top : Option Nat
  skip : Option Nat
  topmax : Option Nat
  skiptoken : Option Str
  nextSkiptoken : Option Str
deriving DecidableEq

/-- `SetPage` (pyslet/pyslet/odata2/csdl.py:2709-2724). -/
def Page.set (p : Page) (top skip : Option Nat) (skiptoken : Option Str) : Page :=
  { p with top := top, skip := skip, skiptoken := skiptoken, nextSkiptoken := none }

/-- `eMin` (pyslet/pyslet/odata2/csdl.py:2760-2768).  `int(None,16)` is the `TypeError` that is caught there. -/
def Page.first (p : Page) : Int :=
  let token : Int := match p.skiptoken with
    | none => 0
    | some s => match Py.intOfHexStr s with
      | .ok i => i
      | .error _ => 0
  match p.skip with
  | none => token
  | some k => k + token

/-- `eMax` and whether the page may be truncated, that is whether `nextSkiptoken` is set
(pyslet/pyslet/odata2/csdl.py:2769-2782). -/
def Page.limit (p : Page) : Option Int × Bool :=
  match p.topmax with
  | some (m + 1) =>
    match p.top with
    | none => (some (p.first + (m + 1 : Nat)), true)
    | some t => if t > m + 1 then (some (p.first + (m + 1 : Nat)), true) else (some (p.first + t), false)
  | _ =>
    match p.top with
    | none => (none, false)
    | some t => (some (p.first + t), false)

variable {E : Type}

/-- The loops of `iterpage` (pyslet/pyslet/odata2/csdl.py:2785-2809): what is yielded, and the value of `i` if the
iteration is stopped. -/
def pageLoop (eMin : Int) (eMax : Option Int) : Int → List E → List E × Option Int
  | _, [] => ([], none)
  | i, e :: es =>
    match eMax with
    | none =>
      let r := pageLoop eMin eMax (i + 1) es
      (if i ≥ eMin then e :: r.1 else r.1, r.2)
    | some m =>
      if i < eMin then pageLoop eMin eMax (i + 1) es
      else if i < m then
        let r := pageLoop eMin eMax (i + 1) es
        (e :: r.1, r.2)
      else ([], some i)

/-- `iterpage` (pyslet/pyslet/odata2/csdl.py:2742-2815), where `values` is what `itervalues` returns: what is yielded,
and the page settings afterwards. -/
def iterpage (values : List E) (setNextPage : Bool) (p : Page) : List E × Page :=
  if p.top = some 0 then ([], p)
  else
    let (eMax, truncated) := p.limit
    let next := if truncated then eMax.map hexFormat else none
    let p := { p with nextSkiptoken := next }
    let (out, stopped) := pageLoop p.first eMax 0 values
    (out,
      if setNextPage then
        match stopped with
        | some i =>
          match next with
          | none => { p with skip := some i.toNat, skiptoken := none }
          | some t => { p with skip := none, skiptoken := some t }
        | none => { p with top := some 0, skip := some 0, skiptoken := none }
      else p)

/-- Calling `iterpage(setNextPage=True)` again and again: the first `n` pages, and the settings afterwards. -/
def readPages (values : List E) : Nat → Page → List (List E) × Page
  | 0, p => ([], p)
  | n + 1, p =>
    let r := iterpage values true p
    let rest := readPages values n r.2
    (r.1 :: rest.1, rest.2)

/-- One request to the server for a feed (pyslet/pyslet/odata2/server.py:494-496 and 678), a page of at most `topmax`
entities: the entries, and the skip token of the link to the next page, if there is one
(`GetNextPageLocation`, pyslet/pyslet/odata2/core.py:2383-2401). -/
def feed (topmax : Nat) (values : List E) (top skip : Option Nat) (skiptoken : Option Str) : List E × Option Str :=
  let start : Page := { top := none, skip := none, topmax := some topmax, skiptoken := none, nextSkiptoken := none }
  let r := iterpage values false (start.set top skip skiptoken)
  (r.1, r.2.nextSkiptoken)

/-- `entityGenerator` of the client (pyslet/pyslet/odata2/client.py:199-237), at most `n` requests: what is yielded, and
whether it came to an end.  The link to the next page has no `$top` and no `$skip`. -/
def follow (topmax : Nat) (values : List E) : Nat → Option Str → List E × Bool
  | 0, _ => ([], false)
  | n + 1, token =>
    let r := feed topmax values none none token
    if r.1.isEmpty then ([], true)
    else match r.2 with
      | none => (r.1, true)
      | some t =>
        let rest := follow topmax values n (some t)
        (r.1 ++ rest.1, rest.2)

/-- Python's `sort`: it is stable, so it gives the same list as this insertion sort. -/
def insertSorted (le : E → E → Bool) (x : E) : List E → List E
  | [] => [x]
  | y :: ys => if le x y then x :: y :: ys else y :: insertSorted le x ys

/-- `list.sort` with the given comparison (see `insertSorted`). -/
def stableSort (le : E → E → Bool) (l : List E) : List E := l.foldr (insertSorted le) []

/-- `OrderEntities` (pyslet/pyslet/odata2/csdl.py:2573-2599) when paging.  `keyLe` compares keys, each rule compares
the values of its expression; the rule is reversed if its direction is negative (a reversed sort is stable too). -/
def orderPaged (keyLe : E → E → Bool) (orderby : List ((E → E → Bool) × Bool)) (es : List E) : List E :=
  orderby.reverse.foldl (fun l r => stableSort (if r.2 then fun a b => r.1 b a else r.1) l) (stableSort keyLe es)

/-- `OrderEntities` when not paging: no ordering by key. -/
def orderPlain (orderby : List ((E → E → Bool) × Bool)) (es : List E) : List E :=
  orderby.reverse.foldl (fun l r => stableSort (if r.2 then fun a b => r.1 b a else r.1) l) es

end Verif.Paging
