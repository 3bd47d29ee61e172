import Verif.Model.Py

/-!
# Model of `CharClass` (/repo/pyslet/pyslet/unicode5.py:61-467)

A character is its code point (`Nat`); `unicode(c)`, `ord` and `unichr` are the identity.  (`unichr(ord(z)+1)`
and `unichr(ord(a)-1)` are only reached strictly inside an existing range, so they cannot leave the code
space.)  A range `[a,z]` is a mutable Python list; `tag` is its identity (object address), used only by the
heap model below.  A freshly created range list takes the tag passed as `fresh`.
-/

namespace Verif.CC

open Verif

/-- One element `[a,z]` of `self.ranges`. -/
structure Rg where
  lo : Nat
  hi : Nat
  tag : Nat
deriving DecidableEq, Repr

instance : Inhabited Rg := ⟨⟨0, 0, 0⟩⟩

/-- Slice assignment `rs[i:j]=new` with `i ≤ j`. -/
def splice (rs : List Rg) (i j : Nat) (new : List Rg) : List Rg := rs.take i ++ new ++ rs.drop j

/-- `rs[i].field = …` in place. -/
def modifyAt (rs : List Rg) (i : Nat) (f : Rg → Rg) : List Rg := rs.set i (f rs[i]!)

/-- `BisectionSearch` (unicode5.py:442-467). -/
def bisect (rs : List Rg) (c rmin rmax : Nat) : Bool × Nat :=
  if h : rmin < rmax then
    let rtry := (rmin + rmax) / 2
    if c ≤ (rs[rtry]!).hi then bisect rs c rmin rtry else bisect rs c (rtry + 1) rmax
  else if c > (rs[rmin]!).hi then (false, rmin + 1)
  else if c < (rs[rmin]!).lo then (false, rmin)
  else (true, rmin)
termination_by rmax - rmin

/-- `self.BisectionSearch(c,0,len(self.ranges)-1)`. -/
def search (rs : List Rg) (c : Nat) : Bool × Nat := bisect rs c 0 (rs.length - 1)

/-- `Merge` (unicode5.py:412-428): note that the right neighbour is only looked at when `index` is 0
(`elif`). -/
def merge (fresh : Nat) (rs : List Rg) (index : Nat) : List Rg :=
  let r := rs[index]!
  if index > 0 then
    let p := rs[index - 1]!
    if p.hi + 1 ≥ r.lo then splice rs (index - 1) (index + 1) [⟨p.lo, r.hi, fresh⟩] else rs
  else if index < rs.length - 1 then
    let n := rs[index + 1]!
    if n.lo ≤ r.hi + 1 then splice rs index (index + 2) [⟨r.lo, n.hi, fresh⟩] else rs
  else rs

/-- `AddRange` (unicode5.py:255-288). -/
def addRange (fresh : Nat) (rs : List Rg) (a z : Nat) : List Rg :=
  let (a, z) := if z < a then (z, a) else (a, z)
  if rs ≠ [] then
    let (matchA, indexA) := search rs a
    let (matchZ, indexZ) := search rs z
    if matchA then
      if matchZ then
        if indexA = indexZ then rs
        else merge (fresh + 1)
          (splice rs indexA (indexZ + 1) [⟨(rs[indexA]!).lo, (rs[indexZ]!).hi, fresh⟩]) indexA
      else merge (fresh + 1) (splice rs indexA indexZ [⟨(rs[indexA]!).lo, z, fresh⟩]) indexA
    else if matchZ then
      merge (fresh + 1) (splice rs indexA (indexZ + 1) [⟨a, (rs[indexZ]!).hi, fresh⟩]) indexA
    else merge (fresh + 1) (splice rs indexA indexZ [⟨a, z, fresh⟩]) indexA
  else [⟨a, z, fresh⟩]

/-- `SubtractRange` (unicode5.py:290-359). -/
def subtractRange (fresh : Nat) (rs : List Rg) (a z : Nat) : List Rg :=
  let (a, z) := if z < a then (z, a) else (a, z)
  if rs ≠ [] then
    let (matchA, indexA) := search rs a
    let (matchZ, indexZ) := search rs z
    if matchA then
      let rA := rs[indexA]!
      if matchZ then
        if indexA = indexZ then
          if rA.lo = rA.hi ∨ (rA.lo = a ∧ rA.hi = z) then splice rs indexA (indexA + 1) []
          else if rA.lo = a then modifyAt rs indexA (fun r => { r with lo := z + 1 })
          else if rA.hi = z then modifyAt rs indexA (fun r => { r with hi := a - 1 })
          else splice (modifyAt rs indexA (fun r => { r with hi := a - 1 })) (indexA + 1) (indexA + 1)
            [⟨z + 1, rA.hi, fresh⟩]
        else
          let (rs1, snipA) := if rA.lo = rA.hi ∨ a = rA.lo then (rs, indexA)
            else (modifyAt rs indexA (fun r => { r with hi := a - 1 }), indexA + 1)
          let rZ := rs1[indexZ]!
          let (rs2, snipZ) := if rZ.lo = rZ.hi ∨ z = rZ.hi then (rs1, indexZ + 1)
            else (modifyAt rs1 indexZ (fun r => { r with lo := z + 1 }), indexZ)
          if snipZ ≥ snipA then splice rs2 snipA snipZ [] else rs2
      else
        let (rs1, snip) := if rA.lo = rA.hi ∨ a = rA.lo then (rs, indexA)
          else (modifyAt rs indexA (fun r => { r with hi := a - 1 }), indexA + 1)
        splice rs1 snip indexZ []
    else if matchZ then
      let rZ := rs[indexZ]!
      let (rs1, snip) := if rZ.lo = rZ.hi ∨ z = rZ.hi then (rs, indexZ + 1)
        else (modifyAt rs indexZ (fun r => { r with lo := z + 1 }), indexZ)
      splice rs1 indexA snip []
    else splice rs indexA indexZ []
  else rs

/-- `AddChar` (unicode5.py:361-370). -/
def addChar (fresh : Nat) (rs : List Rg) (c : Nat) : List Rg :=
  if rs ≠ [] then
    let (m, index) := search rs c
    if ¬ m then merge (fresh + 1) (splice rs index index [⟨c, c, fresh⟩]) index else rs
  else [⟨c, c, fresh⟩]

/-- `SubtractChar` (unicode5.py:372-389). -/
def subtractChar (fresh : Nat) (rs : List Rg) (c : Nat) : List Rg :=
  if rs ≠ [] then
    let (m, index) := search rs c
    if m then
      let r := rs[index]!
      if r.lo = r.hi then splice rs index (index + 1) []
      else if r.lo = c then modifyAt rs index (fun r => { r with lo := r.lo + 1 })
      else if r.hi = c then modifyAt rs index (fun r => { r with hi := r.hi - 1 })
      else splice (modifyAt rs index (fun r => { r with hi := c - 1 })) (index + 1) (index + 1)
        [⟨c + 1, r.hi, fresh⟩]
    else rs
  else rs

/-- `AddClass` (unicode5.py:391-399): when `self` is empty the *same* range lists are appended (their
tags are kept).  Each `AddRange` creates at most two range lists. -/
def addClass (fresh : Nat) (rs other : List Rg) : List Rg :=
  if rs ≠ [] then
    (other.foldl (fun st r => (addRange st.2 st.1 r.lo r.hi, st.2 + 2)) (rs, fresh)).1
  else other

/-- `SubtractClass` (unicode5.py:401-404), for an operand other than `self`. -/
def subtractClass (fresh : Nat) (rs other : List Rg) : List Rg :=
  (other.foldl (fun st r => (subtractRange st.2 st.1 r.lo r.hi, st.2 + 1)) (rs, fresh)).1

/-- `c.SubtractClass(c)`: the loop of unicode5.py:403-404 runs over the very list that `SubtractRange`
shrinks; Python's list iterator keeps an index into it. -/
def subtractSelf (fresh : Nat) (rs : List Rg) (i : Nat) (fuel : Nat) : List Rg :=
  match fuel with
  | 0 => rs
  | fuel + 1 =>
    match rs[i]? with
    | none => rs
    | some r => subtractSelf fresh (subtractRange fresh rs r.lo r.hi) (i + 1) fuel

/-- `maxunicode` on a wide build. -/
def maxunicode : Nat := 0x10FFFF

/-- `Negate` (unicode5.py:406-410). -/
def negate (fresh : Nat) (rs : List Rg) : List Rg :=
  subtractClass (fresh + 1) [⟨0, maxunicode, fresh⟩] rs

/-- `Test` (unicode5.py:430-440). -/
def test (rs : List Rg) (c : Nat) : Bool := if rs ≠ [] then (search rs c).1 else false

/-- `__eq__` (unicode5.py:251-253): compares the lists of `[a,z]` pairs. -/
def eq (rs other : List Rg) : Bool := rs.map (fun r => (r.lo, r.hi)) = other.map (fun r => (r.lo, r.hi))

/-! ## Several class objects sharing range lists -/

/-- The heap: contents of the range lists, the next unused address, and the `ranges` attribute of each
class object as a list of addresses. -/
structure Heap where
  cells : Nat → Nat × Nat
  next : Nat
  classes : Nat → List Nat

/-- `self.ranges` of class object `k`. -/
def Heap.load (h : Heap) (k : Nat) : List Rg :=
  (h.classes k).map (fun t => ⟨(h.cells t).1, (h.cells t).2, t⟩)

/-- Effect of a method of class object `k` that leaves it with the ranges `rs`: objects keep their address,
so every class that shares a range list sees its new contents. -/
def Heap.store (h : Heap) (k : Nat) (rs : List Rg) (used : Nat) : Heap where
  cells := fun t => match rs.find? (fun r => r.tag = t) with
    | some r => (r.lo, r.hi)
    | none => h.cells t
  next := h.next + used
  classes := fun j => if j = k then rs.map (·.tag) else h.classes j

/-- Operations on class objects.  `new` is `CharClass()`. -/
inductive Op where
  | new (k : Nat)
  | addChar (k c : Nat)
  | addRange (k a z : Nat)
  | addClass (k other : Nat)
  | subtractChar (k c : Nat)
  | subtractRange (k a z : Nat)
  | subtractClass (k other : Nat)
  | negate (k : Nat)
deriving Repr

/-- The object an operation is called on. -/
def Op.self : Op → Nat
  | .new k | .addChar k _ | .addRange k _ _ | .addClass k _ | .subtractChar k _
  | .subtractRange k _ _ | .subtractClass k _ | .negate k => k

/-- Whether an operation only adds. -/
def Op.isAdd : Op → Bool
  | .new _ | .addChar _ _ | .addRange _ _ _ | .addClass _ _ => true
  | _ => false

/-- One method call. -/
def Heap.step (h : Heap) : Op → Heap
  | .new k => h.store k [] 0
  | .addChar k c => h.store k (CC.addChar h.next (h.load k) c) 2
  | .addRange k a z => h.store k (CC.addRange h.next (h.load k) a z) 2
  | .addClass k j => h.store k (CC.addClass h.next (h.load k) (h.load j)) (2 * (h.classes j).length)
  | .subtractChar k c => h.store k (CC.subtractChar h.next (h.load k) c) 1
  | .subtractRange k a z => h.store k (CC.subtractRange h.next (h.load k) a z) 1
  | .subtractClass k j => h.store k (CC.subtractClass h.next (h.load k) (h.load j)) (h.classes j).length
  | .negate k => h.store k (CC.negate h.next (h.load k)) ((h.classes k).length + 1)

/-- The heap before any class is created. -/
def Heap.empty : Heap := ⟨fun _ => (0, 0), 0, fun _ => []⟩

end Verif.CC
