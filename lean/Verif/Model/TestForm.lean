import Verif.Model.Py

/-!
# Model of test forms

/repo/pyslet/pyslet/qtiv2/tests.py: `TestForm`, the selection and ordering of the parts of a test.  Chance is an
endless list of numbers, of which every draw takes the next; `random.shuffle` is the exchange of Python 2.  `None`,
the free slot of a section that is shuffled, is `none`.  Simplification: truth values that are not given count as
false, as they do in the tests of the code.
-/

set_option linter.unusedVariables false

namespace Verif.TestForm

open Verif Verif.Py

/-- The exceptions: `core.SelectionError`, and those of Python. -/
inductive FormErr where
  | selectionError | attributeError | indexError | keyError
deriving DecidableEq

/-- `AssessmentItemRef` and `AssessmentSection` (tests.py:278-401), as far as forms look at them; `selection` is
the number to select and `withReplacement`, `shuffle` that of the `Ordering`. -/
inductive Part where
  | item (id : Str) (required fixed : Bool)
  | sect (id : Str) (required fixed visible keepTogether : Bool) (selection : Option (Int × Bool)) (shuffle : Bool)
      (kids : List Part)

/-- `identifier`. -/
def Part.id : Part → Str
  | .item i _ _ => i
  | .sect i _ _ _ _ _ _ _ => i

/-- `required`. -/
def Part.required : Part → Bool
  | .item _ r _ => r
  | .sect _ r _ _ _ _ _ _ => r

/-- `fixed`. -/
def Part.fixed : Part → Bool
  | .item _ _ f => f
  | .sect _ _ f _ _ _ _ _ => f

/-- `isinstance(child,AssessmentSection)`. -/
def Part.isSect : Part → Bool
  | .item _ _ _ => false
  | .sect _ _ _ _ _ _ _ _ => true

/-- `invisibleSection and not child.keepTogether` (tests.py:554, 558). -/
def Part.mixed : Part → Bool
  | .item _ _ _ => false
  | .sect _ _ _ visible keepTogether _ _ _ => !visible && !keepTogether

/-- `u"-"+identifier`. -/
def closing (id : Str) : Str := '-' :: id

/-- The numbers that chance will give. -/
abbrev Rng := Nat → Nat

/-- One draw from `0 … n-1`. -/
def draw (r : Rng) (n : Nat) : Nat × Rng := (r 0 % n, fun k => r (k + 1))

/-- Step 1 (tests.py:526-530): required children are selected, and leave the bag unless there is replacement. -/
def step1 (repl : Bool) : List Part → Nat → List Nat → List Nat → List Nat × List Nat
  | [], _, sel, bag => (sel, bag)
  | c :: cs, i, sel, bag =>
    if c.required then step1 repl cs (i + 1) (sel ++ [i]) (if repl then bag else bag.erase i)
    else step1 repl cs (i + 1) sel bag

/-- Step 2 (tests.py:534-541), for the number of rounds there are to go. -/
def step2 (repl : Bool) : Nat → List Nat → List Nat → Rng → Except FormErr (List Nat × Rng)
  | 0, sel, _, r => .ok (sel, r)
  | n + 1, sel, bag, r =>
    match bag[(draw r bag.length).1]? with
    | none => .error .selectionError
    | some i => step2 repl n (sel ++ [i]) (if repl then bag else bag.erase i) (draw r bag.length).2

/-- Insertion in a sorted list. -/
def insertNat (a : Nat) : List Nat → List Nat
  | [] => [a]
  | b :: bs => if a ≤ b then a :: b :: bs else b :: insertNat a bs

/-- Step 3 (tests.py:544): `selection.sort()`. -/
def sortNat : List Nat → List Nat
  | [] => []
  | a :: as => insertNat a (sortNat as)

/-- Steps 1 to 3 (tests.py:516-544): the places of the children selected. -/
def pick (selection : Option (Int × Bool)) (kids : List Part) (r : Rng) : Except FormErr (List Nat × Rng) :=
  let target : Int := (selection.map (·.1)).getD (kids.length : Int)
  let repl := (selection.map (·.2)).getD false
  let s := step1 repl kids 0 [] (List.range kids.length)
  if (s.1.length : Int) > target then .error .selectionError
  else match step2 repl (target - s.1.length).toNat s.1 s.2 r with
    | .error e => .error e
    | .ok (sel, r') => .ok (sortNat sel, r')

/-- What `Select` gives: identifiers, with `None` where a slot was left free. -/
abbrev Slots := List (Option Str)

/-- `Select(child,expandChildren)` for some child. -/
abbrev Run := Bool → Rng → Except FormErr (Slots × Rng)

/-- The loop over the grandchildren (tests.py:563-567). -/
def mixIn (get : Str → Option Part) : Slots → List Str → Except FormErr (List Str)
  | [], acc => .ok acc
  | none :: _, _ => .error .keyError
  | some g :: gs, acc => match get g with
    | none => .error .keyError
    | some p => if p.fixed then .error .selectionError else mixIn get gs (acc ++ [g])

/-- Step 4 (tests.py:548-575): the new selection and the list to shuffle. -/
def place (get : Str → Option Part) (expand shuffle : Bool) : List (Part × Run) → Slots → List Str → Rng →
    Except FormErr (Slots × List Str × Rng)
  | [], slots, pool, r => .ok (slots, pool, r)
  | (child, run) :: rest, slots, pool, r =>
    if shuffle && !child.fixed then
      if child.mixed then
        match run false r with
        | .error e => .error e
        | .ok (ids, r') => match mixIn get ids pool with
          | .error e => .error e
          | .ok pool' => place get expand shuffle rest (slots ++ [none]) pool' r'
      else place get expand shuffle rest (slots ++ [none]) (pool ++ [child.id]) r
    else if child.isSect && expand then
      match run true r with
      | .error e => .error e
      | .ok (ids, r') => place get expand shuffle rest (slots ++ [some child.id] ++ ids ++ [some (closing child.id)]) pool r'
    else place get expand shuffle rest (slots ++ [some child.id]) pool r

/-- `x[i],x[j]=x[j],x[i]`. -/
def swap (l : List Str) (i j : Nat) : List Str :=
  match l[i]?, l[j]? with
  | some a, some b => (l.set i b).set j a
  | _, _ => l

/-- `random.shuffle`: for `i` from the last place down to the second, exchange with one of the places up to `i`. -/
def shuffleFrom : Nat → List Str → Rng → List Str × Rng
  | 0, l, r => (l, r)
  | i + 1, l, r => shuffleFrom i (swap l (i + 1) (draw r (i + 2)).1) (draw r (i + 2)).2

/-- `random.shuffle(shuffleList)` (tests.py:577). -/
def shuffleList (l : List Str) (r : Rng) : List Str × Rng := shuffleFrom (l.length - 1) l r

/-- One entry for each free slot (tests.py:586-589): `shuffleList[i]` fails when there are fewer entries than slots.
The buckets, and the entries left. -/
def deal : Slots → List Str → Except FormErr (List (List Str) × List Str)
  | [], l => .ok ([], l)
  | some _ :: slots, l => deal slots l
  | none :: slots, [] => .error .indexError
  | none :: slots, a :: l => match deal slots l with
    | .error e => .error e
    | .ok (bs, rest) => .ok ([a] :: bs, rest)

/-- `random.choice(buckets).append(…)` for the rest (tests.py:590-593). -/
def scatter : List Str → List (List Str) → Rng → Except FormErr (List (List Str) × Rng)
  | [], bs, r => .ok (bs, r)
  | a :: l, bs, r => match bs[(draw r bs.length).1]? with
    | none => .error .indexError
    | some b => scatter l (bs.set (draw r bs.length).1 (b ++ [a])) (draw r bs.length).2

/-- The entries of a bucket (tests.py:597-603): for a section, `Select` is called with the identifier in place of the
section, which has no attribute `SectionPart`. -/
def expandBucket (get : Str → Option Part) : List Str → Except FormErr (List Str)
  | [] => .ok []
  | a :: l => match get a with
    | none => .error .keyError
    | some p => if p.isSect then .error .attributeError else match expandBucket get l with
      | .error e => .error e
      | .ok l' => .ok (a :: l')

/-- `i=selection.index(None); selection[i:i+1]=newBucket` (tests.py:604-605). -/
def splice (b : List Str) : Slots → Slots
  | [] => []
  | none :: s => b.map some ++ s
  | some a :: s => some a :: splice b s

/-- The loop over the buckets (tests.py:595-605). -/
def spliceAll (get : Str → Option Part) : List (List Str) → Slots → Except FormErr Slots
  | [], s => .ok s
  | b :: bs, s => match expandBucket get b with
    | .error e => .error e
    | .ok b' => spliceAll get bs (splice b' s)

/-- Step 5 (tests.py:576-605). -/
def mixUp (get : Str → Option Part) (slots : Slots) (pool : List Str) (r : Rng) : Except FormErr (Slots × Rng) :=
  if pool.isEmpty then .ok (slots, r)
  else match deal slots (shuffleList pool r).1 with
    | .error e => .error e
    | .ok (bs, rest) => match scatter rest bs (shuffleList pool r).2 with
      | .error e => .error e
      | .ok (bs', r') => match spliceAll get bs' slots with
        | .error e => .error e
        | .ok s => .ok (s, r')

mutual
/-- `TestForm.Select` (tests.py:505-607). -/
def select (get : Str → Option Part) : Part → Run
  | .item _ _ _ => fun _ _ => .error .attributeError
  | .sect _ _ _ _ _ selection shuffle kids => fun expand r =>
    match pick selection kids r with
    | .error e => .error e
    | .ok (sel, r1) =>
      match place get expand shuffle (sel.filterMap fun i => (kids.zip (selects get kids))[i]?) [] [] r1 with
      | .error e => .error e
      | .ok (slots, pool, r2) => mixUp get slots pool r2
/-- The same for each child. -/
def selects (get : Str → Option Part) : List Part → List Run
  | [] => []
  | p :: ps => select get p :: selects get ps
end

mutual
/-- The parts below a section, as `RegisterPart` keeps them (tests.py:75-81, 316-319). -/
def Part.all : Part → List Part
  | .item i r f => [.item i r f]
  | .sect i r f v k s sh kids => .sect i r f v k s sh kids :: allOf kids
/-- The same for a list. -/
def allOf : List Part → List Part
  | [] => []
  | p :: ps => p.all ++ allOf ps
end

/-- `TestPart` (tests.py:149-226): identifier and sections. -/
structure TPart where
  id : Str
  sections : List Part

/-- `test.GetPart(identifier)` (tests.py:83-86), for items and sections. -/
def getPart (test : List TPart) (id : Str) : Option Part :=
  (allOf (test.flatMap (·.sections))).find? (fun p => p.id = id)

/-- The sections of a test part (tests.py:491-496). -/
def formSections (get : Str → Option Part) : List Part → Rng → Except FormErr (Slots × Rng)
  | [], r => .ok ([], r)
  | s :: ss, r => match select get s true r with
    | .error e => .error e
    | .ok (ids, r1) => match formSections get ss r1 with
      | .error e => .error e
      | .ok (rest, r2) => .ok ([some s.id] ++ ids ++ [some (closing s.id)] ++ rest, r2)

/-- The test parts (tests.py:489-497). -/
def formParts (get : Str → Option Part) : List TPart → Rng → Except FormErr (Slots × Rng)
  | [], r => .ok ([], r)
  | p :: ps, r => match formSections get p.sections r with
    | .error e => .error e
    | .ok (ids, r1) => match formParts get ps r1 with
      | .error e => .error e
      | .ok (rest, r2) => .ok ([some p.id] ++ ids ++ [some (closing p.id)] ++ rest, r2)

/-- `TestForm.__init__` (tests.py:483-503): `components`, of which the first is the test itself. -/
def form (test : List TPart) (r : Rng) : Except FormErr Slots :=
  match formParts (getPart test) test r with
  | .error e => .error e
  | .ok (ids, _) => .ok (some [] :: ids)

/-- One step of the loop that fills `map` (tests.py:498-503): identifiers with the places they were seen at. -/
def note (k : Option Str) (i : Nat) : List (Option Str × List Nat) → List (Option Str × List Nat)
  | [] => [(k, [i])]
  | (k', is) :: m => if k' = k then (k', is ++ [i]) :: m else (k', is) :: note k i m

/-- The loop that fills `map` (tests.py:498-503), from place `i`. -/
def noteAll : Slots → Nat → List (Option Str × List Nat) → List (Option Str × List Nat)
  | [], _, m => m
  | k :: ks, i, m => noteAll ks (i + 1) (note k i m)

/-- `TestForm.find` (tests.py:609-613). -/
def find (components : Slots) (id : Str) : List Nat :=
  match (noteAll components 0 []).lookup (some id) with
  | some is => is
  | none => []

end Verif.TestForm
