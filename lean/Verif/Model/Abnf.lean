import Verif.Model.Py

/-!
# Grammars of ABNF

Models `RFC2234ABNFRuleBase` of `pyslet/pyslet/rfc2234.py` (cited as *abnf*): the rules of a grammar, the data that are generated from
a rule and the data that are accepted for a rule.

A character is its number (`ord`).  `lower` and `upper` are those of byte strings: only the letters of ASCII change.  Rules have
successive numbers from 0 and are never removed, so the dictionary `rules` is a list.  Texts of errors are not modelled.
-/

namespace Verif.Abnf
open Verif

/-- A string of characters, each its number. -/
abbrev Text := List Nat

/-- The definition of a rule (abnf:492-500): the list without the name at its start.  Numbers refer to other rules. -/
inductive Rule
  | undefined
  | terminal (s : Text)
  | literal (s : Text)
  | range (lo hi : Nat)
  | seq (rs : List Nat)
  | alt (rs : List Nat)
  | rep (min : Nat) (max : Option Nat) (r : Nat)
  | prose (s : Text)
  | alias (r : Nat)
deriving DecidableEq, Repr

/-- The errors: `RFC2234RuleError`, a key that a dictionary has not, `randrange` of an empty range, the error of data that do not
match, and the `NameError` of a name that is not defined. -/
inductive Fail
  | rule | key | value | invalid | name
deriving DecidableEq, Repr

/-- A rule base (abnf:510-513): the rules with their names, and the numbers of names in lower case. -/
structure Base where
  rules : List (Option Text × Rule)
  ruleID : List (Text × Nat)
deriving DecidableEq, Repr

/-- `Reset` (abnf:510-513). -/
def empty : Base := ⟨[], []⟩

/-- The definition with a number, `self.rules[ruleID][1:]`. -/
def Base.look (b : Base) (i : Nat) : Option Rule := (b.rules[i]?).map Prod.snd

/-- `lower` of a character. -/
def lowerChar (c : Nat) : Nat := if 65 ≤ c ∧ c ≤ 90 then c + 32 else c

/-- `upper` of a character. -/
def upperChar (c : Nat) : Nat := if 97 ≤ c ∧ c ≤ 122 then c - 32 else c

/-- `lower` of a string. -/
def lower (s : Text) : Text := s.map lowerChar

/-- `IsALPHA` (abnf:259-260). -/
def isAlpha (c : Nat) : Bool := (65 ≤ c && c ≤ 90) || (97 ≤ c && c ≤ 122)

/-- The value of a key of a dictionary. -/
def find (d : List (Text × Nat)) (k : Text) : Option Nat := (d.find? fun e => e.1 == k).map Prod.snd

/-- `d[k] = v`. -/
def put (d : List (Text × Nat)) (k : Text) (v : Nat) : List (Text × Nat) := (k, v) :: d.filter fun e => e.1 != k

/-- `AddRule` (abnf:515-524): the number of a rule with this definition, new if there is none.  The dictionary is searched in the
order of its numbers. -/
def Base.addRule (b : Base) (r : Rule) : Base × Nat :=
  match b.rules.findIdx? fun e => e.2 == r with
  | some i => (b, i)
  | none => ({ b with rules := b.rules ++ [(none, r)] }, b.rules.length)

/-- `DeclareRule` (abnf:526-536). -/
def Base.declareRule (b : Base) (name : Text) : Base × Nat :=
  match find b.ruleID (lower name) with
  | some i => (b, i)
  | none => (⟨b.rules ++ [(some name, .undefined)], put b.ruleID (lower name) b.rules.length⟩, b.rules.length)

/-- Whether a name is true: not `None` and not empty. -/
def named (n : Option Text) : Bool := match n with
  | some (_ :: _) => true
  | _ => false

/-- `DefineRule` (abnf:538-579); `incremental` tells `kIncrementalRule` from `kBasicRule`.  The number of an
undefined rule without a name, for that rule itself, leaves only the alias: the list that gets the name is no longer in `rules`. -/
def Base.defineRule (b : Base) (name : Text) (incremental : Bool) (i : Nat) : Except Fail Base :=
  match b.rules[i]? with
  | none => .error .key
  | some rule =>
    if incremental = false then
      match find b.ruleID (lower name) with
      | some old =>
        match b.rules[old]? with
        | none => .error .key
        | some oldRule =>
          if oldRule.2 = .undefined then
            if named rule.1 then
              .ok ⟨b.rules.set old (some name, rule.2), put b.ruleID (lower name) old⟩
            else if i = old then
              .ok ⟨b.rules.set old (none, .alias i), put b.ruleID (lower name) i⟩
            else
              .ok ⟨(b.rules.set old (none, .alias i)).set i (some name, rule.2), put b.ruleID (lower name) i⟩
          else .error .rule
      | none =>
        if named rule.1 then
          .ok ⟨b.rules ++ [(some name, rule.2)], put b.ruleID (lower name) b.rules.length⟩
        else
          .ok ⟨b.rules.set i (some name, rule.2), put b.ruleID (lower name) i⟩
    else
      match find b.ruleID (lower name) with
      | none => .error .rule
      | some _ =>
        match find b.ruleID name with
        | none => .error .key
        | some basic =>
          match b.rules[basic]? with
          | none => .error .key
          | some basicRule =>
            if basicRule.2 = .undefined then .error .rule
            else
              .ok ⟨b.rules.set basic (none, basicRule.2) ++ [(some name, .alt [basic, i])],
                put b.ruleID (lower name) b.rules.length⟩

/-- `GetRuleID` (abnf:581-586). -/
def Base.getRuleID (b : Base) (name : Text) : Except Fail Nat :=
  match find b.ruleID (lower name) with
  | some i => .ok i
  | none => .error .rule

/-! ## Accepting data -/

/-- An entry of a stack of rules: the number and `rulePos`, here from 0 and not from 2 for sequences and alternatives. -/
abbrev Entry := Nat × Option Nat

/-- A parser: the position and the stack of rules, the top first. -/
abbrev Thread := Nat × List Entry

/-- The next `rulePos` (abnf:774-777, 783-786, 797-800). -/
def next : Option Nat → Nat
  | none => 0
  | some k => k + 1

/-- One turn of the loop of `ValidateData` for the parser at the front (abnf:751-815): the parsers that are added, or an error. -/
def turn (look : Nat → Option Rule) (data : Text) (pos : Nat) (e : Entry) (stack : List Entry) : Except Fail (List Thread) :=
  match look e.1 with
  | none => .error .key
  | some (.terminal s) =>
    if (data.drop pos).take s.length = s then .ok [(pos + s.length, stack)] else .error .invalid
  | some (.literal s) =>
    if lower ((data.drop pos).take s.length) = lower s then .ok [(pos + s.length, stack)] else .error .invalid
  | some (.range lo hi) =>
    match data[pos]? with
    | some c => if lo ≤ c ∧ c ≤ hi then .ok [(pos + 1, stack)] else .error .invalid
    | none => .error .invalid
  | some (.seq rs) =>
    match rs[next e.2]? with
    | some r =>
      if next e.2 < rs.length - 1 then .ok [(pos, (r, none) :: (e.1, some (next e.2)) :: stack)]
      else .ok [(pos, (r, none) :: stack)]
    | none => .ok [(pos, stack)]
  | some (.alt rs) =>
    match rs[next e.2]? with
    | some r =>
      if next e.2 < rs.length - 1 then .ok [(pos, (e.1, some (next e.2)) :: stack), (pos, (r, none) :: stack)]
      else .ok [(pos, (r, none) :: stack)]
    | none => .ok [(pos, stack)]
  | some (.rep min max r) =>
    if next e.2 < min then .ok [(pos, (r, none) :: (e.1, some (next e.2)) :: stack)]
    else if max.all fun m => next e.2 < m then
      .ok [(pos, stack), (pos, (r, none) :: (e.1, some (next e.2)) :: stack)]
    else .ok [(pos, stack)]
  | some (.prose _) => .error .rule
  | some (.alias r) => .ok [(pos, (r, none) :: stack)]
  | some .undefined => .error .rule

/-- The loop of `ValidateData` (abnf:740-821) for at most so many turns.  `sort` orders the parsers; any order is allowed here.
The handler `except RFCValidyError` (abnf:816) names a class that does not exist — the class is `RFCValidityError` — so every error
in the loop, of data or of rules, ends it with a `NameError`; with `caught` the name is right and parsers that fail are dropped. -/
def loop (look : Nat → Option Rule) (sort : List Thread → List Thread) (caught : Bool) (data : Text) :
    Nat → List Thread → Option (Except Fail Unit)
  | 0, _ => none
  | n + 1, threads =>
    match sort threads with
    | [] => some (.error .invalid)
    | (_, []) :: _ => some (.ok ())
    | (pos, e :: stack) :: rest =>
      match turn look data pos e stack with
      | .ok ts => loop look sort caught data n (rest ++ ts)
      | .error f =>
        if caught = false then some (.error .name)
        else if f = .invalid then loop look sort caught data n rest
        else some (.error f)

/-- The order of entries in Python 2, where `None` is less than numbers; names of rules are not compared. -/
def entryLt (a b : Entry) : Bool :=
  a.1 < b.1 || (a.1 == b.1 && match a.2, b.2 with
    | none, some _ => true
    | some x, some y => x < y
    | _, none => false)

/-- The order of lists in Python, for stacks with the bottom first. -/
def stackLe : List Entry → List Entry → Bool
  | [], _ => true
  | _ :: _, [] => false
  | a :: as, b :: bs => if a = b then stackLe as bs else entryLt a b

/-- The order of parsers in Python (abnf:745): by position, then by stack. -/
def threadLe (a b : Thread) : Bool := a.1 < b.1 || (a.1 == b.1 && stackLe a.2.reverse b.2.reverse)

/-- A parser is put before the first that is not less. -/
def insertThread (t : Thread) : List Thread → List Thread
  | [] => [t]
  | u :: us => if threadLe t u then t :: u :: us else u :: insertThread t us

/-- `parserStack.sort()` (abnf:745). -/
def pySort : List Thread → List Thread
  | [] => []
  | t :: ts => insertThread t (pySort ts)

/-- `ValidateData` (abnf:739-821): `none` if it has not ended after so many turns. -/
def validate (b : Base) (sort : List Thread → List Thread) (caught : Bool) (name : Text) (data : Text) (turns : Nat) :
    Option (Except Fail Unit) :=
  match b.getRuleID name with
  | .error f => some (.error f)
  | .ok i => loop b.look sort caught data turns [(0, [(i, none)])]

/-! ## Generating data -/

/-- `rulePos` of `GenerateData`: none, the position in a sequence, the mark of an alternative, or what is left of a repetition
and how much of it was optional. -/
inductive Mark
  | start
  | at (k : Nat)
  | chosen
  | left (n extra : Nat)
deriving DecidableEq, Repr

/-- The state of `GenerateData` (abnf:664-666): the result, the stack with the top first, `recursionControl`, and how many random
numbers were taken. -/
structure Gen where
  result : Text
  stack : List (Nat × Mark)
  control : Nat → Int
  taken : Nat

/-- The next position in a sequence (abnf:689-693). -/
def nextMark : Mark → Nat
  | .at k => k + 1
  | _ => 0

/-- The most of a repetition that is generated (abnf:721-722). -/
def repeatTop (min : Nat) (max : Option Nat) (adjusted : Nat) : Nat :=
  match max with
  | none => min + adjusted
  | some m => if m > min + adjusted then min + adjusted else m

/-- One more or less in `recursionControl`. -/
def bump (control : Nat → Int) (i : Nat) (d : Int) : Nat → Int := fun j => if j = i then control j + d else control j

/-- The letters of a literal, each in a case that is taken at random (abnf:674-682). -/
def genLiteral (rnd : Nat → Nat → Nat → Nat) : Nat → Text → Text × Nat
  | n, [] => ([], n)
  | n, c :: cs =>
    if isAlpha c then
      ((if rnd n 0 2 ≠ 0 then lowerChar c else upperChar c) :: (genLiteral rnd (n + 1) cs).1, (genLiteral rnd (n + 1) cs).2)
    else (c :: (genLiteral rnd n cs).1, (genLiteral rnd n cs).2)

/-- One turn of the loop of `GenerateData` (abnf:668-736) for the entry `(i, mark)` that was popped from the stack of `g`.
`rnd n lo hi` is the random number that `randrange(lo, hi)` gives after `n` others. -/
def genTurn (look : Nat → Option Rule) (rnd : Nat → Nat → Nat → Nat) (maxOpt : Nat) (g : Gen) (i : Nat) (mark : Mark) :
    Except Fail Gen :=
  match look i with
  | none => .error .key
  | some (.terminal s) => .ok { g with result := g.result ++ s }
  | some (.literal s) => .ok { g with result := g.result ++ (genLiteral rnd g.taken s).1, taken := (genLiteral rnd g.taken s).2 }
  | some (.range lo hi) =>
    if lo < hi + 1 then .ok { g with result := g.result ++ [rnd g.taken lo (hi + 1)], taken := g.taken + 1 } else .error .value
  | some (.seq rs) =>
    let k := nextMark mark
    let control := match mark with | .at _ => g.control | _ => bump g.control i 1
    match rs[k]? with
    | some r => .ok { g with stack := (r, .start) :: (i, .at k) :: g.stack, control := control }
    | none => .ok { g with control := bump control i (-1) }
  | some (.alias r) =>
    match mark with
    | .at _ => .ok { g with control := bump g.control i (-1) }
    | _ => .ok { g with stack := (r, .start) :: (i, .at 0) :: g.stack, control := bump g.control i 1 }
  | some (.alt rs) =>
    match mark with
    | .chosen => .ok { g with control := bump g.control i (-1) }
    | _ =>
      let control := bump g.control i 1
      let choices := rs.filter fun r => control r < maxOpt
      match choices[rnd g.taken 0 choices.length]? with
      | none => .error .rule
      | some r => .ok { g with stack := (r, .start) :: (i, .chosen) :: g.stack, control := control, taken := g.taken + 1 }
  | some (.rep min max r) =>
    match mark with
    | .left n extra =>
      if n - 1 ≠ 0 then .ok { g with stack := (r, .start) :: (i, .left (n - 1) extra) :: g.stack }
      else .ok { g with control := bump g.control i (-(extra : Int)) }
    | _ =>
      let adjusted := ((maxOpt : Int) - g.control i).toNat
      let top := repeatTop min max adjusted
      if min < top + 1 then
        let n := rnd g.taken min (top + 1)
        let control := bump g.control i ((n - min : Nat) : Int)
        if n ≠ 0 then
          .ok { g with stack := (r, .start) :: (i, .left n (n - min)) :: g.stack, control := control, taken := g.taken + 1 }
        else .ok { g with control := bump control i (-((n - min : Nat) : Int)), taken := g.taken + 1 }
      else .error .value
  | some (.prose _) => .error .rule
  | some .undefined => .error .rule

/-- The loop of `GenerateData` (abnf:667-737) for at most so many turns. -/
def genLoop (look : Nat → Option Rule) (rnd : Nat → Nat → Nat → Nat) (maxOpt : Nat) : Nat → Gen → Option (Except Fail Text)
  | 0, _ => none
  | n + 1, g =>
    match g.stack with
    | [] => some (.ok g.result)
    | (i, mark) :: rest =>
      match genTurn look rnd maxOpt { g with stack := rest } i mark with
      | .error f => some (.error f)
      | .ok g' => genLoop look rnd maxOpt n g'

/-- `GenerateData` (abnf:663-737): `none` if it has not ended after so many turns. -/
def generate (b : Base) (rnd : Nat → Nat → Nat → Nat) (maxOpt : Nat) (name : Text) (turns : Nat) : Option (Except Fail Text) :=
  match b.getRuleID name with
  | .error f => some (.error f)
  | .ok i => genLoop b.look rnd maxOpt turns ⟨[], [(i, .start)], fun _ => 0, 0⟩

end Verif.Abnf
