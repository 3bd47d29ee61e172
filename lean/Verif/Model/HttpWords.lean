import Verif.Model.Py

/-!
# The words of an HTTP header value

Models `pyslet/pyslet/rfc2616_core.py` (cited as *core*): the splitting of a header value in words, quoted strings and
parameters.  `BasicParser` (`pyslet/pyslet/unicode5.py:587-810`) is represented by the part of the source not yet
consumed.  A loop of the code that consumes nothing does not end: the splitting takes a number of rounds and `none` is
"not finished after that many rounds".
-/

namespace Verif.Http

open Verif

/-- The exceptions of the HTTP modules. -/
inductive Fault where
  /-- `SyntaxError`, also called `HTTPParameterError` (core:10-14), not the built-in of that name -/
  | syntaxError
  /-- built-in `ValueError` -/
  | valueError
  /-- built-in `TypeError` -/
  | typeError
  /-- built-in `NameError` -/
  | nameError
  /-- built-in `AttributeError` -/
  | attributeError
  /-- `iso8601.DateTimeError` -/
  | dateError
deriving DecidableEq, Repr

/-- `IsOCTET` (core:17-23). -/
def isOctet (c : Char) : Bool := c.toNat < 256

/-- `IsCHAR` (core:25-27). -/
def isChar (c : Char) : Bool := c.toNat < 128

/-- `IsDIGITS` with `IsDIGIT` (core:41-55). -/
def isDigits (s : Str) : Bool := !s.isEmpty && s.all Py.isDigit

/-- `IsCTL` (core:57-59). -/
def isCtl (c : Char) : Bool := c.toNat < 32 || c.toNat == 127

/-- `SEPARATORS`, `IsSEPARATOR` (core:85-94). -/
def isSep (c : Char) : Bool := "()<>@,;:\\\"/[]?={} \t".toList.contains c

/-- A character that `HTTPParser.ParseToken` adds to a token (core:182). -/
def isTok (c : Char) : Bool := !isCtl c && !isSep c

/-- Membership in `SP+HT` (core:121). -/
def isSp (c : Char) : Bool := c == ' ' || c == '\t'

/-- What follows `CRLF`, if the source begins with it (core:117-118). -/
def crlf : Str → Option Str
  | '\r' :: '\n' :: t => some t
  | _ => none

/-- `HTTPParser.ParseLWS` (core:109-129): the white space and what follows it. -/
def lws (s : Str) : Option (Str × Str) :=
  let t := (crlf s).getD s
  if t.takeWhile isSp = [] then none
  else some ((if (crlf s).isSome then ['\r', '\n'] else []) ++ t.takeWhile isSp, t.dropWhile isSp)

/-- `HTTPParser.ParseOneTEXT` (core:131-151).  The callers test for the end of the source first; `IsOCTET(None)`, an
error, is not modelled. -/
def oneText (unfold : Bool) (s : Str) : Option (Str × Str) :=
  match lws s with
  | some (w, r) => some (if unfold && w.take 2 = ['\r', '\n'] then [' '] else w, r)
  | none =>
    match s with
    | [] => none
    | c :: t => if isOctet c && !isCtl c then some ([c], t) else none

theorem crlf_le (s : Str) : ((crlf s).getD s).length ≤ s.length := by
  unfold crlf
  split
  · simp only [Option.getD_some, List.length_cons]; omega
  · exact Nat.le_refl _

theorem dropWhile_le (p : Char → Bool) (l : Str) : (l.dropWhile p).length ≤ l.length := by
  induction l with
  | nil => exact Nat.le_refl _
  | cons d l ih => rw [List.dropWhile_cons]; split; exact Nat.le_succ_of_le ih; exact Nat.le_refl _

theorem dropWhile_lt {p : Char → Bool} {l : Str} (h : l.takeWhile p ≠ []) : (l.dropWhile p).length < l.length := by
  cases l with
  | nil => exact absurd rfl h
  | cons c t =>
    have hc : p c = true := by
      cases hc : p c with
      | true => rfl
      | false => rw [List.takeWhile_cons, hc] at h; exact absurd rfl h
    rw [List.dropWhile_cons, hc]
    exact Nat.lt_succ_of_le (dropWhile_le p t)

theorem lws_lt {s w r : Str} (h : lws s = some (w, r)) : r.length < s.length := by
  unfold lws at h
  dsimp only at h
  split at h
  · cases h
  · rename_i hne
    injection h with h
    injection h with h1 h2
    subst h2
    exact Nat.lt_of_lt_of_le (dropWhile_lt hne) (crlf_le s)

theorem oneText_lt {u : Bool} {s w r : Str} (h : oneText u s = some (w, r)) : r.length < s.length := by
  unfold oneText at h
  cases hl : lws s with
  | some p =>
    obtain ⟨w', r'⟩ := p
    rw [hl] at h
    injection h with h
    injection h with h1 h2
    subst h2
    exact lws_lt hl
  | none =>
    rw [hl] at h
    cases s with
    | nil => cases h
    | cons c t =>
      simp only at h
      split at h
      · injection h with h
        injection h with h1 h2
        subst h2
        exact Nat.lt_succ_self _
      · cases h

/-- `HTTPParser.ParseQDText` (core:291-317) and `ParseCText` (core:233-259), which differ in the characters they stop
at: the text and what follows it. -/
def textRun (stop : Str) (unfold : Bool) (s : Str) : Str × Str :=
  match s with
  | [] => ([], [])
  | c :: t =>
    if stop.contains c then ([], c :: t)
    else
      match h : oneText unfold (c :: t) with
      | none => ([], c :: t)
      | some (w, r) =>
        have : r.length < (c :: t).length := oneText_lt h
        let p := textRun stop unfold r
        (w ++ p.1, p.2)
termination_by s.length

theorem textRun_le (stop : Str) (u : Bool) (s : Str) : (textRun stop u s).2.length ≤ s.length := by
  induction s using textRun.induct stop u with
  | case1 => unfold textRun; exact Nat.le_refl _
  | case2 c t h => unfold textRun; rw [if_pos h]; exact Nat.le_refl _
  | case3 c t h hn => unfold textRun; rw [if_neg h]; simp only; split; exact Nat.le_refl _; rename_i h2; rw [hn] at h2; cases h2
  | case4 c t h w r hw hlt ih =>
    unfold textRun; rw [if_neg h]; simp only; split
    · exact Nat.le_refl _
    · rename_i w' r' h2
      rw [hw] at h2
      injection h2 with h2
      injection h2 with h3 h4
      subst h4
      exact Nat.le_of_lt (Nat.lt_of_le_of_lt ih hlt)

theorem textRun_lt {stop : Str} {u : Bool} {s : Str} (h : (textRun stop u s).1 ≠ []) : (textRun stop u s).2.length < s.length := by
  unfold textRun at h ⊢
  split
  · exact absurd rfl h
  · rename_i c t
    simp only at h ⊢
    split
    · rename_i hc; rw [if_pos hc] at h; exact absurd rfl h
    · rename_i hc
      rw [if_neg hc] at h
      split
      · rename_i hn
        split at h
        · exact absurd rfl h
        · rename_i w r h2; rw [hn] at h2; cases h2
      · rename_i w r hw
        exact Nat.lt_of_le_of_lt (textRun_le stop u r) (oneText_lt hw)

/-- The loop of `HTTPParser.ParseQuotedString` (core:271-289) with `ParseQuotedPair` (core:319-332): the characters kept
and what follows the string.  The end of the source ends the string, whether it is closed or not; after a backslash it
is `IsCHAR(None)`, a `TypeError`. -/
def quotedRest (unfold : Bool) (s : Str) : Except Fault (Str × Str) :=
  match s with
  | [] => .ok ([], [])
  | c :: t =>
    if c = '"' then .ok (['"'], t)
    else if c = '\\' then
      match t with
      | [] => .error .typeError
      | d :: u =>
        if isChar d then (quotedRest unfold u).map fun p => ('\\' :: d :: p.1, p.2)
        else .error .valueError
    else
      if h : (textRun ['\\', '"'] unfold (c :: t)).1 = [] then .error .valueError
      else
        have : (textRun ['\\', '"'] unfold (c :: t)).2.length < (c :: t).length := textRun_lt h
        (quotedRest unfold (textRun ['\\', '"'] unfold (c :: t)).2).map fun p =>
          ((textRun ['\\', '"'] unfold (c :: t)).1 ++ p.1, p.2)
termination_by s.length

/-- The loop of `HTTPParser.ParseComment` (core:202-231), `depth` brackets being open.  A comment that is not closed is a
`ValueError`. -/
def commentRest (unfold : Bool) (depth : Nat) (s : Str) : Except Fault (Str × Str) :=
  match s with
  | [] => .error .valueError
  | c :: t =>
    if c = ')' then
      if depth ≤ 1 then .ok ([')'], t)
      else (commentRest unfold (depth - 1) t).map fun p => (')' :: p.1, p.2)
    else if c = '(' then (commentRest unfold (depth + 1) t).map fun p => ('(' :: p.1, p.2)
    else if c = '\\' then
      match t with
      | [] => .error .typeError
      | d :: u =>
        if isChar d then (commentRest unfold depth u).map fun p => ('\\' :: d :: p.1, p.2)
        else .error .valueError
    else
      if h : (textRun ['(', ')', '\\'] unfold (c :: t)).1 = [] then .error .valueError
      else
        have : (textRun ['(', ')', '\\'] unfold (c :: t)).2.length < (c :: t).length := textRun_lt h
        (commentRest unfold depth (textRun ['(', ')', '\\'] unfold (c :: t)).2).map fun p =>
          ((textRun ['(', ')', '\\'] unfold (c :: t)).1 ++ p.1, p.2)
termination_by s.length

/-- `while p.ParseLWS()` (core:375-377): whether there was any white space, and what follows it. -/
def skipLws (s : Str) : Bool × Str :=
  match h : lws s with
  | none => (false, s)
  | some (_, r) =>
    have : r.length < s.length := lws_lt h
    (true, (skipLws r).2)
termination_by s.length

/-- One round of the loop of `_InitParser` after the white space (core:380-388): the word found, `none` being the
`None` that `ParseToken` returns, and what follows it. -/
def oneWord (s : Str) : Except Fault (Option Str × Str) :=
  match s with
  | [] => .ok (none, [])
  | c :: t =>
    if isSep c then
      if c = '(' then (commentRest true 1 t).map fun p => (some ('(' :: p.1), p.2)
      else if c = '"' then (quotedRest true t).map fun p => (some ('"' :: p.1), p.2)
      else .ok (some [c], t)
    else if isTok c then .ok (some ((c :: t).takeWhile isTok), (c :: t).dropWhile isTok)
    else .ok (none, c :: t)

/-- The loop of `WordParser._InitParser` (core:371-394) for a number of rounds.  The words are the items of `self.words`,
`none` being `None`. -/
def wordLoop (ignoreSpace : Bool) : Nat → Str → Option (Except Fault (List (Option Str)))
  | _, [] => some (.ok [])
  | 0, _ :: _ => none
  | n + 1, c :: t =>
    let sp := skipLws (c :: t)
    match oneWord sp.2 with
    | .error e => some (.error e)
    | .ok (w, r) =>
      (wordLoop ignoreSpace n r).map fun ws =>
        ws.map fun ws => (if sp.1 && !ignoreSpace then [some [' ']] else []) ++ w :: ws

/-- `WordParser(source,ignoreSpace)` (core:365-369).  More rounds than this make no difference
(`Verif.Http.wordLoop_rounds`): `none` is a constructor that never returns. -/
def words (ignoreSpace : Bool) (s : Str) : Option (Except Fault (List (Option Str))) :=
  wordLoop ignoreSpace (s.length + 1) s

/-! ## Quoting -/

/-- The loop of `DecodeQuotedString` (core:672-682). -/
def unescape : Bool → Str → Str
  | _, [] => []
  | escape, c :: t => if !escape && c = '\\' then unescape true t else c :: unescape false t

/-- `DecodeQuotedString` (core:666-684). -/
def decodeQuoted (q : Str) : Str :=
  let s := (q.drop 1).dropLast
  if s.contains '\\' then unescape false s else s

/-- A character that `QuoteString` puts a backslash before (core:697): the backslash, the quote and the controls other
than tab. -/
def escaped (c : Char) : Bool := c = '\\' || c = '"' || (isCtl c && !isSp c)

/-- `QuoteString` (core:687-709). -/
def quoteString (s : Str) (force : Bool) : Str :=
  let body := s.flatMap fun c => if escaped c then ['\\', c] else [c]
  if force || s.any (fun c => escaped c || isCtl c || isSep c) then '"' :: body ++ ['"'] else body

/-! ## The word parser -/

/-- A `WordParser`: the words from the current position on.  `cWord` is the first of them. -/
abbrev Words := List (Option Str)

/-- The state and the exceptions of a parsing method. -/
abbrev P (α : Type) := StateT Words (Except Fault) α

/-- `self.cWord` (core:368). -/
def cWord (ws : Words) : Option Str := ws.head?.join

/-- `IsToken` (core:494-496): the words are never empty strings. -/
def isToken (ws : Words) : Bool :=
  match cWord ws with
  | some (c :: _) => !isSep c
  | _ => false

/-- `ParseWord` (core:484-492). -/
def parseWord : P (Option Str) := fun ws => .ok (cWord ws, ws.tail)

/-- `ParseToken` (core:498-503). -/
def parseToken : P (Option Str) := fun ws => if isToken ws then .ok (cWord ws, ws.tail) else .ok (none, ws)

/-- `RequireToken` (core:525-535). -/
def requireToken : P Str := fun ws =>
  match isToken ws, cWord ws with
  | true, some w => .ok (w, ws.tail)
  | _, _ => .error .syntaxError

/-- `ParseSeparator` (core:562-570). -/
def parseSeparator (sep : Char) : P Bool := fun ws =>
  if cWord ws = some [sep] then .ok (true, ws.tail) else .ok (false, ws)

/-- `RequireSeparator` (core:572-579). -/
def requireSeparator (sep : Char) : P Unit := fun ws =>
  if cWord ws = some [sep] then .ok ((), ws.tail) else .error .syntaxError

/-- `ParseSP` (core:594-598). -/
def parseSP : P Unit := fun ws => if cWord ws = some [' '] then .ok ((), ws.tail) else .ok ((), ws)

/-- `IsInteger` (core:537-539). -/
def isInteger (ws : Words) : Bool :=
  match cWord ws with
  | some w => isDigits w
  | none => false

/-- `RequireInteger` (core:541-556). -/
def requireInteger : P Nat := fun ws =>
  match isInteger ws, cWord ws with
  | true, some w => .ok (Py.digitsVal 10 w, ws.tail)
  | _, _ => .error .syntaxError

/-- `IsQuotedString` (core:581-583). -/
def isQuotedString (ws : Words) : Bool :=
  match cWord ws with
  | some ('"' :: _) => true
  | _ => false

/-- `ParseQuotedString` (core:585-592). -/
def parseQuotedString : P (Option Str) := fun ws =>
  match isQuotedString ws, cWord ws with
  | true, some w => .ok (some (decodeQuoted w), ws.tail)
  | _, _ => .ok (none, ws)

/-- `RequireEnd` (core:472-482). -/
def requireEnd : P Unit := fun ws => if (cWord ws).isSome then .error .syntaxError else .ok ((), ws)

/-- `ParseProduction` (core:449-460): a `SyntaxError`, no other exception, rewinds the parser. -/
def parseProduction {α : Type} (m : P α) : P (Option α) := fun ws =>
  match m ws with
  | .ok (a, r) => .ok (some a, r)
  | .error .syntaxError => .ok (none, ws)
  | .error e => .error e

/-- `ParseTokenList` (core:512-523). -/
def parseTokenList : Words → List Str × Words
  | [] => ([], [])
  | none :: ws => ([], none :: ws)
  | some w :: ws =>
    if isToken (some w :: ws) then
      let p := parseTokenList ws
      (w :: p.1, p.2)
    else if w = [','] then parseTokenList ws
    else ([], some w :: ws)

/-- `ParseRemainder` (core:653-662) with an empty separator: `string.join` of a list with a `None` in it is a
`TypeError`. -/
def parseRemainder : P Str := fun ws =>
  if (cWord ws).isNone then .ok ([], [])
  else if ws.contains none then .error .typeError
  else .ok ((ws.filterMap id).flatten, [])

/-! ## Parameters -/

/-- A parameter: its name as written and its value (core:648). -/
structure Param where
  key : Str
  name : Str
  value : Str
deriving DecidableEq, Repr

/-- A dictionary of parameters: its items in the order of their keys, which is the order in which `FormatParameters`
writes them (core:713-717) and in which Python compares dictionaries of the same size. -/
abbrev Params := List Param

/-- `parameters[paramKey]=[paramName,paramValue]` (core:648). -/
def Params.put (p : Param) : Params → Params
  | [] => [p]
  | q :: qs =>
    match compare p.key q.key with
    | .lt => p :: q :: qs
    | .eq => p :: qs
    | .gt => q :: Params.put p qs

/-- `p not in parameters`, `parameters[p][1]` (`pyslet/pyslet/rfc2616_headers.py:111`). -/
def Params.get (k : Str) (ps : Params) : Option Str := (ps.find? fun p => p.key = k).map Param.value

/-- The body of the loop of `ParseParameters` (core:627-648) for parameter names that are not case sensitive. -/
def oneParam (ignoreAllSpace : Bool) (qMode : Option Str) : P Param := do
  parseSP
  requireSeparator ';'
  parseSP
  let name ← requireToken
  if some (Py.lower name) = qMode then throw .syntaxError
  if ignoreAllSpace then parseSP
  requireSeparator '='
  if ignoreAllSpace then parseSP
  let ws ← get
  if isToken ws then
    let v ← requireToken
    return ⟨Py.lower name, name, v⟩
  else
    match ← parseQuotedString with
    | some v => return ⟨Py.lower name, name, v⟩
    | none => throw .syntaxError

/-- The loop of `ParseParameters` (core:624-651), for as many rounds as there are words: every round takes some. -/
def paramLoop (ignoreAllSpace : Bool) (qMode : Option Str) : Nat → Params → P Params
  | 0, ps => pure ps
  | n + 1, ps => fun ws =>
    if (cWord ws).isNone then .ok (ps, ws)
    else
      match oneParam ignoreAllSpace qMode ws with
      | .ok (p, r) => paramLoop ignoreAllSpace qMode n (ps.put p) r
      | .error .syntaxError => .ok (ps, ws)
      | .error e => .error e

/-- `ParseParameters` (core:600-651) with an empty dictionary. -/
def parseParameters (ignoreAllSpace : Bool) (qMode : Option Str) : P Params := do
  parseSP
  let ws ← get
  paramLoop ignoreAllSpace qMode ws.length []

/-- `FormatParameters` (core:712-722). -/
def formatParameters (ps : Params) : Str :=
  ps.flatMap fun p => [';', ' '] ++ p.name ++ ['='] ++ quoteString p.value false

/-- A `FromString` class method: the words are found and handed to a parser. -/
def fromString {α : Type} (ignoreSpace : Bool) (m : P α) (s : Str) : Option (Except Fault α) :=
  (words ignoreSpace s).map fun r => r.bind fun ws => (m ws).map (·.1)

end Verif.Http
