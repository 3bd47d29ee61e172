import Verif.Model.Py

/-!
# Model of /repo/QTIMigration/lib/xmlutils.py
-/

set_option linter.unusedVariables false

namespace Verif.XmlUtils

open Verif Verif.Py

/-- `NMTOKEN_CHARS` (xmlutils.py:32). -/
def isNmtokenChar (c : Char) : Bool := isLetter c || isDigit c || c ∈ ['_', '-', '.', ':']

/-- `NMSTART_CHARS` (xmlutils.py:33). -/
def isNmstartChar (c : Char) : Bool := isLetter c || c = '_'

/-- `pchar` (xmlutils.py:35). -/
def isPchar (c : Char) : Bool :=
  isLetter c || isDigit c ||
    c ∈ ['-', '_', '.', '!', '~', '*', '\'', ':', '@', '&', '=', '+', '$', ',']

/-- `scheme_char` (xmlutils.py:36). -/
def isSchemeChar (c : Char) : Bool := isLetter c || isDigit c || c ∈ ['+', '-', '.']

/-- Body of the loop of `XMLString` (xmlutils.py:43-53). -/
def xmlChar (c : Char) : Str :=
  if c = '&' then "&amp;".toList
  else if c = '<' then "&lt;".toList
  else if c = '>' then "&gt;".toList
  else if c.toNat > 128 then "&#".toList ++ strNat c.toNat ++ [';']
  else [c]

/-- `XMLString` (xmlutils.py:40-54).  `None` behaves like the empty string. -/
def xmlString (s : Str) : Str := s.flatMap xmlChar

/-- `EncodeComment` (xmlutils.py:56-57): `src.replace('--','- - ')`, leftmost non-overlapping. -/
def encodeComment : Str → Str
  | '-' :: '-' :: t => '-' :: ' ' :: '-' :: ' ' :: encodeComment t
  | c :: t => c :: encodeComment t
  | [] => []

/-- `RelativeURL` (xmlutils.py:59-68).  `test[0][0]` raises `IndexError` when the text before the
first colon is empty. -/
def relativeURL (uri : Str) : Except Err Bool :=
  match split ':' uri with
  | first :: _ :: _ =>
    match first with
    | [] => .error .indexError
    | c :: _ =>
      if ¬ isLetter c then .ok true
      else if first.all isSchemeChar then .ok false else .ok true
  | _ => .ok true

/-- Body of the loop of `EncodePathSegment` (xmlutils.py:73-81).  `hex(n)[2:]` padded to two digits
is written out for `n ≤ 255`. -/
def encodeSegChar (c : Char) : Str :=
  if isPchar c then [c]
  else if c.toNat > 255 then ['?']
  else ['%', hexDigitChar (c.toNat / 16), hexDigitChar (c.toNat % 16)]

/-- `EncodePathSegment` (xmlutils.py:70-84), without the printed warning. -/
def encodePathSegment (s : Str) : Str := s.flatMap encodeSegChar

/-- One iteration of the loop of `DecodePathSegment` (xmlutils.py:89-102).  The state is
`(newPathSegment, hexStr)`; `hexStr` is `none` for `""` and `some h` for `"0x"+h`. -/
def decodeStep (st : Str × Option Str) (c : Char) : Str × Option Str :=
  let st' : Str × Option Str :=
    if c = '%' then (st.1, some [])
    else match st.2 with
      | some h => if isHex c then (st.1, some (h ++ [c])) else (st.1 ++ ['%'] ++ h, none)
      | none => (st.1 ++ [c], none)
  match st'.2 with
  | some h => if h.length = 2 then (st'.1 ++ [Char.ofNat (digitsVal 16 h)], none) else st'
  | none => st'

/-- `DecodePathSegment` (xmlutils.py:86-103). -/
def decodePathSegment (s : Str) : Str := (s.foldl decodeStep ([], none)).1

/-! ## The tokenizer -/

/-- `SCHARS` (xmlutils.py:106). -/
def isSchar (c : Char) : Bool := c.toNat ∈ [0x20, 0x09, 0x0D, 0x0A]

/-- `ParseName` (xmlutils.py:225-241).  `started` is `name or numbersAllowed`. Returns the name and
the remaining input. -/
def parseName (started : Bool) : Str → Str × Str
  | [] => ([], [])
  | c :: t =>
    if isSchar c then ([], c :: t)
    else if c ∈ ['<', '>', '/', ';', '='] then ([], c :: t)
    else if started then
      if isNmtokenChar c || c.toNat > 128 then
        let r := parseName true t
        (c :: r.1, r.2)
      else ([], c :: t)
    else
      if isNmstartChar c || c.toNat > 128 then
        let r := parseName true t
        (c :: r.1, r.2)
      else ([], c :: t)

/-- `SkipSpace` (xmlutils.py:243-248). -/
def skipSpace : Str → Str
  | [] => []
  | c :: t => if isSchar c then skipSpace t else c :: t

/-- `ParseChar` (xmlutils.py:250-255): the remaining input if the character was there. -/
def parseChar (c : Char) : Str → Option Str
  | [] => none
  | d :: t => if d = c then some t else none

/-- The default entity map (xmlutils.py:112-119). -/
def entity (name : Str) : Char :=
  if name = "quot".toList then '"'
  else if name = "apos".toList then '\''
  else if name = "amp".toList then '&'
  else if name = "lt".toList then '<'
  else if name = "gt".toList then '>'
  else if name = "nbsp".toList then Char.ofNat 160
  else '?'

/-- The optional semicolon (xmlutils.py:221-222). -/
def dropSemi (inp : Str) : Str := (parseChar ';' inp).getD inp

/-- `ParseReference` (xmlutils.py:212-223), called after the `&` has been consumed. -/
def parseReference (inp : Str) : Except Err (Char × Str) :=
  match parseChar '#' inp with
  | some t =>
    match parseChar 'x' t with
    | some u =>
      let r := parseName true u
      match intOfHexStr r.1 with
      | .ok i => match unichr i with
        | .ok c => .ok (c, dropSemi r.2)
        | .error e => .error e
      | .error e => .error e
    | none =>
      let r := parseName true t
      match intOfStr r.1 with
      | .ok i => match unichr i with
        | .ok c => .ok (c, dropSemi r.2)
        | .error e => .error e
      | .error e => .error e
  | none =>
    let r := parseName false inp
    .ok (entity (lower r.1), dropSemi r.2)

theorem parseName_le (b : Bool) (s : Str) : (parseName b s).2.length ≤ s.length := by
  induction s generalizing b with
  | nil => simp [parseName]
  | cons c t ih =>
    have h := ih true
    simp only [parseName]
    split
    · simp
    · split
      · simp
      · split <;> split <;> simp <;> omega

theorem parseName_lt (b : Bool) (s : Str) (h : (parseName b s).1 ≠ []) :
    (parseName b s).2.length < s.length := by
  cases s with
  | nil => simp [parseName] at h
  | cons c t =>
    have h2 := parseName_le true t
    revert h
    simp only [parseName]
    split
    · simp
    · split
      · simp
      · split <;> split <;> simp <;> omega

theorem dropSemi_le (s : Str) : (dropSemi s).length ≤ s.length := by
  unfold dropSemi parseChar
  cases s with
  | nil => simp
  | cons c t => simp only []; split <;> simp

theorem skipSpace_le (s : Str) : (skipSpace s).length ≤ s.length := by
  induction s with
  | nil => simp [skipSpace]
  | cons c t ih => simp only [skipSpace]; split <;> simp; omega

theorem parseChar_lt {c : Char} {s t : Str} (h : parseChar c s = some t) : t.length < s.length := by
  cases s with
  | nil => simp [parseChar] at h
  | cons d u =>
    simp only [parseChar] at h
    split at h
    · injection h with h; subst h; simp
    · simp at h

theorem parseReference_le {s : Str} {c : Char} {t : Str} (h : parseReference s = .ok (c, t)) :
    t.length ≤ s.length := by
  unfold parseReference at h
  split at h
  · rename_i t1 h1
    have l1 := parseChar_lt h1
    split at h
    · rename_i u h2
      have l2 := parseChar_lt h2
      have l3 := parseName_le true u
      have l4 := dropSemi_le (parseName true u).2
      revert h
      simp only []
      split
      · split
        · intro h; injection h with h; injection h with _ h; subst h; omega
        · intro h; injection h
      · intro h; injection h
    · have l3 := parseName_le true t1
      have l4 := dropSemi_le (parseName true t1).2
      revert h
      simp only []
      split
      · split
        · intro h; injection h with h; injection h with _ h; subst h; omega
        · intro h; injection h
      · intro h; injection h
  · have l3 := parseName_le false s
    have l4 := dropSemi_le (parseName false s).2
    injection h with h; injection h with _ h; subst h; omega

/-- The loop of `ParseAttValue` (xmlutils.py:198-209), after the opening delimiter. -/
def attValueLoop (delim : Char) (acc : Str) (inp : Str) : Except Err (Str × Str) :=
  match inp with
  | [] => .error .xmlException
  | c :: t =>
    if c = delim then .ok (acc, t)
    else if c = '&' then
      match h : parseReference t with
      | .ok (v, u) => attValueLoop delim (acc ++ [v]) u
      | .error e => .error e
    else attValueLoop delim (acc ++ [c]) t
termination_by inp.length
decreasing_by
  · have := parseReference_le h; simp; omega
  · simp

/-- `ParseAttValue` (xmlutils.py:189-210). -/
def parseAttValue (inp : Str) : Except Err (Str × Str) :=
  match parseChar '"' inp with
  | some t => attValueLoop '"' [] t
  | none =>
    match parseChar '\'' inp with
    | some t => attValueLoop '\'' [] t
    | none => .error .xmlException

theorem attValueLoop_le {delim : Char} {acc inp v u : Str}
    (h : attValueLoop delim acc inp = .ok (v, u)) : u.length ≤ inp.length := by
  fun_induction attValueLoop delim acc inp with
  | case1 => cases h
  | case2 => injection h with h; injection h with _ h; subst h; simp
  | case3 _ _ _ _ hp _ ih =>
    have := ih h; have := parseReference_le hp; simp; omega
  | case4 => cases h
  | case5 acc c t hc hd ih => have := ih h; simp; omega

theorem parseAttValue_lt {inp v u : Str} (h : parseAttValue inp = .ok (v, u)) :
    u.length < inp.length := by
  unfold parseAttValue at h
  split at h
  · rename_i t h1
    have := parseChar_lt h1; have := attValueLoop_le h; omega
  · split at h
    · rename_i t h1
      have := parseChar_lt h1; have := attValueLoop_le h; omega
    · cases h

/-- Tokens produced by `TokenizeString`: Python strings, or tag dictionaries with `.type` `STag`,
`EmptyElemTag` or `ETag`. -/
inductive Token where
  | text (s : Str)
  | stag (name : Str) (attrs : List (Str × Str))
  | emptyTag (name : Str) (attrs : List (Str × Str))
  | etag (name : Str)
deriving DecidableEq, Repr

/-- `tag[aName]=aValue` on a dictionary kept as an association list. -/
def setAttr (attrs : List (Str × Str)) (k v : Str) : List (Str × Str) :=
  if attrs.any (·.1 = k) then attrs.map (fun p => if p.1 = k then (k, v) else p)
  else attrs ++ [(k, v)]

/-- The attribute loop of `ParseTag` (xmlutils.py:154-177). -/
def tagLoop (name : Str) (attrs : List (Str × Str)) (inp : Str) : Except Err (Token × Str) :=
  match h0 : skipSpace inp with
  | [] => .error .xmlException
  | c :: t =>
    if c = '>' then .ok (.stag name attrs, t)
    else if c = '/' then
      match parseChar '>' t with
      | some u => .ok (.emptyTag name attrs, u)
      | none => .error .xmlException
    else
      match h1 : parseName false (c :: t) with
      | (aName, u) =>
        if h2 : aName = [] then .error .xmlException
        else
          match h3 : parseChar '=' (skipSpace u) with
          | none => .error .xmlException
          | some w =>
            match h4 : parseAttValue (skipSpace w) with
            | .error e => .error e
            | .ok (v, x) => tagLoop name (setAttr attrs aName v) x
termination_by inp.length
decreasing_by
  have l0 : (c :: t).length ≤ inp.length := h0 ▸ skipSpace_le inp
  have l1 : (parseName false (c :: t)).2.length ≤ (c :: t).length := parseName_le _ _
  rw [h1] at l1
  have l2 := skipSpace_le u
  have l3 := parseChar_lt h3
  have l4 := skipSpace_le w
  have l5 := parseAttValue_lt h4
  simp only [List.length_cons] at *
  omega

/-- `ParseTag` (xmlutils.py:148-178); the string `'<'` when no name follows. -/
def parseTag (inp : Str) : Except Err (Token × Str) :=
  let r := parseName false inp
  if r.1 = [] then .ok (.text ['<'], r.2) else tagLoop r.1 [] r.2

/-- `ParseETag` (xmlutils.py:180-187). -/
def parseETag (inp : Str) : Except Err (Token × Str) :=
  let r := parseName false inp
  match parseChar '>' (skipSpace r.2) with
  | some u => .ok (.etag r.1, u)
  | none => .error .xmlException

theorem tagLoop_le {name : Str} {attrs : List (Str × Str)} {inp : Str} {tok : Token} {u : Str}
    (h : tagLoop name attrs inp = .ok (tok, u)) : u.length ≤ inp.length := by
  fun_induction tagLoop name attrs inp with
  | case1 => cases h
  | case2 attrs inp t h0 =>
    have l0 := skipSpace_le inp
    injection h with h; injection h with _ h; subst h
    rw [h0] at l0; simp at l0; omega
  | case3 attrs inp t v hv h0 _ =>
    have l0 := skipSpace_le inp
    have := parseChar_lt hv
    injection h with h; injection h with _ h; subst h
    rw [h0] at l0; simp at l0; omega
  | case4 => cases h
  | case5 => cases h
  | case6 => cases h
  | case7 => cases h
  | case8 attrs inp c t h0 hc hs aName u' h1 h2 w h3 v x h4 ih =>
    have := ih h
    have l0 : (c :: t).length ≤ inp.length := h0 ▸ skipSpace_le inp
    have l1 : (parseName false (c :: t)).2.length ≤ (c :: t).length := parseName_le _ _
    rw [h1] at l1
    have l2 := skipSpace_le u'
    have l3 := parseChar_lt h3
    have l4 := skipSpace_le w
    have l5 := parseAttValue_lt h4
    simp only [List.length_cons] at *
    omega

theorem parseTag_le {inp : Str} {tok : Token} {u : Str} (h : parseTag inp = .ok (tok, u)) :
    u.length ≤ inp.length := by
  unfold parseTag at h
  have l := parseName_le false inp
  revert h
  simp only []
  split
  · intro h; injection h with h; injection h with _ h; subst h; exact l
  · intro h; have := tagLoop_le h; omega

theorem parseETag_le {inp : Str} {tok : Token} {u : Str} (h : parseETag inp = .ok (tok, u)) :
    u.length ≤ inp.length := by
  unfold parseETag at h
  have l := parseName_le false inp
  have l2 := skipSpace_le (parseName false inp).2
  revert h
  simp only []
  split
  · rename_i hp
    have := parseChar_lt hp
    intro h; injection h with h; injection h with _ h; subst h; omega
  · intro h; cases h

/-- `if chars: tokens.append(string.join(chars,''))` (xmlutils.py:134-136, 143-145). -/
def flush (chars : Str) (toks : List Token) : List Token :=
  if chars = [] then toks else toks ++ [.text chars]

/-- The main loop of `TokenizeString` (xmlutils.py:127-146). -/
def tokLoop (chars : Str) (toks : List Token) (inp : Str) : Except Err (List Token) :=
  match inp with
  | [] => .ok (flush chars toks)
  | c :: t =>
    if c = '<' then
      match hp : parseChar '/' t with
      | some u =>
        match h : parseETag u with
        | .ok (tag, v) => tokLoop [] (flush chars toks ++ [tag]) v
        | .error e => .error e
      | none =>
        match h : parseTag t with
        | .ok (tag, v) => tokLoop [] (flush chars toks ++ [tag]) v
        | .error e => .error e
    else if c = '&' then
      match h : parseReference t with
      | .ok (v, u) => tokLoop (chars ++ [v]) toks u
      | .error e => .error e
    else tokLoop (chars ++ [c]) toks t
termination_by inp.length
decreasing_by
  · have := parseChar_lt hp; have := parseETag_le h; simp; omega
  · have := parseTag_le h; simp; omega
  · have := parseReference_le h; simp; omega
  · simp

/-- `XMLParser.TokenizeString` (xmlutils.py:121-146) with the default entity map. -/
def tokenize (inp : Str) : Except Err (List Token) := tokLoop [] [] inp

end Verif.XmlUtils
