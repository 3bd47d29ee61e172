/-!
# Specification: reading bytes as XML text in the windows-1252 encoding

Independent of the model.  Characters are code points.
-/

namespace Verif.Spec

/-- The windows-1252 characters of the bytes 0x80 to 0x9F (0x81, 0x8D, 0x8F, 0x90, 0x9D are undefined there and read as
the control characters with the same number). -/
def win1252High : List Nat := [
  0x20AC, 0x81, 0x201A, 0x192, 0x201E, 0x2026, 0x2020, 0x2021, 0x2C6, 0x2030, 0x160, 0x2039, 0x152, 0x8D, 0x17D, 0x8F,
  0x90, 0x2018, 0x2019, 0x201C, 0x201D, 0x2022, 0x2013, 0x2014, 0x2DC, 0x2122, 0x161, 0x203A, 0x153, 0x9D, 0x17E, 0x178]

/-- The character of a byte. -/
def win1252 (b : Nat) : Nat := if 0x80 ≤ b ∧ b ≤ 0x9F then win1252High.getD (b - 0x80) b else b

/-- The value of a hexadecimal digit, given as a byte. -/
def hexDigit? (b : Nat) : Option Nat :=
  if 48 ≤ b ∧ b ≤ 57 then some (b - 48)
  else if 65 ≤ b ∧ b ≤ 70 then some (b - 55)
  else if 97 ≤ b ∧ b ≤ 102 then some (b - 87)
  else none

/-- Reads hexadecimal digits up to a semicolon: the value and what follows the semicolon.  `seen` says whether a digit
has been read. -/
def readHex (seen : Bool) (acc : Nat) : List Nat → Option (Nat × List Nat)
  | [] => none
  | b :: t =>
    match hexDigit? b with
    | some d => readHex true (acc * 16 + d) t
    | none => if b = 59 ∧ seen then some (acc, t) else none

theorem readHex_lt {t r : List Nat} : ∀ {seen : Bool} {acc v : Nat}, readHex seen acc t = some (v, r) → r.length < t.length := by
  induction t with
  | nil => intro seen acc v h; cases h
  | cons b t ih =>
    intro seen acc v h
    rw [readHex] at h
    split at h
    · exact Nat.lt_succ_of_lt (ih h)
    · split at h
      · injection h with h; injection h with _ h; subst h; exact Nat.lt_succ_self _
      · cases h

/-- A hexadecimal character reference `&#x…;` at the beginning: the character it names and what follows. -/
def hexRef? : List Nat → Option (Nat × List Nat)
  | 38 :: 35 :: 120 :: t => readHex false 0 t
  | _ => none

theorem hexRef?_lt {t r : List Nat} {v : Nat} (h : hexRef? t = some (v, r)) : r.length < t.length := by
  unfold hexRef? at h
  split at h
  · have := readHex_lt h; simp only [List.length_cons]; omega
  · cases h

/-- The text denoted by bytes: hexadecimal character references are replaced by the characters they name, all other
bytes by their windows-1252 characters. -/
def winText : List Nat → List Nat
  | [] => []
  | b :: t =>
    match h : hexRef? (b :: t) with
    | some (v, r) => v :: winText r
    | none => win1252 b :: winText t
termination_by l => l.length
decreasing_by
  · exact hexRef?_lt h
  · simp

/-- Whether the bytes begin with `<![CDATA[`. -/
def startsCdata : List Nat → Bool
  | 60 :: 33 :: 91 :: 67 :: 68 :: 65 :: 84 :: 65 :: 91 :: _ => true
  | _ => false

/-- Whether `<![CDATA[` occurs anywhere. -/
def hasCdata : List Nat → Bool
  | [] => false
  | b :: t => startsCdata (b :: t) || hasCdata t

/-- Whether the bytes begin with `]]>`. -/
def endsCdata : List Nat → Bool
  | 93 :: 93 :: 62 :: _ => true
  | _ => false

/-- The text denoted by bytes when CDATA sections, in which references are not recognised, are taken into account.
`inside` says whether a section is open; the markup of sections itself is kept. -/
def winTextCdata (inside : Bool) : List Nat → List Nat
  | [] => []
  | b :: t =>
    if inside then win1252 b :: winTextCdata (!endsCdata (b :: t)) t
    else if startsCdata (b :: t) then win1252 b :: winTextCdata true t
    else
      match h : hexRef? (b :: t) with
      | some (v, r) => v :: winTextCdata false r
      | none => win1252 b :: winTextCdata false t
termination_by l => l.length
decreasing_by
  · simp
  · simp
  · exact hexRef?_lt h
  · simp

end Verif.Spec
