import Verif.Model.Py

/-! # Specifications for packages: legal identifiers and directory containment -/

namespace Verif.Spec

open Verif

/-- Letters, by explicit ranges. -/
def Letter (c : Char) : Prop := ('a' ≤ c ∧ c ≤ 'z') ∨ ('A' ≤ c ∧ c ≤ 'Z')

/-- First character of an identifier. -/
def IdStart (c : Char) : Prop := Letter c ∨ c = '_'

/-- Further characters of an identifier. -/
def IdChar (c : Char) : Prop :=
  Letter c ∨ ('0' ≤ c ∧ c ≤ '9') ∨ c = '_' ∨ c = '-' ∨ c = '.' ∨ c = ':'

/-- A legal (ASCII) XML identifier. -/
def LegalId (s : Str) : Prop := ∃ c t, s = c :: t ∧ IdStart c ∧ ∀ d ∈ t, IdChar d

/-- One path component read while walking a POSIX path from the root. -/
def walk (dir : List Str) (seg : Str) : List Str :=
  if seg = [] ∨ seg = ['.'] then dir
  else if seg = ['.', '.'] then dir.dropLast
  else dir ++ [seg]

/-- The location denoted by an absolute POSIX path (no symbolic links): the list of components from
the root after interpreting empty, `.` and `..` components. -/
def location (path : Str) : List Str := (Py.split '/' path).foldl walk []

/-- `path` denotes a location inside (or equal to) the directory denoted by `dir`. -/
def Inside (dir path : Str) : Prop := ∃ rest, location path = location dir ++ rest

end Verif.Spec
