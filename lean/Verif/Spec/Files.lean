import Verif.Model.CpFiles

/-! # Specifications for the files of a content package (C39-C41, C59, C60) -/

namespace Verif.Spec

open Verif Verif.Cp

/-- The path is that of the directory or of something below it. -/
def InDir (d p : Path) : Prop := ∃ q, p = d ++ q

/-- The path is that of something below the directory. -/
def BelowDir (d p : Path) : Prop := ∃ q, q ≠ [] ∧ p = d ++ q

/-- An ordinary file name. -/
def FileName (s : Str) : Prop := s ≠ [] ∧ s ≠ ['.'] ∧ s ≠ ['.', '.'] ∧ '/' ∉ s

/-- Following the components from a directory at the given depth, `..` is at some point met at depth 0. -/
def ClimbsOut : Nat → List Str → Prop
  | _, [] => False
  | depth, c :: rest =>
    if c = ['.', '.'] then depth = 0 ∨ ClimbsOut (depth - 1) rest
    else if c = [] ∨ c = ['.'] then ClimbsOut depth rest
    else ClimbsOut (depth + 1) rest

/-- The names in a directory. -/
def names : Forest → List Str
  | .nil => []
  | .file n _ next => n :: names next
  | .dir n _ next => n :: names next

/-- All names are file names, and the names in one directory differ. -/
def WellFormed : Forest → Prop
  | .nil => True
  | .file n _ next => FileName n ∧ n ∉ names next ∧ WellFormed next
  | .dir n ch next => FileName n ∧ n ∉ names next ∧ WellFormed ch ∧ WellFormed next

/-- What is found at a path in a directory. -/
def find : Forest → List Str → Option Node
  | _, [] => some .dir
  | .nil, _ :: _ => none
  | .file n c next, m :: rest => if m = n then (if rest = [] then some (.file c) else none) else find next (m :: rest)
  | .dir n ch next, m :: rest => if m = n then find ch rest else find next (m :: rest)

/-- The directory without the files and directories that are ignored. -/
def visible (ignore : Str → Bool) : Forest → Forest
  | .nil => .nil
  | .file n c next => if ignore n then visible ignore next else .file n c (visible ignore next)
  | .dir n ch next => if ignore n then visible ignore next else .dir n (visible ignore ch) (visible ignore next)

/-- Every file referenced from a resource is in the file table. -/
def Accounted (pkg : Pkg) : Prop := ∀ files ∈ pkg.resources, ∀ rel, some rel ∈ files → rel ∈ pkg.table

end Verif.Spec
