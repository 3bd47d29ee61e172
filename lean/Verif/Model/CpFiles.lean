import Verif.Model.Py

/-!
# Files of a content package (/repo/pyslet/pyslet/imscpv1p2.py, POSIX paths of /repo/pyslet/pyslet/vfs.py)

Absolute paths are the lists of their components.  Only POSIX paths are modelled: `normcase` is the identity, and the
special meaning of a path that begins with exactly two slashes is ignored.  The file system has no links.
-/

namespace Verif.Cp

open Verif

set_option linter.unusedVariables false

/-- Components of an absolute path. -/
abbrev Path := List Str

/-- What a file system holds at a path. -/
inductive Node where
  | dir
  | file (content : Str)
deriving DecidableEq, Repr

/-- A file system. -/
abbrev FS := Path → Option Node

/-- One component of `os.path.normpath` on an absolute path: empty components and `.` are skipped, `..` removes the last
component and does nothing at the root. -/
def normStep (p : Path) (c : Str) : Path :=
  if c = [] ∨ c = ['.'] then p
  else if c = ['.', '.'] then p.dropLast
  else p ++ [c]

/-- `path.join(seg).normpath()` (vfs.py:272-273, 293-294): an absolute `seg` replaces the path. -/
def joinNorm (p : Path) (seg : Str) : Path :=
  if seg.head? = some '/' then (Py.split '/' seg).foldl normStep [] else (Py.split '/' seg).foldl normStep p

/-- `PackagePath` (imscpv1p2.py:505-517) and, since the paths are normalized and case is significant, the loop of
`PathInPath` (imscpv1p2.py:42-66): the path relative to the package directory `d`, or `none`. -/
def packagePath (d : Path) (p : Path) (rel : List Str) : Option (List Str) :=
  if p = d then some rel
  else
    match h : p.getLast? with
    | none => none
    | some tail => packagePath d p.dropLast (tail :: rel)
termination_by p.length
decreasing_by
  cases p with
  | nil => cases h
  | cons a l => simp

/-! ## Expanding an archive -/

/-- Changes to the file system. -/
inductive Op where
  | mkdir (p : Path)
  | write (p : Path) (content : Str)
deriving DecidableEq, Repr

/-- The path an operation changes. -/
def Op.path : Op → Path
  | .mkdir p => p
  | .write p _ => p

/-- Effect of an operation. -/
def applyOp (fs : FS) : Op → FS
  | .mkdir p => fun q => if q = p then some .dir else fs q
  | .write p c => fun q => if q = p then some (.file c) else fs q

/-- Effect of a list of operations. -/
def applyOps (fs : FS) (ops : List Op) : FS := ops.foldl applyOp fs

/-- `if not path.isdir(): path.mkdir()` (imscpv1p2.py:528-529).  `os.mkdir` fails if the path exists or its parent is not
a directory. -/
def needDir (fs : FS) (p : Path) : Except Err (List Op) :=
  if fs p = some .dir then .ok []
  else if fs p = none ∧ fs p.dropLast = some .dir then .ok [.mkdir p]
  else .error .osError

/-- The loop over the segments of an entry name (imscpv1p2.py:526-533): the operations performed and the path reached,
or the error.  `dec` is `unicode(pathSeg,'utf-8')`. -/
def walkEntry (d : Path) (dec : Str → Option Str) : List Str → Path → FS → List Op × Except Err Path
  | [], path, fs => ([], .ok path)
  | seg :: segs, path, fs =>
    match needDir fs path with
    | .error e => ([], .error e)
    | .ok ops =>
      match dec seg with
      | none => (ops, .error .unicodeError)
      | some seg =>
        let path := joinNorm path seg
        if packagePath d path [] = none then (ops, .error .packageError)
        else
          let r := walkEntry d dec segs path (applyOps fs ops)
          (ops ++ r.1, r.2)

/-- One entry of the archive (imscpv1p2.py:524-545).  The content is that of the entry; the code reads it by name, which
differs only for names that occur twice, and those are rejected when they occur again. -/
def expandEntry (d : Path) (dec : Str → Option Str) (name content : Str) (fs : FS) : List Op × Except Err Unit :=
  let r := walkEntry d dec (Py.split '/' name) d fs
  match r.2 with
  | .error e => (r.1, .error e)
  | .ok path =>
    let fs' := applyOps fs r.1
    match fs' path with
    | some .dir => if content ≠ [] then (r.1, .error .packageError) else (r.1, .ok ())
    | some (.file _) => (r.1, .error .packageError)
    | none =>
      if fs' path.dropLast = some .dir then (r.1 ++ [.write path content], .ok ())
      else (r.1, .error .osError)

/-- `ExpandZip` (imscpv1p2.py:519-547) into the directory `d`: the operations and the outcome. -/
def expandZip (d : Path) (dec : Str → Option Str) : List (Str × Str) → FS → List Op × Except Err Unit
  | [], fs => ([], .ok ())
  | (name, content) :: rest, fs =>
    let r := expandEntry d dec name content fs
    match r.2 with
    | .error e => (r.1, .error e)
    | .ok () =>
      let s := expandZip d dec rest (applyOps fs r.1)
      (r.1 ++ s.1, s.2)

/-! ## Exporting to an archive -/

/-- The contents of a directory in the order of `listdir`. -/
inductive Forest where
  | nil
  | file (name content : Str) (next : Forest)
  | dir (name : Str) (children next : Forest)
deriving Repr

/-- `ExportToPIF` and `AddToZip` (imscpv1p2.py:549-592): the entries written, for a file system without links (so that
no real path is met twice) and names without slashes.  `ignore` is `IgnoreFile` and `enc`
is encoding in utf-8. -/
def exportEntries (enc : Str → Str) (ignore : Str → Bool) (base : Str) : Forest → List (Str × Str)
  | .nil => []
  | .file n c next => (if ignore n then [] else [(base ++ enc n, c)]) ++ exportEntries enc ignore base next
  | .dir n ch next =>
    (if ignore n then [] else (base ++ enc n ++ ['/'], []) :: exportEntries enc ignore (base ++ enc n ++ ['/']) ch) ++
      exportEntries enc ignore base next

/-! ## File names -/

/-- `os.path.splitext` on the last component of a path: the extension begins at the last full stop that is not among
the leading ones. -/
def splitext (name : Str) : Str × Str :=
  let rev := name.reverse
  let ext := rev.takeWhile (· ≠ '.')
  let root := rev.drop (ext.length + 1)
  if ext.length < name.length ∧ root.any (· ≠ '.') then (root.reverse, '.' :: ext.reverse) else (name, [])

/-- Upper-case hexadecimal digit. -/
def upHexDigit (n : Nat) : Char := if n < 10 then Char.ofNat (48 + n) else Char.ofNat (55 + n)

/-- `'%X'%n`. -/
def hexStr (n : Nat) : Str := if n < 16 then [upHexDigit n] else hexStr (n / 16) ++ [upHexDigit (n % 16)]
termination_by n

/-- `'%s_%X%s'%(unicode(fName),pathExtra,fExt)` (imscpv1p2.py:635-636) for the path with the given directories and last
component. -/
def candidate (dirs : List Str) (name : Str) (extra : Nat) : List Str :=
  dirs ++ [(splitext name).1 ++ '_' :: hexStr extra ++ (splitext name).2]

/-- The loop of `GetUniqueFile` after the first failure (imscpv1p2.py:632-637).  The candidates are strings, while the
keys of the table are path objects; `found` tells what looking up a string gives.  The fuel bounds the iterations. -/
def uniqueLoop (found : List Str → Bool) (dirs : List Str) (name : Str) : Nat → Nat → Option (List Str)
  | 0, _ => none
  | fuel + 1, extra =>
    if found (candidate dirs name extra) then uniqueLoop found dirs name fuel (extra + 1)
    else some (candidate dirs name extra)

/-- `GetUniqueFile` (imscpv1p2.py:594-639) for a normalized suggested path `p`; `table` holds the paths of the file
table, `draw` is the random number.  If the path is the package directory itself `PathInPath` returns a string, which
has no method `normcase`.  `hashHit` tells for which strings the hash of the string is that of the path object, without
which a dictionary does not find the key. -/
def getUniqueFile (d : Path) (table : List (List Str)) (hashHit : List Str → Bool) (p : Path) (draw fuel : Nat) :
    Except Err (Option (List Str)) :=
  match packagePath d p [] with
  | none => .error .packageError
  | some rel =>
    match rel.getLast? with
    | none => .error .attributeError
    | some name =>
      if rel ∈ table then
        .ok (uniqueLoop (fun q => hashHit q && decide (q ∈ table)) rel.dropLast name fuel draw)
      else .ok (some rel)

/-- The normalized path that `GetUniqueFile` starts from (imscpv1p2.py:619-625): relative suggestions are converted to
lower case and taken relative to the package. -/
def suggested (d : Path) (s : Str) : Path :=
  if s.head? = some '/' then joinNorm d s else joinNorm d (Py.lower s)

/-! ## Adding and deleting files -/

/-- A package: the file table, and for each resource the package paths of its files (`none` for files that are not
local). -/
structure Pkg where
  table : List (List Str)
  resources : List (List (Option (List Str)))
  fs : FS

/-- `File` (imscpv1p2.py:641-680) for resource number `i` and a URL that is that of the local file `p`, or is not that of
a local file.  The condition that should protect the manifest compares a method with a string and is never true; the
exception that should report a path outside the package uses an undefined name. -/
def addFile (d : Path) (ignore : Str → Bool) (pkg : Pkg) (i : Nat) (p : Option Path) : Except Err Pkg :=
  match p with
  | none => .ok { pkg with resources := pkg.resources.modify i (· ++ [none]) }
  | some p =>
    if ignore (p.getLast?.getD []) then .error .packageError
    else
      match packagePath d p [] with
      | none => .error .nameError
      | some rel =>
        if rel = [] then .error .attributeError
        else .ok { pkg with
          resources := pkg.resources.modify i (· ++ [some rel])
          table := if rel ∈ pkg.table then pkg.table else rel :: pkg.table }

/-- The test `f.PackagePath(self)==relPath` for all files of the resources (imscpv1p2.py:754-761): comparing `None` with
a path raises `ValueError` (vfs.py:211-221). -/
def dropRefs (rel : List Str) (files : List (Option (List Str))) : Except Err (List (Option (List Str))) :=
  if none ∈ files then .error .valueError else .ok (files.filter (· ≠ some rel))

/-- `DeleteFile` (imscpv1p2.py:720-765) for a URL of a local file `p`; for another URL the exception is returned, not
raised, and nothing happens. -/
def deleteFile (d : Path) (ignore : Str → Bool) (pkg : Pkg) (p : Option Path) : Except Err Pkg :=
  match p with
  | none => .ok pkg
  | some p =>
    match pkg.fs p with
    | some (.file _) =>
      if ignore (p.getLast?.getD []) then .error .packageError
      else
        match packagePath d p [] with
        | none => .error .packageError
        | some rel =>
          match pkg.resources.mapM (dropRefs rel) with
          | .error e => .error e
          | .ok rs => .ok ⟨pkg.table.filter (· ≠ rel), rs, fun q => if q = p then none else pkg.fs q⟩
    | _ => .error .packageError

end Verif.Cp
