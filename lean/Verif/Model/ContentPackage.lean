import Verif.Model.Search
import Verif.Model.XmlUtils
import Verif.Lemmas.XmlUtils

/-!
# Model of /repo/QTIMigration/lib/imscp.py (and the parts of lom.py and imsqtiv1.py it uses)
-/

namespace Verif.CP

open Verif Verif.Py Verif.XmlUtils

/-- The LOM of a resource, as far as identifiers go: `general` is absent or carries the list of
`LOMIdentifier.entry` values (lom.py:32-36, 71-77, 214-217).  A `None` entry behaves like `""`. -/
structure Lom where
  general : Option (List Str)
deriving DecidableEq, Repr

/-- `LOMIdentifier.SuggestXMLID` (lom.py:219-225). -/
def suggestEntry (entry : Str) : Str := entry.filter (fun c => isNmtokenChar c && !(c = ':'))

/-- The loop of `LOMGeneral.SuggestXMLID` (lom.py:79-85); `none` is Python's `None`. -/
def suggestGeneral (last : Option Str) : List Str → Option Str
  | [] => last
  | e :: es =>
    if suggestEntry e ≠ [] then some (suggestEntry e) else suggestGeneral (some (suggestEntry e)) es

/-- `LOM.SuggestXMLID` (lom.py:38-42). -/
def Lom.suggestXMLID (l : Lom) : Option Str :=
  match l.general with
  | some ids => suggestGeneral none ids
  | none => none

/-- The loop of `CPResource.FixIdentifier` (imscp.py:145-151); the argument is `newID`. -/
def fixLoop (newID : Str) : Str → Str
  | [] => newID
  | c :: t =>
    let c' := if isNmtokenChar c then c else '_'
    let newID' := if newID = [] && !(isNmstartChar c') then "ID_".toList else newID
    fixLoop (newID' ++ [c']) t

/-- `CPResource.FixIdentifier` (imscp.py:143-152). -/
def fixIdentifier (s : Str) : Str := fixLoop [] s

/-- A resource as handed to `AddResource` (imscp.py:130-137), restricted to what determines its
identifier. -/
structure Resource where
  id : Option Str
  lom : Option Lom
deriving DecidableEq, Repr

/-- Candidates tried by `GetUniqueID` (imscp.py:53-57): `base`, `base-1`, `base-2`, … -/
def idCandidate (base : Str) (i : Nat) : Str := if i = 0 then base else base ++ '-' :: strNat i

theorem strNat_inj (i j : Nat) (h : strNat i = strNat j) : i = j := by
  rw [← strNat_val i, ← strNat_val j, h]

theorem idCandidate_inj (base : Str) (i j : Nat) (h : idCandidate base i = idCandidate base j) :
    i = j := by
  unfold idCandidate at h
  split at h <;> split at h
  · omega
  · exfalso
    have := congrArg List.length h
    simp at this
  · exfalso
    have := congrArg List.length h
    simp at this
  · have h2 := List.append_cancel_left h
    injection h2 with _ h2
    exact strNat_inj i j h2

/-- `ContentPackage.GetUniqueID` (imscp.py:52-58). -/
def getUniqueID (idSpace : List Str) (base : Str) : Str :=
  firstFree idSpace (idCandidate base) (idCandidate_inj base) 0

/-- The stem used by `GetUniqueFileName` (imscp.py:61-64). -/
def stemOf (fName : Str) : Str :=
  match split '.' fName with
  | s :: _ => if s = [] then "file".toList else s
  | [] => "file".toList

/-- The name parts after the stem (imscp.py:61). -/
def partsAfterStem (fName : Str) : List Str := (split '.' fName).tail

/-- Candidates tried by `GetUniqueFileName` (imscp.py:65-72): the stem, then `stem-1`, `stem-2`, …,
joined with the remaining parts. -/
def fileCandidate (fName : Str) (i : Nat) : Str :=
  join '.' (idCandidate (stemOf fName) i :: partsAfterStem fName)

theorem join_cons_inj (a b : Str) (ps : List Str) (h : join '.' (a :: ps) = join '.' (b :: ps)) :
    a = b := by
  cases ps with
  | nil => simpa [join] using h
  | cons p ps =>
    simp only [join] at h
    exact List.append_cancel_right h

theorem fileCandidate_inj (fName : Str) (i j : Nat) (h : fileCandidate fName i = fileCandidate fName j) :
    i = j := idCandidate_inj _ i j (join_cons_inj _ _ _ h)

/-- A content fingerprint: Python's `None` or a string. -/
abbrev Hash := Option Str

/-- Python truth value of a fingerprint. -/
def truthy : Hash → Bool
  | none => false
  | some s => !s.isEmpty

/-- `d[k]=v` on a dictionary kept as an association list with unique keys. -/
def dictSet {β} (d : List (Str × β)) (k : Str) (v : β) : List (Str × β) :=
  (k, v) :: d.filter (fun p => p.1 ≠ k)

/-- The names that the loop of `GetUniqueFileName` passes over: present in `fileSpace`, unless the
fingerprint is truthy and equal (imscp.py:73-77). -/
def blockedNames (fileSpace : List (Str × Hash)) (h : Hash) : List Str :=
  (fileSpace.filter (fun p => !(truthy h && p.2 = h))).map (·.1)

/-- `ContentPackage.GetUniqueFileName` (imscp.py:60-80): the name and the updated `fileSpace`. -/
def getUniqueFileName (fileSpace : List (Str × Hash)) (fName : Str) (h : Hash) :
    Str × List (Str × Hash) :=
  let name := firstFree (blockedNames fileSpace h) (fileCandidate fName) (fileCandidate_inj fName) 0
  (name, dictSet fileSpace name h)

/-- The identifier-related state of a `ContentPackage` (imscp.py:45-50): the keys of `idSpace` and
the resources added so far. -/
structure Pkg where
  idSpace : List Str := []
  resources : List Resource := []
deriving DecidableEq, Repr

/-- `CPResource.AutoSetID` (imscp.py:154-161).  Iterating over `None` raises `TypeError`. -/
def autoSetID (idSpace : List Str) (r : Resource) : Except Err Str :=
  match r.lom with
  | some l =>
    match l.suggestXMLID with
    | some s => .ok (getUniqueID idSpace (fixIdentifier s))
    | none => .error .typeError
  | none => .ok (getUniqueID idSpace "resource".toList)

/-- `not r.id` (imscp.py:83). -/
def noId (r : Resource) : Bool := r.id = none || r.id = some []

/-- The identifier a resource ends up with in `AddResource` (imscp.py:83-84). -/
def assignID (p : Pkg) (r : Resource) : Except Err Str :=
  match r.id with
  | none => autoSetID p.idSpace r
  | some i => if i = [] || i ∈ p.idSpace then autoSetID p.idSpace r else .ok i

/-- `ContentPackage.AddResource` (imscp.py:82-86). -/
def addResource (p : Pkg) (r : Resource) : Except Err Pkg :=
  match assignID p r with
  | .ok i => .ok { idSpace := i :: p.idSpace.filter (· ≠ i),
                   resources := p.resources ++ [{ r with id := some i }] }
  | .error e => .error e

/-- Adding a sequence of resources to a package. -/
def addAll (p : Pkg) : List Resource → Except Err Pkg
  | [] => .ok p
  | r :: rs =>
    match addResource p r with
    | .ok p' => addAll p' rs
    | .error e => .error e

/-! ## POSIX paths and writing files -/

/-- `os.path.join(a,b)` (POSIX). -/
def pathJoin (a b : Str) : Str :=
  if b.head? = some '/' then b
  else if a = [] ∨ a.getLast? = some '/' then a ++ b
  else a ++ '/' :: b

/-- `s.rstrip('/')`. -/
def rstripSlash (s : Str) : Str := (s.reverse.dropWhile (· = '/')).reverse

/-- `os.path.split(p)` (POSIX): head and tail around the last slash; the head loses trailing slashes
unless it consists only of slashes. -/
def pathSplit (p : Str) : Str × Str :=
  let tail := (p.reverse.takeWhile (· ≠ '/')).reverse
  let head := (p.reverse.dropWhile (· ≠ '/')).reverse
  (if head ≠ [] ∧ ¬ head.all (· = '/') then rstripSlash head else head, tail)

/-- One iteration of the loop of `ResolveCPURI` (imscp.py:261-271) on `(path, walk)`; the printed
warning is dropped. -/
def resolveStep (st : Str × Nat) (segment : Str) : Str × Nat :=
  if segment = ['.'] then st
  else if segment = ['.', '.'] then
    if st.2 ≠ 0 then ((pathSplit st.1).1, st.2 - 1) else st
  else (pathJoin st.1 (decodePathSegment segment), st.2 + 1)

/-- `ResolveCPURI` (imscp.py:257-272). -/
def resolveCPURI (cpPath uri : Str) : Str :=
  ((split '/' uri).foldl resolveStep (cpPath, 0)).1

/-- `CPFile.DumpToDirectory` (imscp.py:222-237): the path written, if any. -/
def dumpPath (cpPath href : Str) : Except Err (Option Str) :=
  match relativeURL href with
  | .ok true => .ok (some (resolveCPURI cpPath href))
  | .ok false => .ok none
  | .error e => .error e

/-- `QuesTestInterop.ResolveURI` (imsqtiv1.py:309-321). -/
def resolveURI (basePath uri : Str) : Str :=
  (split '/' uri).foldl (fun path segment =>
    if segment = ['.'] then path
    else if segment = ['.', '.'] then (pathSplit path).1
    else pathJoin path (decodePathSegment segment)) (pathSplit basePath).1

/-- The file-related operations of a migration: an item with resource identifier `id` reserves its
file name (imsqtiv1.py:503, 796); a relative media reference adds a file (imsqtiv1.py:719-739; the
per-item cache of already added uris is in `addCPFile` below). -/
inductive FileOp where
  | item (id : Str)
  | media (basePath uri : Str)
deriving DecidableEq, Repr

/-- The name requested for an operation: `resource.id+".xml"` or the last component of the resolved
path. -/
def FileOp.request : FileOp → Str
  | .item id => id ++ ".xml".toList
  | .media basePath uri => (pathSplit (resolveURI basePath uri)).2

/-- The href recorded for an operation given the unique name: items use the name itself
(imsqtiv1.py:796), media files the encoded name (imsqtiv1.py:731). -/
def FileOp.href (op : FileOp) (name : Str) : Str :=
  match op with
  | .item _ => name
  | .media _ _ => encodePathSegment name

/-- The hrefs recorded by a sequence of operations. -/
def runFiles (fileSpace : List (Str × Hash)) : List FileOp → List Str
  | [] => []
  | op :: ops =>
    let r := getUniqueFileName fileSpace op.request none
    op.href r.1 :: runFiles r.2 ops

/-- The names returned by a sequence of `GetUniqueFileName` requests. -/
def runNames (fileSpace : List (Str × Hash)) : List (Str × Hash) → List Str
  | [] => []
  | q :: qs =>
    let r := getUniqueFileName fileSpace q.1 q.2
    r.1 :: runNames r.2 qs

/-- `os.path.join(path,'imsmanifest.xml')` (imscp.py:97): the manifest, written before all files. -/
def manifestPath (cpPath : Str) : Str := pathJoin cpPath "imsmanifest.xml".toList

/-- `QTIItem.AddCPFile` (imsqtiv1.py:719-739): `files` is the per-item cache from uri to href.
Returns the href, the cache, the package's file table and whether a file was added. -/
def addCPFile (basePath : Str) (files : List (Str × Str)) (fileSpace : List (Str × Hash)) (uri : Str) :
    Except Err (Str × List (Str × Str) × List (Str × Hash) × Bool) :=
  match files.find? (·.1 = uri) with
  | some p => .ok (p.2, files, fileSpace, false)
  | none =>
    match relativeURL uri with
    | .error e => .error e
    | .ok true =>
      let r := getUniqueFileName fileSpace (pathSplit (resolveURI basePath uri)).2 none
      let href := encodePathSegment r.1
      .ok (href, (uri, href) :: files, r.2, true)
    | .ok false => .ok (uri, (uri, uri) :: files, fileSpace, true)

end Verif.CP
