import Verif.Model.Py

/-!
# Paths and hooks of virtual file systems

Models `pyslet/pyslet/vfs.py`: paths of the file system of a POSIX system (with `posixpath.join` and
`posixpath.split` of Python 2.7, which they call), and the hooks by which `os.stat` and `open` accept
paths.  Simplified: paths are strings of one kind, and the two hooks are set at once.
-/

namespace Verif.Vfs

open Verif

/-- One step of `posixpath.join`, as called at vfs.py:268. -/
def join2 (a b : Str) : Str :=
  match b with
  | '/' :: _ => b
  | _ => if a = [] ∨ a.getLast? = some '/' then a ++ b else a ++ '/' :: b

/-- `OSFilePath.join` and `__init__` (vfs.py:266-273): `posixpath.join` of all components. -/
def join (a : Str) (components : List Str) : Str := components.foldl join2 a

/-- The last component and what is before it, with its slash: `posixpath.split` as called at
vfs.py:276. -/
def cut : Str → Str × Str
  | [] => ([], [])
  | c :: cs =>
    if '/' ∈ cs then (c :: (cut cs).1, (cut cs).2)
    else if c = '/' then ([c], cs) else ([], c :: cs)

/-- `s.rstrip('/')`. -/
def rstripSlash (s : Str) : Str := (s.reverse.dropWhile (· = '/')).reverse

/-- `OSFilePath.split` (vfs.py:275-277). -/
def split (p : Str) : Str × Str :=
  if ∀ c ∈ (cut p).1, c = '/' then cut p else (rstripSlash (cut p).1, (cut p).2)

/-- `OSFilePath.IsSingleComponent` (vfs.py:306-307). -/
def isSingleComponent (p : Str) : Bool := !decide ('/' ∈ p)

/-- `OSFilePath.IsDirLike` (vfs.py:312-313). -/
def isDirLike (p : Str) : Bool := p.getLast? = some '/'

/-- The loop of `OSFilePath.IsRoot` (vfs.py:318-321). -/
def onlySlashes : Str → Bool
  | [] => true
  | c :: cs => if c ≠ '/' then false else onlySlashes cs

/-- `OSFilePath.IsRoot` (vfs.py:315-323); there are no drives. -/
def isRoot (p : Str) : Bool := match p with
  | [] => false
  | c :: cs => onlySlashes (c :: cs)

/-- `OSFilePath.isabs` (vfs.py:325-326). -/
def isAbs (p : Str) : Bool := p.head? = some '/'

/-! ## Hooks -/

/-- `ZipHooks.hookCount`, and whether `os.stat` and `open` are the hooks (vfs.py:403-422). -/
structure Hooks where
  count : Int
  hooked : Bool
deriving DecidableEq, Repr

/-- The start of a program. -/
def Hooks.initial : Hooks := ⟨0, false⟩

/-- What users of `ZipHooks` do. -/
inductive Use
  | hook | unhook
deriving DecidableEq, Repr

/-- `ZipHooks.__init__` (vfs.py:406-410) and `Unhook` (vfs.py:418-422). -/
def Hooks.step (h : Hooks) : Use → Hooks
  | .hook => ⟨h.count + 1, if h.count = 0 then true else h.hooked⟩
  | .unhook => ⟨h.count - 1, if h.count - 1 = 0 then false else h.hooked⟩

/-- A history of uses. -/
def Hooks.run (h : Hooks) (us : List Use) : Hooks := us.foldl Hooks.step h

/-- The steps of `__init__` (vfs.py:407-410) and `Unhook` (vfs.py:419-422) between which another
thread may run: `+=` loads and stores. -/
inductive Micro
  | hookIfZero | load | storeSucc | storePred | unhookIfZero

/-- The state of the hooks and, for each of two threads, the number it has loaded. -/
structure Threads where
  hooks : Hooks
  loaded : Bool → Int

/-- A step of a thread. -/
def Threads.step (s : Threads) (t : Bool) : Micro → Threads
  | .hookIfZero => { s with hooks := if s.hooks.count = 0 then { s.hooks with hooked := true } else s.hooks }
  | .load => { s with loaded := fun u => if u = t then s.hooks.count else s.loaded u }
  | .storeSucc => { s with hooks := { s.hooks with count := s.loaded t + 1 } }
  | .storePred => { s with hooks := { s.hooks with count := s.loaded t - 1 } }
  | .unhookIfZero => { s with hooks := if s.hooks.count = 0 then { s.hooks with hooked := false } else s.hooks }

/-- A schedule: which thread does which step. -/
def Threads.run (s : Threads) (xs : List (Bool × Micro)) : Threads := xs.foldl (fun s x => s.step x.1 x.2) s

/-- The steps of `ZipHooks()` (vfs.py:406-410). -/
def hookSteps : List Micro := [.hookIfZero, .load, .storeSucc]

/-- The steps of `Unhook` (vfs.py:418-422). -/
def unhookSteps : List Micro := [.load, .storePred, .unhookIfZero]

end Verif.Vfs
