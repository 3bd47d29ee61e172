import Verif.Model.ContentPackage
import Verif.Model.SaxDriver

/-!
# The command of the migration tool

/repo/QTIMigration/migrate.py (the loop over the arguments and the batch run), /repo/QTIMigration/lib/gui.py (what is
done with the output directory), /repo/QTIMigration/lib/imsqtiv1.py: `QTIParserV1Options`, `QTIParserV1` (construction,
`ProcessFiles`, `Parse`, `DumpCP`), `QuesTestInterop` and `QTIComment`.  Simplifications: the experimental conversion
(`-x`) is not followed further than the option; the text printed is left out, apart from what says that a file was not
well-formed; symbolic links to directories are not modelled.
-/

namespace Verif.Cli

open Verif Verif.Py Verif.CP

/-! ## Arguments -/

/-- `QTIParserV1Options` (imsqtiv1.py:65-77); `vobject` is left out. -/
structure Opts where
  qmdExtensions : Bool := false
  ucVars : Bool := false
  forceFloat : Bool := false
  lang : Str := []
  noComment : Bool := false
  dtdDir : Str := []
  cpPath : Str := []
  x : Bool := false
deriving DecidableEq, Repr

/-- What `os.path.exists` and `os.path.isdir` say of a path. -/
inductive Found where
  | nothing | directory | other
deriving DecidableEq, Repr

/-- What the loop asks of its surroundings: `os.path.abspath`, the file system, and the reply to each question put by
`raw_input` (the n-th question gets the n-th reply; the end of the input is not modelled). -/
structure Env where
  abspath : Str → Str
  found : Str → Found
  reply : Nat → Str

/-- The variables of the loop (migrate.py:77-81, 66).  `asked` is a record of the questions put so far: the directory
and the reply. -/
structure St where
  opts : Opts := {}
  fileNames : List Str := []
  noGui : Bool := false
  asked : List (Str × Str) := []
deriving DecidableEq, Repr

/-- `x[:n].lower()==word` (migrate.py:83-105). -/
def starts (x word : Str) : Bool := lower (x.take word.length) = word

/-- `x.lower()==word` (migrate.py:93-115). -/
def isWord (x : Str) (word : String) : Bool := lower x = word.toList

/-- `--cpout=` (migrate.py:84-92). -/
def cpout (env : Env) (st : St) (value : Str) : St :=
  let path := env.abspath value
  match env.found path with
  | .nothing => { st with opts := { st.opts with cpPath := path } }
  | .directory =>
    let reply := env.reply st.asked.length
    { st with opts := { st.opts with cpPath := if lower reply ≠ "yes".toList then [] else path },
              asked := st.asked ++ [(path, reply)] }
  | .other => { st with opts := { st.opts with cpPath := [] } }

/-- `--nocomment` sets the attribute `noCmment` (migrate.py:107), which nothing reads. -/
def noCmment (st : St) : St := st

/-- The loop over `sys.argv[1:]` (migrate.py:81-118); `--version` leaves the loop. -/
def readArgs (env : Env) : List Str → St → St
  | [], st => st
  | x :: xs, st =>
    if starts x "--cpout=".toList then readArgs env xs (cpout env st (x.drop 8))
    else if isWord x "-x" then readArgs env xs { st with opts := { st.opts with x := true } }
    else if isWord x "--ucvars" then readArgs env xs { st with opts := { st.opts with ucVars := true } }
    else if isWord x "--qmdextensions" then readArgs env xs { st with opts := { st.opts with qmdExtensions := true } }
    else if isWord x "--forcefibfloat" then readArgs env xs { st with opts := { st.opts with forceFloat := true } }
    else if starts x "--lang=".toList then readArgs env xs { st with opts := { st.opts with lang := x.drop 7 } }
    else if isWord x "--nocomment" then readArgs env xs (noCmment st)
    else if starts x "--dtdloc=".toList then
      readArgs env xs { st with opts := { st.opts with dtdDir := env.abspath (x.drop 9) } }
    else if isWord x "--help" then readArgs env xs { st with noGui := true }
    else if isWord x "--version" then { st with noGui := true, fileNames := [] }
    else if isWord x "--nogui" then readArgs env xs { st with noGui := true }
    else readArgs env xs { st with fileNames := st.fileNames ++ [x] }

/-- The arguments of one run of the command. -/
def arguments (env : Env) (args : List Str) : St := readArgs env args {}

/-- The output directory of a conversion started from the window (gui.py:214-228), where `path` is what was chosen. -/
def guiCpPath (env : Env) (path : Str) : Str :=
  if path ≠ [] then
    let path := env.abspath path
    if env.found path = .other then [] else path
  else []

/-! ## Files -/

/-- What a name stands for: a file with its content, a directory with its entries in the order `os.listdir` gives
them, or nothing that can be opened (a name that does not exist or a dangling link). -/
inductive Node (D : Type) where
  | file (name : Str) (content : D)
  | dir (name : Str) (entries : List (Node D))
  | missing (name : Str)

/-- `fileName[-4:].lower()=='.xml'` (imsqtiv1.py:4129). -/
def isXml (name : Str) : Bool := lower (name.drop (name.length - 4)) = ".xml".toList

variable {D W : Type}

mutual
/-- The body of the loop of `ProcessFiles` (imsqtiv1.py:4124-4136), where `parse path content` is `Parse` on an open
file.  `open` fails for a name that does not exist. -/
def processFile (parse : Str → D → W → Except Err W) (base : Str) : Node D → W → Except Err W
  | .dir name entries, w => processFiles parse (pathJoin base name) entries w
  | .file name content, w => if isXml name then parse (pathJoin base name) content w else .ok w
  | .missing name, w => if isXml name then .error .osError else .ok w

/-- `ProcessFiles` (imsqtiv1.py:4121-4136). -/
def processFiles (parse : Str → D → W → Except Err W) (base : Str) : List (Node D) → W → Except Err W
  | [], w => .ok w
  | n :: ns, w => processFile parse base n w >>= processFiles parse base ns
end

/-- What the SAX parser reports of a file: events, and whether it then raises `SAXParseException`. -/
structure Doc (Attrs : Type) where
  events : List (Sax.Event Attrs)
  broken : Bool

/-- What is printed when a file is not well-formed (imsqtiv1.py:4150-4156). -/
inductive Notice where
  | afterEnd (path : Str)
  | failed (path : Str)
deriving DecidableEq, Repr

/-- `Parse` (imsqtiv1.py:4142-4157): all attributes of the driver are reset; a `SAXParseException` is reported, other
exceptions pass. -/
def parseDoc {Attrs : Type} (S : Sax.Sem W Attrs) (path : Str) (doc : Doc Attrs) (w : W × List Notice) :
    Except Err (W × List Notice) :=
  match Sax.run S doc.events { world := w.1 } with
  | .error e => .error e
  | .ok s =>
    .ok (s.world, if doc.broken then w.2 ++ [if s.gotRoot then .afterEnd path else .failed path] else w.2)

/-- The run without a window (migrate.py:141-143): `ProcessFiles` on the names in the current directory, then `DumpCP`
(imsqtiv1.py:4138-4140), where `dump` is `DumpToDirectory`. -/
def batch (parse : Str → D → W → Except Err W) (dump : Str → W → Except Err W) (cwd : Str) (opts : Opts)
    (files : List (Node D)) (w : W) : Except Err W :=
  processFiles parse cwd files w >>= fun w => if opts.cpPath ≠ [] then dump opts.cpPath w else .ok w

/-- The exit status: `sys.exit(1)` (migrate.py:152); that of a Python program ended by an exception is 1, too. -/
def exitStatus : Except Err W → Nat
  | .ok _ => 1
  | .error _ => 1

/-! ## The table of elements -/

/-- The elements added for `qmdExtensions` (imsqtiv1.py:4112-4117). -/
def extensions : List Str :=
  ["qmd_keywords".toList, "qmd_domain".toList, "qmd_description".toList, "qmd_title".toList, "qmd_author".toList,
   "qmd_organisation".toList]

/-- `QTIParserV1.__init__` (imsqtiv1.py:4101-4119): `self.elements` is the table of the module itself, so this is both
the table the parser uses and the table left for later parsers. -/
def newParser (opts : Opts) (table : List Str) : List Str :=
  if opts.qmdExtensions then table ++ extensions else table

/-- Conversions one after the other in one process (`ProcessFiles`, gui.py:253): the tables used by them. -/
def conversions (table : List Str) : List Opts → List (List Str)
  | [] => []
  | o :: os => newParser o table :: conversions (newParser o table) os

/-! ## The root element -/

/-- `LOMLangString(data,lang)` (lom.py:239). -/
abbrev Text := Str × Option Str

/-- The general descriptions of a resource of the package, or of the package. -/
abbrev Descriptions := List Text

/-- What happens in a `<questestinterop>` as far as it matters: its own comment is closed (imsqtiv1.py:352-354), any
other comment is closed (355-356), an item is closed, which adds a resource (imsqtiv1.py:787) with descriptions of its
own. -/
inductive Part where
  | comment (text : Text)
  | otherComment (text : Text)
  | item (own : Descriptions)

/-- The package as far as it matters: its descriptions and those of its resources. -/
structure Package where
  own : Descriptions := []
  resources : List Descriptions := []
deriving DecidableEq, Repr

/-- The attributes of `QuesTestInterop` (imsqtiv1.py:285-291): the description, and how many resources were added. -/
structure Root where
  description : Option Text := none
  resources : Nat := 0

/-- `SetLOMDescription` and `AddResource` (imsqtiv1.py:302-307, imscp.py:82-86). -/
def part (r : Root × Package) : Part → Root × Package
  | .comment t => ({ r.1 with description := some t }, r.2)
  | .otherComment _ => r
  | .item own => ({ r.1 with resources := r.1.resources + 1 }, { r.2 with resources := r.2.resources ++ [own] })

/-- `self.resources[0].…AddDescription`, where the resource is the only one, so the last of the package. -/
def describeLast (t : Text) (rs : List Descriptions) : List Descriptions :=
  match rs.getLast? with
  | none => rs
  | some r => rs.dropLast ++ [r ++ [t]]

/-- `QuesTestInterop.CloseObject` (imsqtiv1.py:323-329). -/
def closeRoot (r : Root × Package) : Package :=
  match r.1.description with
  | none => r.2
  | some t =>
    if r.1.resources = 1 then { r.2 with resources := describeLast t r.2.resources }
    else { r.2 with own := r.2.own ++ [t] }

/-- One file: `closed` says whether the end of the root element is reached. -/
def rootElement (p : Package) (parts : List Part) (closed : Bool) : Package :=
  let r := parts.foldl part ({}, p)
  if closed then closeRoot r else r.2

/-- Several files. -/
def rootElements (p : Package) (files : List (List Part × Bool)) : Package :=
  files.foldl (fun p f => rootElement p f.1 f.2) p

end Verif.Cli
