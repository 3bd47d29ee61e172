import Verif.Model.ItemMeta

/-!
# What the metadata of an item say

QTI version 1 gives metadata of an item in elements `qmd_…` or in labelled fields, the labels being the names of the
elements with or without `qmd_`, in any case, or names in common use.  `facts` is what one piece of metadata says.
`texts`, `lastOf` and the like pick what LOM keeps in one place.  The vocabularies are those of LOM 1.0.
-/

set_option linter.unusedVariables false

namespace Verif.Spec.ItemMeta

open Verif Verif.Py Verif.ManifestXml Verif.ItemMeta
open Verif.Names (strip)

/-- One thing said about the item. -/
inductive Fact where
  | keyword (text : Str)
  | description (text : Str)
  | title (text : Str)
  | topic (text : Str)
  | context (text : Str)
  | difficulty (text : Str)
  | status (text : Str)
  | vendor (text : Str)
  | people (role : Str) (names : List Str)
  | organisation (name : Str)
  | maximum (value : Rat)

/-- A text, unless it is blank. -/
def texts (make : Str → Fact) (data : Str) : List Fact :=
  if strip data = [] then [] else [make (strip data)]

/-- What the terms of QTI for the level mean: a context of use, or else a difficulty. -/
def level (data : Str) : Fact :=
  match (["pre-school", "school", "he/fe", "vocational", "professional development"].zip
      ["pre-school", "school", "higher education", "vocational", "training"]).find?
      (fun p => p.1.toList = lower (strip data)) with
  | some p => .context p.2.toList
  | none => .difficulty (lower (strip data))

/-- What a text says under a name. -/
def named (readFloat : Str → Option Rat) (name data : Str) : List Fact :=
  if name = "keywords".toList then ((split ',' data).map strip).filterMap fun k => if k = [] then none else some (.keyword k)
  else if name = "domain".toList then texts .keyword data
  else if name = "description".toList then texts .description data
  else if name ∈ ["title".toList, "name".toList] then texts .title data
  else if name ∈ ["topic".toList, "syllabusarea".toList] then texts .topic data
  else if name = "levelofdifficulty".toList then texts (fun _ => level data) data
  else if name ∈ ["status".toList, "layoutstatus".toList] then texts .status data
  else if name = "toolvendor".toList then texts .vendor data
  else if name ∈ ["author".toList, "creator".toList, "owner".toList] then
    texts (fun d => .people name ((split ',' d).filter fun n => strip n ≠ [])) data
  else if name = "organisation".toList then texts .organisation data
  else if name ∈ ["maximumscore".toList, "marks".toList] then ((readFloat (strip data)).map Fact.maximum).toList
  else []

/-- A name without its `qmd_`. -/
def bare (name : Str) : Str := if name.take 4 = "qmd_".toList then name.drop 4 else name

/-- What one piece of metadata says. -/
def facts (readFloat : Str → Option Rat) : Entry → List Fact
  | .element name data => if name.take 4 = "qmd_".toList then named readFloat (name.drop 4) data else []
  | .field (some label) (some entry) => named readFloat (bare (lower (strip label))) entry
  | .field _ _ => []
  | .objectives text => [.topic text]

/-- The elements and labels that the migration listens to; some elements only if extensions are on. -/
def heard (ext : Bool) : Entry → Bool
  | .element name _ =>
    ["qmd_levelofdifficulty", "qmd_maximumscore", "qmd_status", "qmd_toolvendor", "qmd_topic"].any (·.toList = name) ||
    ext && ["qmd_keywords", "qmd_domain", "qmd_description", "qmd_title", "qmd_author",
      "qmd_organisation"].any (·.toList = name)
  | .field (some label) _ =>
    ["maximumscore", "marks", "name", "syllabusarea", "author", "creator", "owner", "status",
      "layoutstatus"].any (·.toList = bare (lower (strip label)))
  | .field none _ => true
  | .objectives _ => true

/-- A level, a person or an organisation whose text is blank. -/
def Hollow : Entry → Prop
  | .element name data =>
    strip data = [] ∧ name ∈ ["qmd_levelofdifficulty".toList, "qmd_author".toList, "qmd_organisation".toList]
  | .field (some label) (some entry) =>
    strip entry = [] ∧ bare (lower (strip label)) ∈ ["author".toList, "creator".toList, "owner".toList]
  | _ => False

/-- The last of the things picked. -/
def lastOf {α : Type} (pick : Fact → Option α) (fs : List Fact) : Option α := (fs.filterMap pick).getLast?

/-- Where each fact belongs. -/
def keyword? : Fact → Option Str | .keyword t => some t | _ => none
/-- A description; a title counts as one when the item has its own. -/
def description? (titled : Bool) : Fact → Option Str
  | .description t => some t
  | .title t => if titled then some t else none
  | _ => none
/-- A title. -/
def title? : Fact → Option Str | .title t => some t | _ => none
/-- A topic or objective. -/
def topic? : Fact → Option Str | .topic t => some t | _ => none
/-- A context of use. -/
def context? : Fact → Option Str | .context t => some t | _ => none
/-- A difficulty. -/
def difficulty? : Fact → Option Str | .difficulty t => some t | _ => none
/-- A status. -/
def status? : Fact → Option Str | .status t => some t | _ => none
/-- A vendor. -/
def vendor? : Fact → Option Str | .vendor t => some t | _ => none
/-- A maximum score. -/
def maximum? : Fact → Option Rat | .maximum r => some r | _ => none
/-- A contribution: its role and the cards of those who made it. -/
def contribution? (person org : Str → Str) : Fact → Option (Str × List Str)
  | .people role names => some (role, names.map person)
  | .organisation name => some ("unknown".toList, [org name])
  | _ => none

/-- What the metadata of a resource hold. -/
structure Held where
  title : Option LangString
  descriptions : List LangString
  keywords : List LangString
  topics : List LangString
  contexts : List Str
  difficulty : Option Str
  status : Option Str
  contributions : List (Str × List Str)
  vendor : Option Str
  maximum : Option Rat

/-- The same, taken from the objects. -/
def held (s : State) : Held where
  title := s.lom.general.bind (·.title)
  descriptions := s.lom.general.elim [] (·.description)
  keywords := s.lom.general.elim [] (·.keyword)
  topics := s.lom.educational.flatMap (·.description)
  contexts := s.lom.educational.flatMap (fun e => e.context.map (·.2.text))
  difficulty := (s.lom.educational.filterMap (·.difficulty)).head?.map (·.2.text)
  status := (s.lom.lifecycle.bind (·.status)).map (·.2.text)
  contributions := s.lom.lifecycle.elim [] (fun l => l.contribute.map (fun c => (c.role.2.text, c.entity)))
  vendor := s.qtiMD.toolVendor
  maximum := s.max

/-- The title of the item, if it has one that is not empty. -/
def ownTitle (o : Option Str) : Option Str := o.bind fun t => if t = [] then none else some t

/-- What the metadata should hold, given what was said. -/
def holds (env : Env) (fs : List Fact) : Held :=
  let say := fun (t : Str) => ({ text := t, lang := env.lang } : LangString)
  let own := ownTitle env.itemTitle
  { title := (own <|> lastOf title? fs).map say
    descriptions := (fs.filterMap (description? own.isSome)).map say
    keywords := (fs.filterMap keyword?).map say
    topics := (fs.filterMap topic?).map say
    contexts := fs.filterMap context?
    difficulty := lastOf difficulty? fs
    status := lastOf status? fs
    contributions := if env.vobject then fs.filterMap (contribution? env.personCard env.orgCard) else []
    vendor := lastOf vendor? fs
    maximum := lastOf maximum? fs }

/-- LOM 1.0, contexts. -/
def lomContexts : List Str := ["school", "higher education", "training", "other"].map String.toList
/-- LOM 1.0, difficulties. -/
def lomDifficulties : List Str := ["very easy", "easy", "medium", "difficult", "very difficult"].map String.toList
/-- LOM 1.0, statuses. -/
def lomStatuses : List Str := ["draft", "final", "revised", "unavailable"].map String.toList
/-- LOM 1.0, roles of contributors. -/
def lomRoles : List Str :=
  ["author", "publisher", "unknown", "initiator", "terminator", "validator", "editor", "graphical designer",
    "technical implementer", "content provider", "technical validator", "educational validator", "script writer",
    "instructional designer", "subject matter expert"].map String.toList

/-- A value said to be of LOM is one of these. -/
def Term (terms : List Str) (v : Vocab) : Prop := v.1.text = "LOMv1.0".toList → v.2.text ∈ terms

end Verif.Spec.ItemMeta
