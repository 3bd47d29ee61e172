import Verif.Model.ManifestXml
import Verif.Model.Names

/-!
# Model of the metadata of a migrated item

/repo/QTIMigration/lib/imsqtiv1.py: the `qmd_…` elements, the fields of `<qtimetadata>` and the objectives of an
item, and what `QTIItem` keeps of them in the metadata of the resource.  Simplifications: the text of an element is
given whole (`AddData` joins the pieces), likewise the text of objectives that are seen by all; `float` and the
serialization of vCards are given functions; the warnings printed are left out.
-/

set_option linter.unusedVariables false

namespace Verif.ItemMeta

open Verif Verif.Py Verif.ManifestXml
open Verif.Names (strip)

/-- The classes that handle one piece of metadata (imsqtiv1.py:877-1217); a contributor knows its role. -/
inductive Kind where
  | maximum | level | keywords | domain | topic | description | title | contributor (role : Str)
  | organisation | vendor | status | itemType

/-- What the handlers ask of their surroundings: the options `qmdExtensions` and `vobject`, language and title of the
item, `float`, and the text of the vCard of a person and of an organisation. -/
structure Env where
  ext : Bool
  vobject : Bool
  lang : Option Str
  itemTitle : Option Str
  readFloat : Str → Option Rat
  personCard : Str → Str
  orgCard : Str → Str

/-- What `QTIItem` holds: metadata of the resource, educational metadata, maximum score (imsqtiv1.py:484-492). -/
structure State where
  lom : Lom := {}
  educational : Option Educational := none
  qtiMD : QtiMD := {}
  max : Option Rat := none

/-- The `qmd_…` rows of the table of elements (imsqtiv1.py:4032-4044), with the extensions (imsqtiv1.py:4111-4117).
The role of a contributor is the name without `qmd_` (imsqtiv1.py:1069-1072). -/
def elementKind (ext : Bool) (name : Str) : Option Kind :=
  if name = "qmd_itemtype".toList then some .itemType
  else if name = "qmd_levelofdifficulty".toList then some .level
  else if name = "qmd_maximumscore".toList then some .maximum
  else if name = "qmd_status".toList then some .status
  else if name = "qmd_toolvendor".toList then some .vendor
  else if name = "qmd_topic".toList then some .topic
  else if ext then
    if name = "qmd_keywords".toList then some .keywords
    else if name = "qmd_domain".toList then some .domain
    else if name = "qmd_description".toList then some .description
    else if name = "qmd_title".toList then some .title
    else if name = "qmd_author".toList then some (.contributor "author".toList)
    else if name = "qmd_organisation".toList then some .organisation
    else none
  else none

/-- `MDFieldMap` (imsqtiv1.py:1242-1255). -/
def fieldKind (label : Str) : Option Kind :=
  if label = "maximumscore".toList ∨ label = "marks".toList then some .maximum
  else if label = "name".toList then some .title
  else if label = "syllabusarea".toList then some .topic
  else if label = "author".toList ∨ label = "creator".toList ∨ label = "owner".toList then some (.contributor label)
  else if label = "itemtype".toList ∨ label = "item type".toList ∨ label = "question type".toList then some .itemType
  else if label = "status".toList ∨ label = "layoutstatus".toList then some .status
  else none

/-- `FieldLabel.CloseObject` and `SetLabel` (imsqtiv1.py:1273-1276, 1305-1306). -/
def setLabel (text : Str) : Str :=
  let l := lower (strip text)
  if l.take 4 = "qmd_".toList then l.drop 4 else l

/-- `"x-none"` (imsqtiv1.py:683-713, 1083-1085, 1125). -/
def plain (text : Str) : LangString := { text := text, lang := some "x-none".toList }

/-- `GetLOM().GetGeneral()` (lom.py:44-47). -/
def general (s : State) : General := s.lom.general.getD {}

/-- Changes the general metadata, made if not there yet. -/
def onGeneral (s : State) (f : General → General) : State :=
  { s with lom := { s.lom with general := some (f (general s)) } }

/-- `GetLOM().GetLifecycle()` (lom.py:49-52). -/
def lifecycle (s : State) : Lifecycle := s.lom.lifecycle.getD {}

/-- Changes the life cycle, made if not there yet. -/
def onLifecycle (s : State) (f : Lifecycle → Lifecycle) : State :=
  { s with lom := { s.lom with lifecycle := some (f (lifecycle s)) } }

/-- `if not self.educationalMetadata: …` (imsqtiv1.py:678-679, 688-689, 698-699). -/
def onEducational (s : State) (f : Educational → Educational) : State :=
  { s with educational := some (f (s.educational.getD {})) }

/-- `AddDescription` (imsqtiv1.py:667-668). -/
def addDescription (env : Env) (s : State) (text : Str) : State :=
  onGeneral s fun g => { g with description := g.description ++ [{ text := text, lang := env.lang }] }

/-- `SetTitle` (imsqtiv1.py:670-675). -/
def setTitle (env : Env) (s : State) (text : Str) : State :=
  if given? env.itemTitle then addDescription env s text
  else onGeneral s fun g => { g with title := some { text := text, lang := env.lang } }

/-- `AddEducationalDescription` (imsqtiv1.py:677-680). -/
def addTopic (env : Env) (s : State) (text : Str) : State :=
  onEducational s fun e => { e with description := e.description ++ [{ text := text, lang := env.lang }] }

/-- The source of a value (imsqtiv1.py:684-687, 694-697). -/
def source (lomValue : Bool) : LangString := plain (if lomValue then "LOMv1.0".toList else "None".toList)

/-- `AddEducationalContext` (imsqtiv1.py:682-690). -/
def addContext (s : State) (text : Str) (lomValue : Bool) : State :=
  onEducational s fun e => { e with context := e.context ++ [(source lomValue, plain text)] }

/-- `AddEducationalDifficulty` (imsqtiv1.py:692-700). -/
def setDifficulty (s : State) (text : Str) (lomValue : Bool) : State :=
  onEducational s fun e => { e with difficulty := some (source lomValue, plain text) }

/-- `AddKeyword` (imsqtiv1.py:705-706). -/
def addKeyword (env : Env) (s : State) (text : Str) : State :=
  onGeneral s fun g => { g with keyword := g.keyword ++ [{ text := text, lang := env.lang }] }

/-- `SetStatus` (imsqtiv1.py:711-714). -/
def setStatus (s : State) (src text : Str) : State :=
  onLifecycle s fun l => { l with status := some (plain src, plain text) }

/-- `AddContributor` (imsqtiv1.py:716-717). -/
def addContributor (s : State) (c : Contribute) : State :=
  onLifecycle s fun l => { l with contribute := l.contribute ++ [c] }

/-- `QMDLevelOfDifficultyMap` (imsqtiv1.py:899-905). -/
def levelMap (level : Str) : Option (Str × Bool) :=
  if level = "pre-school".toList then some ("pre-school".toList, false)
  else if level = "school".toList then some ("school".toList, true)
  else if level = "he/fe".toList then some ("higher education".toList, true)
  else if level = "vocational".toList then some ("vocational".toList, false)
  else if level = "professional development".toList then some ("training".toList, true)
  else none

/-- The keys of `QMDDifficultyMap` (imsqtiv1.py:907-913). -/
def difficulties : List Str :=
  ["very easy".toList, "easy".toList, "medium".toList, "difficult".toList, "very difficult".toList]

/-- `QMDLevelOfDifficulty.CloseObject` (imsqtiv1.py:932-939). -/
def closeLevel (s : State) (data : Str) : State :=
  let level := lower (strip data)
  match levelMap level with
  | some (value, lomValue) => addContext s value lomValue
  | none => setDifficulty s level (difficulties.contains level)

/-- `QMDKeywords.CloseObject` (imsqtiv1.py:958-963): one round of the loop. -/
def closeKeyword (env : Env) (s : State) (piece : Str) : State :=
  if strip piece = [] then s else addKeyword env s (strip piece)

/-- `QMDStatusMap.get(data.lower(),"None")` (imsqtiv1.py:1165-1173, 1193). -/
def statusSource (data : Str) : Str :=
  let d := lower data
  if d = "draft".toList ∨ d = "final".toList ∨ d = "revised".toList ∨ d = "unavailable".toList then "LOMv1.0".toList
  else if d = "experimental".toList ∨ d = "normal".toList ∨ d = "retired".toList then "QTIv1".toList
  else "None".toList

/-- `QMDContributor.CloseObject` (imsqtiv1.py:1080-1098): the names of `LOMContributorMap` (imsqtiv1.py:1058-1062)
decide the source; its values are not used. -/
def closeContributor (env : Env) (s : State) (role data : Str) : State :=
  if env.vobject then
    addContributor s
      { role := (plain (if role = "author".toList ∨ role = "creator".toList ∨ role = "owner".toList
                        then "LOMv1.0".toList else "None".toList), plain role)
        entity := ((split ',' (strip data)).filter (fun n => strip n ≠ [])).map env.personCard }
  else s

/-- `QMDOrganisation.CloseObject` (imsqtiv1.py:1120-1135). -/
def closeOrganisation (env : Env) (s : State) (data : Str) : State :=
  if env.vobject then
    addContributor s { role := (plain "LOMv1.0".toList, plain "unknown".toList), entity := [env.orgCard (strip data)] }
  else s

/-- `self.data=self.data.strip()`, `if self.data: …` (imsqtiv1.py:982-986 and the like). -/
def ifText (data : Str) (s : State) (f : Str → State) : State :=
  if strip data = [] then s else f (strip data)

/-- The `CloseObject` of every kind (imsqtiv1.py:890-893, 932-939, 958-963, 982-986, 1005-1008, 1027-1030, 1049-1052,
1080-1101, 1120-1138, 1156-1159, 1190-1194, 1214-1217). -/
def close (env : Env) (s : State) (k : Kind) (data : Str) : State :=
  match k with
  | .maximum => match env.readFloat (strip data) with
    | some r => { s with max := some r }
    | none => s
  | .level => closeLevel s data
  | .keywords => (split ',' data).foldl (closeKeyword env) s
  | .domain => ifText data s (addKeyword env s)
  | .topic => ifText data s (addTopic env s)
  | .description => ifText data s (addDescription env s)
  | .title => ifText data s (setTitle env s)
  | .contributor role => closeContributor env s role data
  | .organisation => closeOrganisation env s data
  | .vendor => ifText data s fun v => { s with qtiMD := { s.qtiMD with toolVendor := some v } }
  | .status => ifText data s fun v => setStatus s (statusSource v) v
  | .itemType => s

/-- One piece of metadata in the item: an element, a field with the texts of label and entry if there, or the text of
objectives seen by all. -/
inductive Entry where
  | element (name data : Str)
  | field (label entry : Option Str)
  | objectives (text : Str)

/-- Reads one piece: elements by the table, fields by `QTIMetadataField.CloseObject` (imsqtiv1.py:1281-1287), where a
missing entry is added to a string; objectives by `Objectives.CloseObject` (imsqtiv1.py:1490-1498). -/
def readEntry (env : Env) (s : State) : Entry → Except Err State
  | .element name data => match elementKind env.ext name with
    | some k => .ok (close env s k data)
    | none => .ok s
  | .field none entry => .ok s
  | .field (some label) entry => match fieldKind (setLabel label) with
    | none => .ok s
    | some k => match entry with
      | none => .error .typeError
      | some e => .ok (close env s k (strip e))
  | .objectives text => .ok (addTopic env s text)

/-- All of them, in order of the document. -/
def readEntries (env : Env) (s : State) : List Entry → Except Err State
  | [] => .ok s
  | e :: es => match readEntry env s e with
    | .error x => .error x
    | .ok s' => readEntries env s' es

/-- `SetAttribute_ident` (imsqtiv1.py:514-516): the item's identifier, before any metadata. -/
def start (ident : Option Str) : State :=
  match ident with
  | none => {}
  | some i => { lom := { general := some { identifier := [{ catalog := none, entry := some i }] } } }

/-- `AddInteractionType` for each interaction (imsqti.py:57-58): the keys of a dictionary. -/
def addTypes (types : List Str) (xs : List Str) : List Str :=
  xs.foldl (fun ts x => if ts.contains x then ts else ts ++ [x]) types

/-- The end of `QTIItem.CloseObject` and `GenerateQTIMetadata` (imsqtiv1.py:780-785, 592-620), given the number of
responses, the names of the interactions and whether there is modal feedback. -/
def closeItem (env : Env) (s : State) (responses : Nat) (interactions : List Str) (feedback : Bool) : State :=
  let s := match s.educational with
    | none => s
    | some e => { s with lom := { s.lom with educational := s.lom.educational ++ [e] } }
  let s := if given? env.itemTitle then
      onGeneral s fun g => { g with title := some { text := env.itemTitle.getD [], lang := env.lang } }
    else s
  { s with qtiMD := { s.qtiMD with
      itemTemplate := some false
      composite := some (decide (responses > 1))
      interactionTypes := addTypes s.qtiMD.interactionTypes interactions
      feedbackType := some (if feedback then "nonadaptive".toList else "none".toList) } }

/-- The metadata of an item from start to end. -/
def itemMeta (env : Env) (ident : Option Str) (entries : List Entry) (responses : Nat) (interactions : List Str)
    (feedback : Bool) : Except Err State :=
  match readEntries env (start ident) entries with
  | .error x => .error x
  | .ok s => .ok (closeItem env s responses interactions feedback)

end Verif.ItemMeta
