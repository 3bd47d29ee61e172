import Verif.Model.ItemXml
import Verif.Model.ContentPackage

/-!
# Model of the metadata and manifest writers

/repo/QTIMigration/lib/lom.py, `QTIMetadata` of imsqti.py and `WriteManifestXML` of imscp.py.  Every
writer is the text it writes.  Simplifications: the prefix `ns` is not empty, as in every call from
imscp.py; the text of a vCard, `vcard.serialize()`, is given; a contribution has its role, as both
places that make one set it; it has no date, which nothing sets.
-/

set_option linter.unusedVariables false

namespace Verif.ManifestXml

open Verif Verif.Py Verif.XmlUtils Verif.ItemXml

/-- `lead+ns+name+'>'`: an opening or closing tag, where `lead` ends in `<` or `</`. -/
def tag (lead : String) (ns : Str) (name : String) : Str := lead.toList ++ (ns ++ (name.toList ++ ">".toList))

/-- `if x: …` for an object that may be `None`. -/
def ifSome {α : Type} (x : Option α) (write : α → Str) : Str :=
  match x with
  | none => []
  | some y => write y

/-- `LOMLangString` (lom.py:239-248). -/
structure LangString where
  text : Str
  lang : Option Str := none

/-- `LOMLangString.WriteIMSXML` (lom.py:244-248). -/
def writeLang (ns : Str) (l : LangString) : Str :=
  "\n\t<".toList ++ (ns ++ ("langstring".toList ++ (optAttr " xml:lang=\"" l.lang ++ (">".toList ++ (xmlString l.text ++
    tag "</" ns "langstring")))))

/-- `LOMIdentifier` (lom.py:214-236). -/
structure Identifier where
  catalog : Option Str := none
  entry : Option Str := none

/-- `XMLString` of a text that may be `None` (xmlutils.py:40-54). -/
def xmlOpt (o : Option Str) : Str := xmlString (o.getD [])

/-- A text that counts as true: there, and not empty. -/
def given? (o : Option Str) : Bool :=
  match o with
  | some (_ :: _) => true
  | _ => false

/-- `LOMIdentifier.WriteIMSXML` (lom.py:227-236): the text of the catalog is that of the entry. -/
def writeIdentifier (ns : Str) (i : Identifier) : Str :=
  if given? i.catalog then
    tag "\n<" ns "catalogentry" ++ (tag "\n\t<" ns "catalog" ++ (xmlOpt i.entry ++ (tag "</" ns "catalog" ++
      ((if given? i.entry then
        tag "\n\t<" ns "entry" ++ (tag "<" ns "langstring" ++ (xmlOpt i.entry ++ (tag "</" ns "langstring" ++
          tag "</" ns "entry")))
       else []) ++ tag "\n</" ns "catalogentry"))))
  else tag "\n<" ns "identifier" ++ (xmlOpt i.entry ++ tag "</" ns "identifier")

/-- `LOMGeneral` (lom.py:72-115). -/
structure General where
  identifier : List Identifier := []
  title : Option LangString := none
  description : List LangString := []
  keyword : List LangString := []

/-- An element around a text, as for titles, descriptions and keywords (lom.py:103-114, 200-203). -/
def writeIn (ns : Str) (name : String) (l : LangString) : Str :=
  tag "\n<" ns name ++ (writeLang ns l ++ tag "\n</" ns name)

/-- `LOMGeneral.WriteIMSXML` (lom.py:99-115). -/
def writeGeneral (ns : Str) (g : General) : Str :=
  tag "\n<" ns "general" ++ (g.identifier.flatMap (writeIdentifier ns) ++
    (ifSome g.title (writeIn ns "title") ++
    (g.description.flatMap (writeIn ns "description") ++ (g.keyword.flatMap (writeIn ns "keyword") ++
    tag "\n</" ns "general"))))

/-- A pair of source and value. -/
abbrev Vocab := LangString × LangString

/-- An element with source and value, as for status, role, context and difficulty (lom.py:131-136,
159-163, 187-192, 193-199). -/
def writeVocab (ns : Str) (name : String) (v : Vocab) : Str :=
  tag "\n<" ns name ++ (tag "\n<" ns "source" ++ (writeLang ns v.1 ++ (tag "\n</" ns "source" ++
    (tag "\n<" ns "value" ++ (writeLang ns v.2 ++ (tag "\n</" ns "value" ++ tag "\n</" ns name))))))

/-- `LOMContribute` (lom.py:141-167). -/
structure Contribute where
  role : Vocab
  entity : List Str := []

/-- The line of one vCard (lom.py:164). -/
def writeEntity (ns : Str) (card : Str) : Str :=
  tag "\n<" ns "centity" ++ (tag "<" ns "vcard" ++ ("<![CDATA[".toList ++ (card ++ ("]]>".toList ++
    (tag "</" ns "vcard" ++ tag "</" ns "centity")))))

/-- `LOMContribute.WriteIMSXML` (lom.py:156-167). -/
def writeContribute (ns : Str) (c : Contribute) : Str :=
  tag "\n<" ns "contribute" ++ (writeVocab ns "role" c.role ++ (c.entity.flatMap (writeEntity ns) ++
    tag "\n</" ns "contribute"))

/-- `LOMLifecycle` (lom.py:118-139). -/
structure Lifecycle where
  status : Option Vocab := none
  contribute : List Contribute := []

/-- `LOMLifecycle.WriteIMSXML` (lom.py:129-139). -/
def writeLifecycle (ns : Str) (l : Lifecycle) : Str :=
  tag "\n<" ns "lifecycle" ++ (ifSome l.status (writeVocab ns "status") ++
    (l.contribute.flatMap (writeContribute ns) ++ tag "\n</" ns "lifecycle"))

/-- `LOMEducational` (lom.py:170-211). -/
structure Educational where
  context : List Vocab := []
  difficulty : Option Vocab := none
  description : List LangString := []

/-- The element itself, with the first description only (lom.py:186-204). -/
def writeEducationalHead (ns : Str) (e : Educational) : Str :=
  tag "\n<" ns "educational" ++ (e.context.flatMap (writeVocab ns "context") ++
    (ifSome e.difficulty (writeVocab ns "difficulty") ++
    ((match e.description with | [] => [] | d :: _ => writeIn ns "description" d) ++ tag "\n</" ns "educational")))

/-- `LOMEducational.WriteIMSXML` (lom.py:185-211): every further description is written by a new
object that has only this one. -/
def writeEducational (ns : Str) (e : Educational) : Str :=
  writeEducationalHead ns e ++ e.description.tail.flatMap (fun d => writeEducationalHead ns { description := [d] })

/-- `LOM` (lom.py:32-70). -/
structure Lom where
  general : Option General := none
  lifecycle : Option Lifecycle := none
  educational : List Educational := []

/-- `LOM.WriteIMSXML` (lom.py:57-70), with a prefix. -/
def writeLom (ns : Str) (l : Lom) : Str :=
  tag "\n<" ns "lom" ++ (ifSome l.general (writeGeneral ns) ++
    (ifSome l.lifecycle (writeLifecycle ns) ++
    (l.educational.flatMap (writeEducational ns) ++ tag "\n</" ns "lom")))

/-- `QTIMetadata` (imsqti.py:34-114); `interactionTypes` are the keys of the dictionary, in its own
order. -/
structure QtiMD where
  itemTemplate : Option Bool := none
  timeDependent : Option Bool := none
  composite : Option Bool := none
  interactionTypes : List Str := []
  feedbackType : Option Str := none
  solutionAvailable : Option Bool := none
  toolName : Option Str := none
  toolVersion : Option Str := none
  toolVendor : Option Str := none

/-- One line of the metadata (imsqti.py:81-113). -/
def writeField (ns : Str) (name : String) (text : Str) : Str :=
  tag "\n<" ns name ++ (text ++ tag "</" ns name)

/-- `if x is not None: … "true" or "false"` (imsqti.py:80-98, 103-108). -/
def writeFlag (ns : Str) (name : String) (b : Option Bool) : Str :=
  ifSome b (fun b => writeField ns name (boolText b))

/-- `if x: …` (imsqti.py:109-114). -/
def writeTool (ns : Str) (name : String) (x : Option Str) : Str :=
  if given? x then writeField ns name (xmlOpt x) else []

/-- `QTIMetadata.WriteXML` (imsqti.py:73-114), with a prefix. -/
def writeQtiMD (ns : Str) (m : QtiMD) : Str :=
  tag "\n<" ns "qtiMetadata" ++ (writeFlag ns "itemTemplate" m.itemTemplate ++
    (writeFlag ns "timeDependent" m.timeDependent ++ (writeFlag ns "composite" m.composite ++
    (m.interactionTypes.flatMap (fun t => writeField ns "interactionType" (xmlString t)) ++
    (ifSome m.feedbackType (fun t => writeField ns "feedbackType" (xmlString t)) ++
    (writeFlag ns "solutionAvailable" m.solutionAvailable ++ (writeTool ns "toolName" m.toolName ++
    (writeTool ns "toolVersion" m.toolVersion ++ (writeTool ns "toolVendor" m.toolVendor ++
    tag "\n</" ns "qtiMetadata")))))))))

/-- `"imsmd:"`, the prefix passed in imscp.py. -/
def imsmd : Str := "imsmd:".toList

/-- `"imsqti:"`, the prefix passed in imscp.py. -/
def imsqti : Str := "imsqti:".toList

/-- `CPFile` (imscp.py:206-255), as far as the manifest shows it. -/
structure File where
  href : Option Str := none
  lom : Option Lom := none

/-- `CPFile.WriteManifestXML` (imscp.py:243-255). -/
def writeFile (f : File) : Str :=
  "\n\t\t<file".toList ++ (optAttr " href=\"" f.href ++
    (match f.lom with
     | none => "/>".toList
     | some l => ">".toList ++ ("\n\t\t\t<metadata>".toList ++ ("\n\t\t\t\t<schema>".toList ++ ("IMS Content".toList ++
       ("</schema>".toList ++ ("\n\t\t\t\t<schemaversion>".toList ++ ("1.1.3".toList ++ ("</schemaversion>".toList ++
       (writeLom imsmd l ++ ("\n\t\t\t</metadata>".toList ++ "\n\t\t</file>".toList)))))))))))

/-- `CPResource` (imscp.py:130-204), as far as the manifest shows it. -/
structure Resource where
  id : Str
  type : Option Str := some "webcontent".toList
  lom : Option Lom := none
  qtiMD : Option QtiMD := none
  files : List File := []
  entryPoint : Option File := none

/-- `if self.lom or self.qtiMD: …` (imscp.py:193-199). -/
def writeMetadata (lom : Option Lom) (qtiMD : Option QtiMD) : Str :=
  if lom.isNone && qtiMD.isNone then []
  else
    "\n\t\t<metadata>".toList ++ (ifSome lom (writeLom imsmd) ++
      (ifSome qtiMD (writeQtiMD imsqti) ++ "\n\t\t</metadata>".toList))

/-- `CPResource.WriteManifestXML` (imscp.py:185-204): neither identifier nor type is escaped, and the
metadata of a resource without files and without LOM are not written. -/
def writeResource (r : Resource) : Str :=
  "\n\t<resource".toList ++ (" identifier=\"".toList ++ (r.id ++ (['"'] ++ (optRaw " type=\"" r.type ++
    (ifSome r.entryPoint (fun f => optAttr " href=\"" f.href) ++
    (if r.files.isEmpty && r.lom.isNone then "/>".toList
     else ">".toList ++ (writeMetadata r.lom r.qtiMD ++ (r.files.flatMap writeFile ++ "\n\t</resource>".toList))))))))

/-- `SCHEMA_LOCATION` (imscp.py:40-42). -/
def schemaLocation : Str :=
  "http://www.imsglobal.org/xsd/imscp_v1p1 http://www.imsglobal.org/xsd/imscp_v1p2.xsd \nhttp://www.imsglobal.org/xsd/imsmd_v1p2 http://www.imsglobal.org/xsd/imsmd_v1p2p4.xsd \nhttp://www.imsglobal.org/xsd/imsqti_v2p1 http://www.imsglobal.org/xsd/imsqti_v2p1.xsd".toList

/-- `ContentPackage` (imscp.py:44-127), as far as the manifest shows it; `idSpace` are the keys of the
dictionary of identifiers. -/
structure Package where
  id : Option Str := none
  idSpace : List Str := []
  lom : Option Lom := none
  resources : List Resource := []

/-- The identifier written for the manifest (imscp.py:108-111). -/
def manifestId (p : Package) : Str :=
  if given? p.id then xmlOpt p.id else CP.getUniqueID p.idSpace "manifest".toList

/-- `ContentPackage.WriteManifestXML` (imscp.py:105-127). -/
def writeManifest (p : Package) : Str :=
  "<?xml version=\"1.0\"?>".toList ++ ("\n<manifest".toList ++ (" identifier=\"".toList ++ (manifestId p ++ (['"'] ++
    ("\n\txmlns=\"".toList ++ ("http://www.imsglobal.org/xsd/imscp_v1p1".toList ++ (['"'] ++
    ("\n\txmlns:imsmd=\"".toList ++ ("http://www.imsglobal.org/xsd/imsmd_v1p2".toList ++ (['"'] ++
    ("\n\txmlns:imsqti=\"".toList ++ ("http://www.imsglobal.org/xsd/imsqti_v2p1".toList ++ (['"'] ++
    ("\n\txmlns:xsi=\"".toList ++ ("http://www.w3.org/2001/XMLSchema-instance".toList ++ (['"'] ++
    ("\n\txsi:schemaLocation=\"".toList ++ (schemaLocation ++ (['"'] ++ (">".toList ++
    (ifSome p.lom (fun l => "\n<metadata>".toList ++ ("\n\t<schema>".toList ++ ("IMS Content".toList ++ ("</schema>".toList ++
          ("\n\t<schemaversion>".toList ++ ("1.1.3".toList ++ ("</schemaversion>".toList ++ (writeLom imsmd l ++
          "\n</metadata>".toList)))))))) ++
    ("\n<organizations/>".toList ++
    ((if p.resources.isEmpty then []
      else "\n<resources>".toList ++ (p.resources.flatMap writeResource ++ "\n</resources>".toList)) ++
    "\n</manifest>".toList)))))))))))))))))))))))

end Verif.ManifestXml
