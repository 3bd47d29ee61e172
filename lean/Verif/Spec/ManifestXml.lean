import Verif.Spec.ItemXml
import Verif.Model.ManifestXml

/-!
# The document a manifest should be written as

The trees below say, for the objects of a content package, which elements, attributes and texts an
XML processor should report, without the white space that only lays out the document (`LaidOut`).
-/

namespace Verif.Spec

open Verif.ManifestXml (LangString Identifier General Vocab Contribute Lifecycle Educational Lom QtiMD File Resource Package)

/-- The elements whose content is a text, and the rest of whose content is therefore not layout. -/
def textElements : List Str :=
  ["schema", "schemaversion", "imsmd:langstring", "imsmd:catalog", "imsmd:identifier", "imsmd:vcard",
   "imsqti:itemTemplate", "imsqti:timeDependent", "imsqti:composite", "imsqti:interactionType",
   "imsqti:feedbackType", "imsqti:solutionAvailable", "imsqti:toolName", "imsqti:toolVersion",
   "imsqti:toolVendor"].map String.toList

mutual
/-- The first tree is the second with white space between elements. -/
inductive LaidOut : Node → Node → Prop
  | text (n : Str) (as : List (Str × Str)) (s : Str) : n ∈ textElements → LaidOut (.elem n as (chars s)) (.elem n as (chars s))
  | elems (n : Str) (as : List (Str × Str)) {ks ks' : List Node} : n ∉ textElements → LaidOuts ks ks' →
      LaidOut (.elem n as ks) (.elem n as ks')
/-- The same for the content of an element. -/
inductive LaidOuts : List Node → List Node → Prop
  | nil : LaidOuts [] []
  | white (c : Char) {ks ks' : List Node} : c = ' ' ∨ c = '\t' ∨ c = '\n' → LaidOuts ks ks' → LaidOuts (.chr c :: ks) ks'
  | cons {x y : Node} {ks ks' : List Node} : LaidOut x y → LaidOuts ks ks' → LaidOuts (x :: ks) (y :: ks')
end

/-- An element without attributes. -/
def el (n : String) (ks : List Node) : Node := .elem n.toList [] ks

/-- A text in some language. -/
def langTree (l : LangString) : Node :=
  .elem "imsmd:langstring".toList (given [("xml:lang", present l.lang)]) (chars l.text)

/-- An identifier, with its catalog if there is one. -/
def identifierTree (i : Identifier) : Node :=
  match present i.catalog, present i.entry with
  | none, _ => el "imsmd:identifier" (chars (i.entry.getD []))
  | some c, none => el "imsmd:catalogentry" [el "imsmd:catalog" (chars c)]
  | some c, some e =>
    el "imsmd:catalogentry" [el "imsmd:catalog" (chars c), el "imsmd:entry" [el "imsmd:langstring" (chars e)]]

/-- A term with its source. -/
def vocabTree (n : String) (v : Vocab) : Node :=
  el n [el "imsmd:source" [langTree v.1], el "imsmd:value" [langTree v.2]]

/-- The general category. -/
def generalTree (g : General) : Node :=
  el "imsmd:general" (g.identifier.map identifierTree ++ (g.title.toList.map fun t => el "imsmd:title" [langTree t]) ++
    (g.description.map fun d => el "imsmd:description" [langTree d]) ++
    (g.keyword.map fun k => el "imsmd:keyword" [langTree k]))

/-- A contribution: the role and the vCards. -/
def contributeTree (c : Contribute) : Node :=
  el "imsmd:contribute" (vocabTree "imsmd:role" c.role ::
    c.entity.map fun v => el "imsmd:centity" [el "imsmd:vcard" (chars (lineEnds v))])

/-- The lifecycle category. -/
def lifecycleTree (l : Lifecycle) : Node :=
  el "imsmd:lifecycle" (l.status.toList.map (vocabTree "imsmd:status") ++ l.contribute.map contributeTree)

/-- The educational category: as many elements as descriptions, each with one of them. -/
def educationalTrees (e : Educational) : List Node :=
  let start := e.context.map (vocabTree "imsmd:context") ++ e.difficulty.toList.map (vocabTree "imsmd:difficulty")
  match e.description with
  | [] => [el "imsmd:educational" start]
  | d :: ds =>
    el "imsmd:educational" (start ++ [el "imsmd:description" [langTree d]]) ::
      ds.map fun d => el "imsmd:educational" [el "imsmd:description" [langTree d]]

/-- The metadata of IMS LOM. -/
def lomTree (l : Lom) : Node :=
  el "imsmd:lom" (l.general.toList.map generalTree ++ l.lifecycle.toList.map lifecycleTree ++
    l.educational.flatMap educationalTrees)

/-- The QTI metadata. -/
def qtiTree (m : QtiMD) : Node :=
  el "imsqti:qtiMetadata" (
    (m.itemTemplate.toList.map fun b => el "imsqti:itemTemplate" (chars (truth b))) ++
    (m.timeDependent.toList.map fun b => el "imsqti:timeDependent" (chars (truth b))) ++
    (m.composite.toList.map fun b => el "imsqti:composite" (chars (truth b))) ++
    (m.interactionTypes.map fun t => el "imsqti:interactionType" (chars t)) ++
    (m.feedbackType.toList.map fun t => el "imsqti:feedbackType" (chars t)) ++
    (m.solutionAvailable.toList.map fun b => el "imsqti:solutionAvailable" (chars (truth b))) ++
    ((present m.toolName).toList.map fun t => el "imsqti:toolName" (chars t)) ++
    ((present m.toolVersion).toList.map fun t => el "imsqti:toolVersion" (chars t)) ++
    ((present m.toolVendor).toList.map fun t => el "imsqti:toolVendor" (chars t)))

/-- Schema and version, for the metadata of packages and files. -/
def schemaTrees : List Node :=
  [el "schema" (chars "IMS Content".toList), el "schemaversion" (chars "1.1.3".toList)]

/-- A file of a resource. -/
def fileTree (f : File) : Node :=
  .elem "file".toList (given [("href", present f.href)])
    (f.lom.toList.map fun l => el "metadata" (schemaTrees ++ [lomTree l]))

/-- A resource: identifier, type and entry point; metadata, if there are any; the files, in order. -/
def resourceTree (r : Resource) : Node :=
  .elem "resource".toList
    (given [("identifier", some r.id), ("type", present r.type), ("href", r.entryPoint.bind fun f => present f.href)])
    ((if r.lom.isNone && r.qtiMD.isNone then []
      else [el "metadata" (r.lom.toList.map lomTree ++ r.qtiMD.toList.map qtiTree)]) ++ r.files.map fileTree)

/-- The attributes that every manifest has. -/
def namespaces : List (String × Option Str) :=
  [("xmlns", some "http://www.imsglobal.org/xsd/imscp_v1p1".toList),
   ("xmlns:imsmd", some "http://www.imsglobal.org/xsd/imsmd_v1p2".toList),
   ("xmlns:imsqti", some "http://www.imsglobal.org/xsd/imsqti_v2p1".toList),
   ("xmlns:xsi", some "http://www.w3.org/2001/XMLSchema-instance".toList),
   ("xsi:schemaLocation", some "http://www.imsglobal.org/xsd/imscp_v1p1 http://www.imsglobal.org/xsd/imscp_v1p2.xsd  http://www.imsglobal.org/xsd/imsmd_v1p2 http://www.imsglobal.org/xsd/imsmd_v1p2p4.xsd  http://www.imsglobal.org/xsd/imsqti_v2p1 http://www.imsglobal.org/xsd/imsqti_v2p1.xsd".toList)]

/-- The manifest with identifier `mid`. -/
def manifestTree (mid : Str) (p : Package) : Node :=
  .elem "manifest".toList (given (("identifier", some mid) :: namespaces))
    ((p.lom.toList.map fun l => el "metadata" (schemaTrees ++ [lomTree l])) ++ [el "organizations" []] ++
      (if p.resources = [] then [] else [el "resources" (p.resources.map resourceTree)]))

/-! ## What can be written -/

/-- A text in some language that can be written. -/
def LangOk (l : LangString) : Prop := TextOk l.text ∧ OptOk AttOk l.lang

/-- A term that can be written. -/
def VocabOk (v : Vocab) : Prop := LangOk v.1 ∧ LangOk v.2

/-- General metadata whose texts can be written. -/
def GeneralTexts (g : General) : Prop :=
  (∀ i ∈ g.identifier, OptOk TextOk i.entry) ∧ (∀ t, g.title = some t → LangOk t) ∧ (∀ d ∈ g.description, LangOk d) ∧
    ∀ k ∈ g.keyword, LangOk k

/-- The text of a vCard that can be written in a CDATA section. -/
def CardOk (v : Str) : Prop := (∀ c ∈ v, XmlChar c) ∧ ¬ Occurs [']', ']', '>'] (v ++ [']', ']'])

/-- A contribution that can be written. -/
def ContributeOk (c : Contribute) : Prop := VocabOk c.role ∧ ∀ v ∈ c.entity, CardOk v

/-- Lifecycle metadata that can be written. -/
def LifecycleOk (l : Lifecycle) : Prop := (∀ s, l.status = some s → VocabOk s) ∧ ∀ c ∈ l.contribute, ContributeOk c

/-- Educational metadata that can be written. -/
def EducationalOk (e : Educational) : Prop :=
  (∀ c ∈ e.context, VocabOk c) ∧ (∀ d, e.difficulty = some d → VocabOk d) ∧ ∀ d ∈ e.description, LangOk d

/-- Metadata whose texts can be written. -/
def LomTexts (l : Lom) : Prop :=
  (∀ g, l.general = some g → GeneralTexts g) ∧ (∀ c, l.lifecycle = some c → LifecycleOk c) ∧
    ∀ e ∈ l.educational, EducationalOk e

/-- Identifiers that can be written: with a catalog, the entry must be the same text. -/
def CatalogsOk (g : General) : Prop := ∀ i ∈ g.identifier, present i.catalog ≠ none → i.catalog = i.entry

/-- Metadata that can be written. -/
def LomOk (l : Lom) : Prop := LomTexts l ∧ ∀ g, l.general = some g → CatalogsOk g

/-- QTI metadata that can be written. -/
def QtiOk (m : QtiMD) : Prop :=
  (∀ t ∈ m.interactionTypes, TextOk t) ∧ OptOk TextOk m.feedbackType ∧ OptOk TextOk m.toolName ∧
    OptOk TextOk m.toolVersion ∧ OptOk TextOk m.toolVendor

/-- A file that can be written. -/
def FileOk (f : File) : Prop := OptOk AttOk f.href ∧ ∀ l, f.lom = some l → LomOk l

/-- A resource that can be written: with QTI metadata, it has a file or other metadata too. -/
def ResourceOk (r : Resource) : Prop :=
  RawOk r.id ∧ OptOk RawOk r.type ∧ (∀ f, r.entryPoint = some f → OptOk AttOk f.href) ∧
    (∀ l, r.lom = some l → LomOk l) ∧ (∀ m, r.qtiMD = some m → QtiOk m) ∧ (∀ f ∈ r.files, FileOk f) ∧
    (r.qtiMD ≠ none → r.files ≠ [] ∨ r.lom ≠ none)

/-- A package whose manifest can be written. -/
def PackageOk (p : Package) : Prop :=
  OptOk AttOk p.id ∧ (∀ l, p.lom = some l → LomOk l) ∧ ∀ r ∈ p.resources, ResourceOk r

/-! ## Finding things in a document -/

/-- The elements called `n` directly inside an element. -/
def inside (n : String) : Node → List Node
  | .chr _ => []
  | .elem _ _ ks => ks.filter fun k => match k with | .chr _ => false | .elem m _ _ => m == n.toList

/-- The elements reached by going down along the given names. -/
def descend : List String → Node → List Node
  | [], x => [x]
  | n :: ns, x => (inside n x).flatMap (descend ns)

/-- The value of an attribute. -/
def attr (n : String) : Node → Option Str
  | .chr _ => none
  | .elem _ as _ => (as.find? fun a => a.1 == n.toList).map Prod.snd

/-- The texts of the educational descriptions below an element that holds metadata, in order. -/
def descriptionsRead (x : Node) : List Str :=
  (descend ["imsmd:lom", "imsmd:educational", "imsmd:description", "imsmd:langstring"] x).map xmlText

/-- The texts of the educational descriptions in some metadata, in order. -/
def descriptionsOf (l : Lom) : List Str := l.educational.flatMap fun e => e.description.map (·.text)

end Verif.Spec
