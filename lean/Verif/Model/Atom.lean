import Verif.Model.Enumeration

/-!
# Feeds and entries of Atom

Models `pyslet/pyslet/rfc4287.py`: the children of feeds and entries, `Reset`, and the types of
contents.  An element is a number, with a flag that says whether its parent is set.  The contents of
elements and their attributes are not modelled.
-/

namespace Verif.Atom

open Verif

/-- An element that is or was a child: which one, and whether `parent` is set. -/
structure Child where
  id : Nat
  attached : Bool
deriving DecidableEq, Repr

/-- `Element.DetachFromParent` (xml20081126/structures.py:1724-1733). -/
def Child.detach (c : Child) : Child := { c with attached := false }

/-- The attributes of `Entity`, `Entry` and `Feed` that hold children (rfc4287.py:377-391, 432-437,
457-464, 482-492); `others` is `_children` of the base class. -/
structure Entity where
  atomId : Option Child
  title : Option Child
  rights : Option Child
  updated : Option Child
  links : List Child
  authors : List Child
  contributors : List Child
  categories : List Child
  others : List Child
  content : Option Child
  published : Option Child
  source : Option Child
  summary : Option Child
  generator : Option Child
  icon : Option Child
  logo : Option Child
  subtitle : Option Child
  entries : List Child

/-- `Entity.GetChildren` (rfc4287.py:411-422). -/
def children (e : Entity) : List Child :=
  e.atomId.toList ++ e.title.toList ++ e.rights.toList ++ e.updated.toList ++ e.links ++ e.authors ++
    e.contributors ++ e.categories ++ e.others

/-- `Entry.GetChildren` (rfc4287.py:515-520). -/
def entryChildren (e : Entity) : List Child :=
  children e ++ e.content.toList ++ e.published.toList ++ e.source.toList ++ e.summary.toList

/-- `Feed.GetChildren` over `Source.GetChildren` (rfc4287.py:439-444 and 466-470). -/
def feedChildren (e : Entity) : List Child :=
  children e ++ e.generator.toList ++ e.icon.toList ++ e.logo.toList ++ e.subtitle.toList ++ e.entries

/-- `Entity.Reset` (rfc4287.py:393-409) with `Element.Reset` (structures.py:1143-1151): the members
of the lists are not detached (the method is named, not called), and `Update` is set for
`Updated`. -/
def reset (e : Entity) : Entity :=
  { e with
    authors := [], categories := [], contributors := [], links := []
    rights := none, title := none
    updated := e.updated.map Child.detach
    others := [] }

/-- `Entry.Reset` (rfc4287.py:494-513); `none` is the `AttributeError` of the name
`DetatchFromParent`.  The two numbers are the new elements. -/
def entryReset (newTitle newUpdated : Nat) (e : Entity) : Option Entity :=
  match e.content with
  | some _ => none
  | none =>
    some { reset { e with published := none, source := none, summary := none } with
      title := some ⟨newTitle, true⟩, updated := some ⟨newUpdated, true⟩ }

/-- `TextType` (rfc4287.py:46-59). -/
def textType : Enumeration.Enum :=
  ⟨[("text".toList, 1), ("html".toList, 2), ("xhtml".toList, 3)],
    [(1, "text".toList), (2, "html".toList), (3, "xhtml".toList)], none⟩

/-- The type of a content: a value of `TextType` or a media type. -/
inductive ContentType
  | text (value : Nat)
  | media (name : Str)
deriving DecidableEq, Repr

/-- `DecodeContentType` (rfc4287.py:278-282). -/
def decodeContentType (src : Str) : ContentType :=
  match Enumeration.decodeLower textType src with
  | .ok v => .text v
  | .error _ => .media (Enumeration.strip src)

/-- `EncodeContentType` (rfc4287.py:284-288). -/
def encodeContentType : ContentType → Option Str
  | .media s => some s
  | .text v => Enumeration.encodeValue textType (some v)

/-- What `Content.GetValue` gives (rfc4287.py:303-312): the value of the text is not returned.
`none` is a `ValueError`, `some none` is `None`. -/
def contentValue (type : ContentType) (_value : Str) : Option (Option Str) :=
  match type with
  | .media _ => none
  | .text _ => some none

end Verif.Atom
