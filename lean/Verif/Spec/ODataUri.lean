import Verif.Model.ODataUri
import Verif.Spec.Uri
import Verif.Spec.OData

/-!
# What an OData URI says

Independent of how URIs are read: the shapes a resource path can have, what a segment with its key predicate stands for,
and which system query options go with which path.
-/

namespace Verif.Spec.OData

open Verif Verif.OData

/-- Text of the printable characters that URIs consist of. -/
def UriChars (s : Str) : Prop := ∀ c ∈ s, 0x21 ≤ c.toNat ∧ c.toNat ≤ 0x7E

/-- The UTF-8 encoding of a text, as octets. -/
def utf8 (t : Str) : Str := t.flatMap fun c => (String.utf8EncodeChar c).map fun b => Char.ofNat b.toNat

/-- A part of a URI stands for a text: undoing the escapes gives its UTF-8 encoding. -/
def Stands (s t : Str) : Prop := Spec.Percents s ∧ Spec.decode s = utf8 t

/-- A character of URIs that has no special meaning in them: a letter, a digit or a mark. -/
def PlainChar (c : Char) : Prop := Spec.uriChar c = true ∧ c ∉ [';', '/', '?', ':', '@', '&', '=', '+', '$', ',']

instance (c : Char) : Decidable (PlainChar c) := inferInstanceAs (Decidable (_ ∧ _))

/-! ## Paths -/

/-- A segment that is no path option. -/
def Named (s : Str) : Prop := s.head? ≠ some '$'

instance (s : Str) : Decidable (Named s) := inferInstanceAs (Decidable (_ ≠ _))

/-- The word of a path option. -/
def pathWord : PathOpt → String
  | .metadata => "metadata"
  | .batch => "batch"
  | .count => "count"
  | .value => "value"
  | .links => "links"

/-- The shapes of paths the reader has in mind, where `split` says what the single segments are: names only; names and then
an option; names, `$links` and one more name. -/
inductive PathShape (split : Str → Except UriFault (Str × Keys)) : List Str → Path → Prop
  | names {ss : List Str} {nav : List (Str × Keys)} : (∀ s ∈ ss, Named s) → ss.mapM split = .ok nav →
      PathShape split ss ⟨nav, none, none⟩
  | option {ss : List Str} {nav : List (Str × Keys)} {t : Str} {o : PathOpt} : (∀ s ∈ ss, Named s) → ss.mapM split = .ok nav →
      Py.lower t = (pathWord o).toList → o ≠ .links → PathShape split (ss ++ ['$' :: t]) ⟨nav, some o, none⟩
  | links {ss : List Str} {nav : List (Str × Keys)} {t l n : Str} {k : Keys} : (∀ s ∈ ss, Named s) →
      ss.mapM split = .ok nav → Py.lower t = "links".toList → Named l → split l = .ok (n, k) →
      PathShape split (ss ++ ['$' :: t, l]) ⟨nav ++ [(n, k)], some .links, some n⟩

/-- What OData requires as well: `$metadata` and `$batch` belong to the service, `$links` and `$count` follow a resource. -/
def PathRule (nav : List (Str × Keys)) : Option PathOpt → Prop
  | some .metadata => nav = []
  | some .batch => nav = []
  | some .links => 2 ≤ nav.length
  | some .count => nav ≠ []
  | some .value => nav ≠ []
  | none => True

/-! ## Segments -/

/-- A named key: the text of the name, the name, the text of the literal and the literal. -/
structure NamedKey where
  nameText : Str
  name : Str
  litText : Str
  lit : Lit

/-- The key predicate of a `NamedKey`. -/
def NamedKey.text (k : NamedKey) : Str := k.nameText ++ '=' :: k.litText

/-- A named key that can be read: no comma and no equals sign in it besides its own. -/
def NamedKey.OK (U : UriTables) (k : NamedKey) : Prop :=
  Stands k.nameText k.name ∧ Literal U.tables k.litText k.lit ∧ '=' ∉ k.nameText ∧ ',' ∉ k.nameText ∧ '=' ∉ k.litText ∧ ',' ∉ k.litText

/-! ## Queries -/

/-- The word of a system query option. -/
def sysWord : SysOpt → String
  | .expand => "expand"
  | .filter => "filter"
  | .orderby => "orderby"
  | .format => "format"
  | .skip => "skip"
  | .top => "top"
  | .skiptoken => "skiptoken"
  | .inlinecount => "inlinecount"
  | .select => "select"

/-- A system query option in a query: the text of its name, the text of its value, which option it is, and its value. -/
structure QueryOption where
  nameText : Str
  valueText : Str
  opt : SysOpt
  value : Str

/-- The text of a system query option in a query. -/
def QueryOption.text (p : QueryOption) : Str := '$' :: (p.nameText ++ '=' :: p.valueText)

/-- The texts stand for the option and its value, and contain no bare sign that ends them. -/
def QueryOption.OK (p : QueryOption) : Prop :=
  Stands p.nameText (sysWord p.opt).toList ∧ Stands p.valueText p.value ∧ '=' ∉ p.nameText ∧ '&' ∉ p.nameText ∧ '&' ∉ p.valueText

/-- A query says that these options have these values, and nothing else of the kind. -/
def Says (q : Query) (l : List (SysOpt × OptValue)) : Prop :=
  (∀ x ∈ l, Dict.get q.sys x.1 = some x.2) ∧ ∀ o, o ∉ l.map (·.1) → Dict.get q.sys o = none

/-- A part of a query that does not give the parameter `t` a value: a system query option, a part without an equals sign, or
another parameter. -/
inductive OtherPart (t : Str) : Str → Prop
  | system (r : Str) : OtherPart t ('$' :: r)
  | bare {d : Str} : Named d → '=' ∉ d → OtherPart t d
  | named {n v x : Str} : Named (n ++ '=' :: v) → '=' ∉ n → Stands n x → x ≠ t → OtherPart t (n ++ '=' :: v)

/-! ## Which options go with which path -/

/-- The system query options OData allows for the counting of a set, for the counting of a single thing, for links, for the
metadata and for batches; all of them otherwise. -/
def Allowed (o : Option PathOpt) (single : Prop) (p : SysOpt) : Prop :=
  match o with
  | some .metadata => False
  | some .batch => False
  | some .links => p ∈ [.format, .skip, .top, .skiptoken, .inlinecount]
  | some .count => (single → p ∈ [.expand, .filter]) ∧ (¬ single → p ∈ [.expand, .filter, .orderby, .skip, .top])
  | _ => True

/-- The last name of a path carries keys. -/
def Single (nav : List (Str × Keys)) : Prop := ∃ l n k ks, nav = l ++ [(n, some (k :: ks))]

/-! ## Numbers -/

/-- The value of a text of decimal digits. -/
def natOf (s : Str) : Nat := s.foldl (fun n c => 10 * n + (c.toNat - 48)) 0

end Verif.Spec.OData
