import Verif.Model.ODataUri

/-!
# The OData server

Models `Server.__call__`, `HandleRequest`, `GetResource` and what they use, `pyslet/pyslet/odata2/server.py` (cited as
*server*), with `GetKey` and `DeferredValue.GetEntity` of `pyslet/pyslet/odata2/csdl.py` (cited as *csdl*).  The store is
left open: a `Provider` says what its entity sets hold, and what its operations do.
-/

namespace Verif.OData.Server

open Verif

/-! ## Errors -/

/-- The exceptions of the server. -/
inductive Raise where
  /-- `MissingURISegment` -/
  | missing
  /-- `BadURISegment` -/
  | bad
  /-- `edm.NavigationError` -/
  | navigation
  /-- `edm.ConstraintError` -/
  | constraint
  /-- `NotImplementedError` -/
  | notImplemented
  /-- `InvalidSystemQueryOption` -/
  | queryOption
  /-- `InvalidPathOption` -/
  | pathOption
  /-- `InvalidMethod` -/
  | invalidMethod
  /-- `ValueError` -/
  | valueError
  /-- any other exception, also `InvalidData`, `KeyError`, `AttributeError` -/
  | other
  /-- no answer -/
  | endless
deriving DecidableEq, Repr

/-- What `ODataURI` raises. -/
def Raise.ofUri : UriFault → Raise
  | .pathOption => .pathOption
  | .queryOption => .queryOption
  | .valueError => .valueError
  | .typeError => .other
  | .other => .other
  | .endless => .endless

/-- What a reader of a header raises: its `SyntaxError` is no `ValueError` (`pyslet/pyslet/rfc2616_core.py:6-14`). -/
def ofHeader {α : Type} : Option (Except Http.Fault α) → Except Raise α
  | none => .error .endless
  | some (.ok a) => .ok a
  | some (.error .valueError) => .error .valueError
  | some (.error _) => .error .other

/-! ## Requests -/

/-- The parts of a WSGI environment that are used. -/
structure Environ where
  /-- `REQUEST_METHOD` -/
  method : Str
  /-- `SCRIPT_NAME` -/
  scriptName : Option Str
  /-- `PATH_INFO` -/
  pathInfo : Str
  /-- `QUERY_STRING` -/
  query : Option Str
  /-- `HTTP_DATASERVICEVERSION` -/
  version : Option Str
  /-- `HTTP_MAXDATASERVICEVERSION` -/
  maxVersion : Option Str
  /-- `HTTP_ACCEPT` -/
  accept : Option Str
  /-- `CONTENT_TYPE` -/
  contentType : Option Str
  /-- `HTTP_SLUG` -/
  slug : Option Str
  /-- the input -/
  body : Str
deriving DecidableEq

/-! ## The store -/

/-- A simple or complex value: whether a simple value is null, and whether its definition, if it has one, allows that. -/
inductive Value where
  | simple (null : Bool) (nullable : Option Bool)
  | complex (nullable : Option Bool) (fields : List (Str × Value))

/-- The value of a property of an entity: a value, or a navigation property to a single entity or to many. -/
inductive Property (C : Type) where
  | value (v : Value)
  | one (c : C)
  | many (c : C)

/-- What a function import returns (csdl:4196-4211); the code also allows for `None`. -/
inductive Result (E C F : Type) where
  | collection (c : C)
  | entity (e : E)
  | value (v : Value)
  | functions (f : F)
  | nothing

/-- What `SearchContainers` finds: an entity set, a function import, or something else. -/
inductive Named (S E C F : Type) where
  | set (c : C)
  | function (run : S → Except Raise (Result E C F) × S)
  | other

/-- What is shown of a collection (server:491-498). -/
structure View where
  expand : Option OptValue
  select : Option OptValue
  filter : Option OptValue
  orderby : Option OptValue
  top : Option OptValue
  skip : Option OptValue
  skiptoken : Option OptValue
  allPages : Bool
deriving DecidableEq

/-- What a response shows. -/
inductive Shows (E C F : Type) where
  | empty
  | error
  | redirect
  | service
  | metadata
  | count (n : Nat)
  | links (c : C) (v : View)
  | link (e : E)
  | entity (e : E) (expand select : Option OptValue)
  | collection (c : C) (v : View)
  | value (e : Option E) (v : Value)
  | raw (e : Option E) (v : Value)
  | stream (e : E)
  | functions (f : F)

/-- A model with its data: `S` are the states of the store, `E` its entities, `C` its collections of entities and `F` the
collections that functions return.  A raised exception may leave a changed store. -/
structure Provider (S E C F : Type) where
  /-- `self.model is not None` -/
  hasModel : Bool
  /-- `self.model.DataServices.SearchContainers(name)`: `none` is `KeyError` -/
  search : Str → Option (Named S E C F)
  /-- the names of the key properties of the entity set of a collection -/
  keyNames : C → List Str
  /-- `collection[key]`: `none` is `KeyError` -/
  lookup : S → C → List Lit → Option E
  /-- `collection.values()` -/
  members : S → C → List E
  /-- `entity[name]`: `none` is `KeyError` -/
  property : S → E → Str → Option (Property C)
  /-- `entity.typeDef.HasStream()` -/
  hasStream : E → Bool
  /-- `entity.GetStreamType()` -/
  streamType : S → E → Except Raise Http.MediaType
  /-- `collection.IsMediaLinkEntryCollection()` -/
  isMedia : C → Bool
  /-- the media type of a value, `value.mType`, and whether it is binary -/
  mType : Value → Option Http.MediaType
  binary : Value → Bool
  /-- `resource.Expand(expand,select)` -/
  expand : S → Shows E C F → Except Raise Unit
  /-- the representation of the response: the document, and the headers, written for a media type -/
  render : S → Shows E C F → Http.MediaType → Except Raise Unit
  /-- the change made by `ReadEntity` and `InsertEntity` -/
  insert : C → Environ → S → Except Raise E × S
  /-- the change made by `InsertEntity` of a media link entry -/
  insertMedia : C → Option Str → S → Except Raise E × S
  /-- `SetStreamFromGenerator` -/
  setStream : E → Http.MediaType → Str → S → Except Raise Unit × S
  /-- `ReadEntity`, `Update` and `SetETag` -/
  update : E → Environ → S → Except Raise Unit × S
  /-- `Delete` -/
  delete : E → S → Except Raise Unit × S
  /-- `ReadValue` or `ReadDereferencedValue`, and `Update` of the entity -/
  setValue : E → List Str → Bool → Environ → S → Except Raise Unit × S
  /-- `resource.value=None` and `Update` of the entity -/
  nullValue : E → List Str → S → Except Raise Unit × S
  /-- `collection[targetEntity.Key()]=targetEntity` for the entity that the input names -/
  link : C → Environ → S → Except Raise Unit × S
  /-- `collection.Replace(targetEntity)` for the entity that the input names -/
  replace : C → Environ → S → Except Raise Unit × S
  /-- `del collection[resource.Key()]` -/
  unlink : C → E → S → Except Raise Unit × S

/-! ## Resources -/

/-- What a path leads to (server:280-373). -/
inductive Resource (E C F : Type) where
  /-- the model itself -/
  | service
  | collection (c : C)
  | entity (e : E)
  /-- a value, and the names that lead to it from the entity -/
  | value (path : List Str) (v : Value)
  | functions (f : F)
  /-- `None` -/
  | nothing

/-- `if keyPredicate`. -/
def given : Keys → Option (List (Str × Lit))
  | some (k :: ks) => some (k :: ks)
  | _ => none

/-- `GetKey` of a dictionary (csdl:3842-3862): `none` is `KeyError`. -/
def getKey (names : List Str) (d : List (Str × Lit)) : Option (List Lit) :=
  names.mapM fun n =>
    match Dict.get d n with
    | some v => some v
    | none => if names.length = 1 then Dict.get d [] else none

variable {S E C F : Type}

/-- `collection[collection.entitySet.GetKey(keyPredicate)]` (server:308-314, 328-333). -/
def pick (P : Provider S E C F) (s : S) (c : C) (d : List (Str × Lit)) : Except Raise E :=
  match (getKey (P.keyNames c) d).bind (P.lookup s c) with
  | some e => .ok e
  | none => .error .missing

/-- `GetEntity` (csdl:1731-1745). -/
def single (P : Provider S E C F) (s : S) (c : C) : Except Raise (Resource E C F) :=
  match P.members s c with
  | [] => .ok .nothing
  | [e] => .ok (.entity e)
  | _ => .error .navigation

/-- `ValidateSystemQueryOptions` (core:1933-1937). -/
def check (u : ODataURI) (n : Nat) : Except Raise Unit := (validate u.query n).mapError .ofUri

/-- The first segment (server:284-316), and whether it must be the last one. -/
def firstSegment (P : Provider S E C F) (u : ODataURI) (seg : Str × Keys) (s : S) :
    Except Raise (Resource E C F × Bool) × S :=
  let collection : C → S → Except Raise (Resource E C F × Bool) := fun c s =>
    match given seg.2 with
    | none => .ok (.collection c, false)
    | some d => (pick P s c d).map fun e => (.entity e, false)
  match P.search seg.1 with
  | none => (.error .missing, s)
  | some .other => (.error .missing, s)
  | some (.set c) => (collection c s, s)
  | some (.function run) =>
    match run s with
    | (.error e, s') => (.error e, s')
    | (.ok (.collection c), s') => (collection c s', s')
    | (.ok r, s') =>
      (match check u 10 with
        | .error e => .error e
        | .ok _ =>
          match r with
          | .entity e => .ok (.entity e, true)
          | .value v => .ok (.value [] v, true)
          | .functions f => .ok (.functions f, true)
          | _ => .error .missing, s')

/-- A later segment (server:317-354): what it leads to, and the entity that it starts from. -/
def nextSegment (P : Provider S E C F) (s : S) (seg : Str × Keys) (r : Resource E C F) (parent : Option E) :
    Except Raise (Resource E C F × Option E) :=
  match r with
  | .collection _ => .error .bad
  | .functions _ => .error .bad
  | .entity e =>
    match P.property s e seg.1 with
    | none => .error .missing
    | some (.value v) => .ok (.value [seg.1] v, some e)
    | some (.many c) =>
      match given seg.2 with
      | none => .ok (.collection c, some e)
      | some d => (pick P s c d).map fun e' => (.entity e', some e)
    | some (.one c) =>
      match given seg.2 with
      | some _ => .error .bad
      | none => (single P s c).map fun r => (r, some e)
  | .value path (.complex _ fields) =>
    match Dict.get fields seg.1 with
    | some v => .ok (.value (path ++ [seg.1]) v, parent)
    | none => .error .missing
  | .nothing => .error .missing
  | .value _ (.simple _ _) => .error .bad
  | .service => .error .bad

/-- The loop over the later segments. -/
def walk (P : Provider S E C F) (s : S) : List (Str × Keys) → Resource E C F → Option E →
    Except Raise (Resource E C F × Option E)
  | [], r, p => .ok (r, p)
  | seg :: segs, r, p => (nextSegment P s seg r p).bind fun x => walk P s segs x.1 x.2

/-- The tests at the end (server:355-372). -/
def lastTests (u : ODataURI) (r : Resource E C F) (p : Option E) : Except Raise (Resource E C F × Option E) :=
  let ok : Resource E C F × Option E := (r, p)
  match r with
  | .collection _ => (check u 1).map fun _ => ok
  | .entity _ =>
    if u.path.option = some .value then (check u 17).map fun _ => ok
    else if u.path.option ≠ some .links then (check u 2).map fun _ => ok
    else .ok ok
  | .value _ (.complex _ _) => (check u 3).map fun _ => ok
  | .value _ (.simple _ _) => (check u 4).map fun _ => ok
  | .nothing => if p.isSome ∧ u.path.option ≠ some .links then .error .missing else .ok ok
  | _ => .ok ok

/-- `GetResource` (server:280-373). -/
def getResource (P : Provider S E C F) (u : ODataURI) (s : S) : Except Raise (Resource E C F × Option E) × S :=
  match u.path.navPath with
  | [] => (lastTests u (if P.hasModel then .service else .nothing) none, s)
  | seg :: segs =>
    if !P.hasModel then (.error .bad, s)
    else
      match firstSegment P u seg s with
      | (.error e, s') => (.error e, s')
      | (.ok (r, closed), s') =>
        (if closed && !segs.isEmpty then .error .bad
          else (walk P s' segs r none).bind fun x => lastTests u x.1 x.2, s')

/-! ## Negotiation of content -/

/-- What is left open: see `UriTables`. -/
abbrev T := UriTables

/-- A media type without parameters. -/
def plain (type subtype : String) : Http.MediaType := ⟨type.toList, subtype.toList, []⟩

/-- A media type with a parameter. -/
def typed (type subtype key value : String) : Http.MediaType :=
  ⟨type.toList, subtype.toList, [⟨key.toList, key.toList, value.toList⟩]⟩

/-- `DefaultAcceptList` (server:72). -/
def defaultAccept : List Http.AcceptItem := Http.acceptList [
  ⟨plain "application" "atom+xml", 1000, []⟩, ⟨plain "application" "xml", 900, []⟩, ⟨plain "text" "xml", 800, []⟩,
  ⟨plain "text" "plain", 700, []⟩, ⟨plain "*" "*", 600, []⟩]

/-- `ErrorTypes` (server:73-76). -/
def errorTypes := [plain "application" "atom+xml", plain "application" "xml", plain "application" "json"]

/-- `RedirectTypes` (server:78-81). -/
def redirectTypes := [plain "text" "html", plain "text" "plain", plain "application" "xml"]

/-- `FeedTypes` (server:83-89). -/
def feedTypes := [plain "application" "atom+xml", typed "application" "atom+xml" "type" "feed", plain "application" "xml",
  plain "text" "xml", plain "application" "json", plain "text" "plain"]

/-- `EntryTypes` (server:91-97). -/
def entryTypes := [plain "application" "atom+xml", typed "application" "atom+xml" "type" "entry", plain "application" "xml",
  plain "text" "xml", plain "application" "json", plain "text" "plain"]

/-- `ValueTypes` (server:99-103). -/
def valueTypes := [plain "application" "xml", plain "text" "xml", plain "application" "json", plain "text" "plain"]

/-- `ServiceRootTypes` (server:105-109). -/
def serviceRootTypes := [plain "application" "atomsvc+xml", plain "application" "json", plain "application" "xml",
  plain "text" "plain"]

/-- `MetadataTypes` (server:111-114). -/
def metadataTypes := [plain "application" "xml", plain "text" "xml", plain "text" "plain"]

/-- `DereferenceTypes` (server:120-123). -/
def dereferenceTypes := [typed "text" "plain" "charset" "utf-8", plain "application" "octet-stream", plain "octet" "stream"]

/-- `StreamTypes` (server:125-127). -/
def streamTypes := [plain "application" "octet-stream", plain "octet" "stream"]

/-- `ContentNegotiation` (server:932-951) for the `$format` option and the `Accept` header. -/
def negotiation (U : T) (q : Query) (accept : Option Str) (types : List Http.MediaType) :
    Except Raise (Option Http.MediaType) :=
  match Dict.get q.sys .format with
  | some (.format l) => .ok (Http.selectType l types)
  | _ => ofHeader (Http.negotiate U.quality defaultAccept accept types)

/-! ## Responses -/

/-- A response: the status, the media type if there is one, and what it shows. -/
structure Response (E C F : Type) where
  status : Nat
  type : Option Http.MediaType
  shows : Shows E C F

/-- `ODataError` (server:243-263) for the query of an `ODataURI`.  The text of the message is not modelled. -/
def odataError (U : T) (q : Query) (env : Environ) (code : Nat) : Except Raise (Response E C F) :=
  (negotiation U q env.accept errorTypes).map fun m =>
    ⟨code, some (match m with
      | none => plain "text" "plain"
      | some m => if m = plain "application" "atom+xml" then plain "application" "xml" else m), .error⟩

/-- The methods named `Return`: the type is negotiated, and what is to be shown is written (server:604-924). -/
def returns (P : Provider S E C F) (U : T) (u : ODataURI) (env : Environ) (s : S) (status : Nat)
    (types : List Http.MediaType) (x : Shows E C F) : Except Raise (Response E C F) :=
  (negotiation U u.query env.accept types).bind fun m =>
  match m with
  | none => odataError U u.query env 406
  | some m => (P.render s x m).map fun _ => ⟨status, some m, x⟩

/-- `ReturnEmpty` (server:926-930). -/
def returnEmpty : Response E C F := ⟨204, none, .empty⟩

/-- `sysQueryOptions.get(...,None)`. -/
def opt (u : ODataURI) (o : SysOpt) : Option OptValue := Dict.get u.query.sys o

/-- The view that the options ask for (server:491-498). -/
def view (u : ODataURI) : View :=
  ⟨opt u .expand, opt u .select, opt u .filter, opt u .orderby, opt u .top, opt u .skip, opt u .skiptoken,
    opt u .inlinecount == some (.inlinecount true)⟩

/-- The view of a collection of links (server:408-415). -/
def linkView (u : ODataURI) : View :=
  ⟨none, none, none, none, opt u .top, opt u .skip, opt u .skiptoken, opt u .inlinecount == some (.inlinecount true)⟩

/-- `ExpandResource` (server:592-602). -/
def expandResource (P : Provider S E C F) (u : ODataURI) (s : S) (x : Shows E C F) : Except Raise Unit :=
  if opt u .expand = none ∧ opt u .select = none then .ok ()
  else
    match P.expand s x with
    | .error .valueError => .error .queryOption
    | r => r

/-- An operation followed by `ReturnEmpty`. -/
def emptied (r : Except Raise Unit × S) : Except Raise (Response E C F) × S := (r.1.map fun _ => returnEmpty, r.2)

/-- The media type of the input (server:464-468, 511-515). -/
def inputType (env : Environ) : Except Raise Http.MediaType :=
  match env.contentType with
  | some t => ofHeader (Http.mediaTypeFromString t)
  | none => .ok (plain "application" "octet-stream")

/-- The upper case of a method: `upper()` of ASCII text. -/
def upper (s : Str) : Str := s.map fun c => if 'a' ≤ c ∧ c ≤ 'z' then Char.ofNat (c.toNat - 32) else c

/-- A request for links (server:400-451). -/
def handleLinks (P : Provider S E C F) (U : T) (u : ODataURI) (env : Environ) (s : S) (r : Resource E C F)
    (parent : Option E) : Except Raise (Response E C F) × S :=
  match parent with
  | none => (.error .bad, s)
  | some e =>
    let property := (u.path.linksProperty).bind (P.property s e)
    if upper env.method = "GET".toList then
      match r with
      | .collection c => (returns P U u env s 200 valueTypes (.links c (linkView u)), s)
      | .entity e => (returns P U u env s 200 valueTypes (.link e), s)
      | _ => (.error .missing, s)
    else if upper env.method = "POST".toList then
      match r with
      | .nothing =>
        match property with
        | some (.one c) => emptied (P.link c env s)
        | some (.many c) => emptied (P.link c env s)
        | _ => (.error .other, s)
      | .collection c => emptied (P.link c env s)
      | _ => (.error .bad, s)
    else if upper env.method = "PUT".toList then
      match property with
      | some (.many _) => (.error .bad, s)
      | some (.one c) => emptied (P.replace c env s)
      | _ => (.error .other, s)
    else if upper env.method = "DELETE".toList then
      match r with
      | .collection _ => (.error .bad, s)
      | .nothing => (.error .missing, s)
      | .entity e' =>
        match property with
        | some (.one c) => emptied (P.unlink c e' s)
        | some (.many c) => emptied (P.unlink c e' s)
        | _ => (.error .other, s)
      | _ => (.error .other, s)
    else (.error .invalidMethod, s)

/-- A request for an entity (server:452-488). -/
def handleEntity (P : Provider S E C F) (U : T) (u : ODataURI) (env : Environ) (s : S) (e : E) :
    Except Raise (Response E C F) × S :=
  if upper env.method = "GET".toList then
    if u.path.option = some .value then
      if P.hasStream e then
        ((P.streamType s e).bind fun m => returns P U u env s 200 (m :: streamTypes) (.stream e), s)
      else (.error .bad, s)
    else
      let x : Shows E C F := .entity e (opt u .expand) (opt u .select)
      ((expandResource P u s x).bind fun _ => returns P U u env s 200 entryTypes x, s)
  else if upper env.method = "PUT".toList then
    if u.path.option = some .value then
      if P.hasStream e then
        match inputType env with
        | .error err => (.error err, s)
        | .ok m => emptied (P.setStream e m env.body s)
      else (.error .bad, s)
    else emptied (P.update e env s)
  else if upper env.method = "DELETE".toList then
    if u.path.option = some .value then (.error .bad, s)
    else emptied (P.delete e s)
  else (.error .invalidMethod, s)

/-- A request for a collection of entities (server:489-529). -/
def handleCollection (P : Provider S E C F) (U : T) (u : ODataURI) (env : Environ) (s : S) (c : C) :
    Except Raise (Response E C F) × S :=
  if upper env.method = "GET".toList then
    let x : Shows E C F := .collection c (view u)
    ((expandResource P u s x).bind fun _ => returns P U u env s 200 feedTypes x, s)
  else if upper env.method = "POST".toList then
    if P.isMedia c then
      match P.insertMedia c env.slug s with
      | (.error err, s') => (.error err, s')
      | (.ok e, s') =>
        match inputType env with
        | .error err => (.error err, s')
        | .ok m =>
          match P.setStream e m env.body s' with
          | (.error err, s'') => (.error err, s'')
          | (.ok _, s'') => (returns P U u env s'' 201 entryTypes (.entity e none none), s'')
    else
      match P.insert c env s with
      | (.error err, s') => (.error err, s')
      | (.ok e, s') => (returns P U u env s' 201 entryTypes (.entity e none none), s')
  else (.error .invalidMethod, s)

/-- `EDMValue.__nonzero__` (csdl:737-744, 1670-1672): only a simple value can be null. -/
def Value.isNull : Value → Bool
  | .simple null _ => null
  | .complex _ _ => false

/-- `resource.pDef.nullable`, if there is a definition. -/
def Value.nullable : Value → Option Bool
  | .simple _ n => n
  | .complex n _ => n

/-- The types of `ReturnDereferencedValue` (server:874-883). -/
def rawTypes (P : Provider S E C F) (v : Value) : List Http.MediaType :=
  match P.mType v with
  | some m => [m]
  | none => if P.binary v then streamTypes else dereferenceTypes

/-- A request for a value (server:530-560).  A value that a function returned has no entity: `parentEntity.Update()` is an
`AttributeError`, whatever the input is (an error in the input, which would be raised first, is not modelled here). -/
def handleValue (P : Provider S E C F) (U : T) (u : ODataURI) (env : Environ) (s : S) (parent : Option E)
    (path : List Str) (v : Value) : Except Raise (Response E C F) × S :=
  if upper env.method = "GET".toList then
    if u.path.option = some .value then
      if v.isNull then (.error .missing, s)
      else (returns P U u env s 200 (rawTypes P v) (.raw parent v), s)
    else (returns P U u env s 200 valueTypes (.value parent v), s)
  else if upper env.method = "PUT".toList then
    if u.path.option = some .value ∧ v.isNull then (.error .missing, s)
    else
      match parent with
      | none => (.error .other, s)
      | some e => emptied (P.setValue e path (u.path.option == some .value) env s)
  else if upper env.method = "DELETE".toList then
    if u.path.option = some .value then (.error .bad, s)
    else if v.nullable = some false then (.error .invalidMethod, s)
    else
      match parent with
      | none => (.error .other, s)
      | some e => emptied (P.nullValue e path s)
  else (.error .invalidMethod, s)

/-- The body of the `try` of `HandleRequest` (server:387-580). -/
def dispatch (P : Provider S E C F) (U : T) (u : ODataURI) (env : Environ) (s : S) (r : Resource E C F)
    (parent : Option E) : Except Raise (Response E C F) × S :=
  match u.path.option with
  | some .metadata => (if P.hasModel then returns P U u env s 200 metadataTypes .metadata else .error .other, s)
  | some .batch => (odataError U u.query env 404, s)
  | some .count =>
    match r with
    | .entity _ => (returns P U u env s 200 dereferenceTypes (.count 1), s)
    | .collection c => (returns P U u env s 200 dereferenceTypes (.count (P.members s c).length), s)
    | _ => (.error .bad, s)
  | some .links => handleLinks P U u env s r parent
  | _ =>
    match r with
    | .entity e => handleEntity P U u env s e
    | .collection c => handleCollection P U u env s c
    | .value path v => handleValue P U u env s parent path v
    | .functions f => (returns P U u env s 200 valueTypes (.functions f), s)
    | _ => (returns P U u env s 200 serviceRootTypes .service, s)

/-- The status for an exception that `HandleRequest` catches (server:581-590). -/
def caught : Raise → Option Nat
  | .missing => some 404
  | .bad => some 400
  | .navigation => some 403
  | .constraint => some 403
  | .notImplemented => some 405
  | _ => none

/-- `HandleRequest` (server:382-590). -/
def handleRequest (P : Provider S E C F) (U : T) (u : ODataURI) (env : Environ) (s : S) :
    Except Raise (Response E C F) × S :=
  match (match getResource P u s with
    | (.error e, s') => (.error e, s')
    | (.ok (r, p), s') => dispatch P U u env s' r p : Except Raise (Response E C F) × S) with
  | (.ok x, s') => (.ok x, s')
  | (.error e, s') =>
    match caught e with
    | some code => (odataError U u.query env code, s')
    | none => (.error e, s')

/-- `ReadOnlyServer.HandleRequest` (server:985-995). -/
def readOnlyRequest (P : Provider S E C F) (U : T) (u : ODataURI) (env : Environ) (s : S) :
    Except Raise (Response E C F) × S :=
  if upper env.method ∈ ["GET".toList, "HEAD".toList] then handleRequest P U u env s
  else (odataError U u.query env 403, s)

/-! ## Versions -/

/-- The two numbers of a version (core:1563-1568, 1588-1593): another text is the built-in `SyntaxError`. -/
def versionNumbers (t : Str) : Except Raise (Nat × Nat) :=
  match Py.split '.' t with
  | [a, b] => if Http.isDigits a && Http.isDigits b then .ok (Py.digitsVal 10 a, Py.digitsVal 10 b) else .error .other
  | _ => .error .other

/-- `ParseDataServiceVersion` (core:1552-1576); the user agent is left out, reading it raises nothing. -/
def parseVersion (s : Str) : Except Raise (Nat × Nat) :=
  (ofHeader (Http.fromString true Http.requireToken s)).bind versionNumbers

/-- `ParseMaxDataServiceVersion` (core:1579-1599); the user agent is left out. -/
def parseMaxVersion (s : Str) : Except Raise (Nat × Nat) :=
  match Py.split ';' s with
  | [] => .error .other
  | v :: _ => (ofHeader (Http.fromString true Http.requireToken v)).bind versionNumbers

/-- `CheckCapabilityNegotiation` (server:953-982): the version of the answer. -/
def checkVersion (env : Environ) : Except Raise (Option Nat) :=
  (match env.version with
    | some v => parseVersion v
    | none => .ok (2, 0) : Except Raise (Nat × Nat)).bind fun version =>
  (match env.maxVersion with
    | some v => parseMaxVersion v
    | none => .ok version : Except Raise (Nat × Nat)).map fun most =>
  if version.1 > 2 ∨ (version.1 = 2 ∧ version.2 > 0) then none
  else if most.1 ≥ 2 then some 2
  else some 1

/-! ## The application -/

/-- What the application does: a response, a call of the server of the Atom publishing protocol that it extends, an
exception that is passed on to the web server, or no end. -/
inductive Reply (E C F : Type) where
  | response (r : Response E C F)
  | elsewhere
  | escapes
  | endless

/-- The status for an exception (server:227-241). -/
def outerStatus : Raise → Nat
  | .queryOption => 400
  | .pathOption => 400
  | .invalidMethod => 400
  | .valueError => 400
  | _ => 500

/-- The `except` clauses (server:227-241): an exception raised within one of them is passed on. -/
def concluded (U : T) (env : Environ) : Except Raise (Reply E C F) → Reply E C F
  | .ok r => r
  | .error .endless => .endless
  | .error e =>
    match odataError (E := E) (C := C) (F := F) U ⟨[], [], []⟩ env (outerStatus e) with
    | .ok r => .response r
    | .error .endless => .endless
    | .error _ => .escapes

/-- The address of a request (server:190-194). -/
def address (env : Environ) : Str :=
  env.scriptName.getD [] ++ env.pathInfo ++
    match env.query with
    | some q => '?' :: q
    | none => []

/-- `Server.__call__` (server:183-241) and that of `ReadOnlyServer`.  `pre` is the path of the service root without its
final slash. -/
def call (P : Provider S E C F) (U : T) (pre : Str) (readOnly : Bool) (env : Environ) (s : S) : Reply E C F × S :=
  match checkVersion env with
  | .error e => (concluded U env (.error e), s)
  | .ok none => (concluded U env ((odataError U ⟨[], [], []⟩ env 400).map .response), s)
  | .ok (some _) =>
    match odataURI U (address env) pre with
    | .error e => (concluded U env (.error (.ofUri e)), s)
    | .ok u =>
      match u.resourcePath with
      | none => (.elsewhere, s)
      | some [] =>
        (concluded U env ((negotiation U u.query env.accept redirectTypes).map fun m =>
          .response ⟨307, some (m.getD (plain "text" "plain")), .redirect⟩), s)
      | some _ =>
        let r := if readOnly then readOnlyRequest P U u env s else handleRequest P U u env s
        (concluded U env (r.1.map .response), r.2)

end Verif.OData.Server
