import Verif.Props.ODataServerFaults

/-! # The OData server: nulls, representations and versions (C172–C174) -/

namespace Verif.Props

open Verif Verif.OData Verif.OData.Server Verif.Spec.OData

variable {S E C F : Type}

/-! ## C172: null values, and no entity -/

/-- The options of a request are allowed for a resource. -/
def Allowed (u : ODataURI) (r : Resource E C F) : Prop := ∀ o v, Dict.get u.query.sys o = some v → ResourceAllows u.path.option r o

/-- **C172**: the raw value of a null is not found, neither to read nor to replace; a null itself is shown; and to delete a value is
to set it to null, which is refused where nulls are not allowed. -/
theorem null_value {P : Provider S E C F} (hm : P.hasModel = true) {u : ODataURI} (hc : ¬ Calls P u.path.navPath) (U : UriTables)
    (env : Environ) (s : S) {path : List Str} {null : Bool} {n : Option Bool} {e : E}
    (hl : Leads P s u.path.navPath (.value path (.simple null n), some e)) (ho : Allowed u (.value path (.simple null n) : Resource E C F)) :
    (u.path.option = some .value → null = true → upper env.method = "GET".toList ∨ upper env.method = "PUT".toList →
      handleRequest P U u env s = (odataError U u.query env 404, s)) ∧
    (u.path.option = none → upper env.method = "GET".toList →
      (∀ m f, P.render s (.value (some e) (.simple null n)) m ≠ .error f) → env.accept = none → u.query.sys = [] →
      ∃ m, handleRequest P U u env s = (.ok ⟨200, some m, .value (some e) (.simple null n)⟩, s)) ∧
    (u.path.option = none → upper env.method = "DELETE".toList →
      (n = some false → handleRequest P U u env s = (.error .invalidMethod, s)) ∧
      (n ≠ some false → ∀ s', P.nullValue e path s = (.ok (), s') → handleRequest P U u env s = (.ok ⟨204, none, .empty⟩, s'))) := by
  have hg := found_of_leads hm hc hl ho (fun h => by cases h)
  refine ⟨fun hv hnull hmeth => ?_, fun hv hmeth hr ha hq => ?_, fun hv hmeth => ⟨fun hn => ?_, fun hn s' hs => ?_⟩⟩
  · subst hnull
    rw [handle_found hg]
    rcases hmeth with hmeth | hmeth
    · simp [dispatch, hv, handleValue, hmeth, Value.isNull, caught]
    · simp [dispatch, hv, handleValue, hmeth, Value.isNull, caught]
  · refine ⟨plain "application" "xml", ?_⟩
    have hneg : negotiation U u.query env.accept valueTypes = .ok (some (plain "application" "xml")) := by
      unfold negotiation
      rw [hq, ha]
      rfl
    have hret : returns P U u env s 200 valueTypes (.value (some e) (.simple null n)) =
        .ok ⟨200, some (plain "application" "xml"), .value (some e) (.simple null n)⟩ := by
      unfold returns
      rw [hneg]
      show (P.render s _ _).map _ = _
      cases hx : P.render s (.value (some e) (.simple null n)) (plain "application" "xml") with
      | error f => exact absurd hx (hr _ _)
      | ok _ => rfl
    rw [handle_found hg]
    simp [dispatch, hv, handleValue, hmeth, hret]
  · rw [handle_found hg]
    simp [dispatch, hv, handleValue, hmeth, Value.nullable, hn, caught]
  · rw [handle_found hg]
    simp [dispatch, hv, handleValue, hmeth, Value.nullable, hn, hs, emptied, Except.map, returnEmpty]

/-- **C172**: where a navigation property leads to no entity, nothing is found, nor is there a link to read or to delete; but a link
can be made. -/
theorem no_entity {P : Provider S E C F} (hm : P.hasModel = true) {u : ODataURI} (hc : ¬ Calls P u.path.navPath) (U : UriTables)
    (env : Environ) (s : S) {e : E} (hl : Leads P s u.path.navPath (.nothing, some e)) :
    (u.path.option ≠ some .links → handleRequest P U u env s = (odataError U u.query env 404, s)) ∧
    (u.path.option = some .links → upper env.method = "GET".toList ∨ upper env.method = "DELETE".toList →
      handleRequest P U u env s = (odataError U u.query env 404, s)) ∧
    (u.path.option = some .links → upper env.method = "POST".toList → ∀ q c s', u.path.linksProperty = some q →
      P.property s e q = some (.one c) → P.link c env s = (.ok (), s') → handleRequest P U u env s = (.ok ⟨204, none, .empty⟩, s')) := by
  have hall : ∀ o v, Dict.get u.query.sys o = some v → ResourceAllows u.path.option (.nothing : Resource E C F) o := fun _ _ _ => trivial
  refine ⟨fun h => ?_, fun h hmeth => ?_, fun h hmeth q c s' h1 h2 h3 => ?_⟩
  · have hne : u.path.navPath ≠ [] := by
      intro he
      rw [he] at hl
      obtain ⟨_, _, _, h', _⟩ := leads_walk hl u
      cases h'
    rcases path_leads_partial hm hne hc s with ⟨x, _, h1, _, h2⟩ | ⟨f, _, _, h1, _⟩
    · rw [← h1 _ hl, (options_resource u _ _).2.2 rfl (by simp) h] at h2
      unfold handleRequest
      rw [h2]
      rfl
    · exact absurd ⟨_, hl⟩ h1
  · rw [handle_found (found_of_leads hm hc hl hall fun _ => .inr h)]
    rcases hmeth with hmeth | hmeth
    · simp [dispatch, h, handleLinks, hmeth, caught]
    · simp [dispatch, h, handleLinks, hmeth, caught]
  · rw [handle_found (found_of_leads hm hc hl hall fun _ => .inr h)]
    simp [dispatch, h, handleLinks, hmeth, h1, h2, h3, emptied, Except.map, returnEmpty]

/-- Requests of the demonstration for nulls, and for no entity. -/
theorem null_example :
    demoRun false (demoEnv "GET" "/Customers(1)/Nick/$value") = (some 404, 0) ∧ demoRun false (demoEnv "GET" "/Customers(1)/Nick") = (some 200, 0) ∧
    demoRun false (demoEnv "DELETE" "/Customers(1)/Nick") = (some 204, 1) ∧ demoRun false (demoEnv "DELETE" "/Customers(1)/Name") = (some 400, 0) ∧
    demoRun false (demoEnv "GET" "/Customers(1)/Partner") = (some 404, 0) ∧ demoRun false (demoEnv "GET" "/Customers(1)/$links/Partner") = (some 404, 0) ∧
    demoRun false (demoEnv "POST" "/Customers(1)/$links/Partner") = (some 204, 1) := by
  refine ⟨?_, ?_, ?_, ?_, ?_, ?_, ?_⟩ <;> decide +kernel

/-! ## C173: representations -/

/-- The media types in which a resource can be shown, and what is shown. -/
inductive Offer (P : Provider S E C F) (s : S) (u : ODataURI) : Resource E C F × Option E → List Http.MediaType → Shows E C F → Prop
  | service {p : Option E} : u.path.option = none → Offer P s u (.service, p) serviceRootTypes .service
  | metadata {r : Resource E C F} {p : Option E} : u.path.option = some .metadata → P.hasModel = true → Offer P s u (r, p) metadataTypes .metadata
  | collectionCount {c : C} {p : Option E} : u.path.option = some .count →
    Offer P s u (.collection c, p) dereferenceTypes (.count (P.members s c).length)
  | entityCount {e : E} {p : Option E} : u.path.option = some .count → Offer P s u (.entity e, p) dereferenceTypes (.count 1)
  | links {c : C} {p : E} : u.path.option = some .links → Offer P s u (.collection c, some p) valueTypes (.links c (linkView u))
  | link {e p : E} : u.path.option = some .links → Offer P s u (.entity e, some p) valueTypes (.link e)
  | entity {e : E} {p : Option E} : u.path.option = none →
    Offer P s u (.entity e, p) entryTypes (.entity e (opt u .expand) (opt u .select))
  | stream {e : E} {p : Option E} {m : Http.MediaType} : u.path.option = some .value → P.hasStream e = true → P.streamType s e = .ok m →
    Offer P s u (.entity e, p) (m :: streamTypes) (.stream e)
  | collection {c : C} {p : Option E} : u.path.option = none → Offer P s u (.collection c, p) feedTypes (.collection c (view u))
  | value {path : List Str} {v : Value} {p : Option E} : u.path.option = none → Offer P s u (.value path v, p) valueTypes (.value p v)
  | text {path : List Str} {v : Value} {p : Option E} : u.path.option = some .value → v.isNull = false → P.mType v = none →
    P.binary v = false → Offer P s u (.value path v, p) dereferenceTypes (.raw p v)
  | bytes {path : List Str} {v : Value} {p : Option E} : u.path.option = some .value → v.isNull = false → P.mType v = none →
    P.binary v = true → Offer P s u (.value path v, p) streamTypes (.raw p v)
  | media {path : List Str} {v : Value} {p : Option E} {m : Http.MediaType} : u.path.option = some .value → v.isNull = false →
    P.mType v = some m → Offer P s u (.value path v, p) [m] (.raw p v)
  | functions {f : F} {p : Option E} : u.path.option = none → Offer P s u (.functions f, p) valueTypes (.functions f)

/-- The ranges that are used if a request asks for none. -/
def defaultItems : List Http.AcceptItem := [
  ⟨plain "application" "atom+xml", 1000, []⟩, ⟨plain "application" "xml", 900, []⟩, ⟨plain "text" "xml", 800, []⟩,
  ⟨plain "text" "plain", 700, []⟩, ⟨plain "*" "*", 600, []⟩]

/-- The ranges that decide: those of `$format`, otherwise those of the `Accept` header, otherwise the default. -/
def InEffect (U : UriTables) (u : ODataURI) (env : Environ) (items : List Http.AcceptItem) : Prop :=
  match Dict.get u.query.sys .format with
  | some (.format l) => l = Http.acceptList items
  | _ =>
    match env.accept with
    | none => items = defaultItems
    | some a => Http.acceptFromString U.quality a = some (.ok (Http.acceptList items)) ∨
      (Http.acceptFromString U.quality a = some (.error .syntaxError) ∧ items = defaultItems)

theorem negotiation_inEffect {U : UriTables} {u : ODataURI} {env : Environ} {items : List Http.AcceptItem} (h : InEffect U u env items)
    (types : List Http.MediaType) : negotiation U u.query env.accept types = .ok (Http.selectType (Http.acceptList items) types) := by
  unfold InEffect at h
  unfold negotiation
  split at h
  · next l hl =>
    rw [hl, h]
  · next hno =>
    have hneg : ofHeader (Http.negotiate U.quality defaultAccept env.accept types) = .ok (Http.selectType (Http.acceptList items) types) := by
      unfold Http.negotiate
      split at h
      · next ha => rw [ha, h]; rfl
      · next a ha =>
        rw [ha]
        dsimp only
        rcases h with h | ⟨h, h'⟩
        · rw [h]; rfl
        · rw [h, h']; rfl
    split
    · next l hl => exact absurd hl (hno l)
    · exact hneg

theorem offer_dispatch {P : Provider S E C F} {u : ODataURI} {env : Environ} {s : S} {r : Resource E C F} {p : Option E}
    {types : List Http.MediaType} {x : Shows E C F} (ho : Offer P s u (r, p) types x) (U : UriTables)
    (hg : upper env.method = "GET".toList) (hexp : P.expand s x = .ok ()) :
    dispatch P U u env s r p = (returns P U u env s 200 types x, s) := by
  have he : expandResource P u s x = .ok () := by
    unfold expandResource
    split
    · rfl
    · rw [hexp]
  cases ho with
  | service h => simp [dispatch, h]
  | metadata h h' => simp [dispatch, h, h']
  | collectionCount h => simp [dispatch, h]
  | entityCount h => simp [dispatch, h]
  | links h => simp [dispatch, h, handleLinks, hg]
  | link h => simp [dispatch, h, handleLinks, hg]
  | entity h => simp [dispatch, h, handleEntity, hg, he, Except.bind]
  | stream h h' h'' => simp [dispatch, h, handleEntity, hg, h', h'', Except.bind]
  | collection h => simp [dispatch, h, handleCollection, hg, he, Except.bind]
  | value h => simp [dispatch, h, handleValue, hg]
  | text h h1 h2 h3 => simp [dispatch, h, handleValue, hg, h1, rawTypes, h2, h3]
  | bytes h h1 h2 h3 => simp [dispatch, h, handleValue, hg, h1, rawTypes, h2, h3]
  | media h h1 h2 => simp [dispatch, h, handleValue, hg, h1, rawTypes, h2]
  | functions h => simp [dispatch, h]

/-- **C173**: a resource is shown in the first of the best of the media types it is offered in, by the ranges that decide; if none is
acceptable the answer is 406 and shows nothing of the resource. -/
theorem get_type_partial {P : Provider S E C F} {U : UriTables} {u : ODataURI} {env : Environ} {s : S} {r : Resource E C F} {p : Option E}
    {types : List Http.MediaType} {x : Shows E C F} (hf : getResource P u s = (.ok (r, p), s)) (ho : Offer P s u (r, p) types x)
    (hg : upper env.method = "GET".toList) (hexp : P.expand s x = .ok ()) (hr : ∀ m, P.render s x m = .ok ())
    {items : List Http.AcceptItem} (hi : InEffect U u env items) (hok : ∀ i ∈ items, RangeOk i.range)
    {quality : Http.MediaType → Nat} (hq : ∀ m ∈ types, IsQuality items m (quality m)) :
    ∃ best, IsBest quality types best ∧
      match best with
      | some m => handleRequest P U u env s = (.ok ⟨200, some m, x⟩, s)
      | none => ∃ m, handleRequest P U u env s = (.ok ⟨406, some m, .error⟩, s) := by
  refine ⟨_, (select_partial items hok).2 types quality hq, ?_⟩
  have hneg := negotiation_inEffect hi types
  have herr := negotiation_inEffect hi errorTypes
  rw [handle_found hf, offer_dispatch ho U hg hexp]
  cases hs : Http.selectType (Http.acceptList items) types with
  | none =>
    dsimp only
    rw [hs] at hneg
    have : ∃ m, returns P U u env s 200 types x = .ok ⟨406, some m, .error⟩ := by
      unfold returns odataError
      rw [hneg, herr]
      exact ⟨_, rfl⟩
    obtain ⟨m, hm⟩ := this
    rw [hm]
    exact ⟨m, rfl⟩
  | some m =>
    dsimp only
    rw [hs] at hneg
    have : returns P U u env s 200 types x = .ok ⟨200, some m, x⟩ := by
      unfold returns
      rw [hneg]
      show (P.render s x m).map _ = _
      rw [hr]
      rfl
    rw [this]

theorem default_ranges : ∀ i ∈ defaultItems, RangeOk i.range := by
  intro i hi
  simp only [defaultItems, List.mem_cons, List.not_mem_nil, or_false] at hi
  rcases hi with rfl | rfl | rfl | rfl | rfl <;> exact ⟨by decide, by decide⟩

/-- **C173**: a request that asks for no media type is answered with 200. -/
theorem default_type {P : Provider S E C F} {U : UriTables} {u : ODataURI} {env : Environ} {s : S} {r : Resource E C F} {p : Option E}
    {types : List Http.MediaType} {x : Shows E C F} (hf : getResource P u s = (.ok (r, p), s)) (ho : Offer P s u (r, p) types x)
    (hg : upper env.method = "GET".toList) (hexp : P.expand s x = .ok ()) (hr : ∀ m, P.render s x m = .ok ())
    (ha : env.accept = none) (hn : Dict.get u.query.sys .format = none) :
    ∃ m ∈ types, handleRequest P U u env s = (.ok ⟨200, some m, x⟩, s) := by
  have hi : InEffect U u env defaultItems := by
    unfold InEffect
    rw [hn, ha]
  have hq : ∀ m ∈ types, IsQuality defaultItems m (firstQuality (Http.acceptList defaultItems) m) := fun m _ =>
    firstQuality_is default_ranges m
  obtain ⟨best, hb, h⟩ := get_type_partial hf ho hg hexp hr hi default_ranges hq
  cases best with
  | some m =>
    obtain ⟨l1, l2, hl, _⟩ := hb
    exact ⟨m, by rw [hl]; simp, h⟩
  | none =>
    exfalso
    have hne : types ≠ [] := by cases ho <;> simp [serviceRootTypes, metadataTypes, dereferenceTypes, valueTypes, entryTypes, feedTypes, streamTypes]
    obtain ⟨m, ts, rfl⟩ : ∃ m ts, types = m :: ts := by
      cases types with
      | nil => exact absurd rfl hne
      | cons m ts => exact ⟨m, ts, rfl⟩
    have h0 := hb m (by simp)
    have := hq m (by simp)
    rw [h0] at this
    rcases this with ⟨i, hd, hz⟩ | ⟨h', _⟩
    · have := hd.1
      simp only [defaultItems, List.mem_cons, List.not_mem_nil, or_false] at this
      rcases this with rfl | rfl | rfl | rfl | rfl <;> cases hz
    · refine h' ⟨plain "*" "*", 600, []⟩ (by simp [defaultItems]) ⟨.inl rfl, .inl rfl, ?_⟩
      intro p hp
      cases hp

/-- **C173**: with a `$format` option the `Accept` header does not matter. -/
theorem format_first {P : Provider S E C F} {U : UriTables} {u : ODataURI} {env : Environ} {s : S} {r : Resource E C F} {p : Option E}
    {types : List Http.MediaType} {x : Shows E C F} (hf : getResource P u s = (.ok (r, p), s)) (ho : Offer P s u (r, p) types x)
    (hg : upper env.method = "GET".toList) (hexp : P.expand s x = .ok ()) {l : List Http.AcceptItem}
    (hl : Dict.get u.query.sys .format = some (.format l)) (a : Option Str) :
    handleRequest P U u { env with accept := a } s = handleRequest P U u env s := by
  have hret : returns P U u { env with accept := a } s 200 types x = returns P U u env s 200 types x := by
    unfold returns odataError negotiation
    rw [hl]
  have herr : ∀ code, odataError (E := E) (C := C) (F := F) U u.query { env with accept := a } code = odataError U u.query env code := by
    intro code
    unfold odataError negotiation
    rw [hl]
  rw [handle_found hf, handle_found hf, offer_dispatch ho U hg hexp, offer_dispatch (env := { env with accept := a }) ho U hg hexp, hret]
  simp only [herr]

/-- The media types of the demonstration. -/
def typeOf : Reply E C F → Option Str
  | .response ⟨_, some m, _⟩ => some (m.type ++ '/' :: m.subtype)
  | _ => none

/-- Entities by default, by `Accept`, by `$format`, by both; and a type that is not offered. -/
theorem type_example :
    typeOf (call demo uriTables [] false (demoEnv "GET" "/Customers(1)") 0).1 = some "application/atom+xml".toList ∧
    typeOf (call demo uriTables [] false (demoEnv "GET" "/Customers(1)" none (some "application/json, text/plain;q=0.5")) 0).1 =
      some "application/json".toList ∧
    typeOf (call demo uriTables [] false (demoEnv "GET" "/Customers(1)" (some "$format=json") (some "text/plain")) 0).1 =
      some "application/json".toList ∧
    demoRun false (demoEnv "GET" "/Customers(1)" none (some "image/png")) = (some 406, 0) := by
  refine ⟨?_, ?_, ?_, ?_⟩ <;> decide +kernel

/-! ## C174: versions -/

/-- The text of a version: two numbers with a point between. -/
def IsVersion (t : Str) (major minor : Nat) : Prop :=
  ∃ a b, t = a ++ '.' :: b ∧ Http.isDigits a = true ∧ Http.isDigits b = true ∧ Py.digitsVal 10 a = major ∧ Py.digitsVal 10 b = minor

/-- A version header: a version, and after a semicolon the name of a program, if it is given. -/
def VersionHeader (t : Str) (major minor : Nat) : Prop :=
  IsVersion t major minor ∨ ∃ v agent, t = v ++ ';' :: agent ∧ IsVersion v major minor ∧ (agent = [] ∨ Http.Token agent)

theorem digit_plain {c : Char} (h : Py.isDigit c = true) : Http.isTok c = true ∧ c ≠ '.' ∧ c ≠ ';' := by
  have key : ∀ n : Nat, n < 58 → 48 ≤ n → Http.isTok (Char.ofNat n) = true ∧ Char.ofNat n ≠ '.' ∧ Char.ofNat n ≠ ';' := by decide
  simp only [Py.isDigit, Bool.and_eq_true, decide_eq_true_eq] at h
  have := key c.toNat (by omega) h.1
  rwa [Char.ofNat_toNat] at this

theorem version_token {t : Str} {a b : Nat} (h : IsVersion t a b) : Http.Token t ∧ ';' ∉ t ∧ versionNumbers t = .ok (a, b) := by
  obtain ⟨x, y, rfl, hx, hy, rfl, rfl⟩ := h
  have hx' := hx
  have hy' := hy
  simp only [Http.isDigits, Bool.and_eq_true, List.all_eq_true] at hx hy
  refine ⟨⟨by simp, ?_⟩, ?_, ?_⟩
  · simp only [List.all_append, List.all_cons, Bool.and_eq_true, List.all_eq_true]
    exact ⟨fun c hc => (digit_plain (hx.2 c hc)).1, by decide, fun c hc => (digit_plain (hy.2 c hc)).1⟩
  · simp only [List.mem_append, List.mem_cons, not_or]
    exact ⟨fun hc => (digit_plain (hx.2 _ hc)).2.2 rfl, by decide, fun hc => (digit_plain (hy.2 _ hc)).2.2 rfl⟩
  · have hs : Py.split '.' (x ++ '.' :: y) = [x, y] :=
      split_join_parts (sep := '.') (ps := [x, y]) (by simp) (by
        intro p hp
        simp only [List.mem_cons, List.not_mem_nil, or_false] at hp
        rcases hp with rfl | rfl
        · exact fun hc => (digit_plain (hx.2 _ hc)).2.1 rfl
        · exact fun hc => (digit_plain (hy.2 _ hc)).2.1 rfl)
    unfold versionNumbers
    rw [hs]
    simp [hx', hy']

theorem token_words {t : Str} (h : Http.Token t) : Http.words true t = some (.ok [some t]) := by
  have := Http.words_token (ign := true) (t := t) (rest := []) (ws := []) h (by intro c u h; cases h) (by rfl)
  rwa [List.append_nil] at this

theorem require_ok {t : Str} {s : Str} {ws : Http.Words} (h : Http.Token t) (hw : Http.words true s = some (.ok (some t :: ws))) :
    Http.fromString true Http.requireToken s = some (.ok t) := by
  have hi := Http.isToken_token h ws
  unfold Http.fromString
  rw [hw]
  simp only [Option.map, Except.bind]
  unfold Http.requireToken
  rw [hi]
  rfl

theorem parse_version {t : Str} {a b : Nat} (h : VersionHeader t a b) : parseVersion t = .ok (a, b) ∧ parseMaxVersion t = .ok (a, b) := by
  rcases h with h | ⟨v, agent, rfl, h, hagent⟩
  · obtain ⟨h1, h2, h3⟩ := version_token h
    have hreq := require_ok h1 (token_words h1)
    refine ⟨?_, ?_⟩
    · unfold parseVersion
      rw [hreq]
      exact h3
    · unfold parseMaxVersion
      rw [CP.split_of_not_mem _ _ h2]
      dsimp only
      rw [hreq]
      exact h3
  · obtain ⟨h1, h2, h3⟩ := version_token h
    have hrest : ∃ ws, Http.words true agent = some (.ok ws) := by
      rcases hagent with rfl | ha
      · exact ⟨[], rfl⟩
      · exact ⟨_, token_words ha⟩
    obtain ⟨ws, hws⟩ := hrest
    refine ⟨?_, ?_⟩
    · unfold parseVersion
      have := Http.words_token (ign := true) (t := v) (rest := ';' :: agent) h1 (by intro c u h; cases h; decide)
        (Http.words_sep (by decide) (by decide) (by decide) (by decide) hws)
      rw [require_ok h1 this]
      exact h3
    · unfold parseMaxVersion
      rw [CP.split_append, CP.split_of_not_mem _ _ h2]
      dsimp only [List.singleton_append]
      rw [require_ok h1 (token_words h1)]
      exact h3

/-- A version header has a value, or is missing. -/
def Says (header : Option Str) (default version : Nat × Nat) : Prop :=
  match header with
  | none => version = default
  | some t => VersionHeader t version.1 version.2

/-- **C174**: a request of a version later than 2.0 is refused, with 400 and without any change; otherwise the version of the answer
is 2 if the greatest version that the client understands is 2 or more, and 1 if not.  The version is 2.0 if it is not given, and
the greatest version is the version if it is not given. -/
theorem service_version_partial (env : Environ) {v most : Nat × Nat} (hv : Says env.version (2, 0) v) (hm : Says env.maxVersion v most) :
    (v.1 > 2 ∨ (v.1 = 2 ∧ v.2 > 0) → checkVersion env = .ok none ∧
      ∀ (P : Provider S E C F) (U : UriTables) (pre : Str) (ro : Bool) (s : S), Readable U env.accept →
        statusOf (call P U pre ro env s).1 = some 400 ∧ (call P U pre ro env s).2 = s) ∧
    (¬ (v.1 > 2 ∨ (v.1 = 2 ∧ v.2 > 0)) → checkVersion env = .ok (some (if 2 ≤ most.1 then 2 else 1))) := by
  have hcv : checkVersion env = .ok (if v.1 > 2 ∨ (v.1 = 2 ∧ v.2 > 0) then none else if 2 ≤ most.1 then some 2 else some 1) := by
    unfold checkVersion
    unfold Says at hv hm
    cases h1 : env.version with
    | none =>
      rw [h1] at hv
      cases hv
      cases h2 : env.maxVersion with
      | none => rw [h2] at hm; cases hm; rfl
      | some t =>
        rw [h2] at hm
        dsimp only [Except.bind]
        rw [(parse_version hm).2]
        rfl
    | some t1 =>
      rw [h1] at hv
      dsimp only
      rw [(parse_version hv).1]
      cases h2 : env.maxVersion with
      | none => rw [h2] at hm; cases hm; rfl
      | some t =>
        rw [h2] at hm
        dsimp only [Except.bind]
        rw [(parse_version hm).2]
        rfl
  constructor
  · intro h
    rw [if_pos h] at hcv
    refine ⟨hcv, fun P U pre ro s hn => ?_⟩
    obtain ⟨r, h1, h2⟩ := odataError_ok (E := E) (C := C) (F := F) hn ⟨[], [], []⟩ 400
    unfold call
    rw [hcv]
    dsimp only
    rw [h1]
    exact ⟨congrArg some h2, rfl⟩
  · intro h
    rw [if_neg h] at hcv
    rw [hcv]
    split <;> rfl

/-- Versions of the demonstration: later, 2.0 with a name, and 1.0. -/
theorem service_version_example :
    VersionHeader "2.0;agent".toList 2 0 ∧ VersionHeader "2.1".toList 2 1 ∧
    demoRun false (demoEnv "DELETE" "/Customers(1)" none none none (some "2.1")) = (some 400, 0) ∧
    demoRun false (demoEnv "DELETE" "/Customers(1)" none none none (some "2.0;agent")) = (some 204, 1) ∧
    checkVersion (demoEnv "GET" "/" none none none (some "1.0")) = .ok (some 1) := by
  refine ⟨.inr ⟨"2.0".toList, "agent".toList, rfl, ⟨['2'], ['0'], rfl, rfl, rfl, rfl, rfl⟩, .inr ⟨by decide, by decide⟩⟩,
    .inl ⟨['2'], ['1'], rfl, rfl, rfl, rfl, rfl⟩, by decide +kernel, by decide +kernel, by decide +kernel⟩

/-- **C174 refuted.**  The name of a program is limited by what the reader of other headers can read: with an open comment in it a
request of version 2.0 fails; and a version that is no version is reported as an error of the server. -/
theorem service_version_refuted :
    demoRun false (demoEnv "GET" "/Customers(1)" none none none (some "2.0;me (")) = (some 400, 0) ∧
    demoRun false (demoEnv "GET" "/Customers(1)" none none none (some "2")) = (some 500, 0) := by
  refine ⟨?_, ?_⟩ <;> decide +kernel

end Verif.Props
