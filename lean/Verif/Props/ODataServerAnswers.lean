import Verif.Props.ODataServerSafe

/-! # The OData server: what is answered (C168–C174) -/

namespace Verif.Props

open Verif Verif.OData Verif.OData.Server Verif.Spec.OData

variable {S E C F : Type}

/-- What is left of a request once its resource is found. -/
theorem handle_found {P : Provider S E C F} {U : UriTables} {u : ODataURI} {env : Environ} {s s' : S} {r : Resource E C F}
    {p : Option E} (h : getResource P u s = (.ok (r, p), s')) :
    handleRequest P U u env s =
      match dispatch P U u env s' r p with
      | (.ok x, s'') => (.ok x, s'')
      | (.error e, s'') =>
        match caught e with
        | some code => (odataError U u.query env code, s'')
        | none => (.error e, s'') := by
  unfold handleRequest
  rw [h]
  rfl

/-- A path that leads to a resource whose options are allowed. -/
theorem found_of_leads {P : Provider S E C F} (hm : P.hasModel = true) {u : ODataURI} (hc : ¬ Calls P u.path.navPath) {s : S}
    {r : Resource E C F} {p : Option E} (h : Leads P s u.path.navPath (r, p))
    (ho : ∀ o v, Dict.get u.query.sys o = some v → ResourceAllows u.path.option r o)
    (hn : r = .nothing → p = none ∨ u.path.option = some .links) : getResource P u s = (.ok (r, p), s) := by
  have hne : u.path.navPath ≠ [] := by
    intro he
    rw [he] at h
    obtain ⟨_, _, _, h', _⟩ := leads_walk h u
    cases h'
  rcases path_leads_partial hm hne hc s with ⟨x, _, h1, _, h2⟩ | ⟨f, _, _, h1, _⟩
  · rw [h2, ← h1 _ h, (options_resource u r p).2.1 ho hn]
  · exact absurd ⟨_, h⟩ h1

/-! ## C168: counting -/

/-- **C168**: the count of a collection is the number of its entities, and that of an entity is 1, if the request has no options
and no `Accept` header. -/
theorem dollar_count_partial {P : Provider S E C F} (hm : P.hasModel = true) {u : ODataURI} (hc : ¬ Calls P u.path.navPath)
    (hr : ∀ s x m f, P.render s x m ≠ .error f) (hu : u.path.option = some .count) (hq : u.query.sys = []) (U : UriTables)
    {env : Environ} (ha : env.accept = none) (s : S) (p : Option E) :
    (∀ c, Leads P s u.path.navPath (.collection c, p) →
      ∃ m, handleRequest P U u env s = (.ok ⟨200, some m, .count (P.members s c).length⟩, s)) ∧
    (∀ e, Leads P s u.path.navPath (.entity e, p) →
      ∃ m, handleRequest P U u env s = (.ok ⟨200, some m, .count 1⟩, s)) := by
  have hneg : negotiation U u.query env.accept dereferenceTypes = .ok (some (typed "text" "plain" "charset" "utf-8")) := by
    unfold negotiation
    rw [hq, ha]
    rfl
  have hret : ∀ n, returns P U u env s 200 dereferenceTypes (.count n) =
      .ok ⟨200, some (typed "text" "plain" "charset" "utf-8"), .count n⟩ := by
    intro n
    unfold returns
    rw [hneg]
    show (P.render s _ _).map _ = _
    cases hx : P.render s (Shows.count n) (typed "text" "plain" "charset" "utf-8") with
    | error f => exact absurd hx (hr _ _ _ _)
    | ok _ => rfl
  have hno : ∀ r : Resource E C F, ∀ o v, Dict.get u.query.sys o = some v → ResourceAllows u.path.option r o := by
    intro r o v h
    rw [hq] at h
    cases h
  constructor
  · intro c hl
    refine ⟨typed "text" "plain" "charset" "utf-8", ?_⟩
    rw [handle_found (found_of_leads hm hc hl (hno _) (fun h => by cases h))]
    simp [dispatch, hu, hret]
  · intro e hl
    refine ⟨typed "text" "plain" "charset" "utf-8", ?_⟩
    rw [handle_found (found_of_leads hm hc hl (hno _) (fun h => by cases h))]
    simp [dispatch, hu, hret]

/-- The count that a reply shows. -/
def countOf : Reply E C F → Option Nat
  | .response ⟨_, _, .count n⟩ => some n
  | _ => none

/-- Counts of the demonstration. -/
theorem dollar_count_example :
    countOf (call demo uriTables [] false (demoEnv "GET" "/Customers/$count") 0).1 = some 2 ∧
    countOf (call demo uriTables [] false (demoEnv "GET" "/Customers(1)/$count") 0).1 = some 1 := by decide +kernel

/-- **C168 refuted.**  Filters and `$top` are accepted, and have no effect: there are two customers of which nothing is true, and
two among the first one. -/
theorem dollar_count_refuted :
    countOf (call demo uriTables [] false (demoEnv "GET" "/Customers/$count" (some "$filter=false")) 0).1 = some 2 ∧
    countOf (call demo uriTables [] false (demoEnv "GET" "/Customers/$count" (some "$top=1")) 0).1 = some 2 := by decide +kernel

/-! ## C169: methods -/

/-- The methods of links, and those of a resource. -/
def Supports (links : Bool) (r : Resource E C F) : List String :=
  if links then ["GET", "POST", "PUT", "DELETE"]
  else
    match r with
    | .collection _ => ["GET", "POST"]
    | .entity _ => ["GET", "PUT", "DELETE"]
    | .value _ _ => ["GET", "PUT", "DELETE"]
    | _ => ["GET"]

/-- **C169**: a request for a collection, an entity, a value or links with a method that these do not have raises `InvalidMethod`
and changes nothing. -/
theorem methods_partial {P : Provider S E C F} (U : UriTables) {u : ODataURI} {env : Environ} {s : S} {r : Resource E C F}
    {p : Option E} (h : getResource P u s = (.ok (r, p), s))
    (hr : (u.path.option ∈ [none, some .value] ∧ ((∃ c, r = .collection c) ∨ (∃ e, r = .entity e) ∨ ∃ path v, r = .value path v)) ∨
      (u.path.option = some .links ∧ p ≠ none))
    (hm : ∀ m ∈ Supports (u.path.option == some .links) r, upper env.method ≠ m.toList) :
    handleRequest P U u env s = (.error .invalidMethod, s) := by
  suffices hd : dispatch P U u env s r p = (.error .invalidMethod, s) by
    rw [handle_found h, hd]
    rfl
  rcases hr with ⟨ho, hr⟩ | ⟨ho, hp⟩
  · have hnl : (u.path.option == some PathOpt.links) = false := by
      simp only [List.mem_cons, List.not_mem_nil, or_false] at ho
      rcases ho with ho | ho <;> rw [ho] <;> rfl
    rw [hnl] at hm
    simp only [List.mem_cons, List.not_mem_nil, or_false] at ho
    rcases hr with ⟨c, rfl⟩ | ⟨e, rfl⟩ | ⟨path, v, rfl⟩
    · have h1 := hm "GET" (by simp [Supports])
      have h2 := hm "POST" (by simp [Supports])
      rcases ho with ho | ho <;> simp only [dispatch, ho, handleCollection, if_neg h1, if_neg h2]
    · have h1 := hm "GET" (by simp [Supports])
      have h2 := hm "PUT" (by simp [Supports])
      have h3 := hm "DELETE" (by simp [Supports])
      rcases ho with ho | ho <;> simp only [dispatch, ho, handleEntity, if_neg h1, if_neg h2, if_neg h3]
    · have h1 := hm "GET" (by simp [Supports])
      have h2 := hm "PUT" (by simp [Supports])
      have h3 := hm "DELETE" (by simp [Supports])
      rcases ho with ho | ho <;> simp only [dispatch, ho, handleValue, if_neg h1, if_neg h2, if_neg h3]
  · rw [ho] at hm
    have h0 := hm "GET" (by simp [Supports])
    have h1 := hm "POST" (by simp [Supports])
    have h2 := hm "PUT" (by simp [Supports])
    have h3 := hm "DELETE" (by simp [Supports])
    cases p with
    | none => exact absurd rfl hp
    | some e => simp only [dispatch, ho, handleLinks, if_neg h0, if_neg h1, if_neg h2, if_neg h3]

/-- What `demoRun` returns for methods that a resource lacks. -/
theorem methods_example :
    demoRun false (demoEnv "POST" "/Customers(1)") = (some 400, 0) ∧ demoRun false (demoEnv "DELETE" "/Customers") = (some 400, 0) ∧
    demoRun false (demoEnv "POST" "/Customers(1)/Name") = (some 400, 0) ∧
    demoRun false (demoEnv "HEAD" "/Customers(1)/$links/Friends") = (some 400, 0) := by decide +kernel

/-- **C169 refuted.**  The service document, the metadata and counts are returned whatever the method, so a request to delete them
is answered 200; and `HEAD`, which a read-only server lets through, is refused by every entity. -/
theorem methods_refuted :
    demoRun false (demoEnv "DELETE" "/") = (some 200, 0) ∧ demoRun false (demoEnv "DELETE" "/$metadata") = (some 200, 0) ∧
    demoRun false (demoEnv "PUT" "/Customers/$count") = (some 200, 0) ∧
    demoRun true (demoEnv "HEAD" "/Customers(1)") = (some 400, 0) := by decide +kernel

end Verif.Props
