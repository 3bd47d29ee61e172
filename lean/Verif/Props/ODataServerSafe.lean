import Verif.Props.ODataServer

/-! # The OData server: which requests change the store (C166, C167) -/

namespace Verif.Props

open Verif Verif.OData Verif.OData.Server Verif.Spec.OData

variable {S E C F : Type}

/-- The path of a request does not begin with the name of a function. -/
def NoFunction (P : Provider S E C F) (U : UriTables) (pre : Str) (env : Environ) : Prop :=
  ∀ u, odataURI U (address env) pre = .ok u → ¬ Calls P u.path.navPath

theorem first_state {P : Provider S E C F} {u : ODataURI} {seg : Str × Keys} {s : S}
    (h : ¬ ∃ run, P.search seg.1 = some (.function run)) : (firstSegment P u seg s).2 = s := by
  unfold firstSegment
  dsimp only
  split
  · rfl
  · rfl
  · rfl
  · next run hr => exact absurd ⟨run, hr⟩ h

theorem resource_state {P : Provider S E C F} {u : ODataURI} {s : S} (h : ¬ Calls P u.path.navPath) :
    (getResource P u s).2 = s := by
  unfold getResource
  split
  · rfl
  · next seg segs hn =>
    rw [hn] at h
    have hf := first_state (P := P) (u := u) (seg := seg) (s := s) h
    split
    · rfl
    · split
      · next he => rw [he] at hf; exact hf
      · next he => rw [he] at hf; exact hf

/-- The store after a request is that after the dispatch. -/
theorem handle_state (P : Provider S E C F) (U : UriTables) (u : ODataURI) (env : Environ) (s : S) :
    (handleRequest P U u env s).2 = (getResource P u s).2 ∨
    ∃ r p, getResource P u s = (.ok (r, p), (getResource P u s).2) ∧
      (handleRequest P U u env s).2 = (dispatch P U u env (getResource P u s).2 r p).2 := by
  unfold handleRequest
  rcases hg : getResource P u s with ⟨x, s'⟩
  cases x with
  | error e =>
    left
    dsimp only
    split
    · rfl
    · rfl
  | ok x =>
    obtain ⟨r, p⟩ := x
    right
    refine ⟨r, p, rfl, ?_⟩
    dsimp only
    rcases hd : dispatch P U u env s' r p with ⟨y, s''⟩
    cases y with
    | ok _ => rfl
    | error e =>
      dsimp only
      split
      · rfl
      · rfl

theorem dispatch_safe (P : Provider S E C F) (U : UriTables) (u : ODataURI) (env : Environ) (s : S) (r : Resource E C F)
    (p : Option E) (h : upper env.method = "GET".toList ∨ upper env.method = "HEAD".toList) :
    (dispatch P U u env s r p).2 = s := by
  have hne : ∀ m ∈ ["POST".toList, "PUT".toList, "DELETE".toList], upper env.method ≠ m := by
    intro m hm he
    rw [he] at h
    simp only [List.mem_cons, List.not_mem_nil, or_false] at hm
    rcases hm with rfl | rfl | rfl <;> revert h <;> decide
  have h1 := hne "POST".toList (by simp)
  have h2 := hne "PUT".toList (by simp)
  have h3 := hne "DELETE".toList (by simp)
  have hlinks : (handleLinks P U u env s r p).2 = s := by
    unfold handleLinks
    cases p with
    | none => rfl
    | some e =>
      dsimp only
      by_cases hg : upper env.method = "GET".toList
      · rw [if_pos hg]
        split <;> rfl
      · rw [if_neg hg, if_neg h1, if_neg h2, if_neg h3]
  have hentity : ∀ e, (handleEntity P U u env s e).2 = s := by
    intro e
    unfold handleEntity
    by_cases hg : upper env.method = "GET".toList
    · rw [if_pos hg]
      split
      · split <;> rfl
      · rfl
    · rw [if_neg hg, if_neg h2, if_neg h3]
  have hcoll : ∀ c, (handleCollection P U u env s c).2 = s := by
    intro c
    unfold handleCollection
    by_cases hg : upper env.method = "GET".toList
    · rw [if_pos hg]
    · rw [if_neg hg, if_neg h1]
  have hvalue : ∀ path v, (handleValue P U u env s p path v).2 = s := by
    intro path v
    unfold handleValue
    by_cases hg : upper env.method = "GET".toList
    · rw [if_pos hg]
      split
      · split <;> rfl
      · rfl
    · rw [if_neg hg, if_neg h2, if_neg h3]
  unfold dispatch
  split
  · rfl
  · rfl
  · split <;> rfl
  · exact hlinks
  · split
    · exact hentity _
    · exact hcoll _
    · exact hvalue _ _
    · rfl
    · rfl

/-! ## C166: reading changes nothing -/

/-- The store after a request that is not answered before it comes to the resource. -/
theorem call_state (P : Provider S E C F) (U : UriTables) (pre : Str) (ro : Bool) (env : Environ) (s : S) :
    (call P U pre ro env s).2 = s ∨
    ∃ u, odataURI U (address env) pre = .ok u ∧
      call P U pre ro env s = (concluded U env ((if ro then readOnlyRequest P U u env s else handleRequest P U u env s).1.map .response),
        (if ro then readOnlyRequest P U u env s else handleRequest P U u env s).2) := by
  unfold call
  cases checkVersion env with
  | error e => exact .inl rfl
  | ok v =>
    cases v with
    | none => exact .inl rfl
    | some n =>
      dsimp only
      cases hu : odataURI U (address env) pre with
      | error e => exact .inl rfl
      | ok u =>
        dsimp only
        cases hp : u.resourcePath with
        | none => exact .inl rfl
        | some path =>
          cases path with
          | nil => exact .inl rfl
          | cons c cs => exact .inr ⟨u, rfl, rfl⟩

/-- **C166**: a request with the method `GET` or `HEAD` leaves the store as it was, whatever else it contains, if its path does
not begin with the name of a function. -/
theorem get_safe_partial (P : Provider S E C F) (U : UriTables) (pre : Str) (ro : Bool) (env : Environ) (s : S)
    (hm : upper env.method = "GET".toList ∨ upper env.method = "HEAD".toList) (hf : NoFunction P U pre env) :
    (call P U pre ro env s).2 = s := by
  have key : ∀ u, odataURI U (address env) pre = .ok u → (handleRequest P U u env s).2 = s := by
    intro u hu
    have hg := resource_state (s := s) (hf u hu)
    rcases handle_state P U u env s with h | ⟨r, p, _, h⟩
    · exact h.trans hg
    · rw [h, hg]
      exact dispatch_safe P U u env s r p hm
  rcases call_state P U pre ro env s with h | ⟨u, hu, h⟩
  · exact h
  · rw [h]
    cases ro with
    | false => exact key u hu
    | true =>
      simp only [if_true]
      unfold readOnlyRequest
      split
      · exact key u hu
      · rfl

/-- **C166**: a server for reading only leaves the store as it was, whatever the request, if its path does not begin with the
name of a function; and a request with a method other than `GET` and `HEAD` that it answers itself is forbidden. -/
theorem read_only_partial (P : Provider S E C F) (U : UriTables) (pre : Str) (env : Environ) (s : S) :
    (NoFunction P U pre env → (call P U pre true env s).2 = s) ∧
    (upper env.method ≠ "GET".toList → upper env.method ≠ "HEAD".toList →
      (call P U pre true env s).2 = s ∧
      ∀ u, readOnlyRequest P U u env s = (odataError U u.query env 403, s)) := by
  have hro : upper env.method ≠ "GET".toList → upper env.method ≠ "HEAD".toList →
      ∀ u, readOnlyRequest P U u env s = (odataError U u.query env 403, s) := by
    intro h1 h2 u
    unfold readOnlyRequest
    rw [if_neg]
    simp only [List.mem_cons, List.not_mem_nil, or_false]
    rintro (h | h)
    · exact h1 h
    · exact h2 h
  have hcall : upper env.method ≠ "GET".toList → upper env.method ≠ "HEAD".toList → (call P U pre true env s).2 = s := by
    intro h1 h2
    rcases call_state P U pre true env s with h | ⟨u, hu, h⟩
    · exact h
    · rw [h]
      simp only [if_true]
      rw [hro h1 h2 u]
  refine ⟨fun hf => ?_, fun h1 h2 => ⟨hcall h1 h2, hro h1 h2⟩⟩
  by_cases h1 : upper env.method = "GET".toList
  · exact get_safe_partial P U pre true env s (.inl h1) hf
  · by_cases h2 : upper env.method = "HEAD".toList
    · exact get_safe_partial P U pre true env s (.inr h2) hf
    · exact hcall h1 h2

/-- A request of the demonstration. -/
def demoEnv (method path : String) (query : Option String := none) (accept : Option String := none)
    (contentType : Option String := none) (version : Option String := none) : Environ :=
  ⟨method.toList, none, path.toList, query.map String.toList, version.map String.toList, none, accept.map String.toList,
    contentType.map String.toList, none, []⟩

/-- The statuses of the replies of the demonstration, and the numbers of changes. -/
def demoRun (ro : Bool) (env : Environ) : Option Nat × Nat :=
  let x := call demo uriTables [] ro env 0
  (statusOf x.1, x.2)

/-- The hypotheses are met by a request that succeeds; and other methods do change the store. -/
theorem safe_example :
    demoRun false (demoEnv "GET" "/Customers(1)/Friends") = (some 200, 0) ∧
    demoRun true (demoEnv "get" "/Customers(1)/Name/$value") = (some 200, 0) ∧
    demoRun false (demoEnv "DELETE" "/Customers(1)") = (some 204, 1) ∧
    demoRun true (demoEnv "DELETE" "/Customers(1)") = (some 403, 0) := by decide +kernel

/-- **C166 refuted.**  A function is executed whatever the method, so that `GET` can change the store, also with a server for
reading only. -/
theorem safe_refuted :
    demoRun false (demoEnv "GET" "/Touch") = (some 200, 1) ∧ demoRun true (demoEnv "GET" "/Touch") = (some 200, 1) := by
  decide +kernel

/-! ## C167: what is refused changes nothing -/

/-- A reply that tells of an error, or none. -/
def Refused : Reply E C F → Prop
  | .response r => 400 ≤ r.status
  | .elsewhere => False
  | .escapes => True
  | .endless => True

/-- The store is as it was, or there is an answer that tells of success. -/
def Fine (s : S) (x : Except Raise (Response E C F) × S) : Prop := x.2 = s ∨ ∃ r, x.1 = .ok r ∧ r.status < 400

theorem fine_same {s : S} (r : Except Raise (Response E C F)) : Fine s (r, s) := .inl rfl

theorem fine_empty {op : S → Except Raise Unit × S} (h : Atomic op) (s : S) :
    Fine s (emptied (op s) : Except Raise (Response E C F) × S) := by
  unfold emptied
  rcases hx : op s with ⟨r, s'⟩
  cases r with
  | error e => exact .inl (h s e s' hx)
  | ok _ => exact .inr ⟨returnEmpty, rfl, show 204 < 400 by omega⟩

/-- Without an `Accept` header and `$format`, an entity can be shown. -/
theorem default_entry (U : UriTables) {q : Query} (h : Dict.get q.sys .format = none) :
    ∃ m, negotiation U q none entryTypes = .ok (some m) := by
  unfold negotiation
  rw [h]
  exact ⟨plain "application" "atom+xml", rfl⟩

/-- What is asked of a request that inserts an entity: the collection is no collection of media resources, any representation of
the new entity will do, and it can be written. -/
def Posts (P : Provider S E C F) (U : UriTables) (pre : Str) (env : Environ) : Prop :=
  (∀ c, P.isMedia c = false) ∧ env.accept = none ∧ (∀ s x m f, P.render s x m ≠ .error f) ∧
  ∀ u, odataURI U (address env) pre = .ok u → Dict.get u.query.sys .format = none

theorem dispatch_fine {P : Provider S E C F} (ha : AtomicStore P) (U : UriTables) {pre : Str} {u : ODataURI} {env : Environ}
    (hu : odataURI U (address env) pre = .ok u) (hp : upper env.method = "POST".toList → Posts P U pre env) (s : S)
    (r : Resource E C F) (p : Option E) : Fine s (dispatch P U u env s r p) := by
  have hlinks : Fine s (handleLinks P U u env s r p) := by
    unfold handleLinks
    cases p with
    | none => exact fine_same _
    | some e =>
      dsimp only
      split
      · split <;> exact fine_same _
      · split
        · split
          · split
            · exact fine_empty (ha.link _ _) s
            · exact fine_empty (ha.link _ _) s
            · exact fine_same _
          · exact fine_empty (ha.link _ _) s
          · exact fine_same _
        · split
          · split
            · exact fine_same _
            · exact fine_empty (ha.replace _ _) s
            · exact fine_same _
          · split
            · split
              · exact fine_same _
              · exact fine_same _
              · split
                · exact fine_empty (ha.unlink _ _) s
                · exact fine_empty (ha.unlink _ _) s
                · exact fine_same _
              · exact fine_same _
            · exact fine_same _
  have hentity : ∀ e, Fine s (handleEntity P U u env s e) := by
    intro e
    unfold handleEntity
    split
    · split
      · split <;> exact fine_same _
      · exact fine_same _
    · split
      · split
        · split
          · split
            · exact fine_same _
            · exact fine_empty (ha.setStream _ _ _) s
          · exact fine_same _
        · exact fine_empty (ha.update _ _) s
      · split
        · split
          · exact fine_same _
          · exact fine_empty (ha.delete _) s
        · exact fine_same _
  have hcoll : ∀ c, Fine s (handleCollection P U u env s c) := by
    intro c
    unfold handleCollection
    split
    · exact fine_same _
    · split
      · next hm =>
        obtain ⟨h1, h2, h3, h4⟩ := hp hm
        rw [h1 c]
        simp only [Bool.false_eq_true, if_false]
        split
        · next err s' he =>
          rw [ha.insert _ _ _ _ _ he]
          exact fine_same _
        · next e s' he =>
          right
          obtain ⟨m, hneg⟩ := default_entry U (h4 u hu)
          unfold returns
          rw [h2, hneg]
          show ∃ r, (P.render s' _ m).map _ = _ ∧ _
          cases hr : P.render s' (Shows.entity e none none) m with
          | error f => exact absurd hr (h3 _ _ _ _)
          | ok _ => exact ⟨_, rfl, show 201 < 400 by omega⟩
      · exact fine_same _
  have hvalue : ∀ path v, Fine s (handleValue P U u env s p path v) := by
    intro path v
    unfold handleValue
    split
    · split
      · split <;> exact fine_same _
      · exact fine_same _
    · split
      · split
        · exact fine_same _
        · split
          · exact fine_same _
          · exact fine_empty (ha.setValue _ _ _ _) s
      · split
        · split
          · exact fine_same _
          · split
            · exact fine_same _
            · split
              · exact fine_same _
              · exact fine_empty (ha.nullValue _ _) s
        · exact fine_same _
  unfold dispatch
  split
  · exact fine_same _
  · exact fine_same _
  · split <;> exact fine_same _
  · exact hlinks
  · split
    · exact hentity _
    · exact hcoll _
    · exact hvalue _ _
    · exact fine_same _
    · exact fine_same _

/-- **C167**: with a store whose operations change nothing when they fail, a request that is not answered with success changes
nothing, if its path does not begin with the name of a function.  Missing: the insertion of entities whose representation is not
acceptable, and of media resources, see `atomic_refuted`. -/
theorem atomic_partial {P : Provider S E C F} (ha : AtomicStore P) (U : UriTables) (pre : Str) (ro : Bool) (env : Environ) (s : S)
    (hf : NoFunction P U pre env) (hp : upper env.method = "POST".toList → Posts P U pre env)
    (hr : Refused (call P U pre ro env s).1) : (call P U pre ro env s).2 = s := by
  have key : ∀ u, odataURI U (address env) pre = .ok u → Fine s (handleRequest P U u env s) := by
    intro u hu
    have hg := resource_state (s := s) (hf u hu)
    unfold handleRequest
    rcases hres : getResource P u s with ⟨x, s'⟩
    rw [hres] at hg
    dsimp only at hg
    subst hg
    cases x with
    | error e =>
      dsimp only
      split <;> exact fine_same _
    | ok x =>
      obtain ⟨r, p⟩ := x
      dsimp only
      have := dispatch_fine ha U hu hp s' r p
      rcases hd : dispatch P U u env s' r p with ⟨y, s''⟩
      rw [hd] at this
      cases y with
      | ok resp => exact this
      | error e =>
        rcases this with h | ⟨r, h, _⟩
        · dsimp only at h
          subst h
          dsimp only
          split <;> exact fine_same _
        · cases h
  rcases call_state P U pre ro env s with h | ⟨u, hu, h⟩
  · exact h
  · have hfine : Fine s (if ro then readOnlyRequest P U u env s else handleRequest P U u env s) := by
      cases ro with
      | false => exact key u hu
      | true =>
        simp only [if_true]
        unfold readOnlyRequest
        split
        · exact key u hu
        · exact fine_same _
    rw [h] at hr ⊢
    rcases hfine with h' | ⟨r, h1, h2⟩
    · exact h'
    · rw [h1] at hr
      change 400 ≤ r.status at hr
      omega

/-- The store of the demonstration meets the hypothesis on stores, and requests that are refused meet the others. -/
theorem atomic_example :
    AtomicStore demo ∧
    demoRun false (demoEnv "PUT" "/Customers(7)") = (some 404, 0) ∧
    demoRun false (demoEnv "DELETE" "/Customers(1)/Name") = (some 400, 0) ∧
    demoRun false (demoEnv "POST" "/Lines(Order=7,Line=8)") = (some 400, 0) := by
  refine ⟨⟨?_, ?_, ?_, ?_, ?_, ?_, ?_, ?_, ?_, ?_, ?_⟩, by decide +kernel, by decide +kernel, by decide +kernel⟩
  · intro n run hn s e s' h
    have hok : ∀ s, (∃ r, (run s).1 = .ok r) := by
      intro s
      simp only [demo] at hn
      repeat' split at hn
      all_goals cases hn
      · exact ⟨_, rfl⟩
      · exact ⟨_, rfl⟩
    obtain ⟨r, hr⟩ := hok s
    rw [h] at hr
    cases hr
  all_goals
    intros
    intro s e s' h
    cases h

/-- **C167 refuted.**  An entity is inserted although the answer is that its representation is not acceptable; a media resource
is inserted although the answer is that its media type cannot be read; and a function is executed although the answer is that
its options are not allowed. -/
theorem atomic_refuted :
    AtomicStore demo ∧
    demoRun false (demoEnv "POST" "/Customers" none (some "image/png")) = (some 406, 1) ∧
    demoRun false (demoEnv "POST" "/Photos" none none (some "text")) = (some 500, 1) ∧
    demoRun false (demoEnv "GET" "/Touch" (some "$top=1")) = (some 400, 1) := by
  refine ⟨atomic_example.1, by decide +kernel, by decide +kernel, by decide +kernel⟩

end Verif.Props
