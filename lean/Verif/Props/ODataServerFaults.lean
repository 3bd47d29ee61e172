import Verif.Props.ODataServerAnswers

/-! # The OData server: every request is answered, and whose fault errors are (C170, C171) -/

namespace Verif.Props

open Verif Verif.OData Verif.OData.Server Verif.Spec.OData

variable {S E C F : Type}

/-- A result is a response that does not report an error of the server, or an exception of a kind. -/
def GoodReply (ok : Raise → Prop) (x : Except Raise (Response E C F)) : Prop :=
  (∀ r, x = .ok r → r.status ≠ 500) ∧ ∀ e, x = .error e → ok e

theorem good_error {ok : Raise → Prop} {e : Raise} (h : ok e) : GoodReply ok (.error e : Except Raise (Response E C F)) :=
  ⟨fun _ h' => (by cases h'), fun _ h' => (by cases h'; exact h)⟩

theorem good_ok {ok : Raise → Prop} {r : Response E C F} (h : r.status ≠ 500) : GoodReply ok (.ok r) :=
  ⟨fun _ h' => (by cases h'; exact h), fun _ h' => (by cases h')⟩

theorem negotiation_ok {U : UriTables} {env : Environ} (h : Readable U env.accept) (q : Query) (types : List Http.MediaType) :
    ∃ m, negotiation U q env.accept types = .ok m := by
  unfold negotiation
  split
  · exact ⟨_, rfl⟩
  · unfold Http.negotiate
    cases ha : env.accept with
    | none => exact ⟨_, rfl⟩
    | some a =>
      obtain ⟨r, h1, h2, h3⟩ := h a ha
      dsimp only
      rw [h1]
      cases r with
      | ok l => exact ⟨_, rfl⟩
      | error e =>
        rcases accept_faults h1 with rfl | rfl | rfl
        · exact ⟨_, rfl⟩
        · exact absurd rfl h2
        · exact absurd rfl h3

theorem odataError_ok {U : UriTables} {env : Environ} (h : Readable U env.accept) (q : Query) (code : Nat) :
    ∃ r, odataError (E := E) (C := C) (F := F) U q env code = .ok r ∧ r.status = code := by
  obtain ⟨m, hm⟩ := negotiation_ok h q errorTypes
  unfold odataError
  rw [hm]
  exact ⟨_, rfl, rfl⟩

theorem good_odataError {ok : Raise → Prop} {U : UriTables} {env : Environ} (h : Readable U env.accept) (q : Query) {code : Nat}
    (hc : code ≠ 500) : GoodReply ok (odataError (E := E) (C := C) (F := F) U q env code) := by
  obtain ⟨r, h1, h2⟩ := odataError_ok (E := E) (C := C) (F := F) h q code
  rw [h1]
  exact good_ok (h2 ▸ hc)

theorem good_returns {ok : Raise → Prop} {P : Provider S E C F} {U : UriTables} {env : Environ} (h : Readable U env.accept)
    (hp : ReadsRaise ok P) (u : ODataURI) (s : S) {status : Nat} (hs : status ≠ 500) (types : List Http.MediaType) (x : Shows E C F) :
    GoodReply ok (returns P U u env s status types x) := by
  obtain ⟨m, hm⟩ := negotiation_ok h u.query types
  unfold returns
  rw [hm]
  show GoodReply ok (match m with | none => _ | some m => _)
  cases m with
  | none => exact good_odataError h _ (by omega)
  | some m =>
    dsimp only
    cases hr : P.render s x m with
    | error f => exact good_error (hp.render _ _ _ _ hr)
    | ok _ => exact good_ok hs

theorem good_emptied {ok : Raise → Prop} {op : S → Except Raise Unit × S} (h : Raises ok op) (s : S) :
    GoodReply ok (emptied (E := E) (C := C) (F := F) (op s)).1 := by
  unfold emptied
  rcases hx : op s with ⟨x, s'⟩
  cases x with
  | error e => exact good_error (h s e s' hx)
  | ok _ => exact good_ok (show 204 ≠ 500 by omega)

theorem good_bind {α : Type} {ok : Raise → Prop} {x : Except Raise α} {f : α → Except Raise (Response E C F)}
    (h : ∀ e, x = .error e → ok e) (hf : ∀ a, x = .ok a → GoodReply ok (f a)) : GoodReply ok (x.bind f) := by
  cases x with
  | error e => exact good_error (h e rfl)
  | ok a => exact hf a rfl

/-- What can be raised once the resource is found. -/
theorem dispatch_good {ok : Raise → Prop} {P : Provider S E C F} {U : UriTables} {u : ODataURI} {env : Environ}
    (hn : Readable U env.accept) (h1 : ok .missing) (h2 : ok .bad) (h3 : ok .queryOption) (h4 : ok .invalidMethod)
    (hm : P.hasModel = true ∨ ok .other) (hr : ReadsRaise ok P)
    (hw : upper env.method = "GET".toList ∨ ok .other ∧ (∀ f, inputType env = .error f → ok f) ∧ WritesRaise ok P)
    (s : S) (r : Resource E C F) (p : Option E) : GoodReply ok (dispatch P U u env s r p).1 := by
  have h200 : ∀ types x, GoodReply ok (returns P U u env s 200 types x) := fun types x => good_returns hn hr u s (by omega) types x
  have hexp : ∀ x e, expandResource P u s x = .error e → ok e := by
    intro x e h
    unfold expandResource at h
    split at h
    · cases h
    · cases hx : P.expand s x with
      | ok _ => rw [hx] at h; cases h
      | error f =>
        rw [hx] at h
        rcases hr.expand _ _ _ hx with rfl | hf
        · cases h
          exact h3
        · cases f <;> cases h <;> first | exact h3 | exact hf
  have hlinks : GoodReply ok (handleLinks P U u env s r p).1 := by
    unfold handleLinks
    split
    · exact good_error h2
    · dsimp only
      split
      · split
        · exact h200 _ _
        · exact h200 _ _
        · exact good_error h1
      · next hng =>
        rcases hw with hw | ⟨ho, hi, hw⟩
        · exact absurd hw hng
        · split
          · split
            · split
              · exact good_emptied (hw.link _ _) s
              · exact good_emptied (hw.link _ _) s
              · exact good_error ho
            · exact good_emptied (hw.link _ _) s
            · exact good_error h2
          · split
            · split
              · exact good_error h2
              · exact good_emptied (hw.replace _ _) s
              · exact good_error ho
            · split
              · split
                · exact good_error h2
                · exact good_error h1
                · split
                  · exact good_emptied (hw.unlink _ _) s
                  · exact good_emptied (hw.unlink _ _) s
                  · exact good_error ho
                · exact good_error ho
              · exact good_error h4
  have hent : ∀ e, GoodReply ok (handleEntity P U u env s e).1 := by
    intro e
    unfold handleEntity
    split
    · split
      · split
        · exact good_bind (fun f hf => hr.streamType _ _ _ hf) fun _ _ => h200 _ _
        · exact good_error h2
      · exact good_bind (fun f hf => hexp _ _ hf) fun _ _ => h200 _ _
    · next hng =>
      rcases hw with hw | ⟨ho, hi, hw⟩
      · exact absurd hw hng
      · split
        · split
          · split
            · split
              · next f hf => exact good_error (hi f hf)
              · exact good_emptied (hw.setStream _ _ _) s
            · exact good_error h2
          · exact good_emptied (hw.update _ _) s
        · split
          · split
            · exact good_error h2
            · exact good_emptied (hw.delete _) s
          · exact good_error h4
  have hcol : ∀ c, GoodReply ok (handleCollection P U u env s c).1 := by
    intro c
    unfold handleCollection
    split
    · exact good_bind (fun f hf => hexp _ _ hf) fun _ _ => h200 _ _
    · next hng =>
      rcases hw with hw | ⟨ho, hi, hw⟩
      · exact absurd hw hng
      · split
        · split
          · split
            · next f s' hf => exact good_error (hw.insertMedia _ _ _ _ _ hf)
            · split
              · next f hf => exact good_error (hi f hf)
              · split
                · next f s' hf => exact good_error (hw.setStream _ _ _ _ _ _ hf)
                · exact good_returns hn hr u _ (by omega) _ _
          · split
            · next f s' hf => exact good_error (hw.insert _ _ _ _ _ hf)
            · exact good_returns hn hr u _ (by omega) _ _
        · exact good_error h4
  have hval : ∀ path v, GoodReply ok (handleValue P U u env s p path v).1 := by
    intro path v
    unfold handleValue
    split
    · split
      · split
        · exact good_error h1
        · exact h200 _ _
      · exact h200 _ _
    · next hng =>
      rcases hw with hw | ⟨ho, hi, hw⟩
      · exact absurd hw hng
      · split
        · split
          · exact good_error h1
          · split
            · exact good_error ho
            · exact good_emptied (hw.setValue _ _ _ _) s
        · split
          · split
            · exact good_error h2
            · split
              · exact good_error h4
              · split
                · exact good_error ho
                · exact good_emptied (hw.nullValue _ _) s
          · exact good_error h4
  unfold dispatch
  split
  · dsimp only
    split
    · exact h200 _ _
    · next hno =>
      rcases hm with hm | ho
      · exact absurd hm hno
      · exact good_error ho
  · exact good_odataError hn _ (by omega)
  · split
    · exact h200 _ _
    · exact h200 _ _
    · exact good_error h2
  · exact hlinks
  · split
    · exact hent _
    · exact hcol _
    · exact hval _ _
    · exact h200 _ _
    · exact h200 _ _

theorem check_fault {u : ODataURI} {n : Nat} {e : Raise} (h : check u n = .error e) : e = .queryOption := by
  unfold check validate at h
  repeat' split at h
  all_goals cases h <;> rfl

theorem last_fault {u : ODataURI} {r : Resource E C F} {p : Option E} {e : Raise} (h : lastTests u r p = .error e) :
    e = .queryOption ∨ e = .missing := by
  have hc : ∀ n, (check u n).map (fun _ => (r, p)) = .error e → e = .queryOption ∨ e = .missing := by
    intro n hn
    cases hx : check u n with
    | ok _ => rw [hx] at hn; cases hn
    | error f => rw [hx] at hn; cases hn; exact .inl (check_fault hx)
  unfold lastTests at h
  dsimp only at h
  split at h
  · exact hc _ h
  · split at h
    · exact hc _ h
    · split at h
      · exact hc _ h
      · cases h
  · exact hc _ h
  · exact hc _ h
  · split at h
    · cases h
      exact .inr rfl
    · cases h
  · cases h

theorem pick_fault {P : Provider S E C F} {s : S} {c : C} {d : List (Str × Lit)} {e : Raise} (h : pick P s c d = .error e) :
    e = .missing := by
  unfold pick at h
  split at h
  · cases h
  · cases h
    rfl

theorem next_fault {P : Provider S E C F} {s : S} {seg : Str × Keys} {r : Resource E C F} {p : Option E} {e : Raise}
    (h : nextSegment P s seg r p = .error e) : e = .missing ∨ e = .bad ∨ e = .navigation := by
  unfold nextSegment at h
  split at h
  · cases h; exact .inr (.inl rfl)
  · cases h; exact .inr (.inl rfl)
  · split at h
    · cases h; exact .inl rfl
    · cases h
    · split at h
      · cases h
      · next hg =>
        cases hp : pick P s _ _ with
        | error f => rw [hp] at h; cases h; exact .inl (pick_fault hp)
        | ok _ => rw [hp] at h; cases h
    · split at h
      · cases h; exact .inr (.inl rfl)
      · unfold single at h
        split at h
        · cases h
        · cases h
        · cases h; exact .inr (.inr rfl)
  · split at h
    · cases h
    · cases h; exact .inl rfl
  · cases h; exact .inl rfl
  · cases h; exact .inr (.inl rfl)
  · cases h; exact .inr (.inl rfl)

theorem walk_fault {P : Provider S E C F} {s : S} : ∀ {segs : List (Str × Keys)} {r : Resource E C F} {p : Option E} {e : Raise},
    Server.walk P s segs r p = .error e → e = .missing ∨ e = .bad ∨ e = .navigation
  | [], _, _, _, h => by cases h
  | seg :: segs, r, p, e, h => by
    unfold Server.walk at h
    cases hx : nextSegment P s seg r p with
    | error f => rw [hx] at h; cases h; exact next_fault hx
    | ok x => rw [hx] at h; exact walk_fault h

/-- What can be raised while the resource is looked for. -/
theorem resource_good {ok : Raise → Prop} {P : Provider S E C F} {u : ODataURI} (h1 : ok .missing) (h2 : ok .bad)
    (h3 : ok .queryOption) (h4 : ok .navigation) (hr : ReadsRaise ok P) (s : S) {e : Raise} {s' : S}
    (h : getResource P u s = (.error e, s')) : ok e := by
  have hlast : ∀ {r : Resource E C F} {p e}, lastTests u r p = .error e → ok e := by
    intro r p e h
    rcases last_fault h with rfl | rfl
    · exact h3
    · exact h1
  unfold getResource at h
  split at h
  · exact hlast (Prod.mk.inj h).1
  · next seg segs _ =>
    split at h
    · cases h; exact h2
    · split at h
      · next f s'' hf =>
        cases h
        unfold firstSegment at hf
        dsimp only at hf
        have hcol : ∀ c s, (match given seg.2 with
            | none => Except.ok (Resource.collection c, false)
            | some d => (pick P s c d).map fun e => (Resource.entity e, false) : Except Raise (Resource E C F × Bool)) = .error e → ok e := by
          intro c s hx
          split at hx
          · cases hx
          · cases hp : pick P s c _ with
            | error f => rw [hp] at hx; cases hx; exact pick_fault hp ▸ h1
            | ok _ => rw [hp] at hx; cases hx
        split at hf
        · cases hf; exact h1
        · cases hf; exact h1
        · exact hcol _ _ (Prod.mk.inj hf).1
        · next run hs =>
          split at hf
          · next f s3 hrun => cases hf; exact hr.function _ _ hs _ _ _ hrun
          · exact hcol _ _ (Prod.mk.inj hf).1
          · have hx := (Prod.mk.inj hf).1
            split at hx
            · next f hc => cases hx; exact check_fault hc ▸ h3
            · split at hx
              · cases hx
              · cases hx
              · cases hx
              · cases hx; exact h1
      · have hx := (Prod.mk.inj h).1
        split at hx
        · cases hx; exact h2
        · next r _ _ _ _ =>
          cases hwk : Server.walk P _ segs r none with
          | error f =>
            rw [hwk] at hx
            cases hx
            rcases walk_fault hwk with rfl | rfl | rfl
            · exact h1
            · exact h2
            · exact h4
          | ok x => rw [hwk] at hx; exact hlast hx

theorem good_caught {ok : Raise → Prop} {U : UriTables} {env : Environ} (hn : Readable U env.accept) (q : Query) {e : Raise} (he : ok e)
    (s : S) : GoodReply (fun e => ok e ∧ caught e = none) (match caught e with
      | some code => (odataError (E := E) (C := C) (F := F) U q env code, s)
      | none => (.error e, s)).1 := by
  cases e <;> first
    | exact good_odataError hn _ (by decide)
    | exact good_error ⟨he, rfl⟩

/-- What can be raised by a request. -/
theorem handle_good {ok : Raise → Prop} {P : Provider S E C F} {U : UriTables} {u : ODataURI} {env : Environ}
    (hn : Readable U env.accept) (h1 : ok .missing) (h2 : ok .bad) (h3 : ok .queryOption) (h4 : ok .invalidMethod)
    (h5 : ok .navigation) (hm : P.hasModel = true ∨ ok .other) (hr : ReadsRaise ok P)
    (hw : upper env.method = "GET".toList ∨ ok .other ∧ (∀ f, inputType env = .error f → ok f) ∧ WritesRaise ok P) (s : S) :
    GoodReply (fun e => ok e ∧ caught e = none) (handleRequest P U u env s).1 := by
  unfold handleRequest
  rcases hg : getResource P u s with ⟨x, s'⟩
  cases x with
  | error e =>
    dsimp only
    exact good_caught hn _ (resource_good h1 h2 h3 h5 hr s hg) s'
  | ok x =>
    obtain ⟨r, p⟩ := x
    dsimp only
    have := dispatch_good (u := u) hn h1 h2 h3 h4 hm hr hw s' r p
    rcases hd : dispatch P U u env s' r p with ⟨y, s''⟩
    rw [hd] at this
    cases y with
    | ok resp => exact good_ok (this.1 resp rfl)
    | error e => exact good_caught hn _ (this.2 e rfl) s''

theorem concluded_ok {U : UriTables} {env : Environ} (hn : Readable U env.accept) {x : Except Raise (Response E C F)}
    (h : ∀ e, x = .error e → e ≠ .endless) : ∃ r, concluded U env (x.map .response) = .response r := by
  cases x with
  | ok r => exact ⟨r, rfl⟩
  | error e =>
    obtain ⟨r, h1, _⟩ := odataError_ok (E := E) (C := C) (F := F) hn ⟨[], [], []⟩ (outerStatus e)
    have he := h e rfl
    refine ⟨r, ?_⟩
    show concluded U env (.error e) = _
    cases e <;> first
      | exact absurd rfl he
      | (unfold concluded; dsimp only; rw [h1])

theorem concluded_status {U : UriTables} {env : Environ} (hn : Readable U env.accept) {x : Except Raise (Response E C F)}
    (h : GoodReply (fun e => ClientFault e ∧ caught e = none) x) : statusOf (concluded U env (x.map .response)) ≠ some 500 := by
  cases x with
  | ok r =>
    intro h'
    exact h.1 r rfl (Option.some.inj h')
  | error e =>
    obtain ⟨r, h1, h2⟩ := odataError_ok (E := E) (C := C) (F := F) hn ⟨[], [], []⟩ (outerStatus e)
    have he := h.2 e rfl
    obtain ⟨hne, hother⟩ : e ≠ .endless ∧ e ≠ .other := ⟨he.1.2, he.1.1⟩
    have ho : outerStatus e ≠ 500 := by
      cases e <;> first
        | exact absurd rfl hother
        | exact absurd rfl hne
        | exact absurd he.2 (by decide)
        | decide
    have hc : concluded U env (.error e : Except Raise (Reply E C F)) = .response r := by
      cases e <;> first
        | exact absurd rfl hne
        | (unfold concluded; dsimp only; rw [h1])
    show statusOf (concluded U env (.error e)) ≠ _
    rw [hc]
    exact fun h' => ho (h2 ▸ Option.some.inj h')

/-- **C170**: a request is answered, or passed on to the server of the Atom publishing protocol, if its `Accept` header can be
read, and the reading of its other headers, of its address, and the operations of the store come to an end. -/
theorem answered_partial {P : Provider S E C F} (hr : ReadsRaise (· ≠ .endless) P) (hw : WritesRaise (· ≠ .endless) P)
    (U : UriTables) (pre : Str) (ro : Bool) (env : Environ) (s : S) (hn : Readable U env.accept)
    (hv : checkVersion env ≠ .error .endless) (hu : odataURI U (address env) pre ≠ .error .endless)
    (hi : inputType env ≠ .error .endless) :
    (∃ r, (call P U pre ro env s).1 = .response r) ∨ (call P U pre ro env s).1 = .elsewhere := by
  have hhandle : ∀ u, GoodReply (fun e => e ≠ .endless ∧ caught e = none) (handleRequest P U u env s).1 := fun u =>
    handle_good (ok := (· ≠ .endless)) hn (by decide) (by decide) (by decide) (by decide) (by decide) (.inr (by decide)) hr
      (.inr ⟨by decide, fun f hf he => hi (he ▸ hf), hw⟩) s
  have hro : ∀ u, GoodReply (fun e => e ≠ .endless ∧ caught e = none) (readOnlyRequest P U u env s).1 := by
    intro u
    unfold readOnlyRequest
    split
    · exact hhandle u
    · exact good_odataError hn _ (by decide)
  have hraise : ∀ e, e ≠ .endless → ∃ r, concluded (E := E) (C := C) (F := F) U env (.error e) = .response r := fun e he =>
    concluded_ok (x := .error e) hn fun _ h => by cases h; exact he
  unfold call
  split
  · next e he => exact .inl (hraise e fun h => hv (h ▸ he))
  · exact .inl (concluded_ok hn fun e he => by
      obtain ⟨r, h1, _⟩ := odataError_ok (E := E) (C := C) (F := F) hn ⟨[], [], []⟩ 400
      rw [h1] at he
      cases he)
  · split
    · next e he =>
      refine .inl (hraise _ fun h => hu ?_)
      rw [he]
      cases e <;> first | rfl | cases h
    · split
      · exact .inr rfl
      · obtain ⟨m, hm⟩ := negotiation_ok hn _ redirectTypes
        left
        dsimp only
        rw [hm]
        exact ⟨_, rfl⟩
      · left
        dsimp only
        split
        · exact concluded_ok hn fun e he => ((hro _).2 e he).1
        · exact concluded_ok hn fun e he => ((hhandle _).2 e he).1

/-- The store of the demonstration meets the hypotheses on stores. -/
theorem demo_raises (ok : Raise → Prop) : ReadsRaise ok demo ∧ WritesRaise ok demo := by
  refine ⟨⟨?_, ?_, ?_, ?_⟩, ⟨?_, ?_, ?_, ?_, ?_, ?_, ?_, ?_, ?_, ?_⟩⟩
  · intro n run hn s e s' h
    have hok : ∀ s, (∃ r, (run s).1 = .ok r) := by
      intro s
      simp only [demo] at hn
      repeat' split at hn
      all_goals cases hn
      · exact ⟨_, rfl⟩
      · exact ⟨_, rfl⟩
    obtain ⟨r, hr⟩ := hok s
    rw [h] at hr
    cases hr
  · intros _ _ _ h; cases h
  · intros _ _ _ h; cases h
  · intros _ _ _ _ h; cases h
  all_goals
    intros
    intro s e s' h
    cases h

/-- An example, with a header that is no list of media types but can be read. -/
theorem answered_example :
    Readable uriTables (demoEnv "GET" "/Customers(1)" none (some "text")).accept ∧
    checkVersion (demoEnv "GET" "/Customers(1)" none (some "text")) ≠ .error .endless ∧
    inputType (demoEnv "GET" "/Customers(1)" none (some "text")) ≠ .error .endless ∧
    demoRun false (demoEnv "GET" "/Customers(1)" none (some "text")) = (some 200, 0) := by
  refine ⟨?_, by decide +kernel, by decide +kernel, by decide +kernel⟩
  intro a ha
  cases ha
  exact ⟨.error .syntaxError, by decide +kernel, by simp, by simp⟩

theorem escapes_of {x : Reply E C F} (h : (match x with | .escapes => true | _ => false) = true) : x = .escapes := by
  cases x <;> first | rfl | cases h

theorem endless_of {x : Reply E C F} (h : (match x with | .endless => true | _ => false) = true) : x = .endless := by
  cases x <;> first | rfl | cases h

/-- **C170 refuted.**  For an `Accept` header that is an open comment or ends in an escape the report of the error raises the same
exception, which leaves the application; and one with a control character is never answered. -/
theorem answered_refuted :
    demoRun false (demoEnv "GET" "/Customers(1)" none (some "(")) = (none, 0) ∧
    (call demo uriTables [] false (demoEnv "GET" "/Customers(1)" none (some "(")) 0).1 = .escapes ∧
    (call demo uriTables [] false (demoEnv "GET" "/Customers(1)" none (some "\"\\")) 0).1 = .escapes ∧
    (call demo uriTables [] false (demoEnv "GET" "/Customers(1)" none (some "\x01")) 0).1 = .endless := by
  refine ⟨by decide +kernel, escapes_of ?_, escapes_of ?_, endless_of ?_⟩ <;> decide +kernel

/-- **C171**: a request to read is never answered with 500, the status for errors of the server, if the store raises only exceptions
that are the fault of the request, the `Accept` header can be read, there are no version headers, and the address is read, or not
with the fault of this class. -/
theorem client_partial {P : Provider S E C F} (hm : P.hasModel = true) (hr : ReadsRaise ClientFault P)
    (U : UriTables) (pre : Str) (ro : Bool) (env : Environ) (s : S) (hg : upper env.method = "GET".toList) (hn : Readable U env.accept)
    (hv : env.version = none ∧ env.maxVersion = none)
    (hu : ∀ e, odataURI U (address env) pre = .error e → e = .pathOption ∨ e = .queryOption ∨ e = .valueError) :
    statusOf (call P U pre ro env s).1 ≠ some 500 := by
  have hc : ∀ e, e ≠ .other → e ≠ .endless → ClientFault e := fun _ h1 h2 => ⟨h1, h2⟩
  have hhandle : ∀ u, GoodReply (fun e => ClientFault e ∧ caught e = none) (handleRequest P U u env s).1 := fun u =>
    handle_good hn (by simp [ClientFault]) (by simp [ClientFault]) (by simp [ClientFault]) (by simp [ClientFault]) (by simp [ClientFault])
      (.inl hm) hr (.inl hg) s
  have hro : ∀ u, GoodReply (fun e => ClientFault e ∧ caught e = none) (readOnlyRequest P U u env s).1 := by
    intro u
    unfold readOnlyRequest
    split
    · exact hhandle u
    · exact good_odataError hn _ (by decide)
  have hver : checkVersion env = .ok (some 2) := by
    unfold checkVersion
    rw [hv.1, hv.2]
    rfl
  unfold call
  rw [hver]
  dsimp only
  split
  · next e he =>
    refine concluded_status (x := .error (.ofUri e)) hn (good_error ?_)
    rcases hu e he with rfl | rfl | rfl <;> simp [ClientFault, Raise.ofUri, caught]
  · split
    · intro h; cases h
    · obtain ⟨m, hm⟩ := negotiation_ok hn _ redirectTypes
      dsimp only
      rw [hm]
      simp [concluded, Except.map, statusOf]
    · dsimp only
      split
      · exact concluded_status hn (hro _)
      · exact concluded_status hn (hhandle _)

/-- The hypotheses are met by requests for things that do not exist, and for methods and options that are not allowed. -/
theorem client_example :
    demo.hasModel = true ∧ ReadsRaise ClientFault demo ∧
    demoRun false (demoEnv "GET" "/Nobody") = (some 404, 0) ∧ demoRun false (demoEnv "GET" "/Customers(1)" (some "$top=1")) = (some 400, 0) ∧
    demoRun false (demoEnv "GET" "/Customers(x)") = (some 400, 0) ∧ demoRun false (demoEnv "GET" "/Customers(1)/Twin") = (some 403, 0) := by
  refine ⟨rfl, (demo_raises _).1, ?_, ?_, ?_, ?_⟩ <;> decide +kernel

/-- **C171 refuted.**  The status of errors of the server is returned for a version that cannot be read, for a time with a bare point,
for links by a property that is no navigation property, for a media type that cannot be read, and for values of functions. -/
theorem client_refuted :
    demoRun false (demoEnv "GET" "/Customers(1)" none none none (some "two")) = (some 500, 0) ∧
    demoRun false (demoEnv "GET" "/Customers" (some "$filter=Name%20eq%20time'12:30:15.'")) = (some 500, 0) ∧
    demoRun false (demoEnv "PUT" "/Customers(1)/$links/Name") = (some 500, 0) ∧
    demoRun false (demoEnv "POST" "/Photos" none none (some "text")) = (some 500, 1) ∧
    demoRun false (demoEnv "DELETE" "/Answer") = (some 500, 0) := by
  refine ⟨?_, ?_, ?_, ?_, ?_⟩ <;> decide +kernel

end Verif.Props
