import Verif.Spec.ODataServer
import Verif.Props.ODataUriErrors

/-! # The OData server: which resource a path leads to (C163–C166) -/

namespace Verif.Props

open Verif Verif.OData Verif.OData.Server Verif.Spec.OData

variable {S E C F : Type}

/-! ## Keys -/

theorem mapM_opt_cons {α β : Type} (f : α → Option β) (a : α) (l : List α) :
    (a :: l).mapM f = (f a).bind fun b => (l.mapM f).map (b :: ·) := by
  rw [List.mapM_cons]
  cases f a with
  | none => rfl
  | some b =>
    show (do let bs ← l.mapM f; pure (b :: bs)) = _
    cases l.mapM f <;> rfl

theorem mapM_opt_iff {α β : Type} (f : α → Option β) (l : List α) (m : List β) :
    l.mapM f = some m ↔ m.length = l.length ∧ ∀ (i : Nat) (a : α) (b : β), l[i]? = some a → m[i]? = some b → f a = some b := by
  induction l generalizing m with
  | nil =>
    constructor
    · intro h
      cases h
      exact ⟨rfl, fun i a b h => by simp at h⟩
    · rintro ⟨h, _⟩
      cases m with
      | nil => rfl
      | cons b m => cases h
  | cons a l ih =>
    rw [mapM_opt_cons]
    constructor
    · intro h
      cases hf : f a with
      | none => rw [hf] at h; cases h
      | some b =>
        rw [hf] at h
        cases hm : l.mapM f with
        | none => rw [hm] at h; cases h
        | some bs =>
          rw [hm] at h
          cases h
          obtain ⟨h1, h2⟩ := (ih bs).mp hm
          refine ⟨by simp [h1], ?_⟩
          intro i x y hx hy
          cases i with
          | zero =>
            cases hx
            cases hy
            exact hf
          | succ i => exact h2 i x y hx hy
    · rintro ⟨h1, h2⟩
      cases m with
      | nil => cases h1
      | cons b bs =>
        have hf : f a = some b := h2 0 a b rfl rfl
        have hm := (ih bs).mpr ⟨by simpa using h1, fun i x y hx hy => h2 (i + 1) x y hx hy⟩
        rw [hf, hm]
        rfl

/-- **C164**: the keys of a segment are read as the values of the key properties that they name, in their order. -/
theorem key_values_partial {names : List Str} {d : List (Str × Lit)} {key : List Lit} :
    getKey names d = some key ↔ KeyValues names d key := by
  unfold getKey KeyValues
  rw [mapM_opt_iff]
  constructor
  · rintro ⟨h1, h2⟩
    refine ⟨h1, fun i n v hn hv => ?_⟩
    have := h2 i n v hn hv
    cases hd : Dict.get d n with
    | some w =>
      rw [hd] at this
      cases this
      exact .inl rfl
    | none =>
      rw [hd] at this
      dsimp only at this
      split at this
      · next h => exact .inr ⟨h, rfl, this⟩
      · cases this
  · rintro ⟨h1, h2⟩
    refine ⟨h1, fun i n v hn hv => ?_⟩
    rcases h2 i n v hn hv with h | ⟨h, h', h''⟩
    · rw [h]
    · rw [h']
      dsimp only
      rw [if_pos h]
      exact h''

theorem given_none {k : Keys} : given k = none ↔ NoKeys k := by
  unfold given NoKeys
  rcases k with _ | (_ | ⟨a, l⟩)
  · simp
  · simp
  · simp

theorem given_some {k : Keys} {d : List (Str × Lit)} : given k = some d ↔ k = some d ∧ d ≠ [] := by
  unfold given
  rcases k with _ | (_ | ⟨a, l⟩)
  · simp
  · simp
  · simp
    rintro rfl
    simp

theorem pick_cases (P : Provider S E C F) (s : S) (c : C) (k : Keys) (d : List (Str × Lit)) (h : given k = some d) :
    (∃ e, pick P s c d = .ok e ∧ Picks P s c k e) ∨ (pick P s c d = .error .missing ∧ PicksNone P s c k) := by
  obtain ⟨hk, hd⟩ := given_some.mp h
  subst hk
  unfold pick
  cases hp : (getKey (P.keyNames c) d).bind (P.lookup s c) with
  | some e =>
    left
    obtain ⟨key, h1, h2⟩ := Option.bind_eq_some_iff.mp hp
    exact ⟨e, rfl, d, key, rfl, hd, key_values_partial.mp h1, h2⟩
  | none =>
    right
    refine ⟨rfl, ?_, ?_⟩
    · intro hn
      rw [given_none.mpr hn] at h
      cases h
    · rintro ⟨e, d', key, h1, h2, h3, h4⟩
      cases h1
      rw [key_values_partial.mpr h3] at hp
      rw [show (some key).bind (P.lookup s c) = P.lookup s c key from rfl, h4] at hp
      cases hp

theorem picks_unique {P : Provider S E C F} {s : S} {c : C} {k : Keys} {e e' : E} (h : Picks P s c k e) (h' : Picks P s c k e') :
    e = e' := by
  obtain ⟨d, key, rfl, _, h1, h2⟩ := h
  obtain ⟨d', key', h3, _, h4, h5⟩ := h'
  cases h3
  have := (key_values_partial.mpr h1).symm.trans (key_values_partial.mpr h4)
  cases this
  exact Option.some.inj (h2.symm.trans h5)

theorem pick_ok {P : Provider S E C F} {s : S} {c : C} {k : Keys} {d : List (Str × Lit)} (h : given k = some d) {e : E} :
    pick P s c d = .ok e ↔ Picks P s c k e := by
  rcases pick_cases P s c k d h with ⟨e', h1, h2⟩ | ⟨h1, h2⟩
  · rw [h1]
    constructor
    · intro h
      cases h
      exact h2
    · intro h
      rw [picks_unique h h2]
  · rw [h1]
    constructor
    · intro h
      cases h
    · intro h
      exact absurd ⟨e, h⟩ h2.2

theorem pick_error {P : Provider S E C F} {s : S} {c : C} {k : Keys} {d : List (Str × Lit)} (h : given k = some d) {f : Raise} :
    pick P s c d = .error f ↔ f = .missing ∧ PicksNone P s c k := by
  rcases pick_cases P s c k d h with ⟨e', h1, h2⟩ | ⟨h1, h2⟩
  · rw [h1]
    constructor
    · intro h
      cases h
    · rintro ⟨_, _, h⟩
      exact absurd ⟨e', h2⟩ h
  · rw [h1]
    constructor
    · intro h
      cases h
      exact ⟨rfl, h2⟩
    · rintro ⟨rfl, _⟩
      rfl

theorem picks_given {P : Provider S E C F} {s : S} {c : C} {k : Keys} {e : E} (h : Picks P s c k e) : ∃ d, given k = some d := by
  obtain ⟨d, _, h1, h2, _⟩ := h
  exact ⟨d, given_some.mpr ⟨h1, h2⟩⟩

theorem not_noKeys {k : Keys} : ¬ NoKeys k ↔ ∃ d, given k = some d := by
  cases h : given k with
  | none => simp [given_none.mp h]
  | some d =>
    simp
    intro hn
    rw [given_none.mpr hn] at h
    cases h

/-! ## C163: where paths lead -/

theorem next_ok {P : Provider S E C F} {s : S} {seg : Str × Keys} {r : Resource E C F} {p : Option E}
    {x : Resource E C F × Option E} : nextSegment P s seg r p = .ok x ↔ Step P s (r, p) seg x := by
  obtain ⟨n, k⟩ := seg
  constructor
  · intro h
    unfold nextSegment at h
    split at h
    · cases h
    · cases h
    · next e =>
      split at h
      · cases h
      · next v hv =>
        cases h
        exact .value hv
      · next c hc =>
        split at h
        · next hk =>
          cases h
          exact .many hc (given_none.mp hk)
        · next d hk =>
          cases hp : pick P s c d with
          | error f => rw [hp] at h; cases h
          | ok e' =>
            rw [hp] at h
            cases h
            exact .member hc ((pick_ok hk).mp hp)
      · next c hc =>
        split at h
        · cases h
        · next hk =>
          unfold single at h
          split at h
          · next hm => cases h; exact .none hc (given_none.mp hk) hm
          · next e' hm => cases h; exact .one hc (given_none.mp hk) hm
          · cases h
    · split at h
      · next v hv => cases h; exact .field hv
      · cases h
    · cases h
    · cases h
    · cases h
  · intro h
    cases h with
    | value hv => simp [nextSegment, hv]
    | many hc hk => simp [nextSegment, hc, given_none.mpr hk]
    | member hc hp =>
      obtain ⟨d, hd⟩ := picks_given hp
      simp [nextSegment, hc, hd, (pick_ok hd).mpr hp, Except.map]
    | one hc hk hm => simp [nextSegment, hc, given_none.mpr hk, single, hm, Except.map]
    | none hc hk hm => simp [nextSegment, hc, given_none.mpr hk, single, hm, Except.map]
    | field hv => simp [nextSegment, hv]

/-- The resources in the middle of a path. -/
def Inner : Resource E C F → Prop
  | .service => False
  | .functions _ => False
  | _ => True

theorem next_error {P : Provider S E C F} {s : S} {seg : Str × Keys} {r : Resource E C F} {p : Option E} {f : Raise}
    (hr : Inner r) : nextSegment P s seg r p = .error f ↔ Stops P s (r, p) seg f := by
  obtain ⟨n, k⟩ := seg
  constructor
  · intro h
    unfold nextSegment at h
    split at h
    · cases h; exact .collection
    · exact hr.elim
    · next e =>
      split at h
      · next hn => cases h; exact .property hn
      · cases h
      · next c hc =>
        split at h
        · cases h
        · next d hk =>
          cases hp : pick P s c d with
          | ok e' => rw [hp] at h; cases h
          | error f' =>
            rw [hp] at h
            cases h
            obtain ⟨rfl, hn⟩ := (pick_error hk).mp hp
            exact .member hc hn
      · next c hc =>
        split at h
        · next d hk => cases h; exact .keys hc (not_noKeys.mpr ⟨d, hk⟩)
        · next hk =>
          unfold single at h
          split at h
          · cases h
          · cases h
          · next h1 h2 =>
            cases h
            rcases hm : P.members s c with _ | ⟨e1, _ | ⟨e2, es⟩⟩
            · exact absurd hm h1
            · exact absurd hm (h2 e1)
            · exact .several hc (given_none.mp hk) hm
    · split at h
      · cases h
      · next hv => cases h; exact .field hv
    · cases h; exact .nothing
    · cases h; exact .simple
    · exact hr.elim
  · intro h
    cases h with
    | collection => rfl
    | simple => rfl
    | keys hc hk =>
      obtain ⟨d, hd⟩ := not_noKeys.mp hk
      simp [nextSegment, hc, hd]
    | property hn => simp [nextSegment, hn]
    | field hn => simp [nextSegment, hn]
    | member hc hp =>
      obtain ⟨d, hd⟩ := not_noKeys.mp hp.1
      simp [nextSegment, hc, hd, (pick_error hd).mpr ⟨rfl, hp⟩, Except.map]
    | nothing => rfl
    | several hc hk hm => simp [nextSegment, hc, given_none.mpr hk, single, hm, Except.map]

theorem walk_append (P : Provider S E C F) (s : S) (a b : List (Str × Keys)) (r : Resource E C F) (p : Option E) :
    Server.walk P s (a ++ b) r p = (Server.walk P s a r p).bind fun x => Server.walk P s b x.1 x.2 := by
  induction a generalizing r p with
  | nil => rfl
  | cons seg a ih =>
    show (nextSegment P s seg r p).bind _ = ((nextSegment P s seg r p).bind _).bind _
    cases nextSegment P s seg r p with
    | error f => rfl
    | ok x => exact ih x.1 x.2

theorem first_set {P : Provider S E C F} {u : ODataURI} {n : Str} {k : Keys} {s : S} {c : C} (h : P.search n = some (.set c)) :
    (NoKeys k ∧ firstSegment P u (n, k) s = (.ok (.collection c, false), s)) ∨
    (∃ e, Picks P s c k e ∧ firstSegment P u (n, k) s = (.ok (.entity e, false), s)) ∨
    (PicksNone P s c k ∧ firstSegment P u (n, k) s = (.error .missing, s)) := by
  unfold firstSegment
  dsimp only
  rw [h]
  dsimp only
  cases hk : given k with
  | none => exact .inl ⟨given_none.mp hk, rfl⟩
  | some d =>
    right
    dsimp only
    rcases pick_cases P s c k d hk with ⟨e, h1, h2⟩ | ⟨h1, h2⟩
    · left
      exact ⟨e, h2, by rw [h1]; rfl⟩
    · right
      exact ⟨h2, by rw [h1]; rfl⟩

theorem leads_inner {P : Provider S E C F} {s : S} {segs : List (Str × Keys)} {x : Resource E C F × Option E}
    (h : Leads P s segs x) : Inner x.1 := by
  cases h with
  | set => trivial
  | entity => trivial
  | step h1 h2 => cases h2 <;> trivial

theorem picks_not_none {P : Provider S E C F} {s : S} {c : C} {k : Keys} {e : E} (h : Picks P s c k e) : ¬ NoKeys k := by
  obtain ⟨d, hd⟩ := picks_given h
  exact not_noKeys.mpr ⟨d, hd⟩

/-- A path that leads somewhere: the first segment, and the walk from there. -/
theorem leads_walk {P : Provider S E C F} {s : S} {segs : List (Str × Keys)} {x : Resource E C F × Option E}
    (h : Leads P s segs x) (u : ODataURI) :
    ∃ seg rest r, segs = seg :: rest ∧ firstSegment P u seg s = (.ok (r, false), s) ∧ Server.walk P s rest r none = .ok x := by
  induction h with
  | @set n k c h1 h2 =>
    refine ⟨_, [], .collection c, rfl, ?_, rfl⟩
    rcases first_set (u := u) (k := k) (s := s) h1 with ⟨_, h⟩ | ⟨e, h, _⟩ | ⟨h, _⟩
    · exact h
    · exact absurd h2 (picks_not_none h)
    · exact absurd h2 h.1
  | @entity n k c e h1 h2 =>
    refine ⟨_, [], .entity e, rfl, ?_, rfl⟩
    rcases first_set (u := u) (k := k) (s := s) h1 with ⟨h, _⟩ | ⟨e', h, h'⟩ | ⟨h, _⟩
    · exact absurd h (picks_not_none h2)
    · rw [picks_unique h2 h]
      exact h'
    · exact absurd ⟨e, h2⟩ h.2
  | @step segs seg r r' h1 h2 ih =>
    obtain ⟨seg0, rest, r0, rfl, hf, hw⟩ := ih
    refine ⟨seg0, rest ++ [seg], r0, rfl, hf, ?_⟩
    rw [walk_append, hw]
    show (nextSegment P s seg r.1 r.2).bind _ = _
    rw [next_ok.mpr h2]
    rfl

theorem walk_leads {P : Provider S E C F} {s : S} {rest : List (Str × Keys)} {before : List (Str × Keys)}
    {r x : Resource E C F × Option E} (h : Leads P s before r) (hw : Server.walk P s rest r.1 r.2 = .ok x) :
    Leads P s (before ++ rest) x := by
  induction rest generalizing before r with
  | nil =>
    cases hw
    rw [List.append_nil]
    exact h
  | cons seg rest ih =>
    obtain ⟨y, h1, h2⟩ := ebind_ok hw
    have := ih (.step h (next_ok.mp h1)) h2
    rwa [List.append_assoc] at this

theorem walk_breaks {P : Provider S E C F} {s : S} {rest : List (Str × Keys)} {before : List (Str × Keys)}
    {r : Resource E C F × Option E} {f : Raise} (h : Leads P s before r) (hw : Server.walk P s rest r.1 r.2 = .error f) :
    Breaks P s (before ++ rest) f := by
  induction rest generalizing before r with
  | nil => cases hw
  | cons seg rest ih =>
    change (nextSegment P s seg r.1 r.2).bind _ = _ at hw
    cases hn : nextSegment P s seg r.1 r.2 with
    | error f' =>
      rw [hn] at hw
      cases hw
      exact .stop h ((next_error (leads_inner h)).mp hn)
    | ok y =>
      rw [hn] at hw
      have := ih (.step h (next_ok.mp hn)) hw
      rwa [List.append_assoc] at this

/-- What is left to do once the walk is done. -/
theorem resource_of_first {P : Provider S E C F} (hm : P.hasModel = true) {u : ODataURI} {s : S} {seg : Str × Keys}
    {rest : List (Str × Keys)} (hn : u.path.navPath = seg :: rest) {r : Resource E C F}
    (hf : firstSegment P u seg s = (.ok (r, false), s)) :
    getResource P u s = ((Server.walk P s rest r none).bind fun x => lastTests u x.1 x.2, s) := by
  unfold getResource
  rw [hn]
  dsimp only
  rw [hm, hf]
  simp

theorem resource_of_error {P : Provider S E C F} (hm : P.hasModel = true) {u : ODataURI} {s s' : S} {seg : Str × Keys}
    {rest : List (Str × Keys)} (hn : u.path.navPath = seg :: rest) {f : Raise}
    (hf : firstSegment P u seg s = (.error f, s')) : getResource P u s = (.error f, s') := by
  unfold getResource
  rw [hn]
  dsimp only
  rw [hm, hf]
  simp

/-- **C163**: a path of the model, with the name of an entity set first, leads to exactly one resource or breaks off with
exactly one error, and never changes the store: the server finds that resource, if its options go with it, and otherwise
reports that error. -/
theorem path_leads_partial {P : Provider S E C F} (hm : P.hasModel = true) {u : ODataURI} (hn : u.path.navPath ≠ [])
    (hc : ¬ Calls P u.path.navPath) (s : S) :
    (∃ x, Leads P s u.path.navPath x ∧ (∀ y, Leads P s u.path.navPath y → y = x) ∧ (¬ ∃ f, Breaks P s u.path.navPath f) ∧
      getResource P u s = (lastTests u x.1 x.2, s)) ∨
    (∃ f, Breaks P s u.path.navPath f ∧ (∀ g, Breaks P s u.path.navPath g → g = f) ∧ (¬ ∃ x, Leads P s u.path.navPath x) ∧
      getResource P u s = (.error f, s)) := by
  -- what leads and what breaks is what the server finds
  have hleads : ∀ x, Leads P s u.path.navPath x → getResource P u s = (lastTests u x.1 x.2, s) ∧
      ∃ seg rest r, u.path.navPath = seg :: rest ∧ firstSegment P u seg s = (.ok (r, false), s) ∧ Server.walk P s rest r none = .ok x := by
    intro x hx
    obtain ⟨seg, rest, r, h1, h2, h3⟩ := leads_walk hx u
    refine ⟨?_, seg, rest, r, h1, h2, h3⟩
    rw [resource_of_first hm h1 h2, h3]
    rfl
  have hbreaks : ∀ f, Breaks P s u.path.navPath f → getResource P u s = (.error f, s) ∧
      ((∃ seg rest, u.path.navPath = seg :: rest ∧ firstSegment P u seg s = (.error f, s)) ∨
        ∃ seg rest r, u.path.navPath = seg :: rest ∧ firstSegment P u seg s = (.ok (r, false), s) ∧
          Server.walk P s rest r none = .error f) := by
    intro f hf
    generalize hl : u.path.navPath = l at hf
    cases hf with
    | @name n k segs h =>
      have hf : firstSegment P u (n, k) s = (.error .missing, s) := by
        unfold firstSegment
        dsimp only
        rcases h with h | h <;> rw [h]
      exact ⟨resource_of_error hm hl hf, .inl ⟨_, _, rfl, hf⟩⟩
    | @key n k c segs h1 h2 =>
      have hf : firstSegment P u (n, k) s = (.error .missing, s) := by
        rcases first_set (u := u) (k := k) (s := s) h1 with ⟨h, _⟩ | ⟨e, h, _⟩ | ⟨_, h⟩
        · exact absurd h h2.1
        · exact absurd ⟨e, h⟩ h2.2
        · exact h
      exact ⟨resource_of_error hm hl hf, .inl ⟨_, _, rfl, hf⟩⟩
    | @stop before after seg r f h1 h2 =>
      obtain ⟨seg0, rest, r0, rfl, hf, hw⟩ := leads_walk h1 u
      have hw' : Server.walk P s (rest ++ seg :: after) r0 none = .error f := by
        rw [walk_append, hw]
        show (nextSegment P s seg r.1 r.2).bind _ = _
        rw [(next_error (leads_inner h1)).mpr h2]
        rfl
      refine ⟨?_, .inr ⟨seg0, rest ++ seg :: after, r0, rfl, hf, hw'⟩⟩
      rw [resource_of_first hm hl hf]
      show ((Server.walk P s (rest ++ seg :: after) r0 none).bind _, s) = _
      rw [hw']
      rfl
  -- one of the two
  have hsome : (∃ x, Leads P s u.path.navPath x) ∨ ∃ f, Breaks P s u.path.navPath f := by
    cases hl : u.path.navPath with
    | nil => exact absurd hl hn
    | cons seg rest =>
      obtain ⟨n, k⟩ := seg
      have go : ∀ r, Leads P s [(n, k)] r → (∃ x, Leads P s ((n, k) :: rest) x) ∨ ∃ f, Breaks P s ((n, k) :: rest) f := by
        intro r h
        cases hw : Server.walk P s rest r.1 r.2 with
        | ok x => exact .inl ⟨x, walk_leads h hw⟩
        | error f => exact .inr ⟨f, walk_breaks h hw⟩
      cases hs : P.search n with
      | none => exact .inr ⟨_, .name (.inl hs)⟩
      | some x =>
        cases x with
        | other => exact .inr ⟨_, .name (.inr hs)⟩
        | function run =>
          rw [hl] at hc
          exact absurd ⟨run, hs⟩ hc
        | set c =>
          rcases first_set (u := u) (k := k) (s := s) hs with ⟨h, _⟩ | ⟨e, h, _⟩ | ⟨h, _⟩
          · exact go _ (.set hs h)
          · exact go _ (.entity hs h)
          · exact .inr ⟨_, .key hs h⟩
  have hexcl : ∀ x f, Leads P s u.path.navPath x → Breaks P s u.path.navPath f → False := by
    intro x f hx hf
    obtain ⟨_, seg, rest, r, h1, h2, h3⟩ := hleads x hx
    obtain ⟨_, h⟩ := hbreaks f hf
    rcases h with ⟨seg', rest', h4, h5⟩ | ⟨seg', rest', r', h4, h5, h6⟩
    · rw [h1] at h4
      cases h4
      rw [h2] at h5
      cases h5
    · rw [h1] at h4
      cases h4
      rw [h2] at h5
      cases h5
      rw [h3] at h6
      cases h6
  rcases hsome with ⟨x, hx⟩ | ⟨f, hf⟩
  · refine .inl ⟨x, hx, ?_, fun ⟨f, hf⟩ => hexcl x f hx hf, (hleads x hx).1⟩
    intro y hy
    obtain ⟨_, seg, rest, r, h1, h2, h3⟩ := hleads x hx
    obtain ⟨_, seg', rest', r', h4, h5, h6⟩ := hleads y hy
    rw [h1] at h4
    cases h4
    rw [h2] at h5
    cases h5
    rw [h3] at h6
    cases h6
    rfl
  · refine .inr ⟨f, hf, ?_, fun ⟨x, hx⟩ => hexcl x f hx hf, (hbreaks f hf).1⟩
    intro g hg
    have := (hbreaks f hf).1.symm.trans (hbreaks g hg).1
    cases this
    rfl

/-- **C163**: the error with which a path breaks off becomes the status 404, 400 or 403, whatever the method, and the store is
not changed. -/
theorem path_status {P : Provider S E C F} (hm : P.hasModel = true) {u : ODataURI} (hn : u.path.navPath ≠ [])
    (hc : ¬ Calls P u.path.navPath) (U : UriTables) (env : Environ) (s : S) {f : Raise} (h : Breaks P s u.path.navPath f) :
    (f = .missing ∧ handleRequest P U u env s = (odataError U u.query env 404, s)) ∨
    (f = .bad ∧ handleRequest P U u env s = (odataError U u.query env 400, s)) ∨
    (f = .navigation ∧ handleRequest P U u env s = (odataError U u.query env 403, s)) := by
  have hg : getResource P u s = (.error f, s) := by
    rcases path_leads_partial hm hn hc s with ⟨x, _, _, h1, _⟩ | ⟨g, _, h1, _, h2⟩
    · exact absurd ⟨f, h⟩ h1
    · rw [h1 f h]
      exact h2
  have hf : f = .missing ∨ f = .bad ∨ f = .navigation := by
    clear hg
    generalize u.path.navPath = l at h
    cases h with
    | name => exact .inl rfl
    | key => exact .inl rfl
    | stop _ h => cases h <;> simp
  rcases hf with rfl | rfl | rfl
  · refine .inl ⟨rfl, ?_⟩
    simp [handleRequest, hg, caught]
  · refine .inr (.inl ⟨rfl, ?_⟩)
    simp [handleRequest, hg, caught]
  · refine .inr (.inr ⟨rfl, ?_⟩)
    simp [handleRequest, hg, caught]

/-! ## A store -/

/-- A small store, whose state is the number of its changes.  It has the customers 1 and 2, who have orders, friends and
photos, and functions. -/
def demo : Provider Nat Nat Nat Unit where
  hasModel := true
  search n :=
    if n = "Customers".toList then some (.set 0)
    else if n = "Lines".toList then some (.set 1)
    else if n = "Photos".toList then some (.set 2)
    else if n = "Touch".toList then some (.function fun s => (.ok (.functions ()), s + 1))
    else if n = "Answer".toList then some (.function fun s => (.ok (.value (.simple false none)), s))
    else if n = "Strange".toList then some .other
    else none
  keyNames c := if c = 1 then ["Order".toList, "Line".toList] else ["ID".toList]
  lookup _ c key :=
    if c = 0 ∨ c = 3 then if key = [.int32 1] then some 1 else if key = [.int32 2] then some 2 else none
    else if c = 1 then if key = [.int32 7, .int32 8] then some 11 else none
    else none
  members _ c := if c = 0 ∨ c = 3 then [1, 2] else if c = 1 then [11] else if c = 5 then [2] else []
  property _ e n :=
    if e ≠ 1 then none
    else if n = "Name".toList then some (.value (.simple false (some false)))
    else if n = "Nick".toList then some (.value (.simple true (some true)))
    else if n = "Address".toList then some (.value (.complex none [("City".toList, .simple false (some true))]))
    else if n = "Friends".toList then some (.many 3)
    else if n = "Partner".toList then some (.one 4)
    else if n = "Parent".toList then some (.one 5)
    else if n = "Twin".toList then some (.one 0)
    else none
  hasStream _ := false
  streamType _ _ := .ok (plain "image" "png")
  isMedia c := c == 2
  mType _ := none
  binary _ := false
  expand _ _ := .ok ()
  render _ _ _ := .ok ()
  insert _ _ s := (.ok 3, s + 1)
  insertMedia _ _ s := (.ok 3, s + 1)
  setStream _ _ _ s := (.ok (), s + 1)
  update _ _ s := (.ok (), s + 1)
  delete _ s := (.ok (), s + 1)
  setValue _ _ _ _ s := (.ok (), s + 1)
  nullValue _ _ s := (.ok (), s + 1)
  link _ _ s := (.ok (), s + 1)
  replace _ _ s := (.ok (), s + 1)
  unlink _ _ s := (.ok (), s + 1)

/-- A URI of the demonstration. -/
def demoURI (nav : List (Str × Keys)) (o : Option PathOpt := none) (sys : List (SysOpt × OptValue) := [])
    (links : Option Str := none) : ODataURI := ⟨some ['/'], ⟨nav, o, links⟩, ⟨sys, [], []⟩⟩

/-- The key of the customer 1. -/
def key1 : Keys := some [([], .int32 1)]

/-- The hypotheses of `path_leads_partial` and `path_status` are met by a path that leads to a part of a complex value, by one to an
entity that a key picks among the friends of a customer, and by paths that break off with each of the errors. -/
theorem path_leads_example :
    (∃ v, Leads demo 0 [("Customers".toList, key1), ("Address".toList, none), ("City".toList, none)]
      (.value ["Address".toList, "City".toList] v, some 1)) ∧
    Leads demo 0 [("Customers".toList, key1), ("Friends".toList, some [("ID".toList, .int32 2)])] (.entity 2, some 1) ∧
    Leads demo 0 [("Customers".toList, key1), ("Partner".toList, none)] (.nothing, some 1) ∧
    Breaks demo 0 [("Customers".toList, key1), ("Age".toList, none)] .missing ∧
    Breaks demo 0 [("Customers".toList, none), ("Name".toList, none)] .bad ∧
    Breaks demo 0 [("Customers".toList, key1), ("Twin".toList, none)] .navigation ∧
    ¬ Calls demo [("Customers".toList, key1), ("Twin".toList, none)] := by
  have h1 : Leads demo 0 [("Customers".toList, key1)] (.entity 1, none) := by
    refine .entity (c := 0) rfl ⟨_, [.int32 1], rfl, by simp, key_values_partial.mp rfl, rfl⟩
  refine ⟨⟨.simple false (some true), ?_⟩, ?_, ?_, ?_, ?_, ?_, ?_⟩
  · exact .step (.step h1 (.value rfl)) (.field rfl)
  · exact .step h1 (.member (c := 3) rfl ⟨_, [.int32 2], rfl, by simp, key_values_partial.mp rfl, rfl⟩)
  · exact .step h1 (.none (c := 4) rfl (.inl rfl) rfl)
  · exact .stop (before := [_]) h1 (.property rfl)
  · exact .stop (before := [_]) (.set (c := 0) rfl (.inl rfl)) .collection
  · exact .stop (before := [_]) h1 (.several (c := 0) rfl (.inl rfl) rfl)
  · rintro ⟨run, h⟩
    have : demo.search "Customers".toList = some (.set 0) := rfl
    rw [this] at h
    cases h

/-- **C163 refuted.**  Keys are accepted where there is nothing to pick: after the name of a property, after the name of a part
of a complex value, and after the name of a function. -/
theorem path_keys_refuted :
    (∃ v, getResource demo (demoURI [("Customers".toList, key1), ("Name".toList, key1)]) 0 =
      (.ok (.value ["Name".toList] v, some 1), 0)) ∧
    (∃ v, getResource demo (demoURI [("Customers".toList, key1), ("Address".toList, key1), ("City".toList, key1)]) 0 =
      (.ok (.value ["Address".toList, "City".toList] v, some 1), 0)) ∧
    (∃ v, getResource demo (demoURI [("Answer".toList, key1)]) 0 = (.ok (.value [] v, none), 0)) := ⟨⟨_, rfl⟩, ⟨_, rfl⟩, ⟨_, rfl⟩⟩

/-- **C164**: the order of the keys of a segment does not matter. -/
theorem key_order {names : List Str} {d d' : List (Str × Lit)} (h : ∀ n, Dict.get d n = Dict.get d' n) :
    getKey names d = getKey names d' := by
  unfold getKey
  simp only [h]

/-- Keys in an order of their own, and a key without a name. -/
theorem key_example :
    getKey ["Order".toList, "Line".toList] [("Line".toList, .int32 8), ("Order".toList, .int32 7)] = some [.int32 7, .int32 8] ∧
    getKey ["ID".toList] [([], .int32 8)] = some [.int32 8] ∧
    getKey ["Order".toList, "Line".toList] [([], .int32 8)] = none ∧
    getKey ["Order".toList, "Line".toList] [("Line".toList, .int32 8)] = none := by decide

/-- **C164 refuted.**  Keys with names that are no key properties are ignored, if the others suffice. -/
theorem key_names_refuted :
    getKey ["ID".toList] [("ID".toList, .int32 1), ("Colour".toList, .int32 5)] = some [.int32 1] ∧
    getResource demo (demoURI [("Customers".toList, some [("ID".toList, .int32 1), ("Colour".toList, .int32 5)])]) 0 =
      (.ok (.entity 1, none), 0) := ⟨by decide, rfl⟩

/-! ## C165: options -/

theorem check_iff {u : ODataURI} {n : Nat} :
    (check u n = .ok () ∧ ∀ o v, Dict.get u.query.sys o = some v → o ∈ supported n) ∨
    (check u n = .error .queryOption ∧ ∃ o v, Dict.get u.query.sys o = some v ∧ o ∉ supported n) := by
  unfold check validate
  cases h : u.query.sys.all fun x => (supported n).contains x.1 with
  | true =>
    left
    refine ⟨rfl, fun o v hg => ?_⟩
    obtain ⟨x, hx, rfl⟩ := get_mem hg
    have := List.all_eq_true.mp h x hx
    simpa using this
  | false =>
    right
    refine ⟨rfl, ?_⟩
    obtain ⟨x, hx, hn⟩ := List.all_eq_false.mp h
    obtain ⟨v, hv⟩ := mem_get hx
    exact ⟨x.1, v, hv, by simpa using hn⟩

/-- **C165**: for a resource that was found, the system query options of the request must be those that OData allows for it:
otherwise the request is refused with `InvalidSystemQueryOption`.  No entity is a resource only for `$links`. -/
theorem options_resource (u : ODataURI) (r : Resource E C F) (p : Option E) :
    ((∃ o v, Dict.get u.query.sys o = some v ∧ ¬ ResourceAllows u.path.option r o) → lastTests u r p = .error .queryOption) ∧
    ((∀ o v, Dict.get u.query.sys o = some v → ResourceAllows u.path.option r o) →
      (r = .nothing → p = none ∨ u.path.option = some .links) → lastTests u r p = .ok (r, p)) ∧
    (r = .nothing → p ≠ none → u.path.option ≠ some .links → lastTests u r p = .error .missing) := by
  have key : ∀ n, (∀ o, o ∈ supported n ↔ ResourceAllows u.path.option r o) → lastTests u r p = (check u n).map (fun _ => (r, p)) →
      ((∃ o v, Dict.get u.query.sys o = some v ∧ ¬ ResourceAllows u.path.option r o) → lastTests u r p = .error .queryOption) ∧
      ((∀ o v, Dict.get u.query.sys o = some v → ResourceAllows u.path.option r o) → lastTests u r p = .ok (r, p)) := by
    intro n hn hl
    rw [hl]
    rcases check_iff (u := u) (n := n) with ⟨h1, h2⟩ | ⟨h1, o, v, h2, h3⟩
    · rw [h1]
      exact ⟨fun ⟨o, v, hv, hno⟩ => absurd ((hn o).mp (h2 o v hv)) hno, fun _ => rfl⟩
    · rw [h1]
      exact ⟨fun _ => rfl, fun h => absurd ((hn o).mpr (h o v h2)) h3⟩
  cases r with
  | service =>
    refine ⟨fun ⟨o, v, _, h⟩ => absurd trivial h, fun _ _ => rfl, fun h => by cases h⟩
  | functions f =>
    refine ⟨fun ⟨o, v, _, h⟩ => absurd trivial h, fun _ _ => rfl, fun h => by cases h⟩
  | collection c =>
    have := key 1 (fun o => by cases o <;> simp [supported, SysOpt.all, ResourceAllows]) rfl
    exact ⟨this.1, fun h _ => this.2 h, fun h => by cases h⟩
  | entity e =>
    by_cases h1 : u.path.option = some .value
    · have := key 17 (fun o => by rw [h1]; cases o <;> simp [supported, ResourceAllows]) (by simp [lastTests, h1])
      exact ⟨this.1, fun h _ => this.2 h, fun h => by cases h⟩
    · by_cases h2 : u.path.option = some .links
      · refine ⟨fun ⟨o, v, _, h⟩ => absurd (by rw [h2]; trivial) h, fun _ _ => by simp [lastTests, h2], fun h => by cases h⟩
      · have hall : ∀ o, ResourceAllows (E := E) (C := C) (F := F) u.path.option (.entity e) o ↔ o ∈ [.expand, .filter, .format, .select] := by
          intro o
          rcases hopt : u.path.option with _ | (_ | _ | _ | _ | _)
          all_goals first | exact absurd hopt h1 | exact absurd hopt h2 | exact Iff.rfl
        have := key 2 (fun o => (hall o).symm) (by simp [lastTests, h1, h2])
        exact ⟨this.1, fun h _ => this.2 h, fun h => by cases h⟩
  | value path v =>
    cases v with
    | simple a b =>
      have := key 4 (fun o => by cases o <;> simp [supported, ResourceAllows]) rfl
      exact ⟨this.1, fun h _ => this.2 h, fun h => by cases h⟩
    | complex b fields =>
      have := key 3 (fun o => by cases o <;> simp [supported, ResourceAllows]) rfl
      exact ⟨this.1, fun h _ => this.2 h, fun h => by cases h⟩
  | nothing =>
    refine ⟨fun ⟨o, v, _, h⟩ => absurd trivial h, fun _ h => ?_, fun _ h1 h2 => ?_⟩
    · unfold lastTests
      rcases h rfl with rfl | h
      · simp
      · simp [h]
    · unfold lastTests
      have : p.isSome = true := by cases p <;> simp_all
      simp [this, h2]

/-- Filters go with customers and with their addresses, not with their names; and `$top` only with collections. -/
theorem options_resource_example :
    let filter : SysOpt × OptValue := (.filter, .filter (.lit (.bool true)))
    (∃ x, getResource demo (demoURI [("Customers".toList, key1)] none [filter]) 0 = (.ok x, 0)) ∧
    (∃ x, getResource demo (demoURI [("Customers".toList, key1), ("Address".toList, none)] none [filter]) 0 = (.ok x, 0)) ∧
    getResource demo (demoURI [("Customers".toList, key1), ("Name".toList, none)] none [filter]) 0 = (.error .queryOption, 0) ∧
    (∃ x, getResource demo (demoURI [("Customers".toList, none)] none [(.top, .top 1)]) 0 = (.ok x, 0)) ∧
    getResource demo (demoURI [("Customers".toList, key1)] none [(.top, .top 1)]) 0 = (.error .queryOption, 0) ∧
    getResource demo (demoURI [("Customers".toList, key1), ("Partner".toList, none)]) 0 = (.error .missing, 0) ∧
    (∃ x, getResource demo (demoURI [("Customers".toList, key1), ("Partner".toList, none)] (some .links)) 0 = (.ok x, 0)) :=
  ⟨⟨_, rfl⟩, ⟨_, rfl⟩, rfl, ⟨_, rfl⟩, rfl, rfl, ⟨_, rfl⟩⟩

end Verif.Props
