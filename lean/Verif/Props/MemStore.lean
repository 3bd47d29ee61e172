import Verif.Lemmas.MemStore

/-!
# Properties of the entity store

C108: what is written is read back.  C109: inserting adds an entity and replaces none.  C110: selecting properties does
not change which entities are returned.  C111: a key is in a collection exactly if the collection lists it.  C112: a
media stream belongs to the entity it was given to.
-/

set_option linter.unusedVariables false
set_option linter.unusedSimpArgs false

namespace Verif.Props

open Verif Verif.MemStore Verif.Spec.MemStore

/-- A collection without query options. -/
def everything : Coll := { select := none, filter := none }

/-! ### C108 -/

theorem keyOf_names (t : EType) (e e' : Ent) (h : e.vals = e'.vals) : keyOf t e = keyOf t e' := by
  unfold keyOf; rw [h]

theorem setKey_names (t : EType) (e : Ent) (k : Int) : (setKey t e k).vals.map (·.1) = e.vals.map (·.1) := by
  unfold setKey
  simp only [List.map_map]
  apply List.map_congr_left
  intro p _
  simp only [Function.comp]
  split <;> rfl

theorem setKey_fits (t : EType) (ht : TypeOk t) (e : Ent) (k : Int) (h : EntFits t e) : EntFits t (setKey t e k) := by
  refine ⟨by rw [setKey_names, h.names], ?_⟩
  have hs := ht.simple
  have hn := h.names
  have hv := h.values
  unfold setKey
  generalize t.props = ps at *
  clear h ht
  generalize e.vals = vs at *
  induction ps generalizing vs with
  | nil => cases vs with
    | nil => simp [FitsAll]
    | cons _ _ => simp at hn
  | cons p ps ih =>
    cases vs with
    | nil => simp at hn
    | cons v vs =>
      simp only [List.map_cons, List.cons.injEq] at hn
      simp only [List.map_cons, FitsAll] at hv ⊢
      refine ⟨?_, ih (fun p hp => hs p (List.mem_cons_of_mem _ hp)) vs hn.2 hv.2⟩
      split
      · rename_i hc
        obtain ⟨d, hd⟩ := hs p (by simp) (by rw [← hn.1]; simpa using hc)
        rw [hd]
        simp [Fits]
      · exact hv.1

theorem setKey_get (t : EType) (e : Ent) (k : Int) (n : Str) (hn : n ∉ t.keys) :
    Dict.get (setKey t e k).vals n = Dict.get e.vals n := by
  unfold setKey
  simp only
  induction e.vals with
  | nil => rfl
  | cons p vs ih =>
    rw [List.map_cons, Dict.get_cons, Dict.get_cons, ih]
    by_cases hp : t.keys.contains p.1
    · rw [if_pos hp]
      have : p.1 ≠ n := by intro he; subst he; simp at hp; exact hn hp
      simp [this]
    · rw [if_neg hp]

/-- The parts of a successful insertion. -/
theorem insert_inv {t : EType} {c : Coll} {st st' : Store} {e : Ent} {key : Key} (h : insert t c st e = .ok (key, st')) :
    ∃ (e' : Ent) (st1 : Store), st1.data = st.data ∧ st1.streams = st.streams ∧ keyOf t e' = .ok key ∧
      e'.selected = e.selected ∧ e'.exists_ = false ∧ contains t c st1 key = .ok false ∧
      st' = { st1 with data := Dict.set st1.data key (toRow e') } ∧
      ((∃ k, keyOf t e = .ok k) → e' = e) ∧
      (∀ x, keyOf t e = .error x → ∃ k, nextKey t st = .ok (k, st1) ∧ e' = setKey t e k) := by
  unfold MemStore.insert at h
  cases hk : keyOf t e with
  | ok k =>
    simp only [hk, bind, Except.bind] at h
    cases hc : contains t c st k with
    | error x => simp [hc] at h
    | ok b =>
      cases b
      · cases hx : e.exists_
        · simp [hc, hx, pure, Except.pure] at h
          exact ⟨e, st, rfl, rfl, by rw [hk, h.1], rfl, hx, by rw [← h.1]; exact hc, by rw [← h.1]; exact h.2.symm, fun _ => rfl, fun x hx => by cases hx⟩
        · simp [hc, hx, pure, Except.pure] at h
      · simp [hc, pure, Except.pure] at h
  | error x =>
    simp only [hk, bind, Except.bind] at h
    cases hn : nextKey t st with
    | error y => simp [hn] at h
    | ok r =>
      obtain ⟨k, st1⟩ := r
      have hst : st1.data = st.data ∧ st1.streams = st.streams := by
        unfold nextKey at hn
        cases hnk : st.nextKey with
        | some j => simp [hnk] at hn; obtain ⟨h1, h2⟩ := hn; subst h2; exact ⟨rfl, rfl⟩
        | none =>
          cases hnum : t.numericKey
          · simp [hnk, hnum] at hn
          · simp [hnk, hnum] at hn; obtain ⟨h1, h2⟩ := hn; subst h2; exact ⟨rfl, rfl⟩
      cases hx : e.exists_
      · simp only [hn, hx, pure, Except.pure, Bool.false_eq_true, if_false] at h
        cases hk2 : keyOf t (setKey t e k) with
        | error y => simp [hk2] at h
        | ok key2 =>
          simp only [hk2] at h
          cases hc : contains t c st1 key2 with
          | error x => simp [hc] at h
          | ok b =>
            cases b
            · have hx2 : (setKey t e k).exists_ = false := hx
              simp [hc, hx2] at h
              refine ⟨setKey t e k, st1, hst.1, hst.2, by rw [hk2, h.1], rfl, hx2, by rw [← h.1]; exact hc, by rw [← h.1]; exact h.2.symm, ?_, ?_⟩
              · rintro ⟨k', hk'⟩; cases hk'
              · intro x _; exact ⟨k, rfl, rfl⟩
            · simp [hc] at h
      · simp [hn, hx, pure, Except.pure] at h

/-- C108, partial. An entity whose properties are all selected is inserted: it is read back with the values that were
given (and a key, if it had none), its key is the key under which it is found, and all other entities are as before.
Missing: an entity with a selection (`insert_selected_refuted`). -/
theorem insert_read_partial (t : EType) (ht : TypeOk t) (c : Coll) (st st' : Store) (hst : StoreOk t st) (e : Ent)
    (hf : EntFits t e) (hs : e.selected = none) (key : Key) (h : insert t c st e = .ok (key, st')) :
    (∃ e', getItem t everything st' key = .ok e' ∧ keyOf t e' = .ok key ∧
      ((∃ k, keyOf t e = .ok k) → e'.vals = e.vals) ∧ (∀ n, n ∉ t.keys → Dict.get e'.vals n = Dict.get e.vals n)) ∧
    OthersKept st st' key ∧ StoreOk t st' := by
  obtain ⟨e', st1, h1, h2, hk, hsel, hex, hc, hst', hkey, hauto⟩ := insert_inv h
  have hfit : EntFits t e' := by
    cases hk2 : keyOf t e with
    | ok k => rw [hkey ⟨k, hk2⟩]; exact hf
    | error x => obtain ⟨k, _, he⟩ := hauto x hk2; rw [he]; exact setKey_fits t ht e k hf
  have hrow : toRow e' = e'.vals.map (·.2) := toRow_all e' (by rw [hsel]; exact hs)
  have hstok : StoreOk t st' := by
    rw [hst', h1]
    refine ⟨set_once _ _ hst.once, ?_⟩
    intro p hp
    rcases mem_set hp with hp | hp
    · subst hp; simp only; rw [hrow]; exact hfit.values
    · exact hst.aligned p hp
  refine ⟨?_, ?_, hstok⟩
  · refine ⟨{ vals := e'.vals, selected := none, exists_ := true }, ?_, ?_, ?_, ?_⟩
    · rw [getItem_aligned t everything st' hstok key]
      have : Dict.get st'.data key = some (toRow e') := by rw [hst']; simp [Dict.get_set]
      rw [this, hrow]
      simp [everything, checkFilter, project_all t.keys t.props e'.vals hfit.names]
    · rw [← hk]; exact keyOf_names t _ _ rfl
    · intro hk2; rw [hkey hk2]
    · intro n hn
      cases hk2 : keyOf t e with
      | ok k => rw [hkey ⟨k, hk2⟩]
      | error x => obtain ⟨k, _, he⟩ := hauto x hk2; rw [he]; exact setKey_get t e k n hn
  · intro k hk2
    rw [hst', ← h1, ← h2]
    simp [Dict.get_set, hk2]

/-- C108. An entity is updated: afterwards its selected properties are those that were given, its other properties are
as before, and all other entities are as before.  The update is refused only if there is no such entity. -/
theorem update_read (t : EType) (ht : TypeOk t) (st : Store) (hst : StoreOk t st) (e : Ent) (hf : EntFits t e) (key : Key)
    (hk : keyOf t e = .ok key) :
    (Dict.has st.data key = true → ∃ st', update t st e = .ok st') ∧
    ∀ st', update t st e = .ok st' →
      (∃ old new, getItem t everything st key = .ok old ∧ getItem t everything st' key = .ok new ∧
        Overwritten e old.vals new.vals ∧ Dict.get st'.streams key = Dict.get st.streams key) ∧
      OthersKept st st' key ∧ StoreOk t st' := by
  constructor
  · intro hh
    obtain ⟨row, hrow⟩ := (Dict.has_iff _ _).mp hh
    obtain ⟨row', hu, _⟩ := updateRow_fits e (t.props.map (·.2)) e.vals row hf.values (aligned_get hst hrow)
    exact ⟨{ st with data := Dict.set st.data key row' }, by simp only [update, hk, hrow, hu, bind, Except.bind]⟩
  · intro st' h
    unfold update at h
    simp only [hk, bind, Except.bind] at h
    cases hrow : Dict.get st.data key with
    | none => simp [hrow] at h
    | some row =>
      obtain ⟨row', hu, hfit⟩ := updateRow_fits e (t.props.map (·.2)) e.vals row hf.values (aligned_get hst hrow)
      simp [hrow, hu] at h
      have hstok : StoreOk t st' := by
        rw [← h]
        refine ⟨set_once _ _ hst.once, ?_⟩
        intro p hp
        rcases mem_set hp with hp | hp
        · subst hp; exact hfit
        · exact hst.aligned p hp
      refine ⟨?_, ?_, hstok⟩
      · refine ⟨readEnt t none row, readEnt t none row', ?_, ?_, ?_, by rw [← h]⟩
        · rw [getItem_aligned t everything st hst key, hrow]
          simp [everything, checkFilter]
          rfl
        · rw [getItem_aligned t everything st' hstok key]
          have : Dict.get st'.data key = some row' := by rw [← h]; simp [Dict.get_set]
          rw [this]
          simp [everything, checkFilter]
          rfl
        · intro n
          exact updateRow_get e t.keys n t.props e.vals row row' hf.names (aligned_get hst hrow) hu
      · intro k hk2
        rw [← h]
        simp [Dict.get_set, hk2]

/-- C108. Reading with a selection gives the selected properties and the keys as they are, the others as null. -/
theorem select_read (t : EType) (st : Store) (hst : StoreOk t st) (sel : List Str) (key : Key) (full : Ent)
    (h : getItem t everything st key = .ok full) :
    ∃ e, getItem t { select := some sel, filter := none } st key = .ok e ∧
      ∀ n ∈ t.props.map (·.1), Dict.get e.vals n =
        if n ∈ sel ∨ "*".toList ∈ sel ∨ n ∈ t.keys then Dict.get full.vals n else (Dict.get t.props n).map null := by
  rw [getItem_aligned t everything st hst key] at h
  rw [getItem_aligned t _ st hst key]
  cases hrow : Dict.get st.data key with
  | none => simp [hrow] at h
  | some row =>
    simp [hrow, everything, checkFilter] at h
    refine ⟨_, by simp [checkFilter]; rfl, ?_⟩
    intro n hn
    simp only
    rw [← h]
    have hw : wanted t.keys (some (selection t sel)) n = decide (n ∈ sel ∨ "*".toList ∈ sel ∨ n ∈ t.keys) := by
      simp only [wanted, selection]
      rw [Bool.eq_iff_iff]
      simp only [Bool.or_eq_true, List.contains_iff_mem, List.mem_filter, decide_eq_true_eq, hn, true_and]
      rw [or_assoc]
    by_cases hc : n ∈ sel ∨ "*".toList ∈ sel ∨ n ∈ t.keys
    · rw [if_pos hc]
      exact project_get t.keys _ n (by rw [hw]; simpa using hc) t.props row
    · rw [if_neg hc]
      exact project_get_not t.keys _ n (by rw [hw]; simpa using hc) t.props row (aligned_get hst hrow)

/-- An operation that gives only whole, fitting entities. -/
def WholeOp (t : EType) : Op → Prop
  | .insert _ e => EntFits t e ∧ e.selected = none
  | .update e => EntFits t e
  | _ => True

theorem nextKey_same {t : EType} {st st' : Store} {k : Int} (h : nextKey t st = .ok (k, st')) :
    st'.data = st.data ∧ st'.streams = st.streams := by
  unfold nextKey at h
  cases hnk : st.nextKey with
  | some j => simp [hnk] at h; obtain ⟨h1, h2⟩ := h; subst h2; exact ⟨rfl, rfl⟩
  | none =>
    cases hnum : t.numericKey
    · simp [hnk, hnum] at h
    · simp [hnk, hnum] at h; obtain ⟨h1, h2⟩ := h; subst h2; exact ⟨rfl, rfl⟩

/-- The state of every history of such operations is as the theorems above need it. -/
theorem store_ok (t : EType) (ht : TypeOk t) (ops : List Op) (h : ∀ op ∈ ops, WholeOp t op) (st : Store) (hst : StoreOk t st) :
    StoreOk t (ops.foldl (step t) st) := by
  induction ops generalizing st with
  | nil => exact hst
  | cons op ops ih =>
    refine ih (fun o ho => h o (List.mem_cons_of_mem _ ho)) _ ?_
    have hop := h op (by simp)
    cases op with
    | insert c e =>
      simp only [step]
      split
      · rename_i r hr
        exact (insert_read_partial t ht c st r.2 hst e hop.1 hop.2 r.1 hr).2.2
      · exact hst
    | update e =>
      simp only [step]
      split
      · rename_i st' hr
        cases hk : keyOf t e with
        | error x => simp [update, hk, bind, Except.bind] at hr
        | ok key => exact ((update_read t ht st hst e hop key hk).2 st' hr).2.2
      · exact hst
    | delete key =>
      simp only [step]
      split
      · rename_i st' hr
        unfold delete at hr
        split at hr
        · cases hr
          exact ⟨del_once _ hst.once, fun p hp => hst.aligned p (List.mem_filter.mp hp).1⟩
        · cases hr
      · exact hst
    | stream e ty bs =>
      simp only [step]
      split
      · rename_i st' hr
        unfold setStream at hr
        cases hk : keyOf t e with
        | error x => simp [hk, bind, Except.bind] at hr
        | ok key => simp [hk, bind, Except.bind] at hr; subst hr; exact ⟨hst.once, hst.aligned⟩
      · exact hst
    | newKey =>
      simp only [step]
      split
      · rename_i r hr
        have := nextKey_same (k := r.1) (st' := r.2) hr
        exact ⟨by rw [this.1]; exact hst.once, by rw [this.1]; exact hst.aligned⟩
      · exact hst

/-! An entity type for examples: an integer key, a name and a price. -/

/-- The properties `ID`, `Name` and `Price`. -/
def exampleType : EType :=
  { props := [("ID".toList, .simple none), ("Name".toList, .simple none), ("Price".toList, .simple none)],
    keys := ["ID".toList], numericKey := true }

/-- An entity of the example type. -/
def exampleEnt (id name price : Option Atom) (sel : Option (List Str)) : Ent :=
  { vals := [("ID".toList, .atom id), ("Name".toList, .atom name), ("Price".toList, .atom price)],
    selected := sel, exists_ := false }

/-- The empty store. -/
def emptyStore : Store := { data := [], streams := [], nextKey := none }

/-- The simple value of a property that was read. -/
def readAtom (r : Except SErr Ent) (n : Str) : Option (Option Atom) :=
  match r with
  | .ok e => match Dict.get e.vals n with
    | some (.atom v) => some v
    | _ => none
  | .error _ => none

theorem exampleType_ok : TypeOk exampleType := by
  refine ⟨by decide, by decide, ?_, fun _ => ⟨_, rfl⟩⟩
  intro p hp hk
  simp [exampleType] at hp
  rcases hp with h | h | h <;> subst h <;> exact ⟨_, rfl⟩

theorem exampleEnt_fits (a b c : Option Atom) (s) : EntFits exampleType (exampleEnt a b c s) :=
  ⟨rfl, by simp [exampleType, exampleEnt, FitsAll, Fits]⟩

/-- The store after inserting one entity with key 1. -/
def oneEntity : Store := step exampleType emptyStore (.insert everything (exampleEnt (some (.int 1)) (some (.text "Pen".toList)) (some (.int 5)) none))

/-- C108, refuted. An entity with a selection is inserted: the values are kept without the places of those not
selected, so that they are read back as the values of other properties. -/
theorem insert_selected_refuted :
    let e := exampleEnt (some (.int 1)) none (some (.int 5)) (some ["ID".toList, "Price".toList])
    let st := step exampleType emptyStore (.insert everything e)
    EntFits exampleType e ∧
    readAtom (getItem exampleType everything st [some (.int 1)]) "Price".toList = some none ∧
    readAtom (getItem exampleType everything st [some (.int 1)]) "Name".toList = some (some (.int 5)) :=
  ⟨exampleEnt_fits _ _ _ _, by decide +kernel, by decide +kernel⟩

/-- Non-vacuity of `insert_read_partial`, `update_read` and `select_read`. -/
theorem store_hypotheses :
    StoreOk exampleType oneEntity ∧
    readAtom (getItem exampleType everything oneEntity [some (.int 1)]) "Name".toList = some (some (.text "Pen".toList)) ∧
    readAtom (getItem exampleType { select := some ["Price".toList], filter := none } oneEntity [some (.int 1)]) "Name".toList = some none ∧
    readAtom (getItem exampleType everything (step exampleType oneEntity (.update (exampleEnt (some (.int 1)) none (some (.int 7))
      (some ["Price".toList])))) [some (.int 1)]) "Name".toList = some (some (.text "Pen".toList)) ∧
    readAtom (getItem exampleType everything (step exampleType oneEntity (.update (exampleEnt (some (.int 1)) none (some (.int 7))
      (some ["Price".toList])))) [some (.int 1)]) "Price".toList = some (some (.int 7)) := by
  refine ⟨?_, by decide +kernel, by decide +kernel, by decide +kernel, by decide +kernel⟩
  exact store_ok exampleType exampleType_ok [.insert everything _] (by
    intro op hop
    simp at hop
    subst hop
    exact ⟨exampleEnt_fits _ _ _ _, rfl⟩) emptyStore ⟨by simp [emptyStore], by simp [emptyStore]⟩

/-! ### C109 -/

/-- C109. The next key is free. -/
theorem next_key_free (t : EType) (st st' : Store) (k : Int) (h : nextKey t st = .ok (k, st')) :
    Dict.has st.data [some (.int k)] = false := by
  unfold nextKey at h
  have hb : ∀ j, keysFrom st.data j < st.data.length + 1 := fun j => by have := keysFrom_le st.data j; omega
  cases hnk : st.nextKey with
  | some j => simp [hnk] at h; rw [← h.1]; exact firstFree_free _ _ _ (hb _)
  | none =>
    cases hnum : t.numericKey
    · simp [hnk, hnum] at h
    · simp [hnk, hnum] at h; rw [← h.1]; exact firstFree_free _ _ _ (hb _)

/-- C109, partial. Inserting through a collection without a filter, or an entity without a key, replaces no entity: there
was none with that key.  Missing: a collection with a filter (`insert_filtered_refuted`). -/
theorem insert_new_partial (t : EType) (ht : TypeOk t) (c : Coll) (st st' : Store) (hst : StoreOk t st) (e : Ent)
    (hf : EntFits t e) (key : Key) (h : insert t c st e = .ok (key, st'))
    (hc : c.filter = none ∨ ∃ x, keyOf t e = .error x ∧ t.numericKey = true) :
    Dict.get st.data key = none ∧ ∀ k, Dict.has st.data k = true → Dict.get st'.data k = Dict.get st.data k := by
  obtain ⟨e', st1, h1, h2, hk, hsel, hex, hcon, hst', hkey, hauto⟩ := insert_inv h
  have hnone : Dict.get st.data key = none := by
    rcases hc with hc | ⟨x, hx, hnum⟩
    · have hst1 : StoreOk t st1 := ⟨by rw [h1]; exact hst.once, by rw [h1]; exact hst.aligned⟩
      unfold contains at hcon
      rw [getItem_aligned t c st1 hst1 key, h1] at hcon
      cases hg : Dict.get st.data key with
      | none => rfl
      | some row => simp [hg, checkFilter, hc] at hcon
    · obtain ⟨k, hn, he⟩ := hauto x hx
      have hfree := next_key_free t st st1 k hn
      obtain ⟨kn, hkn⟩ := ht.numeric hnum
      have hkey2 : key = [some (.int k)] := by
        rw [he] at hk
        unfold keyOf at hk
        rw [hkn] at hk
        have hmem : kn ∈ e.vals.map (·.1) := by rw [hf.names]; exact ht.keys kn (by rw [hkn]; simp)
        have : Dict.get (setKey t e k).vals kn = some (.atom (some (.int k))) := by
          unfold setKey
          simp only
          clear hk h hauto hkey he hf
          generalize e.vals = vs at hmem ⊢
          induction vs with
          | nil => simp at hmem
          | cons p vs ih =>
            rw [List.map_cons, Dict.get_cons]
            by_cases hp : p.1 = kn
            · subst hp; simp [hkn]
            · rw [if_neg (by split <;> exact hp)]
              simp only [List.map_cons, List.mem_cons] at hmem
              exact ih (hmem.resolve_left (fun h => hp h.symm))
        simp [this] at hk
        exact hk.symm
      rw [hkey2]
      exact (Dict.not_has_iff _ _).mp hfree
  refine ⟨hnone, ?_⟩
  intro k hk2
  have hne : k ≠ key := by
    intro he
    subst he
    rw [Dict.has, hnone] at hk2
    simp at hk2
  rw [hst', ← h1]
  simp [Dict.get_set, hne]

/-- C109, refuted. Inserting through a collection with a filter replaces an entity that the filter hides. -/
theorem insert_filtered_refuted :
    let cheap : Coll := { select := none, filter := some fun vs => match Dict.get vs "Price".toList with
      | some (.atom (some (.int i))) => decide (i < 3)
      | _ => false }
    let e := exampleEnt (some (.int 1)) (some (.text "Cup".toList)) (some (.int 2)) none
    (insert exampleType cheap oneEntity e).toOption.isSome = true ∧
    readAtom (getItem exampleType everything oneEntity [some (.int 1)]) "Name".toList = some (some (.text "Pen".toList)) ∧
    readAtom (getItem exampleType everything (step exampleType oneEntity (.insert cheap e)) [some (.int 1)]) "Name".toList =
      some (some (.text "Cup".toList)) :=
  ⟨by decide +kernel, by decide +kernel, by decide +kernel⟩

/-- Non-vacuity of `insert_new_partial`: an entity without a key gets the next one. -/
theorem insert_new_hypotheses :
    keyOf exampleType (exampleEnt none (some (.text "Cup".toList)) (some (.int 2)) none) = .error .key ∧
    ((insert exampleType everything oneEntity (exampleEnt none (some (.text "Cup".toList)) (some (.int 2)) none)).toOption.map (·.1)) =
      some [some (.int 2)] := ⟨rfl, by decide +kernel⟩

/-! ### C110 -/

/-- C110, partial. A selection that includes what the filter and the ordering rules look at does not change which entities
are listed, or their order.  Missing: other selections (`select_hides_refuted`). -/
theorem select_same_partial (t : EType) (ht : TypeOk t) (st : Store) (hst : StoreOk t st) (sel : List Str)
    (filter : Option (List (Str × Val) → Bool)) (rules : List ((List (Str × Val) → List (Str × Val) → Bool) × Bool))
    (hf : ∀ f, filter = some f → DependsOn (selection t sel ++ t.keys) f)
    (hr : ∀ r ∈ rules, (∀ vs, DependsOn (selection t sel ++ t.keys) (r.1 vs)) ∧
      ∀ vs, DependsOn (selection t sel ++ t.keys) (fun ws => r.1 ws vs)) :
    ∃ es es', itervalues t { select := some sel, filter := filter } rules st = .ok es ∧
      itervalues t { select := none, filter := filter } rules st = .ok es' ∧ es.map (·.1) = es'.map (·.1) := by
  unfold itervalues
  rw [generate_eq t _ st.data hst.aligned, generate_eq t _ st.data hst.aligned]
  simp only [bind, Except.bind]
  refine ⟨_, _, rfl, rfl, ?_⟩
  -- both lists come from the same kept tuples
  have same : ∀ p ∈ st.data, ∀ (α : Type) (g : List (Str × Val) → α), DependsOn (selection t sel ++ t.keys) g →
      g (readEnt t (some sel) p.2).vals = g (readEnt t none p.2).vals := by
    intro p hp α g hg
    have hfit := hst.aligned p hp
    refine hg _ _ ?_ ?_
    · show (project t.keys _ t.props p.2).map (·.1) = (project t.keys _ t.props p.2).map (·.1)
      rw [project_names _ _ _ _ hfit, project_names _ _ _ _ hfit]
    · intro n hn
      refine project_get t.keys _ n ?_ t.props p.2
      simp only [Option.map_some, wanted]
      simpa using hn
  have hfilt : ∀ p ∈ st.data, checkFilter { select := some sel, filter := filter } (readEnt t (some sel) p.2) =
      checkFilter { select := none, filter := filter } (readEnt t none p.2) := by
    intro p hp
    unfold checkFilter
    cases filter with
    | none => rfl
    | some f => exact same p hp _ f (hf f rfl)
  rw [List.filter_map, List.filter_map]
  rw [orderPlain_map, orderPlain_map]
  have hdata : List.filter ((fun p => checkFilter { select := some sel, filter := filter } p.2) ∘ fun p => (p.1, readEnt t (some sel) p.2)) st.data =
      List.filter ((fun p => checkFilter { select := none, filter := filter } p.2) ∘ fun p => (p.1, readEnt t none p.2)) st.data := by
    apply List.filter_congr
    intro p hp
    exact hfilt p hp
  rw [hdata]
  generalize hl : List.filter ((fun p => checkFilter { select := none, filter := filter } p.2) ∘ fun p => (p.1, readEnt t none p.2)) st.data = l
  have hlm : ∀ p ∈ l, p ∈ st.data := by intro p hp; rw [← hl] at hp; exact (List.mem_filter.mp hp).1
  have sortsame : ∀ (le le' : Key × Row → Key × Row → Bool) (l : List (Key × Row)), (∀ a ∈ l, ∀ b ∈ l, le a b = le' a b) →
      Paging.stableSort le l = Paging.stableSort le' l := by
    intro le le' l h
    have ins : ∀ (x : Key × Row) (m : List (Key × Row)), (∀ b ∈ m, le x b = le' x b) →
        Paging.insertSorted le x m = Paging.insertSorted le' x m := by
      intro x m hm
      induction m with
      | nil => rfl
      | cons y m ih =>
        simp only [Paging.insertSorted, hm y (by simp), ih (fun b hb => hm b (List.mem_cons_of_mem _ hb))]
    induction l with
    | nil => rfl
    | cons x l ih =>
      show Paging.insertSorted le x (Paging.stableSort le l) = Paging.insertSorted le' x (Paging.stableSort le' l)
      rw [ih (fun a ha b hb => h a (List.mem_cons_of_mem _ ha) b (List.mem_cons_of_mem _ hb))]
      apply ins
      intro b hb
      exact h x (by simp) b (List.mem_cons_of_mem _ ((Paging.stableSort_perm l).mem_iff.mp hb))
  have ordersame : Paging.orderPlain (List.map (fun r => (fun a b => r.1 ((fun p => (p.1, readEnt t (some sel) p.2)) a) ((fun p => (p.1, readEnt t (some sel) p.2)) b), r.2))
        (rules.map fun r => ((fun (a b : Key × Ent) => r.1 a.2.vals b.2.vals), r.2))) l =
      Paging.orderPlain (List.map (fun r => (fun a b => r.1 ((fun p => (p.1, readEnt t none p.2)) a) ((fun p => (p.1, readEnt t none p.2)) b), r.2))
        (rules.map fun r => ((fun (a b : Key × Ent) => r.1 a.2.vals b.2.vals), r.2))) l := by
    clear hf hfilt hdata hl
    induction rules with
    | nil => rfl
    | cons r rs ih =>
      simp only [List.map_cons]
      rw [orderPlain_cons, orderPlain_cons]
      have ih := ih (fun r' h => hr r' (List.mem_cons_of_mem _ h))
      simp only at ih
      rw [ih]
      apply sortsame
      intro a ha b hb
      have ha := hlm a ((orderPlain_perm _ _).mem_iff.mp ha)
      have hb := hlm b ((orderPlain_perm _ _).mem_iff.mp hb)
      have key : ∀ a ∈ st.data, ∀ b ∈ st.data, r.1 (readEnt t (some sel) a.2).vals (readEnt t (some sel) b.2).vals =
          r.1 (readEnt t none a.2).vals (readEnt t none b.2).vals := by
        intro a ha b hb
        rw [same b hb _ _ ((hr r (by simp)).1 _)]
        exact same a ha _ (fun ws => r.1 ws (readEnt t none b.2).vals) ((hr r (by simp)).2 _)
      cases r.2
      · exact key a ha b hb
      · exact key b hb a ha
  have goal := congrArg (List.map (·.1)) ordersame
  simp only [List.map_map, Function.comp_def] at goal ⊢
  exact goal

/-- C110, partial. The number of entities of a collection is the number of those it lists, if there is no selection or no
filter. -/
theorem count_partial (t : EType) (st : Store) (hst : StoreOk t st) (c : Coll) (rules)
    (h : c.select = none ∨ c.filter = none) :
    ∃ es, itervalues t c rules st = .ok es ∧ length t c st = .ok es.length := by
  unfold itervalues length
  rw [generate_eq t _ st.data hst.aligned]
  refine ⟨_, rfl, ?_⟩
  rw [(orderPlain_perm _ _).length_eq]
  cases hf : c.filter with
  | none =>
    simp only
    congr 1
    rw [List.filter_eq_self.mpr, List.length_map]
    intro p _
    simp [checkFilter, hf]
  | some f =>
    rcases h with h | h
    · simp only
      have : ({ select := none, filter := some f } : Coll) = c := by cases c; simp at h hf; simp [h, hf]
      rw [this, generate_eq t _ st.data hst.aligned]
      rfl
    · rw [hf] at h; cases h

/-- C110, refuted. A selection hides from the filter what it looks at: with the selection `Name` the collection of
everything that costs more than 3 lists nothing, although it says that it has one entity, and lists it without the
selection. -/
theorem select_hides_refuted :
    let dear : Option (List (Str × Val) → Bool) := some fun vs => match Dict.get vs "Price".toList with
      | some (.atom (some (.int i))) => decide (3 < i)
      | _ => false
    let named : Coll := { select := some ["Name".toList], filter := dear }
    (itervalues exampleType { select := none, filter := dear } [] oneEntity).toOption.map List.length = some 1 ∧
    (itervalues exampleType named [] oneEntity).toOption.map List.length = some 0 ∧
    length exampleType named oneEntity = .ok 1 :=
  ⟨by decide +kernel, by decide +kernel, by decide +kernel⟩

/-- Non-vacuity of `select_same_partial`: a filter that looks at the selected property. -/
theorem select_same_hypotheses :
    DependsOn (selection exampleType ["Price".toList] ++ exampleType.keys) (fun vs => match Dict.get vs "Price".toList with
      | some (.atom (some (.int i))) => decide (3 < i)
      | _ => false) := by
  intro vs vs' _ h
  have := h "Price".toList (by decide)
  simp only [this]

/-! ### C111 -/

/-- C111. A key is in a collection of an entity set exactly if the collection lists the entity with this key, and then
looking it up gives the entity that is listed. -/
theorem member_listed (t : EType) (st : Store) (hst : StoreOk t st) (c : Coll) (rules) (k : Key) :
    ∃ es, itervalues t c rules st = .ok es ∧
      (contains t c st k = .ok true ↔ k ∈ es.map (·.1)) ∧
      (∀ e, getItem t c st k = .ok e ↔ (k, e) ∈ es) := by
  unfold itervalues
  rw [generate_eq t _ st.data hst.aligned]
  refine ⟨_, rfl, ?_⟩
  have hget : ∀ e, getItem t c st k = .ok e ↔ (k, e) ∈ Paging.orderPlain
      (rules.map fun r => ((fun (a b : Key × Ent) => r.1 a.2.vals b.2.vals), r.2))
      ((st.data.map fun p => (p.1, readEnt t c.select p.2)).filter fun p => checkFilter c p.2) := by
    intro e
    rw [(orderPlain_perm _ _).mem_iff, List.mem_filter, List.mem_map, getItem_aligned t c st hst k]
    constructor
    · intro h
      cases hg : Dict.get st.data k with
      | none => simp [hg] at h
      | some row =>
        simp only [hg] at h
        split at h
        · rename_i hc
          have := Except.ok.inj h
          subst this
          exact ⟨⟨(k, row), Dict.mem_of_get hg, rfl⟩, hc⟩
        · cases h
    · rintro ⟨⟨p, hp, he⟩, hc⟩
      obtain ⟨k', row⟩ := p
      simp only [Prod.mk.injEq] at he
      obtain ⟨h1, h2⟩ := he
      subst h1
      rw [get_of_mem hst.once hp]
      subst h2
      simp only
      exact if_pos hc
  refine ⟨?_, hget⟩
  unfold contains
  cases hg : getItem t c st k with
  | ok e =>
    simp only [true_iff]
    exact List.mem_map.mpr ⟨(k, e), (hget e).mp hg, rfl⟩
  | error x =>
    constructor
    · intro h
      cases x <;> simp at h
    · intro h
      obtain ⟨p, hp, he⟩ := List.mem_map.mp h
      obtain ⟨k', e⟩ := p
      simp only at he
      subst he
      rw [(hget e).mpr hp] at hg
      cases hg

/-- C111, partial. The same for the entities linked to an entity, if there is no filter.  Missing: a filter
(`nav_member_refuted`). -/
theorem nav_member_partial (t : EType) (st : Store) (hst : StoreOk t st) (linked : List Key)
    (hl : ∀ k ∈ linked, Dict.has st.data k = true) (c : Coll) (hc : c.filter = none) (k : Key) :
    ∃ es, navGenerate t c st linked = .ok es ∧ ∀ e, navGetItem t c st linked k = .ok e ↔ (k, e) ∈ es := by
  have hgen : ∀ (ks : List Key), (∀ k ∈ ks, Dict.has st.data k = true) →
      ∃ es, navGenerate t c st ks = .ok es ∧
        ∀ k e, (k, e) ∈ es ↔ k ∈ ks ∧ getItem t { select := none, filter := none } st k = .ok e := by
    intro ks
    induction ks with
    | nil => intro _; exact ⟨[], rfl, by simp⟩
    | cons j ks ih =>
      intro h
      obtain ⟨es, he, hes⟩ := ih (fun k hk => h k (List.mem_cons_of_mem _ hk))
      obtain ⟨row, hrow⟩ := (Dict.has_iff _ _).mp (h j (by simp))
      have hj : ∃ e, getItem t { select := none, filter := none } st j = .ok e := by
        rw [getItem_aligned t _ st hst j, hrow]
        exact ⟨_, by simp [checkFilter]; rfl⟩
      obtain ⟨e, hj⟩ := hj
      refine ⟨(j, e) :: es, by simp [navGenerate, hj, he, checkFilter, hc, bind, Except.bind], ?_⟩
      intro k e'
      rw [List.mem_cons, hes, List.mem_cons]
      constructor
      · rintro (h | h)
        · cases h; exact ⟨.inl rfl, hj⟩
        · exact ⟨.inr h.1, h.2⟩
      · rintro ⟨h | h, h2⟩
        · subst h; rw [hj] at h2; cases h2; exact .inl rfl
        · exact .inr ⟨h, h2⟩
  obtain ⟨es, he, hes⟩ := hgen linked hl
  refine ⟨es, he, ?_⟩
  intro e
  rw [hes]
  unfold navGetItem
  by_cases hk : k ∈ linked
  · rw [if_pos (by simpa using hk)]
    cases hg : getItem t { select := none, filter := none } st k with
    | ok e' => simp [bind, Except.bind, hc, checkFilter, hk]
    | error x => simp [bind, Except.bind]
  · rw [if_neg (by simpa using hk)]
    simp [hk]

/-- C111, refuted. With a filter, looking up a linked entity finds it even though the filter hides it from the listing. -/
theorem nav_member_refuted :
    let cheap : Coll := { select := none, filter := some fun vs => match Dict.get vs "Price".toList with
      | some (.atom (some (.int i))) => decide (i < 3)
      | _ => false }
    (navGenerate exampleType cheap oneEntity [[some (.int 1)]]).toOption.map List.length = some 0 ∧
    (navGetItem exampleType cheap oneEntity [[some (.int 1)]] [some (.int 1)]).toOption.isSome = true :=
  ⟨by decide +kernel, by decide +kernel⟩

/-! ### C112 -/

/-- An operation that gives streams only to entities that exist. -/
def StreamOk (t : EType) (st : Store) : Op → Prop
  | .stream e _ _ => ∀ k, keyOf t e = .ok k → Dict.has st.data k = true
  | _ => True

/-- A history of such operations. -/
def StreamsOk (t : EType) : Store → List Op → Prop
  | _, [] => True
  | st, op :: ops => StreamOk t st op ∧ StreamsOk t (step t st op) ops

/-- Every stream is the stream of an entity. -/
def StreamsOwned (st : Store) : Prop := ∀ k, Dict.has st.streams k = true → Dict.has st.data k = true

theorem store_has_set {κ β : Type} [DecidableEq κ] (d : List (κ × β)) (k k' : κ) (v : β) :
    Dict.has (Dict.set d k v) k' = (decide (k' = k) || Dict.has d k') := by
  unfold Dict.has
  rw [Dict.get_set]
  by_cases h : k' = k <;> simp [h]

theorem store_has_del {κ β : Type} [DecidableEq κ] (d : List (κ × β)) (k k' : κ) :
    Dict.has (Dict.del d k) k' = (!decide (k' = k) && Dict.has d k') := by
  unfold Dict.has
  rw [Dict.get_del]
  by_cases h : k' = k <;> simp [h]

theorem streams_step (t : EType) (st : Store) (op : Op) (h : StreamsOwned st) (hop : StreamOk t st op) :
    StreamsOwned (step t st op) := by
  cases op with
  | insert c e =>
    simp only [step]
    split
    · rename_i r hr
      obtain ⟨e', st1, h1, h2, _, _, _, _, hst', _, _⟩ := insert_inv (key := r.1) (st' := r.2) hr
      intro k hk
      rw [hst'] at hk ⊢
      simp only at hk ⊢
      rw [store_has_set, h1, h k (by rw [← h2]; exact hk)]
      simp
    · exact h
  | update e =>
    simp only [step]
    split
    · rename_i st' hr
      unfold update at hr
      cases hk : keyOf t e with
      | error x => simp [hk, bind, Except.bind] at hr
      | ok key =>
        simp only [hk, bind, Except.bind] at hr
        cases hrow : Dict.get st.data key with
        | none => simp [hrow] at hr
        | some row =>
          simp only [hrow] at hr
          cases hu : updateRow e e.vals row with
          | error x => simp [hu] at hr
          | ok row' =>
            simp [hu] at hr
            intro k hk
            rw [← hr] at hk ⊢
            simp only at hk ⊢
            rw [store_has_set, h k hk]
            simp
    · exact h
  | delete key =>
    simp only [step]
    split
    · rename_i st' hr
      unfold delete at hr
      split at hr
      · cases hr
        intro k hk
        simp only at hk ⊢
        rw [store_has_del] at hk ⊢
        simp at hk ⊢
        exact ⟨hk.1, h k hk.2⟩
      · cases hr
    · exact h
  | stream e ty bs =>
    simp only [step]
    split
    · rename_i st' hr
      unfold setStream at hr
      cases hk : keyOf t e with
      | error x => simp [hk, bind, Except.bind] at hr
      | ok key =>
        simp [hk, bind, Except.bind] at hr
        subst hr
        intro k hk2
        simp only at hk2 ⊢
        rw [store_has_set] at hk2
        simp at hk2
        rcases hk2 with hk2 | hk2
        · subst hk2; exact hop _ hk
        · exact h k hk2
    · exact h
  | newKey =>
    simp only [step]
    split
    · rename_i r hr
      have := nextKey_same (k := r.1) (st' := r.2) hr
      intro k hk
      rw [this.2] at hk
      rw [this.1]
      exact h k hk
    · exact h

/-- C112, partial. In every history in which streams are given to entities that exist: a new entity has an empty stream,
whatever entities with the same key there were before; giving an entity a stream gives it that stream, all blocks in
order, and changes no other; deleting an entity deletes its stream.  Missing: a stream given to an entity that no longer
exists (`stream_refuted`). -/
theorem streams_partial (t : EType) (ops : List Op) (h : StreamsOk t emptyStore ops) :
    let st := ops.foldl (step t) emptyStore
    (∀ c e key st', insert t c st e = .ok (key, st') → Dict.get st.data key = none →
      readStream st' key = .ok ("application/octet-stream".toList, [])) ∧
    (∀ e ty bs st' key, keyOf t e = .ok key → setStream t st e ty bs = .ok st' →
      (Dict.has st.data key = true → readStream st' key = .ok (ty, bs.flatten)) ∧
      ∀ k, k ≠ key → readStream st' k = readStream st k) ∧
    (∀ key st', delete st key = .ok st' → readStream st' key = .error .key ∧ ∀ k, k ≠ key → readStream st' k = readStream st k) := by
  have howned : StreamsOwned (ops.foldl (step t) emptyStore) := by
    have : ∀ st, StreamsOwned st → StreamsOk t st ops → StreamsOwned (ops.foldl (step t) st) := by
      clear h
      induction ops with
      | nil => intro st h _; exact h
      | cons op ops ih => intro st h h2; exact ih _ (streams_step t st op h h2.1) h2.2
    exact this emptyStore (by intro k hk; simp [emptyStore, Dict.has] at hk) h
  generalize ops.foldl (step t) emptyStore = st at howned ⊢
  refine ⟨?_, ?_, ?_⟩
  · intro c e key st' hi hnone
    obtain ⟨e', st1, h1, h2, _, _, _, _, hst', _, _⟩ := insert_inv hi
    unfold readStream
    have hs : Dict.get st'.streams key = none := by
      rw [hst']
      simp only
      rw [h2]
      cases hg : Dict.get st.streams key with
      | none => rfl
      | some s =>
        have := howned key (by simp [Dict.has, hg])
        rw [Dict.has, hnone] at this
        cases this
    rw [hs]
    rw [if_pos (by rw [hst']; simp [store_has_set])]
  · intro e ty bs st' key hk hs
    unfold setStream at hs
    simp [hk, bind, Except.bind] at hs
    subst hs
    refine ⟨?_, ?_⟩
    · intro hh
      simp [readStream, hh, Dict.get_set]
    · intro k hne
      unfold readStream
      simp only
      rw [Dict.get_set, if_neg hne]
  · intro key st' hd
    unfold delete at hd
    split at hd
    · cases hd
      refine ⟨?_, ?_⟩
      · unfold readStream
        simp only
        rw [if_neg (by simp [store_has_del])]
      · intro k hne
        unfold readStream
        simp only
        rw [store_has_del, Dict.get_del, if_neg hne, decide_eq_false hne, Bool.not_false, Bool.true_and]
    · cases hd

/-- C112, refuted. A stream given to an entity object after the entity was deleted becomes the stream of the next entity
with that key. -/
theorem stream_refuted :
    let old := exampleEnt (some (.int 1)) (some (.text "Pen".toList)) (some (.int 5)) none
    let st := [Op.insert everything old, .delete [some (.int 1)], .stream old "text/plain".toList ["secret".toList],
      .insert everything (exampleEnt (some (.int 1)) (some (.text "Cup".toList)) (some (.int 2)) none)].foldl (step exampleType) emptyStore
    readStream st [some (.int 1)] = .ok ("text/plain".toList, "secret".toList) := by
  decide +kernel

/-- Non-vacuity of `streams_partial`. -/
theorem streams_hypotheses :
    let e := exampleEnt (some (.int 1)) (some (.text "Pen".toList)) (some (.int 5)) none
    StreamsOk exampleType emptyStore [.insert everything e, .stream e "text/plain".toList ["a".toList, "b".toList], .delete [some (.int 1)],
      .insert everything e] := by
  refine ⟨trivial, ?_, trivial, trivial, trivial⟩
  intro k hk
  have : k = [some (.int 1)] := by
    have h2 : keyOf exampleType (exampleEnt (some (.int 1)) (some (.text "Pen".toList)) (some (.int 5)) none) = .ok [some (.int 1)] := rfl
    rw [h2] at hk
    exact (Except.ok.inj hk).symm
  subst this
  decide +kernel

end Verif.Props
