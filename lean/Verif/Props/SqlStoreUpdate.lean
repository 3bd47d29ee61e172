import Verif.Props.SqlStoreKept

/-!
# What a successful update of a SQL store leaves in it
-/

namespace Verif.Props.ST

open Verif.OData.Store Verif.Spec.Store

variable {α β : Type} {env : Env} {S : Schema}

/-- No entity is lost or gets other data. -/
def Same (d d' : DB) : Prop := ∀ s k data, Holds d s k data → Holds d' s k data

/-- A method that, if it succeeds, loses no entity and changes the data of none. -/
def Keep (m : M α) : Prop := ∀ t t' w w' (x : α), m (t, w) = (.ok x, t', w') → Same w.current w'.current

theorem same_refl (d : DB) : Same d d := fun _ _ _ h => h

theorem keep_pure (x : α) : Keep (pure x : M α) := by
  intro t t' w w' y h
  rw [pure_run] at h
  injection h with _ h
  injection h with _ h
  subst h
  exact same_refl _

theorem keep_raise (e : Exn) : Keep (raise e : M α) := fun _ _ _ _ _ h => (raise_ok h).elim

theorem keep_bind {m : M α} {f : α → M β} (hm : Keep m) (hf : ∀ x, Keep (f x)) : Keep (m >>= f) := by
  intro t t' w w' y h
  obtain ⟨x, ⟨t1, w1⟩, h1, h2⟩ := bind_ok h
  exact fun s k data hh => hf x _ _ _ _ _ h2 s k data (hm _ _ _ _ _ h1 s k data hh)

theorem keep_ite {p : Prop} [Decidable p] {a b : M α} (ha : p → Keep a) (hb : ¬ p → Keep b) : Keep (if p then a else b) := by
  intro t t' w w' x h
  split at h
  · next hp => exact ha hp _ _ _ _ _ h
  · next hp => exact hb hp _ _ _ _ _ h

theorem keep_method {h : Option Exn} {body : M α} (hb : Keep body) : Keep (method env h body) := by
  intro t t' w w' x hm
  obtain ⟨t1, t2, w2, g, h2, -⟩ := method_ok hm
  rw [h2]
  exact hb _ _ _ _ _ g

theorem keep_own {m : M α} (hm : Keep m) : Keep (own m) := by
  intro t t' w w' x h
  obtain ⟨_, h⟩ := own_ok h
  exact hm _ _ _ _ _ h

theorem keep_execute {f : DB → DB × Nat} (hf : ∀ d, Same d (f d).1) : Keep (execute env f) := by
  intro t t' w w' x h
  obtain ⟨x1, -⟩ := execute_ok h
  rw [x1]
  exact hf _

theorem keep_isOld (b : Ent) : Keep (isOld b) := by
  intro t t' w w' x h
  simp only [isOld] at h
  injection h with _ h
  injection h with _ h
  subst h
  exact same_refl _

theorem keep_mark (oid : Nat) : Keep (mark oid) := by
  intro t t' w w' x h
  simp only [mark] at h
  injection h with _ h
  injection h with _ h
  subst h
  exact same_refl _

theorem keep_getitem (s : SetId) (k : Key) : Keep (getitem env s k) := by
  intro t t' w w' x h
  obtain ⟨q1, -⟩ := getitem_ok h
  rw [q1]
  exact same_refl _

theorem same_changeRows (p : SetId × Row → Bool) (f : Row → Row) (hf : ∀ r, (f r).key = r.key ∧ (f r).data = r.data) (d : DB) :
    Same d (changeRows p f d).1 := by
  rintro s k data ⟨r, h1, h2, h3⟩
  refine ⟨_, mem_changeRows h1, ?_⟩
  split
  · exact ⟨(hf r).1.trans h2, (hf r).2.trans h3⟩
  · exact ⟨h2, h3⟩

theorem keep_updateLink (k : Key) (e : End) (target : Option Key) (b : Bool) : Keep (updateLink env S k e target b) := by
  unfold updateLink
  refine keep_ite (fun _ => keep_raise _) fun _ => keep_method (keep_bind (keep_execute ?_) fun n => ?_)
  · exact same_changeRows _ _ fun r => ⟨rfl, rfl⟩
  · exact keep_ite (fun _ => keep_raise _) fun _ => keep_pure _

theorem keep_insertLink (e : End) (a b : Key) : Keep (insertLink env S e a b) := by
  unfold insertLink
  split
  · exact keep_updateLink _ _ _ _
  · exact keep_updateLink _ _ _ _
  · exact keep_method (keep_bind (keep_execute fun d => (grows_addLink e a b d).holds) fun _ => keep_pure _)

theorem keep_clearLinks (e : End) (a : Key) : Keep (clearLinks env S e a) := by
  unfold clearLinks
  split
  · exact keep_raise _
  · exact keep_method (keep_bind (keep_execute (same_changeRows _ _ fun r => ⟨rfl, rfl⟩)) fun _ => keep_pure _)
  · exact keep_method (keep_bind (keep_execute fun _ _ _ _ h => h) fun _ => keep_pure _)

theorem keep_relink (e : End) (a b : Key) : Keep (relink env S e a b) := by
  unfold relink
  refine keep_ite (fun _ => keep_insertLink _ _ _) fun _ => ?_
  unfold replaceLink
  split
  · exact keep_updateLink _ _ _ _
  · exact keep_ite (fun _ => keep_raise _) fun _ => keep_method (keep_bind (keep_clearLinks _ _) fun _ => keep_insertLink _ _ _)
  · exact keep_ite (fun _ => keep_method (keep_bind (keep_clearLinks _ _) fun _ => keep_insertLink _ _ _)) fun _ => keep_raise _

mutual

theorem keep_insertIn : ∀ (b : Ent) (from_ : Option End) (fks : List (End × Key)) (ok : Bool),
    Keep (insertIn env S b from_ fks ok)
  | .mk set key data oid old navs, from_, fks, ok => by
    intro t t' w w' x h
    rw [insertIn] at h
    dsimp only at h
    by_cases he : (Ent.mk set key data oid old navs).existing w = true
    · rw [if_pos he] at h
      cases h
    · rw [if_neg he] at h
      refine keep_method (keep_bind (keep_before navs from_ fks ok) fun fks' => ?_) _ _ _ _ _ h
      refine keep_ite (fun _ => ?_) fun _ => keep_raise _
      exact keep_bind (keep_execute fun d => (grows_insertRow _ _ d).holds) fun _ => keep_bind (keep_mark _) fun _ => keep_after navs key

theorem keep_before : ∀ (navs : Navs) (from_ : Option End) (fks : List (End × Key)) (ok : Bool),
    Keep (before env S from_ fks ok navs)
  | .nil, _, _, _ => by rw [before]; exact keep_pure _
  | .cons e bs rest, from_, fks, ok => by
    rw [before.eq_def]
    refine keep_ite (fun _ => keep_before rest _ _ _) fun _ => ?_
    refine keep_ite (fun _ => keep_raise _) fun _ => ?_
    match bs with
    | .nil => exact keep_ite (fun _ => keep_raise _) fun _ => keep_before rest _ _ _
    | .key k more =>
      refine keep_ite (fun _ => ?_) fun _ => keep_before rest _ _ _
      match more with
      | .nil =>
        refine keep_bind (keep_getitem _ _) fun _ => ?_
        exact keep_ite (fun _ => keep_before rest _ _ _) fun _ => keep_raise _
      | .key _ _ => exact keep_raise _
      | .ent _ _ => exact keep_raise _
    | .ent b more =>
      refine keep_ite (fun _ => ?_) fun _ => keep_before rest _ _ _
      match more with
      | .nil =>
        refine keep_bind (keep_isOld _) fun _ => keep_ite (fun _ => ?_) fun _ => keep_bind (keep_insertIn b _ _ _) fun _ => ?_
        · exact keep_ite (fun _ => keep_before rest _ _ _) fun _ => keep_raise _
        · exact keep_ite (fun _ => keep_before rest _ _ _) fun _ => keep_raise _
      | .key _ _ => exact keep_raise _
      | .ent _ _ => exact keep_raise _

theorem keep_after : ∀ (navs : Navs) (key : Key), Keep (after env S key navs)
  | .nil, _ => by rw [after]; exact keep_pure _
  | .cons e bs rest, key => by
    rw [after]
    exact keep_ite (fun _ => keep_after rest key) fun _ =>
      keep_bind (keep_afterBinds bs key e) fun _ => keep_after rest key

theorem keep_afterBinds : ∀ (bs : Binds) (key : Key) (e : End), Keep (afterBinds env S key e bs)
  | .nil, _, _ => by rw [afterBinds]; exact keep_pure _
  | .key k more, key, e => by
    rw [afterBinds]
    exact keep_bind (keep_getitem _ _) fun _ => keep_bind (keep_insertLink _ _ _) fun _ => keep_afterBinds more key e
  | .ent b more, key, e => by
    rw [afterBinds]
    refine keep_bind (keep_isOld _) fun _ => ?_
    dsimp only
    have hrest : Keep (afterBinds env S key e more) := keep_afterBinds more key e
    refine keep_ite (fun _ => keep_bind (keep_insertLink _ _ _) fun _ => hrest) fun _ => ?_
    refine keep_ite (fun _ => keep_bind (keep_insertIn b _ _ _) fun _ => hrest) fun _ => ?_
    exact keep_bind (keep_insertIn b _ _ _) fun _ => keep_bind (keep_insertLink _ _ _) fun _ => hrest

end

theorem keep_updateBinds (key : Key) (e : End) : ∀ bs : Binds, Keep (updateBinds env S key e bs)
  | .nil => by rw [updateBinds]; exact keep_pure _
  | .key k more => by
    rw [updateBinds]
    exact keep_bind (keep_getitem _ _) fun _ => keep_bind (keep_relink _ _ _) fun _ => keep_updateBinds key e more
  | .ent b more => by
    rw [updateBinds]
    refine keep_bind (keep_isOld _) fun _ => ?_
    dsimp only
    have hrest : Keep (updateBinds env S key e more) := keep_updateBinds key e more
    refine keep_ite (fun _ => keep_bind (keep_relink _ _ _) fun _ => hrest) fun _ => ?_
    refine keep_ite (fun _ => keep_ite (fun _ => ?_) fun _ => keep_bind (keep_clearLinks _ _) fun _ => ?_) fun _ => ?_
    · exact keep_bind (keep_insertIn b _ _ _) fun _ => hrest
    · exact keep_bind (keep_insertIn b _ _ _) fun _ => hrest
    · exact keep_bind (keep_own (keep_insertIn b _ _ _)) fun _ => keep_bind (keep_relink _ _ _) fun _ => hrest

theorem keep_afterUpdate (key : Key) : ∀ navs : Navs, Keep (afterUpdate env S key navs)
  | .nil => by rw [afterUpdate]; exact keep_pure _
  | .cons e bs rest => by
    rw [afterUpdate]
    exact keep_ite (fun _ => keep_afterUpdate key rest) fun _ =>
      keep_bind (keep_updateBinds key e bs) fun _ => keep_afterUpdate key rest

/-! ## Nesting -/

theorem level_relink (e : End) (a b : Key) : Level (relink env S e a b) := by
  unfold relink
  refine level_ite (fun _ => level_insertLink _ _ _) fun _ => ?_
  unfold replaceLink
  split
  · exact level_updateLink _ _ _ _
  · exact level_ite (fun _ => level_raise _) fun _ =>
      level_method (level_bind (level_clearLinks _ _) fun _ => level_insertLink _ _ _)
  · exact level_ite (fun _ => level_method (level_bind (level_clearLinks _ _) fun _ => level_insertLink _ _ _)) fun _ => level_raise _

theorem level_updateBinds (key : Key) (e : End) : ∀ bs : Binds, Level (updateBinds env S key e bs)
  | .nil => by rw [updateBinds]; exact level_pure _
  | .key k more => by
    rw [updateBinds]
    exact level_bind (level_getitem _ _) fun _ => level_bind (level_relink _ _ _) fun _ => level_updateBinds key e more
  | .ent b more => by
    rw [updateBinds]
    refine level_bind (level_isOld _) fun _ => ?_
    dsimp only
    have hrest : Level (updateBinds env S key e more) := level_updateBinds key e more
    refine level_ite (fun _ => level_bind (level_relink _ _ _) fun _ => hrest) fun _ => ?_
    refine level_ite (fun _ => level_ite (fun _ => ?_) fun _ => level_bind (level_clearLinks _ _) fun _ => ?_) fun _ => ?_
    · exact level_bind (level_insertIn b _ _) fun _ => hrest
    · exact level_bind (level_insertIn b _ _) fun _ => hrest
    · exact level_bind (level_own _) fun _ => level_bind (level_relink _ _ _) fun _ => hrest

theorem level_afterUpdate (key : Key) : ∀ navs : Navs, Level (afterUpdate env S key navs)
  | .nil => by rw [afterUpdate]; exact level_pure _
  | .cons e bs rest => by
    rw [afterUpdate]
    exact level_ite (fun _ => level_afterUpdate key rest) fun _ =>
      level_bind (level_updateBinds key e bs) fun _ => level_afterUpdate key rest

theorem level_beforeUpdate : ∀ (navs : Navs) (fks : List (End × Key)), Level (beforeUpdate env S fks navs)
  | .nil, _ => by rw [beforeUpdate]; exact level_pure _
  | .cons e bs rest, fks => by
    rw [beforeUpdate.eq_def]
    refine level_ite (fun _ => ?_) fun _ => level_beforeUpdate rest _
    match bs with
    | .nil => exact level_beforeUpdate rest _
    | .key k .nil => exact level_bind (level_getitem _ _) fun _ => level_beforeUpdate rest _
    | .key k (.key _ _) => exact level_raise _
    | .key k (.ent _ _) => exact level_raise _
    | .ent b .nil =>
      refine level_bind (level_isOld _) fun _ => level_ite (fun _ => level_beforeUpdate rest _) fun _ => ?_
      exact level_bind (level_own _) fun _ => level_beforeUpdate rest _
    | .ent b (.key _ _) => exact level_raise _
    | .ent b (.ent _ _) => exact level_raise _

/-! ## New entities through a foreign key of the entity -/

/-- An insertion with the transaction for the foreign keys never succeeds. -/
theorem insertIn_false {b : Ent} {from_ : Option End} {fks : List (End × Key)} {t t' : Trans} {w w' : World}
    (h : insertIn env S b from_ fks false (t, w) = (.ok (), t', w')) : False := by
  cases b with
  | mk set key data oid old navs =>
    rw [insertIn] at h
    dsimp only at h
    by_cases he : (Ent.mk set key data oid old navs).existing w = true
    · rw [if_pos he] at h
      cases h
    · rw [if_neg he] at h
      obtain ⟨t1, t2, w2, g, -, -⟩ := method_ok h
      obtain ⟨_, s1, -, g⟩ := bind_ok g
      simp only [Bool.false_eq_true, if_false] at g
      exact raise_ok g

/-- The marks are all that matters. -/
theorem readOwn_marked (S : Schema) {w w1 : World} (h : w1.marked = w.marked) : ∀ navs : Navs, readOwn S w1 navs = readOwn S w navs
  | .nil => by rw [readOwn.eq_def, readOwn.eq_def]
  | .cons e bs rest => by
    rw [readOwn.eq_def S w1, readOwn.eq_def S w]
    simp only [readOwn_marked S h rest]
    cases bs with
    | nil => rfl
    | key _ _ => rfl
    | ent b _ =>
      cases b
      simp only [Ent.existing, h]

/-- If the first step of an update succeeds, it has changed nothing, and the bindings it has seen are to existing entities. -/
theorem beforeUpdate_ok : ∀ (navs : Navs) (fks : List (End × Key)) {fks' : List (End × Key)} {t t' : Trans} {w w' : World},
    beforeUpdate env S fks navs (t, w) = (.ok fks', t', w') →
    w'.current = w.current ∧ w'.marked = w.marked ∧ (∀ p ∈ fks, p ∈ fks') ∧ readOwn S w navs = true
  | .nil, fks, fks', t, t', w, w', h => by
    rw [beforeUpdate, pure_run] at h
    injection h with h1 h
    injection h1 with h1
    injection h with _ h
    subst h; subst h1
    exact ⟨rfl, rfl, fun _ h => h, rfl⟩
  | .cons e bs rest, fks, fks', t, t', w, w', h => by
    rw [beforeUpdate.eq_def] at h
    simp only at h
    rw [readOwn.eq_def]
    simp only
    split at h
    · next hc =>
      cases bs with
      | nil =>
        obtain ⟨r1, r2, r3, r4⟩ := beforeUpdate_ok rest fks h
        exact ⟨r1, r2, r3, by rw [r4]; simp⟩
      | key k more =>
        cases more with
        | nil =>
          obtain ⟨_, ⟨t1, w1⟩, hg, g⟩ := bind_ok h
          obtain ⟨q1, q2, -⟩ := getitem_ok hg
          obtain ⟨r1, r2, r3, r4⟩ := beforeUpdate_ok rest _ g
          refine ⟨r1.trans q1, r2.trans q2, fun p hp => r3 p (List.mem_append_left _ hp), ?_⟩
          rw [readOwn_marked S q2] at r4
          rw [r4]; simp
        | key _ _ => exact (raise_ok h).elim
        | ent _ _ => exact (raise_ok h).elim
      | ent b more =>
        cases more with
        | nil =>
          simp only at h
          obtain ⟨old, ⟨t1, w1⟩, hg, g⟩ := bind_ok h
          have ho : old = b.existing w ∧ t1 = t ∧ w1 = w := by
            simp only [isOld] at hg
            injection hg with hg1 hg2
            injection hg1 with hg1
            injection hg2 with hg2 hg3
            exact ⟨hg1.symm, hg2.symm, hg3.symm⟩
          obtain ⟨ho1, ho2, ho3⟩ := ho
          subst ho2; subst ho3
          cases old with
          | true =>
            simp only [if_true] at g
            obtain ⟨r1, r2, r3, r4⟩ := beforeUpdate_ok rest _ g
            refine ⟨r1, r2, fun p hp => r3 p (List.mem_append_left _ hp), ?_⟩
            rw [r4]; simp [← ho1]
          | false =>
            simp only [Bool.false_eq_true, if_false] at g
            obtain ⟨_, ⟨t2, w2⟩, hi, g⟩ := bind_ok g
            obtain ⟨_, hi⟩ := own_ok hi
            exact (insertIn_false hi).elim
        | key _ _ => exact (raise_ok h).elim
        | ent _ _ => exact (raise_ok h).elim
    · next hc =>
      obtain ⟨r1, r2, r3, r4⟩ := beforeUpdate_ok rest fks h
      refine ⟨r1, r2, r3, ?_⟩
      rw [r4]
      have : decide (S.place e = .own ∧ S.nav e = true) = false := by simpa using hc
      rw [this]; simp

/-- **After an update without an exception the entity has its new data**, it is committed, and every other entity is there with the
data it had. -/
theorem update_stores (S : Schema) (set key data oid : Nat) (old : Bool) (navs : Navs) (env : Env) (d : DB) (clock : Nat)
    (marked : List Nat) (h : (call (updateEntity env S (.mk set key data oid old navs)) (quiet d clock marked)).1 = .ok ()) :
    Holds (call (updateEntity env S (.mk set key data oid old navs)) (quiet d clock marked)).2.committed set key data ∧
      ∀ s k x, (s ≠ set ∨ k ≠ key) → Holds d s k x →
        Holds (call (updateEntity env S (.mk set key data oid old navs)) (quiet d clock marked)).2.committed s k x := by
  simp only [call] at h ⊢
  rcases hr : updateEntity env S (.mk set key data oid old navs) (Trans.new, quiet d clock marked) with ⟨r, t, w⟩
  rw [hr] at h
  simp only at h ⊢
  subst h
  rw [updateEntity] at hr
  dsimp only at hr
  by_cases he : (Ent.mk set key data oid old navs).existing (quiet d clock marked) = true
  · rw [if_neg (by simpa using he)] at hr
    have hc : w.committed = w.current := own_committed (level_bind (level_beforeUpdate navs []) fun fks =>
      level_bind (level_execute _) fun _ =>
        level_ite (fun _ => level_bind (level_raise _) fun _ => level_afterUpdate key navs) fun _ => level_afterUpdate key navs) hr
    obtain ⟨_, hr⟩ := own_ok hr
    obtain ⟨t1, t2, w2, g, h2, -⟩ := method_ok hr
    obtain ⟨fks, ⟨t3, w3⟩, hb, g⟩ := bind_ok g
    obtain ⟨n, ⟨t4, w4⟩, hx, g⟩ := bind_ok g
    obtain ⟨b1, -, -, -⟩ := beforeUpdate_ok navs [] hb
    obtain ⟨x1, x2, -, -⟩ := execute_ok hx
    have b1 : w3.current = d := b1
    rw [b1] at x1 x2
    by_cases hn : n = 0
    · rw [if_pos hn] at g
      obtain ⟨_, _, g, _⟩ := bind_ok g
      exact (raise_ok g).elim
    · rw [if_neg hn] at g
      have hk := keep_afterUpdate key navs _ _ _ _ _ g
      rw [hc, h2]
      refine ⟨hk _ _ _ ?_, fun s k x hne hh => hk _ _ _ ?_⟩
      · rw [x1]
        have hpos : 0 < d.rows.countP (fun x => decide (x.1 = set ∧ x.2.key = key)) := by
          rw [x2] at hn
          exact Nat.pos_of_ne_zero hn
        rw [List.countP_pos_iff] at hpos
        obtain ⟨⟨s', r⟩, hm, hp⟩ := hpos
        have hp' := of_decide_eq_true hp
        have hmem := mem_changeRows (p := fun x => decide (x.1 = set ∧ x.2.key = key))
          (f := fun r => { r with data := data, fks := fks ++ r.fks.filter fun p => ¬ fks.any fun q => q.1 = p.1 }) hm
        rw [if_pos hp] at hmem
        simp only at hp'
        rw [hp'.1] at hmem
        exact ⟨_, hmem, hp'.2, rfl⟩
      · rw [x1]
        obtain ⟨r, hm, hrk, hrd⟩ := hh
        refine ⟨_, mem_changeRows hm, ?_⟩
        split
        · next hp =>
          exfalso
          have hp' := of_decide_eq_true hp
          rcases hne with hne | hne
          · exact hne hp'.1
          · exact hne (hrk.symm.trans hp'.2)
        · exact ⟨hrk, hrd⟩
  · rw [if_pos he] at hr
    cases hr

/-- An update that binds a new entity where the entity itself has the foreign key never succeeds (sqlds:1392). -/
theorem update_new_own_fails (S : Schema) (set key data oid : Nat) (old : Bool) (navs : Navs) (env : Env) (d : DB) (clock : Nat)
    (marked : List Nat) (hnew : readOwn S (quiet d clock marked) navs = false) :
    ∃ e, (call (updateEntity env S (.mk set key data oid old navs)) (quiet d clock marked)).1 = .error e := by
  rcases hc : (call (updateEntity env S (.mk set key data oid old navs)) (quiet d clock marked)).1 with e | u
  · exact ⟨e, rfl⟩
  · exfalso
    simp only [call] at hc
    rcases hr : updateEntity env S (.mk set key data oid old navs) (Trans.new, quiet d clock marked) with ⟨r, t, w⟩
    rw [hr] at hc
    simp only at hc
    subst hc
    rw [updateEntity] at hr
    dsimp only at hr
    by_cases he : (Ent.mk set key data oid old navs).existing (quiet d clock marked) = true
    · rw [if_neg (by simpa using he)] at hr
      obtain ⟨_, hr⟩ := own_ok hr
      obtain ⟨t1, t2, w2, g, h2, -⟩ := method_ok hr
      obtain ⟨fks, ⟨t3, w3⟩, hb, g⟩ := bind_ok g
      obtain ⟨-, -, -, b4⟩ := beforeUpdate_ok navs [] hb
      rw [hnew] at b4
      cases b4
    · rw [if_pos he] at hr
      cases hr

end Verif.Props.ST
