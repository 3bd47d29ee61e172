import Verif.Props.SqlStoreUpdate

/-!
# Changes of a SQL store that are made by halves

A lookup by key is a method with a transaction of its own on the same connection, and its commit is one for all that is not yet
committed there.
-/

namespace Verif.Props.ST

open Verif.OData.Store Verif.Spec.Store

/-- Pupils (set 0) and courses (set 1), many to many. -/
def school : Schema where
  set e := if e.2 then 1 else 0
  mult _ := .many
  nav _ := true
  ends s := if s = 0 then [(0, false)] else if s = 1 then [(0, true)] else []

/-- A database in which nothing fails, with the constraints of the tables. -/
def sound (S : Schema) : Env := { check := created S, fault := fun _ => none, rollbacks := true }

/-- A course. -/
def oneCourse : DB := { rows := [(1, ⟨7, 70, []⟩)], links := [] }

/-- The pupil without their courses. -/
def halfPupil : DB := { rows := [(1, ⟨7, 70, []⟩), (0, ⟨1, 10, []⟩)], links := [] }

/-- A new pupil with courses by their keys. -/
def pupil (bs : Binds) : Ent := .mk 0 1 10 100 false (.cons (0, false) bs .nil)

/-- A pupil is inserted with the courses 7 and 8, of which there is no 8: there is an exception, and the pupil is in the database,
without courses. -/
theorem insert_keys_failed :
    (call (insertEntity (sound school) school (pupil (.key 7 (.key 8 .nil)))) (quiet oneCourse 0 [])).1 = .error .key ∧
    (call (insertEntity (sound school) school (pupil (.key 7 (.key 8 .nil)))) (quiet oneCourse 0 [])).2.committed = halfPupil := by
  constructor <;> rfl

/-- Even if all goes well: a program that stops at the wrong moment leaves the pupil without their course. -/
theorem insert_keys_crash :
    (call (insertEntity (sound school) school (pupil (.key 7 .nil))) (quiet oneCourse 0 [])).1 = .ok () ∧
    halfPupil ∈ (call (insertEntity (sound school) school (pupil (.key 7 .nil))) (quiet oneCourse 0 [])).2.history := by
  constructor
  · rfl
  · have : (call (insertEntity (sound school) school (pupil (.key 7 .nil))) (quiet oneCourse 0 [])).2.history =
      [halfPupil, { halfPupil with links := [(0, 1, 7)] }] := rfl
    rw [this]
    simp

/-- Insertions with bindings by key are not all or nothing. -/
theorem insert_atomic_refuted : ¬ ∀ (S : Schema) (b : Ent), AllOrNothing fun env => insertEntity env S b := by
  intro h
  have := (h school (pupil (.key 7 (.key 8 .nil))) (sound school) oneCourse 0 [] rfl).failed .key insert_keys_failed.1
  rw [insert_keys_failed.2] at this
  exact absurd this (by decide)

/-- An update of the course 7 with a new pupil and with the pupil 9 that does not exist. -/
def courseUpdate : Ent := .mk 1 7 71 200 true (.cons (0, true) (.ent (.mk 0 1 10 201 false .nil) (.key 9 .nil)) .nil)

/-- There is an exception, and the course has its new data and there is a new pupil, but not in the course. -/
theorem update_failed :
    (call (updateEntity (sound school) school courseUpdate) (quiet oneCourse 0 [])).1 = .error .key ∧
    (call (updateEntity (sound school) school courseUpdate) (quiet oneCourse 0 [])).2.committed =
      { rows := [(1, ⟨7, 71, []⟩), (0, ⟨1, 10, []⟩)], links := [] } := by
  constructor <;> rfl

/-- Updates are not all or nothing if entities are bound by their keys, or new ones with an auxiliary table. -/
theorem update_atomic_refuted : ¬ ∀ (S : Schema) (b : Ent), AllOrNothing fun env => updateEntity env S b := by
  intro h
  have := (h school courseUpdate (sound school) oneCourse 0 [] rfl).failed .key update_failed.1
  rw [update_failed.2] at this
  exact absurd this (by decide)

/-- Only with a new entity through an auxiliary table, and no keys: if the program stops, the new data are there without the link. -/
theorem update_crash :
    (call (updateEntity (sound school) school (.mk 1 7 71 200 true (.cons (0, true) (.ent (.mk 0 1 10 201 false .nil) .nil) .nil)))
      (quiet oneCourse 0 [])).1 = .ok () ∧
    (call (updateEntity (sound school) school (.mk 1 7 71 200 true (.cons (0, true) (.ent (.mk 0 1 10 201 false .nil) .nil) .nil)))
      (quiet oneCourse 0 [])).2.history =
      [{ rows := [(1, ⟨7, 71, []⟩), (0, ⟨1, 10, []⟩)], links := [] },
        { rows := [(1, ⟨7, 71, []⟩), (0, ⟨1, 10, []⟩)], links := [(0, 1, 7)] }] := by
  constructor <;> rfl

/-! ## Deletion with other entities -/

/-- Customers (0) in clubs (3) with orders (1), which they need; orders with lines (2), which need them, with no navigation property
from the orders to the lines. -/
def shop : Schema where
  set e := match e with
    | (0, false) => 0
    | (0, true) => 1
    | (1, false) => 0
    | (1, true) => 3
    | (2, false) => 1
    | _ => 2
  mult e := match e with
    | (0, false) => .one
    | (2, false) => .one
    | _ => .many
  nav e := match e with
    | (2, false) => false
    | _ => true
  ends s := match s with
    | 0 => [(1, false), (0, false)]
    | 1 => [(0, true), (2, false)]
    | 2 => [(2, true)]
    | 3 => [(1, true)]
    | _ => []

/-- A customer in a club, with an order. -/
def oneCustomer : DB := { rows := [(0, ⟨1, 10, []⟩), (3, ⟨5, 50, []⟩), (1, ⟨2, 20, [((0, true), 1)]⟩)], links := [(1, 1, 5)] }

/-- The customer cannot be deleted: but they are no longer in their club. -/
theorem delete_failed :
    (call (deleteEntity (sound shop) shop 5 0 1) (quiet oneCustomer 0 [])).1 = .error .navigation ∧
    (call (deleteEntity (sound shop) shop 5 0 1) (quiet oneCustomer 0 [])).2.committed = { oneCustomer with links := [] } := by
  constructor <;> rfl

/-- Deletions are not all or nothing if other entities have to be deleted with the entity. -/
theorem delete_atomic_refuted : ¬ ∀ (S : Schema) (n : Nat) (set : SetId) (key : Key), AllOrNothing fun env => deleteEntity env S n set key := by
  intro h
  have := (h shop 5 0 1 (sound shop) oneCustomer 0 [] rfl).failed .navigation delete_failed.1
  rw [delete_failed.2] at this
  exact absurd this (by decide)

/-! ## Databases that cannot roll back -/

/-- A database that cannot roll back: the handler for it fails itself, and what has been done stays and is committed with the next
method. -/
theorem no_rollback (S : Schema) (set key data oid : Nat) (env : Env) (d : DB) (clock : Nat) (marked : List Nat)
    (hroll : env.rollbacks = false) (hq : env.fault clock = some false) (hnew : oid ∉ marked) :
    (call (insertEntity env S (.mk set key data oid false .nil)) (quiet d clock marked)).1 = .error .name := by
  have he : (Ent.mk set key data oid false .nil).existing (quiet d clock marked) = false := by
    simp only [Ent.existing, quiet, Bool.false_or]
    cases h : marked.contains oid
    · rfl
    · exact absurd (List.contains_iff_mem.mp h) hnew
  have hx : ∀ t, execute env (insertRow set ⟨key, data, []⟩) (t, quiet d clock marked) =
      (.error .database, t, { quiet d clock marked with clock := clock + 1 }) := by
    intro t
    simp only [execute, quiet, hq]
    rfl
  simp only [call, insertEntity, own, insertIn, he, Bool.false_eq_true, if_false, if_true]
  obtain ⟨r, s, h1, h2⟩ := method_run (env := env) (some .constraint) (do
    let fks ← before env S none [] true .nil
    let _ ← execute env (insertRow set ⟨key, data, fks⟩)
    mark oid
    after env S key .nil) Trans.new (quiet d clock marked)
  rw [h2]
  have : begin_ (Trans.new, quiet d clock marked) = (.ok (), { Trans.new with cursor := true }, quiet d clock marked) := rfl
  simp only [bind_run, this, before, pure_run, hx] at h1
  injection h1 with h1 h3
  subst h1; subst h3
  have hroll' : ∀ w' : World, rollback env ({ Trans.new with cursor := true }, w') =
      (.error .name, { Trans.new with cursor := true }, w') := by
    intro w'
    simp [rollback, Trans.new, hroll]
  simp only [hroll']

/-! ## Objects after a failure -/

/-- The commit of the insertion fails. -/
def badCommit : Env := { check := fun _ => true, fault := fun n => if n = 1 then some false else none, rollbacks := true }

/-- An insertion fails, the database is as before; the same object is inserted again: it is said to exist, though it does not. -/
theorem retry_refused :
    (call (insertEntity badCommit school (pupil .nil)) (quiet oneCourse 0 [])).1 = .error .sqlError ∧
    (call (insertEntity badCommit school (pupil .nil)) (quiet oneCourse 0 [])).2.committed = oneCourse ∧
    (call (insertEntity badCommit school (pupil .nil))
      (call (insertEntity badCommit school (pupil .nil)) (quiet oneCourse 0 [])).2).1 = .error .entityExists := by
  refine ⟨rfl, rfl, rfl⟩

/-- After a failed insertion that left the database as it was, the same insertion need not be possible, though the database no
longer fails. -/
theorem retry_refuted : ¬ ∀ (S : Schema) (b : Ent) (env : Env) (d : DB) (e : Exn),
    (call (insertEntity env S b) (quiet d 0 [])).1 = .error e →
    (call (insertEntity env S b) (quiet d 0 [])).2.committed = d →
    (call (insertEntity env S b) (call (insertEntity env S b) (quiet d 0 [])).2).1 ≠ .error .entityExists :=
  fun h => h school (pupil .nil) badCommit oneCourse .sqlError retry_refused.1 retry_refused.2.1 retry_refused.2.2

/-! ## Multiplicities -/

/-- **A link is not added to an entity that has one** where the entity itself has the foreign key. -/
theorem insertLink_occupied (S : Schema) (e : End) (a b : Key) (hp : S.place e = .own) (env : Env) (d : DB) (clock : Nat)
    (marked : List Nat) (h : ∀ r, (S.set e, r) ∈ d.rows → r.key = a → r.fk e ≠ none) :
    ∃ x, (call (own (insertLink env S e a b)) (quiet d clock marked)).1 = .error x := by
  rcases hc : (call (own (insertLink env S e a b)) (quiet d clock marked)).1 with x | u
  · exact ⟨x, rfl⟩
  · exfalso
    simp only [call] at hc
    rcases hr : own (insertLink env S e a b) (Trans.new, quiet d clock marked) with ⟨r, t, w⟩
    rw [hr] at hc
    simp only at hc
    subst hc
    obtain ⟨_, hr⟩ := own_ok hr
    simp only [insertLink, hp] at hr
    unfold updateLink at hr
    rw [if_neg (by simp)] at hr
    obtain ⟨t1, t2, w2, g, h2, -⟩ := method_ok hr
    obtain ⟨n, ⟨t4, w4⟩, hx, g⟩ := bind_ok g
    obtain ⟨x1, x2, x3, -⟩ := execute_ok hx
    have hn : n = 0 := by
      rw [x2]
      simp only [setFk, changeRows, List.countP_eq_zero]
      rintro ⟨s, r⟩ hm hp
      have hp' := of_decide_eq_true hp
      obtain ⟨p1, p2, p3⟩ := hp'
      simp only at p1 p2
      subst p1
      exact h r hm p2 (p3 trivial)
    rw [if_pos hn] at g
    exact raise_ok g

/-- Persons (set 0) with at most one passport (set 1) each; a passport has one person. -/
def passports : Schema where
  set e := if e.2 then 1 else 0
  mult e := if e.2 then .opt else .one
  nav _ := true
  ends s := if s = 0 then [(0, false)] else if s = 1 then [(0, true)] else []

/-- A person. -/
def onePerson : DB := { rows := [(0, ⟨1, 10, []⟩)], links := [] }

/-- A new passport of the person 1. -/
def passport (key oid : Nat) : Ent := .mk 1 key 20 oid false (.cons (0, true) (.key 1 .nil) .nil)

/-- A person gets two passports, one after the other, with the constraints of the tables as they are created. -/
theorem two_passports :
    (call (insertEntity (sound passports) passports (passport 2 102)) (quiet onePerson 0 [])).1 = .ok () ∧
    (call (insertEntity (sound passports) passports (passport 3 103))
      (call (insertEntity (sound passports) passports (passport 2 102)) (quiet onePerson 0 [])).2).1 = .ok () ∧
    linked passports (0, false) 1 (call (insertEntity (sound passports) passports (passport 3 103))
      (call (insertEntity (sound passports) passports (passport 2 102)) (quiet onePerson 0 [])).2).2.committed = [2, 3] := by
  refine ⟨rfl, rfl, rfl⟩

/-- The upper bound of a multiplicity is not kept. -/
theorem multiplicity_refuted : ¬ ∀ (S : Schema) (b b' : Ent) (d : DB) (e : End) (a : Key), S.mult (other e) ≠ .many →
    created S d = true → (linked S e a d).length ≤ 1 →
    (call (insertEntity (sound S) S b) (quiet d 0 [])).1 = .ok () →
    (linked S e a (call (insertEntity (sound S) S b')
      (call (insertEntity (sound S) S b) (quiet d 0 [])).2).2.committed).length ≤ 1 := by
  intro h
  have := h passports (passport 2 102) (passport 3 103) onePerson (0, false) 1 (by decide) rfl (by decide) two_passports.1
  rw [two_passports.2.2] at this
  exact absurd this (by decide)

/-! ## Links that are not there -/

/-- Persons (set 0) and licences (set 1), which may have one person each. -/
def licences : Schema where
  set e := if e.2 then 1 else 0
  mult e := if e.2 then .many else .opt
  nav _ := true
  ends s := if s = 0 then [(0, false)] else if s = 1 then [(0, true)] else []

/-- Removing a link that is not there raises `TypeError` where the entity has the foreign key: the message cannot be made
(sqlds:1697). -/
theorem deleteLink_missing :
    (call (own (deleteLink (sound licences) licences (0, true) 2 1))
      (quiet { rows := [(0, ⟨1, 10, []⟩), (1, ⟨2, 20, []⟩)], links := [] } 0 [])).1 = .error .type := rfl

/-- The exception is not the `KeyError` of the documentation. -/
theorem deleteLink_refuted : ¬ ∀ (S : Schema) (e : End) (a b : Key) (env : Env) (d : DB), env.fault = (fun _ => none) →
    b ∉ linked S e a d → ∀ x, (call (own (deleteLink env S e a b)) (quiet d 0 [])).1 = .error x → x = .key ∨ x = .navigation := by
  intro h
  have := h licences (0, true) 2 1 (sound licences)
    { rows := [(0, ⟨1, 10, []⟩), (1, ⟨2, 20, []⟩)], links := [] } rfl (by decide) .type deleteLink_missing
  rcases this with h | h <;> cases h

/-- With an auxiliary table it is the `KeyError`. -/
theorem deleteLink_aux (S : Schema) (e : End) (a b : Key) (env : Env) (d : DB) (clock : Nat) (marked : List Nat)
    (hp : S.place e = .aux) (hroll : env.rollbacks = true) (hq : env.fault clock = none)
    (hok : ((dropLink e a b d).1.distinct && env.check (dropLink e a b d).1) = true) (h : link e a b ∉ d.links) :
    (call (own (deleteLink env S e a b)) (quiet d clock marked)).1 = .error .key := by
  have hn : (dropLink e a b d).2 = 0 := by
    simp only [dropLink, List.countP_eq_zero, decide_eq_true_eq]
    intro l hl he
    exact h (he ▸ hl)
  simp only [call, own, deleteLink, hp]
  obtain ⟨r, s, h1, h2⟩ := method_run (env := env) none (do
    let n ← execute env (dropLink e a b)
    if n = 0 then raise .key else pure ()) Trans.new (quiet d clock marked)
  rw [h2]
  have : begin_ (Trans.new, quiet d clock marked) = (.ok (), { Trans.new with cursor := true }, quiet d clock marked) := rfl
  simp only [bind_run, this] at h1
  simp only [execute, quiet, hq, hok, if_true, hn, raise] at h1
  injection h1 with h1 h3
  subst h1; subst h3
  simp [rollback, hroll, Trans.new, reraised]

/-! ## The hypotheses are met -/

/-- Outcomes can be compared. -/
instance outcomeEq : DecidableEq (Except Exn Unit)
  | .ok (), .ok () => isTrue rfl
  | .ok _, .error _ => isFalse nofun
  | .error _, .ok _ => isFalse nofun
  | .error e, .error e' => if h : e = e' then isTrue (by rw [h]) else isFalse fun h' => h (by injection h')

/-- A new pupil with two new courses and an existing one: all of it is stored. -/
theorem insert_example :
    FitsEnt school none (pupil (.ent (.mk 1 8 80 101 false .nil) (.ent (.mk 1 7 70 102 true .nil) .nil))) ∧
    keylessNavs (.cons (0, false) (.ent (.mk 1 8 80 101 false .nil) (.ent (.mk 1 7 70 102 true .nil) .nil)) .nil) = true ∧
    (oidsEnt (pupil (.ent (.mk 1 8 80 101 false .nil) (.ent (.mk 1 7 70 102 true .nil) .nil)))).Nodup ∧
    (call (insertEntity (sound school) school (pupil (.ent (.mk 1 8 80 101 false .nil) (.ent (.mk 1 7 70 102 true .nil) .nil))))
      (quiet oneCourse 0 [])).1 = .ok () ∧
    (call (insertEntity (sound school) school (pupil (.ent (.mk 1 8 80 101 false .nil) (.ent (.mk 1 7 70 102 true .nil) .nil))))
      (quiet oneCourse 0 [])).2.committed =
      { rows := [(1, ⟨7, 70, []⟩), (0, ⟨1, 10, []⟩), (1, ⟨8, 80, []⟩)], links := [(0, 1, 8), (0, 1, 7)] } := by
  refine ⟨?_, rfl, by decide, by decide +kernel, by decide +kernel⟩
  simp [FitsEnt, FitsNavs, FitsBinds, pupil, school, endsOf, entSet, other]

/-- A passport of an existing person by their key, where the passport has the foreign key. -/
theorem tidy_example : tidy passports (.cons (0, true) (.key 1 .nil) .nil) = true := by decide

/-- A new description of a course and an existing pupil for it. -/
theorem update_example :
    tidyUpdate school (.cons (0, true) (.ent (.mk 0 1 10 201 true .nil) .nil) .nil) = true ∧
    (call (updateEntity (sound school) school (.mk 1 7 71 200 true (.cons (0, true) (.ent (.mk 0 1 10 201 true .nil) .nil) .nil)))
      (quiet halfPupil 0 [])).1 = .ok () := by
  refine ⟨by decide, rfl⟩

/-- The deletion of a pupil with their link. -/
theorem delete_example :
    (∀ e ∈ school.ends 0, school.mult e = .one → school.place e = .own ∨ school.nav e = false) ∧
    (call (deleteEntity (sound school) school 1 0 1) (quiet { halfPupil with links := [(0, 1, 7)] } 0 [])).1 = .ok () ∧
    (call (deleteEntity (sound school) school 1 0 1) (quiet { halfPupil with links := [(0, 1, 7)] } 0 [])).2.committed = oneCourse := by
  refine ⟨by decide, rfl, rfl⟩

/-- A customer without orders with lines, with everything that goes. -/
theorem cascade_example :
    (call (deleteEntity (sound { shop with nav := fun _ => true }) { shop with nav := fun _ => true } 5 0 1) (quiet oneCustomer 0 [])).1 =
      .ok () ∧
    (call (deleteEntity (sound { shop with nav := fun _ => true }) { shop with nav := fun _ => true } 5 0 1)
      (quiet oneCustomer 0 [])).2.committed = { rows := [(3, ⟨5, 50, []⟩)], links := [] } := by
  refine ⟨by decide +kernel, by decide +kernel⟩

/-- A new person bound in an update of a passport. -/
theorem update_new_own_example : readOwn passports (quiet onePerson 0 [])
    (.cons (0, true) (.ent (.mk 0 2 11 104 false .nil) .nil) .nil) = false := by decide

end Verif.Props.ST
