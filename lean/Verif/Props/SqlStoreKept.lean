import Verif.Props.SqlStore

/-!
# What a successful change of a SQL store leaves in it
-/

namespace Verif.Props.ST

open Verif.OData.Store Verif.Spec.Store

variable {α β : Type} {env : Env} {S : Schema}

/-! ## Successful runs -/

theorem bind_ok {m : M α} {f : α → M β} {s s' : Trans × World} {y : β} (h : (m >>= f) s = (.ok y, s')) :
    ∃ x s1, m s = (.ok x, s1) ∧ f x s1 = (.ok y, s') := by
  rw [bind_run] at h
  rcases hm : m s with ⟨r, s1⟩
  rw [hm] at h
  cases r with
  | ok x => exact ⟨x, s1, rfl, h⟩
  | error e => cases h

theorem raise_ok {e : Exn} {s s' : Trans × World} {x : α} (h : raise e s = (.ok x, s')) : False := by
  simp [raise] at h

theorem method_ok {h : Option Exn} {body : M α} {t t' : Trans} {w w' : World} {x : α}
    (hm : method env h body (t, w) = (.ok x, t', w')) :
    ∃ t1 t2 w2, body (t1, w) = (.ok x, t2, w2) ∧ w'.current = w2.current ∧ w'.marked = w2.marked := by
  obtain ⟨r, s, h1, h2⟩ := method_run (env := env) h body t w
  rw [h2] at hm
  cases r with
  | error e =>
    simp only at hm
    rcases hb : rollback env s with ⟨r', s'⟩
    rw [hb] at hm
    cases r' <;> cases hm
  | ok y =>
    simp only at hm
    injection hm with hm1 hm2
    injection hm1 with hm1
    injection hm2 with hm2 hm3
    subst hm1; subst hm3
    obtain ⟨_, ⟨t1, w1⟩, hb, g1⟩ := bind_ok h1
    have hw : w = w1 := by
      simp only [begin_] at hb
      injection hb with _ hb
      injection hb with _ hb
    subst hw
    obtain ⟨x2, ⟨t2, w2⟩, hbody, g2⟩ := bind_ok g1
    obtain ⟨_, ⟨t3, w3⟩, hcom, g3⟩ := bind_ok g2
    rw [pure_run] at g3
    injection g3 with g3 g4
    injection g3 with g3
    subst g3
    rw [← g4]
    refine ⟨t1, t2, w2, hbody, ?_⟩
    simp only [commit] at hcom
    split at hcom
    · injection hcom with _ hcom
      injection hcom with _ hcom
      rw [← hcom]
      exact ⟨rfl, rfl⟩
    · split at hcom
      · cases hcom
      · injection hcom with _ hcom
        injection hcom with _ hcom
        rw [← hcom]
        exact ⟨rfl, rfl⟩

theorem own_ok {m : M α} {t t' : Trans} {w w' : World} {x : α} (h : own m (t, w) = (.ok x, t', w')) :
    ∃ t2, m (Trans.new, w) = (.ok x, t2, w') := by
  simp only [own] at h
  rcases hm : m (Trans.new, w) with ⟨r, t2, w2⟩
  rw [hm] at h
  simp only at h
  injection h with h1 h2
  injection h2 with _ h2
  exact ⟨t2, by rw [h1, h2]⟩

theorem execute_ok {f : DB → DB × Nat} {t t' : Trans} {w w' : World} {n : Nat} (h : execute env f (t, w) = (.ok n, t', w')) :
    w'.current = (f w.current).1 ∧ n = (f w.current).2 ∧ w'.marked = w.marked ∧ (f w.current).1.distinct = true := by
  simp only [execute] at h
  split at h
  · cases h
  · split at h
    · next hd =>
      injection h with h1 h2
      injection h1 with h1
      injection h2 with _ h2
      rw [← h2]
      exact ⟨rfl, h1.symm, rfl, by simp only [Bool.and_eq_true] at hd; exact hd.1⟩
    · cases h

theorem query_ok {f : DB → α} {t t' : Trans} {w w' : World} {x : α} (h : query env f (t, w) = (.ok x, t', w')) :
    w'.current = w.current ∧ x = f w.current ∧ w'.marked = w.marked := by
  simp only [query] at h
  split at h
  · cases h
  · injection h with h1 h2
    injection h1 with h1
    injection h2 with _ h2
    rw [← h2]
    exact ⟨rfl, h1.symm, rfl⟩

theorem getitem_ok {s : SetId} {k : Key} {t t' : Trans} {w w' : World} (h : getitem env s k (t, w) = (.ok (), t', w')) :
    w'.current = w.current ∧ w'.marked = w.marked ∧ (w.current.row s k).isSome = true := by
  obtain ⟨_, h⟩ := own_ok h
  obtain ⟨t1, t2, w2, h, h2, h3⟩ := method_ok h
  obtain ⟨found, ⟨t4, w4⟩, hq, h⟩ := bind_ok h
  obtain ⟨q1, q2, q3⟩ := query_ok hq
  cases found with
  | false => exact (raise_ok h).elim
  | true =>
    simp only [if_true, pure_run] at h
    injection h with _ h
    injection h with _ h
    subst h
    exact ⟨h2.trans q1, h3.trans q3, q2.symm⟩

/-! ## Growth -/

theorem grows_refl (d : DB) : Grows d d := ⟨fun _ _ _ h => h, fun _ _ _ _ h => h, fun _ h => h⟩

theorem _root_.Verif.Spec.Store.Grows.trans {a b c : DB} (h : Grows a b) (h' : Grows b c) : Grows a c :=
  ⟨fun s k x y => h'.holds s k x (h.holds s k x y), fun s k e t y => h'.fks s k e t (h.fks s k e t y),
    fun l hl => h'.links l (h.links l hl)⟩

theorem grows_insertRow (s : SetId) (r : Row) (d : DB) : Grows d (insertRow s r d).1 := by
  refine ⟨?_, ?_, fun _ h => h⟩
  · rintro s' k data ⟨r', h1, h2⟩
    exact ⟨r', List.mem_append_left _ h1, h2⟩
  · rintro s' k e t ⟨r', h1, h2⟩
    exact ⟨r', List.mem_append_left _ h1, h2⟩

theorem grows_addLink (e : End) (a b : Key) (d : DB) : Grows d (addLink e a b d).1 :=
  ⟨fun _ _ _ h => h, fun _ _ _ _ h => h, fun _ h => List.mem_append_left _ h⟩

theorem find_filter_ne (e e' : End) (hne : e' ≠ e) : ∀ l : List (End × Key),
    (l.filter fun p => decide (p.1 ≠ e)).find? (fun p => decide (p.1 = e')) = l.find? fun p => decide (p.1 = e')
  | [] => rfl
  | p :: rest => by
    have ih := find_filter_ne e e' hne rest
    by_cases h : p.1 = e
    · have h1 : (decide (p.1 ≠ e)) = false := by simp [h]
      have h2 : (decide (p.1 = e')) = false := by
        simp only [decide_eq_false_iff_not]
        intro h'
        exact hne (h'.symm.trans h)
      rw [List.filter_cons, h1, List.find?_cons, h2]
      exact ih
    · have h1 : (decide (p.1 ≠ e)) = true := by simp [h]
      rw [List.filter_cons, h1, if_pos rfl, List.find?_cons, List.find?_cons, ih]

/-- The foreign key of a row whose foreign key has been set. -/
theorem fk_set (r : Row) (e e' : End) (t : Key) :
    Row.fk { r with fks := ((some t).toList.map fun t => (e, t)) ++ r.fks.filter fun p => p.1 ≠ e } e' =
      if e' = e then some t else r.fk e' := by
  by_cases h : e' = e
  · subst h
    simp [Row.fk]
  · rw [if_neg h]
    have h' : ¬ e = e' := fun h' => h h'.symm
    simp only [Row.fk, Option.toList_some, List.map_cons, List.map_nil, List.cons_append, List.nil_append, List.find?_cons, h',
      decide_false]
    rw [← find_filter_ne e e' h r.fks]

theorem mem_changeRows {p : SetId × Row → Bool} {f : Row → Row} {d : DB} {s : SetId} {r : Row} (h : (s, r) ∈ d.rows) :
    (s, if p (s, r) then f r else r) ∈ (changeRows p f d).1.rows :=
  List.mem_map.mpr ⟨(s, r), h, by split <;> rfl⟩

theorem grows_setFk (s : SetId) (k : Key) (e : End) (t : Key) (d : DB) : Grows d (setFk s k e (some t) true d).1 := by
  refine ⟨?_, ?_, fun _ h => h⟩
  · rintro s' k' data ⟨r, h1, h2, h3⟩
    refine ⟨_, mem_changeRows h1, ?_⟩
    split <;> exact ⟨h2, h3⟩
  · rintro s' k' e' t' ⟨r, h1, h2, h3⟩
    refine ⟨_, mem_changeRows h1, ?_⟩
    split
    · next hp =>
      refine ⟨h2, ?_⟩
      rw [fk_set]
      split
      · next he =>
        subst he
        have hn : r.fk e' = none := by
          have := of_decide_eq_true hp
          exact this.2.2 rfl
        rw [hn] at h3
        cases h3
      · exact h3
    · exact ⟨h2, h3⟩

theorem setFk_linked {s : SetId} {k : Key} {e : End} {t : Key} {b : Bool} {d : DB} (h : (setFk s k e (some t) b d).2 ≠ 0) :
    HasFk (setFk s k e (some t) b d).1 s k e t := by
  simp only [setFk, changeRows] at h ⊢
  have hpos : 0 < d.rows.countP (fun x => decide (x.1 = s ∧ x.2.key = k ∧ (b = true → x.2.fk e = none))) := Nat.pos_of_ne_zero h
  rw [List.countP_pos_iff] at hpos
  obtain ⟨⟨s', r⟩, hx, hp⟩ := hpos
  have hp' := of_decide_eq_true hp
  obtain ⟨h1, h2, h3⟩ := hp'
  simp only at h1 h2
  subst h1
  refine ⟨{ r with fks := ((some t).toList.map fun t => (e, t)) ++ r.fks.filter fun p => p.1 ≠ e }, ?_, h2, ?_⟩
  · exact List.mem_map.mpr ⟨(s', r), hx, by rw [if_pos hp]⟩
  · rw [fk_set, if_pos rfl]

theorem updateLink_ok {k : Key} {e : End} {to : Key} {t t' : Trans} {w w' : World}
    (h : updateLink env S k e (some to) true (t, w) = (.ok (), t', w')) :
    Grows w.current w'.current ∧ HasFk w'.current (S.set e) k e to ∧ w'.marked = w.marked := by
  unfold updateLink at h
  rw [if_neg (by simp)] at h
  obtain ⟨t1, t2, w2, h, h2, h3⟩ := method_ok h
  obtain ⟨n, ⟨t4, w4⟩, hx, h⟩ := bind_ok h
  obtain ⟨x1, x2, x3, -⟩ := execute_ok hx
  by_cases hn : n = 0
  · rw [if_pos hn] at h
    exact (raise_ok h).elim
  · rw [if_neg hn, pure_run] at h
    injection h with _ h
    injection h with _ h
    subst h
    rw [h2, x1]
    refine ⟨grows_setFk _ _ _ _ _, setFk_linked (x2 ▸ hn), h3.trans x3⟩

/-- A link that has been added is there, and nothing is lost. -/
theorem insertLink_ok {e : End} {a b : Key} {t t' : Trans} {w w' : World}
    (h : insertLink env S e a b (t, w) = (.ok (), t', w')) :
    Grows w.current w'.current ∧ Linked S w'.current e a b ∧ w'.marked = w.marked := by
  unfold insertLink at h
  unfold Linked
  cases hp : S.place e with
  | own =>
    simp only [hp] at h
    exact updateLink_ok h
  | other =>
    simp only [hp] at h
    exact updateLink_ok h
  | aux =>
    simp only [hp] at h
    obtain ⟨t1, t2, w2, h, h2, h3⟩ := method_ok h
    obtain ⟨n, ⟨t4, w4⟩, hx, h⟩ := bind_ok h
    obtain ⟨x1, x2, x3, -⟩ := execute_ok hx
    rw [pure_run] at h
    injection h with _ h
    injection h with _ h
    subst h
    rw [h2, x1]
    exact ⟨grows_addLink _ _ _ _, List.mem_append_right _ (by simp), h3.trans x3⟩

theorem _root_.Verif.Spec.Store.Grows.linked {d d' : DB} (h : Grows d d') {e : End} {a b : Key} (hl : Linked S d e a b) : Linked S d' e a b := by
  unfold Linked at *
  split at hl
  · next hp => exact h.fks _ _ _ _ hl
  · next hp => exact h.fks _ _ _ _ hl
  · next hp => exact h.links _ hl

mutual

theorem _root_.Verif.Spec.Store.Grows.storedEnt {d d' : DB} (h : Grows d d') : ∀ b : Ent, StoredEnt S d b → StoredEnt S d' b
  | .mk set key data oid old navs, hb => by
    rw [StoredEnt] at hb ⊢
    exact hb.imp id fun ⟨h1, h2⟩ => ⟨h.holds _ _ _ h1, h.storedNavs key navs h2⟩

theorem _root_.Verif.Spec.Store.Grows.storedNavs {d d' : DB} (h : Grows d d') (key : Key) : ∀ navs : Navs, StoredNavs S d key navs → StoredNavs S d' key navs
  | .nil, _ => by rw [StoredNavs]; trivial
  | .cons e bs rest, hn => by
    rw [StoredNavs] at hn ⊢
    exact ⟨h.storedBinds key e bs hn.1, h.storedNavs key rest hn.2⟩

theorem _root_.Verif.Spec.Store.Grows.storedBinds {d d' : DB} (h : Grows d d') (key : Key) (e : End) : ∀ bs : Binds,
    StoredBinds S d key e bs → StoredBinds S d' key e bs
  | .nil, _ => by rw [StoredBinds]; trivial
  | .key k rest, hb => by
    rw [StoredBinds] at hb ⊢
    exact ⟨h.linked hb.1, h.storedBinds key e rest hb.2⟩
  | .ent b rest, hb => by
    rw [StoredBinds] at hb ⊢
    exact ⟨h.linked hb.1, h.storedEnt b hb.2.1, h.storedBinds key e rest hb.2.2⟩

end

/-- What the first step leaves for a navigation property. -/
def PreBinds (S : Schema) (d : DB) (fks : List (End × Key)) (e : End) : Binds → Prop
  | .nil => True
  | .key k more => more = .nil ∧ (e, k) ∈ fks
  | .ent b more => more = .nil ∧ (e, b.key) ∈ fks ∧ StoredEnt S d b

/-- What the first step leaves. -/
def Pre (S : Schema) (d : DB) (fks : List (End × Key)) : Navs → Prop
  | .nil => True
  | .cons e bs rest => (S.place e = .own → PreBinds S d fks e bs) ∧ Pre S d fks rest

theorem Pre.grows {d d' : DB} (h : Grows d d') {fks : List (End × Key)} : ∀ navs : Navs, Pre S d fks navs → Pre S d' fks navs
  | .nil, _ => trivial
  | .cons e bs rest, hn => by
    refine ⟨fun hp => ?_, Pre.grows h rest hn.2⟩
    have hb := hn.1 hp
    cases bs with
    | nil => trivial
    | key k more => exact hb
    | ent b more => exact ⟨hb.1, hb.2.1, h.storedEnt b hb.2.2⟩

theorem fk_of_mem : ∀ {l : List (End × Key)}, (l.map (·.1)).Nodup → ∀ {e : End} {k : Key}, (e, k) ∈ l →
    (l.find? fun p => decide (p.1 = e)).map (·.2) = some k
  | [], _, _, _, h => by cases h
  | (e', k') :: rest, hn, e, k, h => by
    rw [List.map_cons, List.nodup_cons] at hn
    rw [List.find?_cons]
    by_cases he : e' = e
    · simp only [he, decide_true, Option.map_some]
      rcases List.mem_cons.mp h with h | h
      · injection h with _ h
        rw [h]
      · exact absurd (List.mem_map.mpr ⟨(e, k), h, he.symm⟩) hn.1
    · simp only [he, decide_false]
      rcases List.mem_cons.mp h with h | h
      · injection h with h _
        exact absurd h.symm he
      · exact fk_of_mem hn.2 h

/-- The links of the first step are there once the row is. -/
theorem stored_own {d : DB} {fks : List (End × Key)} {set key : Nat} {e : End} (hset : S.set e = set) (hp : S.place e = .own)
    (hfk : ∀ p ∈ fks, HasFk d set key p.1 p.2) : ∀ {bs : Binds}, PreBinds S d fks e bs → StoredBinds S d key e bs
  | .nil, _ => by rw [StoredBinds]; trivial
  | .key k more, h => by
    obtain ⟨rfl, h⟩ := h
    rw [StoredBinds, StoredBinds]
    refine ⟨?_, trivial⟩
    unfold Linked
    rw [hp, hset]
    exact hfk _ h
  | .ent b more, h => by
    obtain ⟨rfl, h, hb⟩ := h
    rw [StoredBinds, StoredBinds]
    refine ⟨?_, hb, trivial⟩
    unfold Linked
    rw [hp, hset]
    exact hfk _ h

/-- The objects of the first step. -/
def earlyOids (S : Schema) : Navs → List Nat
  | .nil => []
  | .cons e bs rest => (if S.place e = .own then oidsBinds bs else []) ++ earlyOids S rest

/-- The objects of the third step. -/
def lateOids (S : Schema) : Navs → List Nat
  | .nil => []
  | .cons e bs rest => (if S.place e = .own then [] else oidsBinds bs) ++ lateOids S rest

theorem early_sub (S : Schema) : ∀ {navs : Navs} {o : Nat}, o ∈ earlyOids S navs → o ∈ oidsNavs navs
  | .cons e bs rest, o, h => by
    simp only [earlyOids, List.mem_append] at h
    simp only [oidsNavs, List.mem_append]
    rcases h with h | h
    · split at h
      · exact .inl h
      · cases h
    · exact .inr (early_sub S h)

theorem late_sub (S : Schema) : ∀ {navs : Navs} {o : Nat}, o ∈ lateOids S navs → o ∈ oidsNavs navs
  | .cons e bs rest, o, h => by
    simp only [lateOids, List.mem_append] at h
    simp only [oidsNavs, List.mem_append]
    rcases h with h | h
    · split at h
      · cases h
      · exact .inl h
    · exact .inr (late_sub S h)

theorem late_nodup (S : Schema) : ∀ {navs : Navs}, (oidsNavs navs).Nodup → (lateOids S navs).Nodup
  | .nil, _ => List.nodup_nil
  | .cons e bs rest, h => by
    simp only [oidsNavs, List.nodup_append] at h
    simp only [lateOids, List.nodup_append]
    refine ⟨?_, late_nodup S h.2.1, ?_⟩
    · split
      · exact List.nodup_nil
      · exact h.1
    · intro x hx y hy
      split at hx
      · cases hx
      · exact h.2.2 x hx y (late_sub S hy)

theorem early_late (S : Schema) : ∀ {navs : Navs}, (oidsNavs navs).Nodup → ∀ {o : Nat}, o ∈ earlyOids S navs → o ∉ lateOids S navs
  | .cons e bs rest, h, o, h1, h2 => by
    simp only [oidsNavs, List.nodup_append] at h
    simp only [earlyOids, List.mem_append] at h1
    simp only [lateOids, List.mem_append] at h2
    by_cases hp : S.place e = .own
    · simp only [hp, if_true, List.not_mem_nil, false_or] at h1 h2
      rcases h1 with h1 | h1
      · exact h.2.2 o h1 o (late_sub S h2) rfl
      · exact early_late S h.2.1 h1 h2
    · simp only [hp, if_false, List.not_mem_nil, false_or] at h1 h2
      rcases h2 with h2 | h2
      · exact h.2.2 o h2 o (early_sub S h1) rfl
      · exact early_late S h.2.1 h1 h2

theorem old_of_existing {d : DB} {b : Ent} {w : World} (h : b.existing w = true) (hd : ∀ o ∈ oidsEnt b, o ∉ w.marked) : StoredEnt S d b := by
  cases b with
  | mk set key data oid old navs =>
    rw [StoredEnt]
    cases old with
    | true => exact .inl rfl
    | false =>
      exfalso
      simp only [Ent.existing, Bool.false_or, List.contains_iff_mem] at h
      exact hd oid (by simp [oidsEnt]) h

mutual

theorem insertIn_ok : ∀ (b : Ent) (from_ : Option End) (fks : List (End × Key)) {t t' : Trans} {w w' : World},
    insertIn env S b from_ fks true (t, w) = (.ok (), t', w') → FitsEnt S from_ b → (oidsEnt b).Nodup →
    (∀ o ∈ oidsEnt b, o ∉ w.marked) → (∀ p ∈ fks, from_ = some p.1) → (fks.map (·.1)).Nodup →
    Grows w.current w'.current ∧ StoredEnt S w'.current b ∧ (∀ p ∈ fks, HasFk w'.current (entSet b) b.key p.1 p.2) ∧
      ∀ o ∈ w'.marked, o ∈ w.marked ∨ o ∈ oidsEnt b
  | .mk set key data oid old navs, from_, fks, t, t', w, w', h, hfit, hnd, hdis, hfks, hfn => by
    by_cases he : (Ent.mk set key data oid old navs).existing w = true
    · simp only [insertIn, he, if_true] at h
      cases h
    · have hold : old = false := by
        cases old
        · rfl
        · simp [Ent.existing] at he
      subst hold
      have hrun : insertIn env S (.mk set key data oid false navs) from_ fks true (t, w) =
          method env (some .constraint) (before env S from_ fks true navs >>= fun fks => do
            let _ ← execute env (insertRow set ⟨key, data, fks⟩)
            mark oid
            after env S key navs) (t, w) := by
        simp only [insertIn, he]
        rfl
      rw [hrun] at h
      obtain ⟨t1, t2, w2, g1, hw1, hw2⟩ := method_ok h
      obtain ⟨fks', ⟨t3, w3⟩, hbef, g2⟩ := bind_ok g1
      obtain ⟨n, ⟨t4, w4⟩, hx, g3⟩ := bind_ok g2
      obtain ⟨_, ⟨t5, w5⟩, hmk, haft⟩ := bind_ok g3
      have hmk' : w5 = { w4 with marked := oid :: w4.marked } := by
        simp only [mark] at hmk
        injection hmk with _ hmk
        injection hmk with _ hmk
        exact hmk.symm
      subst hmk'
      rw [FitsEnt] at hfit
      have hfit : FitsNavs S set from_ navs := hfit.resolve_left (by simp)
      simp only [oidsEnt, Bool.false_eq_true, if_false, List.nodup_cons, List.mem_cons, forall_eq_or_imp] at hnd hdis ⊢
      obtain ⟨b1, b2, b3, b4, b5⟩ := before_ok navs set from_ fks hbef hfit hnd.2 hdis.2 (fun p hp => .inl (hfks p hp)) hfn
      obtain ⟨x1, -, x3, -⟩ := execute_ok hx
      have hrow : (set, (⟨key, data, fks'⟩ : Row)) ∈ w4.current.rows := by
        rw [x1]
        exact List.mem_append_right _ (by simp)
      have hgrow4 : Grows w3.current w4.current := by
        rw [x1]
        exact grows_insertRow _ _ _
      have hfk4 : ∀ p ∈ fks', HasFk w4.current set key p.1 p.2 := fun p hp => ⟨_, hrow, rfl, fk_of_mem b4 hp⟩
      obtain ⟨a1, a2, a3⟩ := after_ok navs set key from_ fks' haft hfit (late_nodup S hnd.2) (by
        intro o ho hm
        simp only [List.mem_cons] at hm
        rcases hm with rfl | hm
        · exact hnd.1 (late_sub S ho)
        · rw [x3] at hm
          rcases b5 o hm with hm | hm
          · exact hdis.2 o (late_sub S ho) hm
          · exact early_late S hnd.2 hm ho) (b2.grows hgrow4) hfk4
      rw [hw1]
      refine ⟨(b1.trans hgrow4).trans a1, ?_, ?_, ?_⟩
      · rw [StoredEnt]
        exact .inr ⟨a1.holds _ _ _ ⟨_, hrow, rfl, rfl⟩, a2⟩
      · intro p hp
        exact a1.fks _ _ _ _ (hfk4 p (b3 p hp))
      · intro o ho
        rw [hw2] at ho
        rcases a3 o ho with ho | ho
        · simp only [List.mem_cons] at ho
          rcases ho with rfl | ho
          · exact .inr (.inl rfl)
          · rw [x3] at ho
            exact (b5 o ho).imp id fun h => .inr (early_sub S h)
        · exact .inr (.inr (late_sub S ho))

theorem before_ok : ∀ (navs : Navs) (set : SetId) (from_ : Option End) (fks : List (End × Key)) {fks' : List (End × Key)}
    {t t' : Trans} {w w' : World}, before env S from_ fks true navs (t, w) = (.ok fks', t', w') → FitsNavs S set from_ navs →
    (oidsNavs navs).Nodup → (∀ o ∈ oidsNavs navs, o ∉ w.marked) → (∀ p ∈ fks, from_ = some p.1 ∨ p.1 ∉ endsOf navs) →
    (fks.map (·.1)).Nodup →
    Grows w.current w'.current ∧ Pre S w'.current fks' navs ∧ (∀ p ∈ fks, p ∈ fks') ∧ (fks'.map (·.1)).Nodup ∧
      ∀ o ∈ w'.marked, o ∈ w.marked ∨ o ∈ earlyOids S navs
  | .nil, set, from_, fks, fks', t, t', w, w', h, _, _, _, _, hfn => by
    rw [before, pure_run] at h
    injection h with h1 h2
    injection h1 with h1
    injection h2 with _ h2
    subst h1; subst h2
    exact ⟨grows_refl _, trivial, fun _ h => h, hfn, fun o ho => .inl ho⟩
  | .cons e bs rest, set, from_, fks, fks', t, t', w, w', h, hfit, hnd, hdis, hfks, hfn => by
    rw [FitsNavs] at hfit
    obtain ⟨f1, f2, f3, f4, f5⟩ := hfit
    simp only [oidsNavs, List.nodup_append, List.mem_append] at hnd hdis
    obtain ⟨n1, n2, n3⟩ := hnd
    have hdis2 : ∀ o ∈ oidsNavs rest, o ∉ w.marked := fun o ho => hdis o (.inr ho)
    have hfks2 : ∀ p ∈ fks, from_ = some p.1 ∨ p.1 ∉ endsOf rest := fun p hp => (hfks p hp).imp id fun h h' =>
      h (by simp [endsOf, h'])
    rw [before.eq_def] at h
    simp only at h
    -- the step does nothing here
    have skip : (S.place e = .own → bs = .nil) → before env S from_ fks true rest (t, w) = (.ok fks', t', w') →
        Grows w.current w'.current ∧ Pre S w'.current fks' (.cons e bs rest) ∧ (∀ p ∈ fks, p ∈ fks') ∧ (fks'.map (·.1)).Nodup ∧
          ∀ o ∈ w'.marked, o ∈ w.marked ∨ o ∈ earlyOids S (.cons e bs rest) := by
      intro hbs h
      obtain ⟨b1, b2, b3, b4, b5⟩ := before_ok rest set from_ fks h f5 n2 hdis2 hfks2 hfn
      refine ⟨b1, ⟨fun hp => ?_, b2⟩, b3, b4, fun o ho => (b5 o ho).imp id fun h => ?_⟩
      · rw [hbs hp]
        trivial
      · rw [earlyOids, List.mem_append]
        exact .inr h
    -- with a foreign key more
    have more : ∀ (k : Key) (t1 : Trans) (w1 : World), S.place e = .own → bs ≠ .nil → Grows w.current w1.current →
        (∀ o ∈ w1.marked, o ∈ w.marked ∨ o ∈ oidsBinds bs) →
        before env S from_ (fks ++ [(e, k)]) true rest (t1, w1) = (.ok fks', t', w') →
        Grows w1.current w'.current ∧ (e, k) ∈ fks' ∧ Pre S w'.current fks' rest ∧ (∀ p ∈ fks, p ∈ fks') ∧
          (fks'.map (·.1)).Nodup ∧ ∀ o ∈ w'.marked, o ∈ w.marked ∨ o ∈ earlyOids S (.cons e bs rest) := by
      intro k t1 w1 hp hbs hg hm h
      have hfrom : from_ ≠ some e := (f2.resolve_left hbs).2
      have hne : ∀ p ∈ fks, p.1 ≠ e := by
        intro p hp he
        rcases hfks p hp with h' | h'
        · exact hfrom (he ▸ h')
        · exact h' (by simp [endsOf, he])
      obtain ⟨b1, b2, b3, b4, b5⟩ := before_ok rest set from_ (fks ++ [(e, k)]) h f5 n2 (by
          intro o ho hm'
          rcases hm o hm' with hm' | hm'
          · exact hdis2 o ho hm'
          · exact n3 o hm' o ho rfl) (by
          intro p hp
          rcases List.mem_append.mp hp with hp | hp
          · exact hfks2 p hp
          · rw [List.mem_singleton] at hp
            subst hp
            exact .inr f3) (by
          rw [List.map_append, List.nodup_append]
          refine ⟨hfn, by simp, ?_⟩
          intro x hx y hy
          simp only [List.map_cons, List.map_nil, List.mem_singleton] at hy
          obtain ⟨p, hp, rfl⟩ := List.mem_map.mp hx
          rw [hy]
          exact hne p hp)
      refine ⟨b1, b3 _ (List.mem_append_right _ (by simp)), b2, fun p hp => b3 p (List.mem_append_left _ hp), b4, ?_⟩
      intro o ho
      rw [earlyOids, if_pos hp, List.mem_append]
      rcases b5 o ho with ho | ho
      · exact (hm o ho).imp id .inl
      · exact .inr (.inr ho)
    split at h
    · next hc =>
      refine skip (fun _ => f2.resolve_right fun h' => h'.2 hc.2) h
    · split at h
      · exact (raise_ok h).elim
      · cases bs with
        | nil =>
          simp only at h
          split at h
          · exact (raise_ok h).elim
          · exact skip (fun _ => rfl) h
        | key k mr =>
          simp only at h
          have hnav : S.nav e = true := (f2.resolve_left (by simp)).1
          split at h
          · next hown =>
            cases mr with
            | nil =>
              obtain ⟨_, ⟨t1, w1⟩, hg, g⟩ := bind_ok h
              obtain ⟨q1, q2, q3⟩ := getitem_ok hg
              simp only [if_true] at g
              obtain ⟨c1, c2, c3, c4, c5, c6⟩ := more k t1 w1 hown.1 (by simp) (q1 ▸ grows_refl _)
                (fun o ho => .inl (q2 ▸ ho)) g
              exact ⟨q1 ▸ c1, ⟨fun _ => ⟨rfl, c2⟩, c3⟩, c4, c5, c6⟩
            | key _ _ => exact (raise_ok h).elim
            | ent _ _ => exact (raise_ok h).elim
          · next hown => exact skip (fun hp => absurd ⟨hp, hnav⟩ hown) h
        | ent b mr =>
          simp only at h
          have hnav : S.nav e = true := (f2.resolve_left (by simp)).1
          rw [FitsBinds] at f4
          simp only [oidsBinds] at n1 n3 hdis
          split at h
          · next hown =>
            cases mr with
            | nil =>
              simp only at h
              obtain ⟨old, ⟨t1, w1⟩, hg, g⟩ := bind_ok h
              have ho : old = b.existing w ∧ t1 = t ∧ w1 = w := by
                simp only [isOld] at hg
                injection hg with hg1 hg2
                injection hg1 with hg1
                injection hg2 with hg2 hg3
                exact ⟨hg1.symm, hg2.symm, hg3.symm⟩
              obtain ⟨ho1, ho2, ho3⟩ := ho
              subst ho2; subst ho3
              have hdb : ∀ o ∈ oidsEnt b, o ∉ w1.marked := fun o ho => hdis o (.inl (by simp [ho]))
              cases old with
              | true =>
                simp only [if_true] at g
                obtain ⟨c1, c2, c3, c4, c5, c6⟩ := more b.key t1 w1 hown.1 (by simp) (grows_refl _)
                  (fun o ho => .inl ho) g
                exact ⟨c1, ⟨fun _ => ⟨rfl, c2, old_of_existing ho1.symm hdb⟩, c3⟩, c4, c5, c6⟩
              | false =>
                simp only [Bool.false_eq_true, if_false] at g
                obtain ⟨_, ⟨t2, w2⟩, hi, g⟩ := bind_ok g
                simp only [if_true] at g
                simp only [List.append_nil, oidsBinds] at n1
                obtain ⟨i1, i2, i3, i4⟩ := insertIn_ok b _ [] hi f4.2.1 n1 hdb (by simp) (by simp)
                obtain ⟨c1, c2, c3, c4, c5, c6⟩ := more b.key t2 w2 hown.1 (by simp) i1
                  (fun o ho => (i4 o ho).imp id fun h => by simp [oidsBinds, h]) g
                exact ⟨i1.trans c1, ⟨fun _ => ⟨rfl, c2, c1.storedEnt b i2⟩, c3⟩, c4, c5, c6⟩
            | key _ _ => exact (raise_ok h).elim
            | ent _ _ => exact (raise_ok h).elim
          · next hown => exact skip (fun hp => absurd ⟨hp, hnav⟩ hown) h

theorem after_ok : ∀ (navs : Navs) (set key : Nat) (from_ : Option End) (fks : List (End × Key)) {t t' : Trans} {w w' : World},
    after env S key navs (t, w) = (.ok (), t', w') → FitsNavs S set from_ navs → (lateOids S navs).Nodup →
    (∀ o ∈ lateOids S navs, o ∉ w.marked) → Pre S w.current fks navs → (∀ p ∈ fks, HasFk w.current set key p.1 p.2) →
    Grows w.current w'.current ∧ StoredNavs S w'.current key navs ∧ ∀ o ∈ w'.marked, o ∈ w.marked ∨ o ∈ lateOids S navs
  | .nil, set, key, from_, fks, t, t', w, w', h, _, _, _, _, _ => by
    rw [after, pure_run] at h
    injection h with _ h2
    injection h2 with _ h2
    subst h2
    exact ⟨grows_refl _, by rw [StoredNavs]; trivial, fun o ho => .inl ho⟩
  | .cons e bs rest, set, key, from_, fks, t, t', w, w', h, hfit, hnd, hdis, hpre, hfk => by
    rw [FitsNavs] at hfit
    obtain ⟨f1, f2, f3, f4, f5⟩ := hfit
    simp only [lateOids, List.nodup_append, List.mem_append] at hnd hdis
    obtain ⟨n1, n2, n3⟩ := hnd
    rw [after] at h
    split at h
    · next hc =>
      have h : after env S key rest (t, w) = (.ok (), t', w') := h
      obtain ⟨a1, a2, a3⟩ := after_ok rest set key from_ fks h f5 n2 (fun o ho => hdis o (.inr ho)) hpre.2 hfk
      refine ⟨a1, ?_, fun o ho => (a3 o ho).imp id fun h => by rw [lateOids, List.mem_append]; exact .inr h⟩
      rw [StoredNavs]
      refine ⟨?_, a2⟩
      by_cases hp : S.place e = .own
      · exact a1.storedBinds key e bs (stored_own f1 hp hfk (hpre.1 hp))
      · have : bs = .nil := f2.resolve_right fun h' => (hc.resolve_left hp) h'.1
        rw [this, StoredBinds]
        trivial
    · next hc =>
      have hp : S.place e ≠ .own := fun h' => hc (.inl h')
      rw [if_neg hp] at n1 n3 hdis
      obtain ⟨_, ⟨t1, w1⟩, hb, g⟩ := bind_ok h
      have g : after env S key rest (t1, w1) = (.ok (), t', w') := g
      obtain ⟨c1, c2, c3⟩ := afterBinds_ok bs key e hb hp f4 n1 fun o ho => hdis o (.inl ho)
      obtain ⟨a1, a2, a3⟩ := after_ok rest set key from_ fks g f5 n2 (by
        intro o ho hm
        rcases c3 o hm with hm | hm
        · exact hdis o (.inr ho) hm
        · exact n3 o hm o ho rfl) (hpre.2.grows c1) fun p hp => c1.fks _ _ _ _ (hfk p hp)
      refine ⟨c1.trans a1, ?_, ?_⟩
      · rw [StoredNavs]
        exact ⟨a1.storedBinds key e bs c2, a2⟩
      · intro o ho
        rw [lateOids, if_neg hp, List.mem_append]
        rcases a3 o ho with ho | ho
        · exact (c3 o ho).imp id .inl
        · exact .inr (.inr ho)

theorem afterBinds_ok : ∀ (bs : Binds) (key : Key) (e : End) {t t' : Trans} {w w' : World},
    afterBinds env S key e bs (t, w) = (.ok (), t', w') → S.place e ≠ .own → FitsBinds S e bs → (oidsBinds bs).Nodup →
    (∀ o ∈ oidsBinds bs, o ∉ w.marked) →
    Grows w.current w'.current ∧ StoredBinds S w'.current key e bs ∧ ∀ o ∈ w'.marked, o ∈ w.marked ∨ o ∈ oidsBinds bs
  | .nil, key, e, t, t', w, w', h, _, _, _, _ => by
    rw [afterBinds, pure_run] at h
    injection h with _ h2
    injection h2 with _ h2
    subst h2
    exact ⟨grows_refl _, by rw [StoredBinds]; trivial, fun o ho => .inl ho⟩
  | .key k more, key, e, t, t', w, w', h, hp, hfit, hnd, hdis => by
    rw [afterBinds] at h
    obtain ⟨_, ⟨t1, w1⟩, hg, g⟩ := bind_ok h
    obtain ⟨_, ⟨t2, w2⟩, hl, g2⟩ := bind_ok g
    obtain ⟨q1, q2, -⟩ := getitem_ok hg
    obtain ⟨l1, l2, l3⟩ := insertLink_ok hl
    rw [FitsBinds] at hfit
    simp only [oidsBinds] at hnd hdis ⊢
    obtain ⟨c1, c2, c3⟩ := afterBinds_ok more key e g2 hp hfit hnd (by rw [l3, q2]; exact hdis)
    rw [← q1]
    refine ⟨l1.trans c1, ?_, fun o ho => by have := c3 o ho; rwa [l3, q2] at this⟩
    rw [StoredBinds]
    exact ⟨c1.linked l2, c2⟩
  | .ent b more, key, e, t, t', w, w', h, hp, hfit, hnd, hdis => by
    rw [afterBinds] at h
    obtain ⟨old, ⟨t1, w1⟩, hg, g⟩ := bind_ok h
    have ho : old = b.existing w ∧ t1 = t ∧ w1 = w := by
      simp only [isOld] at hg
      injection hg with hg1 hg2
      injection hg1 with hg1
      injection hg2 with hg2 hg3
      exact ⟨hg1.symm, hg2.symm, hg3.symm⟩
    obtain ⟨ho1, ho2, ho3⟩ := ho
    subst ho2; subst ho3
    rw [FitsBinds] at hfit
    simp only [oidsBinds, List.nodup_append, List.mem_append] at hnd hdis ⊢
    obtain ⟨n1, n2, n3⟩ := hnd
    have hdb : ∀ o ∈ oidsEnt b, o ∉ w1.marked := fun o ho => hdis o (.inl ho)
    -- the rest
    have finish : ∀ (t2 : Trans) (w2 : World), Grows w1.current w2.current → Linked S w2.current e key b.key →
        StoredEnt S w2.current b → (∀ o ∈ w2.marked, o ∈ w1.marked ∨ o ∈ oidsEnt b) →
        afterBinds env S key e more (t2, w2) = (.ok (), t', w') →
        Grows w1.current w'.current ∧ StoredBinds S w'.current key e (.ent b more) ∧
          ∀ o ∈ w'.marked, o ∈ w1.marked ∨ o ∈ oidsEnt b ∨ o ∈ oidsBinds more := by
      intro t2 w2 h1 h2 h3 h4 h5
      obtain ⟨c1, c2, c3⟩ := afterBinds_ok more key e h5 hp hfit.2.2 n2 (by
        intro o ho hm
        rcases h4 o hm with hm | hm
        · exact hdis o (.inr ho) hm
        · exact n3 o hm o ho rfl)
      refine ⟨h1.trans c1, ?_, ?_⟩
      · rw [StoredBinds]
        exact ⟨c1.linked h2, c1.storedEnt b h3, c2⟩
      · intro o ho
        rcases c3 o ho with ho | ho
        · exact (h4 o ho).imp id .inl
        · exact .inr (.inr ho)
    cases old with
    | true =>
      simp only [if_true] at g
      obtain ⟨_, ⟨t2, w2⟩, hl, g2⟩ := bind_ok g
      obtain ⟨l1, l2, l3⟩ := insertLink_ok hl
      exact finish t2 w2 l1 l2 (old_of_existing ho1.symm hdb) (fun o ho => .inl (l3 ▸ ho)) g2
    | false =>
      simp only [Bool.false_eq_true, if_false] at g
      by_cases hpo : S.place e = .other
      · simp only [hpo, if_true] at g
        obtain ⟨_, ⟨t2, w2⟩, hi, g2⟩ := bind_ok g
        obtain ⟨i1, i2, i3, i4⟩ := insertIn_ok b _ _ hi hfit.2.1 n1 hdb (by simp) (by simp)
        refine finish t2 w2 i1 ?_ i2 i4 g2
        unfold Linked
        rw [hpo, ← hfit.1]
        exact i3 (other e, key) (by simp)
      · simp only [hpo, if_false] at g
        obtain ⟨_, ⟨t2, w2⟩, hi, g2⟩ := bind_ok g
        obtain ⟨_, ⟨t3, w3⟩, hl, g3⟩ := bind_ok g2
        obtain ⟨i1, i2, i3, i4⟩ := insertIn_ok b _ _ hi hfit.2.1 n1 hdb (by simp) (by simp)
        obtain ⟨l1, l2, l3⟩ := insertLink_ok hl
        exact finish t3 w3 (i1.trans l1) l2 (l1.storedEnt b i2) (fun o ho => i4 o (l3 ▸ ho)) g3

end

/-! ## Nesting -/

/-- In an open transaction the method gives it back as it got it. -/
def Level (m : M α) : Prop :=
  ∀ t w, t.cursor = true → (m (t, w)).2.1.cursor = true ∧ (m (t, w)).2.1.noCommit = t.noCommit

theorem level_pure (x : α) : Level (pure x : M α) := fun _ _ h1 => ⟨h1, rfl⟩

theorem level_raise (e : Exn) : Level (raise e : M α) := fun _ _ h1 => ⟨h1, rfl⟩

theorem level_bind {m : M α} {f : α → M β} (hm : Level m) (hf : ∀ x, Level (f x)) : Level (m >>= f) := by
  intro t w h1
  have h := hm t w h1
  rw [bind_run]
  rcases hr : m (t, w) with ⟨r, t', w'⟩
  rw [hr] at h
  cases r with
  | error e => exact h
  | ok x =>
    have h' := hf x t' w' h.1
    exact ⟨h'.1, h'.2.trans h.2⟩

theorem level_execute (f : DB → DB × Nat) : Level (execute env f) := by
  intro t w h1
  simp only [execute]
  split
  · exact ⟨h1, rfl⟩
  · split
    · exact ⟨h1, rfl⟩
    · exact ⟨h1, rfl⟩

theorem level_isOld (b : Ent) : Level (isOld b) := fun _ _ h1 => ⟨h1, rfl⟩

theorem level_mark (oid : Nat) : Level (mark oid) := fun _ _ h1 => ⟨h1, rfl⟩

theorem level_ite {p : Prop} [Decidable p] {a b : M α} (ha : p → Level a) (hb : ¬ p → Level b) :
    Level (if p then a else b) := by
  split
  · next h => exact ha h
  · next h => exact hb h

theorem level_method {h : Option Exn} {body : M α} (hb : Level body) : Level (method env h body) := by
  intro t w h1
  have hb' := hb { t with noCommit := t.noCommit + 1 } w h1
  rw [method_nested h body h1 hb'.2]
  exact ⟨hb'.1, rfl⟩

theorem level_own (m : M α) : Level (own m) := by
  intro t w h1
  simp only [own]
  exact ⟨h1, trivial⟩

theorem level_getitem (s : SetId) (k : Key) : Level (getitem env s k) := level_own _

theorem level_updateLink (k : Key) (e : End) (target : Option Key) (b : Bool) : Level (updateLink env S k e target b) := by
  unfold updateLink
  refine level_ite (fun _ => level_raise _) fun _ => level_method (level_bind (level_execute _) fun n => ?_)
  exact level_ite (fun _ => level_raise _) fun _ => level_pure _

theorem level_insertLink (e : End) (a b : Key) : Level (insertLink env S e a b) := by
  unfold insertLink
  split
  · exact level_updateLink _ _ _ _
  · exact level_updateLink _ _ _ _
  · exact level_method (level_bind (level_execute _) fun _ => level_pure _)

theorem level_clearLinks (e : End) (a : Key) : Level (clearLinks env S e a) := by
  unfold clearLinks
  split
  · exact level_raise _
  · exact level_method (level_bind (level_execute _) fun _ => level_pure _)
  · exact level_method (level_bind (level_execute _) fun _ => level_pure _)

theorem level_deleteLink (e : End) (a b : Key) : Level (deleteLink env S e a b) := by
  unfold deleteLink
  split
  · refine level_ite (fun _ => level_raise _) fun _ => level_method (level_bind (level_execute _) fun _ => ?_)
    exact level_ite (fun _ => level_raise _) fun _ => level_pure _
  · exact level_pure _
  · refine level_method (level_bind (level_execute _) fun _ => ?_)
    exact level_ite (fun _ => level_raise _) fun _ => level_pure _

mutual

theorem level_insertIn : ∀ (b : Ent) (from_ : Option End) (fks : List (End × Key)), Level (insertIn env S b from_ fks true)
  | .mk set key data oid old navs, from_, fks => by
    intro t w h1
    by_cases he : (Ent.mk set key data oid old navs).existing w = true
    · simp only [insertIn, he, if_true]
      exact ⟨h1, trivial⟩
    · have hrun : insertIn env S (.mk set key data oid old navs) from_ fks true (t, w) =
          method env (some .constraint) (before env S from_ fks true navs >>= fun fks => do
            let _ ← execute env (insertRow set ⟨key, data, fks⟩)
            mark oid
            after env S key navs) (t, w) := by
        simp only [insertIn, he]
        rfl
      rw [hrun]
      refine level_method ?_ t w h1
      refine level_bind (level_before navs from_ fks) fun fks' => ?_
      refine level_bind (level_execute _) fun _ => level_bind (level_mark _) fun _ => level_after navs key

theorem level_before : ∀ (navs : Navs) (from_ : Option End) (fks : List (End × Key)), Level (before env S from_ fks true navs)
  | .nil, _, _ => by rw [before]; exact level_pure _
  | .cons e bs rest, from_, fks => by
    rw [before.eq_def]
    refine level_ite (fun _ => level_before rest _ _) fun _ => ?_
    refine level_ite (fun _ => level_raise _) fun _ => ?_
    match bs with
    | .nil => exact level_ite (fun _ => level_raise _) fun _ => level_before rest _ _
    | .key k more =>
      refine level_ite (fun _ => ?_) fun _ => level_before rest _ _
      match more with
      | .nil =>
        refine level_bind (level_getitem _ _) fun _ => ?_
        exact level_ite (fun _ => level_before rest _ _) fun _ => level_raise _
      | .key _ _ => exact level_raise _
      | .ent _ _ => exact level_raise _
    | .ent b more =>
      refine level_ite (fun _ => ?_) fun _ => level_before rest _ _
      match more with
      | .nil =>
        refine level_bind (level_isOld _) fun _ => level_ite (fun _ => ?_) fun _ => level_bind (level_insertIn b _ _) fun _ => ?_
        · exact level_ite (fun _ => level_before rest _ _) fun _ => level_raise _
        · exact level_ite (fun _ => level_before rest _ _) fun _ => level_raise _
      | .key _ _ => exact level_raise _
      | .ent _ _ => exact level_raise _

theorem level_after : ∀ (navs : Navs) (key : Key), Level (after env S key navs)
  | .nil, _ => by rw [after]; exact level_pure _
  | .cons e bs rest, key => by
    rw [after]
    exact level_ite (fun _ => level_after rest key) fun _ =>
      level_bind (level_afterBinds bs key e) fun _ => level_after rest key

theorem level_afterBinds : ∀ (bs : Binds) (key : Key) (e : End), Level (afterBinds env S key e bs)
  | .nil, _, _ => by rw [afterBinds]; exact level_pure _
  | .key k more, key, e => by
    rw [afterBinds]
    exact level_bind (level_getitem _ _) fun _ => level_bind (level_insertLink _ _ _) fun _ => level_afterBinds more key e
  | .ent b more, key, e => by
    rw [afterBinds]
    refine level_bind (level_isOld _) fun _ => ?_
    dsimp only
    have hrest := level_afterBinds more key e
    refine level_ite (fun _ => level_bind (level_insertLink _ _ _) fun _ => hrest) fun _ => ?_
    refine level_ite (fun _ => level_bind (level_insertIn b _ _) fun _ => hrest) fun _ => ?_
    exact level_bind (level_insertIn b _ _) fun _ => level_bind (level_insertLink _ _ _) fun _ => hrest

end

/-- A method with a transaction of its own that succeeds has committed. -/
theorem own_committed {h : Option Exn} {body : M α} (hb : Level body) {t t' : Trans} {w w' : World} {x : α}
    (hm : own (method env h body) (t, w) = (.ok x, t', w')) : w'.committed = w'.current := by
  obtain ⟨t9, hm⟩ := own_ok hm
  obtain ⟨r, s, h1, h2⟩ := method_run (env := env) h body Trans.new w
  rw [h2] at hm
  cases r with
  | error e =>
    simp only at hm
    rcases hb : rollback env s with ⟨r', s'⟩
    rw [hb] at hm
    cases r' <;> cases hm
  | ok y =>
    simp only at hm
    injection hm with hm1 hm2
    injection hm2 with hm2 hm3
    subst hm3
    obtain ⟨_, ⟨t1, w1⟩, hbeg, g1⟩ := bind_ok h1
    have ht1 : t1 = { Trans.new with cursor := true } := by
      simp only [begin_] at hbeg
      injection hbeg with _ hbeg
      injection hbeg with hbeg _
      exact hbeg.symm
    obtain ⟨x2, ⟨t2, w2⟩, hbody, g2⟩ := bind_ok g1
    obtain ⟨_, ⟨t3, w3⟩, hcom, g3⟩ := bind_ok g2
    have hlev := hb t1 w1 (by rw [ht1])
    rw [hbody] at hlev
    have h0 : t2.noCommit = 0 := by
      have := hlev.2
      rw [ht1] at this
      exact this
    rw [pure_run] at g3
    injection g3 with _ g4
    rw [← g4]
    simp only [commit, h0] at hcom
    split at hcom
    · next hc => exact absurd hc (by decide)
    · split at hcom
      · cases hcom
      · injection hcom with _ hcom
        injection hcom with _ hcom
        rw [← hcom]

/-- **After an insertion without an exception everything that was given is in the database**: the entity with its data, all its
links, the new entities that came with it, and so on to any depth; it is committed; and no entity and no link that was there before
is lost. -/
theorem insert_stores (S : Schema) (b : Ent) (hfit : FitsEnt S none b) (hnd : (oidsEnt b).Nodup) (env : Env) (d : DB) (clock : Nat)
    (marked : List Nat) (hnew : ∀ o ∈ oidsEnt b, o ∉ marked)
    (h : (call (insertEntity env S b) (quiet d clock marked)).1 = .ok ()) :
    StoredEnt S (call (insertEntity env S b) (quiet d clock marked)).2.committed b ∧
      Grows d (call (insertEntity env S b) (quiet d clock marked)).2.committed := by
  simp only [call] at h ⊢
  rcases hr : insertEntity env S b (Trans.new, quiet d clock marked) with ⟨r, t, w⟩
  rw [hr] at h
  simp only at h ⊢
  subst h
  unfold insertEntity at hr
  obtain ⟨t2, hi⟩ := own_ok hr
  obtain ⟨i1, i2, -, -⟩ := insertIn_ok b none [] hi hfit hnd hnew (by simp) (by simp)
  have hc : w.committed = w.current := by
    cases b with
    | mk set key data oid old navs =>
      by_cases he : (Ent.mk set key data oid old navs).existing (quiet d clock marked) = true
      · simp only [insertIn, he, if_true] at hi
        cases hi
      · have hrun : own (insertIn env S (.mk set key data oid old navs) none [] true) (Trans.new, quiet d clock marked) =
            own (method env (some .constraint) (before env S none [] true navs >>= fun fks => do
              let _ ← execute env (insertRow set ⟨key, data, fks⟩)
              mark oid
              after env S key navs)) (Trans.new, quiet d clock marked) := by
          simp only [own, insertIn, he]
          rfl
        rw [hrun] at hr
        exact own_committed (level_bind (level_before navs none []) fun fks =>
          level_bind (level_execute _) fun _ => level_bind (level_mark _) fun _ => level_after navs key) hr
  rw [hc]
  exact ⟨i2, i1⟩

/-- **No entity is replaced by an insertion**: it succeeds only if there was none with its key in the entity set. -/
theorem insert_new (S : Schema) (set key data oid : Nat) (old : Bool) (navs : Navs)
    (hfit : FitsEnt S none (.mk set key data oid old navs)) (hnd : (oidsEnt (.mk set key data oid old navs)).Nodup) (env : Env)
    (d : DB) (clock : Nat) (marked : List Nat) (hnew : ∀ o ∈ oidsEnt (.mk set key data oid old navs), o ∉ marked)
    (h : (call (insertEntity env S (.mk set key data oid old navs)) (quiet d clock marked)).1 = .ok ()) (r : Row)
    (hr : (set, r) ∈ d.rows) : r.key ≠ key := by
  intro hk
  simp only [call] at h
  rcases hrun : insertEntity env S (.mk set key data oid old navs) (Trans.new, quiet d clock marked) with ⟨r', t, w⟩
  rw [hrun] at h
  simp only at h
  subst h
  unfold insertEntity at hrun
  obtain ⟨t2, hi⟩ := own_ok hrun
  by_cases he : (Ent.mk set key data oid old navs).existing (quiet d clock marked) = true
  · simp only [insertIn, he, if_true] at hi
    cases hi
  · have hold : old = false := by
      cases old
      · rfl
      · simp [Ent.existing] at he
    subst hold
    have hrun' : insertIn env S (.mk set key data oid false navs) none [] true (Trans.new, quiet d clock marked) =
        method env (some .constraint) (before env S none [] true navs >>= fun fks => do
          let _ ← execute env (insertRow set ⟨key, data, fks⟩)
          mark oid
          after env S key navs) (Trans.new, quiet d clock marked) := by
      simp only [insertIn, he]
      rfl
    rw [hrun'] at hi
    obtain ⟨t1, t2, w2, g1, -, -⟩ := method_ok hi
    obtain ⟨fks', ⟨t3, w3⟩, hbef, g2⟩ := bind_ok g1
    obtain ⟨n, ⟨t4, w4⟩, hx, g3⟩ := bind_ok g2
    obtain ⟨-, -, -, x4⟩ := execute_ok hx
    rw [FitsEnt] at hfit
    simp only [oidsEnt, Bool.false_eq_true, if_false, List.nodup_cons, List.mem_cons, forall_eq_or_imp] at hnd hnew
    obtain ⟨b1, -, -, -, -⟩ := before_ok navs set none [] hbef (hfit.resolve_left (by simp)) hnd.2 hnew.2 (by simp) (by simp)
    obtain ⟨r3, h3, h4, -⟩ := b1.holds set key r.data ⟨r, hr, hk, rfl⟩
    simp only [DB.distinct, insertRow, List.map_append, List.map_cons, List.map_nil, decide_eq_true_eq, List.nodup_append] at x4
    exact x4.2.2 (set, r3.key) (List.mem_map.mpr ⟨(set, r3), h3, rfl⟩) (set, key) (by simp) (by rw [h4])

/-- **An insertion of an entity whose key is taken is refused**, and says so, whatever the other constraints are. -/
theorem insert_taken (S : Schema) (set key data oid : Nat) (env : Env) (d : DB) (clock : Nat) (marked : List Nat)
    (hroll : env.rollbacks = true) (hq : env.fault clock = none) (hnew : oid ∉ marked) (r : Row) (hr : (set, r) ∈ d.rows)
    (hk : r.key = key) :
    (call (insertEntity env S (.mk set key data oid false .nil)) (quiet d clock marked)).1 = .error .constraint ∧
      (call (insertEntity env S (.mk set key data oid false .nil)) (quiet d clock marked)).2.committed = d := by
  have hd : (insertRow set ⟨key, data, []⟩ d).1.distinct = false := by
    simp only [DB.distinct, insertRow, List.map_append, List.map_cons, List.map_nil, decide_eq_false_iff_not, List.nodup_append]
    intro h
    exact h.2.2 (set, r.key) (List.mem_map.mpr ⟨(set, r), hr, rfl⟩) (set, key) (by simp) (by rw [hk])
  have he : (Ent.mk set key data oid false .nil).existing (quiet d clock marked) = false := by
    simp only [Ent.existing, quiet, Bool.false_or]
    cases h : marked.contains oid
    · rfl
    · exact absurd (List.contains_iff_mem.mp h) hnew
  have hx : ∀ t, execute env (insertRow set ⟨key, data, []⟩) (t, quiet d clock marked) =
      (.error .integrity, t, { quiet d clock marked with clock := clock + 1 }) := by
    intro t
    simp only [execute, quiet, hq, hd, Bool.false_and, Bool.false_eq_true, if_false]
  have hrun : insertEntity env S (.mk set key data oid false .nil) (Trans.new, quiet d clock marked) =
      (.error .constraint, Trans.new, { quiet d clock marked with clock := clock + 1 }) := by
    simp only [insertEntity, own, insertIn, he, Bool.false_eq_true, if_false, if_true]
    obtain ⟨r, s, h1, h2⟩ := method_run (env := env) (some .constraint) (do
      let fks ← before env S none [] true .nil
      let _ ← execute env (insertRow set ⟨key, data, fks⟩)
      mark oid
      after env S key .nil) Trans.new (quiet d clock marked)
    rw [h2]
    have : begin_ (Trans.new, quiet d clock marked) = (.ok (), { Trans.new with cursor := true }, quiet d clock marked) := rfl
    simp only [bind_run, this, before, pure_run, hx] at h1
    injection h1 with h1 h3
    subst h1; subst h3
    have hroll' : ∀ w' : World, rollback env ({ Trans.new with cursor := true }, w') =
        (.ok (), { Trans.new with cursor := true }, { w' with current := w'.committed }) := by
      intro w'
      simp [rollback, Trans.new, hroll]
    simp only [hroll']
    rfl
  simp only [call, hrun]
  exact ⟨trivial, rfl⟩

/-! ## Deletion -/

theorem shrinks_refl (d : DB) : Shrinks d d := ⟨fun _ r' h => ⟨r', h, rfl, rfl, fun _ _ h => h⟩, fun _ h => h⟩

theorem _root_.Verif.Spec.Store.Shrinks.trans {a b c : DB} (h : Shrinks a b) (h' : Shrinks b c) : Shrinks a c := by
  refine ⟨?_, fun l hl => h.links l (h'.links l hl)⟩
  intro s r3 h3
  obtain ⟨r2, m2, k2, d2, f2⟩ := h'.rows s r3 h3
  obtain ⟨r1, m1, k1, d1, f1⟩ := h.rows s r2 m2
  exact ⟨r1, m1, k1.trans k2, d1.trans d2, fun e t x => f1 e t (f2 e t x)⟩

theorem fk_unset (r : Row) (e e' : End) :
    Row.fk { r with fks := r.fks.filter fun p => p.1 ≠ e } e' = if e' = e then none else r.fk e' := by
  by_cases h : e' = e
  · subst h
    rw [if_pos rfl]
    simp only [Row.fk, Option.map_eq_none_iff, List.find?_eq_none, List.mem_filter]
    rintro p ⟨_, hp⟩
    simpa using hp
  · rw [if_neg h]
    simp only [Row.fk]
    rw [find_filter_ne e e' h r.fks]

theorem shrinks_unset (p : SetId × Row → Bool) (e : End) (d : DB) :
    Shrinks d (changeRows p (fun r => { r with fks := r.fks.filter fun q => q.1 ≠ e }) d).1 := by
  refine ⟨?_, fun _ h => h⟩
  intro s r' h
  obtain ⟨⟨s0, r⟩, hx, he⟩ := List.mem_map.mp h
  split at he
  · injection he with h1 h2
    subst h1; subst h2
    refine ⟨r, hx, rfl, rfl, ?_⟩
    intro e' t hf
    rw [fk_unset] at hf
    split at hf
    · cases hf
    · exact hf
  · injection he with h1 h2
    subst h1; subst h2
    exact ⟨r, hx, rfl, rfl, fun _ _ h => h⟩

theorem shrinks_deleteRow (s : SetId) (k : Key) (d : DB) : Shrinks d (deleteRow s k d).1 :=
  ⟨fun _ r' h => ⟨r', (List.mem_filter.mp h).1, rfl, rfl, fun _ _ h => h⟩, fun _ h => h⟩

theorem shrinks_filter (p : Nat × Key × Key → Bool) (d : DB) : Shrinks d { d with links := d.links.filter p } :=
  ⟨fun _ r' h => ⟨r', h, rfl, rfl, fun _ _ h => h⟩, fun _ h => (List.mem_filter.mp h).1⟩

theorem _root_.Verif.Spec.Store.Shrinks.unlinked {d d' : DB} (h : Shrinks d d') {e : End} {key : Key} (hu : Unlinked S d e key) :
    Unlinked S d' e key := by
  unfold Unlinked at *
  split at hu
  · trivial
  · intro x hx hs hf
    obtain ⟨r, m, -, -, f⟩ := h.rows x.1 x.2 hx
    exact hu _ m hs (f _ _ hf)
  · intro l hl
    exact hu l (h.links l hl)

/-- No row of the entity. -/
def Gone (d : DB) (s : SetId) (k : Key) : Prop := ∀ r, (s, r) ∈ d.rows → r.key ≠ k

theorem _root_.Verif.Spec.Store.Shrinks.gone {d d' : DB} (h : Shrinks d d') {s : SetId} {k : Key} (hg : Gone d s k) : Gone d' s k := by
  intro r hr
  obtain ⟨r0, m, hk, -, -⟩ := h.rows s r hr
  rw [← hk]
  exact hg r0 m

theorem execute_shrinks {f : DB → DB × Nat} (hf : ∀ d, Shrinks d (f d).1) {t t' : Trans} {w w' : World} {n : Nat}
    (h : execute env f (t, w) = (.ok n, t', w')) : Shrinks w.current w'.current := by
  obtain ⟨x1, -⟩ := execute_ok h
  rw [x1]
  exact hf _

theorem clearLinks_ok {e : End} {a : Key} {t t' : Trans} {w w' : World} (h : clearLinks env S e a (t, w) = (.ok (), t', w')) :
    Shrinks w.current w'.current ∧ Unlinked S w'.current e a := by
  unfold clearLinks at h
  unfold Unlinked
  cases hp : S.place e with
  | own =>
    simp only [hp] at h
    exact (raise_ok h).elim
  | other =>
    simp only [hp] at h
    obtain ⟨t1, t2, w2, g, h2, -⟩ := method_ok h
    obtain ⟨n, ⟨t4, w4⟩, hx, g⟩ := bind_ok g
    rw [pure_run] at g
    injection g with _ g
    injection g with _ g
    subst g
    rw [h2]
    obtain ⟨x1, -⟩ := execute_ok hx
    refine ⟨execute_shrinks (fun d => shrinks_unset _ _ d) hx, ?_⟩
    rw [x1]
    rintro ⟨s, r'⟩ hx hs hf
    obtain ⟨⟨s0, r⟩, hm, he⟩ := List.mem_map.mp hx
    split at he
    · injection he with e1 e2
      subst e1; subst e2
      rw [fk_unset, if_pos rfl] at hf
      cases hf
    · next hne =>
      injection he with e1 e2
      subst e1; subst e2
      exact hne (decide_eq_true ⟨hs, hf⟩)
  | aux =>
    simp only [hp] at h
    obtain ⟨t1, t2, w2, g, h2, -⟩ := method_ok h
    obtain ⟨n, ⟨t4, w4⟩, hx, g⟩ := bind_ok g
    rw [pure_run] at g
    injection g with _ g
    injection g with _ g
    subst g
    rw [h2]
    obtain ⟨x1, -⟩ := execute_ok hx
    refine ⟨execute_shrinks (fun d => shrinks_filter _ d) hx, ?_⟩
    rw [x1]
    intro l hl h1 h2
    have := (List.mem_filter.mp hl).2
    simp only [h1, h2, and_self, not_true_eq_false, decide_false] at this
    cases this

theorem each_ok {γ : Type} {f : γ → M Unit} {R : γ → DB → Prop} (hR : ∀ x d d', Shrinks d d' → R x d → R x d') :
    ∀ (l : List γ), (∀ x ∈ l, ∀ {t t' : Trans} {w w' : World}, f x (t, w) = (.ok (), t', w') →
      Shrinks w.current w'.current ∧ R x w'.current) → ∀ {t t' : Trans} {w w' : World}, each f l (t, w) = (.ok (), t', w') →
      Shrinks w.current w'.current ∧ ∀ x ∈ l, R x w'.current
  | [], _, t, t', w, w', h => by
    rw [each, pure_run] at h
    injection h with _ h
    injection h with _ h
    subst h
    exact ⟨shrinks_refl _, by simp⟩
  | x :: rest, hf, t, t', w, w', h => by
    rw [each] at h
    obtain ⟨_, ⟨t1, w1⟩, hx, g⟩ := bind_ok h
    obtain ⟨s1, r1⟩ := hf x (by simp) hx
    obtain ⟨s2, r2⟩ := each_ok hR rest (fun y hy => hf y (by simp [hy])) g
    refine ⟨s1.trans s2, ?_⟩
    intro y hy
    rcases List.mem_cons.mp hy with rfl | hy
    · exact hR _ _ _ s2 r1
    · exact r2 y hy

theorem values_ok {e : End} {a : Key} {l : List Key} {t t' : Trans} {w w' : World}
    (h : values env S e a (t, w) = (.ok l, t', w')) : w'.current = w.current ∧ l = linked S e a w.current := by
  obtain ⟨_, h⟩ := own_ok h
  obtain ⟨t1, t2, w2, g, h2, -⟩ := method_ok h
  obtain ⟨q1, q2, -⟩ := query_ok g
  exact ⟨h2.trans q1, q2⟩

theorem deleteLink_ok {e : End} {a b : Key} {t t' : Trans} {w w' : World} (h : deleteLink env S e a b (t, w) = (.ok (), t', w')) :
    Shrinks w.current w'.current ∧ (S.place e = .aux → link e a b ∉ w'.current.links) := by
  unfold deleteLink at h
  cases hp : S.place e with
  | own =>
    simp only [hp] at h
    split at h
    · exact (raise_ok h).elim
    · obtain ⟨t1, t2, w2, g, h2, -⟩ := method_ok h
      obtain ⟨n, ⟨t4, w4⟩, hx, g⟩ := bind_ok g
      split at g
      · exact (raise_ok g).elim
      · rw [pure_run] at g
        injection g with _ g
        injection g with _ g
        subst g
        rw [h2]
        exact ⟨execute_shrinks (fun d => shrinks_unset _ _ d) hx, fun h => by cases h⟩
  | other =>
    simp only [hp, pure_run] at h
    injection h with _ h
    injection h with _ h
    subst h
    exact ⟨shrinks_refl _, fun h => by cases h⟩
  | aux =>
    simp only [hp] at h
    obtain ⟨t1, t2, w2, g, h2, -⟩ := method_ok h
    obtain ⟨n, ⟨t4, w4⟩, hx, g⟩ := bind_ok g
    split at g
    · exact (raise_ok g).elim
    · rw [pure_run] at g
      injection g with _ g
      injection g with _ g
      subst g
      rw [h2]
      refine ⟨execute_shrinks (fun d => shrinks_filter _ d) hx, fun _ hl => ?_⟩
      obtain ⟨x1, -⟩ := execute_ok hx
      rw [x1] at hl
      have := (List.mem_filter.mp hl).2
      simp at this

theorem link_of_keys {e : End} {l : Nat × Key × Key} {a : Key} (h1 : l.1 = e.1) (h2 : linkKey e l = a) :
    link e a (linkKey (other e) l) = l := by
  obtain ⟨n, x, y⟩ := l
  obtain ⟨m, b⟩ := e
  cases b <;> simp_all [link, linkKey, other]

/-- What a deletion leaves. -/
theorem deleteIn_ok : ∀ (n : Nat) (set : SetId) (key : Key) (from_ : Option End) {t t' : Trans} {w w' : World},
    deleteIn env S n set key from_ (t, w) = (.ok (), t', w') →
    Shrinks w.current w'.current ∧ Gone w'.current set key ∧
      ∀ e ∈ S.ends set, some e ≠ from_ → Unlinked S w'.current e key
  | 0, set, key, from_, t, t', w, w', h => by
    rw [deleteIn] at h
    exact (raise_ok h).elim
  | n + 1, set, key, from_, t, t', w, w', h => by
    rw [deleteIn] at h
    obtain ⟨t1, t2, w2, g, h2, -⟩ := method_ok h
    obtain ⟨_, ⟨t3, w3⟩, hloop, g⟩ := bind_ok g
    obtain ⟨count, ⟨t4, w4⟩, hx, g⟩ := bind_ok g
    have hw : w4 = w2 := by
      split at g
      · exact (raise_ok g).elim
      · split at g
        · exact (raise_ok g).elim
        · rw [pure_run] at g
          injection g with _ g
          injection g with _ g
    subst hw
    rw [h2]
    have hsh := execute_shrinks (fun d => shrinks_deleteRow _ _ d) hx
    obtain ⟨l1, l2⟩ := each_ok (R := fun e d => some e ≠ from_ → Unlinked S d e key)
      (fun e d d' hs hr hf => hs.unlinked (hr hf)) (S.ends set) (by
        intro e he t t' w w' h
        split at h
        · next hc =>
          rw [pure_run] at h
          injection h with _ h
          injection h with _ h
          subst h
          refine ⟨shrinks_refl _, fun hf => ?_⟩
          have hp : S.place e = .own := hc.resolve_left hf
          unfold Unlinked
          rw [hp]
          trivial
        · next hc =>
          have hp : S.place e ≠ .own := fun h' => hc (.inr h')
          split at h
          · split at h
            · obtain ⟨targets, ⟨t5, w5⟩, hv, g⟩ := bind_ok h
              obtain ⟨v1, v2⟩ := values_ok hv
              obtain ⟨e1, e2⟩ := each_ok (R := fun k d => Gone d (S.set (other e)) k ∧ (S.place e = .aux → link e key k ∉ d.links))
                (fun k d d' hs hr => ⟨hs.gone hr.1, fun hp hl => hr.2 hp (hs.links _ hl)⟩) targets (by
                  intro k hk t t' w w' h
                  obtain ⟨_, ⟨t6, w6⟩, hd, g⟩ := bind_ok h
                  obtain ⟨d1, d2⟩ := deleteLink_ok hd
                  obtain ⟨r1, r2, r3⟩ := deleteIn_ok n _ _ _ g
                  exact ⟨d1.trans r1, r2, fun hp hl => d2 hp (r1.links _ hl)⟩) g
              rw [v1] at e1
              refine ⟨e1, fun _ => ?_⟩
              unfold Unlinked
              cases hpl : S.place e with
              | own => trivial
              | other =>
                intro x hx hs hf
                obtain ⟨r, m, hk, -, hfk⟩ := e1.rows x.1 x.2 hx
                have hmem : x.2.key ∈ targets := by
                  rw [v2]
                  unfold linked
                  rw [hpl]
                  exact List.mem_map.mpr ⟨(x.1, r), List.mem_filter.mpr ⟨m, decide_eq_true ⟨hs, hfk _ _ hf⟩⟩, hk⟩
                exact (e2 _ hmem).1 x.2 (hs ▸ hx) rfl
              | aux =>
                intro l hl h1 h2
                have hmem : linkKey (other e) l ∈ targets := by
                  rw [v2]
                  unfold linked
                  rw [hpl]
                  exact List.mem_map.mpr ⟨l, List.mem_filter.mpr ⟨e1.links l hl, decide_eq_true ⟨h1, h2⟩⟩, rfl⟩
                refine (e2 _ hmem).2 hpl ?_
                rw [link_of_keys h1 h2]
                exact hl
            · exact (raise_ok h).elim
          · split at h
            · obtain ⟨c1, c2⟩ := clearLinks_ok h
              exact ⟨c1, fun _ => c2⟩
            · split at h
              · next hpl =>
                obtain ⟨m, ⟨t5, w5⟩, hx, g⟩ := bind_ok h
                rw [pure_run] at g
                injection g with _ g
                injection g with _ g
                subst g
                refine ⟨execute_shrinks (fun d => shrinks_filter _ d) hx, fun _ => ?_⟩
                obtain ⟨x1, -⟩ := execute_ok hx
                unfold Unlinked
                rw [hpl, x1]
                intro l hl h1 h2
                have := (List.mem_filter.mp hl).2
                simp only [h1, h2, and_self, not_true_eq_false, decide_false] at this
                cases this
              · obtain ⟨c1, c2⟩ := clearLinks_ok h
                exact ⟨c1, fun _ => c2⟩) hloop
    refine ⟨l1.trans hsh, ?_, fun e he hf => hsh.unlinked (l2 e he hf)⟩
    obtain ⟨x1, -⟩ := execute_ok hx
    rw [x1]
    intro r hr hk
    have := (List.mem_filter.mp hr).2
    simp [hk] at this

theorem level_each {γ : Type} {f : γ → M Unit} : ∀ l : List γ, (∀ x, Level (f x)) → Level (each f l)
  | [], _ => by rw [each]; exact level_pure _
  | x :: rest, h => by
    rw [each]
    exact level_bind (h x) fun _ => level_each rest h

theorem level_deleteBody {n : Nat} {set : SetId} {key : Key} {from_ : Option End}
    (ih : ∀ s k f, Level (deleteIn env S n s k f)) : Level (do
      each (fun e =>
        if some e = from_ ∨ S.place e = .own then pure ()
        else if S.mult e = .one then
          if S.nav e then do
            let targets ← values env S e key
            each (fun k => do
              deleteLink env S e key k
              deleteIn env S n (S.set (other e)) k (some (other e))) targets
          else raise .navigation
        else if S.nav e then clearLinks env S e key
        else if S.place e = .aux then do
          let _ ← execute env (dropLinks e key)
          pure ()
        else clearLinks env S e key) (S.ends set)
      let count ← execute env (deleteRow set key)
      if count = 0 then raise .key else if count > 1 then raise .name else pure () : M Unit) := by
  refine level_bind (level_each _ fun e => ?_) fun _ => level_bind (level_execute _) fun _ => ?_
  · refine level_ite (fun _ => level_pure _) fun _ => level_ite (fun _ => level_ite (fun _ => ?_) fun _ => level_raise _) fun _ => ?_
    · exact level_bind (level_own _) fun _ => level_each _ fun k => level_bind (level_deleteLink _ _ _) fun _ => ih _ _ _
    · refine level_ite (fun _ => level_clearLinks _ _) fun _ => ?_
      exact level_ite (fun _ => level_bind (level_execute _) fun _ => level_pure _) fun _ => level_clearLinks _ _
  · exact level_ite (fun _ => level_raise _) fun _ => level_ite (fun _ => level_raise _) fun _ => level_pure _

theorem level_deleteIn : ∀ (n : Nat) (set : SetId) (key : Key) (from_ : Option End), Level (deleteIn env S n set key from_)
  | 0, _, _, _ => by rw [deleteIn]; exact level_raise _
  | n + 1, set, key, from_ => by
    rw [deleteIn]
    exact level_method (level_deleteBody (level_deleteIn n))

/-- **After a deletion without an exception the entity is gone with all the links to it**, by foreign keys of other entities and in
auxiliary tables, whatever had to be deleted with it; and nothing new is in the database. -/
theorem delete_removes (S : Schema) (n : Nat) (set : SetId) (key : Key) (env : Env) (d : DB) (clock : Nat) (marked : List Nat)
    (h : (call (deleteEntity env S n set key) (quiet d clock marked)).1 = .ok ()) :
    (∀ r, (set, r) ∈ (call (deleteEntity env S n set key) (quiet d clock marked)).2.committed.rows → r.key ≠ key) ∧
      (∀ e ∈ S.ends set, Unlinked S (call (deleteEntity env S n set key) (quiet d clock marked)).2.committed e key) ∧
      Shrinks d (call (deleteEntity env S n set key) (quiet d clock marked)).2.committed := by
  simp only [call] at h ⊢
  rcases hr : deleteEntity env S n set key (Trans.new, quiet d clock marked) with ⟨r, t, w⟩
  rw [hr] at h
  simp only at h ⊢
  subst h
  unfold deleteEntity at hr
  obtain ⟨_, ⟨t1, w1⟩, hg, g⟩ := bind_ok hr
  obtain ⟨q1, -, -⟩ := getitem_ok hg
  obtain ⟨t2, hd⟩ := own_ok g
  obtain ⟨r1, r2, r3⟩ := deleteIn_ok n set key none hd
  rw [q1] at r1
  have hc : w.committed = w.current := by
    cases n with
    | zero =>
      rw [deleteIn] at hd
      exact (raise_ok hd).elim
    | succ n =>
      rw [deleteIn] at g
      exact own_committed (level_deleteBody (level_deleteIn n)) g
  rw [hc]
  exact ⟨r2, fun e he => r3 e he (by simp), r1⟩

/-! ## Exceptions -/

theorem method_not_raw {h : Option Exn} {body : M α} (hh : ∀ e, h = some e → ¬ Raw e) {s s' : Trans × World} {e : Exn}
    (hm : method env h body s = (.error e, s')) : ¬ Raw e := by
  obtain ⟨t, w⟩ := s
  obtain ⟨r, s, -, h2⟩ := method_run (env := env) h body t w
  rw [h2] at hm
  cases r with
  | ok x => cases hm
  | error e0 =>
    simp only at hm
    have hroll : ∀ e' s', rollback env s = (.error e', s') → e' = .name := by
      intro e' s' hb
      obtain ⟨t, w⟩ := s
      simp only [rollback] at hb
      split at hb
      · cases hb
      · split at hb
        · cases hb
        · injection hb with hb _
          injection hb with hb
          exact hb.symm
    rcases hb : rollback env s with ⟨r', s9⟩
    rw [hb] at hm
    cases r' with
    | error e' =>
      simp only at hm
      injection hm with hm _
      injection hm with hm
      rw [← hm, hroll e' s9 hb]
      simp [Raw]
    | ok u =>
      simp only at hm
      injection hm with hm _
      injection hm with hm
      rw [← hm]
      split
      · next e' _ => exact hh _ rfl
      · cases e0 <;> simp [reraised, Raw]

theorem call_error {m : M Unit} {w : World} {e : Exn} (h : (call m w).1 = .error e) : ∃ s, m (Trans.new, w) = (.error e, s) := by
  simp only [call] at h
  rcases hm : m (Trans.new, w) with ⟨r, t, w'⟩
  rw [hm] at h
  simp only at h
  subst h
  exact ⟨_, rfl⟩

theorem own_error {m : M α} {t : Trans} {w : World} {e : Exn} {s : Trans × World} (h : own m (t, w) = (.error e, s)) :
    ∃ s', m (Trans.new, w) = (.error e, s') := by
  simp only [own] at h
  rcases hm : m (Trans.new, w) with ⟨r, t', w'⟩
  rw [hm] at h
  simp only at h
  injection h with h _
  exact ⟨_, by rw [h]⟩

theorem insertIn_not_raw {b : Ent} {from_ : Option End} {fks : List (End × Key)} {ok : Bool} {s s' : Trans × World} {e : Exn}
    (h : insertIn env S b from_ fks ok s = (.error e, s')) : ¬ Raw e := by
  cases b with
  | mk set key data oid old navs =>
    rw [insertIn] at h
    dsimp only at h
    by_cases he : (Ent.mk set key data oid old navs).existing s.2 = true
    · rw [if_pos he] at h
      injection h with h _
      injection h with h
      rw [← h]
      simp [Raw]
    · rw [if_neg he] at h
      exact method_not_raw (by intro e h; cases h; simp [Raw]) h

theorem getitem_not_raw {s0 : SetId} {k : Key} {t : Trans} {w : World} {s' : Trans × World} {e : Exn}
    (h : getitem env s0 k (t, w) = (.error e, s')) : ¬ Raw e := by
  obtain ⟨_, h⟩ := own_error h
  exact method_not_raw (by intro e h; cases h) h

/-- **No exception of the database driver reaches the caller of an insertion.** -/
theorem insert_not_raw (S : Schema) (b : Ent) (env : Env) (w : World) (e : Exn)
    (h : (call (insertEntity env S b) w).1 = .error e) : ¬ Raw e := by
  obtain ⟨_, h⟩ := call_error h
  unfold insertEntity at h
  obtain ⟨_, h⟩ := own_error h
  exact insertIn_not_raw h

/-- **No exception of the database driver reaches the caller of an update.** -/
theorem update_not_raw (S : Schema) (b : Ent) (env : Env) (w : World) (e : Exn)
    (h : (call (updateEntity env S b) w).1 = .error e) : ¬ Raw e := by
  obtain ⟨_, h⟩ := call_error h
  cases b with
  | mk set key data oid old navs =>
    rw [updateEntity] at h
    dsimp only at h
    by_cases he : (Ent.mk set key data oid old navs).existing w = true
    · rw [if_neg (by simpa using he)] at h
      obtain ⟨_, h⟩ := own_error h
      exact method_not_raw (by intro e h; cases h; simp [Raw]) h
    · rw [if_pos he] at h
      injection h with h _
      injection h with h
      rw [← h]
      simp [Raw]

/-- **No exception of the database driver reaches the caller of a deletion.** -/
theorem delete_not_raw (S : Schema) (n : Nat) (set : SetId) (key : Key) (env : Env) (w : World) (e : Exn)
    (h : (call (deleteEntity env S n set key) w).1 = .error e) : ¬ Raw e := by
  obtain ⟨_, h⟩ := call_error h
  unfold deleteEntity at h
  rw [bind_run] at h
  rcases hg : getitem env set key (Trans.new, w) with ⟨r, t1, w1⟩
  rw [hg] at h
  cases r with
  | error e1 =>
    simp only at h
    injection h with h _
    injection h with h
    subst h
    exact getitem_not_raw hg
  | ok u =>
    simp only at h
    obtain ⟨_, h⟩ := own_error h
    cases n with
    | zero =>
      rw [deleteIn] at h
      injection h with h _
      injection h with h
      rw [← h]
      simp [Raw]
    | succ n =>
      rw [deleteIn] at h
      exact method_not_raw (by intro e h; cases h) h

end Verif.Props.ST
