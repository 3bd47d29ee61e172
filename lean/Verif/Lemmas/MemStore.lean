import Verif.Spec.MemStore
import Verif.Lemmas.Paging

/-! Lemmas about the entity store. -/

set_option linter.unusedVariables false

namespace Verif.MemStore

open Verif Verif.Spec.MemStore

mutual
theorem assign_fits : ∀ (s : Shape) (v : Val), Fits s v → assign s v = .ok v
  | .simple _, .atom v, _ => by simp [assign]
  | .simple _, .tup _, h => by simp [Fits] at h
  | .complex fs, .tup vs, h => by
    simp only [Fits] at h
    simp [assign, assigns_fits fs vs h, Except.map]
  | .complex _, .atom _, h => by simp [Fits] at h
theorem assigns_fits : ∀ (ss : List Shape) (vs : List Val), FitsAll ss vs → assigns ss vs = .ok vs
  | [], [], _ => by simp [assigns]
  | [], _ :: _, h => by simp [FitsAll] at h
  | s :: ss, [], h => by simp [FitsAll] at h
  | s :: ss, v :: vs, h => by
    simp only [FitsAll] at h
    simp [assigns, assign_fits s v h.1, assigns_fits ss vs h.2, bind, Except.bind]
end

theorem fitsAll_length : ∀ {ss : List Shape} {vs : List Val}, FitsAll ss vs → ss.length = vs.length
  | [], [], _ => rfl
  | [], _ :: _, h => by simp [FitsAll] at h
  | _ :: _, [], h => by simp [FitsAll] at h
  | _ :: _, _ :: _, h => by
    simp only [FitsAll] at h
    simp [fitsAll_length h.2]

/-- The properties read from a tuple that has a value for each. -/
def project (keys : List Str) (sel : Option (List Str)) : List (Str × Shape) → Row → List (Str × Val)
  | [], _ => []
  | _ :: _, [] => []
  | (n, s) :: ps, v :: vs => (n, if wanted keys sel n then v else null s) :: project keys sel ps vs

theorem fromRow_fits (keys : List Str) (sel : Option (List Str)) : ∀ (ps : List (Str × Shape)) (row : Row),
    FitsAll (ps.map (·.2)) row → fromRow keys sel ps row = .ok (project keys sel ps row)
  | [], row, h => by simp [fromRow, project]
  | (n, s) :: ps, [], h => by simp [FitsAll] at h
  | (n, s) :: ps, v :: vs, h => by
    simp only [List.map_cons, FitsAll] at h
    have ih := fromRow_fits keys sel ps vs h.2
    simp only [fromRow, project, List.tail_cons, ih, bind, Except.bind]
    cases wanted keys sel n
    · simp
    · simp [assign_fits s v h.1]

theorem project_names (keys : List Str) (sel : Option (List Str)) : ∀ (ps : List (Str × Shape)) (row : Row),
    FitsAll (ps.map (·.2)) row → (project keys sel ps row).map (·.1) = ps.map (·.1)
  | [], row, h => by simp [project]
  | (n, s) :: ps, [], h => by simp [FitsAll] at h
  | (n, s) :: ps, v :: vs, h => by
    simp only [List.map_cons, FitsAll] at h
    simp [project, project_names keys sel ps vs h.2]

theorem project_get (keys : List Str) (sel : Option (List Str)) (n : Str) (hn : wanted keys sel n = true) :
    ∀ (ps : List (Str × Shape)) (row : Row),
    Dict.get (project keys sel ps row) n = Dict.get (project keys none ps row) n
  | [], row => by simp [project]
  | (m, s) :: ps, [] => by simp [project]
  | (m, s) :: ps, v :: vs => by
    simp only [project, Dict.get_cons, project_get keys sel n hn ps vs]
    by_cases h : m = n
    · subst h
      rw [if_pos hn, if_pos (show wanted keys none m = true from rfl)]
    · simp [h]

theorem project_get_not (keys : List Str) (sel : Option (List Str)) (n : Str) (hn : wanted keys sel n = false) :
    ∀ (ps : List (Str × Shape)) (row : Row), FitsAll (ps.map (·.2)) row →
    Dict.get (project keys sel ps row) n = (Dict.get ps n).map null
  | [], row, _ => by simp [project]
  | (m, s) :: ps, [], h => by simp [FitsAll] at h
  | (m, s) :: ps, v :: vs, h => by
    simp only [List.map_cons, FitsAll] at h
    simp only [project, Dict.get_cons, project_get_not keys sel n hn ps vs h.2]
    by_cases h : m = n
    · subst h
      simp [hn]
    · simp [h]

/-- Without selection the tuple is read as it is. -/
theorem project_all (keys : List Str) : ∀ (ps : List (Str × Shape)) (vals : List (Str × Val)),
    vals.map (·.1) = ps.map (·.1) → project keys none ps (vals.map (·.2)) = vals
  | [], [], _ => rfl
  | [], _ :: _, h => by simp at h
  | _ :: _, [], h => by simp at h
  | (n, s) :: ps, (m, v) :: vs, h => by
    simp only [List.map_cons, List.cons.injEq] at h
    simp [project, wanted, project_all keys ps vs h.2, h.1]

theorem project_values (keys : List Str) : ∀ (ps : List (Str × Shape)) (row : Row),
    FitsAll (ps.map (·.2)) row → (project keys none ps row).map (·.2) = row
  | [], [], h => by simp [project]
  | [], _ :: _, h => by simp [FitsAll] at h
  | (n, s) :: ps, [], h => by simp [FitsAll] at h
  | (n, s) :: ps, v :: vs, h => by
    simp only [List.map_cons, FitsAll] at h
    simp [project, wanted, project_values keys ps vs h.2]

theorem readRow_fits (t : EType) (select : Option (List Str)) (row : Row) (h : FitsAll (t.props.map (·.2)) row) :
    readRow t select row = .ok { vals := project t.keys (select.map (selection t)) t.props row,
                                 selected := select.map (selection t), exists_ := true } := by
  simp [readRow, fromRow_fits _ _ _ _ h, bind, Except.bind]

theorem toRow_all (e : Ent) (h : e.selected = none) : toRow e = e.vals.map (·.2) := by
  unfold toRow
  congr 1
  apply List.filter_eq_self.mpr
  intro p _
  simp [Ent.isSelected, h]

theorem updateRow_fits (e : Ent) : ∀ (ss : List Shape) (ps : List (Str × Val)) (row : Row), FitsAll ss (ps.map (·.2)) →
    FitsAll ss row → ∃ row', updateRow e ps row = .ok row' ∧ FitsAll ss row'
  | [], [], [], _, _ => ⟨[], rfl, by simp [FitsAll]⟩
  | [], _ :: _, _, h, _ => by simp [FitsAll] at h
  | [], [], _ :: _, _, h => by simp [FitsAll] at h
  | _ :: _, [], _, h, _ => by simp [FitsAll] at h
  | _ :: _, _ :: _, [], _, h => by simp [FitsAll] at h
  | s :: ss, (n, v) :: ps, old :: row, h1, h2 => by
    simp only [List.map_cons, FitsAll] at h1 h2
    obtain ⟨row', h3, h4⟩ := updateRow_fits e ss ps row h1.2 h2.2
    refine ⟨(if e.isSelected n then v else old) :: row', by simp [updateRow, h3, bind, Except.bind], ?_⟩
    simp only [FitsAll]
    refine ⟨?_, h4⟩
    cases e.isSelected n
    · simpa using h2.1
    · simpa using h1.1

theorem updateRow_get (e : Ent) (keys : List Str) (n : Str) : ∀ (props : List (Str × Shape)) (ps : List (Str × Val)) (row row' : Row),
    ps.map (·.1) = props.map (·.1) → FitsAll (props.map (·.2)) row → updateRow e ps row = .ok row' →
    Dict.get (project keys none props row') n =
      if e.isSelected n then Dict.get ps n else Dict.get (project keys none props row) n
  | [], [], row, row', _, h, hr => by cases hr; simp [project]
  | [], _ :: _, _, _, h, _, _ => by simp at h
  | _ :: _, [], _, _, h, _, _ => by simp at h
  | _ :: _, _ :: _, [], _, _, h, _ => by simp [FitsAll] at h
  | (m, s) :: props, (m', v) :: ps, old :: row, row', hn, hf, hr => by
    simp only [List.map_cons, FitsAll, List.cons.injEq] at hn hf
    cases hu : updateRow e ps row with
    | error _ => simp [updateRow, hu, bind, Except.bind] at hr
    | ok r =>
      simp [updateRow, hu, bind, Except.bind] at hr
      subst hr
      have ih := updateRow_get e keys n props ps row r hn.2 hf.2 hu
      simp only [project, wanted, Dict.get_cons, ih, if_true]
      rw [hn.1]
      by_cases h : m = n
      · subst h
        cases e.isSelected m <;> simp
      · simp [h]

theorem get_ext (a b : List (Str × Val)) (hn : a.map (·.1) = b.map (·.1)) (hd : (a.map (·.1)).Nodup)
    (h : ∀ n, Dict.get a n = Dict.get b n) : a = b := by
  induction a generalizing b with
  | nil => cases b with
    | nil => rfl
    | cons _ _ => simp at hn
  | cons p a ih =>
    cases b with
    | nil => simp at hn
    | cons q b =>
      obtain ⟨n, v⟩ := p
      obtain ⟨m, w⟩ := q
      simp only [List.map_cons, List.cons.injEq] at hn
      obtain ⟨h1, h2⟩ := hn
      subst h1
      have hv := h n
      simp [Dict.get_cons] at hv
      subst hv
      congr 1
      simp only [List.map_cons, List.nodup_cons] at hd
      refine ih b h2 hd.2 ?_
      intro k
      have hk := h k
      simp only [Dict.get_cons] at hk
      by_cases hkn : n = k
      · subst hkn
        have aux : ∀ c : List (Str × Val), n ∉ c.map (·.1) → Dict.get c n = none := by
          intro c hc
          cases hg : Dict.get c n with
          | none => rfl
          | some v => exact absurd (List.mem_map_of_mem (f := (·.1)) (Dict.mem_of_get hg)) hc
        rw [aux a hd.1, aux b (by rw [← h2]; exact hd.1)]
      · simpa [hkn] using hk

/-! ### Aligned stores -/

theorem aligned_get {t : EType} {st : Store} (h : StoreOk t st) {k : Key} {row : Row} (hg : Dict.get st.data k = some row) :
    FitsAll (t.props.map (·.2)) row := h.aligned _ (Dict.mem_of_get hg)

theorem mem_set {κ β : Type} [DecidableEq κ] {d : List (κ × β)} {k : κ} {v : β} {p : κ × β} (h : p ∈ Dict.set d k v) :
    p = (k, v) ∨ p ∈ d := by
  unfold Dict.set at h
  rcases List.mem_cons.mp h with h | h
  · exact .inl h
  · exact .inr (List.mem_filter.mp h).1

theorem getItem_aligned (t : EType) (c : Coll) (st : Store) (h : StoreOk t st) (k : Key) :
    getItem t c st k =
      match Dict.get st.data k with
      | none => .error .key
      | some row =>
        let e : Ent := { vals := project t.keys (c.select.map (selection t)) t.props row,
                         selected := c.select.map (selection t), exists_ := true }
        if checkFilter c e then .ok e else .error .key := by
  unfold getItem
  cases hg : Dict.get st.data k with
  | none => rfl
  | some row => simp [readRow_fits t c.select row (aligned_get h hg), bind, Except.bind]

theorem set_once {κ β : Type} [DecidableEq κ] {d : List (κ × β)} (k : κ) (v : β) (h : (d.map (·.1)).Nodup) :
    ((Dict.set d k v).map (·.1)).Nodup := by
  unfold Dict.set
  rw [List.map_cons, List.nodup_cons]
  constructor
  · intro hm
    obtain ⟨p, hp, he⟩ := List.mem_map.mp hm
    have := (List.mem_filter.mp hp).2
    simp at this
    exact this he
  · exact List.Nodup.sublist (List.Sublist.map _ List.filter_sublist) h

theorem del_once {κ β : Type} [DecidableEq κ] {d : List (κ × β)} (k : κ) (h : (d.map (·.1)).Nodup) :
    ((Dict.del d k).map (·.1)).Nodup :=
  List.Nodup.sublist (List.Sublist.map _ List.filter_sublist) h

theorem get_of_mem {κ β : Type} [DecidableEq κ] {d : List (κ × β)} (h : (d.map (·.1)).Nodup) {k : κ} {v : β}
    (hm : (k, v) ∈ d) : Dict.get d k = some v := by
  induction d with
  | nil => cases hm
  | cons p d ih =>
    simp only [List.map_cons, List.nodup_cons] at h
    rw [Dict.get_cons]
    rcases List.mem_cons.mp hm with h2 | h2
    · subst h2; simp
    · rw [if_neg, ih h.2 h2]
      intro he
      subst he
      exact h.1 (List.mem_map_of_mem (f := (·.1)) h2)

/-! ### Iteration -/

/-- The entity that is read for a kept tuple. -/
def readEnt (t : EType) (select : Option (List Str)) (row : Row) : Ent :=
  { vals := project t.keys (select.map (selection t)) t.props row, selected := select.map (selection t), exists_ := true }

theorem generate_eq (t : EType) (c : Coll) : ∀ (data : List (Key × Row)), (∀ p ∈ data, FitsAll (t.props.map (·.2)) p.2) →
    generate t c data = .ok ((data.map fun p => (p.1, readEnt t c.select p.2)).filter fun p => checkFilter c p.2)
  | [], _ => rfl
  | (k, row) :: rest, h => by
    have ih := generate_eq t c rest (fun p hp => h p (List.mem_cons_of_mem _ hp))
    have hr := readRow_fits t c.select row (h (k, row) (by simp))
    simp only [generate, hr, ih, bind, Except.bind, List.map_cons, List.filter_cons]
    rfl

theorem insertSorted_map {α β : Type} (le : β → β → Bool) (f : α → β) (x : α) (l : List α) :
    Paging.insertSorted le (f x) (l.map f) = (Paging.insertSorted (fun a b => le (f a) (f b)) x l).map f := by
  induction l with
  | nil => rfl
  | cons y l ih =>
    simp only [List.map_cons, Paging.insertSorted]
    split
    · rfl
    · rw [ih]; rfl

theorem stableSort_map {α β : Type} (le : β → β → Bool) (f : α → β) (l : List α) :
    Paging.stableSort le (l.map f) = (Paging.stableSort (fun a b => le (f a) (f b)) l).map f := by
  induction l with
  | nil => rfl
  | cons x l ih =>
    show Paging.insertSorted le (f x) (Paging.stableSort le (l.map f)) = _
    rw [ih, insertSorted_map]
    rfl

theorem orderPlain_cons {E : Type} (r : (E → E → Bool) × Bool) (rs) (es : List E) :
    Paging.orderPlain (r :: rs) es =
      Paging.stableSort (if r.2 then fun a b => r.1 b a else r.1) (Paging.orderPlain rs es) := by
  unfold Paging.orderPlain
  rw [List.reverse_cons, List.foldl_append]
  rfl

theorem orderPlain_perm {E : Type} (rs : List ((E → E → Bool) × Bool)) (es : List E) :
    (Paging.orderPlain rs es).Perm es := by
  induction rs with
  | nil => exact .refl _
  | cons r rs ih => rw [orderPlain_cons]; exact (Paging.stableSort_perm _).trans ih

theorem orderPlain_map {α β : Type} (rs : List ((β → β → Bool) × Bool)) (f : α → β) (l : List α) :
    Paging.orderPlain rs (l.map f) =
      (Paging.orderPlain (rs.map fun r => (fun a b => r.1 (f a) (f b), r.2)) l).map f := by
  induction rs with
  | nil => rfl
  | cons r rs ih =>
    rw [List.map_cons, orderPlain_cons, orderPlain_cons, ih, stableSort_map]
    congr 2
    obtain ⟨le, d⟩ := r
    cases d <;> rfl

/-! ### The next key -/

/-- The key is an integer from `k` on. -/
def fromKey (k : Int) (p : Key × Row) : Bool :=
  match p.1 with
  | [some (.int i)] => decide (k ≤ i)
  | _ => false

theorem fromKey_succ (k : Int) (p : Key × Row) (h : fromKey (k + 1) p = true) : fromKey k p = true := by
  unfold fromKey at *
  split at h
  · simp at h ⊢; omega
  · cases h

/-- The number of integer keys from `k` on. -/
def keysFrom (data : List (Key × Row)) (k : Int) : Nat := (data.filter (fromKey k)).length

theorem keysFrom_mono (data : List (Key × Row)) (k : Int) : keysFrom data (k + 1) ≤ keysFrom data k := by
  unfold keysFrom
  induction data with
  | nil => simp
  | cons p l ih =>
    rw [List.filter_cons, List.filter_cons]
    cases h1 : fromKey (k + 1) p
    · cases h2 : fromKey k p <;> simp <;> omega
    · simp [fromKey_succ k p h1]; omega

theorem keysFrom_succ (data : List (Key × Row)) (k : Int) (h : Dict.has data [some (.int k)] = true) :
    keysFrom data (k + 1) < keysFrom data k := by
  obtain ⟨v, hv⟩ := (Dict.has_iff _ _).mp h
  have hm := Dict.mem_of_get hv
  clear hv h
  induction data with
  | nil => cases hm
  | cons p l ih =>
    have hmono := keysFrom_mono l k
    unfold keysFrom at *
    rw [List.filter_cons, List.filter_cons]
    rcases List.mem_cons.mp hm with h | h
    · subst h
      have h1 : fromKey (k + 1) ([some (.int k)], v) = false := by
        unfold fromKey
        simp
        omega
      have h2 : fromKey k ([some (.int k)], v) = true := by simp [fromKey]
      simp [h1, h2]
      omega
    · have := ih h
      cases h1 : fromKey (k + 1) p
      · cases h2 : fromKey k p <;> simp <;> omega
      · simp [fromKey_succ k p h1]; omega

theorem firstFree_free (data : List (Key × Row)) (n : Nat) : ∀ k, keysFrom data k < n →
    Dict.has data [some (.int (firstFree data n k))] = false := by
  induction n with
  | zero => intro k h; omega
  | succ n ih =>
    intro k h
    unfold firstFree
    split
    · rename_i hh
      refine ih (k + 1) ?_
      have := keysFrom_succ data k hh
      omega
    · rename_i hh
      simpa using hh

theorem firstFree_le (data : List (Key × Row)) (n : Nat) : ∀ k, k ≤ firstFree data n k := by
  induction n with
  | zero => intro k; simp [firstFree]
  | succ n ih =>
    intro k
    unfold firstFree
    split
    · have := ih (k + 1); omega
    · omega

theorem keysFrom_le (data : List (Key × Row)) (k : Int) : keysFrom data k ≤ data.length := List.length_filter_le _ _

end Verif.MemStore
