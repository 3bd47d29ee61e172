import Verif.Props.SqlStoreFaults

/-!
# What a deletion leaves alone
-/

namespace Verif.Props.ST

open Verif.OData.Store Verif.Spec.Store

variable {α β : Type} {env : Env} {S : Schema} {P : SetId → Key → Prop}

theorem spares_refl (d : DB) : Spares S P d d :=
  ⟨fun _ r h _ => ⟨r, h, rfl, rfl, fun _ _ h => .inl h⟩, fun _ h => .inl h⟩

theorem _root_.Verif.Spec.Store.Spares.trans {a b c : DB} (h : Spares S P a b) (h' : Spares S P b c) : Spares S P a c := by
  refine ⟨fun s r hr hp => ?_, fun l hl => ?_⟩
  · obtain ⟨r1, m1, k1, d1, f1⟩ := h.rows s r hr hp
    obtain ⟨r2, m2, k2, d2, f2⟩ := h'.rows s r1 m1 (by rw [k1]; exact hp)
    refine ⟨r2, m2, k2.trans k1, d2.trans d1, fun e t hf => ?_⟩
    rcases f1 e t hf with h | h
    · exact f2 e t h
    · exact .inr h
  · rcases h.links l hl with h | h
    · exact h'.links l h
    · exact .inr h

theorem spares_deleteRow {s : SetId} {k : Key} (hp : P s k) (d : DB) : Spares S P d (deleteRow s k d).1 := by
  refine ⟨fun s' r hr hn => ⟨r, ?_, rfl, rfl, fun _ _ h => .inl h⟩, fun _ h => .inl h⟩
  refine List.mem_filter.mpr ⟨hr, decide_eq_true ?_⟩
  rintro ⟨h1, h2⟩
  simp only at h1 h2
  subst h1; subst h2
  exact hn hp

theorem spares_unset {p : SetId × Row → Bool} {e : End} {k : Key} (hk : P (S.set (other e)) k)
    (hp : ∀ x, p x = true → x.2.fk e = some k) (d : DB) :
    Spares S P d (changeRows p (fun r => { r with fks := r.fks.filter fun q => q.1 ≠ e }) d).1 := by
  refine ⟨fun s r hr _ => ⟨_, mem_changeRows hr, ?_⟩, fun _ h => .inl h⟩
  split
  · next hx =>
    refine ⟨rfl, rfl, fun e' t hf => ?_⟩
    rw [fk_unset]
    split
    · next he =>
      subst he
      rw [hp _ hx] at hf
      injection hf with hf
      subst hf
      exact .inr hk
    · exact .inl hf
  · exact ⟨rfl, rfl, fun _ _ h => .inl h⟩

theorem linkKey_P {e : End} {l : Nat × Key × Key} (h1 : l.1 = e.1) (h : P (S.set e) (linkKey e l)) :
    P (S.set (l.1, false)) l.2.1 ∨ P (S.set (l.1, true)) l.2.2 := by
  obtain ⟨n, x, y⟩ := l
  obtain ⟨m, b⟩ := e
  simp only at h1
  subst h1
  cases b
  · exact .inl h
  · exact .inr h

theorem spares_dropLinks {e : End} {k : Key} (hk : P (S.set e) k) (d : DB) : Spares S P d (dropLinks e k d).1 := by
  refine ⟨fun _ r h _ => ⟨r, h, rfl, rfl, fun _ _ h => .inl h⟩, fun l hl => ?_⟩
  by_cases h : l.1 = e.1 ∧ linkKey e l = k
  · exact .inr (linkKey_P h.1 (h.2 ▸ hk))
  · exact .inl (List.mem_filter.mpr ⟨hl, decide_eq_true h⟩)

theorem spares_dropLink {e : End} {a b : Key} (hk : P (S.set e) a) (d : DB) : Spares S P d (dropLink e a b d).1 := by
  refine ⟨fun _ r h _ => ⟨r, h, rfl, rfl, fun _ _ h => .inl h⟩, fun l hl => ?_⟩
  by_cases h : l = link e a b
  · refine .inr (linkKey_P (e := e) ?_ ?_)
    · rw [h]; unfold link; split <;> rfl
    · rw [h]
      have : linkKey e (link e a b) = a := by
        obtain ⟨m, c⟩ := e
        cases c <;> rfl
      rw [this]; exact hk
  · exact .inl (List.mem_filter.mpr ⟨hl, decide_eq_true h⟩)

theorem execute_spares {f : DB → DB × Nat} (hf : ∀ d, Spares S P d (f d).1) {t t' : Trans} {w w' : World} {n : Nat}
    (h : execute env f (t, w) = (.ok n, t', w')) : Spares S P w.current w'.current := by
  obtain ⟨x1, -⟩ := execute_ok h
  rw [x1]
  exact hf _

theorem pure_eq {x y : α} {t t' : Trans} {w w' : World} (h : (pure x : M α) (t, w) = (.ok y, t', w')) : w' = w := by
  rw [pure_run] at h
  injection h with _ h
  injection h with _ h
  exact h.symm

theorem clearLinks_spares {e : End} {a : Key} (hk : P (S.set e) a) {t t' : Trans} {w w' : World}
    (h : clearLinks env S e a (t, w) = (.ok (), t', w')) : Spares S P w.current w'.current := by
  have hoo : other (other e) = e := by obtain ⟨m, c⟩ := e; cases c <;> rfl
  unfold clearLinks at h
  cases hp : S.place e with
  | own =>
    simp only [hp] at h
    exact (raise_ok h).elim
  | other =>
    simp only [hp] at h
    obtain ⟨t1, t2, w2, g, h2, -⟩ := method_ok h
    obtain ⟨n, ⟨t4, w4⟩, hx, g⟩ := bind_ok g
    rw [h2, pure_eq g]
    refine execute_spares (fun d => spares_unset (k := a) (by rw [hoo]; exact hk) (fun x hx => ?_) d) hx
    exact (of_decide_eq_true hx).2
  | aux =>
    simp only [hp] at h
    obtain ⟨t1, t2, w2, g, h2, -⟩ := method_ok h
    obtain ⟨n, ⟨t4, w4⟩, hx, g⟩ := bind_ok g
    rw [h2, pure_eq g]
    exact execute_spares (fun d => spares_dropLinks hk d) hx

theorem deleteLink_spares {e : End} {a b : Key} (hpl : S.place e ≠ .own) (hk : P (S.set e) a) {t t' : Trans} {w w' : World}
    (h : deleteLink env S e a b (t, w) = (.ok (), t', w')) : Spares S P w.current w'.current := by
  unfold deleteLink at h
  cases hp : S.place e with
  | own => exact absurd hp hpl
  | other =>
    simp only [hp] at h
    rw [pure_eq h]
    exact spares_refl _
  | aux =>
    simp only [hp] at h
    obtain ⟨t1, t2, w2, g, h2, -⟩ := method_ok h
    obtain ⟨n, ⟨t4, w4⟩, hx, g⟩ := bind_ok g
    split at g
    · exact (raise_ok g).elim
    · rw [h2, pure_eq g]
      exact execute_spares (fun d => spares_dropLink hk d) hx

/-- A loop whose steps shrink the database and spare what is to be spared. -/
theorem each_spares {γ : Type} {f : γ → M Unit} {d0 : DB} : ∀ (l : List γ), (∀ x ∈ l, ∀ {t t' : Trans} {w w' : World},
      Shrinks d0 w.current → f x (t, w) = (.ok (), t', w') → Shrinks w.current w'.current ∧ Spares S P w.current w'.current) →
    ∀ {t t' : Trans} {w w' : World}, Shrinks d0 w.current → each f l (t, w) = (.ok (), t', w') →
      Shrinks w.current w'.current ∧ Spares S P w.current w'.current
  | [], _, t, t', w, w', _, h => by
    rw [each] at h
    rw [pure_eq h]
    exact ⟨shrinks_refl _, spares_refl _⟩
  | x :: rest, hf, t, t', w, w', hs, h => by
    rw [each] at h
    obtain ⟨_, ⟨t1, w1⟩, hx, g⟩ := bind_ok h
    obtain ⟨s1, p1⟩ := hf x (by simp) hs hx
    obtain ⟨s2, p2⟩ := each_spares rest (fun y hy => hf y (by simp [hy])) (hs.trans s1) g
    exact ⟨s1.trans s2, p1.trans p2⟩

theorem linked_mem {d : DB} {e : End} {a b : Key} (hpl : S.place e ≠ .own) (h : b ∈ linked S e a d) : Linked S d e a b := by
  unfold linked at h
  unfold Linked
  cases hp : S.place e with
  | own => exact absurd hp hpl
  | other =>
    simp only [hp] at h ⊢
    obtain ⟨⟨s, r⟩, hm, hk⟩ := List.mem_map.mp h
    obtain ⟨hm, hd⟩ := List.mem_filter.mp hm
    obtain ⟨h1, h2⟩ := of_decide_eq_true hd
    simp only at h1 h2 hk
    subst h1
    exact ⟨r, hm, hk, h2⟩
  | aux =>
    simp only [hp] at h ⊢
    obtain ⟨l, hm, hk⟩ := List.mem_map.mp h
    obtain ⟨hm, hd⟩ := List.mem_filter.mp hm
    obtain ⟨h1, h2⟩ := of_decide_eq_true hd
    rw [← hk, link_of_keys h1 h2]
    exact hm

theorem _root_.Verif.Spec.Store.Shrinks.linked {d d' : DB} (h : Shrinks d d') {e : End} {a b : Key} (hl : Linked S d' e a b) :
    Linked S d e a b := by
  have fk : ∀ s k e t, HasFk d' s k e t → HasFk d s k e t := by
    rintro s k e t ⟨r, hr, hk, hf⟩
    obtain ⟨r0, m, k0, -, f⟩ := h.rows s r hr
    exact ⟨r0, m, k0.trans hk, f e t hf⟩
  unfold Linked at *
  split at hl
  · exact fk _ _ _ _ hl
  · exact fk _ _ _ _ hl
  · exact h.links _ hl

/-- A deletion spares all but what depends on the entity. -/
theorem deleteIn_spares (hS : ∀ s, ∀ e ∈ S.ends s, S.set e = s) {d0 : DB}
    (hP : ∀ s k e k', P s k → e ∈ S.ends s → S.mult e = .one → Linked S d0 e k k' → P (S.set (other e)) k') :
    ∀ (n : Nat) (set : SetId) (key : Key) (from_ : Option End) {t t' : Trans} {w w' : World}, P set key →
    Shrinks d0 w.current → deleteIn env S n set key from_ (t, w) = (.ok (), t', w') → Spares S P w.current w'.current
  | 0, set, key, from_, t, t', w, w', _, _, h => by
    rw [deleteIn] at h
    exact (raise_ok h).elim
  | n + 1, set, key, from_, t, t', w, w', hk, hs, h => by
    rw [deleteIn] at h
    obtain ⟨t1, t2, w2, g, h2, -⟩ := method_ok h
    obtain ⟨_, ⟨t3, w3⟩, hloop, g⟩ := bind_ok g
    obtain ⟨count, ⟨t4, w4⟩, hx, g⟩ := bind_ok g
    have hw : w4 = w2 := by
      split at g
      · exact (raise_ok g).elim
      · split at g
        · exact (raise_ok g).elim
        · exact (pure_eq g).symm
    subst hw
    rw [h2]
    obtain ⟨l1, l2⟩ := each_spares (P := P) (S := S) (S.ends set) (by
        intro e he t t' w w' hs h
        have hke : P (S.set e) key := by rw [hS set e he]; exact hk
        split at h
        · rw [pure_eq h]
          exact ⟨shrinks_refl _, spares_refl _⟩
        · next hc =>
          have hp : S.place e ≠ .own := fun h' => hc (.inr h')
          split at h
          · next h1 =>
            split at h
            · obtain ⟨targets, ⟨t5, w5⟩, hv, g⟩ := bind_ok h
              obtain ⟨v1, v2⟩ := values_ok hv
              have := each_spares (P := P) (S := S) (d0 := d0) targets (by
                  intro k hk' t t' w9 w9' hs9 h
                  obtain ⟨_, ⟨t6, w6⟩, hd, g⟩ := bind_ok h
                  obtain ⟨d1, -⟩ := deleteLink_ok hd
                  obtain ⟨r1, -, -⟩ := deleteIn_ok n _ _ _ g
                  rw [v2] at hk'
                  have hPk := hP set key e k hk he h1 (hs.linked (linked_mem hp hk'))
                  exact ⟨d1.trans r1, (deleteLink_spares hp hke hd).trans
                    (deleteIn_spares hS hP n _ _ _ hPk (hs9.trans d1) g)⟩) (by rw [v1]; exact hs) g
              rw [v1] at this
              exact this
            · exact (raise_ok h).elim
          · split at h
            · exact ⟨(clearLinks_ok h).1, clearLinks_spares hke h⟩
            · split at h
              · obtain ⟨m, ⟨t5, w5⟩, hx, g⟩ := bind_ok h
                rw [pure_eq g]
                exact ⟨execute_shrinks (fun d => shrinks_filter _ d) hx, execute_spares (fun d => spares_dropLinks hke d) hx⟩
              · exact ⟨(clearLinks_ok h).1, clearLinks_spares hke h⟩) hs hloop
    exact l2.trans (execute_spares (fun d => spares_deleteRow hk d) hx)

/-- **A deletion without an exception leaves alone what does not depend on the entity**: all other entities are there with their
data, with their foreign keys to what is left, and with their links. -/
theorem delete_spares (S : Schema) (hS : ∀ s, ∀ e ∈ S.ends s, S.set e = s) (n : Nat) (set : SetId) (key : Key) (env : Env) (d : DB)
    (clock : Nat) (marked : List Nat) (h : (call (deleteEntity env S n set key) (quiet d clock marked)).1 = .ok ()) :
    Spares S (Hangs S d set key) d (call (deleteEntity env S n set key) (quiet d clock marked)).2.committed := by
  simp only [call] at h ⊢
  rcases hr : deleteEntity env S n set key (Trans.new, quiet d clock marked) with ⟨r, t, w⟩
  rw [hr] at h
  simp only at h ⊢
  subst h
  unfold deleteEntity at hr
  obtain ⟨_, ⟨t1, w1⟩, hg, g⟩ := bind_ok hr
  obtain ⟨q1, -, -⟩ := getitem_ok hg
  obtain ⟨t2, hd⟩ := own_ok g
  have hq : w1.current = d := q1
  have := deleteIn_spares (P := Hangs S d set key) hS (d0 := d) (fun s k e k' h1 h2 h3 h4 => .next h1 h2 h3 h4) n set key none .self
    (by rw [hq]; exact shrinks_refl _) hd
  rw [hq] at this
  have hc : w.committed = w.current := by
    cases n with
    | zero =>
      rw [deleteIn] at hd
      exact (raise_ok hd).elim
    | succ n =>
      rw [deleteIn] at g
      exact own_committed (level_deleteBody (level_deleteIn n)) g
  rw [hc]
  exact this

/-- Pupils and their courses: the hypotheses of `delete_spares` are met, no pupil depends on another, and the second one is left
with their course and with their data. -/
theorem spares_example :
    (∀ s, ∀ e ∈ school.ends s, school.set e = s) ∧
    (let d : DB := { rows := [(1, ⟨7, 70, []⟩), (0, ⟨1, 10, []⟩), (0, ⟨2, 11, []⟩)], links := [(0, 1, 7), (0, 2, 7)] }
     (call (deleteEntity (sound school) school 1 0 1) (quiet d 0 [])).1 = .ok () ∧ ¬ Hangs school d 0 1 0 2 ∧
      (call (deleteEntity (sound school) school 1 0 1) (quiet d 0 [])).2.committed =
        { rows := [(1, ⟨7, 70, []⟩), (0, ⟨2, 11, []⟩)], links := [(0, 2, 7)] }) := by
  refine ⟨?_, rfl, ?_, rfl⟩
  · intro s e he
    unfold school at he ⊢
    simp only at he ⊢
    split at he
    · next h => rw [List.mem_singleton] at he; subst he; exact h.symm
    · split at he
      · next h => rw [List.mem_singleton] at he; subst he; exact h.symm
      · cases he
  · have only : ∀ (d : DB) s k, Hangs school d 0 1 s k → k = 1 := by
      intro d s k h
      induction h with
      | self => rfl
      | next _ _ h _ _ => cases h
    intro h
    exact absurd (only _ _ _ h) (by decide)

end Verif.Props.ST
