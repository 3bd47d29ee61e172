import Verif.Spec.HttpPool

/-!
# Lemmas about the connections of the HTTP client
-/

namespace Verif.Props

open Verif.Http.Pool Verif.Spec.HttpPool

namespace HttpPool

theorem nodup_one {α : Type} (a : α) : [a].Nodup := List.nodup_cons.2 ⟨List.not_mem_nil, List.nodup_nil⟩

/-! ## Dictionaries -/

theorem find_mem {k : Tid × Target} {c : Conn} {d : Active} (h : find k d = some c) : (k, c) ∈ d := by
  induction d with
  | nil => cases h
  | cons p rest ih =>
    rw [find.eq_def] at h
    dsimp only at h
    by_cases e : p.1 = k
    · rw [if_pos e] at h
      obtain ⟨j, d⟩ := p
      dsimp only at e h
      cases h
      subst e
      exact List.mem_cons_self
    · rw [if_neg e] at h
      exact List.mem_cons_of_mem _ (ih h)

theorem find_none {k : Tid × Target} {d : Active} (h : find k d = none) (c : Conn) : (k, c) ∉ d := by
  induction d with
  | nil => exact List.not_mem_nil
  | cons p rest ih =>
    rw [find.eq_def] at h
    dsimp only at h
    by_cases e : p.1 = k
    · rw [if_pos e] at h
      cases h
    · rw [if_neg e] at h
      intro hm
      rcases List.mem_cons.1 hm with rfl | hm
      · exact e rfl
      · exact ih h hm

theorem keys_unique {d : Active} (h : (d.map (·.1)).Nodup) {k : Tid × Target} {c e : Conn} (h1 : (k, c) ∈ d) (h2 : (k, e) ∈ d) :
    c = e := by
  induction d with
  | nil => cases h1
  | cons p rest ih =>
    rw [List.map_cons, List.nodup_cons] at h
    rcases List.mem_cons.1 h1 with e1 | m1
    · rcases List.mem_cons.1 h2 with e2 | m2
      · exact congrArg (·.2) (e1.trans e2.symm)
      · exact absurd (e1 ▸ List.mem_map_of_mem (f := (·.1)) m2) h.1
    · rcases List.mem_cons.1 h2 with e2 | m2
      · exact absurd (e2 ▸ List.mem_map_of_mem (f := (·.1)) m1) h.1
      · exact ih h.2 m1 m2

theorem find_of_mem {d : Active} (h : (d.map (·.1)).Nodup) {k : Tid × Target} {c : Conn} (hm : (k, c) ∈ d) : find k d = some c := by
  match hf : find k d with
  | none => exact absurd hm (find_none hf c)
  | some e => rw [keys_unique h hm (find_mem hf)]

theorem mem_del {k : Tid × Target} {d : Active} {p : (Tid × Target) × Conn} : p ∈ del k d ↔ p ∈ d ∧ p.1 ≠ k := by
  simp [del]

theorem nodup_del {k : Tid × Target} {d : Active} (h : (d.map (·.1)).Nodup) : ((del k d).map (·.1)).Nodup :=
  (List.filter_sublist.map _).nodup h

theorem del_absent {k : Tid × Target} {d : Active} (h : ∀ c, (k, c) ∉ d) : del k d = d :=
  List.filter_eq_self.2 fun p hp => decide_eq_true fun (e : p.1 = k) => h p.2 (by rw [← e]; exact hp)

theorem length_del {k : Tid × Target} {d : Active} (h : (d.map (·.1)).Nodup) {c : Conn} (hm : (k, c) ∈ d) :
    (del k d).length + 1 = d.length := by
  induction d with
  | nil => cases hm
  | cons p rest ih =>
    rw [List.map_cons, List.nodup_cons] at h
    by_cases e : p.1 = k
    · have : del k (p :: rest) = del k rest := List.filter_cons_of_neg (by simp [e])
      rw [this, del_absent, List.length_cons]
      intro c hc
      exact h.1 (by rw [e]; exact List.mem_map_of_mem (f := (·.1)) hc)
    · have : del k (p :: rest) = p :: del k rest := List.filter_cons_of_pos (by simp [e])
      rw [this, List.length_cons, List.length_cons]
      rcases List.mem_cons.1 hm with rfl | hm
      · exact absurd rfl e
      · rw [ih h.2 hm]

theorem length_del_le (k : Tid × Target) (d : Active) : (del k d).length ≤ d.length := List.length_filter_le ..

theorem length_without {c : Conn} {l : List Conn} (hm : c ∈ l) : (l.filter fun d => d ≠ c).length < l.length := by
  induction l with
  | nil => cases hm
  | cons a rest ih =>
    by_cases e : a = c
    · rw [List.filter_cons_of_neg (by simp [e]), List.length_cons]
      exact Nat.lt_succ_of_le (List.length_filter_le ..)
    · rw [List.filter_cons_of_pos (by simp [e]), List.length_cons, List.length_cons]
      rcases List.mem_cons.1 hm with rfl | hm
      · exact absurd rfl e
      · exact Nat.succ_lt_succ (ih hm)

theorem length_without_nodup {c : Conn} {l : List Conn} (hn : l.Nodup) (hm : c ∈ l) :
    (l.filter fun d => d ≠ c).length + 1 = l.length := by
  induction l with
  | nil => cases hm
  | cons a rest ih =>
    rw [List.nodup_cons] at hn
    by_cases e : a = c
    · rw [List.filter_cons_of_neg (by simp [e]), List.length_cons]
      have : (rest.filter fun d => d ≠ c) = rest :=
        List.filter_eq_self.2 fun x hx => decide_eq_true fun (h : x = c) => hn.1 (by rw [e, ← h]; exact hx)
      rw [this]
    · rw [List.filter_cons_of_pos (by simp [e]), List.length_cons, List.length_cons]
      rcases List.mem_cons.1 hm with rfl | hm
      · exact absurd rfl e
      · rw [ih hn.2 hm]

/-! ## The choice of a connection -/

theorem choose_mem {pick : Nat → Nat} {l : List Conn} {c : Conn} (h : choose pick l = some c) : c ∈ l :=
  List.mem_of_getElem? h

theorem choose_none {pick : Nat → Nat} {l : List Conn} (h : choose pick l = none) : l = [] := by
  match l with
  | [] => rfl
  | a :: rest =>
    have := List.getElem?_eq_none_iff.1 h
    exact absurd (Nat.mod_lt (pick (a :: rest).length) (Nat.succ_pos rest.length)) (Nat.not_lt.2 this)

theorem exists_greatest (f : Conn → Nat) : ∀ (l : List Conn), l ≠ [] → ∃ c ∈ l, ∀ d ∈ l, f d ≤ f c := by
  intro l
  induction l with
  | nil => exact fun h => absurd rfl h
  | cons a rest ih =>
    intro _
    by_cases e : rest = []
    · subst e
      exact ⟨a, List.mem_cons_self, fun d hd => by rw [List.mem_singleton.1 hd]; exact Nat.le_refl _⟩
    · obtain ⟨c, hc, hg⟩ := ih e
      by_cases hac : f a ≤ f c
      · exact ⟨c, List.mem_cons_of_mem _ hc, fun d hd => by
          rcases List.mem_cons.1 hd with rfl | hd
          · exact hac
          · exact hg d hd⟩
      · exact ⟨a, List.mem_cons_self, fun d hd => by
          rcases List.mem_cons.1 hd with rfl | hd
          · exact Nat.le_refl _
          · exact Nat.le_trans (hg d hd) (Nat.le_of_lt (Nat.lt_of_not_le hac))⟩

theorem exists_least (f : Conn → Nat) : ∀ (l : List Conn), l ≠ [] → ∃ c ∈ l, ∀ d ∈ l, f c ≤ f d := by
  intro l
  induction l with
  | nil => exact fun h => absurd rfl h
  | cons a rest ih =>
    intro _
    by_cases e : rest = []
    · subst e
      exact ⟨a, List.mem_cons_self, fun d hd => by rw [List.mem_singleton.1 hd]; exact Nat.le_refl _⟩
    · obtain ⟨c, hc, hg⟩ := ih e
      by_cases hac : f c ≤ f a
      · exact ⟨c, List.mem_cons_of_mem _ hc, fun d hd => by
          rcases List.mem_cons.1 hd with rfl | hd
          · exact hac
          · exact hg d hd⟩
      · exact ⟨a, List.mem_cons_self, fun d hd => by
          rcases List.mem_cons.1 hd with rfl | hd
          · exact Nat.le_refl _
          · exact Nat.le_trans (Nat.le_of_lt (Nat.lt_of_not_le hac)) (hg d hd)⟩

theorem youngest_some {E : Env} {info : Conn → Info} {l : List Conn} {c : Conn} (h : youngest E info l = some c) :
    c ∈ l ∧ ∀ d ∈ l, (info d).last ≤ (info c).last := by
  have := List.mem_filter.1 (choose_mem h)
  exact ⟨this.1, fun d hd => of_decide_eq_true (List.all_eq_true.1 this.2 d hd)⟩

theorem youngest_none {E : Env} {info : Conn → Info} {l : List Conn} (h : youngest E info l = none) : l = [] := by
  refine Classical.byContradiction fun hne => ?_
  obtain ⟨c, hc, hg⟩ := exists_greatest (fun c => (info c).last) l hne
  have : c ∈ l.filter fun c => l.all fun d => (info d).last ≤ (info c).last :=
    List.mem_filter.2 ⟨hc, List.all_eq_true.2 fun d hd => decide_eq_true (hg d hd)⟩
  rw [choose_none h] at this
  cases this

theorem oldest_some {E : Env} {info : Conn → Info} {l : List Conn} {c : Conn} (h : oldest E info l = some c) :
    c ∈ l ∧ ∀ d ∈ l, (info c).last ≤ (info d).last := by
  have := List.mem_filter.1 (choose_mem h)
  exact ⟨this.1, fun d hd => of_decide_eq_true (List.all_eq_true.1 this.2 d hd)⟩

theorem oldest_none {E : Env} {info : Conn → Info} {l : List Conn} (h : oldest E info l = none) : l = [] := by
  refine Classical.byContradiction fun hne => ?_
  obtain ⟨c, hc, hg⟩ := exists_least (fun c => (info c).last) l hne
  have : c ∈ l.filter fun c => l.all fun d => (info c).last ≤ (info d).last :=
    List.mem_filter.2 ⟨hc, List.all_eq_true.2 fun d hd => decide_eq_true (hg d hd)⟩
  rw [choose_none h] at this
  cases this

/-- An idle connection is taken out. -/
def without (S : State) (c : Conn) : State := { S with idle := S.idle.filter fun d => d ≠ c }

/-- What the search for a connection can do. -/
theorem search_ind {max : Nat} {E : Env} {t : Tid} {g : Target} {P : State → State × List Obs → Prop}
    (h1 : ∀ S c, find (t, g) S.active = some c → P S (S, [.queued t g c]))
    (h2 : ∀ S c, find (t, g) S.active = none → c ∈ S.idle → (S.info c).target = g →
      (∀ d ∈ S.idle, (S.info d).target = g → (S.info d).last ≤ (S.info c).last) → P S (activate S c t, [.queued t g c]))
    (h3 : ∀ S, find (t, g) S.active = none → (∀ c ∈ S.idle, (S.info c).target ≠ g) → S.active.length + S.idle.length < max →
      P S (activate (make S g) S.next t, [.made S.next, .queued t g S.next]))
    (h4 : ∀ S c r, find (t, g) S.active = none → (∀ c ∈ S.idle, (S.info c).target ≠ g) → max ≤ S.active.length + S.idle.length →
      c ∈ S.idle → (∀ d ∈ S.idle, (S.info c).last ≤ (S.info d).last) → P (without S c) r → P S (r.1, .shut c :: r.2))
    (h5 : ∀ S, find (t, g) S.active = none → S.idle = [] → max ≤ S.active.length → E.late = true → P S (S, [.busy t]))
    (h6 : ∀ S, find (t, g) S.active = none → S.idle = [] → max ≤ S.active.length → E.late = false →
      P S ({ S with sleeping := S.sleeping ++ [(t, g)] }, [])) :
    ∀ n S, S.idle.length < n → P S (search max E t g n S) := by
  intro n
  induction n with
  | zero => exact fun S h => absurd h (Nat.not_lt_zero _)
  | succ n ih =>
    intro S hn
    rw [search.eq_def]
    dsimp only
    cases hf : find (t, g) S.active with
    | some c => exact h1 S c hf
    | none =>
      dsimp only
      cases hy : youngest E S.info (S.idle.filter fun c => (S.info c).target = g) with
      | some c =>
        obtain ⟨hm, hg⟩ := youngest_some hy
        have hm' := List.mem_filter.1 hm
        exact h2 S c hf hm'.1 (of_decide_eq_true hm'.2) fun d hd ht => hg d (List.mem_filter.2 ⟨hd, decide_eq_true ht⟩)
      | none =>
        have hi : ∀ c ∈ S.idle, (S.info c).target ≠ g := fun c hc ht => by
          have : c ∈ S.idle.filter fun c => (S.info c).target = g := List.mem_filter.2 ⟨hc, decide_eq_true ht⟩
          rw [youngest_none hy] at this
          cases this
        dsimp only
        by_cases hl : S.active.length + S.idle.length < max
        · rw [if_pos hl]
          exact h3 S hf hi hl
        · rw [if_neg hl]
          cases ho : oldest E S.info S.idle with
          | some c =>
            obtain ⟨hm, hg⟩ := oldest_some ho
            have hlen := length_without hm
            exact h4 S c _ hf hi (Nat.not_lt.1 hl) hm hg
              (ih (without S c) (by show (S.idle.filter fun d => d ≠ c).length < n; omega))
          | none =>
            have he := oldest_none ho
            have hmx : max ≤ S.active.length := by
              have := Nat.not_lt.1 hl
              rw [he] at this
              exact this
            dsimp only
            cases hlt : E.late with
            | true => exact h5 S hf he hmx hlt
            | false => exact h6 S hf he hmx hlt

/-! ## What always holds -/

/-- What holds in every state. -/
structure Inv (max : Nat) (S : State) : Prop where
  keys : (S.active.map (·.1)).Nodup
  act : ∀ t g c, ((t, g), c) ∈ S.active → (S.info c).target = g ∧ (S.info c).thread = some t ∧ (t, c) ∈ S.threads
  thr : ∀ t c, (t, c) ∈ S.threads → (S.info c).thread = some t
  thrN : S.threads.Nodup
  idl : ∀ c ∈ S.idle, (S.info c).thread = none ∧ c < S.next
  idlN : S.idle.Nodup
  tsk : ∀ t, ∀ c ∈ S.task t, (S.info c).thread = some t
  tskN : ∀ t, (S.task t).Nodup
  fresh : ∀ c, S.next ≤ c → (S.info c).thread = none
  wait : ∀ t g, (t, g) ∈ S.awake ++ S.sleeping → ∀ c, ((t, g), c) ∉ S.active
  waitN : ((S.awake ++ S.sleeping).map (·.1)).Nodup
  bound : S.active.length + S.idle.length ≤ max

theorem inv_init (max : Nat) : Inv max init where
  keys := List.nodup_nil
  act := fun _ _ _ h => nomatch h
  thr := fun _ _ h => nomatch h
  thrN := List.nodup_nil
  idl := fun _ h => nomatch h
  idlN := List.nodup_nil
  tsk := fun _ _ h => nomatch h
  tskN := fun _ => List.nodup_nil
  fresh := fun _ _ => rfl
  wait := fun _ _ h => nomatch h
  waitN := List.nodup_nil
  bound := Nat.zero_le _

theorem setInfo_same (info : Conn → Info) (c : Conn) (i : Info) : setInfo info c i c = i := if_pos rfl

theorem setInfo_other (info : Conn → Info) {c d : Conn} (i : Info) (h : d ≠ c) : setInfo info c i d = info d := if_neg h

theorem setTask_same (task : Tid → List Conn) (t : Tid) (l : List Conn) : setTask task t l t = l := if_pos rfl

theorem setTask_other (task : Tid → List Conn) {t u : Tid} (l : List Conn) (h : u ≠ t) : setTask task t l u = task u := if_neg h

/-- A thread does not wait. -/
def Free (S : State) (t : Tid) : Prop := ∀ g, (t, g) ∉ S.awake ++ S.sleeping

/-- A connection that belongs to no thread is bound to one. -/
theorem activate_inv {max : Nat} {S : State} {c : Conn} {t : Tid} (h : Inv max S) (hf : ∀ e, ((t, (S.info c).target), e) ∉ S.active)
    (hc : (S.info c).thread = none) (hn : c < S.next) (hw : Free S t)
    (hb : S.active.length + 1 + (S.idle.filter fun d => d ≠ c).length ≤ max) : Inv max (activate S c t) := by
  have hnt : ∀ u d, (S.info d).thread = some u → d ≠ c := fun u d hd e => by
    rw [e, hc] at hd
    cases hd
  have hdel : del (t, (S.info c).target) S.active = S.active := del_absent hf
  have hfil : (S.threads.filter fun p => p ≠ (t, c)) = S.threads :=
    List.filter_eq_self.2 fun p hp => decide_eq_true fun e => hnt t c (h.thr t c (by rw [← e]; exact hp)) rfl
  have hact : (activate S c t).active = ((t, (S.info c).target), c) :: S.active := by
    show ((t, (S.info c).target), c) :: del (t, (S.info c).target) S.active = _
    rw [hdel]
  have hthr : (activate S c t).threads = (t, c) :: S.threads := by
    show (t, c) :: (S.threads.filter fun p => p ≠ (t, c)) = _
    rw [hfil]
  have hinfo : ∀ d, d ≠ c → (activate S c t).info d = S.info d := fun d hd => setInfo_other _ _ hd
  have hsame : (activate S c t).info c = { S.info c with thread := some t } := setInfo_same ..
  constructor
  · rw [hact, List.map_cons, List.nodup_cons]
    refine ⟨fun hm => ?_, h.keys⟩
    obtain ⟨p, hp, he⟩ := List.mem_map.1 hm
    have he : p.1 = (t, (S.info c).target) := he
    exact hf p.2 (by rw [← he]; exact hp)
  · intro u g d hd
    rw [hact] at hd
    rw [hthr]
    rcases List.mem_cons.1 hd with e | hd
    · cases e
      rw [hsame]
      exact ⟨rfl, rfl, List.mem_cons_self⟩
    · obtain ⟨h1, h2, h3⟩ := h.act u g d hd
      rw [hinfo d (hnt u d h2)]
      exact ⟨h1, h2, List.mem_cons_of_mem _ h3⟩
  · intro u d hd
    rw [hthr] at hd
    rcases List.mem_cons.1 hd with e | hd
    · cases e
      rw [hsame]
    · rw [hinfo d (hnt u d (h.thr u d hd))]
      exact h.thr u d hd
  · rw [hthr, List.nodup_cons]
    exact ⟨fun hm => hnt t c (h.thr t c hm) rfl, h.thrN⟩
  · intro d hd
    obtain ⟨h1, h2⟩ := List.mem_filter.1 hd
    have hne : d ≠ c := of_decide_eq_true h2
    rw [hinfo d hne]
    exact h.idl d h1
  · exact List.filter_sublist.nodup h.idlN
  · intro u d hd
    rw [hinfo d (hnt u d (h.tsk u d hd))]
    exact h.tsk u d hd
  · exact h.tskN
  · intro d hd
    have hne : d ≠ c := fun e => by
      subst e
      exact Nat.lt_irrefl _ (Nat.lt_of_lt_of_le hn hd)
    rw [hinfo d hne]
    exact h.fresh d hd
  · intro u g hm d hd
    rw [hact] at hd
    rcases List.mem_cons.1 hd with e | hd
    · cases e
      exact hw _ hm
    · exact h.wait u g hm d hd
  · exact h.waitN
  · rw [hact, List.length_cons]
    exact hb

theorem make_inv {max : Nat} {S : State} (h : Inv max S) (g : Target) : Inv max (make S g) := by
  have hne : ∀ d, d < S.next → (make S g).info d = S.info d := fun d hd => setInfo_other _ _ (Nat.ne_of_lt hd)
  have hlt : ∀ u d, (S.info d).thread = some u → d < S.next := fun u d hd => Nat.lt_of_not_le fun hle => by
    rw [h.fresh d hle] at hd
    cases hd
  constructor
  · exact h.keys
  · intro u k d hd
    have := h.act u k d hd
    rw [hne d (hlt u d this.2.1)]
    exact this
  · intro u d hd
    rw [hne d (hlt u d (h.thr u d hd))]
    exact h.thr u d hd
  · exact h.thrN
  · intro d hd
    have := h.idl d hd
    rw [hne d this.2]
    exact ⟨this.1, Nat.lt_succ_of_lt this.2⟩
  · exact h.idlN
  · intro u d hd
    rw [hne d (hlt u d (h.tsk u d hd))]
    exact h.tsk u d hd
  · exact h.tskN
  · intro d hd
    have : d ≠ S.next := fun e => by
      subst e
      exact Nat.lt_irrefl _ hd
    show (setInfo S.info S.next ⟨g, none, 0⟩ d).thread = none
    rw [setInfo_other _ _ this]
    exact h.fresh d (Nat.le_of_succ_le hd)
  · exact h.wait
  · exact h.waitN
  · exact h.bound

theorem without_inv {max : Nat} {S : State} (h : Inv max S) (c : Conn) : Inv max (without S c) where
  keys := h.keys
  act := h.act
  thr := h.thr
  thrN := h.thrN
  idl := fun d hd => h.idl d (List.mem_filter.1 hd).1
  idlN := List.filter_sublist.nodup h.idlN
  tsk := h.tsk
  tskN := h.tskN
  fresh := h.fresh
  wait := h.wait
  waitN := h.waitN
  bound := Nat.le_trans (Nat.add_le_add_left (List.length_filter_le ..) _) h.bound

theorem sleep_inv {max : Nat} {S : State} {t : Tid} {g : Target} (h : Inv max S) (hf : find (t, g) S.active = none) (hw : Free S t) :
    Inv max { S with sleeping := S.sleeping ++ [(t, g)] } where
  keys := h.keys
  act := h.act
  thr := h.thr
  thrN := h.thrN
  idl := h.idl
  idlN := h.idlN
  tsk := h.tsk
  tskN := h.tskN
  fresh := h.fresh
  wait := fun u k hm d hd => by
    rw [← List.append_assoc] at hm
    rcases List.mem_append.1 hm with hm | hm
    · exact h.wait u k hm d hd
    · cases List.mem_singleton.1 hm
      exact find_none hf d hd
  waitN := by
    show ((S.awake ++ (S.sleeping ++ [(t, g)])).map (·.1)).Nodup
    rw [← List.append_assoc, List.map_append, List.nodup_append]
    refine ⟨h.waitN, nodup_one _, fun a ha b hb e => ?_⟩
    cases List.mem_singleton.1 hb
    obtain ⟨p, hp, he⟩ := List.mem_map.1 ha
    have he : p.1 = t := he.trans e
    exact hw p.2 (by rw [← he]; exact hp)
  bound := h.bound

theorem search_inv {max : Nat} {E : Env} {t : Tid} {g : Target} {n : Nat} {S : State} (h : Inv max S) (hw : Free S t)
    (hn : S.idle.length < n) : Inv max (search max E t g n S).1 := by
  refine search_ind (P := fun S r => Inv max S → Free S t → Inv max r.1) ?_ ?_ ?_ ?_ ?_ ?_ n S hn h hw
  · exact fun S c _ h _ => h
  · intro S c hf hc ht _ h hw
    subst ht
    have hl := length_without_nodup h.idlN hc
    have hb := h.bound
    exact activate_inv h (find_none hf) (h.idl c hc).1 (h.idl c hc).2 hw (by omega)
  · intro S hf hi hl h hw
    have hm := make_inv h g
    have ht : ((make S g).info S.next).target = g := by
      show (setInfo S.info S.next ⟨g, none, 0⟩ S.next).target = g
      rw [setInfo_same]
    refine activate_inv hm ?_ ?_ (Nat.lt_succ_self _) hw ?_
    · rw [ht]
      exact find_none hf
    · show (setInfo S.info S.next ⟨g, none, 0⟩ S.next).thread = none
      rw [setInfo_same]
    · have := List.length_filter_le (fun d => decide (d ≠ S.next)) S.idle
      show S.active.length + 1 + (S.idle.filter fun d => d ≠ S.next).length ≤ max
      omega
  · exact fun S c r _ _ _ _ _ ih h hw => ih (without_inv h c) hw
  · exact fun S _ _ _ _ h _ => h
  · exact fun S hf _ _ _ h hw => sleep_inv h hf hw

theorem waiting_mem {t : Tid} {g : Target} {l : List (Tid × Target)} (h : waiting t l = some g) : (t, g) ∈ l := by
  induction l with
  | nil => cases h
  | cons p rest ih =>
    rw [waiting.eq_def] at h
    dsimp only at h
    by_cases e : p.1 = t
    · rw [if_pos e] at h
      obtain ⟨u, k⟩ := p
      cases h
      cases e
      exact List.mem_cons_self
    · rw [if_neg e] at h
      exact List.mem_cons_of_mem _ (ih h)

theorem waiting_none {t : Tid} {l : List (Tid × Target)} (h : waiting t l = none) (g : Target) : (t, g) ∉ l := by
  induction l with
  | nil => exact List.not_mem_nil
  | cons p rest ih =>
    rw [waiting.eq_def] at h
    dsimp only at h
    by_cases e : p.1 = t
    · rw [if_pos e] at h
      cases h
    · rw [if_neg e] at h
      intro hm
      rcases List.mem_cons.1 hm with rfl | hm
      · exact e rfl
      · exact ih h hm

theorem free_of_waits {S : State} {t : Tid} (h : ¬ waits S t = true) : Free S t := fun g => by
  refine waiting_none ?_ g
  unfold waits at h
  cases hw : waiting t (S.awake ++ S.sleeping) with
  | none => rfl
  | some g => rw [hw] at h; exact absurd rfl h

theorem notify_waiters (n : Nat) (S : State) : (notify n S).awake ++ (notify n S).sleeping = S.awake ++ S.sleeping := by
  show S.awake ++ S.sleeping.take n ++ S.sleeping.drop n = _
  rw [List.append_assoc, List.take_append_drop]

theorem notify_inv {max : Nat} {S : State} (h : Inv max S) (n : Nat) : Inv max (notify n S) where
  keys := h.keys
  act := h.act
  thr := h.thr
  thrN := h.thrN
  idl := h.idl
  idlN := h.idlN
  tsk := h.tsk
  tskN := h.tskN
  fresh := h.fresh
  wait := by
    rw [notify_waiters]
    exact h.wait
  waitN := by
    rw [notify_waiters]
    exact h.waitN
  bound := h.bound

/-- Threads that wait are fewer. -/
theorem fewer_waiters {max : Nat} {S : State} (h : Inv max S) {a s : List (Tid × Target)} (ha : a.Sublist S.awake)
    (hs : s.Sublist S.sleeping) : Inv max { S with awake := a, sleeping := s } where
  keys := h.keys
  act := h.act
  thr := h.thr
  thrN := h.thrN
  idl := h.idl
  idlN := h.idlN
  tsk := h.tsk
  tskN := h.tskN
  fresh := h.fresh
  wait := fun t g hm => h.wait t g ((ha.append hs).subset hm)
  waitN := ((ha.append hs).map _).nodup h.waitN
  bound := h.bound

theorem free_awake {max : Nat} {S : State} {t : Tid} {g : Target} (h : Inv max S) (hm : (t, g) ∈ S.awake) :
    Free { S with awake := S.awake.filter fun w => w.1 ≠ t } t := by
  intro k hk
  rcases List.mem_append.1 hk with hk | hk
  · exact of_decide_eq_true (List.mem_filter.1 hk).2 rfl
  · have hn := h.waitN
    rw [List.map_append, List.nodup_append] at hn
    exact hn.2.2 t (List.mem_map_of_mem (f := (·.1)) hm) t (List.mem_map_of_mem (f := (·.1)) hk) rfl

theorem free_sleeping {S : State} {t : Tid} (hm : ∀ g, (t, g) ∉ S.awake) :
    Free { S with sleeping := S.sleeping.filter fun w => w.1 ≠ t } t := by
  intro k hk
  rcases List.mem_append.1 hk with hk | hk
  · exact hm k hk
  · exact of_decide_eq_true (List.mem_filter.1 hk).2 rfl

theorem task_inv {max : Nat} {S : State} (h : Inv max S) {t : Tid} {l : List Conn} (h1 : ∀ c ∈ l, (S.info c).thread = some t)
    (h2 : l.Nodup) : Inv max { S with task := setTask S.task t l } where
  keys := h.keys
  act := h.act
  thr := h.thr
  thrN := h.thrN
  idl := h.idl
  idlN := h.idlN
  tsk := fun u c hc => by
    by_cases e : u = t
    · subst e
      refine h1 c ?_
      rw [← setTask_same S.task u l]
      exact hc
    · refine h.tsk u c ?_
      rw [← setTask_other S.task l e]
      exact hc
  tskN := fun u => by
    show (setTask S.task t l u).Nodup
    by_cases e : u = t
    · rw [e, setTask_same]
      exact h2
    · rw [setTask_other _ _ e]
      exact h.tskN u
  fresh := h.fresh
  wait := h.wait
  waitN := h.waitN
  bound := h.bound

theorem snapshot_nodup {l : List (Tid × Conn)} (h : l.Nodup) (t : Tid) : ((l.filter fun p => p.1 = t).map (·.2)).Nodup := by
  induction l with
  | nil => exact List.nodup_nil
  | cons p rest ih =>
    rw [List.nodup_cons] at h
    by_cases e : p.1 = t
    · rw [List.filter_cons_of_pos (by simp [e]), List.map_cons, List.nodup_cons]
      refine ⟨fun hm => ?_, ih h.2⟩
      obtain ⟨q, hq, he⟩ := List.mem_map.1 hm
      obtain ⟨hq1, hq2⟩ := List.mem_filter.1 hq
      have : q = p := Prod.ext ((of_decide_eq_true hq2).trans e.symm) he
      exact h.1 (this ▸ hq1)
    · rw [List.filter_cons_of_neg (by simp [e])]
      exact ih h.2

theorem mem_snapshot {l : List (Tid × Conn)} {t : Tid} {c : Conn} :
    c ∈ (l.filter fun p => p.1 = t).map (·.2) ↔ (t, c) ∈ l := by
  constructor
  · intro hm
    obtain ⟨q, hq, he⟩ := List.mem_map.1 hm
    obtain ⟨hq1, hq2⟩ := List.mem_filter.1 hq
    have : q = (t, c) := Prod.ext (of_decide_eq_true hq2) he
    exact this ▸ hq1
  · exact fun hm => List.mem_map.2 ⟨(t, c), List.mem_filter.2 ⟨hm, decide_eq_true rfl⟩, rfl⟩

/-- The manager forgets a connection of a thread, and what it has under the key of the connection. -/
theorem forget_inv {max : Nat} {S : State} (h : Inv max S) (u : Tid) (c : Conn) :
    Inv max { S with threads := S.threads.filter (fun p => p ≠ (u, c)), active := del (u, (S.info c).target) S.active } where
  keys := nodup_del h.keys
  act := fun t g d hd => by
    obtain ⟨h1, h2⟩ := mem_del.1 hd
    obtain ⟨h3, h4, h5⟩ := h.act t g d h1
    refine ⟨h3, h4, List.mem_filter.2 ⟨h5, decide_eq_true fun e => ?_⟩⟩
    cases e
    exact h2 (by rw [h3])
  thr := fun t d hd => h.thr t d (List.mem_filter.1 hd).1
  thrN := List.filter_sublist.nodup h.thrN
  idl := h.idl
  idlN := h.idlN
  tsk := h.tsk
  tskN := h.tskN
  fresh := h.fresh
  wait := fun t g hm d hd => h.wait t g hm d (mem_del.1 hd).1
  waitN := h.waitN
  bound := Nat.le_trans (Nat.add_le_add_right (length_del_le ..) _) h.bound

/-- A connection that is nowhere belongs to no thread any more. -/
theorem unbind_inv {max : Nat} {S : State} (h : Inv max S) {u : Tid} {c : Conn} (hc : (S.info c).thread = some u)
    (h1 : (u, c) ∉ S.threads) (h2 : c ∉ S.task u) :
    Inv max { S with info := setInfo S.info c { S.info c with thread := none } } := by
  have hne : ∀ t d, (S.info d).thread = some t → (d = c → t = u) := fun t d hd e => by
    rw [e, hc] at hd
    exact (Option.some.inj hd).symm
  have hi : ∀ d, d ≠ c → setInfo S.info c { S.info c with thread := none } d = S.info d := fun d hd => setInfo_other _ _ hd
  have hthr : ∀ t d, (t, d) ∈ S.threads → d ≠ c := fun t d hd e => h1 (by rw [← hne t d (h.thr t d hd) e, ← e]; exact hd)
  have htsk : ∀ t, ∀ d ∈ S.task t, d ≠ c := fun t d hd e => h2 (by rw [← hne t d (h.tsk t d hd) e, ← e]; exact hd)
  constructor
  · exact h.keys
  · intro t g d hd
    have := h.act t g d hd
    dsimp only
    rw [hi d (hthr t d this.2.2)]
    exact this
  · intro t d hd
    dsimp only
    rw [hi d (hthr t d hd)]
    exact h.thr t d hd
  · exact h.thrN
  · intro d hd
    have hd' := h.idl d hd
    have : d ≠ c := fun e => by
      rw [e, hc] at hd'
      cases hd'.1
    dsimp only
    rw [hi d this]
    exact hd'
  · exact h.idlN
  · intro t d hd
    dsimp only
    rw [hi d (htsk t d hd)]
    exact h.tsk t d hd
  · exact h.tskN
  · intro d hd
    dsimp only
    by_cases e : d = c
    · rw [e, setInfo_same]
    · rw [hi d e]
      exact h.fresh d hd
  · exact h.wait
  · exact h.waitN
  · exact h.bound

/-- A connection that is nowhere becomes idle. -/
theorem idle_inv {max : Nat} {S : State} (h : Inv max S) {c : Conn} (hc : (S.info c).thread = none) (hn : c < S.next)
    (hb : S.active.length + S.idle.length + 1 ≤ max) : Inv max { S with idle := (S.idle.filter fun d => d ≠ c) ++ [c] } where
  keys := h.keys
  act := h.act
  thr := h.thr
  thrN := h.thrN
  idl := fun d hd => by
    rcases List.mem_append.1 hd with hd | hd
    · exact h.idl d (List.mem_filter.1 hd).1
    · cases List.mem_singleton.1 hd
      exact ⟨hc, hn⟩
  idlN := by
    rw [List.nodup_append]
    refine ⟨List.filter_sublist.nodup h.idlN, nodup_one _, fun a ha b hb e => ?_⟩
    cases List.mem_singleton.1 hb
    exact of_decide_eq_true (List.mem_filter.1 ha).2 e
  tsk := h.tsk
  tskN := h.tskN
  fresh := h.fresh
  wait := h.wait
  waitN := h.waitN
  bound := by
    have := List.length_filter_le (fun d => decide (d ≠ c)) S.idle
    show S.active.length + ((S.idle.filter fun d => d ≠ c) ++ [c]).length ≤ max
    rw [List.length_append, List.length_singleton]
    omega

theorem deactivate_inv {max : Nat} {S : State} (h : Inv max S) {t : Tid} {c : Conn} (hc : (S.info c).thread = some t)
    (h2 : c ∉ S.task t) : Inv max (deactivate S c) := by
  have hn : c < S.next := Nat.lt_of_not_le fun hle => by
    rw [h.fresh c hle] at hc
    cases hc
  have hf := forget_inv h t c
  have hu : Inv max { S with
      threads := S.threads.filter (fun p => p ≠ (t, c)), active := del (t, (S.info c).target) S.active
      info := setInfo S.info c { S.info c with thread := none } } :=
    unbind_inv hf hc (fun hm => of_decide_eq_true (List.mem_filter.1 hm).2 rfl) h2
  rw [deactivate.eq_def, hc]
  dsimp only
  cases hk : find (t, (S.info c).target) S.active with
  | none =>
    dsimp only
    rw [del_absent (find_none hk)] at hu
    exact hu
  | some e =>
    dsimp only
    have hl := length_del h.keys (find_mem hk)
    have hb := h.bound
    exact notify_inv (idle_inv hu (c := c) (by dsimp only; rw [setInfo_same]) hn (by dsimp only; omega)) 1

theorem purge_inv {max : Nat} {E : Env} {limit : Nat} : ∀ (order : List (Tid × Conn)) {S : State}, Inv max S → order.Nodup →
    (∀ p ∈ order, p ∈ S.threads) → Inv max (purge E limit order S).1 := by
  intro order
  induction order with
  | nil => exact fun h _ _ => h
  | cons p rest ih =>
    obtain ⟨t, c⟩ := p
    intro S h hn hm
    rw [List.nodup_cons] at hn
    rw [purge.eq_def]
    dsimp only
    by_cases hs : stale E limit (S.info c) = true
    · rw [if_pos hs]
      have ht := h.thr t c (hm _ List.mem_cons_self)
      rw [ht]
      dsimp only
      have hf := forget_inv h t c
      cases hk : find (t, (S.info c).target) S.active with
      | none =>
        rw [del_absent (find_none hk)] at hf
        exact hf
      | some e =>
        exact ih hf hn.2 fun q hq => List.mem_filter.2 ⟨hm q (List.mem_cons_of_mem _ hq), decide_eq_true fun e => hn.1 (e ▸ hq)⟩
    · rw [if_neg hs]
      exact ih h hn.2 fun q hq => hm q (List.mem_cons_of_mem _ hq)

theorem activeCleanup_inv {max : Nat} {E : Env} {S : State} (h : Inv max S) (limit : Nat) (order : List (Tid × Conn)) :
    Inv max (activeCleanup E S limit order).1 := by
  unfold activeCleanup
  by_cases hp : order.isPerm S.threads = true
  · rw [if_pos hp]
    have hp := List.isPerm_iff.1 hp
    have hi := purge_inv (E := E) (limit := limit) order h (hp.nodup_iff.2 h.thrN) fun p hm => hp.subset hm
    cases hr : purge E limit order S with
    | mk S' q =>
      obtain ⟨cs, ok⟩ := q
      rw [hr] at hi
      cases ok with
      | true => exact notify_inv hi _
      | false => exact hi
  · rw [if_neg hp]
    exact h

theorem touch_inv {max : Nat} {S : State} (h : Inv max S) (c : Conn) (n : Nat) :
    Inv max { S with info := setInfo S.info c { S.info c with last := n } } := by
  have ht : ∀ d, (setInfo S.info c { S.info c with last := n } d).thread = (S.info d).thread := fun d => by
    by_cases e : d = c
    · rw [e, setInfo_same]
    · rw [setInfo_other _ _ e]
  have hg : ∀ d, (setInfo S.info c { S.info c with last := n } d).target = (S.info d).target := fun d => by
    by_cases e : d = c
    · rw [e, setInfo_same]
    · rw [setInfo_other _ _ e]
  constructor
  · exact h.keys
  · intro t g d hd
    dsimp only
    rw [ht, hg]
    exact h.act t g d hd
  · intro t d hd
    dsimp only
    rw [ht]
    exact h.thr t d hd
  · exact h.thrN
  · intro d hd
    dsimp only
    rw [ht]
    exact h.idl d hd
  · exact h.idlN
  · intro t d hd
    dsimp only
    rw [ht]
    exact h.tsk t d hd
  · exact h.tskN
  · intro d hd
    dsimp only
    rw [ht]
    exact h.fresh d hd
  · exact h.wait
  · exact h.waitN
  · exact h.bound

theorem idleCleanup_inv {max : Nat} {E : Env} {S : State} (h : Inv max S) (limit : Nat) : Inv max (idleCleanup E S limit).1 where
  keys := h.keys
  act := h.act
  thr := h.thr
  thrN := h.thrN
  idl := fun d hd => h.idl d (List.mem_filter.1 hd).1
  idlN := List.filter_sublist.nodup h.idlN
  tsk := h.tsk
  tskN := h.tskN
  fresh := h.fresh
  wait := h.wait
  waitN := h.waitN
  bound := Nat.le_trans (Nat.add_le_add_left (List.length_filter_le ..) _) h.bound

theorem step_inv {max : Nat} {E : Env} {S : State} (h : Inv max S) (e : Event) : Inv max (step max E S e).1 := by
  cases e with
  | queue t g =>
    simp only [step]
    split
    · exact h
    · rename_i hw
      unfold queue
      split
      · exact h
      · exact search_inv h (free_of_waits hw) (Nat.lt_succ_self _)
  | resume t =>
    simp only [step]
    cases ha : waiting t S.awake with
    | some g =>
      exact search_inv (fewer_waiters h List.filter_sublist (List.Sublist.refl _)) (free_awake h (waiting_mem ha)) (Nat.lt_succ_self _)
    | none =>
      dsimp only
      cases hs : waiting t S.sleeping with
      | some g =>
        exact search_inv (fewer_waiters h (List.Sublist.refl _) List.filter_sublist) (free_sleeping (waiting_none ha))
          (Nat.lt_succ_self _)
      | none => exact h
  | start t =>
    simp only [step]
    split
    · exact h
    · exact task_inv h (fun c hc => h.thr t c (mem_snapshot.1 hc)) (snapshot_nodup h.thrN t)
  | touch t =>
    simp only [step]
    split
    · exact h
    · cases S.task t with
      | nil => exact h
      | cons c cs => exact touch_inv h c E.now
  | rest t =>
    simp only [step]
    split
    · exact h
    · cases hk : S.task t with
      | nil => exact h
      | cons c cs =>
        have hn := h.tskN t
        rw [hk, List.nodup_cons] at hn
        have hc := h.tsk t c (by rw [hk]; exact List.mem_cons_self)
        refine deactivate_inv (task_inv h (l := cs) (fun d hd => h.tsk t d (by rw [hk]; exact List.mem_cons_of_mem _ hd)) hn.2) hc ?_
        show c ∉ setTask S.task t cs t
        rw [setTask_same]
        exact hn.1
  | leave t =>
    simp only [step]
    split
    · exact h
    · exact task_inv h (fun d hd => h.tsk t d (List.mem_of_mem_tail hd)) ((List.tail_sublist _).nodup (h.tskN t))
  | activeCleanup limit order => exact activeCleanup_inv h limit order
  | idleCleanup limit => exact idleCleanup_inv h limit
  | close => exact ⟨h.keys, h.act, h.thr, h.thrN, h.idl, h.idlN, h.tsk, h.tskN, h.fresh, h.wait, h.waitN, h.bound⟩

theorem run_inv {max : Nat} (sched : List (Env × Event)) : ∀ {S : State}, Inv max S → Inv max (run max S sched).1 := by
  induction sched with
  | nil => exact fun h => h
  | cons p rest ih => exact fun h => ih (step_inv h p.2)

theorem reached_inv {max : Nat} {S : State} {H : List Obs} (h : Reached max S H) : Inv max S := by
  obtain ⟨sched, hs⟩ := h
  have := run_inv sched (inv_init max)
  rw [hs] at this
  exact this

end HttpPool

end Verif.Props
