import Verif.Lemmas.HttpPool

/-!
# The connections of the HTTP client when only abandoned ones are killed
-/

namespace Verif.Props

open Verif.Http.Pool Verif.Spec.HttpPool

namespace HttpPool

/-- What holds in every state if only abandoned connections are killed. -/
structure Quiet (S : State) (H : List Obs) : Prop where
  own : ∀ t c, (t, c) ∈ S.threads → ((t, (S.info c).target), c) ∈ S.active
  tsk : ∀ t, ∀ c ∈ S.task t, (t, c) ∈ S.threads
  opn : ∀ c, Open H c ↔ (∃ k, (k, c) ∈ S.active) ∨ c ∈ S.idle
  old : ∀ c, .made c ∈ H ∨ .shut c ∈ H ∨ .killed c ∈ H → c < S.next
  ke : .keyError ∉ H

theorem quiet_init : Quiet init [] where
  own := fun _ _ h => nomatch h
  tsk := fun _ _ h => nomatch h
  opn := fun c => ⟨(fun h => nomatch h.1), fun h => by rcases h with ⟨_, h⟩ | h <;> cases h⟩
  old := fun c h => by rcases h with h | h | h <;> cases h
  ke := List.not_mem_nil

/-- What is seen changes nothing. -/
theorem quiet_obs {S : State} {H o : List Obs} (h : Quiet S H) (h1 : ∀ c, .made c ∉ o) (h2 : ∀ c, .shut c ∉ o)
    (h3 : ∀ c, .killed c ∉ o) (h4 : .keyError ∉ o) : Quiet S (H ++ o) where
  own := h.own
  tsk := h.tsk
  opn := fun c => by
    rw [← h.opn c]
    simp [Open, h1 c, h2 c, h3 c]
  old := fun c hc => h.old c (by simpa [h1 c, h2 c, h3 c] using hc)
  ke := by simp [h.ke, h4]

theorem quiet_queued {S : State} {H : List Obs} (h : Quiet S H) (t : Tid) (g : Target) (c : Conn) :
    Quiet S (H ++ [.queued t g c]) := quiet_obs h (by simp) (by simp) (by simp) (by simp)

theorem act_activate {S : State} {c : Conn} {t : Tid} (hf : ∀ e, ((t, (S.info c).target), e) ∉ S.active) :
    (activate S c t).active = ((t, (S.info c).target), c) :: S.active := by
  show ((t, (S.info c).target), c) :: del (t, (S.info c).target) S.active = _
  rw [del_absent hf]

/-- An idle connection is bound to a thread. -/
theorem quiet_activate {max : Nat} {S : State} {H : List Obs} {c : Conn} {t : Tid} (h : Inv max S) (q : Quiet S H)
    (hf : ∀ e, ((t, (S.info c).target), e) ∉ S.active) (hc : c ∈ S.idle) : Quiet (activate S c t) H := by
  have hn := (h.idl c hc).1
  have hnt : ∀ u d, (S.info d).thread = some u → d ≠ c := fun u d hd e => by
    rw [e, hn] at hd
    cases hd
  have hinfo : ∀ d, ((activate S c t).info d).target = (S.info d).target := fun d => by
    show (setInfo S.info c { S.info c with thread := some t } d).target = _
    by_cases e : d = c
    · rw [e, setInfo_same]
    · rw [setInfo_other _ _ e]
  have hthr : ∀ p, p ∈ (activate S c t).threads ↔ p = (t, c) ∨ p ∈ S.threads := fun p => by
    show p ∈ (t, c) :: (S.threads.filter fun p => p ≠ (t, c)) ↔ _
    rw [List.mem_cons, List.mem_filter]
    constructor
    · rintro (e | e)
      · exact .inl e
      · exact .inr e.1
    · rintro (e | e)
      · exact .inl e
      · by_cases e' : p = (t, c)
        · exact .inl e'
        · exact .inr ⟨e, decide_eq_true e'⟩
  constructor
  · intro u d hd
    rw [act_activate hf, hinfo]
    rcases (hthr _).1 hd with e | hd
    · cases e
      exact List.mem_cons_self
    · exact List.mem_cons_of_mem _ (q.own u d hd)
  · exact fun u d hd => (hthr _).2 (.inr (q.tsk u d hd))
  · intro d
    rw [q.opn d, act_activate hf]
    show _ ↔ _ ∨ d ∈ S.idle.filter fun d => d ≠ c
    constructor
    · rintro (⟨k, hk⟩ | hd)
      · exact .inl ⟨k, List.mem_cons_of_mem _ hk⟩
      · by_cases e : d = c
        · subst e
          exact .inl ⟨_, List.mem_cons_self⟩
        · exact .inr (List.mem_filter.2 ⟨hd, decide_eq_true e⟩)
    · rintro (⟨k, hk⟩ | hd)
      · rcases List.mem_cons.1 hk with e | hk
        · cases e
          exact .inr hc
        · exact .inl ⟨k, hk⟩
      · exact .inr (List.mem_filter.1 hd).1
  · exact q.old
  · exact q.ke

/-- A connection is made and put on the idle list for a moment. -/
theorem quiet_make {max : Nat} {S : State} {H : List Obs} (h : Inv max S) (q : Quiet S H) (g : Target) :
    Quiet { make S g with idle := S.next :: S.idle } (H ++ [.made S.next]) := by
  have hlt : ∀ u d, (S.info d).thread = some u → d < S.next := fun u d hd => Nat.lt_of_not_le fun hle => by
    rw [h.fresh d hle] at hd
    cases hd
  have hinfo : ∀ d, d < S.next → (make S g).info d = S.info d := fun d hd => setInfo_other _ _ (Nat.ne_of_lt hd)
  constructor
  · intro u d hd
    dsimp only
    rw [hinfo d (hlt u d (h.thr u d hd))]
    exact q.own u d hd
  · exact q.tsk
  · intro d
    have hd := q.opn d
    have h1 : Obs.shut S.next ∉ H := fun hm => Nat.lt_irrefl _ (q.old _ (.inr (.inl hm)))
    have h2 : Obs.killed S.next ∉ H := fun hm => Nat.lt_irrefl _ (q.old _ (.inr (.inr hm)))
    by_cases e : d = S.next
    · subst e
      simp [Open, h1, h2]
    · have : Open (H ++ [.made S.next]) d ↔ Open H d := by simp [Open, e]
      rw [this, hd]
      show _ ↔ _ ∨ d ∈ S.next :: S.idle
      rw [List.mem_cons]
      exact ⟨fun hx => hx.elim .inl fun x => .inr (.inr x), fun hx => hx.elim .inl fun x => x.elim (fun x => absurd x e) .inr⟩
  · intro d hd
    show d < S.next + 1
    by_cases e : d = S.next
    · exact e ▸ Nat.lt_succ_self _
    · exact Nat.lt_succ_of_lt (q.old d (by simpa [e] using hd))
  · simp [q.ke]

theorem quiet_without {max : Nat} {S : State} {H : List Obs} {c : Conn} (h : Inv max S) (q : Quiet S H) (hc : c ∈ S.idle) :
    Quiet (without S c) (H ++ [.shut c]) := by
  have hcl := (h.idl c hc)
  constructor
  · exact q.own
  · exact q.tsk
  · intro d
    have hd := q.opn d
    by_cases e : d = c
    · subst e
      have h1 : ¬ Open (H ++ [.shut d]) d := by simp [Open]
      refine ⟨fun x => absurd x h1, fun x => ?_⟩
      rcases x with ⟨k, hk⟩ | x
      · have := (h.act k.1 k.2 d hk).2.1
        rw [hcl.1] at this
        cases this
      · exact absurd rfl (of_decide_eq_true (List.mem_filter.1 x).2)
    · have : Open (H ++ [.shut c]) d ↔ Open H d := by simp [Open, e]
      rw [this, hd]
      show _ ↔ _ ∨ d ∈ S.idle.filter fun d => d ≠ c
      rw [List.mem_filter]
      exact ⟨fun hx => hx.elim .inl fun x => .inr ⟨x, decide_eq_true e⟩, fun hx => hx.elim .inl fun x => .inr x.1⟩
  · intro d hd
    by_cases e : d = c
    · exact e ▸ hcl.2
    · exact q.old d (by simpa [e] using hd)
  · simp [q.ke]

/-- The bound on the threads that sleep for nothing, with `k` threads that are about to take a connection. -/
def Wake (max k : Nat) (S : State) : Prop := S.sleeping ≠ [] → max ≤ S.active.length + S.awake.length + k

theorem search_quiet {max : Nat} {E : Env} {t : Tid} {g : Target} {n : Nat} {S : State} {H : List Obs} (h : Inv max S)
    (q : Quiet S H) (hn : S.idle.length < n) :
    Quiet (search max E t g n S).1 (H ++ (search max E t g n S).2) := by
  refine search_ind (P := fun S r => ∀ H, Inv max S → Quiet S H → Quiet r.1 (H ++ r.2)) ?_ ?_ ?_ ?_ ?_ ?_ n S hn H h q
  · exact fun S c _ H _ q => quiet_queued q t g c
  · intro S c hf hc ht _ H h q
    subst ht
    exact quiet_queued (quiet_activate h q (find_none hf) hc) _ _ _
  · intro S hf hi hl H h q
    have qm := quiet_make h q g
    have hm := make_inv h g
    have hnot : S.next ∉ S.idle := fun hx => Nat.lt_irrefl _ (h.idl _ hx).2
    have ht : ((make S g).info S.next).target = g := by
      show (setInfo S.info S.next ⟨g, none, 0⟩ S.next).target = g
      rw [setInfo_same]
    have hth : ((make S g).info S.next).thread = none := by
      show (setInfo S.info S.next ⟨g, none, 0⟩ S.next).thread = none
      rw [setInfo_same]
    have hi : Inv max { make S g with idle := S.next :: S.idle } :=
      { hm with
        idl := fun d hd => by
          rcases List.mem_cons.1 hd with e | hd
          · subst e
            exact ⟨hth, Nat.lt_succ_self _⟩
          · exact hm.idl d hd
        idlN := List.nodup_cons.2 ⟨hnot, h.idlN⟩
        bound := by
          show S.active.length + (S.next :: S.idle).length ≤ max
          rw [List.length_cons]
          omega }
    have hq := quiet_activate (t := t) (c := S.next) hi qm (by dsimp only; rw [ht]; exact find_none hf) List.mem_cons_self
    have hst : activate { make S g with idle := S.next :: S.idle } S.next t = activate (make S g) S.next t := by
      have : ((S.next :: S.idle).filter fun d => d ≠ S.next) = S.idle.filter fun d => d ≠ S.next :=
        List.filter_cons_of_neg (by simp)
      show ({ (activate (make S g) S.next t) with idle := (S.next :: S.idle).filter fun d => d ≠ S.next } : State) = _
      rw [this]
      rfl
    rw [hst] at hq
    have := quiet_queued hq t g S.next
    rw [List.append_assoc] at this
    exact this
  · intro S c r _ _ _ hc _ ih H h q
    have := ih _ (without_inv h c) (quiet_without h q hc)
    rw [List.append_assoc] at this
    exact this
  · exact fun S _ _ _ _ H _ q => quiet_obs q (by simp) (by simp) (by simp) (by simp)
  · intro S _ _ _ _ H _ q
    rw [List.append_nil]
    exact ⟨q.own, q.tsk, q.opn, q.old, q.ke⟩

theorem search_wake {max k : Nat} {E : Env} {t : Tid} {g : Target} {n : Nat} {S : State} (hk : k ≤ 1) (hw : Wake max k S)
    (hf : k = 1 → find (t, g) S.active = none) (hn : S.idle.length < n) : Wake max 0 (search max E t g n S).1 := by
  refine search_ind (P := fun S r => (k = 1 → find (t, g) S.active = none) → Wake max k S → Wake max 0 r.1) ?_ ?_ ?_ ?_ ?_ ?_ n S hn
    hf hw
  · intro S c hc hf hw
    by_cases e : k = 1
    · rw [hf e] at hc
      cases hc
    · have : k = 0 := by omega
      subst this
      exact hw
  · intro S c hf hc ht _ _ hw hs
    have := hw hs
    subst ht
    rw [act_activate (find_none hf), List.length_cons]
    show max ≤ S.active.length + 1 + S.awake.length + 0
    omega
  · intro S hf _ _ _ hw hs
    have := hw hs
    have ht : ((make S g).info S.next).target = g := by
      show (setInfo S.info S.next ⟨g, none, 0⟩ S.next).target = g
      rw [setInfo_same]
    rw [act_activate (S := make S g) (by rw [ht]; exact find_none hf), List.length_cons]
    show max ≤ S.active.length + 1 + S.awake.length + 0
    omega
  · exact fun S c r _ _ _ _ _ ih hf hw => ih hf hw
  · intro S _ _ hm _ _ _ _
    show max ≤ S.active.length + S.awake.length + 0
    omega
  · intro S _ _ hm _ _ _ _
    show max ≤ S.active.length + S.awake.length + 0
    omega

/-- What the loops of `ActiveCleanup` do if every connection is found. -/
theorem purge_quiet {max : Nat} {E : Env} {limit : Nat} : ∀ (order : List (Tid × Conn)) {S : State}, Inv max S →
    (∀ t c, (t, c) ∈ S.threads → ((t, (S.info c).target), c) ∈ S.active) → order.Nodup → (∀ p ∈ order, p ∈ S.threads) →
    ∃ a th cs, purge E limit order S = ({ S with active := a, threads := th }, cs, true) ∧ a.length + cs.length = S.active.length ∧
      (∀ p, p ∈ th ↔ p ∈ S.threads ∧ p.2 ∉ cs) ∧ (∀ p, p ∈ a ↔ p ∈ S.active ∧ p.2 ∉ cs) ∧
      (∀ c ∈ cs, ∃ t, (t, c) ∈ order ∧ stale E limit (S.info c) = true) ∧
      (∀ t c, (t, c) ∈ order → stale E limit (S.info c) = true → c ∈ cs) := by
  intro order
  induction order with
  | nil =>
    exact fun {S} _ _ _ _ => ⟨S.active, S.threads, [], rfl, rfl, (fun p => by simp), (fun p => by simp), (fun c hc => nomatch hc),
      (fun t c hc => nomatch hc)⟩
  | cons p rest ih =>
    obtain ⟨t, c⟩ := p
    intro S h ho hn hm
    rw [List.nodup_cons] at hn
    rw [purge.eq_def]
    dsimp only
    have htc := hm _ List.mem_cons_self
    have ht := h.thr t c htc
    have hac := ho t c htc
    by_cases hs : stale E limit (S.info c) = true
    · rw [if_pos hs, ht]
      dsimp only
      rw [find_of_mem h.keys hac]
      dsimp only
      have hf := forget_inv h t c
      have hkey : ∀ k d, (k, d) ∈ S.active → (k = (t, (S.info c).target) ↔ d = c) := fun k d hd => by
        constructor
        · intro e
          subst e
          exact keys_unique h.keys hd hac
        · intro e
          subst e
          have := h.act k.1 k.2 d hd
          have hk1 : k.1 = t := Option.some.inj (this.2.1.symm.trans ht)
          exact Prod.ext hk1 this.1.symm
      have hthr : ∀ u d, (u, d) ∈ S.threads → ((u, d) = (t, c) ↔ d = c) := fun u d hd => by
        constructor
        · intro e
          exact congrArg (·.2) e
        · intro e
          subst e
          have : u = t := Option.some.inj ((h.thr u d hd).symm.trans ht)
          rw [this]
      have hmem : ∀ q ∈ rest, q ∈ S.threads.filter fun p => p ≠ (t, c) := fun q hq =>
        List.mem_filter.2 ⟨hm q (List.mem_cons_of_mem _ hq), decide_eq_true fun e => hn.1 (e ▸ hq)⟩
      obtain ⟨a, th, cs, hr, hl, h1, h2, h3, h4⟩ := ih hf (fun u d hd => by
        obtain ⟨hd1, hd2⟩ := List.mem_filter.1 hd
        have hd3 := ho u d hd1
        refine mem_del.2 ⟨hd3, fun e => ?_⟩
        exact of_decide_eq_true hd2 ((hthr u d hd1).2 ((hkey _ d hd3).1 e))) hn.2 hmem
      rw [hr]
      refine ⟨a, th, c :: cs, rfl, ?_, ?_, ?_, ?_, ?_⟩
      · have := length_del h.keys hac
        dsimp only at hl
        rw [List.length_cons]
        omega
      · intro q
        rw [h1 q]
        show q ∈ (S.threads.filter fun p => p ≠ (t, c)) ∧ _ ↔ _
        rw [List.mem_filter, List.mem_cons]
        constructor
        · rintro ⟨⟨h5, h6⟩, h7⟩
          exact ⟨h5, fun hx => hx.elim (fun e => of_decide_eq_true h6 ((hthr q.1 q.2 h5).2 e)) h7⟩
        · rintro ⟨h5, h6⟩
          exact ⟨⟨h5, decide_eq_true fun e => h6 (.inl ((hthr q.1 q.2 h5).1 e))⟩, fun hx => h6 (.inr hx)⟩
      · intro q
        rw [h2 q, mem_del, List.mem_cons]
        constructor
        · rintro ⟨⟨h5, h6⟩, h7⟩
          exact ⟨h5, fun hx => hx.elim (fun e => h6 ((hkey q.1 q.2 h5).2 e)) h7⟩
        · rintro ⟨h5, h6⟩
          exact ⟨⟨h5, fun e => h6 (.inl ((hkey q.1 q.2 h5).1 e))⟩, fun hx => h6 (.inr hx)⟩
      · intro d hd
        rcases List.mem_cons.1 hd with e | hd
        · subst e
          exact ⟨t, List.mem_cons_self, hs⟩
        · obtain ⟨u, hu, hst⟩ := h3 d hd
          exact ⟨u, List.mem_cons_of_mem _ hu, hst⟩
      · intro u d hd hst
        rcases List.mem_cons.1 hd with e | hd
        · cases e
          exact List.mem_cons_self
        · exact List.mem_cons_of_mem _ (h4 u d hd hst)
    · rw [if_neg hs]
      obtain ⟨a, th, cs, hr, hl, h1, h2, h3, h4⟩ := ih h ho hn.2 fun q hq => hm q (List.mem_cons_of_mem _ hq)
      refine ⟨a, th, cs, hr, hl, h1, h2, fun d hd => ?_, fun u d hd hst => ?_⟩
      · obtain ⟨u, hu, hst⟩ := h3 d hd
        exact ⟨u, List.mem_cons_of_mem _ hu, hst⟩
      · rcases List.mem_cons.1 hd with e | hd
        · cases e
          exact absurd hst hs
        · exact h4 u d hd hst

theorem activeCleanup_quiet {max : Nat} {E : Env} {S : State} {H : List Obs} {limit : Nat} {order : List (Tid × Conn)}
    (h : Inv max S) (q : Quiet S H) (hw : Wake max 0 S)
    (ha : ∀ t c, (t, c) ∈ S.threads → (S.info c).last + limit < E.now → S.task t = []) :
    Quiet (activeCleanup E S limit order).1 (H ++ (activeCleanup E S limit order).2) ∧
      Wake max 0 (activeCleanup E S limit order).1 := by
  unfold activeCleanup
  by_cases hp : order.isPerm S.threads = true
  · rw [if_pos hp]
    have hp := List.isPerm_iff.1 hp
    obtain ⟨a, th, cs, hr, hl, h1, h2, h3, _⟩ := purge_quiet (E := E) (limit := limit) order h q.own (hp.nodup_iff.2 h.thrN)
      fun p hm => hp.subset hm
    rw [hr]
    dsimp only
    have hcs : ∀ c ∈ cs, ∃ t, (t, c) ∈ S.threads ∧ S.task t = [] := fun c hc => by
      obtain ⟨t, ht, hs⟩ := h3 c hc
      exact ⟨t, hp.subset ht, ha t c (hp.subset ht) (of_decide_eq_true hs)⟩
    constructor
    · constructor
      · intro t c hc
        obtain ⟨h4, h5⟩ := (h1 _).1 hc
        exact (h2 _).2 ⟨q.own t c h4, h5⟩
      · intro t c hc
        have hm := q.tsk t c hc
        refine (h1 _).2 ⟨hm, fun hx => ?_⟩
        obtain ⟨u, hu, he⟩ := hcs c hx
        have : u = t := Option.some.inj ((h.thr u c hu).symm.trans (h.thr t c hm))
        subst this
        have hc : c ∈ S.task u := hc
        rw [he] at hc
        cases hc
      · intro c
        have hd := q.opn c
        by_cases e : c ∈ cs
        · obtain ⟨t, ht, _⟩ := hcs c e
          have h4 : ¬ Open (H ++ cs.map .killed) c := by simp [Open, e]
          refine ⟨fun x => absurd x h4, fun x => ?_⟩
          rcases x with ⟨k, hk⟩ | x
          · exact absurd e ((h2 _).1 hk).2
          · have h5 := (h.idl c x).1
            rw [h.thr t c ht] at h5
            cases h5
        · have : Open (H ++ cs.map .killed) c ↔ Open H c := by simp [Open, e]
          rw [this, hd]
          constructor
          · rintro (⟨k, hk⟩ | x)
            · exact .inl ⟨k, (h2 _).2 ⟨hk, e⟩⟩
            · exact .inr x
          · rintro (⟨k, hk⟩ | x)
            · exact .inl ⟨k, ((h2 _).1 hk).1⟩
            · exact .inr x
      · intro c hc
        by_cases e : c ∈ cs
        · obtain ⟨t, ht, _⟩ := hcs c e
          refine Nat.lt_of_not_le fun hle => ?_
          have h5 := h.fresh c hle
          rw [h.thr t c ht] at h5
          cases h5
        · exact q.old c (by simpa [e] using hc)
      · simp [q.ke]
    · intro hs
      show max ≤ a.length + (S.awake ++ S.sleeping.take cs.length).length + 0
      have hs : S.sleeping.drop cs.length ≠ [] := hs
      have hlen : cs.length < S.sleeping.length := Nat.lt_of_not_le fun hle => hs (List.drop_eq_nil_of_le hle)
      have := hw fun e => by rw [e] at hlen; exact Nat.not_lt_zero _ hlen
      rw [List.length_append, List.length_take]
      omega
  · rw [if_neg hp, List.append_nil]
    exact ⟨q, hw⟩

theorem deactivate_quiet {max : Nat} {S : State} {H : List Obs} (h : Inv max S) (hw : Wake max 0 S) {t : Tid} {c : Conn}
    (hown : ∀ t c, (t, c) ∈ S.threads → ((t, (S.info c).target), c) ∈ S.active) (htsk : ∀ u, ∀ d ∈ S.task u, d ≠ c ∧ (u, d) ∈ S.threads)
    (hopn : ∀ c, Open H c ↔ (∃ k, (k, c) ∈ S.active) ∨ c ∈ S.idle)
    (hold : ∀ c, .made c ∈ H ∨ .shut c ∈ H ∨ .killed c ∈ H → c < S.next) (hke : .keyError ∉ H) (hc : (t, c) ∈ S.threads) :
    Quiet (deactivate S c) H ∧ Wake max 0 (deactivate S c) := by
  have ht := h.thr t c hc
  have hac := hown t c hc
  have hkey : ∀ k d, (k, d) ∈ S.active → (k = (t, (S.info c).target) ↔ d = c) := fun k d hd => by
    constructor
    · intro e
      subst e
      exact keys_unique h.keys hd hac
    · intro e
      subst e
      have := h.act k.1 k.2 d hd
      have hk1 : k.1 = t := Option.some.inj (this.2.1.symm.trans ht)
      exact Prod.ext hk1 this.1.symm
  have hthr : ∀ u d, (u, d) ∈ S.threads → ((u, d) = (t, c) ↔ d = c) := fun u d hd => by
    constructor
    · intro e
      exact congrArg (·.2) e
    · intro e
      subst e
      have : u = t := Option.some.inj ((h.thr u d hd).symm.trans ht)
      rw [this]
  have hi : ∀ d, (setInfo S.info c { S.info c with thread := none } d).target = (S.info d).target := fun d => by
    by_cases e : d = c
    · rw [e, setInfo_same]
    · rw [setInfo_other _ _ e]
  rw [deactivate.eq_def, ht]
  dsimp only
  rw [find_of_mem h.keys hac]
  dsimp only
  constructor
  · constructor
    · intro u d hd
      obtain ⟨h1, h2⟩ := List.mem_filter.1 hd
      have h3 := hown u d h1
      show ((u, (setInfo S.info c { S.info c with thread := none } d).target), d) ∈ del (t, (S.info c).target) S.active
      rw [hi d]
      exact mem_del.2 ⟨h3, fun e => of_decide_eq_true h2 ((hthr u d h1).2 ((hkey _ d h3).1 e))⟩
    · intro u d hd
      obtain ⟨h1, h2⟩ := htsk u d hd
      exact List.mem_filter.2 ⟨h2, decide_eq_true fun e => h1 (congrArg (·.2) e)⟩
    · intro d
      rw [hopn d]
      show _ ↔ (∃ k, (k, d) ∈ del (t, (S.info c).target) S.active) ∨ d ∈ (S.idle.filter fun d => d ≠ c) ++ [c]
      rw [List.mem_append, List.mem_singleton, List.mem_filter]
      constructor
      · rintro (⟨k, hk⟩ | x)
        · by_cases e : d = c
          · exact .inr (.inr e)
          · exact .inl ⟨k, mem_del.2 ⟨hk, fun e' => e ((hkey k d hk).1 e')⟩⟩
        · by_cases e : d = c
          · exact .inr (.inr e)
          · exact .inr (.inl ⟨x, decide_eq_true e⟩)
      · rintro (⟨k, hk⟩ | x | x)
        · exact .inl ⟨k, (mem_del.1 hk).1⟩
        · exact .inr x.1
        · subst x
          exact .inl ⟨_, hac⟩
    · exact hold
    · exact hke
  · intro hs
    have hs : S.sleeping.drop 1 ≠ [] := hs
    have hlen : 1 < S.sleeping.length := Nat.lt_of_not_le fun hle => hs (List.drop_eq_nil_of_le hle)
    have h1 := hw fun e => by rw [e] at hlen; exact Nat.not_lt_zero _ hlen
    have h2 := length_del h.keys hac
    show max ≤ (del (t, (S.info c).target) S.active).length + (S.awake ++ S.sleeping.take 1).length + 0
    rw [List.length_append, List.length_take]
    omega

theorem filter_target_length {l : List (Tid × Target)} (h : (l.map (·.1)).Nodup) {t : Tid} {g : Target} (hm : (t, g) ∈ l) :
    (l.filter fun w => w.1 ≠ t).length + 1 = l.length := by
  induction l with
  | nil => cases hm
  | cons a rest ih =>
    rw [List.map_cons, List.nodup_cons] at h
    by_cases e : a.1 = t
    · rw [List.filter_cons_of_neg (by simp [e]), List.length_cons]
      have : (rest.filter fun w => w.1 ≠ t) = rest :=
        List.filter_eq_self.2 fun x hx => decide_eq_true fun (he : x.1 = t) => h.1 (by
          rw [e, ← he]
          exact List.mem_map_of_mem (f := (·.1)) hx)
      rw [this]
    · rw [List.filter_cons_of_pos (by simp [e]), List.length_cons, List.length_cons]
      rcases List.mem_cons.1 hm with rfl | hm
      · exact absurd rfl e
      · rw [ih h.2 hm]

theorem step_quiet {max : Nat} {E : Env} {S : State} {H : List Obs} (h : Inv max S) (q : Quiet S H) (hw : Wake max 0 S) (e : Event)
    (ha : ∀ limit order, e = .activeCleanup limit order →
      ∀ t c, (t, c) ∈ S.threads → (S.info c).last + limit < E.now → S.task t = []) :
    Quiet (step max E S e).1 (H ++ (step max E S e).2) ∧ Wake max 0 (step max E S e).1 := by
  have same : Quiet S (H ++ []) ∧ Wake max 0 S := by
    rw [List.append_nil]
    exact ⟨q, hw⟩
  cases e with
  | queue t g =>
    simp only [step]
    split
    · exact same
    · unfold queue
      split
      · exact ⟨quiet_obs q (by simp) (by simp) (by simp) (by simp), hw⟩
      · exact ⟨search_quiet h q (Nat.lt_succ_self _), search_wake (Nat.zero_le 1) hw (fun e => by cases e) (Nat.lt_succ_self _)⟩
  | resume t =>
    simp only [step]
    cases hwa : waiting t S.awake with
    | some g =>
      have hm := waiting_mem hwa
      have hi := fewer_waiters h (List.filter_sublist (p := fun w : Tid × Target => decide (w.1 ≠ t)) (l := S.awake))
        (List.Sublist.refl S.sleeping)
      have hn := h.waitN
      rw [List.map_append, List.nodup_append] at hn
      have hl := filter_target_length hn.1 hm
      refine ⟨search_quiet hi ⟨q.own, q.tsk, q.opn, q.old, q.ke⟩ (Nat.lt_succ_self _),
        search_wake (k := 1) (Nat.le_refl 1) (fun hs => ?_) (fun _ => ?_) (Nat.lt_succ_self _)⟩
      · have := hw hs
        show max ≤ S.active.length + (S.awake.filter fun w => w.1 ≠ t).length + 1
        omega
      · cases hf : find (t, g) S.active with
        | none => rfl
        | some c => exact absurd (find_mem hf) (h.wait t g (List.mem_append_left _ hm) c)
    | none =>
      dsimp only
      cases hws : waiting t S.sleeping with
      | some g =>
        have hm := waiting_mem hws
        have hi := fewer_waiters h (List.Sublist.refl S.awake)
          (List.filter_sublist (p := fun w : Tid × Target => decide (w.1 ≠ t)) (l := S.sleeping))
        refine ⟨search_quiet hi ⟨q.own, q.tsk, q.opn, q.old, q.ke⟩ (Nat.lt_succ_self _),
          search_wake (k := 0) (Nat.zero_le 1) (fun hs => hw fun e => ?_) (fun e => by cases e) (Nat.lt_succ_self _)⟩
        refine hs ?_
        show (S.sleeping.filter fun w => w.1 ≠ t) = []
        rw [e]
        rfl
      | none => exact same
  | start t =>
    simp only [step]
    split
    · exact same
    · rw [List.append_nil]
      refine ⟨⟨q.own, fun u c hc => ?_, q.opn, q.old, q.ke⟩, hw⟩
      by_cases e : u = t
      · subst e
        have hc : c ∈ setTask S.task u ((S.threads.filter fun p => p.1 = u).map (·.2)) u := hc
        rw [setTask_same] at hc
        exact mem_snapshot.1 hc
      · have hc : c ∈ setTask S.task t ((S.threads.filter fun p => p.1 = t).map (·.2)) u := hc
        rw [setTask_other _ _ e] at hc
        exact q.tsk u c hc
  | touch t =>
    simp only [step]
    split
    · exact same
    · cases S.task t with
      | nil => exact same
      | cons c cs =>
        rw [List.append_nil]
        refine ⟨⟨fun u d hd => ?_, q.tsk, q.opn, q.old, q.ke⟩, hw⟩
        have hg : (setInfo S.info c { S.info c with last := E.now } d).target = (S.info d).target := by
          by_cases e : d = c
          · rw [e, setInfo_same]
          · rw [setInfo_other _ _ e]
        dsimp only
        rw [hg]
        exact q.own u d hd
  | rest t =>
    simp only [step]
    split
    · exact same
    · cases hk : S.task t with
      | nil => exact same
      | cons c cs =>
        have hn := h.tskN t
        rw [hk, List.nodup_cons] at hn
        have hct : c ∈ S.task t := by rw [hk]; exact List.mem_cons_self
        have hc := h.tsk t c hct
        have hi := task_inv h (l := cs) (fun d hd => h.tsk t d (by rw [hk]; exact List.mem_cons_of_mem _ hd)) hn.2
        dsimp only
        rw [List.append_nil]
        refine deactivate_quiet (t := t) hi hw q.own (fun u d hd => ?_) q.opn q.old q.ke (q.tsk t c hct)
        have hd : d ∈ setTask S.task t cs u := hd
        by_cases e : u = t
        · subst e
          rw [setTask_same] at hd
          exact ⟨fun e => hn.1 (e ▸ hd), q.tsk u d (by rw [hk]; exact List.mem_cons_of_mem _ hd)⟩
        · rw [setTask_other _ _ e] at hd
          refine ⟨fun e' => e ?_, q.tsk u d hd⟩
          subst e'
          exact Option.some.inj ((h.tsk u d hd).symm.trans hc)
  | leave t =>
    simp only [step]
    split
    · exact same
    · rw [List.append_nil]
      refine ⟨⟨q.own, fun u c hc => ?_, q.opn, q.old, q.ke⟩, hw⟩
      have hc : c ∈ setTask S.task t (S.task t).tail u := hc
      by_cases e : u = t
      · subst e
        rw [setTask_same] at hc
        exact q.tsk u c (List.mem_of_mem_tail hc)
      · rw [setTask_other _ _ e] at hc
        exact q.tsk u c hc
  | activeCleanup limit order => exact activeCleanup_quiet h q hw (ha limit order rfl)
  | idleCleanup limit =>
    refine ⟨⟨q.own, q.tsk, fun c => ?_, fun c hc => ?_, ?_⟩, hw⟩
    · have hd := q.opn c
      show Open (H ++ (S.idle.filter fun c => stale E limit (S.info c)).map .shut) c ↔
        _ ∨ c ∈ S.idle.filter fun c => ¬ stale E limit (S.info c)
      by_cases e : c ∈ S.idle.filter fun c => stale E limit (S.info c)
      · have h4 : ¬ Open (H ++ (S.idle.filter fun c => stale E limit (S.info c)).map .shut) c := fun hx =>
          hx.2.1 (List.mem_append_right _ (List.mem_map_of_mem e))
        obtain ⟨e1, e2⟩ := List.mem_filter.1 e
        refine ⟨fun x => absurd x h4, fun x => ?_⟩
        rcases x with ⟨k, hk⟩ | x
        · have h5 := (h.idl c e1).1
          rw [(h.act k.1 k.2 c hk).2.1] at h5
          cases h5
        · exact absurd e2 (of_decide_eq_true (List.mem_filter.1 x).2)
      · have h4 : Obs.shut c ∉ (S.idle.filter fun c => stale E limit (S.info c)).map Obs.shut := fun hx => by
          obtain ⟨d, hd, hx⟩ := List.mem_map.1 hx
          cases hx
          exact e hd
        have h5 : Obs.made c ∉ (S.idle.filter fun c => stale E limit (S.info c)).map Obs.shut := fun hx => by
          obtain ⟨d, hd, hx⟩ := List.mem_map.1 hx
          cases hx
        have h6 : Obs.killed c ∉ (S.idle.filter fun c => stale E limit (S.info c)).map Obs.shut := fun hx => by
          obtain ⟨d, hd, hx⟩ := List.mem_map.1 hx
          cases hx
        have : Open (H ++ (S.idle.filter fun c => stale E limit (S.info c)).map .shut) c ↔ Open H c := by
          unfold Open
          rw [List.mem_append, List.mem_append, List.mem_append]
          exact ⟨fun hx => ⟨hx.1.resolve_right h5, fun y => hx.2.1 (.inl y), fun y => hx.2.2 (.inl y)⟩,
            fun hx => ⟨.inl hx.1, fun y => y.elim hx.2.1 h4, fun y => y.elim hx.2.2 h6⟩⟩
        rw [this, hd, List.mem_filter]
        constructor
        · rintro (x | x)
          · exact .inl x
          · exact .inr ⟨x, decide_eq_true fun hx => e (List.mem_filter.2 ⟨x, hx⟩)⟩
        · rintro (x | x)
          · exact .inl x
          · exact .inr x.1
    · rw [List.mem_append, List.mem_append, List.mem_append] at hc
      rcases hc with (x | x) | (x | x) | (x | x)
      · exact q.old c (.inl x)
      · obtain ⟨d, hd, hx⟩ := List.mem_map.1 x
        cases hx
      · exact q.old c (.inr (.inl x))
      · obtain ⟨d, hd, hx⟩ := List.mem_map.1 x
        cases hx
        exact (h.idl _ (List.mem_filter.1 hd).1).2
      · exact q.old c (.inr (.inr x))
      · obtain ⟨d, hd, hx⟩ := List.mem_map.1 x
        cases hx
    · intro hx
      rcases List.mem_append.1 hx with x | x
      · exact q.ke x
      · obtain ⟨d, hd, hx⟩ := List.mem_map.1 x
        cases hx
  | close =>
    rw [show (step max E S .close).2 = [] from rfl, List.append_nil]
    exact ⟨⟨q.own, q.tsk, q.opn, q.old, q.ke⟩, hw⟩

theorem run_quiet {max : Nat} (sched : List (Env × Event)) : ∀ {S : State} {H : List Obs}, Inv max S → Quiet S H → Wake max 0 S →
    OnlyAbandoned max S sched →
    Quiet (run max S sched).1 (H ++ (run max S sched).2) ∧ Wake max 0 (run max S sched).1 := by
  induction sched with
  | nil =>
    intro S H _ q hw _
    exact ⟨by show Quiet S (H ++ []); rw [List.append_nil]; exact q, hw⟩
  | cons p rest ih =>
    obtain ⟨E, e⟩ := p
    intro S H h q hw ha
    obtain ⟨q', hw'⟩ := step_quiet h q hw e ha.1
    have := ih (step_inv h e) q' hw' ha.2
    rw [List.append_assoc] at this
    exact this

theorem wake_init (max : Nat) : Wake max 0 init := fun h => absurd rfl h

end HttpPool

end Verif.Props
