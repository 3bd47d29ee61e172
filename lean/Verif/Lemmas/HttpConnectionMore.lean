import Verif.Lemmas.HttpConnectionAll

/-! Waiting for `100 Continue`, killed connections, and the ends of requests. -/

namespace Verif.Http.Conn

open Verif Msg Spec.HttpConnection

/-! ## What reading responses leaves alone -/

theorem settle_keeps {α : Type} (g : State → α) (hg : ∀ (S : State) R rq o p, g { S with reqs := R, request := rq, out := o, phase := p } = g S)
    (size : Nat) (q : Rid) (w : Bool) (st : Option Nat) (e : Option Cause) (S : State) : g (settle size q w st e S).s = g S := by
  have h0 : ∀ (T : State) (f : Req → Req), g (setReq T q f) = g T := fun T f => hg T _ T.request T.out T.phase
  unfold settle
  cases st with
  | none => dsimp only; exact h0 S _
  | some n =>
    dsimp only
    split
    · split
      · unfold continueBody
        split
        · dsimp only; exact (hg S _ S.request S.out .sending)
        · dsimp only; exact h0 S _
      · dsimp only; exact h0 S _
    · split
      · split
        · split
          · dsimp only; exact h0 S _
          · split
            · dsimp only; exact (h0 _ _).trans (h0 S _)
            · unfold Out.andThen
              dsimp only
              unfold requestDisconnect
              split
              · dsimp only; exact (h0 _ _).trans (h0 S _)
              · next p _ => exact hg S _ none [] .closeWait
        · dsimp only; exact h0 S _
      · dsimp only; exact h0 S _

theorem apply_keeps {α : Type} (g : State → α) (hg : ∀ (S : State) R rq o p, g { S with reqs := R, request := rq, out := o, phase := p } = g S)
    (size : Nat) (q : Rid) (evs : List Ev) (S : State) : g (apply size q evs S).s = g S :=
  apply_ind size q (fun T _ => g T = g S) (fun T _ _ h => (hg T _ T.request T.out T.phase).trans h) (fun T _ _ h => (settle_keeps g hg size q true _ none T).trans h) evs S [] rfl

theorem apply_phase (size : Nat) (q : Rid) (evs : List Ev) (S : State) (h : (apply size q evs S).s.phase = .ready) :
    S.phase = .ready ∧ (apply size q evs S).s.request = S.request := by
  have hset : ∀ (st : Option Nat) (T : State), (settle size q true st none T).s.phase = .ready → T.phase = .ready ∧ (settle size q true st none T).s.request = T.request := by
    intro st T
    unfold settle
    cases st with
    | none => exact fun h => ⟨h, rfl⟩
    | some n =>
      dsimp only
      split
      · split
        · unfold continueBody
          split
          · intro h; cases h
          · exact fun h => ⟨h, rfl⟩
        · exact fun h => ⟨h, rfl⟩
      · split
        · split
          · split
            · exact fun h => ⟨h, rfl⟩
            · split
              · exact fun h => ⟨h, rfl⟩
              · unfold Out.andThen
                dsimp only
                unfold requestDisconnect
                split
                · exact fun h => ⟨h, rfl⟩
                · intro h; cases h
          · exact fun h => ⟨h, rfl⟩
        · exact fun h => ⟨h, rfl⟩
  refine apply_ind size q (fun T _ => T.phase = .ready → S.phase = .ready ∧ T.request = S.request) (fun _ _ _ h => h) ?_ evs S [] (fun h => ⟨h, rfl⟩) h
  intro T _ n h hr
  obtain ⟨h1, h2⟩ := hset _ T hr
  obtain ⟨h3, h4⟩ := h h1
  exact ⟨h3, h2.trans h4⟩

/-! ## Waiting for `100 Continue` -/

/-- Nothing has released the body of the request. -/
def Clean (q : Rid) (s : List Obs) : Prop :=
  ∀ x ∈ s, x ≠ .closed ∧ (∀ p, x ≠ .started p) ∧ x ≠ .timeout ∧ ∀ n e d, 100 ≤ n ∧ n ≤ 199 → x ≠ .answered q true (some n) e d

/-- The body of a request that expects `100 Continue` is held. -/
def Held (es : List Event) (tr : List Obs) (S : State) : Prop :=
  ∀ s1 q s2, tr = s1 ++ .started q :: s2 → Clean q s2 → ∀ a, (asked es)[q]? = some a → a.expect = true → ∃ h, a.head = .ok h ∧
    ((S.phase = .waiting ∧ S.request = some q ∧ wire s2 ++ S.out.flatten = h) ∨
     (S.out = [] ∧ S.request = none ∧ (S.phase = .waiting ∨ S.phase = .closeWait) ∧ ∃ rest, wire s2 ++ rest = h))

/-- The bytes that were sent since a request was started are from its head. -/
def HeadOnly (es : List Event) (tr : List Obs) : Prop :=
  ∀ s1 q s2 s3, tr = s1 ++ .started q :: s2 ++ s3 → Clean q s2 → ∀ a, (asked es)[q]? = some a → a.expect = true → ∃ h, a.head = .ok h ∧
    ∃ rest, wire s2 ++ rest = h

/-- Where a request was started, if nothing was started since. -/
theorem started_split {tr o s1 s2 : List Obs} {q : Rid} (h : tr ++ o = s1 ++ .started q :: s2) (ho : begun o = []) :
    ∃ s2', tr = s1 ++ .started q :: s2' ∧ s2 = s2' ++ o := by
  rcases List.append_eq_append_iff.mp h with ⟨as, h1, h2⟩ | ⟨bs, h1, h2⟩
  · exfalso
    rw [h2, begun_append] at ho
    have := congrArg List.length ho
    simp [begun] at this
  · cases bs with
    | nil =>
      exfalso
      rw [List.nil_append] at h2
      rw [← h2] at ho
      cases ho
    | cons b bs =>
      injection h2 with h2 h3
      subst h2
      exact ⟨bs, h1, h3⟩

theorem Clean.left {q : Rid} {a b : List Obs} (h : Clean q (a ++ b)) : Clean q a := fun x hx => h x (List.mem_append_left _ hx)

theorem Held.keep {es : List Event} {tr o : List Obs} {S S' : State} (h : Held es tr S) (ho : begun o = []) (hw : wire o = [])
    (h1 : S'.phase = S.phase) (h2 : S'.request = S.request) (h3 : S'.out = S.out) : Held es (tr ++ o) S' := by
  intro s1 q s2 he hc a ha hx
  obtain ⟨s2', e1, e2⟩ := started_split he ho
  subst e2
  obtain ⟨g, hg, hh⟩ := h s1 q s2' e1 hc.left a ha hx
  refine ⟨g, hg, ?_⟩
  rw [h1, h2, h3, wire_append, hw, List.append_nil]
  exact hh

/-- Nothing more of the request is sent. -/
theorem Held.dropped {es : List Event} {tr o : List Obs} {S S' : State} (h : Held es tr S) (ho : begun o = []) (hw : wire o = [])
    (h1 : S.phase = .waiting ∨ S.phase = .closeWait → S'.phase = .waiting ∨ S'.phase = .closeWait) (h2 : S'.request = none) (h3 : S'.out = []) : Held es (tr ++ o) S' := by
  intro s1 q s2 he hc a ha hx
  obtain ⟨s2', e1, e2⟩ := started_split he ho
  subst e2
  obtain ⟨g, hg, hh⟩ := h s1 q s2' e1 hc.left a ha hx
  refine ⟨g, hg, .inr ⟨h3, h2, ?_, ?_⟩⟩
  · rcases hh with hh | hh
    · exact h1 (.inl hh.1)
    · exact h1 hh.2.2.1
  · rw [wire_append, hw, List.append_nil]
    rcases hh with hh | hh
    · exact ⟨_, hh.2.2⟩
    · exact hh.2.2.2

/-- What a settled response does to the request that is being sent. -/
theorem settle_held (size : Nat) (q : Rid) (st : Option Nat) (S : State) (hl : (S.reqs q).connected = true → S.request = some q) :
    ((settle size q true st none S).s.phase = S.phase ∧ (settle size q true st none S).s.request = S.request ∧ (settle size q true st none S).s.out = S.out) ∨
    (S.request = some q ∧ ∃ n d, (100 ≤ n ∧ n ≤ 199) ∧ .answered q true (some n) none d ∈ (settle size q true st none S).obs) ∨
    ((settle size q true st none S).s.phase = .closeWait ∧ (settle size q true st none S).s.request = none ∧ (settle size q true st none S).s.out = []) := by
  unfold settle
  cases st with
  | none => exact .inl ⟨rfl, rfl, rfl⟩
  | some n =>
    dsimp only
    split
    · next hi =>
      split
      · unfold continueBody
        split
        · next hc =>
          refine .inr (.inl ⟨hc.1, n, _, ?_, List.mem_singleton.mpr rfl⟩)
          simpa [informational] using hi
        · exact .inl ⟨rfl, rfl, rfl⟩
      · exact .inl ⟨rfl, rfl, rfl⟩
    · split
      · next hcn =>
        split
        · split
          · exact .inl ⟨rfl, rfl, rfl⟩
          · split
            · exact .inl ⟨rfl, rfl, rfl⟩
            · refine .inr (.inr ?_)
              unfold Out.andThen
              dsimp only
              unfold requestDisconnect
              split
              · next hr =>
                have := hl hcn
                rw [show S.request = none from hr] at this
                cases this
              · exact ⟨rfl, rfl, rfl⟩
        · exact .inl ⟨rfl, rfl, rfl⟩
      · exact .inl ⟨rfl, rfl, rfl⟩

theorem held_apply {size : Nat} {es : List Event} {tr : List Obs} {S : State} {q : Rid} {r : Resp} (evs : List Ev) (hB : Base S)
    (h : Held es tr S) (hr : S.response = some (q, r)) : Held es (tr ++ (apply size q evs S).obs) (apply size q evs S).s := by
  have key := apply_ind size q (fun T o => ((Base T ∧ T.response = some (q, r)) ∧ Inert o) ∧ Held es (tr ++ o) T) ?_ ?_ evs S [] ⟨⟨⟨hB, hr⟩, Inert.nil⟩, by rwa [List.append_nil]⟩
  · exact key.2
  · intro T o d ⟨⟨⟨hB, hr⟩, ho⟩, h⟩
    refine ⟨⟨⟨(base_apply (size := size) [.data d] hB (.inl ⟨r, hr⟩)).1, hr⟩, ho⟩, ?_⟩
    have := h.keep (o := []) (S' := setReq T q fun r => { r with buffer := r.buffer ++ d }) rfl rfl rfl rfl rfl
    rwa [List.append_nil] at this
  · intro T o n ⟨⟨⟨hB, hr⟩, ho⟩, h⟩
    have hs := settle_spec size q true (lastStatus T q (some n)) none T (fun hc => hB.linked q (.inl ⟨r, hr⟩) hc)
    have hin := settle_inert size q true (lastStatus T q (some n)) none T
    refine ⟨⟨⟨base_settled hB hs, (settled_awaited hs).1.trans hr⟩, ho.append hin⟩, ?_⟩
    rw [← List.append_assoc]
    rcases settle_held size q (lastStatus T q (some n)) T (fun hc => hB.linked q (.inl ⟨r, hr⟩) hc) with ⟨h1, h2, h3⟩ | ⟨h1, k, d, hk, hm⟩ | ⟨h1, h2, h3⟩
    · exact h.keep hin.begun hin.wire h1 h2 h3
    · intro s1 p s2 he hc a ha hx
      obtain ⟨s2', e1, e2⟩ := started_split he hin.begun
      subst e2
      obtain ⟨g, hg, hh⟩ := h s1 p s2' e1 hc.left a ha hx
      rcases hh with hh | hh
      · rw [h1] at hh
        have hpq := Option.some.inj hh.2.1
        subst hpq
        exact absurd rfl ((hc _ (List.mem_append_right _ hm)).2.2.2 k none d hk)
      · rw [h1] at hh
        cases hh.2.1
    · exact h.dropped hin.begun hin.wire (fun _ => .inr h1) h2 h3

theorem held_micro {size : Nat} {es : List Event} {tr o : List Obs} {S S' : State} (hW : Whole size es tr S) (h : Held es tr S)
    (hm : Micro size S o S') : Held es (tr ++ o) S' := by
  have hF := hW.facts
  have away : ∀ {S' : State} {o : List Obs}, begun o = [] → S.phase ≠ .waiting → S.phase ≠ .closeWait → Held es (tr ++ o) S' := by
    intro S' o ho h1 h2 s1 q s2 he hc a ha hx
    obtain ⟨s2', e1, e2⟩ := started_split he ho
    subst e2
    obtain ⟨g, hg, hh⟩ := h s1 q s2' e1 hc.left a ha hx
    rcases hh with hh | hh
    · exact absurd hh.1 h1
    · rcases hh.2.2.1 with hh | hh
      · exact absurd hh h1
      · exact absurd hh h2
  cases hm with
  | start q qs hq hp =>
    obtain ⟨h1, _⟩ := facts_start hF hq hp
    rw [if_pos h1]
    cases hd : (S.reqs q).head with
    | error e =>
      have hso : (start q { S with queue := qs }).obs = [] := by
        unfold start
        dsimp only
        rw [hd]
      rw [hso]
      exact away rfl (by rw [hp]; simp) (by rw [hp]; simp)
    | ok g =>
      have hso : (start q { S with queue := qs }).obs = [.started q] := by
        unfold start
        dsimp only
        rw [hd]
      have hsu : (start q { S with queue := qs }).s.out = S.out ++ [g] := by
        unfold start
        dsimp only
        rw [hd]
      have hsp : (start q { S with queue := qs }).s.phase = if (S.reqs q).expect then .waiting else .sending := by
        unfold start
        dsimp only
        rw [hd]
      have hsr : (start q { S with queue := qs }).s.request = some q := by
        unfold start
        dsimp only
        rw [hd]
      rw [hso]
      intro s1 p s2 he hc a ha hx
      have hlast : s2 = [] ∧ p = q := by
        rcases List.eq_nil_or_concat s2 with rfl | ⟨s, x, rfl⟩
        · have := List.append_inj_right' he rfl
          cases this
          exact ⟨rfl, rfl⟩
        · rw [List.concat_eq_append] at he hc
          rw [← List.cons_append, ← List.append_assoc] at he
          have := List.append_inj_right' he rfl
          cases this
          exact absurd rfl ((hc (.started q) (by simp)).2.1 q)
      obtain ⟨rfl, rfl⟩ := hlast
      obtain ⟨b1, b2, b3⟩ := hF.static p a ha
      refine ⟨g, b2.symm.trans hd, .inl ⟨?_, hsr, ?_⟩⟩
      · rw [hsp, b3, hx]; rfl
      · obtain ⟨_, _, _, _, c3, _⟩ := hW.wired
        rw [hsu, (c3 hp).1]
        simp [wire]
  | opened => exact h.keep rfl rfl rfl rfl rfl
  | empty ds ho =>
    intro s1 q s2 he hc a ha hx
    obtain ⟨s2', e1, e2⟩ := started_split he rfl
    subst e2
    obtain ⟨g, hg, hh⟩ := h s1 q s2' e1 hc.left a ha hx
    refine ⟨g, hg, ?_⟩
    rw [ho] at hh
    rcases hh with hh | hh
    · exact .inl ⟨hh.1, hh.2.1, by rw [List.append_nil]; exact hh.2.2⟩
    · cases hh.1
  | zero p hn hr =>
    obtain ⟨R', a1, a2, a3, a4, _⟩ := disconnect_spec p S
    rw [a1]
    exact h.dropped (finished_inert a4).begun (finished_inert a4).wire id rfl rfl
  | some d ds n ho _ _ =>
    intro s1 q s2 he hc a ha hx
    obtain ⟨s2', e1, e2⟩ := started_split he rfl
    subst e2
    obtain ⟨g, hg, hh⟩ := h s1 q s2' e1 hc.left a ha hx
    refine ⟨g, hg, ?_⟩
    rw [ho] at hh
    rcases hh with hh | hh
    · refine .inl ⟨hh.1, hh.2.1, ?_⟩
      rw [← hh.2.2, wire_append]
      simp only [List.flatten_cons, wire, List.flatMap_cons, List.flatMap_nil, List.append_nil, List.append_assoc]
      rw [← List.append_assoc (d.take n), List.take_append_drop]
    · cases hh.1
  | all d ds ho =>
    intro s1 q s2 he hc a ha hx
    obtain ⟨s2', e1, e2⟩ := started_split he rfl
    subst e2
    obtain ⟨g, hg, hh⟩ := h s1 q s2' e1 hc.left a ha hx
    refine ⟨g, hg, ?_⟩
    rw [ho] at hh
    rcases hh with hh | hh
    · refine .inl ⟨hh.1, hh.2.1, ?_⟩
      rw [← hh.2.2, wire_append]
      simp only [List.flatten_cons, wire, List.flatMap_cons, List.flatMap_nil, List.append_nil, List.append_assoc]
    · cases hh.1
  | since => exact h.keep rfl rfl rfl rfl rfl
  | timeout ho hp =>
    intro s1 q s2 he hc a ha hx
    obtain ⟨s2', e1, e2⟩ := started_split he rfl
    subst e2
    exact absurd rfl (hc .timeout (by simp)).2.2.1
  | refill q d b ho hp hr hb hd => exact away rfl (by rw [hp]; simp) (by rw [hp]; simp)
  | exhaust q b ho hp hr hb =>
    obtain ⟨R', a1, a2, a3, a4, _⟩ := disconnect_spec q (setReq S q fun r => { r with body := b })
    exact away (finished_inert a4).begun (by rw [hp]; simp) (by rw [hp]; simp)
  | close e =>
    obtain ⟨R', os, h1, h2, h3, h4, _⟩ := close_spec size e S hF.base
    rw [h2]
    intro s1 q s2 he hc a ha hx
    have hb : begun (os ++ [.closed]) = [] := by rw [begun_append, h3.inert.begun]; rfl
    obtain ⟨s2', e1, e2⟩ := started_split he hb
    subst e2
    exact absurd rfl (hc .closed (by simp)).1
  | arrive => exact h.keep rfl rfl rfl rfl rfl
  | round q r r' b' last last' evs hr _ =>
    have h' : Held es tr { S with response := some (q, r'), buf := b' } := by
      have := h.keep (o := []) (S' := { S with response := some (q, r'), buf := b' }) rfl rfl rfl rfl rfl
      rwa [List.append_nil] at this
    exact held_apply evs (facts_round hF hr).base h' rfl
  | next => exact h.keep rfl rfl rfl rfl rfl
  | last => exact h.keep rfl rfl rfl rfl rfl
  | idle => exact h.keep rfl rfl rfl rfl rfl
  | raised => exact h.keep rfl rfl rfl rfl rfl

/-- Only single observations show bytes that are sent or requests that are started. -/
theorem micro_short {size : Nat} {S S' : State} {o : List Obs} (hB : Base S) (hm : Micro size S o S') :
    (begun o = [] ∧ wire o = []) ∨ ∃ x, o = [x] := by
  cases hm with
  | start q qs hq hp =>
    unfold start
    dsimp only
    split
    · exact .inl ⟨rfl, rfl⟩
    · exact .inr ⟨_, rfl⟩
  | close e =>
    obtain ⟨R', os, h1, h2, h3, h4, _⟩ := close_spec size e S hB
    rw [h2]
    refine .inl ⟨?_, ?_⟩
    · rw [begun_append, h3.inert.begun]; rfl
    · rw [wire_append, h3.inert.wire]; rfl
  | zero p _ _ =>
    obtain ⟨_, a1, _, _, a4, _⟩ := disconnect_spec p S
    exact .inl ⟨(finished_inert a4).begun, (finished_inert a4).wire⟩
  | exhaust q b =>
    obtain ⟨_, a1, _, _, a4, _⟩ := disconnect_spec q (setReq S q fun r => { r with body := b })
    exact .inl ⟨(finished_inert a4).begun, (finished_inert a4).wire⟩
  | round q r r' b' _ _ evs hr => exact .inl ⟨(apply_inert size q evs _).begun, (apply_inert size q evs _).wire⟩
  | empty | since | refill | next | last => exact .inl ⟨rfl, rfl⟩
  | opened | some | all | timeout | arrive | idle | raised => exact .inr ⟨_, rfl⟩

theorem headOnly_micro {size : Nat} {es : List Event} {tr o : List Obs} {S S' : State} (hW : Whole size es tr S) (h : Held es tr S)
    (hh : HeadOnly es tr) (hm : Micro size S o S') : HeadOnly es (tr ++ o) := by
  have h' := held_micro hW h hm
  intro s1 q s2 s3 he hc a ha hx
  rcases List.append_eq_append_iff.mp he with ⟨as, e1, e2⟩ | ⟨bs, e1, e2⟩
  · -- the part ends within what is new
    rcases micro_short hW.facts.base hm with ⟨m1, m2⟩ | ⟨x, rfl⟩
    · have n1 : begun as = [] := by
        rw [e2, begun_append] at m1
        exact (List.append_eq_nil_iff.mp m1).1
      have n2 : wire as = [] := by
        rw [e2, wire_append] at m2
        exact (List.append_eq_nil_iff.mp m2).1
      obtain ⟨s2', f1, f2⟩ := started_split e1.symm n1
      subst f2
      obtain ⟨g, g1, g2⟩ := hh s1 q s2' [] (by rw [List.append_nil]; exact f1) hc.left a ha hx
      exact ⟨g, g1, by rw [wire_append, n2, List.append_nil]; exact g2⟩
    · cases as with
      | nil =>
        rw [List.append_nil] at e1
        exact hh s1 q s2 [] (by rw [List.append_nil]; exact e1.symm) hc a ha hx
      | cons y ys =>
        injection e2 with e2 e3
        obtain ⟨rfl, rfl⟩ := List.append_eq_nil_iff.mp e3.symm
        subst e2
        obtain ⟨g, g1, g2⟩ := h' s1 q s2 e1.symm hc a ha hx
        refine ⟨g, g1, ?_⟩
        rcases g2 with g2 | g2
        · exact ⟨_, g2.2.2⟩
        · exact g2.2.2.2
  · exact hh s1 q s2 bs e1 hc a ha hx

end Verif.Http.Conn
