import Verif.Lemmas.HttpConnectionBase
import Verif.Spec.HttpConnection

/-! The order of requests and responses on a connection. -/

namespace Verif.Http.Conn

open Verif Msg Spec.HttpConnection

/-- Neither the end of closing, nor a request that is started, nor bytes that are sent or received. -/
def Inert (os : List Obs) : Prop :=
  ∀ o ∈ os, (∀ q, o ≠ .started q) ∧ (∀ d, o ≠ .sent d) ∧ (∀ d, o ≠ .received d) ∧ o ≠ .closed

theorem Inert.append {a b : List Obs} (ha : Inert a) (hb : Inert b) : Inert (a ++ b) := fun o ho =>
  (List.mem_append.mp ho).elim (ha o) (hb o)

theorem Inert.nil : Inert [] := fun _ h => nomatch h

theorem Quiet.inert {os : List Obs} (h : Quiet os) : Inert os := by
  intro o ho
  rcases h o ho with ⟨_, _, _, _, rfl⟩ | ⟨_, _, _, _, rfl⟩ <;> simp

theorem Quiet.told {os : List Obs} (h : Quiet os) : told os = [] := by
  induction os with
  | nil => rfl
  | cons o os ih =>
    have h1 := h o (List.mem_cons_self ..)
    have h2 := ih fun x hx => h x (List.mem_cons_of_mem _ hx)
    unfold Spec.HttpConnection.told at h2 ⊢
    rcases h1 with ⟨_, _, _, _, rfl⟩ | ⟨_, _, _, _, rfl⟩ <;> simpa using h2

theorem begun_append (a b : List Obs) : begun (a ++ b) = begun a ++ begun b := by unfold begun; rw [List.filterMap_append]
theorem told_append (a b : List Obs) : told (a ++ b) = told a ++ told b := by unfold told; rw [List.filterMap_append]
theorem wire_append (a b : List Obs) : wire (a ++ b) = wire a ++ wire b := by unfold wire; rw [List.flatMap_append]
theorem got_append (a b : List Obs) : got (a ++ b) = got a ++ got b := by unfold got; rw [List.flatMap_append]

theorem Inert.begun {os : List Obs} (h : Inert os) : begun os = [] := by
  unfold Spec.HttpConnection.begun
  rw [List.filterMap_eq_nil_iff]
  intro o ho
  have := h o ho
  cases o <;> simp_all

theorem Inert.wire {os : List Obs} (h : Inert os) : wire os = [] := by
  unfold Spec.HttpConnection.wire
  rw [List.flatMap_eq_nil_iff]
  intro o ho
  have := h o ho
  cases o <;> simp_all

theorem Inert.got {os : List Obs} (h : Inert os) : got os = [] := by
  unfold Spec.HttpConnection.got
  rw [List.flatMap_eq_nil_iff]
  intro o ho
  have := h o ho
  cases o <;> simp_all

theorem cuts_append {a : List Obs} : ∀ {b : List Obs}, (∀ o ∈ b, o ≠ .closed) → cuts (a ++ b) = ((cuts a).1, (cuts a).2 ++ b) := by
  intro b
  induction b generalizing a with
  | nil => intro _; simp
  | cons o b ih =>
    intro h
    have h1 : cuts (a ++ [o]) = ((cuts a).1, (cuts a).2 ++ [o]) := by
      unfold cuts
      rw [List.foldl_append, List.foldl_cons, List.foldl_nil]
      have := h o (List.mem_cons_self ..)
      cases o <;> first | rfl | exact absurd rfl this
    rw [show a ++ o :: b = (a ++ [o]) ++ b by simp, ih (fun x hx => h x (List.mem_cons_of_mem _ hx)), h1]
    simp

theorem cuts_closed (a : List Obs) : cuts (a ++ [.closed]) = ((cuts a).1 ++ [(cuts a).2], []) := by
  unfold cuts
  rw [List.foldl_append, List.foldl_cons, List.foldl_nil]

theorem Inert.cuts {a b : List Obs} (h : Inert b) : cuts (a ++ b) = ((cuts a).1, (cuts a).2 ++ b) :=
  cuts_append fun o ho => (h o ho).2.2.2

theorem asked_append (a b : List Event) : asked (a ++ b) = asked a ++ asked b := by unfold asked; rw [List.filterMap_append]

/-- The responses that are awaited, in order. -/
def pending (S : State) : List Rid :=
  match S.response with
  | none => []
  | some x => x.1 :: S.responses

theorem mem_pending {S : State} (hB : Base S) {q : Rid} : q ∈ pending S ↔ Awaited S q := by
  unfold pending Awaited
  cases hr : S.response with
  | none =>
    rw [hB.first hr]
    simp
  | some x =>
    constructor
    · intro h
      rcases List.mem_cons.mp h with rfl | h
      · exact .inl ⟨x.2, rfl⟩
      · exact .inr h
    · rintro (⟨r, h⟩ | h)
      · cases h; simp
      · exact List.mem_cons_of_mem _ h

/-- What holds in every polite history. -/
structure Facts (es : List Event) (tr : List Obs) (S : State) : Prop where
  base : Base S
  len : S.next = (asked es).length
  static : ∀ q a, (asked es)[q]? = some a → (S.reqs q).method = a.method ∧ (S.reqs q).head = a.head ∧ (S.reqs q).expect = a.expect
  unread : ∀ q ∈ S.queue, ∀ a, (asked es)[q]? = some a → (S.reqs q).body = a.body
  untold : ∀ q, q ∈ S.queue ∨ q ∈ S.responses → (S.reqs q).buffer = []
  sorted : (begun tr ++ S.queue).Pairwise (· < ·)
  apart : ∀ q, S.request = some q → q ∉ S.queue
  polite : ∀ q qs, S.queue = q :: qs → (∀ p ∈ qs, idempotent (S.reqs p).method = true) ∧ (idempotent (S.reqs q).method = false → S.response = none)
  pipe : ∃ dn, begun (cuts tr).2 = dn ++ pending S
  part : ∃ before, begun tr = before ++ begun (cuts tr).2

theorem Facts.awaited {es : List Event} {tr : List Obs} {S : State} (h : Facts es tr S) {q : Rid} (hq : Awaited S q) : q ∈ begun tr := by
  obtain ⟨dn, h1⟩ := h.pipe
  obtain ⟨bf, h2⟩ := h.part
  rw [h2, h1]
  simp [(mem_pending h.base).mpr hq]

theorem Facts.not_queued {es : List Event} {tr : List Obs} {S : State} (h : Facts es tr S) {q : Rid} (hq : q ∈ begun tr) : q ∉ S.queue := by
  intro hq'
  exact absurd ((List.pairwise_append.mp h.sorted).2.2 q hq q hq') (Nat.lt_irrefl _)

theorem Facts.first_only {es : List Event} {tr : List Obs} {S : State} (h : Facts es tr S) {q : Rid} {r : Resp}
    (hr : S.response = some (q, r)) : q ∉ S.responses := by
  intro hq
  obtain ⟨dn, h1⟩ := h.pipe
  obtain ⟨bf, h2⟩ := h.part
  have h3 := (List.pairwise_append.mp h.sorted).1
  rw [h2, h1, show pending S = q :: S.responses by unfold pending; rw [hr]] at h3
  have h4 := (List.pairwise_append.mp (List.pairwise_append.mp h3).2.1).2.1
  exact absurd ((List.pairwise_cons.mp h4).1 q hq) (Nat.lt_irrefl _)

theorem Facts.still {es : List Event} {tr o : List Obs} {S : State} (h : Facts es tr S) (ho : begun o = []) (hn : ∀ x ∈ o, x ≠ .closed) :
    Facts es (tr ++ o) S := by
  have hb : begun (tr ++ o) = begun tr := by rw [begun_append, ho, List.append_nil]
  have hc : begun (cuts (tr ++ o)).2 = begun (cuts tr).2 := by rw [cuts_append hn, begun_append, ho, List.append_nil]
  exact ⟨h.base, h.len, h.static, h.unread, h.untold, by rw [hb]; exact h.sorted, h.apart, h.polite, by rw [hc]; exact h.pipe,
    by rw [hb, hc]; exact h.part⟩

theorem Facts.inert {es : List Event} {tr o : List Obs} {S : State} (h : Facts es tr S) (ho : Inert o) : Facts es (tr ++ o) S :=
  h.still ho.begun fun x hx => (ho x hx).2.2.2

/-- A change of members that do not matter. -/
theorem Facts.of_same {es : List Event} {tr : List Obs} {S S' : State} (h : Facts es tr S) (hb : Base S') (h1 : S'.response = S.response)
    (h2 : S'.responses = S.responses) (h3 : S'.request = S.request ∨ S'.request = none) (h5 : S'.queue = S.queue) (h6 : S'.next = S.next)
    (hs : Same S.reqs S'.reqs) (hu : ∀ q ∈ S.queue, (S'.reqs q).body = (S.reqs q).body)
    (ht : ∀ q, q ∈ S.queue ∨ q ∈ S.responses → (S'.reqs q).buffer = (S.reqs q).buffer) : Facts es tr S' := by
  refine ⟨hb, h6.trans h.len, fun q a ha => ?_, fun q hq a ha => ?_, fun q hq => ?_, by rw [h5]; exact h.sorted, fun q hq => ?_, fun q qs hq => ?_, ?_, h.part⟩
  · obtain ⟨a1, a2, a3⟩ := h.static q a ha
    exact ⟨(hs q).1.trans a1, (hs q).2.1.trans a2, (hs q).2.2.trans a3⟩
  · rw [h5] at hq
    rw [hu q hq]
    exact h.unread q hq a ha
  · rw [h5, h2] at hq
    rw [ht q hq]
    exact h.untold q hq
  · rw [h5]
    rcases h3 with h3 | h3
    · exact h.apart q (h3.symm.trans hq)
    · rw [h3] at hq; cases hq
  · rw [h5] at hq
    obtain ⟨a1, a2⟩ := h.polite q qs hq
    exact ⟨fun p hp => by rw [(hs p).1]; exact a1 p hp, fun hi => by rw [(hs q).1] at hi; exact h1.trans (a2 hi)⟩
  · have : pending S' = pending S := by unfold pending; rw [h1, h2]
    rw [this]
    exact h.pipe

theorem facts_settled {size : Nat} {es : List Event} {tr o : List Obs} {S S' : State} {q : Rid} {r : Resp} (h : Facts es tr S)
    (hr : S.response = some (q, r)) (hs : Settled size q S S' o) : Facts es tr S' := by
  have hb := base_settled h.base hs
  have haw : Awaited S q := .inl ⟨r, hr⟩
  have hnq : ∀ p ∈ S.queue, p ≠ q := fun p hp hpq => h.not_queued (h.awaited haw) (hpq ▸ hp)
  have hnr : ∀ p, p ∈ S.queue ∨ p ∈ S.responses → p ≠ q := by
    intro p hp hpq
    subst hpq
    rcases hp with hp | hp
    · exact hnq p hp rfl
    · exact h.first_only hr hp
  cases hs with
  | plain R' _ hc hk => exact h.of_same hb rfl rfl (.inl rfl) rfl rfl hc.same (fun p _ => hc.body p) (fun p hp => (hc.other p (hnr p hp)).1)
  | goOn R' _ hc hk _ _ => exact h.of_same hb rfl rfl (.inl rfl) rfl rfl hc.same (fun p _ => hc.body p) (fun p hp => (hc.other p (hnr p hp)).1)
  | read R' _ b hs _ _ _ hbd hbf =>
    exact h.of_same hb rfl rfl (.inl rfl) rfl rfl hs (fun p hp => by rw [hbd p, if_neg (hnq p hp)]) (fun p hp => hbf p (hnr p hp))
  | refused R' _ hs _ _ _ _ hbd hbf =>
    exact h.of_same hb rfl rfl (.inr rfl) rfl rfl hs (fun p hp => hbd p (hnq p hp)) (fun p hp => hbf p (hnr p hp))

theorem finished_inert {os : List Obs} {q : Rid} (h : ∀ o ∈ os, ∃ st e d, o = .finished q st e d) : Inert os := by
  intro o ho
  obtain ⟨_, _, _, rfl⟩ := h o ho
  simp

theorem settle_inert (size : Nat) (q : Rid) (w : Bool) (st : Option Nat) (e : Option Cause) (S : State) : Inert (settle size q w st e S).obs := by
  have key : ∀ {o : Obs}, (∃ p w st e d, o = .answered p w st e d) ∨ (∃ p st e d, o = .finished p st e d) →
      (∀ q, o ≠ .started q) ∧ (∀ d, o ≠ .sent d) ∧ (∀ d, o ≠ .received d) ∧ o ≠ .closed := by
    rintro o (⟨_, _, _, _, _, rfl⟩ | ⟨_, _, _, _, rfl⟩) <;> simp
  have hdis : ∀ T : State, ∀ o ∈ (requestDisconnect T).obs, ∃ p st e d, o = .finished p st e d := by
    intro T o ho
    unfold requestDisconnect at ho
    split at ho
    · cases ho
    · next p _ =>
      obtain ⟨R', _, _, _, a4, _⟩ := disconnect_spec p T
      obtain ⟨a, b, c, rfl⟩ := a4 o ho
      exact ⟨_, _, _, _, rfl⟩
  intro o ho
  apply key
  unfold settle at ho
  cases st with
  | none =>
    simp only [List.mem_cons, List.not_mem_nil, or_false] at ho
    rcases ho with rfl | rfl
    · exact .inl ⟨_, _, _, _, _, rfl⟩
    · exact .inr ⟨_, _, _, _, rfl⟩
  | some n =>
    dsimp only at ho
    split at ho
    · rw [List.mem_singleton] at ho; subst ho; exact .inl ⟨_, _, _, _, _, rfl⟩
    · split at ho
      · split at ho
        · split at ho
          · rw [List.mem_singleton] at ho; subst ho; exact .inl ⟨_, _, _, _, _, rfl⟩
          · split at ho
            · rw [List.mem_singleton] at ho; subst ho; exact .inl ⟨_, _, _, _, _, rfl⟩
            · unfold Out.andThen at ho
              dsimp only at ho
              rcases List.mem_append.mp ho with ho | ho
              · rw [List.mem_singleton] at ho; subst ho; exact .inl ⟨_, _, _, _, _, rfl⟩
              · exact .inr (hdis _ o ho)
        · rw [List.mem_singleton] at ho; subst ho; exact .inl ⟨_, _, _, _, _, rfl⟩
      · simp only [List.mem_cons, List.not_mem_nil, or_false] at ho
        rcases ho with rfl | rfl
        · exact .inl ⟨_, _, _, _, _, rfl⟩
        · exact .inr ⟨_, _, _, _, rfl⟩

theorem apply_inert (size : Nat) (q : Rid) (evs : List Ev) (S : State) : Inert (apply size q evs S).obs :=
  apply_ind size q (fun _ o => Inert o) (fun _ _ _ h => h) (fun S _ n h => h.append (settle_inert size q true (lastStatus S q (some n)) none S)) evs S [] Inert.nil

theorem facts_apply {size : Nat} {es : List Event} {tr : List Obs} {S : State} {q : Rid} {r : Resp} (evs : List Ev) (h : Facts es tr S)
    (hr : S.response = some (q, r)) : Facts es tr (apply size q evs S).s := by
  refine (apply_ind size q (fun T _ => Facts es tr T ∧ T.response = some (q, r)) ?_ ?_ evs S [] ⟨h, hr⟩).1
  · intro T _ d ⟨h, hr⟩
    refine ⟨h.of_same ?_ rfl rfl (.inl rfl) rfl rfl (fun p => ?_) (fun p _ => setReq_keep T q _ Req.body rfl p) fun p hp => ?_, hr⟩
    · exact (base_apply (size := size) [.data d] h.base (.inl ⟨r, hr⟩)).1
    · exact ⟨setReq_keep T q (fun r => { r with buffer := r.buffer ++ d }) Req.method rfl p,
        setReq_keep T q (fun r => { r with buffer := r.buffer ++ d }) Req.head rfl p,
        setReq_keep T q (fun r => { r with buffer := r.buffer ++ d }) Req.expect rfl p⟩
    · rw [setReq_reqs, if_neg]
      rintro rfl
      rcases hp with hp | hp
      · exact h.not_queued (h.awaited (.inl ⟨r, hr⟩)) hp
      · exact h.first_only hr hp
  · intro T _ n ⟨h, hr⟩
    have hs := settle_spec size q true (lastStatus T q (some n)) none T (fun hc => h.base.linked q (.inl ⟨r, hr⟩) hc)
    exact ⟨facts_settled h hr hs, (settled_awaited hs).1.trans hr⟩

theorem facts_start {es : List Event} {tr : List Obs} {S : State} (h : Facts es tr S) {q : Rid} {qs : List Rid}
    (hq : S.queue = q :: qs) (hp : S.phase = .ready) :
    (S.response.isNone ∨ idempotent (S.reqs q).method) ∧
    Facts es (tr ++ (start q { S with queue := qs }).obs) (start q { S with queue := qs }).s := by
  have hB : Base (start q { S with queue := qs }).s :=
    base_start h.base hq hp rfl rfl rfl rfl (fun p hp' => by rw [hq]; exact List.mem_cons_of_mem _ hp') rfl
  constructor
  · cases hi : idempotent (S.reqs q).method with
    | true => exact .inr rfl
    | false => exact .inl (by rw [(h.polite q qs hq).2 hi]; rfl)
  have hqs : q ∉ qs := by
    have := (List.pairwise_append.mp h.sorted).2.1
    rw [hq] at this
    intro hm
    exact absurd ((List.pairwise_cons.mp this).1 q hm) (Nat.lt_irrefl _)
  have hkeep : ∀ {α : Type} (g : Req → α), (∀ r : Req, g { r with connected := true } = g r) → ∀ p,
      g ((setReq { S with queue := qs } q fun r => { r with connected := true }).reqs p) = g (S.reqs p) := fun g hg p =>
    setReq_keep { S with queue := qs } q _ g (hg _) p
  have hpol : ∀ p ps, qs = p :: ps → (∀ t ∈ ps, idempotent ((setReq { S with queue := qs } q fun r => { r with connected := true }).reqs t).method = true) ∧
      idempotent ((setReq { S with queue := qs } q fun r => { r with connected := true }).reqs p).method = true := by
    intro p ps hps
    have := (h.polite q qs hq).1
    refine ⟨fun t ht => ?_, ?_⟩
    · rw [hkeep Req.method (fun _ => rfl)]
      exact this t (by rw [hps]; exact List.mem_cons_of_mem _ ht)
    · rw [hkeep Req.method (fun _ => rfl)]
      exact this p (by rw [hps]; simp)
  cases hd : (S.reqs q).head with
  | error e =>
    have hst : start q { S with queue := qs } = ⟨{ setReq { S with queue := qs } q (fun r => { r with connected := true }) with request := some q }, [], some e⟩ := by
      unfold start
      dsimp only
      rw [hd]
    rw [hst] at hB ⊢
    dsimp only at hB ⊢
    rw [List.append_nil]
    refine ⟨hB, h.len, fun p a ha => ?_, fun p hp' a ha => ?_, fun p hp' => ?_, ?_, ?_, fun p ps hps => ?_, h.pipe, h.part⟩
    · rw [hkeep Req.method (fun _ => rfl), hkeep Req.head (fun _ => rfl), hkeep Req.expect (fun _ => rfl)]
      exact h.static p a ha
    · rw [hkeep Req.body (fun _ => rfl)]
      exact h.unread p (by rw [hq]; exact List.mem_cons_of_mem _ hp') a ha
    · rw [hkeep Req.buffer (fun _ => rfl)]
      refine h.untold p (hp'.imp (fun hp' => ?_) id)
      rw [hq]; exact List.mem_cons_of_mem _ hp'
    · have := h.sorted
      rw [hq] at this
      exact this.sublist (List.Sublist.append_left (List.sublist_cons_self q qs) _)
    · intro p hp'
      cases hp'
      exact hqs
    · exact ⟨(hpol p ps hps).1, fun hi => by rw [(hpol p ps hps).2] at hi; cases hi⟩
  | ok g =>
    have hst : start q { S with queue := qs } = ⟨{ setReq { S with queue := qs } q (fun r => { r with connected := true }) with
        request := some q
        out := S.out ++ [g]
        phase := if (S.reqs q).expect then .waiting else .sending
        since := if (S.reqs q).expect then false else S.since
        response := match S.response with
          | none => some (q, {})
          | some x => some x
        responses := match S.response with
          | none => S.responses
          | some _ => S.responses ++ [q] }, [.started q], none⟩ := by
      unfold start
      dsimp only
      rw [hd]
      cases S.response <;> rfl
    rw [hst] at hB ⊢
    dsimp only at hB ⊢
    have hcut : cuts (tr ++ [.started q]) = ((cuts tr).1, (cuts tr).2 ++ [.started q]) := cuts_append (by simp)
    have hbt : begun (tr ++ [.started q]) = begun tr ++ [q] := by rw [begun_append]; rfl
    have hbc : begun (cuts (tr ++ [.started q])).2 = begun (cuts tr).2 ++ [q] := by rw [hcut, begun_append]; rfl
    refine ⟨hB, h.len, fun p a ha => ?_, fun p hp' a ha => ?_, fun p hp' => ?_, ?_, ?_, fun p ps hps => ?_, ?_, ?_⟩
    · rw [hkeep Req.method (fun _ => rfl), hkeep Req.head (fun _ => rfl), hkeep Req.expect (fun _ => rfl)]
      exact h.static p a ha
    · rw [hkeep Req.body (fun _ => rfl)]
      exact h.unread p (by rw [hq]; exact List.mem_cons_of_mem _ hp') a ha
    · rw [hkeep Req.buffer (fun _ => rfl)]
      rcases hp' with hp' | hp'
      · exact h.untold p (.inl (by rw [hq]; exact List.mem_cons_of_mem _ hp'))
      · dsimp only at hp'
        split at hp'
        · exact h.untold p (.inr hp')
        · rcases List.mem_append.mp hp' with hp' | hp'
          · exact h.untold p (.inr hp')
          · rw [List.mem_singleton] at hp'
            exact h.untold p (.inl (by rw [hq, hp']; simp))
    · rw [hbt]
      show (begun tr ++ [q] ++ qs).Pairwise _
      have := h.sorted
      rw [hq] at this
      rwa [List.append_assoc]
    · intro p hp'
      cases hp'
      exact hqs
    · exact ⟨(hpol p ps hps).1, fun hi => by rw [(hpol p ps hps).2] at hi; cases hi⟩
    · obtain ⟨dn, hd⟩ := h.pipe
      refine ⟨dn, ?_⟩
      rw [hbc, hd, List.append_assoc]
      congr 1
      unfold pending
      dsimp only
      cases hrs : S.response with
      | none => rw [h.base.first hrs]; rfl
      | some x => rfl
    · obtain ⟨bf, hb⟩ := h.part
      refine ⟨bf, ?_⟩
      rw [hbt, hbc, hb, List.append_assoc]

theorem facts_round {es : List Event} {tr : List Obs} {S : State} {q : Rid} {r r' : Resp} {b' : Buf} (h : Facts es tr S)
    (hr : S.response = some (q, r)) : Facts es tr { S with response := some (q, r'), buf := b' } := by
  have hB' : Base { S with response := some (q, r'), buf := b' } := by
    have hB := h.base
    have haw : ∀ t, Awaited { S with response := some (q, r'), buf := b' } t → Awaited S t := by
      intro t ht
      rcases ht with ⟨x, ht⟩ | ht
      · cases ht; exact .inl ⟨r, hr⟩
      · exact .inr ht
    exact ⟨fun t ht => hB.linked t (haw t ht), fun hp t ht => hB.ready hp t (haw t ht), (fun h => nomatch h), fun t ht => hB.heads t (haw t ht),
      fun t ht => hB.below t (ht.imp (haw t) id)⟩
  have hpd : pending { S with response := some (q, r'), buf := b' } = pending S := by unfold pending; rw [hr]
  refine ⟨hB', h.len, h.static, h.unread, h.untold, h.sorted, h.apart, fun p ps hps => ?_, by rw [hpd]; exact h.pipe, h.part⟩
  refine ⟨(h.polite p ps hps).1, fun hi => ?_⟩
  have := (h.polite p ps hps).2 hi
  rw [hr] at this
  cases this

theorem facts_micro {size : Nat} {es : List Event} {tr o : List Obs} {S S' : State} (h : Facts es tr S) (hm : Micro size S o S') :
    Facts es (tr ++ o) S' := by
  have hB := base_micro h.base hm
  have hkeep : ∀ {α : Type} (q : Rid) (b : Sending) (g : Req → α), (∀ r : Req, g { r with body := b } = g r) → ∀ p,
      g ((setReq S q fun r => { r with body := b }).reqs p) = g (S.reqs p) := fun q b g hg p => setReq_keep S q _ g (hg _) p
  cases hm with
  | start q qs hq hp =>
    obtain ⟨h1, h2⟩ := facts_start h hq hp
    rw [if_pos h1]
    exact h2
  | opened => exact (h.of_same hB rfl rfl (.inl rfl) rfl rfl (Same.refl _) (fun _ _ => rfl) (fun _ _ => rfl)).inert (fun o ho => by rw [List.mem_singleton] at ho; subst ho; simp)
  | empty => exact (h.of_same hB rfl rfl (.inl rfl) rfl rfl (Same.refl _) (fun _ _ => rfl) (fun _ _ => rfl)).inert Inert.nil
  | zero p _ hr =>
    obtain ⟨R', a1, a2, a3, a4, _⟩ := disconnect_spec p S
    refine Facts.inert ?_ (finished_inert a4)
    rw [a1] at hB ⊢
    exact h.of_same hB rfl rfl (.inr rfl) rfl rfl a2.same (fun t _ => a2.body t) (fun t _ => (a2.other t (fun h => h)).1)
  | some => exact (h.of_same hB rfl rfl (.inl rfl) rfl rfl (Same.refl _) (fun _ _ => rfl) (fun _ _ => rfl)).still rfl (by simp)
  | all => exact (h.of_same hB rfl rfl (.inl rfl) rfl rfl (Same.refl _) (fun _ _ => rfl) (fun _ _ => rfl)).still rfl (by simp)
  | since => exact (h.of_same hB rfl rfl (.inl rfl) rfl rfl (Same.refl _) (fun _ _ => rfl) (fun _ _ => rfl)).inert Inert.nil
  | timeout => exact (h.of_same hB rfl rfl (.inl rfl) rfl rfl (Same.refl _) (fun _ _ => rfl) (fun _ _ => rfl)).inert (fun o ho => by rw [List.mem_singleton] at ho; subst ho; simp)
  | refill q d b _ hp hr _ _ =>
    refine Facts.inert (h.of_same hB rfl rfl (.inl rfl) rfl rfl (fun p => ⟨hkeep q b Req.method (fun _ => rfl) p, hkeep q b Req.head (fun _ => rfl) p, hkeep q b Req.expect (fun _ => rfl) p⟩) (fun t ht => ?_) (fun t _ => hkeep q b Req.buffer (fun _ => rfl) t)) Inert.nil
    show ((setReq S q fun r => { r with body := b }).reqs t).body = _
    rw [setReq_reqs, if_neg]
    rintro rfl
    exact h.apart t hr ht
  | exhaust q b _ _ hr _ =>
    obtain ⟨R', a1, a2, a3, a4, _⟩ := disconnect_spec q (setReq S q fun r => { r with body := b })
    refine Facts.inert ?_ (finished_inert a4)
    rw [a1] at hB ⊢
    refine h.of_same hB rfl rfl (.inr rfl) rfl rfl (Same.trans (fun p => ⟨hkeep q b Req.method (fun _ => rfl) p, hkeep q b Req.head (fun _ => rfl) p, hkeep q b Req.expect (fun _ => rfl) p⟩) a2.same) (fun t ht => (a2.body t).trans ?_) (fun t _ => (a2.other t (fun h => h)).1.trans (hkeep q b Req.buffer (fun _ => rfl) t))
    rw [setReq_reqs, if_neg]
    rintro rfl
    exact h.apart t hr ht
  | close e =>
    obtain ⟨R', os, h1, h2, h3, h4, _⟩ := close_spec size e S h.base
    rw [h2, ← List.append_assoc]
    have h' := h.inert h3.inert
    rw [h1] at hB ⊢
    have hbt : begun (tr ++ os ++ [.closed]) = begun (tr ++ os) := by rw [begun_append]; simp [begun]
    have hbc : begun (cuts (tr ++ os ++ [.closed])).2 = [] := by rw [cuts_closed]; rfl
    have hna : ∀ p ∈ S.queue, ¬ Awaited S p := fun p hp ha => h.not_queued (h.awaited ha) hp
    refine ⟨hB, h.len, fun p a ha => ?_, fun p hp' a ha => ?_, fun p hp' => ?_, by rw [hbt]; exact h'.sorted, (fun _ hr => nomatch hr), fun p ps hps => ?_, ⟨[], ?_⟩, ⟨begun (tr ++ os ++ [.closed]), ?_⟩⟩
    · obtain ⟨b1, b2, b3⟩ := h.static p a ha
      exact ⟨(h4.same p).1.trans b1, (h4.same p).2.1.trans b2, (h4.same p).2.2.trans b3⟩
    · exact (h4.body p).trans (h.unread p hp' a ha)
    · rcases hp' with hp' | hp'
      · exact (h4.other p (hna p hp')).1.trans (h.untold p (.inl hp'))
      · cases hp'
    · refine ⟨fun t ht => ?_, fun _ => rfl⟩
      show idempotent (R' t).method = true
      rw [(h4.same t).1]
      exact (h.polite p ps hps).1 t ht
    · rw [hbc]; rfl
    · rw [hbc, List.append_nil]
  | arrive => exact (h.of_same hB rfl rfl (.inl rfl) rfl rfl (Same.refl _) (fun _ _ => rfl) (fun _ _ => rfl)).still rfl (by simp)
  | round q r r' b' last last' evs hr _ =>
    exact (facts_apply evs (facts_round h hr) rfl).inert (apply_inert size q evs _)
  | next q r p ps hr _ hs =>
    refine Facts.inert ⟨hB, h.len, h.static, h.unread, fun t ht => ?_, h.sorted, h.apart, fun t ts hts => ?_, ?_, h.part⟩ Inert.nil
    · exact h.untold t (ht.imp id fun ht => by rw [hs]; exact List.mem_cons_of_mem _ ht)
    · refine ⟨(h.polite t ts hts).1, fun hi => ?_⟩
      have := (h.polite t ts hts).2 hi
      rw [hr] at this
      cases this
    · obtain ⟨dn, hd⟩ := h.pipe
      refine ⟨dn ++ [q], ?_⟩
      rw [hd]
      unfold pending
      rw [hr, hs]
      simp
  | last q r hr _ hs =>
    refine Facts.inert ⟨hB, h.len, h.static, h.unread, fun t ht => ?_, h.sorted, h.apart, fun t ts hts => ?_, ?_, h.part⟩ Inert.nil
    · exact h.untold t ht
    · exact ⟨(h.polite t ts hts).1, fun _ => rfl⟩
    · obtain ⟨dn, hd⟩ := h.pipe
      refine ⟨dn ++ [q], ?_⟩
      rw [hd]
      unfold pending
      rw [hr, hs]
      simp
  | idle => exact h.inert (fun o ho => by rw [List.mem_singleton] at ho; subst ho; simp)
  | raised => exact h.inert (fun o ho => by rw [List.mem_singleton] at ho; subst ho; simp)

end Verif.Http.Conn
