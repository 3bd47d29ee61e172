import Verif.Lemmas.HttpConnectionOrder

/-! What a connection sends. -/

namespace Verif.Http.Conn

open Verif Msg Spec.HttpConnection

theorem stream_read (n : Nat) (ds : Stream) : (Stream.read n ds).1 ++ (Stream.read n ds).2.flatten = ds.flatten := by
  cases ds with
  | nil => rfl
  | cons d ds =>
    show (if d.length ≤ n then (d, ds) else (d.take n, d.drop n :: ds)).1 ++ List.flatten (if d.length ≤ n then (d, ds) else (d.take n, d.drop n :: ds)).2 = _
    split
    · rfl
    · simp only [List.flatten_cons]
      rw [← List.append_assoc, List.take_append_drop]

theorem readBody_nil {size : Nat} {s b : Sending} (h : readBody size s = .ok ([], b)) : readBody size b = .ok ([], b) := by
  have key : ∀ {b : Sending}, b.over = true → readBody size b = .ok ([], b) := by
    intro b hb
    unfold readBody
    rw [if_pos hb]
  unfold readBody at h
  split at h
  · next ho => cases h; exact key ho
  · split at h
    · split at h
      · dsimp only at h
        split at h
        · injection h with h; injection h with h _
          have := congrArg List.length h
          simp [chunk, crlfStr] at this
        · injection h with h; injection h with h _
          have := congrArg List.length h
          simp [lastChunk] at this
      · split at h
        · cases h
        · dsimp only at h
          split at h
          · split at h
            · next hx => injection h with h; injection h with h _; exact absurd h hx
            · cases h
          · cases h; exact key rfl
    · split at h
      · injection h with h; injection h with h _
        have := congrArg List.length h
        simp [lastChunk] at this
      · injection h with h; injection h with _ h; subst h; exact key rfl

/-- What is left of a body. -/
def left (s : Sending) : Nat := (match s.body with | .stream ds => ds.flatten.length | .text _ => 0) + if s.over then 0 else 1

theorem readBody_left {size : Nat} {s b : Sending} {d : Str} (h : readBody size s = .ok (d, b)) (hd : d ≠ []) : left b < left s := by
  unfold readBody at h
  split at h
  · cases h; exact absurd rfl hd
  · next ho =>
    split at h
    · next ds hb =>
      split at h
      · dsimp only at h
        have hr := congrArg List.length (stream_read size ds)
        rw [List.length_append] at hr
        split at h
        · next hx =>
          cases h
          have : (Stream.read size ds).1.length ≠ 0 := fun h => hx (List.eq_nil_of_length_eq_zero h)
          unfold left
          rw [hb]
          dsimp only
          omega
        · cases h
          unfold left
          rw [hb]
          dsimp only
          rw [if_pos rfl, if_neg ho]
          omega
      · split at h
        · cases h
        · next n _ =>
          dsimp only at h
          split at h
          · split at h
            · next hx =>
              cases h
              have hr := congrArg List.length (stream_read (min (n.toNat - s.pos) size) ds)
              rw [List.length_append] at hr
              have : (Stream.read (min (n.toNat - s.pos) size) ds).1.length ≠ 0 := fun h => hx (List.eq_nil_of_length_eq_zero h)
              unfold left
              rw [hb]
              dsimp only
              omega
            · cases h
          · cases h; exact absurd rfl hd
    · next t hb =>
      split at h
      · cases h; unfold left; rw [hb]; dsimp only; rw [if_pos rfl, if_neg ho]; omega
      · cases h; unfold left; rw [hb]; dsimp only; rw [if_pos rfl, if_neg ho]; omega

theorem reads_exists (size : Nat) (s : Sending) : ∃ t, Reads size s t := by
  have key : ∀ n (s : Sending), left s = n → ∃ t, Reads size s t := by
    intro n
    induction n using Nat.strongRecOn with
    | _ n ih =>
      intro s hs
      cases h : readBody size s with
      | error e => exact ⟨[], .fails h⟩
      | ok x =>
        obtain ⟨d, b⟩ := x
        by_cases hd : d = []
        · subst hd; exact ⟨[], .over h⟩
        · obtain ⟨t, ht⟩ := ih (left b) (hs ▸ readBody_left h hd) b rfl
          exact ⟨d ++ t, .more h hd ht⟩
  exact key _ s rfl

theorem reads_over {size : Nat} {s b : Sending} {t : Str} (h : readBody size s = .ok ([], b)) (ht : Reads size s t) : t = [] := by
  cases ht with
  | over => rfl
  | fails => rfl
  | more h' hd _ => rw [h'] at h; cases h; exact absurd rfl hd

theorem reads_more {size : Nat} {s b : Sending} {d t : Str} (h : readBody size s = .ok (d, b)) (hd : d ≠ []) (ht : Reads size s t) :
    ∃ u, t = d ++ u ∧ Reads size b u := by
  cases ht with
  | over h' => rw [h'] at h; cases h; exact absurd rfl hd
  | fails h' => rw [h'] at h; cases h
  | more h' hd' hu => rw [h'] at h; cases h; exact ⟨_, rfl, hu⟩

/-- The messages of the requests that were started in a part of a history. -/
def Sheet (size : Nat) (es : List Event) (s : List Obs) (l : List (Rid × Str)) : Prop :=
  l.map (·.1) = begun s ∧ ∀ p ∈ l, ∃ a, (asked es)[p.1]? = some a ∧ Message size a p.2

/-- What a part of a history sends is the beginning of the messages of its requests. -/
def OnWire (size : Nat) (es : List Event) (s : List Obs) : Prop :=
  ∃ l, Sheet size es s l ∧ ∃ rest, wire s ++ rest = (l.map (·.2)).flatten

/-- What is to be sent. -/
def Wired (size : Nat) (es : List Event) (tr : List Obs) (S : State) : Prop :=
  ∃ l tail, Sheet size es (cuts tr).2 l ∧ wire (cuts tr).2 ++ S.out.flatten ++ tail = (l.map (·.2)).flatten ∧
    (S.phase = .ready → S.out = [] ∧ tail = []) ∧
    (∀ q, S.request = some q → S.phase ≠ .ready → Reads size (S.reqs q).body tail)

theorem Wired.still {size : Nat} {es : List Event} {tr o : List Obs} {S : State} (h : Wired size es tr S) (ho : begun o = []) (hw : wire o = [])
    (hn : ∀ x ∈ o, x ≠ .closed) : Wired size es (tr ++ o) S := by
  obtain ⟨l, tail, ⟨h1, h2⟩, h3, h4⟩ := h
  refine ⟨l, tail, ⟨?_, h2⟩, ?_, h4⟩
  · rw [cuts_append hn, begun_append, ho, List.append_nil, h1]
  · rw [cuts_append hn, wire_append, hw, List.append_nil, h3]

theorem Wired.inert {size : Nat} {es : List Event} {tr o : List Obs} {S : State} (h : Wired size es tr S) (ho : Inert o) : Wired size es (tr ++ o) S :=
  h.still ho.begun ho.wire fun x hx => (ho x hx).2.2.2

theorem Wired.of_same {size : Nat} {es : List Event} {tr : List Obs} {S S' : State} (h : Wired size es tr S) (h1 : S'.out = S.out)
    (h2 : S'.phase = .ready → S.phase = .ready)
    (h3 : ∀ q t, S'.request = some q → S.request = some q → Reads size (S.reqs q).body t → Reads size (S'.reqs q).body t)
    (h4 : ∀ q, S'.request = some q → S'.phase ≠ .ready → S.request = some q ∧ S.phase ≠ .ready) : Wired size es tr S' := by
  obtain ⟨l, tail, a1, a2, a3, a4⟩ := h
  refine ⟨l, tail, a1, by rw [h1]; exact a2, fun hp => by rw [h1]; exact a3 (h2 hp), fun q hq hp => ?_⟩
  obtain ⟨b1, b2⟩ := h4 q hq hp
  exact h3 q tail hq b1 (a4 q b1 b2)

/-- Nothing more of the request is sent. -/
theorem Wired.dropped {size : Nat} {es : List Event} {tr : List Obs} {S S' : State} (h : Wired size es tr S) (h1 : S'.out = [])
    (h2 : S'.phase ≠ .ready) (h3 : S'.request = none) : Wired size es tr S' := by
  obtain ⟨l, tail, a1, a2, a3, a4⟩ := h
  refine ⟨l, S.out.flatten ++ tail, a1, by rw [h1, List.flatten_nil, List.append_nil, ← a2, List.append_assoc], (fun h => absurd h h2), fun q hq => ?_⟩
  rw [h3] at hq
  cases hq

theorem wired_settled {size : Nat} {es : List Event} {tr o : List Obs} {S S' : State} {q : Rid} (h : Wired size es tr S)
    (hs : Settled size q S S' o) : Wired size es tr S' := by
  cases hs with
  | plain R' _ hc hk => exact h.of_same rfl id (fun p t _ _ ht => by rw [show (_ : Req).body = _ from hc.body p]; exact ht) (fun p hp hr => ⟨hp, hr⟩)
  | goOn R' _ hc hk hr hw =>
    exact h.of_same rfl (fun h => nomatch h) (fun p t _ _ ht => by rw [show (_ : Req).body = _ from hc.body p]; exact ht)
      (fun p hp _ => ⟨hp, by rw [hw]; simp⟩)
  | read R' _ b hs _ hb _ hbd hbf =>
    refine h.of_same rfl id (fun p t _ _ ht => ?_) (fun p hp hr => ⟨hp, hr⟩)
    show Reads size (R' p).body t
    rw [hbd p]
    split
    · next hpq =>
      subst hpq
      rw [reads_over hb ht]
      exact .over (readBody_nil hb)
    · exact ht
  | refused R' _ hs _ _ _ _ hbd hbf => exact h.dropped rfl (by simp) rfl

theorem wired_apply {size : Nat} {es : List Event} {tr : List Obs} {S : State} {q : Rid} {r : Resp} (evs : List Ev)
    (hF : Facts es tr S) (h : Wired size es tr S) (hr : S.response = some (q, r)) : Wired size es tr (apply size q evs S).s := by
  refine (apply_ind size q (fun T _ => (Base T ∧ T.response = some (q, r)) ∧ Wired size es tr T) ?_ ?_ evs S [] ⟨⟨hF.base, hr⟩, h⟩).2
  · intro T _ d ⟨⟨hB, hr⟩, h⟩
    refine ⟨⟨(base_apply (size := size) [.data d] hB (.inl ⟨r, hr⟩)).1, hr⟩, h.of_same rfl id (fun p t _ _ ht => ?_) (fun p hp hr => ⟨hp, hr⟩)⟩
    rw [setReq_keep T q _ Req.body rfl p]
    exact ht
  · intro T _ n ⟨⟨hB, hr⟩, h⟩
    have hs := settle_spec size q true (lastStatus T q (some n)) none T (fun hc => hB.linked q (.inl ⟨r, hr⟩) hc)
    exact ⟨⟨base_settled hB hs, (settled_awaited hs).1.trans hr⟩, wired_settled h hs⟩

theorem wired_micro {size : Nat} {es : List Event} {tr o : List Obs} {S S' : State} (hF : Facts es tr S) (h : Wired size es tr S)
    (hm : Micro size S o S') : Wired size es (tr ++ o) S' := by
  cases hm with
  | start q qs hq hp =>
    obtain ⟨h1, _⟩ := facts_start hF hq hp
    rw [if_pos h1]
    cases hd : (S.reqs q).head with
    | error e =>
      have hst : start q { S with queue := qs } = ⟨{ setReq { S with queue := qs } q (fun r => { r with connected := true }) with request := some q }, [], some e⟩ := by
        unfold start
        dsimp only
        rw [hd]
      rw [hst, List.append_nil]
      dsimp only
      refine h.of_same rfl id (fun p t _ hp' ht => ?_) (fun _ _ hr => absurd hp hr)
      show Reads size ((setReq { S with queue := qs } q (fun r => { r with connected := true })).reqs p).body t
      rw [setReq_keep { S with queue := qs } q (fun r => { r with connected := true }) Req.body rfl p]
      exact ht
    | ok g =>
      have hso : (start q { S with queue := qs }).obs = [.started q] := by
        unfold start
        dsimp only
        rw [hd]
      have hsb : ((start q { S with queue := qs }).s.reqs q).body = (S.reqs q).body := by
        unfold start
        dsimp only
        rw [hd]
        exact setReq_keep { S with queue := qs } q (fun r => { r with connected := true }) Req.body rfl q
      have hsu : (start q { S with queue := qs }).s.out = S.out ++ [g] := by
        unfold start
        dsimp only
        rw [hd]
      have hsp : (start q { S with queue := qs }).s.phase ≠ .ready := by
        unfold start
        dsimp only
        rw [hd]
        dsimp only
        split <;> simp
      have hsr : (start q { S with queue := qs }).s.request = some q := by
        unfold start
        dsimp only
        rw [hd]
      obtain ⟨l, tail, ⟨a0, a1⟩, a2, a3, a4⟩ := h
      obtain ⟨a5, a6⟩ := a3 hp
      obtain ⟨t, ht⟩ := reads_exists size (S.reqs q).body
      have hlt := hF.base.below q (.inr (.inl (by rw [hq]; simp)))
      rw [hF.len] at hlt
      have ha : (asked es)[q]? = some ((asked es)[q]'hlt) := List.getElem?_eq_getElem hlt
      refine ⟨l ++ [(q, g ++ t)], t, ⟨?_, fun p hp' => ?_⟩, ?_, fun h => absurd h hsp, fun p hp' _ => ?_⟩
      · rw [hso, cuts_append (by simp), begun_append, List.map_append, a0]
        rfl
      · rcases List.mem_append.mp hp' with hp' | hp'
        · exact a1 p hp'
        · rw [List.mem_singleton] at hp'
          subst hp'
          refine ⟨_, ha, g, t, ?_, ?_, rfl⟩
          · rw [← (hF.static q _ ha).2.1]
            exact hd
          · rw [← hF.unread q (by rw [hq]; simp) _ ha]
            exact ht
      · rw [hso, cuts_append (by simp), wire_append, hsu, a5, List.map_append]
        have : (l.map (·.2) ++ [(q, g ++ t)].map (·.2)).flatten = (l.map (·.2)).flatten ++ (g ++ t) := by simp
        rw [this, ← a2, a5, a6]
        simp [wire]
      · rw [hsr] at hp'
        cases hp'
        rw [hsb]
        exact ht
  | opened => exact (h.of_same rfl id (fun _ _ _ _ ht => ht) (fun _ h1 h2 => ⟨h1, h2⟩)).still rfl rfl (by simp)
  | empty ds ho =>
    obtain ⟨l, tail, a1, a2, a3, a4⟩ := h
    refine Wired.inert ⟨l, tail, a1, ?_, fun hp => ?_, a4⟩ Inert.nil
    · rw [← a2, ho]; rfl
    · have := (a3 hp).1
      rw [ho] at this
      cases this
  | zero p hn hr =>
    obtain ⟨R', a1, a2, a3, a4, _⟩ := disconnect_spec p S
    refine Wired.inert ?_ (finished_inert a4)
    rw [a1]
    refine h.dropped rfl (fun hp => ?_) rfl
    obtain ⟨_, _, _, _, b3, _⟩ := h
    exact hn (b3 hp).1
  | some d ds n ho _ _ =>
    obtain ⟨l, tail, ⟨a0, a1⟩, a2, a3, a4⟩ := h
    refine ⟨l, tail, ⟨?_, a1⟩, ?_, fun hp => ?_, a4⟩
    · rw [cuts_append (by simp), begun_append, a0]; simp [begun]
    · rw [cuts_append (by simp), wire_append, ← a2, ho]
      simp only [List.flatten_cons, wire, List.flatMap_cons, List.flatMap_nil, List.append_nil, List.append_assoc]
      rw [← List.append_assoc (d.take n), List.take_append_drop]
    · have := (a3 hp).1
      rw [ho] at this
      cases this
  | all d ds ho =>
    obtain ⟨l, tail, ⟨a0, a1⟩, a2, a3, a4⟩ := h
    refine ⟨l, tail, ⟨?_, a1⟩, ?_, fun hp => ?_, a4⟩
    · rw [cuts_append (by simp), begun_append, a0]; simp [begun]
    · rw [cuts_append (by simp), wire_append, ← a2, ho]
      simp only [List.flatten_cons, wire, List.flatMap_cons, List.flatMap_nil, List.append_nil, List.append_assoc]
    · have := (a3 hp).1
      rw [ho] at this
      cases this
  | since => exact (h.of_same rfl id (fun _ _ _ _ ht => ht) (fun _ h1 h2 => ⟨h1, h2⟩)).inert Inert.nil
  | timeout ho hp =>
    refine Wired.still ?_ rfl rfl (by simp)
    refine h.of_same rfl (fun h => ?_) (fun _ _ _ _ ht => ht) (fun _ h1 _ => ⟨h1, by rw [hp]; simp⟩)
    cases h
  | refill q d b ho hp hr hb hd =>
    obtain ⟨l, tail, a1, a2, a3, a4⟩ := h
    obtain ⟨u, hu, hu'⟩ := reads_more hb hd (a4 q hr (by rw [hp]; simp))
    refine Wired.inert ⟨l, u, a1, ?_, fun h => ?_, fun p hp' _ => ?_⟩ Inert.nil
    · rw [← a2, ho, hu]; simp
    · rw [show S.phase = .ready from h] at hp; cases hp
    · have hpq : p = q := by
        rw [show S.request = some p from hp'] at hr
        exact Option.some.inj hr
      rw [hpq]
      show Reads size ((setReq S q fun r => { r with body := b }).reqs q).body u
      rw [setReq_reqs, if_pos rfl]
      exact hu'
  | exhaust q b ho hp hr hb =>
    obtain ⟨R', a1, a2, a3, a4, _⟩ := disconnect_spec q (setReq S q fun r => { r with body := b })
    refine Wired.inert ?_ (finished_inert a4)
    rw [a1]
    obtain ⟨l, tail, b1, b2, b3, b4⟩ := h
    have ht := reads_over hb (b4 q hr (by rw [hp]; simp))
    exact ⟨l, tail, b1, b2, fun _ => ⟨ho, ht⟩, (fun _ h => nomatch h)⟩
  | close e =>
    obtain ⟨R', os, h1, h2, h3, h4, _⟩ := close_spec size e S hF.base
    rw [h2, ← List.append_assoc]
    rw [h1]
    refine ⟨[], [], ⟨?_, (fun _ h => nomatch h)⟩, ?_, fun _ => ⟨rfl, rfl⟩, (fun _ h => nomatch h)⟩
    · rw [cuts_closed]; rfl
    · rw [cuts_closed]; rfl
  | arrive => exact (h.of_same rfl id (fun _ _ _ _ ht => ht) (fun _ h1 h2 => ⟨h1, h2⟩)).still rfl rfl (by simp)
  | round q r r' b' last last' evs hr _ =>
    have h' : Wired size es tr { S with response := some (q, r'), buf := b' } := h.of_same rfl id (fun _ _ _ _ ht => ht) (fun _ h1 h2 => ⟨h1, h2⟩)
    exact (wired_apply evs (facts_round hF hr) h' rfl).inert (apply_inert size q evs _)
  | next => exact (h.of_same rfl id (fun _ _ _ _ ht => ht) (fun _ h1 h2 => ⟨h1, h2⟩)).inert Inert.nil
  | last => exact (h.of_same rfl id (fun _ _ _ _ ht => ht) (fun _ h1 h2 => ⟨h1, h2⟩)).inert Inert.nil
  | idle => exact h.still rfl rfl (by simp)
  | raised => exact h.still rfl rfl (by simp)

theorem onWire_of {size : Nat} {es : List Event} {tr : List Obs} {S : State} (h : Wired size es tr S) : OnWire size es (cuts tr).2 := by
  obtain ⟨l, tail, h1, h2, _⟩ := h
  exact ⟨l, h1, S.out.flatten ++ tail, by rw [← h2, List.append_assoc]⟩

/-- Only closing ends a part of a history. -/
theorem closed_micro {size : Nat} {o : List Obs} {S S' : State} (hm : Micro size S o S') (hc : ¬ ∀ x ∈ o, x ≠ .closed) :
    ∃ e, o = (close size e S).obs ∧ S' = (close size e S).s := by
  cases hm with
  | close e => exact ⟨e, rfl, rfl⟩
  | start q qs =>
    refine absurd ?_ hc
    intro x hx
    unfold start at hx
    dsimp only at hx
    split at hx
    · cases hx
    · rw [List.mem_singleton] at hx; subst hx; simp
  | zero p _ _ =>
    obtain ⟨_, _, _, _, a4, _⟩ := disconnect_spec p S
    exact absurd (fun x hx => (finished_inert a4 x hx).2.2.2) hc
  | exhaust q b =>
    obtain ⟨_, _, _, _, a4, _⟩ := disconnect_spec q (setReq S q fun r => { r with body := b })
    exact absurd (fun x hx => (finished_inert a4 x hx).2.2.2) hc
  | round => exact absurd (fun x hx => (apply_inert _ _ _ _ x hx).2.2.2) hc
  | opened | empty | some | all | since | timeout | refill | arrive | next | last | idle | raised => exact absurd (by simp) hc

theorem onWire_micro {size : Nat} {es : List Event} {tr o : List Obs} {S S' : State} (hF : Facts es tr S) (h : Wired size es tr S)
    (he : ∀ s ∈ (cuts tr).1, OnWire size es s) (hm : Micro size S o S') : ∀ s ∈ (cuts (tr ++ o)).1, OnWire size es s := by
  by_cases hc : ∀ x ∈ o, x ≠ .closed
  · rw [cuts_append hc]; exact he
  · obtain ⟨e, rfl, rfl⟩ := closed_micro hm hc
    obtain ⟨R', os, h1, h2, h3, h4, _⟩ := close_spec size e S hF.base
    rw [h2, ← List.append_assoc, cuts_closed]
    intro s hs
    rcases List.mem_append.mp hs with hs | hs
    · rw [h3.inert.cuts] at hs
      exact he s hs
    · rw [List.mem_singleton] at hs
      subst hs
      exact onWire_of (h.inert h3.inert)

/-- Reading responses makes no new requests. -/
theorem apply_next (size : Nat) (q : Rid) (evs : List Ev) (S : State) : (apply size q evs S).s.next = S.next := by
  have hset : ∀ (st : Option Nat) (T : State), (settle size q true st none T).s.next = T.next := by
    intro st T
    unfold settle
    cases st with
    | none => rfl
    | some n =>
      dsimp only
      split
      · split
        · unfold continueBody
          split <;> rfl
        · rfl
      · split
        · split
          · split
            · rfl
            · split
              · rfl
              · unfold Out.andThen
                dsimp only
                unfold requestDisconnect
                split
                · rfl
                · next p _ => rfl
          · rfl
        · rfl
  exact apply_ind size q (fun T _ => T.next = S.next) (fun _ _ _ h => h) (fun T _ n h => (hset _ T).trans h) evs S [] rfl

end Verif.Http.Conn
