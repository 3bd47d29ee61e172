import Verif.Lemmas.HttpConnectionMore

/-! Every request that was started is finished when its connection is closed. -/

namespace Verif.Http.Conn

open Verif Msg Spec.HttpConnection

/-- The request was finished. -/
def FinishedIn (q : Rid) (os : List Obs) : Prop := ∃ st e d, .finished q st e d ∈ os

theorem FinishedIn.left {q : Rid} {a : List Obs} (h : FinishedIn q a) (b : List Obs) : FinishedIn q (a ++ b) := by
  obtain ⟨st, e, d, h⟩ := h
  exact ⟨st, e, d, List.mem_append_left _ h⟩

theorem FinishedIn.right {q : Rid} {b : List Obs} (h : FinishedIn q b) (a : List Obs) : FinishedIn q (a ++ b) := by
  obtain ⟨st, e, d, h⟩ := h
  exact ⟨st, e, d, List.mem_append_right _ h⟩

/-- No response has the status zero, and none is cut off that is informational. -/
def Proper (os : List Obs) : Prop := ∀ q w n e d, .answered q w (some n) e d ∈ os → n ≠ 0 ∧ (w = false → informational n = false)

theorem Proper.left {a b : List Obs} (h : Proper (a ++ b)) : Proper a := fun q w n e d hm => h q w n e d (List.mem_append_left _ hm)

theorem Proper.right {a b : List Obs} (h : Proper (a ++ b)) : Proper b := fun q w n e d hm => h q w n e d (List.mem_append_right _ hm)

/-- The request has its answer and is still being sent. -/
def Live (S : State) (q : Rid) : Prop := S.request = some q ∧ (S.reqs q).connected = true ∧ (S.reqs q).status > 0

theorem disconnect_live {p q : Rid} {S : State} (h : Live S q) (hp : S.request = some p) : FinishedIn q (disconnect p S).obs := by
  have := Option.some.inj (hp.symm.trans h.1)
  subst this
  unfold disconnect
  dsimp only
  rw [if_pos h.2.2]
  exact ⟨_, _, _, List.mem_singleton.mpr rfl⟩

theorem settle_ends {size : Nat} {q : Rid} {w : Bool} {n : Nat} {e : Option Cause} {S : State} (hl : (S.reqs q).connected = true → S.request = some q)
    (hp : Proper (settle size q w (some n) e S).obs) :
    (∀ p, Live S p → FinishedIn p (settle size q w (some n) e S).obs ∨ Live (settle size q w (some n) e S).s p) ∧
    (informational n = false → FinishedIn q (settle size q w (some n) e S).obs ∨ Live (settle size q w (some n) e S).s q) := by
  have hn : n ≠ 0 := by
    refine (hp q w n e (S.reqs q).buffer ?_).1
    unfold settle
    dsimp only
    split
    · exact List.mem_singleton.mpr rfl
    · split
      · split
        · split
          · exact List.mem_singleton.mpr rfl
          · split
            · exact List.mem_singleton.mpr rfl
            · exact List.mem_append_left _ (List.mem_singleton.mpr rfl)
        · exact List.mem_singleton.mpr rfl
      · exact List.mem_cons_self ..
  have key : ∀ {T : State} (p : Rid), T.request = S.request → (∀ t, (T.reqs t).connected = (S.reqs t).connected) →
      (T.reqs q).status = n → (∀ t, t ≠ q → (T.reqs t).status = (S.reqs t).status) → Live S p → Live T p := by
    intro T p h1 h2 h3 h4 h
    refine ⟨h1.trans h.1, (h2 p).trans h.2.1, ?_⟩
    by_cases hpq : p = q
    · rw [hpq, h3]; exact Nat.pos_of_ne_zero hn
    · rw [h4 p hpq]; exact h.2.2
  have key' : ∀ {T : State}, T.request = S.request → (∀ t, (T.reqs t).connected = (S.reqs t).connected) →
      (T.reqs q).status = n → (S.reqs q).connected = true → Live T q := fun h1 h2 h3 h4 =>
    ⟨h1.trans (hl h4), (h2 q).trans h4, by rw [h3]; exact Nat.pos_of_ne_zero hn⟩
  have hc1 : ∀ t, ((setReq S q fun r => { r with status := n, error := e, result := r.buffer, buffer := [] }).reqs t).connected = (S.reqs t).connected :=
    setReq_keep S q _ Req.connected rfl
  have hs1 : ((setReq S q fun r => { r with status := n, error := e, result := r.buffer, buffer := [] }).reqs q).status = n := by
    rw [setReq_reqs, if_pos rfl]
  have ho1 : ∀ t, t ≠ q → ((setReq S q fun r => { r with status := n, error := e, result := r.buffer, buffer := [] }).reqs t).status = (S.reqs t).status := by
    intro t ht
    rw [setReq_reqs, if_neg ht]
  have hb2 : ∀ {α : Type} (g : Req → α) (b : Sending), (∀ r : Req, g { r with body := b } = g r) → ∀ t,
      g ((setReq (setReq S q fun r => { r with status := n, error := e, result := r.buffer, buffer := [] }) q fun r => { r with body := b }).reqs t) =
      g ((setReq S q fun r => { r with status := n, error := e, result := r.buffer, buffer := [] }).reqs t) := fun g b hg t =>
    setReq_keep (setReq S q fun r => { r with status := n, error := e, result := r.buffer, buffer := [] }) q (fun r => { r with body := b }) g (hg _) t
  unfold settle
  dsimp only
  split
  · next hi =>
    refine ⟨fun p h => .inr ?_, fun h => absurd (hi.symm.trans h) (by simp)⟩
    split
    · unfold continueBody
      split
      · exact key (T := { setReq S q (fun r => { r with status := n, error := e, result := r.buffer, buffer := [] }) with phase := .sending }) p rfl hc1 hs1 ho1 h
      · exact key p rfl hc1 hs1 ho1 h
    · exact key p rfl hc1 hs1 ho1 h
  · split
    · next hcn =>
      split
      · split
        · exact ⟨fun p h => .inr (key p rfl hc1 hs1 ho1 h), fun _ => .inr (key' rfl hc1 hs1 hcn)⟩
        · next d b _ =>
          have hc2 := fun t => (hb2 Req.connected b (fun _ => rfl) t).trans (hc1 t)
          have hs2 := (hb2 Req.status b (fun _ => rfl) q).trans hs1
          have ho2 := fun t ht => (hb2 Req.status b (fun _ => rfl) t).trans (ho1 t ht)
          split
          · exact ⟨fun p h => .inr (key p rfl hc2 hs2 ho2 h), fun _ => .inr (key' rfl hc2 hs2 hcn)⟩
          · have hfin : FinishedIn q (Out.andThen ⟨setReq (setReq S q fun r => { r with status := n, error := e, result := r.buffer, buffer := [] }) q fun r => { r with body := b },
                [.answered q w (some n) e (S.reqs q).buffer], none⟩ requestDisconnect).obs := by
              unfold Out.andThen
              dsimp only
              refine FinishedIn.right ?_ _
              unfold requestDisconnect
              split
              · next hr =>
                have := hl hcn
                rw [show S.request = none from hr] at this
                cases this
              · next p hr => exact disconnect_live (key' rfl hc2 hs2 hcn) hr
            refine ⟨fun p h => .inl ?_, fun _ => .inl hfin⟩
            have := hl hcn
            rw [h.1] at this
            rw [Option.some.inj this]
            exact hfin
      · exact ⟨fun p h => .inr (key p rfl hc1 hs1 ho1 h), fun _ => .inr (key' rfl hc1 hs1 hcn)⟩
    · refine ⟨fun p h => .inr (key p rfl hc1 hs1 ho1 h), fun _ => .inl ?_⟩
      exact ⟨_, _, _, List.mem_cons_of_mem _ (List.mem_singleton.mpr rfl)⟩

theorem apply_ends {size : Nat} {q : Rid} : ∀ (evs : List Ev) (S : State), Tidy evs → q ∉ S.responses →
    ((S.reqs q).connected = true → S.request = some q) → Proper (apply size q evs S).obs →
    (∀ p, Live S p → FinishedIn p (apply size q evs S).obs ∨ Live (apply size q evs S).s p) ∧
    ((∃ n, .finished n ∈ evs ∧ informational n = false) → FinishedIn q (apply size q evs S).obs ∨ Live (apply size q evs S).s q)
  | [], S, _, _, _, _ => ⟨fun p h => .inr h, (fun ⟨_, h, _⟩ => nomatch h)⟩
  | .header :: es, S, ht, hn, hl, hp => by
    obtain ⟨h1, h2⟩ := apply_ends (size := size) es S ht hn hl hp
    refine ⟨h1, fun ⟨n, hm, hi⟩ => h2 ⟨n, ?_, hi⟩⟩
    rcases List.mem_cons.mp hm with hm | hm
    · cases hm
    · exact hm
  | .data d :: es, S, ht, hn, hl, hp => by
    have hk : ∀ {α : Type} (g : Req → α), (∀ r : Req, g { r with buffer := r.buffer ++ d } = g r) → ∀ t,
        g ((setReq S q fun r => { r with buffer := r.buffer ++ d }).reqs t) = g (S.reqs t) := fun g hg t => setReq_keep S q _ g (hg _) t
    obtain ⟨h1, h2⟩ := apply_ends (size := size) es (setReq S q fun r => { r with buffer := r.buffer ++ d }) ht hn
      (fun hc => hl (by rw [← hk Req.connected (fun _ => rfl) q]; exact hc)) hp
    refine ⟨fun p h => h1 p ⟨h.1, ?_, ?_⟩, fun ⟨n, hm, hi⟩ => h2 ⟨n, ?_, hi⟩⟩
    · rw [hk Req.connected (fun _ => rfl)]; exact h.2.1
    · rw [hk Req.status (fun _ => rfl)]; exact h.2.2
    · rcases List.mem_cons.mp hm with hm | hm
      · cases hm
      · exact hm
  | .finished n :: es, S, ht, hn, hl, hp => by
    cases (show es = [] from ht)
    have hls : lastStatus S q (some n) = some n := by
      unfold lastStatus
      rw [if_neg]
      simpa using hn
    have ha : (apply size q [.finished n] S).obs = (settle size q true (some n) none S).obs ∧
        (apply size q [.finished n] S).s = (settle size q true (some n) none S).s := by
      unfold apply
      rw [hls]
      unfold Out.andThen
      split
      · exact ⟨rfl, rfl⟩
      · dsimp only
        rw [show apply size q [] _ = ⟨_, [], none⟩ from rfl]
        dsimp only
        rw [List.append_nil]
        exact ⟨rfl, rfl⟩
    rw [ha.1] at hp
    rw [ha.1, ha.2]
    obtain ⟨h1, h2⟩ := settle_ends hl hp
    refine ⟨h1, fun ⟨k, hm, hi⟩ => h2 ?_⟩
    rw [List.mem_singleton] at hm
    cases hm
    exact hi

/-! ## The end of a response -/

theorem ended_done {r : Resp} {es : List Ev} (h : needs (ended r es).1 = .nothing) : ∃ n, .finished n ∈ (ended r es).2 ∧ informational n = false := by
  unfold ended at h ⊢
  split
  · next hm =>
    rw [if_pos hm] at h
    refine ⟨r.status.getD 0, List.mem_append_right _ (List.mem_singleton.mpr rfl), ?_⟩
    cases hi : informational (r.status.getD 0) with
    | false => rfl
    | true =>
      unfold finish at h
      rw [if_pos hi] at h
      cases h
  · next hm =>
    rw [if_neg hm] at h
    dsimp only at h
    unfold needs at h
    split at h
    any_goals cases h
    · next hd => exact absurd hd hm
    · split at h
      · split at h
        · cases h
        · split at h <;> cases h
      · cases h
    · split at h
      · split at h
        · cases h
        · split at h <;> cases h
      · cases h

theorem needs_mode {r : Resp} (h : needs r = .nothing) : r.mode = .done := by
  unfold needs at h
  split at h
  any_goals cases h
  · assumption
  · split at h
    · split at h
      · cases h
      · split at h <;> cases h
    · cases h
  · split at h
    · split at h
      · cases h
      · split at h <;> cases h
    · cases h

theorem flush_mode (r : Resp) : (flush r).mode = r.mode := by
  unfold flush
  split <;> rfl

theorem readHeader_mode {r r' : Resp} {l : Str} (h : readHeader r l = .ok r') : r'.mode = r.mode := by
  unfold readHeader at h
  split at h
  · cases h; exact flush_mode r
  · split at h
    · cases h; rfl
    · split at h
      · cases h; exact flush_mode r
      · cases h

theorem recvLine_ends {m : Str} {r r' : Resp} {l : Str} {e : List Ev} (h : recvLine m r l = .ok (r', e)) :
    Tidy e ∧ (needs r' = .nothing → ∃ n, .finished n ∈ e ∧ informational n = false) := by
  unfold recvLine at h
  split at h
  · split at h
    · cases h
    · cases h; exact ⟨trivial, fun hn => by cases needs_mode hn⟩
  · next hm =>
    split at h
    · cases h
    · next x hx =>
      split at h
      · split at h
        · cases h
        · next y _ =>
          injection h with h
          have h1 := tidy_ended (r := startBody y) (es := [.header]) (fun fs hf => hf)
          have h2 := ended_done (r := startBody y) (es := [.header])
          rw [h] at h1 h2
          exact ⟨h1, h2⟩
      · cases h
        refine ⟨trivial, fun hn => ?_⟩
        have := needs_mode hn
        rw [readHeader_mode hx, hm] at this
        cases this
  · split at h
    · cases h
    · cases h
      refine ⟨trivial, fun hn => ?_⟩
      have := needs_mode hn
      split at this <;> cases this
  · next hm =>
    split at h
    · cases h
    · next x hx =>
      injection h with h
      split at h
      · have h1 := tidy_ended (r := { x with mode := .done }) (es := []) (fun fs hf => hf)
        have h2 := ended_done (r := { x with mode := .done }) (es := [])
        rw [h] at h1 h2
        exact ⟨h1, h2⟩
      · cases h
        refine ⟨trivial, fun hn => ?_⟩
        have := needs_mode hn
        rw [readHeader_mode hx, hm] at this
        cases this
  · cases h
  · cases h
  · cases h

theorem recvBytes_ends (r : Resp) (d : Str) :
    Tidy (recvBytes r d).2 ∧ (needs (recvBytes r d).1 = .nothing → ∃ n, .finished n ∈ (recvBytes r d).2 ∧ informational n = false) := by
  have hw : ∀ d, Tidy (write d) := fun d => by
    have := tidy_write d [] trivial
    rwa [List.append_nil] at this
  unfold recvBytes
  dsimp only
  split
  · refine ⟨hw _, fun hn => ?_⟩
    have := needs_mode hn
    dsimp only at this
    split at this <;> cases this
  · next hm =>
    split
    · exact ⟨tidy_ended (fun fs hf => tidy_write _ fs hf), ended_done⟩
    · refine ⟨hw _, fun hn => ?_⟩
      have := needs_mode hn
      rw [show _ = r.mode from rfl, hm] at this
      cases this
  · exact ⟨tidy_ended (fun fs hf => hf), ended_done⟩

theorem round_ends {m : Str} {r r' : Resp} {b b' : Buf} {last last' : Option Str} {e : List Ev}
    (h : Msg.round m r b last = .ok (.next r' b' last' e)) :
    Tidy e ∧ (needs r' = .nothing → ∃ n, .finished n ∈ e ∧ informational n = false) := by
  unfold Msg.round at h
  split at h
  · split at h
    · cases h
    · split at h
      · cases h
      · next hx => cases h; exact recvLine_ends hx
  · split at h
    · split at h
      · cases h; exact recvBytes_ends _ _
      · cases h
    · split at h
      · cases h
      · split at h
        · split at h
          · cases h
          · cases h; exact recvBytes_ends _ _
        · split at h
          · cases h
          · cases h; exact recvBytes_ends _ _
  · cases h
  · cases h

/-! ## The end of a connection -/

theorem settle_cut_ends {size : Nat} {q : Rid} {st : Option Nat} {e : Option Cause} {S : State} (h : (S.reqs q).connected = false)
    (hp : Proper (settle size q false st e S).obs) : FinishedIn q (settle size q false st e S).obs := by
  unfold settle at hp ⊢
  cases st with
  | none => exact ⟨_, _, _, List.mem_cons_of_mem _ (List.mem_singleton.mpr rfl)⟩
  | some n =>
    dsimp only at hp ⊢
    split
    · next hi =>
      rw [if_pos hi] at hp
      have := (hp q false n e _ (List.mem_singleton.mpr rfl)).2 rfl
      rw [hi] at this
      cases this
    · rw [if_neg (by rw [h]; simp)]
      exact ⟨_, _, _, List.mem_cons_of_mem _ (List.mem_singleton.mpr rfl)⟩

theorem cutResponses_ends (size : Nat) (e : Option Cause) : ∀ (ps : List Rid) (x : Rid × Resp) (S : State),
    (∀ q, q = x.1 ∨ q ∈ ps → (S.reqs q).connected = false) → S.responses = ps → Proper (cutResponses size e ps x S).2 →
    ∀ q, q = x.1 ∨ q ∈ ps → FinishedIn q (cutResponses size e ps x S).2
  | [], (q, r), S, hc, _, hp, t, ht => by
    rcases ht with rfl | ht
    · exact settle_cut_ends (hc _ (.inl rfl)) hp
    · cases ht
  | p :: ps, (q, r), S, hc, _, hp, t, ht => by
    unfold cutResponses at hp ⊢
    dsimp only at hp ⊢
    rcases ht with rfl | ht
    · exact (settle_cut_ends (hc _ (.inl rfl)) hp.left).left _
    · refine FinishedIn.right (cutResponses_ends size e ps (p, {}) _ ?_ rfl hp.right t ?_) _
      · intro t ht
        obtain ⟨R', h1, h2, _, _⟩ := settle_cut size q false (lastStatus S q r.status) e S (hc q (.inl rfl))
        show (((settle size q false (lastStatus S q r.status) e S).s).reqs t).connected = false
        rw [h1]
        cases hb : (R' t).connected with
        | false => rfl
        | true =>
          have := h2.connected t hb
          rw [hc t (.inr (by rcases ht with rfl | ht <;> simp_all))] at this
          cases this
      · rcases List.mem_cons.mp ht with rfl | ht
        · exact .inl rfl
        · exact .inr ht

theorem close_ends {size : Nat} {e : Option Cause} {S : State} (hB : Base S) (hp : Proper (close size e S).obs) :
    (∀ q, Awaited S q → FinishedIn q (close size e S).obs) ∧ (∀ q, Live S q → FinishedIn q (close size e S).obs) := by
  have hcut : (cutRequest S).1.response = S.response ∧ (cutRequest S).1.responses = S.responses ∧
      (∀ q, Awaited S q → ((cutRequest S).1.reqs q).connected = false) ∧ ∀ q, Live S q → FinishedIn q (cutRequest S).2 := by
    unfold cutRequest
    cases hr : S.request with
    | none =>
      refine ⟨rfl, rfl, fun q hq => ?_, fun q h => ?_⟩
      · cases hc : (S.reqs q).connected with
        | false => rfl
        | true =>
          have := hB.linked q hq hc
          rw [hr] at this
          cases this
      · have := h.1
        rw [hr] at this
        cases this
    | some p =>
      obtain ⟨R1, a1, a2, a3, a4, _⟩ := disconnect_spec p S
      dsimp only
      refine ⟨by rw [a1], by rw [a1], fun q hq => ?_, fun q h => disconnect_live h hr⟩
      rw [a1]
      cases hc : (R1 q).connected with
      | false => rfl
      | true =>
        have := hB.linked q hq (a2.connected q hc)
        rw [hr] at this
        cases this
        rw [a3] at hc
        cases hc
  obtain ⟨h1, h2, h3, h4⟩ := hcut
  unfold close at hp ⊢
  dsimp only at hp ⊢
  refine ⟨fun q hq => ?_, fun q hq => ((h4 q hq).left _).left _⟩
  cases hr : S.response with
  | none =>
    rcases hq with ⟨r, hq⟩ | hq
    · rw [hr] at hq; cases hq
    · rw [hB.first hr] at hq; cases hq
  | some x =>
    rw [h1, hr] at hp ⊢
    dsimp only at hp ⊢
    have haw : ∀ t, t = x.1 ∨ t ∈ S.responses ↔ Awaited S t := by
      intro t
      constructor
      · rintro (rfl | ht)
        · exact .inl ⟨x.2, hr⟩
        · exact .inr ht
      · rintro (⟨r, ht⟩ | ht)
        · rw [hr] at ht; cases ht; exact .inl rfl
        · exact .inr ht
    refine FinishedIn.left (FinishedIn.right ?_ _) _
    rw [h2] at hp ⊢
    exact cutResponses_ends size e S.responses x (cutRequest S).1 (fun t ht => h3 t ((haw t).mp ht)) h2 hp.left.right q ((haw q).mpr hq)

/-! ## Requests that are owed an end -/

/-- The request is finished, or will be when it is disconnected. -/
def Ends (cur : List Obs) (S : State) (q : Rid) : Prop := FinishedIn q cur ∨ Live S q

/-- Requests that were started are awaited or have ended. -/
structure Owed (tr : List Obs) (S : State) : Prop where
  all : ∀ q ∈ begun (cuts tr).2, q ∈ pending S ∨ Ends (cuts tr).2 S q
  done : ∀ q r, S.response = some (q, r) → needs r = .nothing → Ends (cuts tr).2 S q
  idle : S.phase = .ready → ∀ q, S.request = some q → (S.reqs q).status = 0 ∧ ∃ e, (S.reqs q).head = .error e
  queued : ∀ q ∈ S.queue, (S.reqs q).status = 0
  ended : ∀ s ∈ (cuts tr).1, ∀ q ∈ begun s, FinishedIn q s

/-- Members that do not matter are changed. -/
theorem Owed.keep {tr o : List Obs} {S S' : State} (h : Owed tr S) (ho : begun o = []) (hn : ∀ x ∈ o, x ≠ .closed)
    (h1 : S'.response = S.response) (h2 : S'.responses = S.responses) (h3 : S'.phase = .ready → S.phase = .ready ∨ S'.request = none)
    (h4 : S'.request = S.request ∨ S'.request = none) (h5 : S'.queue = S.queue) (h6 : ∀ q, (S'.reqs q).status = (S.reqs q).status)
    (h7 : ∀ q, (S'.reqs q).head = (S.reqs q).head) (h8 : ∀ q, Live S q → FinishedIn q o ∨ Live S' q) : Owed (tr ++ o) S' := by
  have hE : ∀ q, Ends (cuts tr).2 S q → Ends (cuts (tr ++ o)).2 S' q := by
    intro q hq
    rw [cuts_append hn]
    rcases hq with hq | hq
    · exact .inl (hq.left _)
    · rcases h8 q hq with hq | hq
      · exact .inl (hq.right _)
      · exact .inr hq
  have hpd : pending S' = pending S := by unfold pending; rw [h1, h2]
  refine ⟨fun q hq => ?_, fun q r hr hd => hE q (h.done q r (h1 ▸ hr) hd), fun hp q hq => ?_, fun q hq => ?_, fun s hs => ?_⟩
  · rw [cuts_append hn, begun_append, ho, List.append_nil] at hq
    rw [hpd]
    exact (h.all q hq).imp id (hE q)
  · rw [h6, h7]
    rcases h4 with h4 | h4
    · rw [h4] at hq
      rcases h3 hp with h3 | h3
      · exact h.idle h3 q hq
      · rw [h4, hq] at h3
        cases h3
    · rw [h4] at hq
      cases hq
  · rw [h6]
    rw [h5] at hq
    exact h.queued q hq
  · rw [cuts_append hn] at hs
    exact h.ended s hs

theorem live_same {S S' : State} {q : Rid} (h : Live S q) (h1 : S'.request = S.request) (h2 : S'.reqs = S.reqs) : Live S' q := by
  unfold Live at h ⊢
  rw [h1, h2]
  exact h

theorem apply_status {size : Nat} {q : Rid} {S : State} (evs : List Ev) {t : Rid} (ht : t ≠ q) (hl : (S.reqs q).connected = true → S.request = some q)
    (hB : Base S) (ha : Awaited S q) : ((apply size q evs S).s.reqs t).status = (S.reqs t).status ∧ ((apply size q evs S).s.reqs t).head = (S.reqs t).head := by
  have := hl
  refine (apply_ind size q (fun T _ => (Base T ∧ Awaited T q) ∧ (T.reqs t).status = (S.reqs t).status ∧ (T.reqs t).head = (S.reqs t).head) ?_ ?_ evs S [] ⟨⟨hB, ha⟩, rfl, rfl⟩).2
  · intro T _ d ⟨⟨hB, ha⟩, h1, h2⟩
    refine ⟨⟨(base_apply (size := size) [.data d] hB ha).1, ha⟩, ?_, ?_⟩
    · rw [setReq_reqs, if_neg ht]; exact h1
    · rw [setReq_reqs, if_neg ht]; exact h2
  · intro T _ n ⟨⟨hB, ha⟩, h1, h2⟩
    have hs := settle_spec size q true (lastStatus T q (some n)) none T (fun hc => hB.linked q ha hc)
    refine ⟨⟨base_settled hB hs, ?_⟩, ?_, ?_⟩
    · obtain ⟨e1, e2⟩ := settled_awaited hs
      unfold Awaited
      rw [e1, e2]
      exact ha
    · rw [← h1]
      exact (settle_other size q true (lastStatus T q (some n)) none T t ht).1
    · rw [← h2]
      exact (settle_other size q true (lastStatus T q (some n)) none T t ht).2
where
  settle_other (size : Nat) (q : Rid) (w : Bool) (st : Option Nat) (e : Option Cause) (T : State) (t : Rid) (ht : t ≠ q) :
      ((settle size q w st e T).s.reqs t).status = (T.reqs t).status ∧ ((settle size q w st e T).s.reqs t).head = (T.reqs t).head := by
    have h0 : ∀ (U : State) (f : Req → Req), ((setReq U q f).reqs t) = U.reqs t := fun U f => by rw [setReq_reqs, if_neg ht]
    have hr : ∀ U : State, ((requestDisconnect U).s.reqs t).status = (U.reqs t).status ∧ ((requestDisconnect U).s.reqs t).head = (U.reqs t).head := by
      intro U
      unfold requestDisconnect
      split
      · exact ⟨rfl, rfl⟩
      · next p _ =>
        obtain ⟨R', a1, a2, _⟩ := disconnect_spec p U
        dsimp only
        rw [a1]
        exact ⟨(a2.other t (fun h => h)).2.1, (a2.same t).2.1⟩
    have hb : ∀ U : State, (U.reqs t) = T.reqs t → (U.reqs t).status = (T.reqs t).status ∧ (U.reqs t).head = (T.reqs t).head := fun U h => by rw [h]; exact ⟨rfl, rfl⟩
    unfold settle
    cases st with
    | none => dsimp only; exact hb _ (h0 _ _)
    | some n =>
      dsimp only
      split
      · split
        · unfold continueBody
          split
          · dsimp only; exact hb _ (h0 T _)
          · dsimp only; exact hb _ (h0 _ _)
        · dsimp only; exact hb _ (h0 _ _)
      · split
        · split
          · split
            · dsimp only; exact hb _ (h0 _ _)
            · split
              · dsimp only; exact hb _ ((h0 _ _).trans (h0 _ _))
              · unfold Out.andThen
                dsimp only
                obtain ⟨c1, c2⟩ := hr (setReq (setReq T q fun r => { r with status := n, error := e, result := r.buffer, buffer := [] }) q fun r => { r with body := by assumption })
                have := hb _ ((h0 (setReq T q fun r => { r with status := n, error := e, result := r.buffer, buffer := [] }) fun r => { r with body := by assumption }).trans (h0 T _))
                exact ⟨c1.trans this.1, c2.trans this.2⟩
          · dsimp only; exact hb _ (h0 _ _)
        · dsimp only; exact hb _ (h0 _ _)

theorem owed_micro {size : Nat} {es : List Event} {tr o : List Obs} {S S' : State} (hF : Facts es tr S) (h : Owed tr S) (hp : Proper o)
    (hm : Micro size S o S') : Owed (tr ++ o) S' := by
  cases hm with
  | start q qs hq hph =>
    obtain ⟨h1, _⟩ := facts_start hF hq hph
    rw [if_pos h1]
    have hk : ∀ {α : Type} (g : Req → α), (∀ r : Req, g { r with connected := true } = g r) → ∀ t,
        g ((setReq { S with queue := qs } q fun r => { r with connected := true }).reqs t) = g (S.reqs t) := fun g hg t =>
      setReq_keep { S with queue := qs } q _ g (hg _) t
    have hnl : ∀ t, ¬ Live S t := by
      intro t ht
      have := (h.idle hph t ht.1).1
      have h3 := ht.2.2
      omega
    have hE : ∀ t, Ends (cuts tr).2 S t → FinishedIn t (cuts tr).2 := fun t ht => ht.elim id (fun h => absurd h (hnl t))
    have hqd : ∀ t ∈ qs, ((setReq { S with queue := qs } q fun r => { r with connected := true }).reqs t).status = 0 := by
      intro t ht
      rw [hk Req.status (fun _ => rfl)]
      exact h.queued t (by rw [hq]; exact List.mem_cons_of_mem _ ht)
    cases hd : (S.reqs q).head with
    | error e =>
      have hst : start q { S with queue := qs } = ⟨{ setReq { S with queue := qs } q (fun r => { r with connected := true }) with request := some q }, [], some e⟩ := by
        unfold start
        dsimp only
        rw [hd]
      rw [hst, List.append_nil]
      dsimp only
      refine ⟨fun t ht => (h.all t ht).imp id (fun he => .inl (hE t he)), fun t r hr hd => .inl (hE t (h.done t r hr hd)), fun _ t ht => ?_, hqd, h.ended⟩
      have : t = q := (Option.some.inj ht).symm
      rw [this]
      refine ⟨?_, e, ?_⟩
      · exact (hk Req.status (fun _ => rfl) q).trans (h.queued q (by rw [hq]; simp))
      · exact (hk Req.head (fun _ => rfl) q).trans hd
    | ok g =>
      have hst : start q { S with queue := qs } = ⟨{ setReq { S with queue := qs } q (fun r => { r with connected := true }) with
          request := some q
          out := S.out ++ [g]
          phase := if (S.reqs q).expect then .waiting else .sending
          since := if (S.reqs q).expect then false else S.since
          response := match S.response with
            | none => some (q, {})
            | some x => some x
          responses := match S.response with
            | none => S.responses
            | some _ => S.responses ++ [q] }, [.started q], none⟩ := by
        unfold start
        dsimp only
        rw [hd]
        cases S.response <;> rfl
      rw [hst]
      dsimp only
      have hpend : ∀ t, t ∈ pending S ∨ t = q → t ∈ pending { setReq { S with queue := qs } q (fun r => { r with connected := true }) with
          request := some q
          out := S.out ++ [g]
          phase := if (S.reqs q).expect then .waiting else .sending
          since := if (S.reqs q).expect then false else S.since
          response := match S.response with
            | none => some (q, {})
            | some x => some x
          responses := match S.response with
            | none => S.responses
            | some _ => S.responses ++ [q] } := by
        intro t ht
        unfold pending at ht ⊢
        dsimp only
        cases hrs : S.response with
        | none =>
          rw [hrs] at ht
          rcases ht with ht | ht
          · cases ht
          · rw [ht]; exact List.mem_cons_self ..
        | some x =>
          rw [hrs] at ht
          dsimp only at ht ⊢
          rcases ht with ht | ht
          · rcases List.mem_cons.mp ht with ht | ht
            · rw [ht]; exact List.mem_cons_self ..
            · exact List.mem_cons_of_mem _ (List.mem_append_left _ ht)
          · rw [ht]; exact List.mem_cons_of_mem _ (List.mem_append_right _ (List.mem_singleton.mpr rfl))
      have hcut : cuts (tr ++ [.started q]) = ((cuts tr).1, (cuts tr).2 ++ [.started q]) := cuts_append (by simp)
      refine ⟨fun t ht => ?_, fun t r hr hdn => ?_, fun hr => ?_, hqd, fun s hs => ?_⟩
      · rw [hcut, begun_append] at ht
        rcases List.mem_append.mp ht with ht | ht
        · rcases h.all t ht with ht | ht
          · exact .inl (hpend t (.inl ht))
          · right; left; rw [hcut]; exact (hE t ht).left _
        · left
          refine hpend t (.inr ?_)
          simpa [begun] using ht
      · cases hrs : S.response with
        | none =>
          rw [hrs] at hr
          cases hr
          cases hdn
        | some x =>
          rw [hrs] at hr
          left
          rw [hcut]
          exact (hE t (h.done t r (hrs.trans hr) hdn)).left _
      · dsimp only at hr
        split at hr <;> cases hr
      · rw [hcut] at hs
        exact h.ended s hs
  | opened => exact h.keep rfl (by simp) rfl rfl (fun h => .inl h) (.inl rfl) rfl (fun _ => rfl) (fun _ => rfl) (fun q hq => .inr (live_same hq rfl rfl))
  | empty => exact h.keep rfl (by simp) rfl rfl (fun h => .inl h) (.inl rfl) rfl (fun _ => rfl) (fun _ => rfl) (fun q hq => .inr (live_same hq rfl rfl))
  | zero p _ hr =>
    obtain ⟨R', a1, a2, a3, a4, _⟩ := disconnect_spec p S
    have hfin := fun q hq => disconnect_live (q := q) (p := p) (S := S) hq hr
    rw [a1]
    exact h.keep (finished_inert a4).begun (fun x hx => (finished_inert a4 x hx).2.2.2) rfl rfl (fun h => .inl h) (.inr rfl) rfl (fun t => (a2.other t (fun h => h)).2.1)
      (fun t => (a2.same t).2.1) (fun q hq => .inl (hfin q hq))
  | some => exact h.keep rfl (by simp) rfl rfl (fun h => .inl h) (.inl rfl) rfl (fun _ => rfl) (fun _ => rfl) (fun q hq => .inr (live_same hq rfl rfl))
  | all => exact h.keep rfl (by simp) rfl rfl (fun h => .inl h) (.inl rfl) rfl (fun _ => rfl) (fun _ => rfl) (fun q hq => .inr (live_same hq rfl rfl))
  | since => exact h.keep rfl (by simp) rfl rfl (fun h => .inl h) (.inl rfl) rfl (fun _ => rfl) (fun _ => rfl) (fun q hq => .inr (live_same hq rfl rfl))
  | timeout =>
    refine h.keep rfl (by simp) rfl rfl (fun h => ?_) (.inl rfl) rfl (fun _ => rfl) (fun _ => rfl) (fun q hq => .inr (live_same hq rfl rfl))
    cases h
  | refill q d b ho hph hr _ _ =>
    have hk : ∀ {α : Type} (g : Req → α), (∀ r : Req, g { r with body := b } = g r) → ∀ t, g ((setReq S q fun r => { r with body := b }).reqs t) = g (S.reqs t) :=
      fun g hg t => setReq_keep S q _ g (hg _) t
    exact h.keep rfl (by simp) rfl rfl (fun h => .inl h) (.inl rfl) rfl (hk Req.status (fun _ => rfl)) (hk Req.head (fun _ => rfl))
      (fun t ht => .inr ⟨ht.1, (hk Req.connected (fun _ => rfl) t).trans ht.2.1, by
        show ((setReq S q fun r => { r with body := b }).reqs t).status > 0
        rw [hk Req.status (fun _ => rfl) t]; exact ht.2.2⟩)
  | exhaust q b ho hph hr _ =>
    have hk : ∀ {α : Type} (g : Req → α), (∀ r : Req, g { r with body := b } = g r) → ∀ t, g ((setReq S q fun r => { r with body := b }).reqs t) = g (S.reqs t) :=
      fun g hg t => setReq_keep S q _ g (hg _) t
    obtain ⟨R', a1, a2, a3, a4, _⟩ := disconnect_spec q (setReq S q fun r => { r with body := b })
    have hfin : ∀ t, Live S t → FinishedIn t (disconnect q (setReq S q fun r => { r with body := b })).obs := by
      intro t ht
      refine disconnect_live (S := setReq S q fun r => { r with body := b }) ⟨ht.1, (hk Req.connected (fun _ => rfl) t).trans ht.2.1, ?_⟩ hr
      rw [hk Req.status (fun _ => rfl) t]; exact ht.2.2
    rw [a1]
    exact h.keep (finished_inert a4).begun (fun x hx => (finished_inert a4 x hx).2.2.2) rfl rfl (fun h => .inr rfl) (.inr rfl) rfl
      (fun t => (a2.other t (fun h => h)).2.1.trans (hk Req.status (fun _ => rfl) t))
      (fun t => (a2.same t).2.1.trans (hk Req.head (fun _ => rfl) t)) (fun t ht => .inl (hfin t ht))
  | close e =>
    obtain ⟨R', os, h1, h2, h3, h4, _⟩ := close_spec size e S hF.base
    obtain ⟨c1, c2⟩ := close_ends hF.base hp
    rw [h2] at c1 c2
    rw [h2, ← List.append_assoc, h1]
    have hos : ∀ {q}, FinishedIn q (os ++ [.closed]) → FinishedIn q os := by
      rintro q ⟨a, b, c, hm⟩
      rcases List.mem_append.mp hm with hm | hm
      · exact ⟨a, b, c, hm⟩
      · rw [List.mem_singleton] at hm; cases hm
    refine ⟨fun q hq => ?_, (fun _ _ hr => nomatch hr), (fun _ _ hr => nomatch hr), fun q hq => ?_, fun s hs => ?_⟩
    · rw [cuts_closed] at hq
      cases hq
    · show (R' q).status = 0
      rw [(h4.other q (fun ha => hF.not_queued (hF.awaited ha) hq)).2.1]
      exact h.queued q hq
    · rw [cuts_closed, h3.inert.cuts] at hs
      rcases List.mem_append.mp hs with hs | hs
      · exact h.ended s hs
      · rw [List.mem_singleton] at hs
        subst hs
        intro q hq
        dsimp only at hq
        rw [begun_append, h3.inert.begun, List.append_nil] at hq
        rcases h.all q hq with hq | hq | hq
        · exact (hos (c1 q ((mem_pending hF.base).mp hq))).right _
        · exact hq.left _
        · exact (hos (c2 q hq)).right _
  | arrive => exact h.keep rfl (by simp) rfl rfl (fun h => .inl h) (.inl rfl) rfl (fun _ => rfl) (fun _ => rfl) (fun q hq => .inr (live_same hq rfl rfl))
  | round q r r' b' last last' evs hr hrd =>
    have hfr := facts_round (r' := r') (b' := b') hF hr
    have haw : Awaited { S with response := some (q, r'), buf := b' } q := .inl ⟨r', rfl⟩
    have hin := apply_inert size q evs { S with response := some (q, r'), buf := b' }
    obtain ⟨t1, t2⟩ := round_ends hrd
    obtain ⟨e1, e2⟩ := apply_ends (size := size) evs { S with response := some (q, r'), buf := b' } t1 (hF.first_only hr) (fun hc => hfr.base.linked q haw hc) hp
    obtain ⟨f1, f2, _⟩ := apply_frame size q evs { S with response := some (q, r'), buf := b' } hfr.base haw
    have hother := fun t (ht : t ≠ q) => apply_status (size := size) (S := { S with response := some (q, r'), buf := b' }) evs ht (fun hc => hfr.base.linked q haw hc) hfr.base haw
    have hE : ∀ t, Ends (cuts tr).2 S t → Ends (cuts (tr ++ (apply size q evs { S with response := some (q, r'), buf := b' }).obs)).2
        (apply size q evs { S with response := some (q, r'), buf := b' }).s t := by
      intro t ht
      rw [hin.cuts]
      rcases ht with ht | ht
      · exact .inl (ht.left _)
      · rcases e1 t (live_same ht rfl rfl) with ht | ht
        · exact .inl (ht.right _)
        · exact .inr ht
    have hphase := apply_phase size q evs { S with response := some (q, r'), buf := b' }
    have hqueue : (apply size q evs { S with response := some (q, r'), buf := b' }).s.queue = S.queue :=
      apply_keeps State.queue (fun _ _ _ _ _ => rfl) size q evs { S with response := some (q, r'), buf := b' }
    refine ⟨fun t ht => ?_, fun t x hx hdn => ?_, fun hph t ht => ?_, fun t ht => ?_, fun s hs => ?_⟩
    · rw [hin.cuts, begun_append, hin.begun, List.append_nil] at ht
      refine (h.all t ht).imp (fun ht => ?_) (hE t)
      unfold pending at ht ⊢
      rw [f1, f2]
      rw [hr] at ht
      exact ht
    · rw [f1] at hx
      cases hx
      rcases e2 (t2 hdn) with hh | hh
      · left; rw [hin.cuts]; exact hh.right _
      · exact .inr hh
    · obtain ⟨g1, g2⟩ := hphase hph
      rw [g2] at ht
      obtain ⟨i1, e, i2⟩ := h.idle g1 t ht
      have htq : t ≠ q := by
        rintro rfl
        obtain ⟨g, hg⟩ := hF.base.heads t (.inl ⟨r, hr⟩)
        rw [hg] at i2
        cases i2
      obtain ⟨j1, j2⟩ := hother t htq
      exact ⟨j1.trans i1, e, j2.trans i2⟩
    · rw [hqueue] at ht
      have htq : t ≠ q := by
        rintro rfl
        exact hF.not_queued (hF.awaited (.inl ⟨r, hr⟩)) ht
      exact (hother t htq).1.trans (h.queued t ht)
    · rw [hin.cuts] at hs
      exact h.ended s hs
  | next q r p ps hr hn hs =>
    rw [List.append_nil]
    refine ⟨fun t ht => ?_, fun t x hx hd => ?_, h.idle, h.queued, h.ended⟩
    · rcases h.all t ht with ht | ht
      · unfold pending at ht
        rw [hr, hs] at ht
        rcases List.mem_cons.mp ht with ht | ht
        · right
          rw [ht]
          exact h.done q r hr hn
        · exact .inl ht
      · exact .inr ht
    · cases hx
      cases hd
  | last q r hr hn hs =>
    rw [List.append_nil]
    refine ⟨fun t ht => ?_, (fun t x hx hd => nomatch hx), h.idle, h.queued, h.ended⟩
    rcases h.all t ht with ht | ht
    · unfold pending at ht
      rw [hr, hs] at ht
      rw [List.mem_singleton] at ht
      right
      rw [ht]
      exact h.done q r hr hn
    · exact .inr ht
  | idle => exact h.keep rfl (by simp) rfl rfl (fun h => .inl h) (.inl rfl) rfl (fun _ => rfl) (fun _ => rfl) (fun q hq => .inr (live_same hq rfl rfl))
  | raised => exact h.keep rfl (by simp) rfl rfl (fun h => .inl h) (.inl rfl) rfl (fun _ => rfl) (fun _ => rfl) (fun q hq => .inr (live_same hq rfl rfl))

end Verif.Http.Conn
