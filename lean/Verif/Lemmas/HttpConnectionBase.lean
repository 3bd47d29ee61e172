import Verif.Lemmas.HttpConnection

/-! What holds in every state of a connection, and what closing it does. -/

namespace Verif.Http.Conn

open Verif Msg

/-- What reading and closing change of the requests. -/
def Same (R R' : Rid → Req) : Prop :=
  ∀ q, (R' q).method = (R q).method ∧ (R' q).head = (R q).head ∧ (R' q).expect = (R q).expect

theorem Same.refl (R : Rid → Req) : Same R R := fun _ => ⟨rfl, rfl, rfl⟩

theorem Same.trans {R R' R'' : Rid → Req} (h : Same R R') (h' : Same R' R'') : Same R R'' := fun q =>
  ⟨(h' q).1.trans (h q).1, (h' q).2.1.trans (h q).2.1, (h' q).2.2.trans (h q).2.2⟩

/-- There is a response to the request that is not complete. -/
def Awaited (S : State) (q : Rid) : Prop := (∃ r, S.response = some (q, r)) ∨ q ∈ S.responses

/-- What holds in every state. -/
structure Base (S : State) : Prop where
  /-- a request that is awaited and connected is the one being sent -/
  linked : ∀ q, Awaited S q → (S.reqs q).connected = true → S.request = some q
  ready : S.phase = .ready → ∀ q, Awaited S q → (S.reqs q).connected = false
  first : S.response = none → S.responses = []
  heads : ∀ q, Awaited S q → ∃ h, (S.reqs q).head = .ok h
  below : ∀ q, Awaited S q ∨ q ∈ S.queue ∨ S.request = some q → q < S.next

/-- Only members that do not matter are changed. -/
theorem Base.of_same {S S' : State} (h : Base S) (h1 : S'.response = S.response) (h2 : S'.responses = S.responses)
    (h3 : S'.request = S.request) (h4 : S'.reqs = S.reqs) (h5 : S'.queue = S.queue) (h6 : S'.next = S.next)
    (h7 : S'.phase = .ready → S.phase = .ready) : Base S' := by
  have ha : ∀ q, Awaited S' q → Awaited S q := by
    intro q hq
    unfold Awaited at hq ⊢
    rwa [h1, h2] at hq
  exact ⟨fun q hq hc => by rw [h3]; rw [h4] at hc; exact h.linked q (ha q hq) hc, fun hp q hq => by rw [h4]; exact h.ready (h7 hp) q (ha q hq),
    fun hr => by rw [h2]; exact h.first (h1.symm.trans hr), fun q hq => by rw [h4]; exact h.heads q (ha q hq), fun q hq => by
      rw [h6]
      rw [h5, h3] at hq
      exact h.below q (hq.imp (ha q) id)⟩

theorem setReq_reqs (S : State) (q : Rid) (f : Req → Req) (p : Rid) : (setReq S q f).reqs p = if p = q then f (S.reqs q) else S.reqs p := rfl

/-- What is seen of closing before it has ended. -/
def Quiet (os : List Obs) : Prop :=
  ∀ o ∈ os, (∃ q st e d, o = .answered q false st e d) ∨ (∃ q st e d, o = .finished q st e d)

/-- The effect of closing on the requests. -/
structure Cut (who : Rid → Prop) (R R' : Rid → Req) : Prop where
  same : Same R R'
  body : ∀ q, (R' q).body = (R q).body
  connected : ∀ q, (R' q).connected = true → (R q).connected = true
  other : ∀ q, ¬ who q → (R' q).buffer = (R q).buffer ∧ (R' q).status = (R q).status ∧ (R' q).result = (R q).result ∧
    (R' q).error = (R q).error

theorem Cut.trans {who : Rid → Prop} {R R' R'' : Rid → Req} (h : Cut who R R') (h' : Cut who R' R'') : Cut who R R'' :=
  ⟨h.same.trans h'.same, fun q => (h'.body q).trans (h.body q), fun q hc => h.connected q (h'.connected q hc),
   fun q hq => ⟨(h'.other q hq).1.trans (h.other q hq).1, (h'.other q hq).2.1.trans (h.other q hq).2.1,
    (h'.other q hq).2.2.1.trans (h.other q hq).2.2.1, (h'.other q hq).2.2.2.trans (h.other q hq).2.2.2⟩⟩

theorem Cut.mono {who who' : Rid → Prop} {R R' : Rid → Req} (h : Cut who R R') (hw : ∀ q, who q → who' q) : Cut who' R R' :=
  ⟨h.same, h.body, h.connected, fun q hq => h.other q fun hw' => hq (hw q hw')⟩

theorem setReq_cut (S : State) (q : Rid) (f : Req → Req) (h1 : (f (S.reqs q)).method = (S.reqs q).method)
    (h2 : (f (S.reqs q)).head = (S.reqs q).head) (h3 : (f (S.reqs q)).expect = (S.reqs q).expect)
    (h4 : (f (S.reqs q)).body = (S.reqs q).body) (h5 : (f (S.reqs q)).connected = true → (S.reqs q).connected = true) :
    Cut (· = q) S.reqs (setReq S q f).reqs := by
  refine ⟨fun p => ?_, fun p => ?_, fun p => ?_, fun p hp => ?_⟩
  · rw [setReq_reqs]
    split
    · next h => subst h; exact ⟨h1, h2, h3⟩
    · exact ⟨rfl, rfl, rfl⟩
  · rw [setReq_reqs]
    split
    · next h => subst h; exact h4
    · rfl
  · rw [setReq_reqs]
    split
    · next h => subst h; exact h5
    · exact fun h => h
  · rw [setReq_reqs, if_neg hp]
    exact ⟨rfl, rfl, rfl, rfl⟩

theorem setReq_keep (S : State) (q : Rid) (f : Req → Req) {α : Type} (g : Req → α) (h : g (f (S.reqs q)) = g (S.reqs q)) (p : Rid) :
    g ((setReq S q f).reqs p) = g (S.reqs p) := by
  rw [setReq_reqs]
  split
  · next hp => subst hp; exact h
  · rfl

/-- `ResponseFinished` of a request that is not connected. -/
theorem settle_cut (size : Nat) (q : Rid) (w : Bool) (st : Option Nat) (e : Option Cause) (S : State) (h : (S.reqs q).connected = false) :
    ∃ R', (settle size q w st e S).s = { S with reqs := R' } ∧ Cut (· = q) S.reqs R' ∧ (settle size q w st e S).exn = none ∧
      ∀ o ∈ (settle size q w st e S).obs, (∃ st e d, o = .answered q w st e d) ∨ ∃ st e d, o = .finished q st e d := by
  unfold settle
  cases st with
  | none =>
    refine ⟨(setReq S q fun r => { r with status := 0, error := e }).reqs, rfl, ?_, rfl, ?_⟩
    · exact setReq_cut S q _ rfl rfl rfl rfl (fun h => h)
    · intro o ho
      rcases List.mem_cons.mp ho with rfl | ho
      · exact .inl ⟨_, _, _, rfl⟩
      · rw [List.mem_singleton] at ho
        subst ho
        exact .inr ⟨_, _, _, rfl⟩
  | some n =>
    dsimp only
    have hc : ∀ n e, Cut (· = q) S.reqs (setReq S q fun r => { r with status := n, error := e, result := r.buffer, buffer := [] }).reqs := by
      intro n e
      exact setReq_cut S q _ rfl rfl rfl rfl (fun h => h)
    split
    · rw [h]
      refine ⟨_, rfl, hc n e, rfl, ?_⟩
      intro o ho
      rw [List.mem_singleton] at ho
      subst ho
      exact .inl ⟨_, _, _, rfl⟩
    · rw [if_neg (by rw [h]; simp)]
      refine ⟨_, rfl, hc n e, rfl, ?_⟩
      intro o ho
      rcases List.mem_cons.mp ho with rfl | ho
      · exact .inl ⟨_, _, _, rfl⟩
      · rw [List.mem_singleton] at ho
        subst ho
        exact .inr ⟨_, _, _, rfl⟩

theorem cutResponses_spec (size : Nat) (e : Option Cause) : ∀ (ps : List Rid) (x : Rid × Resp) (S : State),
    (∀ q, q = x.1 ∨ q ∈ ps → (S.reqs q).connected = false) → S.responses = ps →
    ∃ R', (cutResponses size e ps x S).1 = { S with response := none, responses := [], reqs := R' } ∧
      Cut (fun q => q = x.1 ∨ q ∈ ps) S.reqs R' ∧ Quiet (cutResponses size e ps x S).2
  | [], (q, r), S, hc, hs => by
    obtain ⟨R', h1, h2, _, h4⟩ := settle_cut size q false (lastStatus S q r.status) e S (hc q (.inl rfl))
    refine ⟨R', ?_, h2.mono fun p hp => .inl hp, ?_⟩
    · unfold cutResponses
      dsimp only
      rw [h1, ← hs]
    · intro o ho
      rcases h4 o ho with ⟨_, _, _, rfl⟩ | ⟨_, _, _, rfl⟩
      · exact .inl ⟨_, _, _, _, rfl⟩
      · exact .inr ⟨_, _, _, _, rfl⟩
  | p :: ps, (q, r), S, hc, hs => by
    obtain ⟨R', h1, h2, _, h4⟩ := settle_cut size q false (lastStatus S q r.status) e S (hc q (.inl rfl))
    obtain ⟨R'', a1, a2, a3⟩ := cutResponses_spec size e ps (p, {})
      { (settle size q false (lastStatus S q r.status) e S).s with response := some (p, {}), responses := ps } (by
        intro t ht
        show (((settle size q false (lastStatus S q r.status) e S).s).reqs t).connected = false
        rw [h1]
        cases hb : (R' t).connected with
        | false => rfl
        | true =>
          have := h2.connected t hb
          rw [hc t (.inr (by rcases ht with rfl | ht <;> simp_all))] at this
          cases this) rfl
    refine ⟨R'', ?_, ?_, ?_⟩
    · unfold cutResponses
      dsimp only
      rw [a1, h1]
    · have a2' : Cut (fun t => t = p ∨ t ∈ ps) R' R'' := by rw [h1] at a2; exact a2
      refine (h2.mono fun t ht => .inl ht).trans (a2'.mono fun t ht => .inr ?_)
      rcases ht with rfl | ht <;> simp_all
    · intro o ho
      have ho : o ∈ (settle size q false (lastStatus S q r.status) e S).obs ++ _ := ho
      rcases List.mem_append.mp ho with ho | ho
      · rcases h4 o ho with ⟨_, _, _, rfl⟩ | ⟨_, _, _, rfl⟩
        · exact .inl ⟨_, _, _, _, rfl⟩
        · exact .inr ⟨_, _, _, _, rfl⟩
      · exact a3 o ho

theorem disconnect_spec (q : Rid) (S : State) : ∃ R', (disconnect q S).s = { S with reqs := R' } ∧ Cut (fun _ => False) S.reqs R' ∧
    (R' q).connected = false ∧ (∀ o ∈ (disconnect q S).obs, ∃ st e d, o = .finished q st e d) ∧ (disconnect q S).exn = none := by
  refine ⟨(setReq S q fun r => { r with connected := false }).reqs, rfl, ?_, ?_, ?_, rfl⟩
  · refine ⟨fun p => ⟨setReq_keep S q _ Req.method rfl p, setReq_keep S q _ Req.head rfl p, setReq_keep S q _ Req.expect rfl p⟩,
      fun p => setReq_keep S q _ Req.body rfl p, (setReq_cut S q (fun r => { r with connected := false }) rfl rfl rfl rfl (by intro h; cases h)).connected, fun p _ =>
      ⟨setReq_keep S q _ Req.buffer rfl p, setReq_keep S q _ Req.status rfl p, setReq_keep S q _ Req.result rfl p,
        setReq_keep S q _ Req.error rfl p⟩⟩
  · show (if q = q then _ else _ : Req).connected = _
    rw [if_pos rfl]
  · intro o ho
    unfold disconnect at ho
    dsimp only at ho
    split at ho
    · rw [List.mem_singleton] at ho
      subst ho
      exact ⟨_, _, _, rfl⟩
    · cases ho

/-- What `Close` does. -/
theorem close_spec (size : Nat) (e : Option Cause) (S : State) (hB : Base S) :
    ∃ R' os, (close size e S).s =
        { S with request := none, response := none, responses := [], socket := false, out := [], buf := {}, phase := .ready, reqs := R' } ∧
      (close size e S).obs = os ++ [.closed] ∧ Quiet os ∧ Cut (Awaited S) S.reqs R' ∧ (close size e S).exn = none := by
  have h1 : ∃ R1 o1 ph, cutRequest S = ({ S with request := none, phase := ph, reqs := R1 }, o1) ∧ Quiet o1 ∧
      Cut (fun _ => False) S.reqs R1 ∧ ∀ q, Awaited S q → (R1 q).connected = false := by
    unfold cutRequest
    cases hr : S.request with
    | none =>
      refine ⟨S.reqs, [], S.phase, by rw [show S = { S with request := none } by rw [← hr]], (fun _ h => nomatch h), ⟨Same.refl _, fun _ => rfl, fun _ h => h, fun _ _ => ⟨rfl, rfl, rfl, rfl⟩⟩, ?_⟩
      intro q hq
      cases hc : (S.reqs q).connected with
      | false => rfl
      | true =>
        have := hB.linked q hq hc
        rw [hr] at this
        cases this
    | some p =>
      obtain ⟨R1, a1, a2, a3, a4, _⟩ := disconnect_spec p S
      refine ⟨R1, (disconnect p S).obs, .closeWait, ?_, ?_, a2, ?_⟩
      · dsimp only
        rw [a1]
      · intro o ho
        obtain ⟨_, _, _, rfl⟩ := a4 o ho
        exact .inr ⟨_, _, _, _, rfl⟩
      · intro q hq
        cases hc : (R1 q).connected with
        | false => rfl
        | true =>
          have := hB.linked q hq (a2.connected q hc)
          rw [hr] at this
          cases this
          rw [a3] at hc
          cases hc
  obtain ⟨R1, o1, ph, e1, q1, c1, d1⟩ := h1
  unfold close
  rw [e1]
  dsimp only
  cases hr : S.response with
  | none =>
    dsimp only
    refine ⟨R1, o1, ?_, by simp, q1, c1.mono (fun _ h => h.elim), rfl⟩
    rw [hB.first hr]
  | some x =>
    dsimp only
    have haw : ∀ q, q = x.1 ∨ q ∈ S.responses → Awaited S q := by
      intro q hq
      rcases hq with rfl | hq
      · exact .inl ⟨x.2, hr⟩
      · exact .inr hq
    obtain ⟨R2, b1, b2, b3⟩ := cutResponses_spec size e S.responses x { S with request := none, phase := ph, reqs := R1 }
      (fun q hq => d1 q (haw q hq)) rfl
    simp only [hr] at b1 b2 b3 ⊢
    refine ⟨R2, o1 ++ (cutResponses size e S.responses x { S with request := none, response := some x, phase := ph, reqs := R1 }).2, ?_, rfl, ?_,
      (c1.mono (fun _ h => h.elim)).trans (b2.mono haw), trivial⟩
    · rw [b1]
    · intro o ho
      rcases List.mem_append.mp ho with ho | ho
      · exact q1 o ho
      · exact b3 o ho

/-- What a response does to the connection and the requests when it is complete, or at an informational response. -/
inductive Settled (size : Nat) (q : Rid) (S : State) : State → List Obs → Prop where
  /-- the request is not changed but for what it keeps of the response -/
  | plain (R' : Rid → Req) (os : List Obs) : Cut (· = q) S.reqs R' → (∀ p, (R' p).connected = (S.reqs p).connected) →
      Settled size q S { S with reqs := R' } os
  | goOn (R' : Rid → Req) (os : List Obs) : Cut (· = q) S.reqs R' → (∀ p, (R' p).connected = (S.reqs p).connected) →
      S.request = some q → S.phase = .waiting → Settled size q S { S with reqs := R', phase := .sending } os
  | read (R' : Rid → Req) (os : List Obs) (b : Sending) : Same S.reqs R' → (S.reqs q).connected = true →
      readBody size (S.reqs q).body = .ok ([], b) → (∀ p, (R' p).connected = (S.reqs p).connected) →
      (∀ p, (R' p).body = if p = q then b else (S.reqs p).body) → (∀ p, p ≠ q → (R' p).buffer = (S.reqs p).buffer) →
      Settled size q S { S with reqs := R' } os
  | refused (R' : Rid → Req) (os : List Obs) : Same S.reqs R' → (S.reqs q).connected = true → S.request = some q →
      (∀ t, (R' t).connected = true → (S.reqs t).connected = true) → (R' q).connected = false →
      (∀ t, t ≠ q → (R' t).body = (S.reqs t).body) → (∀ t, t ≠ q → (R' t).buffer = (S.reqs t).buffer) →
      Settled size q S { S with reqs := R', request := none, out := [], phase := .closeWait } os

theorem settle_spec (size : Nat) (q : Rid) (w : Bool) (st : Option Nat) (e : Option Cause) (S : State)
    (hl : (S.reqs q).connected = true → S.request = some q) :
    Settled size q S (settle size q w st e S).s (settle size q w st e S).obs := by
  unfold settle
  cases st with
  | none =>
    exact .plain (setReq S q fun r => { r with status := 0, error := e }).reqs _
      (setReq_cut S q (fun r => { r with status := 0, error := e }) rfl rfl rfl rfl (fun h => h))
      (setReq_keep S q (fun r => { r with status := 0, error := e }) Req.connected rfl)
  | some n =>
    dsimp only
    have hc : Cut (· = q) S.reqs (setReq S q fun r => { r with status := n, error := e, result := r.buffer, buffer := [] }).reqs :=
      setReq_cut S q _ rfl rfl rfl rfl (fun h => h)
    have hk : ∀ p, ((setReq S q fun r => { r with status := n, error := e, result := r.buffer, buffer := [] }).reqs p).connected =
        (S.reqs p).connected := setReq_keep S q _ Req.connected rfl
    split
    · split
      · unfold continueBody
        split
        · next h => exact .goOn _ _ hc hk h.1 h.2
        · exact .plain _ _ hc hk
      · exact .plain _ _ hc hk
    · split
      · next hcon =>
        split
        · split
          · exact .plain _ _ hc hk
          · next d b hb =>
            have hr := hl hcon
            have h2 : ∀ {α : Type} (g : Req → α) (p : Rid),
                g ({ (setReq S q fun r => { r with status := n, error := e, result := r.buffer, buffer := [] }).reqs q with body := b }) =
                  g ((setReq S q fun r => { r with status := n, error := e, result := r.buffer, buffer := [] }).reqs q) →
                g ((setReq (setReq S q fun r => { r with status := n, error := e, result := r.buffer, buffer := [] }) q
                  fun r => { r with body := b }).reqs p) =
                g ((setReq S q fun r => { r with status := n, error := e, result := r.buffer, buffer := [] }).reqs p) := by
              intro α g p hg
              exact setReq_keep _ q _ g hg p
            have hsame : Same S.reqs (setReq (setReq S q fun r => { r with status := n, error := e, result := r.buffer, buffer := [] }) q
                  fun r => { r with body := b }).reqs := fun p =>
              ⟨(h2 Req.method p rfl).trans (hc.same p).1, (h2 Req.head p rfl).trans (hc.same p).2.1, (h2 Req.expect p rfl).trans (hc.same p).2.2⟩
            have hcon' : ∀ p, ((setReq (setReq S q fun r => { r with status := n, error := e, result := r.buffer, buffer := [] }) q
                  fun r => { r with body := b }).reqs p).connected = (S.reqs p).connected := fun p =>
              (h2 Req.connected p rfl).trans (hk p)
            have hbody : ∀ p, ((setReq (setReq S q fun r => { r with status := n, error := e, result := r.buffer, buffer := [] }) q
                  fun r => { r with body := b }).reqs p).body = if p = q then b else (S.reqs p).body := by
              intro p
              rw [setReq_reqs]
              split
              · rfl
              · next hp => rw [setReq_reqs, if_neg hp]
            have hbuf : ∀ p, p ≠ q → ((setReq (setReq S q fun r => { r with status := n, error := e, result := r.buffer, buffer := [] }) q
                  fun r => { r with body := b }).reqs p).buffer = (S.reqs p).buffer := by
              intro p hp
              rw [setReq_reqs, if_neg hp, setReq_reqs, if_neg hp]
            split
            · next hd =>
              subst hd
              exact .read _ _ b hsame hcon hb hcon' hbody hbuf
            · unfold Out.andThen requestDisconnect
              dsimp only
              have hreq : ∀ f g, (setReq (setReq S q f) q g).request = S.request := fun _ _ => rfl
              rw [hreq, hr]
              dsimp only
              obtain ⟨R', a1, a2, a3, a4, _⟩ := disconnect_spec q (setReq (setReq S q fun r => { r with status := n, error := e, result := r.buffer, buffer := [] }) q
                  fun r => { r with body := b })
              rw [a1]
              refine .refused R' _ (hsame.trans a2.same) hcon hr (fun t ht => by rw [← hcon' t]; exact a2.connected t ht) a3 ?_ ?_
              · intro t ht
                rw [a2.body, hbody, if_neg ht]
              · intro t ht
                rw [(a2.other t (fun h => h)).1, hbuf t ht]
        · exact .plain _ _ hc hk
      · exact .plain _ _ hc hk

/-- What holds of every change that the events of a response make holds after all of them. -/
theorem apply_ind (size : Nat) (q : Rid) (P : State → List Obs → Prop)
    (hd : ∀ S o d, P S o → P (setReq S q fun r => { r with buffer := r.buffer ++ d }) o)
    (hs : ∀ S o n, P S o → P (settle size q true (lastStatus S q (some n)) none S).s (o ++ (settle size q true (lastStatus S q (some n)) none S).obs)) :
    ∀ (evs : List Ev) (S : State) (o : List Obs), P S o → P (apply size q evs S).s (o ++ (apply size q evs S).obs)
  | [], S, o, h => by
    unfold apply
    rwa [List.append_nil]
  | .header :: es, S, o, h => by
    unfold apply
    exact apply_ind size q P hd hs es S o h
  | .data d :: es, S, o, h => by
    unfold apply
    exact apply_ind size q P hd hs es _ o (hd S o d h)
  | .finished n :: es, S, o, h => by
    unfold apply Out.andThen
    split
    · exact hs S o n h
    · dsimp only
      rw [← List.append_assoc]
      exact apply_ind size q P hd hs es _ _ (hs S o n h)

theorem settled_awaited {size : Nat} {q : Rid} {S S' : State} {o : List Obs} (h : Settled size q S S' o) :
    S'.response = S.response ∧ S'.responses = S.responses := by
  cases h <;> exact ⟨rfl, rfl⟩

theorem base_settled {size : Nat} {q : Rid} {S S' : State} {o : List Obs} (hB : Base S)
    (h : Settled size q S S' o) : Base S' := by
  have hh : ∀ {R' : Rid → Req}, Same S.reqs R' → ∀ p, Awaited S p → ∃ h, (R' p).head = .ok h := by
    intro R' hs p hp
    rw [(hs p).2.1]
    exact hB.heads p hp
  cases h with
  | plain R' _ hc hk =>
    exact ⟨fun p hp hcon => hB.linked p hp (by rw [← hk]; exact hcon), fun hr p hp => (hk p).trans (hB.ready hr p hp), hB.first,
      hh hc.same, hB.below⟩
  | goOn R' _ hc hk _ _ =>
    exact ⟨fun p hp hcon => hB.linked p hp (by rw [← hk]; exact hcon), (fun hr => nomatch hr), hB.first, hh hc.same, hB.below⟩
  | read R' _ b hs hcon hb hk _ _ =>
    exact ⟨fun p hp hcon => hB.linked p hp (by rw [← hk]; exact hcon), fun hr p hp => (hk p).trans (hB.ready hr p hp), hB.first,
      hh hs, hB.below⟩
  | refused R' _ hs hcon hr hk hq _ _ =>
    refine ⟨fun p hp hcon => ?_, (fun hr => nomatch hr), hB.first, hh hs, fun p hp => ?_⟩
    · have := hB.linked p hp (hk p hcon)
      rw [hr] at this
      cases this
      rw [hq] at hcon
      cases hcon
    · rcases hp with hp | hp | hp
      · exact hB.below p (.inl hp)
      · exact hB.below p (.inr (.inl hp))
      · cases hp

theorem base_apply {size : Nat} {q : Rid} {S : State} (evs : List Ev) (hB : Base S) (ha : Awaited S q) :
    Base (apply size q evs S).s ∧ (apply size q evs S).s.response = S.response ∧ (apply size q evs S).s.responses = S.responses := by
  refine apply_ind size q (fun T _ => Base T ∧ T.response = S.response ∧ T.responses = S.responses) ?_ ?_ evs S [] ⟨hB, rfl, rfl⟩
  · intro T _ d ⟨h, h1, h2⟩
    refine ⟨⟨fun p hp hcon => h.linked p hp ?_, fun hr p hp => ?_, h.first, fun p hp => ?_, h.below⟩, h1, h2⟩
    · rw [← setReq_keep T q (fun r => { r with buffer := r.buffer ++ d }) Req.connected rfl p]
      exact hcon
    · rw [setReq_keep T q (fun r => { r with buffer := r.buffer ++ d }) Req.connected rfl p]
      exact h.ready hr p hp
    · rw [setReq_keep T q (fun r => { r with buffer := r.buffer ++ d }) Req.head rfl p]
      exact h.heads p hp
  · intro T _ n ⟨h, h1, h2⟩
    have ha' : Awaited T q := by
      rcases ha with ⟨r, hr⟩ | hr
      · exact .inl ⟨r, h1.trans hr⟩
      · exact .inr (by rw [h2]; exact hr)
    have hs := settle_spec size q true (lastStatus T q (some n)) none T (fun hc => h.linked q ha' hc)
    have := settled_awaited hs
    exact ⟨base_settled h hs, this.1.trans h1, this.2.trans h2⟩

theorem base_fresh : Base fresh := by
  have hn : ∀ q, ¬ Awaited fresh q := by
    intro q h
    rcases h with ⟨_, h⟩ | h <;> cases h
  exact ⟨fun q h => absurd h (hn q), fun _ q h => absurd h (hn q), fun _ => rfl, fun q h => absurd h (hn q), fun q h => by
    rcases h with h | h | h
    · exact absurd h (hn q)
    · cases h
    · cases h⟩

theorem base_queue {size : Nat} {S : State} (hB : Base S) (m : Str) (h : Except Exn Str) (x : Bool) (b : Sending) :
    Base (step size (.queue m h x b) S).1 := by
  have hr : ∀ q, Awaited S q → (if q = S.next then ({ method := m, head := h, expect := x, body := b } : Req) else S.reqs q) = S.reqs q := by
    intro q hq
    rw [if_neg (Nat.ne_of_lt (hB.below q (.inl hq)))]
  refine ⟨fun q hq hc => ?_, fun hp q hq => ?_, hB.first, fun q hq => ?_, fun q hq => ?_⟩
  · have hc : (if q = S.next then ({ method := m, head := h, expect := x, body := b } : Req) else S.reqs q).connected = true := hc
    rw [hr q hq] at hc
    exact hB.linked q hq hc
  · show (if q = S.next then ({ method := m, head := h, expect := x, body := b } : Req) else S.reqs q).connected = false
    rw [hr q hq]
    exact hB.ready hp q hq
  · show ∃ g, (if q = S.next then ({ method := m, head := h, expect := x, body := b } : Req) else S.reqs q).head = .ok g
    rw [hr q hq]
    exact hB.heads q hq
  · show q < S.next + 1
    rcases hq with hq | hq | hq
    · exact Nat.lt_succ_of_lt (hB.below q (.inl hq))
    · rcases List.mem_append.mp hq with hq | hq
      · exact Nat.lt_succ_of_lt (hB.below q (.inr (.inl hq)))
      · rw [List.mem_singleton] at hq
        rw [hq]
        exact Nat.lt_succ_self _
    · exact Nat.lt_succ_of_lt (hB.below q (.inr (.inr hq)))

theorem base_start {S T : State} {q : Rid} {qs : List Rid} (hB : Base S) (hq : S.queue = q :: qs) (hp : S.phase = .ready)
    (h1 : T.response = S.response) (h2 : T.responses = S.responses) (h3 : T.reqs = S.reqs) (h4 : T.phase = S.phase)
    (h5 : ∀ p, p ∈ T.queue → p ∈ S.queue) (h6 : T.next = S.next) : Base (start q T).s := by
  have hcr : ∀ p, p ≠ q → Awaited S p → ((setReq T q fun r => { r with connected := true }).reqs p).connected = false := by
    intro p hpq hp'
    rw [setReq_reqs, if_neg hpq, h3]
    exact hB.ready hp p hp'
  have hh : ∀ p, ((setReq T q fun r => { r with connected := true }).reqs p).head = (S.reqs p).head := by
    intro p
    rw [setReq_keep T q (fun r => { r with connected := true }) Req.head rfl p, h3]
  have hqn : q < S.next := hB.below q (.inr (.inl (by rw [hq]; simp)))
  have haw : ∀ p, Awaited T p ↔ Awaited S p := by
    intro p
    unfold Awaited
    rw [h1, h2]
  unfold start
  dsimp only
  split
  · next e he =>
    refine ⟨fun p hp' hc => ?_, fun _ p hp' => ?_, fun hr => ?_, fun p hp' => ?_, fun p hp' => ?_⟩
    · have hp' := (haw p).mp hp'
      by_cases hpq : p = q
      · rw [hpq]
      · rw [hcr p hpq hp'] at hc; cases hc
    · have hp2 := (haw p).mp hp'
      by_cases hpq : p = q
      · obtain ⟨g, hg⟩ := hB.heads p hp2
        rw [h3, ← hpq, hg] at he
        cases he
      · exact hcr p hpq hp2
    · exact h2.trans (hB.first (h1.symm.trans hr))
    · show ∃ g, ((setReq T q fun r => { r with connected := true }).reqs p).head = .ok g
      rw [hh]
      exact hB.heads p ((haw p).mp hp')
    · show p < T.next
      rw [h6]
      rcases hp' with hp' | hp' | hp'
      · exact hB.below p (.inl ((haw p).mp hp'))
      · exact hB.below p (.inr (.inl (h5 p hp')))
      · cases hp'; exact hqn
  · next g hg =>
    have haw' : ∀ p, Awaited { setReq T q (fun r => { r with connected := true }) with
        request := some q
        out := T.out ++ [g]
        phase := if (T.reqs q).expect then .waiting else .sending
        since := if (T.reqs q).expect then false else T.since
        response := match T.response with
          | none => some (q, {})
          | some x => some x
        responses := match T.response with
          | none => T.responses
          | some _ => T.responses ++ [q] } p → p = q ∨ Awaited S p := by
      intro p hp'
      rcases hp' with ⟨r, hr⟩ | hr
      · dsimp only at hr
        split at hr
        · cases hr; exact .inl rfl
        · next hx => cases hr; exact .inr (.inl ⟨r, h1.symm.trans hx⟩)
      · dsimp only at hr
        split at hr
        · exact .inr (.inr (by rw [← h2]; exact hr))
        · rcases List.mem_append.mp hr with hr | hr
          · exact .inr (.inr (by rw [← h2]; exact hr))
          · exact .inl (List.mem_singleton.mp hr)
    refine ⟨fun p hp' hc => ?_, fun hph => ?_, fun hr => ?_, fun p hp' => ?_, fun p hp' => ?_⟩
    · rcases haw' p hp' with rfl | hp'
      · rfl
      · by_cases hpq : p = q
        · rw [hpq]
        · rw [show (_ : Req).connected = _ from hcr p hpq hp'] at hc; cases hc
    · dsimp only at hph
      split at hph <;> cases hph
    · dsimp only at hr
      split at hr <;> cases hr
    · show ∃ g, ((setReq T q fun r => { r with connected := true }).reqs p).head = .ok g
      rw [hh]
      rcases haw' p hp' with rfl | hp'
      · exact ⟨g, by rw [← h3]; exact hg⟩
      · exact hB.heads p hp'
    · show p < T.next
      rw [h6]
      rcases hp' with hp' | hp' | hp'
      · rcases haw' p hp' with rfl | hp'
        · exact hqn
        · exact hB.below p (.inl hp')
      · exact hB.below p (.inr (.inl (h5 p hp')))
      · cases hp'; exact hqn

theorem base_micro {size : Nat} {S S' : State} {o : List Obs} (hB : Base S) (h : Micro size S o S') : Base S' := by
  cases h with
  | start q qs hq hp =>
    split
    · exact base_start hB hq hp rfl rfl rfl rfl (fun p hp' => by rw [hq]; exact List.mem_cons_of_mem _ hp') rfl
    · exact base_start hB hq hp rfl rfl rfl rfl (fun p hp' => hp') rfl
  | opened => exact hB.of_same rfl rfl rfl rfl rfl rfl (fun h => h)
  | empty => exact hB.of_same rfl rfl rfl rfl rfl rfl (fun h => h)
  | zero p _ hr =>
    obtain ⟨R', a1, a2, a3, _, _⟩ := disconnect_spec p S
    rw [a1]
    refine ⟨fun t ht hcon => ?_, fun hr t ht => ?_, hB.first, fun t ht => by rw [(a2.same t).2.1]; exact hB.heads t ht, fun t ht => ?_⟩
    · have := hB.linked t ht (a2.connected t hcon)
      rw [hr] at this
      cases this
      rw [a3] at hcon
      cases hcon
    · show (R' t).connected = false
      cases hc : (R' t).connected with
      | false => rfl
      | true =>
        have := hB.ready hr t ht
        rw [a2.connected t hc] at this
        cases this
    · rcases ht with ht | ht | ht
      · exact hB.below t (.inl ht)
      · exact hB.below t (.inr (.inl ht))
      · cases ht
  | some => exact hB.of_same rfl rfl rfl rfl rfl rfl (fun h => h)
  | all => exact hB.of_same rfl rfl rfl rfl rfl rfl (fun h => h)
  | since => exact hB.of_same rfl rfl rfl rfl rfl rfl (fun h => h)
  | timeout => exact hB.of_same rfl rfl rfl rfl rfl rfl (fun h => nomatch h)
  | refill q d b _ hp _ _ _ =>
    refine ⟨fun t ht hcon => hB.linked t ht ?_, fun hr => ?_, hB.first, fun t ht => ?_, hB.below⟩
    · rw [← setReq_keep S q (fun r => { r with body := b }) Req.connected rfl t]
      exact hcon
    · rw [show S.phase = .ready from hr] at hp
      cases hp
    · show ∃ g, ((setReq S q fun r => { r with body := b }).reqs t).head = .ok g
      rw [setReq_keep S q (fun r => { r with body := b }) Req.head rfl t]
      exact hB.heads t ht
  | exhaust q b _ _ hr _ =>
    obtain ⟨R', a1, a2, a3, _, _⟩ := disconnect_spec q (setReq S q fun r => { r with body := b })
    rw [a1]
    have key : ∀ t, Awaited S t → (R' t).connected = false := by
      intro t ht
      cases hc : (R' t).connected with
      | false => rfl
      | true =>
        have h1 := a2.connected t hc
        rw [setReq_keep S q (fun r => { r with body := b }) Req.connected rfl t] at h1
        have := hB.linked t ht h1
        rw [hr] at this
        cases this
        rw [a3] at hc
        cases hc
    refine ⟨(fun t ht hcon => absurd ((key t ht).symm.trans hcon) (by simp)), fun _ t ht => key t ht, hB.first, fun t ht => ?_, fun t ht => ?_⟩
    · show ∃ g, (R' t).head = .ok g
      rw [(a2.same t).2.1, setReq_keep S q (fun r => { r with body := b }) Req.head rfl t]
      exact hB.heads t ht
    · rcases ht with ht | ht | ht
      · exact hB.below t (.inl ht)
      · exact hB.below t (.inr (.inl ht))
      · cases ht
  | close e =>
    obtain ⟨R', os, h1, _, _, _, _⟩ := close_spec size e S hB
    rw [h1]
    have hn : ∀ t, ¬ Awaited { S with request := none, response := none, responses := [], socket := false, out := [], buf := {}, phase := .ready, reqs := R' } t := by
      intro t ht
      rcases ht with ⟨_, ht⟩ | ht <;> cases ht
    refine ⟨fun t ht => absurd ht (hn t), fun _ t ht => absurd ht (hn t), fun _ => rfl, fun t ht => absurd ht (hn t), fun t ht => ?_⟩
    rcases ht with ht | ht | ht
    · exact absurd ht (hn t)
    · exact hB.below t (.inr (.inl ht))
    · cases ht
  | arrive => exact hB.of_same rfl rfl rfl rfl rfl rfl (fun h => h)
  | round q r r' b' last last' evs hr _ =>
    refine (base_apply evs ?_ (.inl ⟨r', rfl⟩)).1
    have haw : ∀ t, Awaited { S with response := some (q, r'), buf := b' } t → Awaited S t := by
      intro t ht
      rcases ht with ⟨x, ht⟩ | ht
      · cases ht; exact .inl ⟨r, hr⟩
      · exact .inr ht
    exact ⟨fun t ht => hB.linked t (haw t ht), fun hp t ht => hB.ready hp t (haw t ht), (fun h => nomatch h), fun t ht => hB.heads t (haw t ht),
      fun t ht => hB.below t (ht.imp (haw t) id)⟩
  | next q r p ps hr _ hs =>
    have haw : ∀ t, Awaited { S with response := some (p, {}), responses := ps } t → Awaited S t := by
      intro t ht
      rcases ht with ⟨x, ht⟩ | ht
      · cases ht; exact .inr (by rw [hs]; simp)
      · exact .inr (by rw [hs]; exact List.mem_cons_of_mem _ ht)
    exact ⟨fun t ht => hB.linked t (haw t ht), fun hp t ht => hB.ready hp t (haw t ht), (fun h => nomatch h), fun t ht => hB.heads t (haw t ht),
      fun t ht => hB.below t (ht.imp (haw t) id)⟩
  | last q r hr _ hs =>
    have haw : ∀ t, ¬ Awaited { S with response := none } t := by
      intro t ht
      rcases ht with ⟨x, ht⟩ | ht
      · cases ht
      · rw [show _ = S.responses from rfl, hs] at ht; cases ht
    exact ⟨fun t ht => absurd ht (haw t), fun _ t ht => absurd ht (haw t), fun _ => hs, fun t ht => absurd ht (haw t),
      fun t ht => hB.below t (ht.imp (fun h => absurd h (haw t)) id)⟩
  | idle => exact hB
  | raised => exact hB

end Verif.Http.Conn
