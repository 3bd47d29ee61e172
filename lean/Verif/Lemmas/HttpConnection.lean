import Verif.Model.HttpConnection

/-! Small steps of a connection, and that every step is made of them. -/

namespace Verif.Http.Conn

open Verif Msg

/-- A small step. -/
inductive Micro (size : Nat) : State → List Obs → State → Prop where
  | start {S : State} (q : Rid) (qs : List Rid) : S.queue = q :: qs → S.phase = .ready →
      Micro size S (start q (if S.response.isNone ∨ idempotent (S.reqs q).method then { S with queue := qs } else S)).obs
        (start q (if S.response.isNone ∨ idempotent (S.reqs q).method then { S with queue := qs } else S)).s
  | opened {S : State} : S.socket = false → S.dead = false → Micro size S [.opened] { S with socket := true }
  | empty {S : State} (ds : List Str) : S.out = [] :: ds → Micro size S [] { S with out := ds }
  | zero {S : State} (p : Rid) : S.out ≠ [] → S.request = some p →
      Micro size S (disconnect p S).obs { (disconnect p S).s with request := none, out := [] }
  | some {S : State} (d : Str) (ds : List Str) (n : Nat) : S.out = d :: ds → n < d.length → 0 < n →
      Micro size S [.sent (d.take n)] { S with out := d.drop n :: ds }
  | all {S : State} (d : Str) (ds : List Str) : S.out = d :: ds → Micro size S [.sent d] { S with out := ds }
  | since {S : State} : S.out = [] → S.phase = .waiting → Micro size S [] { S with since := true }
  | timeout {S : State} : S.out = [] → S.phase = .waiting → Micro size S [.timeout] { S with phase := .sending }
  | refill {S : State} (q : Rid) (d : Str) (b : Sending) : S.out = [] → S.phase = .sending → S.request = some q →
      readBody size (S.reqs q).body = .ok (d, b) → d ≠ [] →
      Micro size S [] { (setReq S q fun r => { r with body := b }) with out := [d] }
  | exhaust {S : State} (q : Rid) (b : Sending) : S.out = [] → S.phase = .sending → S.request = some q →
      readBody size (S.reqs q).body = .ok ([], b) →
      Micro size S (disconnect q (setReq S q fun r => { r with body := b })).obs
        { (disconnect q (setReq S q fun r => { r with body := b })).s with request := none, phase := .ready }
  | close {S : State} (error : Option Cause) : Micro size S (close size error S).obs (close size error S).s
  | arrive {S : State} (d : Str) : d ≠ [] → S.response.isSome →
      Micro size S [.received d] { S with buf := ⟨S.buf.pieces ++ [d], S.buf.size + d.length⟩ }
  | round {S : State} (q : Rid) (r r' : Resp) (b' : Buf) (last last' : Option Str) (evs : List Ev) : S.response = some (q, r) →
      Msg.round (S.reqs q).method r S.buf last = .ok (.next r' b' last' evs) →
      Micro size S (apply size q evs { S with response := some (q, r'), buf := b' }).obs
        (apply size q evs { S with response := some (q, r'), buf := b' }).s
  | next {S : State} (q : Rid) (r : Resp) (p : Rid) (ps : List Rid) : S.response = some (q, r) → needs r = .nothing →
      S.responses = p :: ps → Micro size S [] { S with response := some (p, {}), responses := ps }
  | last {S : State} (q : Rid) (r : Resp) : S.response = some (q, r) → needs r = .nothing → S.responses = [] →
      Micro size S [] { S with response := none }
  | idle {S : State} : S.request = none → S.response = none → Micro size S [.idle] S
  | raised {S : State} (e : Exn) : isHttp e = false → Micro size S [.raised e] S

/-- Small steps one after another. -/
inductive Chain (size : Nat) : State → List Obs → State → Prop where
  | refl (S : State) : Chain size S [] S
  | step {S S' S'' : State} {o o' : List Obs} : Chain size S o S' → Micro size S' o' S'' → Chain size S (o ++ o') S''

theorem Chain.one {size : Nat} {S S' : State} {o : List Obs} (h : Micro size S o S') : Chain size S o S' := by
  have := Chain.step (.refl S) h
  rwa [List.nil_append] at this

theorem Chain.trans {size : Nat} {S S' S'' : State} {o o' : List Obs} (h : Chain size S o S') (h' : Chain size S' o' S'') :
    Chain size S (o ++ o') S'' := by
  induction h' with
  | refl => rwa [List.append_nil]
  | step _ hm ih =>
    rw [← List.append_assoc]
    exact .step ih hm

theorem andThen_chain {size : Nat} {S : State} {o : Out} {f : State → Out} (h : Chain size S o.obs o.s)
    (hf : o.exn = none → Chain size o.s (f o.s).obs (f o.s).s) : Chain size S (o.andThen f).obs (o.andThen f).s := by
  unfold Out.andThen
  cases he : o.exn with
  | some e => exact h
  | none => exact h.trans (hf he)

theorem begin_chain (size : Nat) (S : State) : Chain size S (begin S).obs (begin S).s := by
  unfold begin
  split
  · next q qs hq hp => exact .one (.start q qs hq hp)
  · exact .refl S

theorem connect_chain (size : Nat) (E : Env) (S : State) : Chain size S (connect E S).obs (connect E S).s := by
  unfold connect
  split
  · exact .refl S
  · split
    · exact .refl S
    · split
      · exact .refl S
      · next h1 h2 _ _ => exact .one (.opened (by simpa using h1) (by simpa using h2))

theorem send_chain (size : Nat) (E : Env) (S : State) : Chain size S (send size E S).obs (send size E S).s := by
  unfold send
  split
  · exact .refl S
  · next d ds ho =>
    split
    · next hd => subst hd; exact .one (.empty ds ho)
    · split
      · exact .one (.close _)
      · split
        · split
          · exact .refl S
          · next p hp => exact .one (.zero p (by rw [ho]; simp) hp)
        · split
          · next h1 h2 => exact .one (.some d ds _ ho h2 (Nat.pos_of_ne_zero h1))
          · exact .one (.all d ds ho)

theorem transmit_chain (size : Nat) (E : Env) (S : State) : Chain size S (transmit size E S).1.obs (transmit size E S).1.s := by
  unfold transmit
  split
  · dsimp only
    split
    · exact send_chain size E S
    · exact .refl S
  · next ho =>
    have ho : S.out = [] := Classical.byContradiction ho
    split
    · next hp =>
      split
      · split
        · exact .one (.timeout ho hp)
        · exact .refl S
      · exact .one (.since ho hp)
    · next hp =>
      split
      · exact .refl S
      · next q hq =>
        split
        · exact .refl S
        · next d b hb =>
          dsimp only
          split
          · next hd => exact .one (.refill q d b ho hp hq hb hd)
          · next hd =>
            have hd : d = [] := Classical.byContradiction hd
            subst hd
            exact .one (.exhaust q b ho hp hq hb)
    · exact .refl S

theorem round_complete {m : Str} {r : Resp} {b : Buf} {last : Option Str} (h : Msg.round m r b last = .ok .complete) : needs r = .nothing := by
  unfold Msg.round at h
  split at h
  · split at h
    · cases h
    · split at h <;> cases h
  · split at h
    · split at h <;> cases h
    · split at h
      · cases h
      · split at h
        · split at h <;> cases h
        · split at h <;> cases h
  · assumption
  · cases h

theorem drain_chain (size : Nat) : ∀ (n : Nat) (last : Option Str) (S : State),
    Chain size S (drain size n last S).1.obs (drain size n last S).1.s ∧
    ((drain size n last S).2 = true → ∃ q r, (drain size n last S).1.s.response = some (q, r) ∧ needs r = .nothing)
  | 0, _, S => ⟨.refl S, fun h => nomatch h⟩
  | n + 1, last, S => by
    unfold drain
    split
    · exact ⟨.refl S, fun h => nomatch h⟩
    · next q r hr =>
      split
      · exact ⟨.refl S, fun h => nomatch h⟩
      · exact ⟨.refl S, fun h => nomatch h⟩
      · next h => exact ⟨.refl S, fun _ => ⟨q, r, hr, round_complete h⟩⟩
      · next r' b' last' evs h =>
        dsimp only
        have h1 := Micro.round (size := size) q r r' b' last last' evs hr h
        split
        · exact ⟨.one h1, fun h => nomatch h⟩
        · have ih := drain_chain size n last' (apply size q evs { S with response := some (q, r'), buf := b' }).s
          exact ⟨(Chain.one h1).trans ih.1, ih.2⟩

theorem complete_chain (size : Nat) (S : State) (h : ∃ q r, S.response = some (q, r) ∧ needs r = .nothing) :
    Chain size S (complete size S).obs (complete size S).s := by
  obtain ⟨q, r, hr, hn⟩ := h
  unfold complete
  rw [hr]
  dsimp only
  split
  · exact .refl S
  · split
    · next p ps hs =>
      have h1 := Micro.next (size := size) q r p ps hr hn hs
      split
      · exact (Chain.one h1).trans (.one (.close none))
      · exact .one h1
    · next hs =>
      have h1 := Micro.last (size := size) q r hr hn hs
      split
      · exact (Chain.one h1).trans (.one (.close none))
      · exact .one h1

theorem receive_chain (size : Nat) (d : Str) (S : State) (hs : S.response.isSome) :
    Chain size S (receive size d S).obs (receive size d S).s := by
  unfold receive
  split
  · exact .one (.close none)
  · next hd =>
    dsimp only
    have h1 := Chain.one (Micro.arrive (size := size) d hd hs)
    have h2 := drain_chain size (2 * (S.buf.pieces ++ [d]).flatten.length + 3) none
      { S with buf := ⟨S.buf.pieces ++ [d], S.buf.size + d.length⟩ }
    split
    · next hc => exact andThen_chain (h1.trans h2.1) fun _ => complete_chain size _ (h2.2 hc)
    · exact h1.trans h2.1

theorem respond_chain (size : Nat) (E : Env) (S : State) : Chain size S (respond size E S).obs (respond size E S).s := by
  unfold respond
  split
  · exact .refl S
  · next x hx =>
    split
    · exact .refl S
    · exact .one (.close _)
    · exact receive_chain size _ S (by rw [hx]; rfl)

theorem turn_chain (size : Nat) (E : Env) (S : State) : Chain size S (turn size E S).obs (turn size E S).s := by
  unfold turn
  refine andThen_chain (begin_chain size S) fun _ => ?_
  split
  · refine andThen_chain (connect_chain size E _) fun _ => ?_
    dsimp only
    split
    · exact transmit_chain size E _
    · exact andThen_chain (transmit_chain size E _) fun _ => respond_chain size E _
  · next h =>
    dsimp only
    have h1 : (begin S).s.request = none := by
      cases hr : (begin S).s.request with
      | none => rfl
      | some _ => exact absurd (.inl (by rw [hr]; rfl)) h
    have h2 : (begin S).s.response = none := by
      cases hr : (begin S).s.response with
      | none => rfl
      | some _ => exact absurd (.inr (by rw [hr]; rfl)) h
    split
    · refine (Chain.one (.close none)).trans (.one (.idle ?_ ?_))
      · unfold close cutRequest
        rw [h1]
        dsimp only
        rw [h2]
        exact h1
      · unfold close cutRequest
        rw [h1]
        dsimp only
        rw [h2]
        exact h2
    · exact .one (.idle h1 h2)

theorem task_chain (size : Nat) (E : Env) (S : State) : Chain size S (task size E S).2 (task size E S).1 := by
  unfold task
  have h := turn_chain size E S
  dsimp only
  split
  · exact h
  · split
    · exact h.trans (.one (.close _))
    · next he => exact h.trans (.one (.raised _ (by simpa using he)))

/-- An invariant of the small steps, of queueing and of killing holds in every history. -/
theorem run_ind (size : Nat) (P : List Event → List Obs → State → Prop) (h0 : P [] [] fresh)
    (hq : ∀ es tr S m h x b, S = (run size es).1 → P es tr S → P (es ++ [.queue m h x b]) tr (step size (.queue m h x b) S).1)
    (hk : ∀ es tr S, P es tr S → P (es ++ [.kill]) tr (step size .kill S).1)
    (hm : ∀ es tr S o S', P es tr S → Micro size S o S' → P es (tr ++ o) S')
    (he : ∀ es tr S e, P es tr S → (∀ m h x b, e ≠ .queue m h x b) → P (es ++ [e]) tr S) (es : List Event) :
    P es (run size es).2 (run size es).1 := by
  have hc : ∀ es tr S o S', P es tr S → Chain size S o S' → P es (tr ++ o) S' := by
    intro es tr S o S' hp hc
    induction hc with
    | refl => rwa [List.append_nil]
    | step _ h ih => rw [← List.append_assoc]; exact hm _ _ _ _ _ ih h
  have key : ∀ (es : List Event) (done : List Event) (x : State × List Obs), x = run size done → P done x.2 x.1 →
      P (done ++ es) (es.foldl (fun x e => ((step size e x.1).1, x.2 ++ (step size e x.1).2)) x).2
        (es.foldl (fun x e => ((step size e x.1).1, x.2 ++ (step size e x.1).2)) x).1 := by
    intro es
    induction es with
    | nil => intro done x _ h; rwa [List.append_nil]
    | cons e es ih =>
      intro done x hx h
      rw [List.foldl_cons, show done ++ e :: es = (done ++ [e]) ++ es by simp]
      apply ih
      · rw [hx]
        unfold run
        rw [List.foldl_append]
        rfl
      cases e with
      | queue m h' x' b =>
        have := hq done x.2 x.1 m h' x' b (by rw [hx]) h
        show P _ (x.2 ++ []) _
        rwa [List.append_nil]
      | task E => exact hc _ _ _ _ _ (he _ _ _ _ h (by intros; simp)) (task_chain size E x.1)
      | close => exact hm _ _ _ _ _ (he _ _ _ _ h (by intros; simp)) (.close none)
      | kill =>
        have := hk done x.2 x.1 h
        show P _ (x.2 ++ []) _
        rwa [List.append_nil]
  exact key es [] (fresh, []) rfl h0

end Verif.Http.Conn
