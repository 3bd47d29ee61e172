import Verif.Lemmas.HttpConnectionOrder
import Verif.Props.HttpMessage

/-! To whom a connection gives the answers. -/

namespace Verif.Http.Conn

open Verif Msg Spec.HttpConnection

/-- Nothing follows the end. -/
def Tidy : List Ev → Prop
  | [] => True
  | .finished _ :: es => es = []
  | .header :: es => Tidy es
  | .data _ :: es => Tidy es

theorem tidy_write (d : Str) (es : List Ev) (h : Tidy es) : Tidy (write d ++ es) := by
  unfold write
  split
  · exact h
  · exact h

theorem tidy_ended {r : Resp} {es : List Ev} (h : ∀ fs, Tidy fs → Tidy (es ++ fs)) : Tidy (ended r es).2 := by
  unfold ended
  split
  · exact h _ rfl
  · have := h [] trivial
    rwa [List.append_nil] at this

theorem tidy_step {m : Str} {r r' : Resp} {u : Str} {e : List Ev} (h : Step m r u r' e) : Tidy e := by
  rcases h with ⟨_, _, h⟩ | ⟨n, _, _, _, h⟩
  · unfold recvLine at h
    split at h
    · split at h
      · cases h
      · cases h; trivial
    · split at h
      · cases h
      · split at h
        · split at h
          · cases h
          · next x _ =>
            injection h with h
            have := tidy_ended (r := startBody x) (es := [.header]) (fun fs hf => hf)
            rw [h] at this
            exact this
        · cases h; trivial
    · split at h
      · cases h
      · cases h; trivial
    · split at h
      · cases h
      · next x _ =>
        injection h with h
        split at h
        · have := tidy_ended (r := { x with mode := .done }) (es := []) (fun fs hf => hf)
          rw [h] at this
          exact this
        · cases h; trivial
    · cases h
    · cases h
    · cases h
  · have hw : ∀ d, Tidy (write d) := fun d => by
      have := tidy_write d [] trivial
      rwa [List.append_nil] at this
    unfold recvBytes at h
    dsimp only at h
    split at h
    · injection h with _ h
      rw [← h]
      exact hw _
    · split at h
      · have := congrArg (fun x => Tidy x.2) h
        dsimp only at this
        rw [← this]
        exact tidy_ended (fun fs hf => tidy_write _ fs hf)
      · injection h with _ h
        rw [← h]
        exact hw _
    · have := congrArg (fun x => Tidy x.2) h
      dsimp only at this
      rw [← this]
      exact tidy_ended (fun fs hf => hf)

/-- What a request is told by what happens to its response. -/
def tellsOf (q : Rid) : Str → List Ev → List (Rid × Option Nat × Str)
  | _, [] => []
  | b, .header :: es => tellsOf q b es
  | b, .data d :: es => tellsOf q (b ++ d) es
  | b, .finished n :: es => (q, some n, b) :: tellsOf q [] es

/-- What is kept of a body. -/
def keptOf : Str → List Ev → Str
  | b, [] => b
  | b, .header :: es => keptOf b es
  | b, .data d :: es => keptOf (b ++ d) es
  | _, .finished _ :: es => keptOf [] es

theorem tellsOf_append (q : Rid) : ∀ (e : List Ev) (b : Str) (f : List Ev), tellsOf q b (e ++ f) = tellsOf q b e ++ tellsOf q (keptOf b e) f
  | [], b, f => rfl
  | .header :: e, b, f => tellsOf_append q e b f
  | .data d :: e, b, f => tellsOf_append q e (b ++ d) f
  | .finished n :: e, b, f => by
    show _ :: tellsOf q [] (e ++ f) = _ :: (tellsOf q [] e ++ _)
    rw [tellsOf_append q e [] f]
    rfl

theorem tellsOf_data (q : Rid) (f : List Ev) : ∀ (ds : List Str) (b : Str), tellsOf q b (ds.map .data ++ f) = tellsOf q (b ++ ds.flatten) f
  | [], b => by simp
  | d :: ds, b => by
    show tellsOf q (b ++ d) (ds.map .data ++ f) = _
    rw [tellsOf_data q f ds (b ++ d), List.append_assoc]
    rfl

theorem tellsOf_answered (q : Rid) (ds : List Str) (status : Nat) : ∀ infos : List Nat,
    tellsOf q [] (Props.answered infos ds status) = infos.map (fun n => (q, some n, [])) ++ [(q, some status, ds.flatten)]
  | [] => by
    show tellsOf q [] (ds.map .data ++ [.finished status]) = _
    rw [tellsOf_data]
    rfl
  | n :: infos => by
    show (q, some n, []) :: tellsOf q [] (Props.answered infos ds status) = _
    rw [tellsOf_answered q ds status infos]
    rfl

theorem reply_steps {m : Str} {a : Reply} (h : a.To m) (q : Rid) : ∃ r e, Steps m {} a.text r e ∧ needs r = .nothing ∧ tellsOf q [] e = a.tells q := by
  obtain ⟨ma, mi, fs, h⟩ := h
  obtain ⟨r, ds, h1, h2, h3, _⟩ := Props.answer_steps h
  refine ⟨r, _, h1, ?_, ?_⟩
  · unfold needs; rw [h2]
  · rw [tellsOf_answered, h3]; rfl

theorem settle_told (size : Nat) (q : Rid) (n : Nat) (e : Option Cause) (S : State) :
    told (settle size q true (some n) e S).obs = [(q, some n, (S.reqs q).buffer)] ∧ ((settle size q true (some n) e S).s.reqs q).buffer = [] ∧
    ((settle size q true (some n) e S).exn = none ∨ True) := by
  have hb : ((setReq S q fun r => { r with status := n, error := e, result := r.buffer, buffer := [] }).reqs q).buffer = [] := by
    rw [setReq_reqs, if_pos rfl]
  have hb' : ∀ b, ((setReq (setReq S q fun r => { r with status := n, error := e, result := r.buffer, buffer := [] }) q fun r => { r with body := b }).reqs q).buffer = [] := by
    intro b
    rw [setReq_reqs, if_pos rfl]
    exact hb
  refine ⟨?_, ?_, .inr trivial⟩
  · unfold settle
    dsimp only
    split
    · rfl
    · split
      · split
        · split
          · rfl
          · split
            · rfl
            · unfold Out.andThen
              dsimp only
              rw [told_append]
              have : told (requestDisconnect (setReq (setReq S q fun r => { r with status := n, error := e, result := r.buffer, buffer := [] }) q
                  fun r => { r with body := by assumption })).obs = [] := by
                unfold requestDisconnect
                split
                · rfl
                · next p _ =>
                  obtain ⟨_, _, _, _, a4, _⟩ := disconnect_spec p (setReq (setReq S q fun r => { r with status := n, error := e, result := r.buffer, buffer := [] }) q
                    fun r => { r with body := by assumption })
                  unfold told
                  rw [List.filterMap_eq_nil_iff]
                  intro o ho
                  obtain ⟨_, _, _, rfl⟩ := a4 o ho
                  rfl
              rw [this]
              rfl
        · rfl
      · rfl
  · unfold settle
    dsimp only
    split
    · split
      · unfold continueBody
        split <;> exact hb
      · exact hb
    · split
      · split
        · split
          · exact hb
          · next d b _ =>
            split
            · exact hb' b
            · unfold Out.andThen
              dsimp only
              unfold requestDisconnect
              split
              · exact hb' b
              · next p _ =>
                obtain ⟨R', a1, a2, _, _, _⟩ := disconnect_spec p (setReq (setReq S q fun r => { r with status := n, error := e, result := r.buffer, buffer := [] }) q fun r => { r with body := b })
                dsimp only
                rw [a1]
                exact (a2.other q (fun h => h)).1.trans (hb' b)
        · exact hb
      · exact hb

theorem apply_told (size : Nat) (q : Rid) : ∀ (es : List Ev) (S : State), Tidy es → q ∉ S.responses →
    told (apply size q es S).obs = tellsOf q (S.reqs q).buffer es ∧ ((apply size q es S).s.reqs q).buffer = keptOf (S.reqs q).buffer es
  | [], S, _, _ => ⟨rfl, rfl⟩
  | .header :: es, S, ht, hn => apply_told size q es S ht hn
  | .data d :: es, S, ht, hn => by
    have := apply_told size q es (setReq S q fun r => { r with buffer := r.buffer ++ d }) ht hn
    rw [setReq_reqs, if_pos rfl] at this
    exact this
  | .finished n :: es, S, ht, hn => by
    cases (show es = [] from ht)
    have hl : lastStatus S q (some n) = some n := by
      unfold lastStatus
      rw [if_neg]
      simpa using hn
    unfold apply
    rw [hl]
    obtain ⟨h1, h2, _⟩ := settle_told size q n none S
    unfold Out.andThen
    split
    · exact ⟨h1, h2⟩
    · dsimp only
      rw [show apply size q [] _ = ⟨_, [], none⟩ from rfl]
      dsimp only
      rw [List.append_nil]
      exact ⟨h1, h2⟩

theorem settled_buf {size : Nat} {q : Rid} {S S' : State} {o : List Obs} (h : Settled size q S S' o) : S'.buf = S.buf := by
  cases h <;> rfl

theorem apply_frame (size : Nat) (q : Rid) (evs : List Ev) (S : State) (hB : Base S) (ha : Awaited S q) :
    (apply size q evs S).s.response = S.response ∧ (apply size q evs S).s.responses = S.responses ∧ (apply size q evs S).s.buf = S.buf := by
  obtain ⟨_, h1, h2⟩ := base_apply (size := size) evs hB ha
  refine ⟨h1, h2, ?_⟩
  refine (apply_ind size q (fun T _ => (Base T ∧ Awaited T q) ∧ T.buf = S.buf) ?_ ?_ evs S [] ⟨⟨hB, ha⟩, rfl⟩).2
  · intro T _ d ⟨⟨hB, ha⟩, hb⟩
    exact ⟨⟨(base_apply (size := size) [.data d] hB ha).1, ha⟩, hb⟩
  · intro T _ n ⟨⟨hB, ha⟩, hb⟩
    have hs := settle_spec size q true (lastStatus T q (some n)) none T (fun hc => hB.linked q ha hc)
    refine ⟨⟨base_settled hB hs, ?_⟩, ?_⟩
    · obtain ⟨e1, e2⟩ := settled_awaited hs
      unfold Awaited
      rw [e1, e2]
      exact ha
    · rw [← hb]
      exact settled_buf hs

/-- The methods of requests, known in advance. -/
def Agrees (es : List Event) (M : Rid → Str) : Prop := ∀ q a, (asked es)[q]? = some a → M q = a.method

/-- What the requests should be told. -/
def expected (l : List (Rid × Reply)) : List (Rid × Option Nat × Str) := l.flatMap fun p => p.2.tells p.1

/-- The bytes of the answers. -/
def texts (l : List (Rid × Reply)) : Str := l.flatMap fun p => p.2.text

/-- The answers that have been given and those that are to come. -/
def Link (M : Rid → Str) (l : List (Rid × Reply)) (cur : List Obs) (S : State) : Prop :=
  S.buf.OK ∧ ∃ rest, got cur ++ rest = texts l ∧
  match S.response with
  | none => ∃ l1 l2, l = l1 ++ l2 ∧ l1.map (·.1) = begun cur ∧ told cur = expected l1 ∧ S.buf.pieces.flatten ++ rest = texts l2
  | some (q, r) => ∃ l1 a l2 c r' e, l = l1 ++ (q, a) :: l2 ∧ l1.map (·.1) ++ q :: S.responses = begun cur ∧ Steps (M q) r c r' e ∧
      needs r' = .nothing ∧ told cur ++ tellsOf q (S.reqs q).buffer e = expected l1 ++ a.tells q ∧
      S.buf.pieces.flatten ++ rest = c ++ texts l2

/-- The answers of a part of a history are those of the server. -/
structure Given (es : List Event) (M : Rid → Str) (l : List (Rid × Reply)) (cur : List Obs) : Prop where
  agrees : Agrees es M
  replies : ∀ p ∈ l, p.2.To (M p.1)
  order : ∃ more, l.map (·.1) = begun cur ++ more
  bytes : ∃ rest, got cur ++ rest = texts l

theorem Given.of_append {es : List Event} {M : Rid → Str} {l : List (Rid × Reply)} {cur o : List Obs} (h : Given es M l (cur ++ o)) :
    Given es M l cur := by
  obtain ⟨m, hm⟩ := h.order
  obtain ⟨b, hb⟩ := h.bytes
  refine ⟨h.agrees, h.replies, ⟨begun o ++ m, ?_⟩, ⟨got o ++ b, ?_⟩⟩
  · rw [hm, begun_append, List.append_assoc]
  · rw [← hb, got_append, List.append_assoc]

/-- The answers go to their requests. -/
def Fifo (es : List Event) (tr : List Obs) (S : State) : Prop := ∀ M l, Given es M l (cuts tr).2 → Link M l (cuts tr).2 S

/-- The answers of a part of a history have gone to their requests. -/
def Served (es : List Event) (s : List Obs) : Prop := ∀ M l, Given es M l s → ∃ more, told s ++ more = expected l

theorem link_served {M : Rid → Str} {l : List (Rid × Reply)} {cur : List Obs} {S : State} (h : Link M l cur S) : ∃ more, told cur ++ more = expected l := by
  obtain ⟨_, rest, _, h⟩ := h
  split at h
  · obtain ⟨l1, l2, rfl, _, h1, _⟩ := h
    exact ⟨expected l2, by rw [h1]; unfold expected; rw [List.flatMap_append]⟩
  · next q r _ =>
    obtain ⟨l1, a, l2, c, r', e, rfl, _, _, _, h1, _⟩ := h
    refine ⟨tellsOf q (S.reqs q).buffer e ++ expected l2, ?_⟩
    rw [← List.append_assoc, h1]
    unfold expected
    rw [List.flatMap_append, List.flatMap_cons, List.append_assoc]

/-- Nothing that matters happens. -/
theorem Fifo.keep {es : List Event} {tr o : List Obs} {S S' : State} (h : Fifo es tr S) (ho : begun o = []) (hg : got o = []) (ht : told o = [])
    (hn : ∀ x ∈ o, x ≠ .closed) (h1 : S'.response = S.response) (h2 : S'.responses = S.responses) (h3 : S'.buf = S.buf)
    (h4 : ∀ q r, S.response = some (q, r) → (S'.reqs q).buffer = (S.reqs q).buffer) : Fifo es (tr ++ o) S' := by
  intro M l hG
  rw [cuts_append hn] at hG ⊢
  dsimp only at hG ⊢
  obtain ⟨a1, rest, a2, a3⟩ := h M l hG.of_append
  refine ⟨by rw [h3]; exact a1, rest, by rw [got_append, hg, List.append_nil]; exact a2, ?_⟩
  rw [h1, begun_append, told_append, ho, ht, List.append_nil, List.append_nil, h3, h2]
  split
  · next hr => rw [hr] at a3; exact a3
  · next q r hr =>
    rw [hr] at a3
    rw [h4 q r hr]
    exact a3

theorem told_finished {os : List Obs} {q : Rid} (h : ∀ o ∈ os, ∃ st e d, o = .finished q st e d) : told os = [] := by
  unfold told
  rw [List.filterMap_eq_nil_iff]
  intro o ho
  obtain ⟨_, _, _, rfl⟩ := h o ho
  rfl

theorem step_needs {m : Str} {r r' : Resp} {u : Str} {e : List Ev} (h : Step m r u r' e) : needs r ≠ .nothing := by
  rcases h with ⟨h, _⟩ | ⟨n, h, _⟩ <;> rw [h] <;> simp

theorem buf_grow {b : Buf} (h : b.OK) (d : Str) : Buf.OK ⟨b.pieces ++ [d], b.size + d.length⟩ := by
  unfold Buf.OK at h ⊢
  simp only [h, List.flatten_append, List.flatten_cons, List.flatten_nil, List.append_nil, List.length_append]
  omega

theorem fifo_micro {size : Nat} {es : List Event} {tr o : List Obs} {S S' : State} (hF : Facts es tr S) (h : Fifo es tr S)
    (hm : Micro size S o S') : Fifo es (tr ++ o) S' := by
  cases hm with
  | start q qs hq hp =>
    obtain ⟨h1, _⟩ := facts_start hF hq hp
    rw [if_pos h1]
    cases hd : (S.reqs q).head with
    | error e =>
      have hst : start q { S with queue := qs } = ⟨{ setReq { S with queue := qs } q (fun r => { r with connected := true }) with request := some q }, [], some e⟩ := by
        unfold start
        dsimp only
        rw [hd]
      rw [hst]
      dsimp only
      refine h.keep rfl rfl rfl (by simp) rfl rfl rfl (fun p r _ => ?_)
      exact setReq_keep { S with queue := qs } q (fun r => { r with connected := true }) Req.buffer rfl p
    | ok g =>
      have hst : start q { S with queue := qs } = ⟨{ setReq { S with queue := qs } q (fun r => { r with connected := true }) with
          request := some q
          out := S.out ++ [g]
          phase := if (S.reqs q).expect then .waiting else .sending
          since := if (S.reqs q).expect then false else S.since
          response := match S.response with
            | none => some (q, {})
            | some x => some x
          responses := match S.response with
            | none => S.responses
            | some _ => S.responses ++ [q] }, [.started q], none⟩ := by
        unfold start
        dsimp only
        rw [hd]
        cases S.response <;> rfl
      rw [hst]
      dsimp only
      have hbf : ∀ p, ((setReq { S with queue := qs } q (fun r => { r with connected := true })).reqs p).buffer = (S.reqs p).buffer :=
        setReq_keep { S with queue := qs } q (fun r => { r with connected := true }) Req.buffer rfl
      intro M l hG
      rw [cuts_append (by simp)] at hG ⊢
      dsimp only at hG ⊢
      obtain ⟨a1, rest, a2, a3⟩ := h M l hG.of_append
      have hgt : got ((cuts tr).2 ++ [.started q]) = got (cuts tr).2 := by rw [got_append]; simp [got]
      have htd : told ((cuts tr).2 ++ [.started q]) = told (cuts tr).2 := by rw [told_append]; simp [told]
      have hbg : begun ((cuts tr).2 ++ [.started q]) = begun (cuts tr).2 ++ [q] := by rw [begun_append]; rfl
      refine ⟨a1, rest, by rw [hgt]; exact a2, ?_⟩
      rw [htd, hbg]
      dsimp only
      cases hrs : S.response with
      | none =>
        rw [hrs] at a3 hbf
        dsimp only at a3 ⊢
        obtain ⟨l1, l2, b1, b2, b3, b4⟩ := a3
        obtain ⟨more, hm⟩ := hG.order
        rw [hbg, b1, List.map_append, b2, List.append_assoc] at hm
        have hm := List.append_cancel_left hm
        cases l2 with
        | nil => cases hm
        | cons x l2 =>
          obtain ⟨p, a⟩ := x
          injection hm with hm1 hm2
          dsimp only at hm1
          subst hm1
          obtain ⟨r', e, c1, c2, c3⟩ := reply_steps (hG.replies (p, a) (by rw [b1]; simp)) p
          refine ⟨l1, a, l2, a.text, r', e, b1, ?_, c1, c2, ?_, ?_⟩
          · rw [b2, hF.base.first hrs]
          · rw [hbf p, hF.untold p (.inl (by rw [hq]; simp)), c3, b3]
          · show S.buf.pieces.flatten ++ rest = _
            rw [b4]; rfl
      | some x =>
        rw [hrs] at a3 hbf
        obtain ⟨q', r⟩ := x
        dsimp only at a3 ⊢
        obtain ⟨l1, a, l2, c, r', e, b1, b2, b3, b4, b5, b6⟩ := a3
        refine ⟨l1, a, l2, c, r', e, b1, ?_, b3, b4, ?_, b6⟩
        · rw [← b2]; simp
        · rw [hbf q']; exact b5
  | opened => exact h.keep rfl rfl rfl (by simp) rfl rfl rfl (fun _ _ _ => rfl)
  | empty => exact h.keep rfl rfl rfl (by simp) rfl rfl rfl (fun _ _ _ => rfl)
  | zero p _ _ =>
    obtain ⟨R', a1, a2, a3, a4, _⟩ := disconnect_spec p S
    rw [a1]
    refine h.keep (finished_inert a4).begun (finished_inert a4).got (told_finished a4) (fun x hx => (finished_inert a4 x hx).2.2.2) rfl rfl rfl
      (fun t _ _ => (a2.other t (fun h => h)).1)
  | some => exact h.keep rfl rfl rfl (by simp) rfl rfl rfl (fun _ _ _ => rfl)
  | all => exact h.keep rfl rfl rfl (by simp) rfl rfl rfl (fun _ _ _ => rfl)
  | since => exact h.keep rfl rfl rfl (by simp) rfl rfl rfl (fun _ _ _ => rfl)
  | timeout => exact h.keep rfl rfl rfl (by simp) rfl rfl rfl (fun _ _ _ => rfl)
  | refill q d b =>
    refine h.keep rfl rfl rfl (by simp) rfl rfl rfl (fun t _ _ => ?_)
    exact setReq_keep S q (fun r => { r with body := b }) Req.buffer rfl t
  | exhaust q b =>
    obtain ⟨R', a1, a2, a3, a4, _⟩ := disconnect_spec q (setReq S q fun r => { r with body := b })
    rw [a1]
    refine h.keep (finished_inert a4).begun (finished_inert a4).got (told_finished a4) (fun x hx => (finished_inert a4 x hx).2.2.2) rfl rfl rfl
      (fun t _ _ => (a2.other t (fun h => h)).1.trans ?_)
    exact setReq_keep S q (fun r => { r with body := b }) Req.buffer rfl t
  | close e =>
    obtain ⟨R', os, h1, h2, h3, h4, _⟩ := close_spec size e S hF.base
    rw [h2, ← List.append_assoc, h1]
    intro M l hG
    rw [cuts_closed] at hG ⊢
    exact ⟨rfl, texts l, rfl, [], l, rfl, rfl, rfl, rfl⟩
  | arrive d hd hs =>
    intro M l hG
    rw [cuts_append (by simp)] at hG ⊢
    dsimp only at hG ⊢
    obtain ⟨a1, rest, a2, a3⟩ := h M l hG.of_append
    obtain ⟨rest', hb⟩ := hG.bytes
    have hgt : got ((cuts tr).2 ++ [.received d]) = got (cuts tr).2 ++ d := by rw [got_append]; simp [got]
    have htd : told ((cuts tr).2 ++ [.received d]) = told (cuts tr).2 := by rw [told_append]; simp [told]
    have hbg : begun ((cuts tr).2 ++ [.received d]) = begun (cuts tr).2 := by rw [begun_append]; simp [begun]
    rw [hgt, ← a2, List.append_assoc] at hb
    have hrest := List.append_cancel_left hb
    refine ⟨buf_grow a1 d, rest', by rw [hgt, ← a2, ← hrest, List.append_assoc], ?_⟩
    rw [htd, hbg]
    dsimp only
    have hfl : (S.buf.pieces ++ [d]).flatten ++ rest' = S.buf.pieces.flatten ++ rest := by rw [← hrest]; simp
    rw [hfl]
    exact a3
  | round q r r' b' last last' evs hr hrd =>
    intro M l hG
    have hin := apply_inert size q evs { S with response := some (q, r'), buf := b' }
    rw [hin.cuts] at hG ⊢
    dsimp only at hG ⊢
    obtain ⟨a1, rest, a2, a3⟩ := h M l hG.of_append
    rw [hr] at a3
    dsimp only at a3
    obtain ⟨l1, a, l2, c, r2, e, b1, b2, b3, b4, b5, b6⟩ := a3
    have hlt := hF.base.below q (.inl (.inl ⟨r, hr⟩))
    rw [hF.len] at hlt
    have ha : (asked es)[q]? = some ((asked es)[q]'hlt) := List.getElem?_eq_getElem hlt
    have hM : (S.reqs q).method = M q := by rw [(hF.static q _ ha).1, hG.agrees q _ ha]
    rw [hM] at hrd
    cases b3 with
    | refl =>
      unfold Msg.round at hrd
      rw [b4] at hrd
      cases hrd
    | step hs hss =>
      next r1 u s e1 e2 =>
      have hnr : q ∉ S.responses := hF.first_only hr
      rw [List.append_assoc] at b6
      have hcase : (∃ rest2, S.buf.pieces.flatten = u ++ rest2) ∨ (∃ t, u = S.buf.pieces.flatten ++ t ∧ t ≠ []) := by
        rcases List.append_eq_append_iff.mp b6 with ⟨as, c1, c2⟩ | ⟨bs, c1, c2⟩
        · by_cases hat : as = []
          · exact .inl ⟨[], by rw [c1, hat]; simp⟩
          · exact .inr ⟨as, c1, hat⟩
        · exact .inl ⟨bs, c1⟩
      rcases hcase with ⟨rest2, hc⟩ | ⟨t, ht, ht'⟩
      · obtain ⟨b2', last2, c1, c2, c3⟩ := round_step hs a1 hc last
        rw [c1] at hrd
        cases hrd
        obtain ⟨d1, d2⟩ := apply_told size q evs { S with response := some (q, r'), buf := b' } (tidy_step hs) hnr
        have hq1 : Awaited { S with response := some (q, r'), buf := b' } q := .inl ⟨r', rfl⟩
        have hfr := facts_round (r' := r') (b' := b') hF hr
        obtain ⟨f1, f2, f3⟩ := apply_frame size q evs { S with response := some (q, r'), buf := b' } hfr.base hq1
        refine ⟨by rw [f3]; exact c2, rest, ?_, ?_⟩
        · rw [got_append, hin.got, List.append_nil]; exact a2
        · rw [f1, f2, f3, begun_append, told_append, hin.begun, List.append_nil, d1]
          dsimp only
          refine ⟨l1, a, l2, s, r2, e2, b1, b2, hss, b4, ?_, ?_⟩
          · rw [d2, List.append_assoc]
            rw [tellsOf_append] at b5
            exact b5
          · rw [c3]
            rw [hc, List.append_assoc] at b6
            exact List.append_cancel_left b6
      · rw [round_blocked hs a1 rfl ht ht' last] at hrd
        cases hrd
  | next q r p ps hr hn hs =>
    intro M l hG
    rw [List.append_nil] at hG ⊢
    obtain ⟨a1, rest, a2, a3⟩ := h M l hG
    rw [hr] at a3
    dsimp only at a3
    obtain ⟨l1, a, l2, c, r2, e, b1, b2, b3, b4, b5, b6⟩ := a3
    cases b3 with
    | step hs _ => exact absurd hn (step_needs hs)
    | refl =>
      obtain ⟨more, hm⟩ := hG.order
      rw [← b2, b1, hs, List.map_append, List.append_assoc] at hm
      have hm := List.append_cancel_left hm
      injection hm with _ hm
      cases l2 with
      | nil => cases hm
      | cons x l2 =>
        obtain ⟨p', a'⟩ := x
        injection hm with hm1 hm2
        dsimp only at hm1
        subst hm1
        obtain ⟨r', e, c1, c2, c3⟩ := reply_steps (hG.replies (p', a') (by rw [b1]; simp)) p'
        refine ⟨a1, rest, a2, ?_⟩
        dsimp only
        refine ⟨l1 ++ [(q, a)], a', l2, a'.text, r', e, by rw [b1]; simp, ?_, c1, c2, ?_, ?_⟩
        · rw [← b2, hs]; simp
        · rw [show S.reqs = S.reqs from rfl, hF.untold p' (.inr (by rw [hs]; simp)), c3]
          rw [show tellsOf q (S.reqs q).buffer [] = [] from rfl, List.append_nil] at b5
          rw [b5]
          simp [expected]
        · rw [b6]; rfl
  | last q r hr hn hs =>
    intro M l hG
    rw [List.append_nil] at hG ⊢
    obtain ⟨a1, rest, a2, a3⟩ := h M l hG
    rw [hr] at a3
    dsimp only at a3
    obtain ⟨l1, a, l2, c, r2, e, b1, b2, b3, b4, b5, b6⟩ := a3
    cases b3 with
    | step hs _ => exact absurd hn (step_needs hs)
    | refl =>
      refine ⟨a1, rest, a2, ?_⟩
      dsimp only
      refine ⟨l1 ++ [(q, a)], l2, by rw [b1]; simp, ?_, ?_, b6⟩
      · rw [← b2, hs]; simp
      · rw [show tellsOf q (S.reqs q).buffer [] = [] from rfl, List.append_nil] at b5
        rw [b5]
        simp [expected]
  | idle => exact h.keep rfl rfl rfl (by simp) rfl rfl rfl (fun _ _ _ => rfl)
  | raised => exact h.keep rfl rfl rfl (by simp) rfl rfl rfl (fun _ _ _ => rfl)

theorem served_of {es : List Event} {tr : List Obs} {S : State} (h : Fifo es tr S) : Served es (cuts tr).2 :=
  fun M l hG => link_served (h M l hG)

end Verif.Http.Conn
