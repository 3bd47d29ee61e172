import Verif.Lemmas.HttpConnectionEnds

/-! What holds in every history of a connection. -/

namespace Verif.Http.Conn

open Verif Msg Spec.HttpConnection

theorem asked_other {es : List Event} {e : Event} (he : ∀ m h x b, e ≠ .queue m h x b) : asked (es ++ [e]) = asked es := by
  rw [asked_append]
  cases e with
  | queue m h x b => exact absurd rfl (he m h x b)
  | task | close | kill => simp [asked]

/-- The requests that were started were asked for before. -/
theorem asked_back {size : Nat} {es : List Event} {tr : List Obs} {S : State} (h : Whole size es tr S) {q : Rid} (hq : q ∈ begun tr) {e : Event} {a : Ask}
    (ha : (asked (es ++ [e]))[q]? = some a) : (asked es)[q]? = some a := by
  rw [asked_append, List.getElem?_append_left (by rw [← h.facts.len]; exact h.fewer q hq)] at ha
  exact ha

theorem mem_begun_mid {s1 s2 : List Obs} {q : Rid} : q ∈ begun (s1 ++ .started q :: s2) := by
  rw [begun_append]
  exact List.mem_append_right _ (List.mem_cons_self ..)

/-- Everything about waiting for `100 Continue`. -/
theorem held (size : Nat) (es : List Event) (hp : Polite size es) : HeadOnly es (run size es).2 := by
  have key := run_ind size (fun es tr S => Polite size es → Whole size es tr S ∧ Held es tr S ∧ HeadOnly es tr)
    (fun _ => ⟨whole_fresh size, ?_, ?_⟩) ?_ ?_ ?_ ?_ es hp
  · exact key.2.2
  · intro s1 q s2 h
    have := congrArg List.length h
    simp at this
  · intro s1 q s2 s3 h
    have := congrArg List.length h
    simp at this
  · intro es tr S m hd x b hS h hp
    obtain ⟨hW, hH, hO⟩ := h (polite_of_append hp)
    refine ⟨whole_queue hW m hd x b (by rw [hS]; exact hp es m hd x b [] rfl), ?_, ?_⟩
    · intro s1 q s2 he hc a ha hx
      exact hH s1 q s2 he hc a (asked_back hW (by rw [he]; exact mem_begun_mid) ha) hx
    · intro s1 q s2 s3 he hc a ha hx
      exact hO s1 q s2 s3 he hc a (asked_back hW (by rw [he, List.append_assoc]; exact mem_begun_mid) ha) hx
  · intro es tr S h hp
    obtain ⟨hW, hH, hO⟩ := h (polite_of_append hp)
    have ha : asked (es ++ [.kill]) = asked es := asked_other (by intros; simp)
    refine ⟨⟨⟨hW.facts.base.of_same rfl rfl rfl rfl rfl rfl (fun h => h), by rw [ha]; exact hW.facts.len, by rw [ha]; exact hW.facts.static, by rw [ha]; exact hW.facts.unread,
      hW.facts.untold, hW.facts.sorted, hW.facts.apart, hW.facts.polite, hW.facts.pipe, hW.facts.part⟩, hW.fewer, ?_, fun M l hG => hW.fifo M l hG.less,
      fun s hs => (hW.sent s hs).more _, fun s hs => (hW.served s hs).more _⟩, ?_, ?_⟩
    · obtain ⟨l, tail, a1, a2⟩ := hW.wired
      exact ⟨l, tail, a1.more _, a2⟩
    · intro s1 q s2 he hc a h'
      rw [ha] at h'
      exact hH s1 q s2 he hc a h'
    · intro s1 q s2 s3 he hc a h'
      rw [ha] at h'
      exact hO s1 q s2 s3 he hc a h'
  · intro es tr S o S' h hm hp
    obtain ⟨hW, hH, hO⟩ := h hp
    exact ⟨whole_micro hW hm, held_micro hW hH hm, headOnly_micro hW hH hO hm⟩
  · intro es tr S e h he hp
    obtain ⟨hW, hH, hO⟩ := h (polite_of_append hp)
    have ha : asked (es ++ [e]) = asked es := asked_other he
    refine ⟨⟨⟨hW.facts.base, by rw [ha]; exact hW.facts.len, by rw [ha]; exact hW.facts.static, by rw [ha]; exact hW.facts.unread,
      hW.facts.untold, hW.facts.sorted, hW.facts.apart, hW.facts.polite, hW.facts.pipe, hW.facts.part⟩, hW.fewer, ?_, fun M l hG => hW.fifo M l hG.less,
      fun s hs => (hW.sent s hs).more _, fun s hs => (hW.served s hs).more _⟩, ?_, ?_⟩
    · obtain ⟨l, tail, a1, a2⟩ := hW.wired
      exact ⟨l, tail, a1.more _, a2⟩
    · intro s1 q s2 he hc a h'
      rw [ha] at h'
      exact hH s1 q s2 he hc a h'
    · intro s1 q s2 s3 he hc a h'
      rw [ha] at h'
      exact hO s1 q s2 s3 he hc a h'

/-- Everything about the ends of requests. -/
theorem owed (size : Nat) (es : List Event) (hp : Polite size es) (hr : Proper (run size es).2) : Owed (run size es).2 (run size es).1 := by
  have key := run_ind size (fun es tr S => Polite size es → Proper tr → Facts es tr S ∧ (∀ q ∈ begun tr, q < S.next) ∧ Owed tr S ∧ Whole size es tr S)
    (fun _ _ => ⟨(whole_fresh size).facts, (whole_fresh size).fewer, ?_, whole_fresh size⟩) ?_ ?_ ?_ ?_ es hp hr
  · exact key.2.2.1
  · exact ⟨(fun _ h => nomatch h), (fun _ _ h => nomatch h), (fun _ _ h => nomatch h), (fun _ h => nomatch h), (fun _ h => nomatch h)⟩
  · intro es tr S m hd x b hS h hp ht
    obtain ⟨hF, hn, hO, hW⟩ := h (polite_of_append hp) ht
    have hW' := whole_queue hW m hd x b (by rw [hS]; exact hp es m hd x b [] rfl)
    refine ⟨hW'.facts, hW'.fewer, ?_, hW'⟩
    have hold : ∀ q, q < S.next → (step size (.queue m hd x b) S).1.reqs q = S.reqs q := by
      intro q hq
      show (if q = S.next then _ else S.reqs q) = _
      rw [if_neg (Nat.ne_of_lt hq)]
    have hE : ∀ q, Ends (cuts tr).2 S q → Ends (cuts tr).2 (step size (.queue m hd x b) S).1 q := by
      intro q hq
      refine hq.imp id fun hl => ⟨hl.1, ?_⟩
      rw [hold q (hF.base.below q (.inr (.inr hl.1)))]
      exact hl.2
    refine ⟨fun q hq => (hO.all q hq).imp id (hE q), fun q r h1 h2 => hE q (hO.done q r h1 h2), fun h1 q h2 => ?_, fun q hq => ?_, hO.ended⟩
    · rw [hold q (hF.base.below q (.inr (.inr h2)))]
      exact hO.idle h1 q h2
    · rcases List.mem_append.mp (show q ∈ S.queue ++ [S.next] from hq) with hq | hq
      · rw [hold q (hF.base.below q (.inr (.inl hq)))]
        exact hO.queued q hq
      · rw [List.mem_singleton] at hq
        show (if q = S.next then ({ method := m, head := hd, expect := x, body := b } : Req) else S.reqs q).status = 0
        rw [if_pos hq]
  · intro es tr S h hp ht
    obtain ⟨hF, hn, hO, hW⟩ := h (polite_of_append hp) ht
    have ha : asked (es ++ [.kill]) = asked es := asked_other (by intros; simp)
    have hF' : Facts (es ++ [.kill]) tr (step size .kill S).1 := ⟨hW.facts.base.of_same rfl rfl rfl rfl rfl rfl (fun h => h), by rw [ha]; exact hW.facts.len, by rw [ha]; exact hW.facts.static, by rw [ha]; exact hW.facts.unread,
      hW.facts.untold, hW.facts.sorted, hW.facts.apart, hW.facts.polite, hW.facts.pipe, hW.facts.part⟩
    refine ⟨hF', hn, ⟨hO.all, hO.done, hO.idle, hO.queued, hO.ended⟩, hF', hW.fewer, ?_, fun M l hG => hW.fifo M l hG.less,
      fun s hs => (hW.sent s hs).more _, fun s hs => (hW.served s hs).more _⟩
    obtain ⟨l, tail, a1, a2⟩ := hW.wired
    exact ⟨l, tail, a1.more _, a2⟩
  · intro es tr S o S' h hm hp ht
    obtain ⟨hF, hn, hO, hW⟩ := h hp ht.left
    exact ⟨(whole_micro hW hm).facts, (whole_micro hW hm).fewer, owed_micro hF hO ht.right hm, whole_micro hW hm⟩
  · intro es tr S e h he hp ht
    obtain ⟨hF, hn, hO, hW⟩ := h (polite_of_append hp) ht
    have ha : asked (es ++ [e]) = asked es := asked_other he
    have hF' : Facts (es ++ [e]) tr S := ⟨hW.facts.base, by rw [ha]; exact hW.facts.len, by rw [ha]; exact hW.facts.static, by rw [ha]; exact hW.facts.unread,
      hW.facts.untold, hW.facts.sorted, hW.facts.apart, hW.facts.polite, hW.facts.pipe, hW.facts.part⟩
    refine ⟨hF', hn, hO, hF', hW.fewer, ?_, fun M l hG => hW.fifo M l hG.less,
      fun s hs => (hW.sent s hs).more _, fun s hs => (hW.served s hs).more _⟩
    obtain ⟨l, tail, a1, a2⟩ := hW.wired
    exact ⟨l, tail, a1.more _, a2⟩

/-! ## Killed connections -/

/-- What reading responses shows. -/
def Talk (os : List Obs) : Prop := ∀ o ∈ os, (∃ q w st e d, o = .answered q w st e d) ∨ ∃ q st e d, o = .finished q st e d

theorem Talk.append {a b : List Obs} (ha : Talk a) (hb : Talk b) : Talk (a ++ b) := fun o ho => (List.mem_append.mp ho).elim (ha o) (hb o)

theorem disconnect_talk (p : Rid) (S : State) : Talk (disconnect p S).obs := by
  unfold disconnect
  dsimp only
  split
  · intro o ho
    rw [List.mem_singleton] at ho
    exact .inr ⟨_, _, _, _, ho⟩
  · exact fun _ h => nomatch h

theorem settle_talk (size : Nat) (q : Rid) (w : Bool) (st : Option Nat) (e : Option Cause) (S : State) : Talk (settle size q w st e S).obs := by
  have h1 : ∀ {x y z u v}, Talk [.answered x y z u v] := by
    intro x y z u v o ho
    rw [List.mem_singleton] at ho
    exact .inl ⟨_, _, _, _, _, ho⟩
  have h2 : ∀ {x y z u v} (T : State), Talk [.answered x y z u v, finishedObs T q] := by
    intro x y z u v T o ho
    rcases List.mem_cons.mp ho with ho | ho
    · exact .inl ⟨_, _, _, _, _, ho⟩
    · rw [List.mem_singleton] at ho
      exact .inr ⟨_, _, _, _, ho⟩
  unfold settle
  cases st with
  | none => exact h2 _
  | some n =>
    dsimp only
    split
    · exact h1
    · split
      · split
        · split
          · exact h1
          · split
            · exact h1
            · unfold Out.andThen
              dsimp only
              refine h1.append ?_
              unfold requestDisconnect
              split
              · exact fun _ h => nomatch h
              · exact disconnect_talk _ _
        · exact h1
      · exact h2 _

theorem apply_talk (size : Nat) (q : Rid) (evs : List Ev) (S : State) : Talk (apply size q evs S).obs :=
  apply_ind size q (fun _ o => Talk o) (fun _ _ _ h => h) (fun T _ n h => h.append (settle_talk size q true (lastStatus T q (some n)) none T)) evs S [] (fun _ h => nomatch h)

/-- Whether there is a socket. -/
def Opened (os : List Obs) : Bool := os.foldl (fun b o => match o with
  | .opened => true
  | .closed => false
  | _ => b) false

theorem opened_append (a b : List Obs) (h : ∀ o ∈ b, o ≠ .opened ∧ o ≠ .closed) : Opened (a ++ b) = Opened a := by
  unfold Opened
  rw [List.foldl_append]
  generalize List.foldl _ false a = x
  induction b generalizing x with
  | nil => rfl
  | cons o b ih =>
    rw [List.foldl_cons, ih (fun o ho => h o (List.mem_cons_of_mem _ ho))]
    have := h o (List.mem_cons_self ..)
    cases o <;> first | rfl | exact absurd rfl this.1 | exact absurd rfl this.2

/-- What a small step does to the socket. -/
theorem socket_micro {size : Nat} {S S' : State} {o : List Obs} (hB : Base S) (h : Micro size S o S') : S'.dead = S.dead ∧
    ((S'.socket = S.socket ∧ ∀ x ∈ o, x ≠ .opened ∧ x ≠ .closed) ∨ (o = [.opened] ∧ S.dead = false ∧ S'.socket = true) ∨
      (S'.socket = false ∧ ∃ os, o = os ++ [.closed] ∧ ∀ x ∈ os, x ≠ .opened)) := by
  have talk : ∀ {o : List Obs}, Talk o → ∀ x ∈ o, x ≠ .opened ∧ x ≠ .closed := by
    intro o h x hx
    rcases h x hx with ⟨_, _, _, _, _, rfl⟩ | ⟨_, _, _, _, rfl⟩ <;> exact ⟨by simp, by simp⟩
  cases h with
  | start q qs hq hp =>
    have : ∀ T : State, (start q T).s.dead = T.dead ∧ (start q T).s.socket = T.socket ∧ ∀ x ∈ (start q T).obs, x ≠ .opened ∧ x ≠ .closed := by
      intro T
      unfold start
      dsimp only
      cases hd : (T.reqs q).head with
      | error e => exact ⟨rfl, rfl, (fun _ h => nomatch h)⟩
      | ok g => exact ⟨rfl, rfl, by simp⟩
    obtain ⟨h1, h2, h3⟩ := this (if S.response.isNone ∨ idempotent (S.reqs q).method then { S with queue := qs } else S)
    refine ⟨h1.trans ?_, .inl ⟨h2.trans ?_, h3⟩⟩
    · split <;> rfl
    · split <;> rfl
  | opened h1 h2 => exact ⟨rfl, .inr (.inl ⟨rfl, h2, rfl⟩)⟩
  | zero p _ _ => exact ⟨rfl, .inl ⟨rfl, talk (disconnect_talk p S)⟩⟩
  | exhaust q b => exact ⟨rfl, .inl ⟨rfl, talk (disconnect_talk q _)⟩⟩
  | close e =>
    obtain ⟨R', os, h1, h2, h3, _⟩ := close_spec size e S hB
    rw [h1, h2]
    refine ⟨rfl, .inr (.inr ⟨rfl, os, rfl, fun x hx => ?_⟩)⟩
    rcases h3 x hx with ⟨_, _, _, _, rfl⟩ | ⟨_, _, _, _, rfl⟩ <;> simp
  | round q r r' b' _ _ evs hr _ =>
    refine ⟨?_, .inl ⟨?_, talk (apply_talk size q evs _)⟩⟩
    · exact apply_keeps State.dead (fun _ _ _ _ _ => rfl) size q evs { S with response := some (q, r'), buf := b' }
    · exact apply_keeps State.socket (fun _ _ _ _ _ => rfl) size q evs { S with response := some (q, r'), buf := b' }
  | empty | some | all | since | timeout | refill | arrive | next | last | idle | raised => exact ⟨rfl, .inl ⟨rfl, by simp⟩⟩

theorem socket_run (size : Nat) (es : List Event) : Base (run size es).1 ∧ (run size es).1.socket = Opened (run size es).2 := by
  refine run_ind size (fun _ tr S => Base S ∧ S.socket = Opened tr) ⟨base_fresh, rfl⟩ ?_ ?_ ?_ ?_ es
  · intro es tr S m hd x b _ ⟨h1, h2⟩
    exact ⟨base_queue h1 m hd x b, h2⟩
  · intro es tr S ⟨h1, h2⟩
    exact ⟨h1.of_same rfl rfl rfl rfl rfl rfl (fun h => h), h2⟩
  · intro es tr S o S' ⟨h1, h2⟩ hm
    refine ⟨base_micro h1 hm, ?_⟩
    rcases (socket_micro h1 hm).2 with ⟨a, b⟩ | ⟨rfl, _, a⟩ | ⟨a, os, rfl, _⟩
    · rw [a, opened_append _ _ b, h2]
    · rw [a]
      unfold Opened
      rw [List.foldl_append]
      rfl
    · rw [a]
      unfold Opened
      rw [← List.append_assoc, List.foldl_append]
      rfl
  · exact fun es tr S e h _ => h

theorem dead_chain {size : Nat} {S S' : State} {o : List Obs} (h : Chain size S o S') (hB : Base S) (hd : S.dead = true) :
    Base S' ∧ S'.dead = true ∧ .opened ∉ o := by
  induction h with
  | refl => exact ⟨hB, hd, (fun h => nomatch h)⟩
  | step _ hm ih =>
    obtain ⟨h1, h2, h3⟩ := ih
    obtain ⟨a, b⟩ := socket_micro h1 hm
    refine ⟨base_micro h1 hm, a.trans h2, fun hx => ?_⟩
    rcases List.mem_append.mp hx with hx | hx
    · exact h3 hx
    · rcases b with ⟨_, b⟩ | ⟨_, b, _⟩ | ⟨_, os, rfl, b⟩
      · exact (b _ hx).1 rfl
      · rw [h2] at b
        cases b
      · rcases List.mem_append.mp hx with hx | hx
        · exact b _ hx rfl
        · rw [List.mem_singleton] at hx
          cases hx

theorem dead_step {size : Nat} {S : State} (e : Event) (hB : Base S) (hd : S.dead = true) :
    Base (step size e S).1 ∧ (step size e S).1.dead = true ∧ .opened ∉ (step size e S).2 := by
  cases e with
  | queue m h x b => exact ⟨base_queue hB m h x b, hd, (fun h => nomatch h)⟩
  | task E => exact dead_chain (task_chain size E S) hB hd
  | close => exact dead_chain (.one (.close none)) hB hd
  | kill => exact ⟨hB.of_same rfl rfl rfl rfl rfl rfl (fun h => h), by show (S.dead || _) = true; rw [hd]; rfl, (fun h => nomatch h)⟩

theorem run_append (size : Nat) (es fs : List Event) :
    run size (es ++ fs) = fs.foldl (fun x e => ((step size e x.1).1, x.2 ++ (step size e x.1).2)) (run size es) := by
  unfold run
  rw [List.foldl_append]

theorem dead_run {size : Nat} : ∀ (fs : List Event) (x : State × List Obs), Base x.1 → x.1.dead = true →
    ∃ tail, (fs.foldl (fun x e => ((step size e x.1).1, x.2 ++ (step size e x.1).2)) x).2 = x.2 ++ tail ∧ .opened ∉ tail
  | [], x, _, _ => ⟨[], (List.append_nil _).symm, (fun h => nomatch h)⟩
  | e :: fs, x, hB, hd => by
    obtain ⟨h1, h2, h3⟩ := dead_step (size := size) e hB hd
    obtain ⟨tail, h4, h5⟩ := dead_run fs ((step size e x.1).1, x.2 ++ (step size e x.1).2) h1 h2
    refine ⟨(step size e x.1).2 ++ tail, ?_, fun hx => (List.mem_append.mp hx).elim h3 h5⟩
    rw [List.foldl_cons, h4, List.append_assoc]

end Verif.Http.Conn
