import Verif.Lemmas.HttpConnectionWire
import Verif.Lemmas.HttpConnectionAnswers

/-! What holds in every polite history of a connection. -/

namespace Verif.Http.Conn

open Verif Msg Spec.HttpConnection

/-- All that holds. -/
structure Whole (size : Nat) (es : List Event) (tr : List Obs) (S : State) : Prop where
  facts : Facts es tr S
  fewer : ∀ q ∈ begun tr, q < S.next
  wired : Wired size es tr S
  fifo : Fifo es tr S
  sent : ∀ s ∈ (cuts tr).1, OnWire size es s
  served : ∀ s ∈ (cuts tr).1, Served es s

theorem polite_of_append {size : Nat} {es fs : List Event} (h : Polite size (es ++ fs)) : Polite size es := by
  intro pre m hd x b post he
  exact h pre m hd x b (post ++ fs) (by rw [he]; simp)

theorem idempotent_of {m : Str} (h : m ∈ repeatable) : idempotent m = true := by
  unfold idempotent
  rw [List.contains_iff_mem]
  exact h

theorem whole_fresh (size : Nat) : Whole size [] [] fresh := by
  refine ⟨⟨base_fresh, rfl, (fun _ _ h => by cases h), (fun _ h => nomatch h), (fun _ h => by rcases h with h | h <;> cases h), .nil, (fun _ h => nomatch h),
    (fun _ _ h => nomatch h), ⟨[], rfl⟩, ⟨[], rfl⟩⟩, (fun _ h => nomatch h), ⟨[], [], ⟨rfl, (fun _ h => nomatch h)⟩, rfl, fun _ => ⟨rfl, rfl⟩, (fun _ h => nomatch h)⟩, ?_,
    (fun _ h => nomatch h), (fun _ h => nomatch h)⟩
  intro M l _
  exact ⟨rfl, texts l, rfl, [], l, rfl, rfl, rfl, rfl⟩

/-- More events do not change what the first requests are. -/
theorem asked_more {es fs : List Event} {q : Nat} {a : Ask} (h : (asked es)[q]? = some a) : (asked (es ++ fs))[q]? = some a := by
  rw [asked_append, List.getElem?_append_left (List.getElem?_eq_some_iff.mp h).1]
  exact h

theorem Sheet.more {size : Nat} {es : List Event} {s : List Obs} {l : List (Rid × Str)} (h : Sheet size es s l) (fs : List Event) :
    Sheet size (es ++ fs) s l :=
  ⟨h.1, fun p hp => let ⟨a, ha, hm⟩ := h.2 p hp; ⟨a, asked_more ha, hm⟩⟩

theorem OnWire.more {size : Nat} {es : List Event} {s : List Obs} (h : OnWire size es s) (fs : List Event) : OnWire size (es ++ fs) s := by
  obtain ⟨l, h1, h2⟩ := h
  exact ⟨l, h1.more fs, h2⟩

theorem Given.less {es fs : List Event} {M : Rid → Str} {l : List (Rid × Reply)} {cur : List Obs} (h : Given (es ++ fs) M l cur) : Given es M l cur :=
  ⟨fun q a ha => h.agrees q a (asked_more ha), h.replies, h.order, h.bytes⟩

theorem Served.more {es : List Event} {s : List Obs} (h : Served es s) (fs : List Event) : Served (es ++ fs) s :=
  fun M l hG => h M l hG.less

theorem whole_queue {size : Nat} {es : List Event} {tr : List Obs} {S : State} (h : Whole size es tr S) (m : Str) (hd : Except Exn Str) (x : Bool)
    (b : Sending) (hp : m ∈ repeatable ∨ AtRest S) : Whole size (es ++ [.queue m hd x b]) tr (step size (.queue m hd x b) S).1 := by
  have hF := h.facts
  have hB := base_queue (size := size) hF.base m hd x b
  have hold : ∀ q, q < S.next → (if q = S.next then ({ method := m, head := hd, expect := x, body := b } : Req) else S.reqs q) = S.reqs q := by
    intro q hq
    rw [if_neg (Nat.ne_of_lt hq)]
  have hask : asked (es ++ [.queue m hd x b]) = asked es ++ [⟨m, hd, x, b⟩] := by rw [asked_append]; rfl
  have hnew : ∀ q a, (asked (es ++ [.queue m hd x b]))[q]? = some a → (q < S.next ∧ (asked es)[q]? = some a) ∨ (q = S.next ∧ a = ⟨m, hd, x, b⟩) := by
    intro q a ha
    rw [hask] at ha
    have hl := (List.getElem?_eq_some_iff.mp ha).1
    rw [List.length_append, List.length_singleton] at hl
    rw [hF.len]
    by_cases hq : q < (asked es).length
    · rw [List.getElem?_append_left hq] at ha
      exact .inl ⟨hq, ha⟩
    · have hq : q = (asked es).length := Nat.le_antisymm (Nat.le_of_lt_succ hl) (Nat.le_of_not_lt hq)
      rw [hq, List.getElem?_append_right (Nat.le_refl _), Nat.sub_self] at ha
      injection ha with ha
      exact .inr ⟨hq, ha.symm⟩
  refine ⟨⟨hB, ?_, fun q a ha => ?_, fun q hq a ha => ?_, fun q hq => ?_, ?_, fun q hq => ?_, fun q qs hqs => ?_, hF.pipe, hF.part⟩, fun q hq => ?_, ?_, ?_, fun s hs => (h.sent s hs).more _,
    fun s hs => (h.served s hs).more _⟩
  · show S.next + 1 = _
    rw [hask, List.length_append, hF.len]
    rfl
  · show (if q = S.next then ({ method := m, head := hd, expect := x, body := b } : Req) else S.reqs q).method = a.method ∧
      (if q = S.next then ({ method := m, head := hd, expect := x, body := b } : Req) else S.reqs q).head = a.head ∧
      (if q = S.next then ({ method := m, head := hd, expect := x, body := b } : Req) else S.reqs q).expect = a.expect
    rcases hnew q a ha with ⟨hq, ha⟩ | ⟨rfl, rfl⟩
    · rw [hold q hq]
      exact hF.static q a ha
    · rw [if_pos rfl]
      exact ⟨rfl, rfl, rfl⟩
  · show (if q = S.next then ({ method := m, head := hd, expect := x, body := b } : Req) else S.reqs q).body = a.body
    rcases hnew q a ha with ⟨hq', ha⟩ | ⟨rfl, rfl⟩
    · rw [hold q hq']
      refine hF.unread q ?_ a ha
      rcases List.mem_append.mp hq with hq | hq
      · exact hq
      · rw [List.mem_singleton] at hq
        exact absurd hq (Nat.ne_of_lt hq')
    · rw [if_pos rfl]
  · show (if q = S.next then ({ method := m, head := hd, expect := x, body := b } : Req) else S.reqs q).buffer = []
    by_cases hn : q = S.next
    · rw [if_pos hn]
    · rw [if_neg hn]
      refine hF.untold q (hq.imp (fun hq => ?_) id)
      rcases List.mem_append.mp hq with hq | hq
      · exact hq
      · rw [List.mem_singleton] at hq
        exact absurd hq hn
  · show (begun tr ++ (S.queue ++ [S.next])).Pairwise (· < ·)
    rw [← List.append_assoc, List.pairwise_append]
    refine ⟨hF.sorted, List.pairwise_singleton _ _, fun q hq p hp => ?_⟩
    rw [List.mem_singleton] at hp
    rw [hp]
    rcases List.mem_append.mp hq with hq | hq
    · exact h.fewer q hq
    · exact hF.base.below q (.inr (.inl hq))
  · show q ∉ S.queue ++ [S.next]
    intro hm
    rcases List.mem_append.mp hm with hm | hm
    · exact hF.apart q hq hm
    · rw [List.mem_singleton] at hm
      exact absurd hm (Nat.ne_of_lt (hF.base.below q (.inr (.inr hq))))
  · have hqs : S.queue ++ [S.next] = q :: qs := hqs
    show (∀ p ∈ qs, idempotent (if p = S.next then ({ method := m, head := hd, expect := x, body := b } : Req) else S.reqs p).method = true) ∧
      (idempotent (if q = S.next then ({ method := m, head := hd, expect := x, body := b } : Req) else S.reqs q).method = false → S.response = none)
    cases hsq : S.queue with
    | nil =>
      rw [hsq] at hqs
      injection hqs with h1 h2
      subst h1 h2
      refine ⟨(fun _ h => nomatch h), fun hi => ?_⟩
      rw [if_pos rfl] at hi
      rcases hp with hp | hp
      · rw [idempotent_of hp] at hi
        cases hi
      · exact hp.2.2
    | cons q' qs' =>
      rw [hsq] at hqs
      injection hqs with h1 h2
      subst h1
      have hmem : ∀ p, p ∈ S.queue → p < S.next := fun p hp => hF.base.below p (.inr (.inl hp))
      obtain ⟨a1, a2⟩ := hF.polite q' qs' hsq
      refine ⟨fun p hp' => ?_, fun hi => ?_⟩
      · rw [← h2] at hp'
        rcases List.mem_append.mp hp' with hp' | hp'
        · rw [hold p (hmem p (by rw [hsq]; exact List.mem_cons_of_mem _ hp'))]
          exact a1 p hp'
        · rw [List.mem_singleton] at hp'
          rw [if_pos hp']
          rcases hp with hp | hp
          · exact idempotent_of hp
          · rw [hp.1] at hsq
            cases hsq
      · rw [hold q' (hmem q' (by rw [hsq]; simp))] at hi
        exact a2 hi
  · exact Nat.lt_succ_of_lt (h.fewer q hq)
  · obtain ⟨l, tail, a1, a2, a3, a4⟩ := h.wired
    refine ⟨l, tail, a1.more _, a2, a3, fun q hq hr => ?_⟩
    show Reads size (if q = S.next then ({ method := m, head := hd, expect := x, body := b } : Req) else S.reqs q).body tail
    rw [hold q (hF.base.below q (.inr (.inr hq)))]
    exact a4 q hq hr
  · intro M l hG
    obtain ⟨a1, rest, a2, a3⟩ := h.fifo M l hG.less
    refine ⟨a1, rest, a2, ?_⟩
    show match S.response with | none => _ | some (q, r) => _
    cases hr : S.response with
    | none =>
      rw [hr] at a3
      exact a3
    | some y =>
      obtain ⟨q, r⟩ := y
      rw [hr] at a3
      dsimp only at a3 ⊢
      show ∃ l1 a l2 c r' e, l = l1 ++ (q, a) :: l2 ∧ _ ∧ _ ∧ _ ∧ _ ++ tellsOf q (if q = S.next then ({ method := m, head := hd, expect := x, body := b } : Req) else S.reqs q).buffer e = _ ∧ _
      rw [hold q (hF.base.below q (.inl (.inl ⟨r, hr⟩)))]
      exact a3

theorem begun_micro {size : Nat} {S S' : State} {o : List Obs} (hB : Base S) (hm : Micro size S o S') : S'.next = S.next ∧ ∀ q ∈ begun o, q ∈ S.queue := by
  have none : ∀ {o : List Obs}, begun o = [] → ∀ q ∈ begun o, q ∈ S.queue := by
    intro o h q hq
    rw [h] at hq
    cases hq
  cases hm with
  | start q qs hq hp =>
    refine ⟨?_, fun p hp' => ?_⟩
    · unfold start
      dsimp only
      split <;> split <;> rfl
    · have : p = q := by
        unfold start at hp'
        dsimp only at hp'
        split at hp'
        · cases hp'
        · simpa [begun] using hp'
      rw [this, hq]
      simp
  | close e =>
    obtain ⟨R', os, h1, h2, h3, h4, _⟩ := close_spec size e S hB
    rw [h1, h2]
    refine ⟨rfl, none ?_⟩
    rw [begun_append, h3.inert.begun]
    rfl
  | zero p _ _ =>
    obtain ⟨_, a1, _, _, a4, _⟩ := disconnect_spec p S
    rw [a1]
    exact ⟨rfl, none (finished_inert a4).begun⟩
  | exhaust q b =>
    obtain ⟨_, a1, _, _, a4, _⟩ := disconnect_spec q (setReq S q fun r => { r with body := b })
    rw [a1]
    exact ⟨rfl, none (finished_inert a4).begun⟩
  | round q r r' b' _ _ evs hr =>
    refine ⟨?_, none (apply_inert size q evs _).begun⟩
    exact apply_next size q evs { S with response := some (q, r'), buf := b' }
  | opened | empty | some | all | since | timeout | refill | arrive | next | last | idle | raised => exact ⟨rfl, none rfl⟩

theorem whole_micro {size : Nat} {es : List Event} {tr o : List Obs} {S S' : State} (h : Whole size es tr S) (hm : Micro size S o S') :
    Whole size es (tr ++ o) S' := by
  have hF := h.facts
  obtain ⟨hn, hb⟩ := begun_micro hF.base hm
  refine ⟨facts_micro hF hm, fun q hq => ?_, wired_micro hF h.wired hm, fifo_micro hF h.fifo hm, onWire_micro hF h.wired h.sent hm, ?_⟩
  · rw [hn]
    rw [begun_append] at hq
    rcases List.mem_append.mp hq with hq | hq
    · exact h.fewer q hq
    · exact hF.base.below q (.inr (.inl (hb q hq)))
  · by_cases hc : ∀ x ∈ o, x ≠ .closed
    · rw [cuts_append hc]
      exact h.served
    · obtain ⟨e, rfl, rfl⟩ := closed_micro hm hc
      obtain ⟨R', os, h1, h2, h3, h4, _⟩ := close_spec size e S hF.base
      rw [h2, ← List.append_assoc, cuts_closed, h3.inert.cuts]
      intro s hs
      rcases List.mem_append.mp hs with hs | hs
      · exact h.served s hs
      · rw [List.mem_singleton] at hs
        subst hs
        intro M l hG
        dsimp only at hG ⊢
        rw [told_append, h3.told, List.append_nil]
        exact served_of h.fifo M l hG.of_append

theorem whole (size : Nat) (es : List Event) (hp : Polite size es) : Whole size es (run size es).2 (run size es).1 := by
  refine run_ind size (fun es tr S => Polite size es → Whole size es tr S) (fun _ => whole_fresh size) ?_ ?_ ?_ ?_ es hp
  · intro es tr S m hd x b hS h hp
    refine whole_queue (h (polite_of_append hp)) m hd x b ?_
    rw [hS]
    exact hp es m hd x b [] rfl
  · intro es tr S h hp
    obtain ⟨hF, h2, h3, h4, h5, h6⟩ := h (polite_of_append hp)
    have ha : asked (es ++ [.kill]) = asked es := by rw [asked_append]; simp [asked]
    refine ⟨⟨hF.base.of_same rfl rfl rfl rfl rfl rfl (fun h => h), by rw [ha]; exact hF.len, by rw [ha]; exact hF.static, by rw [ha]; exact hF.unread, hF.untold, hF.sorted,
      hF.apart, hF.polite, hF.pipe, hF.part⟩, h2, ?_, fun M l hG => h4 M l hG.less, fun s hs => (h5 s hs).more _, fun s hs => (h6 s hs).more _⟩
    obtain ⟨l, tail, a1, a2⟩ := h3
    exact ⟨l, tail, a1.more _, a2⟩
  · intro es tr S o S' h hm hp
    exact whole_micro (h hp) hm
  · intro es tr S e h he hp
    obtain ⟨hF, h2, h3, h4, h5, h6⟩ := h (polite_of_append hp)
    have ha : asked (es ++ [e]) = asked es := by
      rw [asked_append]
      cases e with
      | queue m h x b => exact absurd rfl (he m h x b)
      | task | close | kill => simp [asked]
    refine ⟨⟨hF.base, by rw [ha]; exact hF.len, by rw [ha]; exact hF.static, by rw [ha]; exact hF.unread, hF.untold, hF.sorted,
      hF.apart, hF.polite, hF.pipe, hF.part⟩, h2, ?_, fun M l hG => h4 M l hG.less, fun s hs => (h5 s hs).more _, fun s hs => (h6 s hs).more _⟩
    obtain ⟨l, tail, a1, a2⟩ := h3
    exact ⟨l, tail, a1.more _, a2⟩

end Verif.Http.Conn
