import Verif.Lemmas.HttpConnectionRuns

/-!
# One connection of the HTTP client: requests and responses
-/

namespace Verif.Props

open Verif Http Msg Conn Spec.HttpConnection Spec.HttpMessage

namespace HttpConnection

/-- A request without a body. -/
def exGet : Event := .queue "GET".toList (.ok "GET\r\n".toList) false ⟨.text [], false, some 0, 0, true⟩

/-- A request with a body that waits for `100 Continue` if asked to. -/
def exPost (x : Bool) : Event := .queue "POST".toList (.ok "POST\r\n".toList) x ⟨.text "xy".toList, false, some 2, 0, false⟩

/-- A round in which the socket takes what there is and nothing arrives. -/
def exGo : Event := .task { writable := true, accepted := some 1000 }

/-- A round in which bytes arrive. -/
def exIn (s : String) : Event := .task { writable := true, accepted := some 1000, read := .ready s.toList }

def exFirst : String := "HTTP/1.1 200 OK\r\nContent-Length: 2\r\n\r\nab"
def exSecond : String := "HTTP/1.1 404 No\r\nContent-Length: 2\r\n\r\ncd"

/-- The requests that may be repeated can be queued at any time, and the first one can be any. -/
theorem polite_of {size : Nat} (e : Event) (es : List Event) (h : ∀ m h x b, .queue m h x b ∈ es → m ∈ repeatable) : Polite size (e :: es) := by
  intro pre m hd x b post he
  cases pre with
  | nil => exact .inr ⟨rfl, rfl, rfl⟩
  | cons p pre =>
    injection he with _ he
    exact .inl (h m hd x b (by rw [he]; simp))

theorem exReply (s r d : String) (n : Nat) (h : s.toList ≠ [] ∧ s.toList.all Py.isDigit = true ∧ Py.digitsVal 10 s.toList = n)
    (hr : (r.toList.all fun c => c = '\t' ∨ (32 ≤ c.toNat ∧ c.toNat ≠ 127 ∧ c ≠ '(' ∧ c ≠ '"')) = true)
    (ht : (r.toList.getLast?.all fun c => c ≠ ' ' ∧ c ≠ '\t') = true) (hd : d.toList.length = 2) (hb : ¬ bodyless "GET".toList n) (hn : ¬ (100 ≤ n ∧ n ≤ 199)) :
    Reply.To ⟨n, d.toList, [], (exStatus s r).text ++ [exField "Content-Length" " 2"].flatMap Field.text ++ eol ++ d.toList⟩ "GET".toList := by
  refine ⟨1, 1, [exField "Content-Length" " 2"], .final ⟨exStatus s r, [exField "Content-Length" " 2"], d.toList, [], ?_, ?_, ?_, rfl, rfl⟩ hn⟩
  · exact exStatus_ok _ _ _ h hr ht
  · intro f hf
    rcases List.mem_cons.mp hf with rfl | hf
    · exact exField_ok _ _ (by decide +kernel) (by decide +kernel) (by decide +kernel)
    · cases hf
  · refine .sized [' '] ['2'] [] d.toList hb (by decide +kernel) (by decide +kernel) ?_ ?_ (by rw [hd]; decide)
    · intro c hc
      have : c = ' ' := by simpa using hc
      exact .inl this
    · rw [hd]
      exact ⟨List.cons_ne_nil _ _, by decide, by decide⟩

/-- The replies of the examples. -/
def replyFirst : Reply := ⟨200, "ab".toList, [], (exStatus "200" "OK").text ++ [exField "Content-Length" " 2"].flatMap Field.text ++ eol ++ "ab".toList⟩
def replySecond : Reply := ⟨404, "cd".toList, [], (exStatus "404" "No").text ++ [exField "Content-Length" " 2"].flatMap Field.text ++ eol ++ "cd".toList⟩

theorem replyFirst_ok : replyFirst.To "GET".toList :=
  exReply "200" "OK" "ab" 200 (by decide +kernel) (by decide +kernel) (by decide +kernel) (by decide +kernel) (by unfold bodyless; decide +kernel) (by decide)

theorem replySecond_ok : replySecond.To "GET".toList :=
  exReply "404" "No" "cd" 404 (by decide +kernel) (by decide +kernel) (by decide +kernel) (by decide +kernel) (by unfold bodyless; decide +kernel) (by decide)

/-- Two requests and the answers to them, one after the other. -/
def exTwo : List Event := [exGet, exGo, exGo, exGet, exGo, exGo, exIn exFirst, exIn exSecond]

theorem exTwo_polite : Polite 10 exTwo := polite_of _ _ (by
  intro m h x b hm
  simp [exGo, exIn, exGet] at hm
  rw [hm.1]
  decide +kernel)

end HttpConnection

open HttpConnection

/-! ## C250: requests are sent one after the other, in order -/

theorem http_requests_in_turn (size : Nat) (es : List Event) (hp : Polite size es) :
    ∀ s ∈ sessions (run size es).2, ∃ l : List (Rid × Str), l.map (·.1) = begun s ∧
      (∀ p ∈ l, ∃ a, (asked es)[p.1]? = some a ∧ Message size a p.2) ∧ wire s <+: (l.map (·.2)).flatten := by
  have hW := whole size es hp
  intro s hs
  have : OnWire size es s := by
    rcases List.mem_append.mp hs with hs | hs
    · exact hW.sent s hs
    · rw [List.mem_singleton] at hs
      rw [hs]
      exact onWire_of hW.wired
  obtain ⟨l, ⟨h1, h2⟩, rest, h3⟩ := this
  exact ⟨l, h1, h2, rest, h3⟩

theorem http_requests_in_order (size : Nat) (es : List Event) (hp : Polite size es) : (begun (run size es).2).Pairwise (· < ·) :=
  (List.pairwise_append.mp (whole size es hp).facts.sorted).1

/-- The hypothesis is met, and both messages are sent. -/
theorem http_requests_example : Polite 10 exTwo ∧ begun (run 10 exTwo).2 = [0, 1] ∧ wire (run 10 exTwo).2 = "GET\r\nGET\r\n".toList ∧
    (sessions (run 10 exTwo).2).length = 1 :=
  ⟨exTwo_polite, by decide +kernel, by decide +kernel, by decide +kernel⟩

/-! ## C251: answers go to the requests in the order of the requests -/

theorem http_answers_matched (size : Nat) (es : List Event) (hp : Polite size es) (s : List Obs) (hs : s ∈ sessions (run size es).2)
    (l : List (Rid × Reply)) (hl : l.map (·.1) = begun s) (ha : ∀ p ∈ l, ∃ a, (asked es)[p.1]? = some a ∧ p.2.To a.method)
    (hg : got s <+: l.flatMap fun p => p.2.text) : told s <+: l.flatMap fun p => p.2.tells p.1 := by
  have hW := whole size es hp
  have hv : Served es s := by
    rcases List.mem_append.mp hs with hs | hs
    · exact hW.served s hs
    · rw [List.mem_singleton] at hs
      rw [hs]
      exact served_of hW.fifo
  obtain ⟨rest, hg⟩ := hg
  obtain ⟨more, h⟩ := hv (fun q => ((asked es)[q]?.map Ask.method).getD []) l
    ⟨fun q a h => by rw [h]; rfl, fun p hp => by
      obtain ⟨a, h1, h2⟩ := ha p hp
      rw [h1]
      exact h2, ⟨[], by rw [hl, List.append_nil]⟩, ⟨rest, hg⟩⟩
  exact ⟨more, h⟩

/-- The hypotheses are met, and the requests are told about the answers. -/
theorem http_answers_example : ∃ (s : List Obs) (l : List (Rid × Reply)), s ∈ sessions (run 10 exTwo).2 ∧ l.map (·.1) = begun s ∧
    (∀ p ∈ l, ∃ a, (asked exTwo)[p.1]? = some a ∧ p.2.To a.method) ∧ (got s <+: l.flatMap fun p => p.2.text) ∧
    told s = [(0, some 200, "ab".toList), (1, some 404, "cd".toList)] := by
  refine ⟨(cuts (run 10 exTwo).2).2, [(0, replyFirst), (1, replySecond)], List.mem_append_right _ (List.mem_singleton.mpr rfl), by decide +kernel, ?_, ⟨[], by decide +kernel⟩,
    by decide +kernel⟩
  intro p hp
  rcases List.mem_cons.mp hp with rfl | hp
  · exact ⟨_, rfl, replyFirst_ok⟩
  · rw [List.mem_singleton] at hp
    subst hp
    exact ⟨_, rfl, replySecond_ok⟩

/-! ## C252: a request is started once -/

theorem http_requests_once_partial (size : Nat) (es : List Event) (hp : Polite size es) : (begun (run size es).2).Nodup :=
  (http_requests_in_order size es hp).imp fun h => Nat.ne_of_lt h

/-- A request that must not be repeated is sent again and again, without its body, while an answer to another one is awaited. -/
theorem http_requests_once_refuted : ¬ ∀ (size : Nat) (es : List Event), (begun (run size es).2).Nodup := by
  intro h
  have := h 10 [exGet, exGo, exGo, exPost false, exGo, exGo, exGo, exGo, exGo]
  revert this
  decide +kernel

/-- Two heads with one body are sent before the answer to the first request has been read. -/
theorem http_posts_wait_refuted : ¬ ∀ (size : Nat) (es : List Event) (q : Rid) (a : Ask), q ∈ begun (run size es).2 → (asked es)[q]? = some a →
    a.method ∉ repeatable → ∀ p ∈ begun (run size es).2, p < q → ∃ st d, (p, st, d) ∈ told (run size es).2 := by
  intro h
  obtain ⟨st, d, h⟩ := h 10 [exGet, exGo, exGo, exPost false, exGo, exGo, exGo, exGo, exGo] 1 ⟨"POST".toList, .ok "POST\r\n".toList, false, ⟨.text "xy".toList, false, some 2, 0, false⟩⟩
    (by decide +kernel) rfl (by decide +kernel) 0 (by decide +kernel) (by decide)
  rw [show told (run 10 [exGet, exGo, exGo, exPost false, exGo, exGo, exGo, exGo, exGo]).2 = [] by decide +kernel] at h
  cases h

/-! ## C253: the body waits for `100 Continue` -/

theorem http_body_waits (size : Nat) (es : List Event) (hp : Polite size es) (before s after : List Obs) (q : Rid) (a : Ask)
    (hs : (run size es).2 = before ++ .started q :: s ++ after) (ho : OnHold q s) (ha : (asked es)[q]? = some a) (hx : a.expect = true) :
    ∃ h, a.head = .ok h ∧ wire s <+: h := by
  obtain ⟨h1, h2, h3, h4⟩ := ho
  obtain ⟨h, e1, rest, e2⟩ := held size es hp before q s after hs (fun x hx => ⟨fun e => h1 (e ▸ hx), fun p e => h2 p (e ▸ hx), fun e => h3 (e ▸ hx),
    fun n e d hn he => h4 n e d hn (he ▸ hx)⟩) a ha hx
  exact ⟨h, e1, rest, e2⟩

/-- A request that waits, and is let go. -/
def exWait : List Event := [exPost true, exGo, exGo, exGo, exIn "HTTP/1.1 100 Continue\r\n\r\n", exGo, exGo]

/-- The hypotheses are met: the head is sent, and the body only after the server has asked for it. -/
theorem http_body_waits_example : Polite 10 exWait ∧ (asked exWait)[0]?.map Ask.expect = some true ∧
    ∃ s after, (run 10 exWait).2 = [] ++ .started 0 :: s ++ after ∧ OnHold 0 s ∧ wire s = "POST\r\n".toList ∧ told after = [(0, some 100, [])] ∧ wire after = "xy".toList := by
  refine ⟨polite_of _ _ (by
    intro m h x b hm
    simp [exGo, exIn] at hm), by decide +kernel, [.opened, .sent "POST\r\n".toList, .received "HTTP/1.1 100 Continue\r\n\r\n".toList],
    (run 10 exWait).2.drop 4, ?_, ?_, by decide +kernel, by decide +kernel, by decide +kernel⟩
  · decide +kernel
  · unfold OnHold
    simp

/-! ## C254: a killed connection is not opened again -/

theorem http_killed_stays (size : Nat) (es later : List Event) (h : isOpen (run size es).2 = true) :
    ∃ tail, (run size (es ++ .kill :: later)).2 = (run size es).2 ++ tail ∧ .opened ∉ tail := by
  obtain ⟨h1, h2⟩ := socket_run size es
  have h2 : (run size es).1.socket = true := h2.trans h
  have : es ++ .kill :: later = (es ++ [Event.kill]) ++ later := by simp
  rw [this, run_append size (es ++ [Event.kill]) later]
  have h5 : Base (run size (es ++ [Event.kill])).1 := by
    rw [run_append]
    exact h1.of_same rfl rfl rfl rfl rfl rfl (fun h => h)
  have h6 : (run size (es ++ [Event.kill])).1.dead = true := by
    rw [run_append]
    show ((run size es).1.dead || (run size es).1.socket) = true
    rw [h2, Bool.or_true]
  obtain ⟨tail, h3, h4⟩ := dead_run (size := size) later (run size (es ++ [Event.kill])) h5 h6
  refine ⟨tail, ?_, h4⟩
  rw [h3, run_append]
  show (run size es).2 ++ [] ++ tail = _
  rw [List.append_nil]

/-- The hypothesis is met, and a request that is queued after the connection was killed is not sent. -/
theorem http_killed_example : isOpen (run 10 [exGet, exGo, exGo]).2 = true ∧
    wire (run 10 ([exGet, exGo, exGo] ++ .kill :: [exIn "", exGet, exGo, exGo])).2 = "GET\r\n".toList :=
  ⟨by decide +kernel, by decide +kernel⟩

/-- A connection that is killed before it has a socket goes on as if nothing had happened. -/
theorem http_killed_early_refuted : ¬ ∀ (size : Nat) (es later : List Event),
    ∃ tail, (run size (es ++ .kill :: later)).2 = (run size es).2 ++ tail ∧ .opened ∉ tail := by
  intro h
  obtain ⟨tail, h1, h2⟩ := h 10 [exGet] [exGo, exGo]
  have h3 : isOpen (run 10 ([exGet] ++ .kill :: [exGo, exGo])).2 = true := by decide +kernel
  have h4 : (run 10 [exGet]).2 = [] := rfl
  rw [h1, h4, List.nil_append] at h3
  have : ∀ (os : List Obs) (b : Bool), .opened ∉ os → os.foldl (fun b o => match o with
      | .opened => true
      | .closed => false
      | _ => b) b = true → b = true := by
    intro os
    induction os with
    | nil => exact fun _ _ h => h
    | cons o os ih =>
      intro b ho h
      rw [List.foldl_cons] at h
      have := ih _ (fun hm => ho (List.mem_cons_of_mem _ hm)) h
      cases o <;> first | exact absurd (List.mem_cons_self ..) ho | exact this | cases this
  cases this tail false h2 h3

/-! ## C255: requests are told when they are over -/

theorem http_requests_finished (size : Nat) (es : List Event) (hp : Polite size es) (hs : SoundStatuses (run size es).2) :
    ∀ s ∈ (cuts (run size es).2).1, ∀ q ∈ begun s, Finished q s := by
  refine (owed size es hp fun q w n e d hm => ⟨(hs q w n e d hm).1, fun hw => ?_⟩).ended
  have := (hs q w n e d hm).2 hw
  unfold informational
  simpa using this

/-- Two requests, of which the server has answered only one when it hangs up. -/
def exCut : List Event := [exGet, exGo, exGo, exGet, exGo, exGo, exIn exFirst, exIn "HTTP/1.1 404 No\r\n", exIn ""]

/-- The hypotheses are met, with an end of the connection. -/
theorem http_requests_finished_example : Polite 10 exCut ∧ SoundStatuses (run 10 exCut).2 ∧ (cuts (run 10 exCut).2).1.map begun = [[0, 1]] := by
  refine ⟨polite_of _ _ (by
    intro m h x b hm
    simp [exGo, exIn, exGet] at hm
    rw [hm.1]
    decide +kernel), ?_, by decide +kernel⟩
  intro q w n e d hm
  have : ∀ o ∈ (run 10 exCut).2, (match o with
      | .answered _ _ (some n) _ _ => decide (200 ≤ n)
      | _ => true) = true := by decide +kernel
  have h := of_decide_eq_true (this _ hm)
  exact ⟨by omega, fun _ => by omega⟩

/-- The head of an informational response is cut off: its request never hears that it is over. -/
theorem http_requests_finished_refuted : ¬ ∀ (size : Nat) (es : List Event), Polite size es →
    ∀ s ∈ (cuts (run size es).2).1, ∀ q ∈ begun s, Finished q s := by
  intro h
  have := h 10 [exGet, exGo, exGo, exIn "HTTP/1.1 100 Continue\r\n", exIn ""] (polite_of _ _ (by
    intro m h x b hm
    simp [exGo, exIn] at hm)) _ (by
      rw [show (cuts (run 10 [exGet, exGo, exGo, exIn "HTTP/1.1 100 Continue\r\n", exIn ""]).2).1 = [[.started 0, .opened, .sent "GET\r\n".toList,
        .received "HTTP/1.1 100 Continue\r\n".toList, .answered 0 false (some 100) none []]] by decide +kernel]
      exact List.mem_singleton.mpr rfl) 0 (by decide +kernel)
  obtain ⟨st, e, d, h⟩ := this
  simp at h

/-- A request whose head cannot be made is never told that it is over, although the connection is closed and nothing is left to do. -/
theorem http_bad_requests_finished_refuted : ¬ ∀ (size : Nat) (es : List Event), Polite size es → AtRest (run size es).1 →
    ∀ q < (asked es).length, Finished q (run size es).2 := by
  intro h
  obtain ⟨st, e, d, h⟩ := h 10 [.queue "GET".toList (.error (.fault .typeError)) false ⟨.text [], false, some 0, 0, true⟩, exGo, exGo, .close]
    (polite_of _ _ (by
      intro m h x b hm
      simp [exGo] at hm)) ⟨by decide +kernel, by decide +kernel, by decide +kernel⟩ 0 (by decide)
  have : ∀ o ∈ (run 10 [.queue "GET".toList (.error (.fault .typeError)) false ⟨.text [], false, some 0, 0, true⟩, exGo, exGo, .close]).2, (match o with
      | .finished _ _ _ _ => false
      | _ => true) = true := by decide +kernel
  cases this _ h

/-- A request that was told to go on is told that it is over with the status 100, and then again with the status of the answer. -/
theorem http_finished_once_refuted : ¬ ∀ (size : Nat) (es : List Event), Polite size es →
    ((run size es).2.filterMap fun o => match o with
      | .finished q _ _ _ => some q
      | _ => none).Nodup := by
  intro h
  have := h 10 (exWait ++ [exGo, exGo, exIn exFirst]) (polite_of _ _ (by
    intro m h x b hm
    simp [exGo, exIn] at hm))
  revert this
  decide +kernel

/-! ## C256: answers that have arrived are passed on -/

/-- The answers to two requests arrive together and the server hangs up: the second answer is lost. -/
theorem http_answers_passed_refuted : ¬ ∀ (size : Nat) (es : List Event), Polite size es → ∀ s ∈ (cuts (run size es).2).1,
    ∀ l : List (Rid × Reply), l.map (·.1) = begun s → (∀ p ∈ l, ∃ a, (asked es)[p.1]? = some a ∧ p.2.To a.method) →
    (got s = l.flatMap fun p => p.2.text) → told s = l.flatMap fun p => p.2.tells p.1 := by
  intro h
  have := h 10 [exGet, exGo, exGo, exGet, exGo, exGo, exIn (exFirst ++ exSecond), exIn ""] (polite_of _ _ (by
    intro m h x b hm
    simp [exGo, exIn, exGet] at hm
    rw [hm.1]
    decide +kernel)) _ (by
      rw [show (cuts (run 10 [exGet, exGo, exGo, exGet, exGo, exGo, exIn (exFirst ++ exSecond), exIn ""]).2).1 = [[.started 0, .opened, .sent "GET\r\n".toList,
        .started 1, .sent "GET\r\n".toList,
        .received (exFirst ++ exSecond).toList, .answered 0 true (some 200) none "ab".toList, .finished 0 200 none "ab".toList,
        .answered 1 false none none [], .finished 1 0 none []]] by decide +kernel]
      exact List.mem_singleton.mpr rfl) [(0, replyFirst), (1, replySecond)] (by decide +kernel) (by
    intro p hp
    rcases List.mem_cons.mp hp with rfl | hp
    · exact ⟨_, rfl, replyFirst_ok⟩
    · rw [List.mem_singleton] at hp
      subst hp
      exact ⟨_, rfl, replySecond_ok⟩) (by decide +kernel)
  revert this
  decide +kernel

/-! ## C257: answers that were cut off are not taken for whole ones -/

/-- The server hangs up in the middle of a body: the request is over with the status 200 and without an error. -/
theorem http_truncated_refuted : ¬ ∀ (size : Nat) (es : List Event), Polite size es → ∀ q st d, .finished q st none d ∈ (run size es).2 → 200 ≤ st →
    ∃ t, (q, some st, t) ∈ told (run size es).2 := by
  intro h
  obtain ⟨t, h⟩ := h 10 [exGet, exGo, exGo, exIn "HTTP/1.1 200 OK\r\nContent-Length: 2\r\n\r\na", exIn ""] (polite_of _ _ (by
    intro m h x b hm
    simp [exGo, exIn] at hm)) 0 200 [] (by decide +kernel) (by decide)
  rw [show told (run 10 [exGet, exGo, exGo, exIn "HTTP/1.1 200 OK\r\nContent-Length: 2\r\n\r\na", exIn ""]).2 = [] by decide +kernel] at h
  cases h

/-- Some of the chunks have arrived when the server hangs up: they are taken for the whole body. -/
theorem http_truncated_chunks_refuted : ∃ es, Polite 10 es ∧ .finished 0 200 none "a".toList ∈ (run 10 es).2 ∧ told (run 10 es).2 = [] :=
  ⟨[exGet, exGo, exGo, exIn "HTTP/1.1 200 OK\r\nTransfer-Encoding: chunked\r\n\r\n1\r\na\r\n", exIn ""], polite_of _ _ (by
    intro m h x b hm
    simp [exGo, exIn] at hm), by decide +kernel, by decide +kernel⟩

end Verif.Props
