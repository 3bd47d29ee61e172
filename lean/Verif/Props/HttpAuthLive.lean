import Verif.Props.HttpAuth

/-!
# What is done about challenges and redirects: properties C270-C272
-/

namespace Verif.Props

open Verif Verif.Http Verif.Http.Msg Verif.Http.Auth Verif.Spec.HttpAuth

namespace HA

theorem exchange_head (creds : List Credentials) (r : Request) (as : List Reply) :
    ∃ rest, (exchange creds r as).1 = (send creds r).2 :: rest := by
  cases as with
  | nil => exact ⟨[], rfl⟩
  | cons a as =>
    rw [exchange]
    split
    · exact ⟨[], rfl⟩
    · split
      · exact ⟨[], rfl⟩
      · exact ⟨_, rfl⟩

theorem findLoop_first {space : Str} {ch : Challenge} (hch : ch.scheme = some "Basic".toList) {c : Credentials}
    (hc : c.space = some space) (hr : c.realm = none) (post : List Credentials) : ∀ (pre : List Credentials) (n : Nat),
    (∀ d ∈ pre, d.space ≠ some space) → findLoop space ch n (pre ++ c :: post) = .ok (some (n + pre.length)) := by
  intro pre
  induction pre with
  | nil =>
    intro n _
    have : c.matchChallenge space ch = .ok true := by
      unfold Credentials.matchChallenge
      rw [if_neg (fun h => h hch.symm), if_neg (fun h => h hc), hr]
      rfl
    rw [List.nil_append, findLoop, this]
    rfl
  | cons d pre ih =>
    intro n h
    have : d.matchChallenge space ch = .ok false := by
      unfold Credentials.matchChallenge
      rw [if_neg (fun h => h hch.symm), if_pos (h d (List.mem_cons_self ..))]
    rw [List.cons_append, findLoop, this]
    simp only
    rw [ih (n + 1) (fun d hd => h d (List.mem_cons_of_mem _ hd)), List.length_cons]
    rw [show n + 1 + pre.length = n + (pre.length + 1) by omega]

/-- The request after a challenge. -/
def tried (r : Request) (i : Nat) (c : Credentials) : Request :=
  { r with trying := some i, headers := setHeader r.headers "Authorization".toList (some c.str) false }

theorem finished_challenge {ps : List (Str × Str × Bool)} (hps : ∀ p ∈ ps, ChallengeParam p) {text : Str}
    (ht : (mkChallenge (some "Basic".toList) ps).str = .ok text) {r : Request} (hn : r.trying = none) {a : Reply}
    (ha : a.status = 401) (hv : a.authenticate = some text) {pre post : List Credentials} {c : Credentials}
    (hs : c.space = some (canonicalRoot r.uri)) (hr : c.realm = none)
    (hpre : ∀ d ∈ pre, d.space ≠ some (canonicalRoot r.uri)) :
    finished (pre ++ c :: post) r a = .ok (pre ++ c :: post, tried r pre.length c, 1) := by
  obtain ⟨text', e1, e2⟩ := http_challenge_partial ps hps
  rw [ht] at e1
  injection e1 with e1
  subst e1
  unfold finished
  rw [if_neg (by rw [hn]; rintro ⟨e, _⟩; cases e)]
  have hns : noteSuccess (pre ++ c :: post) r = pre ++ c :: post := by unfold noteSuccess; rw [hn]
  simp only
  rw [if_neg (by rw [ha]; rintro ⟨_, _, e, _⟩; exact absurd e (by decide)), if_pos ha, hv, hns]
  simp only
  rw [e2]
  simp only
  have hf : findCredentials (pre ++ c :: post) (canonicalRoot r.uri) (mkChallenge (some "Basic".toList) ps) = .ok (some pre.length) := by
    unfold findCredentials
    rw [ht]
    simp only
    rw [findLoop_first rfl hs hr post pre 0 hpre, Nat.zero_add]
  rw [tryChallenges]
  simp only
  rw [hf]
  simp only
  rw [tryChallenges]
  have hg : (pre ++ c :: post).getD pre.length {} = c := by simp [List.getD]
  simp only
  rw [hg]
  rfl

/-- What `SetRequestURI` reads from a URL does not depend on the request. -/
theorem setRequestURI_same {r r' : Request} {t : Str} (h : setRequestURI r t = .ok r') (q : Request) :
    ∃ q', setRequestURI q t = .ok q' ∧ q'.uri = r'.uri ∧ q'.line = r'.line ∧ q'.https = r'.https ∧
      q'.hostname = r'.hostname ∧ q'.port = r'.port ∧ readUri t = .ok r'.uri ∧ kind r'.uri ≠ .other ∧
      Uri.truthy (hostOf r'.uri) = true := by
  unfold setRequestURI at h ⊢
  cases hu : readUri t with
  | error e => rw [hu] at h; cases h
  | ok u =>
    rw [hu] at h
    simp only at h ⊢
    split at h
    · cases h
    · rename_i k1
      split at h
      · cases h
      · rename_i k2
        split at h
        · cases h
        · rename_i k3
          split at h
          · rename_i k4
            injection h with h
            subst h
            rw [if_neg k1, if_neg k2, if_neg k3, if_pos k4]
            exact ⟨_, rfl, rfl, rfl, rfl, rfl, rfl, rfl, k1, k4⟩
          · cases h

theorem send_first {pre post : List Credentials} {c : Credentials} {r : Request} (hn : authOf r.headers = none)
    (hpre : ∀ d ∈ pre, d.space ≠ some (canonicalRoot r.uri)) (hs : c.space = some (canonicalRoot r.uri))
    (hp : c.testPath r.uri.parts.absPath = true) : authOf (send (pre ++ c :: post) r).2.headers = some c.str := by
  have hf : (pre ++ c :: post).find? (·.testURL r.uri) = some c := by
    rw [List.find?_append]
    have h1 : pre.find? (·.testURL r.uri) = none := by
      rw [List.find?_eq_none]
      intro d hd
      unfold Credentials.testURL
      have : (d.space == some (canonicalRoot r.uri)) = false := by
        rw [beq_eq_false_iff_ne]; exact hpre d hd
      rw [this]
      simp
    rw [h1]
    simp only [Option.none_or]
    rw [List.find?_cons]
    have : c.testURL r.uri = true := by
      unfold Credentials.testURL
      rw [hs, hp]
      simp
    rw [this]
  unfold authOf at hn
  unfold send
  simp only
  rw [hn, hf]
  simp only [Option.isSome_none, Bool.false_eq_true, if_false]
  exact auth_put ..

end HA

/-! ## C270: a challenge is answered with credentials -/

/-- **C270.**  If a server asks for basic credentials and the manager has credentials for the server, without a realm,
the same request is sent again, with the first of them. -/
theorem http_challenge_answered (method url body : Str) (headers : Headers) (auto : Bool) (r : Request)
    (h : newRequest method url body headers auto = .ok r) (ps : List (Str × Str × Bool)) (hps : ∀ p ∈ ps, ChallengeParam p)
    (text : Str) (ht : (mkChallenge (some "Basic".toList) ps).str = .ok text) (a : Reply) (ha : a.status = 401)
    (hv : a.authenticate = some text) (pre post : List Credentials) (c : Credentials)
    (hs : c.space = some (canonicalRoot r.uri)) (hr : c.realm = none)
    (hpre : ∀ d ∈ pre, d.space ≠ some (canonicalRoot r.uri)) (as : List Reply) :
    ∃ s1 s2 rest, (exchange (pre ++ c :: post) r (a :: as)).1 = s1 :: s2 :: rest ∧ s2.https = s1.https ∧
      s2.hostname = s1.hostname ∧ s2.port = s1.port ∧ s2.method = s1.method ∧ s2.line = s1.line ∧ s2.body = s1.body ∧
      getHeader s2.headers "Authorization".toList = some c.str := by
  have k := send_kept (pre ++ c :: post) r
  have hf := HA.finished_challenge hps ht (r := (send (pre ++ c :: post) r).1) (a := a)
    (by rw [send_trying]; exact (setRequestURI_ok h).2.2.2.1) ha hv (pre := pre) (post := post) (c := c)
    (by rw [k.uri]; exact hs) hr (by rw [k.uri]; exact hpre)
  rw [exchange, hf]
  simp only
  rw [if_neg (by decide)]
  obtain ⟨rest, e⟩ := HA.exchange_head (pre ++ c :: post) (HA.tried (send (pre ++ c :: post) r).1 pre.length c) as
  refine ⟨_, _, rest, by rw [e], ?_⟩
  have hauth : (send (pre ++ c :: post) (HA.tried (send (pre ++ c :: post) r).1 pre.length c)).1 =
      HA.tried (send (pre ++ c :: post) r).1 pre.length c := by
    have : (getHeader (HA.tried (send (pre ++ c :: post) r).1 pre.length c).headers "Authorization".toList).isSome = true := by
      have e := auth_put (send (pre ++ c :: post) r).1.headers c.str
      unfold authOf at e
      unfold HA.tried
      simp only
      rw [e]; rfl
    generalize HA.tried (send (pre ++ c :: post) r).1 pre.length c = q at this ⊢
    unfold send
    simp only
    rw [if_pos this]
  rw [send_sent, send_sent, hauth]
  exact ⟨k.https, k.hostname, k.port, k.method, k.line, k.body, auth_put ..⟩

/-- The hypotheses of C270 are met by credentials that are not the first. -/
theorem http_challenge_answered_hypotheses :
    ∃ r text, newRequest "POST".toList "https://a.org/x".toList "1".toList [] true = .ok r ∧
      (mkChallenge (some "Basic".toList) [("realm".toList, "a".toList, true)]).str = .ok text ∧
      (∀ p ∈ [("realm".toList, "a".toList, true)], ChallengeParam p) ∧ bob.space = some (canonicalRoot r.uri) ∧ bob.realm = none ∧
      ∀ d ∈ [{ bob with space := some "http://a.org".toList }], d.space ≠ some (canonicalRoot r.uri) := by
  let r := (newRequest "POST".toList "https://a.org/x".toList "1".toList [] true).toOption.getD ⟨[], ⟨[], none, none, {}⟩, [], false, [], 0, [], [], true, none⟩
  refine ⟨r, _, by decide +kernel, rfl, ?_, by decide +kernel, rfl, by decide +kernel⟩
  intro p hp
  rw [List.mem_singleton] at hp
  subst hp
  exact ⟨(token_iff _).mp ⟨by decide, by decide +kernel⟩, by decide +kernel, fun e => nomatch e⟩

/-! ## C271: redirects are followed -/

/-- **C271.**  If redirects are to be followed, a response with a status from 300 to 399 (302 for `GET` and `HEAD` only)
and the URL of a request for its location is followed by a request to the server and with the path and query of that
URL. -/
theorem http_redirect_followed (creds : List Credentials) (method url body : Str) (headers : Headers) (r r2 : Request)
    (h : newRequest method url body headers true = .ok r) (a : Reply) (h1 : 300 ≤ a.status) (h2 : a.status ≤ 399)
    (h3 : a.status ≠ 302 ∨ method.map upperChar ∈ ["GET".toList, "HEAD".toList]) (l : Str) (hl : a.location = some l)
    (hn : newRequest method (strip l) body [] true = .ok r2) (as : List Reply) :
    ∃ s1 s2 rest, (exchange creds r (a :: as)).1 = s1 :: s2 :: rest ∧ s2.https = r2.https ∧ s2.hostname = r2.hostname ∧
      s2.port = r2.port ∧ s2.line = r2.line ∧ s2.method = method ∧ s2.body = body := by
  have k := send_kept creds r
  have hr := setRequestURI_ok h
  obtain ⟨q, e1, e2, e3, e4, e5, e6, e7, e8, e9⟩ :=
    HA.setRequestURI_same hn { (send creds r).1 with trying := none }
  have hq := setRequestURI_ok e1
  have hne : (strip l).isEmpty = false := by
    cases he : strip l with
    | cons => rfl
    | nil =>
      rw [he] at e7
      have : ∀ u, readUri [] = .ok u → kind u = .other := by
        intro u hu
        have h0 : readUri [] = .ok ((readUri []).toOption.getD ⟨[], none, none, {}⟩) := by decide +kernel
        rw [h0] at hu
        injection hu with hu
        rw [← hu]
        decide +kernel
      exact absurd (this _ e7) e8
  have hf : finished creds (send creds r).1 a = .ok (noteSuccess creds (send creds r).1, q, 1) := by
    unfold finished
    rw [if_neg (by rw [send_trying, hr.2.2.2.1]; rintro ⟨e, _⟩; cases e)]
    simp only
    rw [if_pos ⟨by rw [k.auto, hr.2.2.1], h1, h2, by rw [k.method, hr.1]; exact h3⟩, hl]
    simp only
    rw [hne]
    simp only [Bool.false_eq_true, if_false]
    rw [e7]
    simp only
    rw [if_neg e8, e9]
    simp only [Bool.not_true, Bool.false_eq_true, if_false]
    rw [e1]
  rw [exchange, hf]
  simp only
  rw [if_neg (by decide)]
  obtain ⟨rest, e⟩ := HA.exchange_head (noteSuccess creds (send creds r).1) q as
  refine ⟨_, _, rest, by rw [e], ?_⟩
  rw [send_sent]
  refine ⟨e4, e5, e6, e3, hq.1.trans (k.method.trans hr.1), hq.2.1.trans (k.body.trans hr.2.1)⟩

/-- **C271, unwanted.**  If redirects are not to be followed, any response but 401 ends the exchange. -/
theorem http_redirect_unwanted (creds : List Credentials) (method url body : Str) (headers : Headers) (r : Request)
    (h : newRequest method url body headers false = .ok r) (a : Reply) (ha : a.status ≠ 401) (as : List Reply) :
    (exchange creds r (a :: as)).1.length = 1 ∧ (exchange creds r (a :: as)).2.2 = .answered a := by
  have k := send_kept creds r
  have hr := setRequestURI_ok h
  have hf : ∃ c q, finished creds (send creds r).1 a = .ok (c, q, 0) := by
    unfold finished
    rw [if_neg (fun e => ha e.2)]
    simp only
    rw [if_neg (by rw [k.auto, hr.2.2.1]; rintro ⟨e, _⟩; cases e), if_neg ha]
    exact ⟨_, _, rfl⟩
  obtain ⟨c, q, hf⟩ := hf
  rw [exchange, hf]
  exact ⟨rfl, rfl⟩

/-- The hypotheses of C271 are met by a location with blanks around it. -/
theorem http_redirect_followed_hypotheses :
    ∃ r r2, newRequest "GET".toList "http://a.org/x".toList [] [] true = .ok r ∧
      newRequest "GET".toList (strip "\t https://b.org:8443/y?z ".toList) [] [] true = .ok r2 ∧ r2.https = true ∧
      r2.hostname = "b.org".toList ∧ r2.port = 8443 ∧ r2.line = "/y?z".toList := by
  let r := (newRequest "GET".toList "http://a.org/x".toList [] [] true).toOption.getD ⟨[], ⟨[], none, none, {}⟩, [], false, [], 0, [], [], true, none⟩
  let r2 := (newRequest "GET".toList (strip "\t https://b.org:8443/y?z ".toList) [] [] true).toOption.getD ⟨[], ⟨[], none, none, {}⟩, [], false, [], 0, [], [], true, none⟩
  exact ⟨r, r2, by decide +kernel, by decide +kernel, by decide +kernel, by decide +kernel, by decide +kernel, by decide +kernel⟩

/-! ## C272: credentials that have worked are remembered -/

/-- **C272.**  After an exchange in which credentials were asked for and the request with them was answered with
something other than a redirect or 401, a new request for the same server whose path is covered by that of the first
is sent with them at once. -/
theorem http_credentials_remembered (method url body : Str) (headers : Headers) (auto : Bool) (r : Request)
    (h : newRequest method url body headers auto = .ok r) (ps : List (Str × Str × Bool)) (hps : ∀ p ∈ ps, ChallengeParam p)
    (text : Str) (ht : (mkChallenge (some "Basic".toList) ps).str = .ok text) (a b : Reply) (ha : a.status = 401)
    (hv : a.authenticate = some text) (hb : ¬ (300 ≤ b.status ∧ b.status ≤ 399)) (hb' : b.status ≠ 401)
    (pre post : List Credentials) (c : Credentials) (hs : c.space = some (canonicalRoot r.uri)) (hr : c.realm = none)
    (hpre : ∀ d ∈ pre, d.space ≠ some (canonicalRoot r.uri)) (as : List Reply)
    (method2 url2 body2 : Str) (headers2 : Headers) (auto2 : Bool) (r2 : Request)
    (h2 : newRequest method2 url2 body2 headers2 auto2 = .ok r2) (hn : getHeader headers2 "Authorization".toList = none)
    (hroot : canonicalRoot r2.uri = canonicalRoot r.uri)
    (hpath : Covers (segments r.uri.parts.absPath) (segments r2.uri.parts.absPath)) :
    getHeader (send (exchange (pre ++ c :: post) r (a :: b :: as)).2.1 r2).2.headers "Authorization".toList = some c.str := by
  have k := send_kept (pre ++ c :: post) r
  have hf := HA.finished_challenge hps ht (r := (send (pre ++ c :: post) r).1) (a := a)
    (by rw [send_trying]; exact (setRequestURI_ok h).2.2.2.1) ha hv (pre := pre) (post := post) (c := c)
    (by rw [k.uri]; exact hs) hr (by rw [k.uri]; exact hpre)
  have hcreds : (exchange (pre ++ c :: post) r (a :: b :: as)).2.1 = pre ++ c.addSuccessPath r.uri.parts.absPath :: post := by
    rw [exchange, hf]
    simp only
    rw [if_neg (by decide)]
    generalize hq : HA.tried (send (pre ++ c :: post) r).1 pre.length c = q
    have hq1 : q.trying = some pre.length := by rw [← hq]; rfl
    have hq2 : q.uri = r.uri := by rw [← hq]; exact k.uri
    have k2 := send_kept (pre ++ c :: post) q
    have hns : noteSuccess (pre ++ c :: post) (send (pre ++ c :: post) q).1 =
        pre ++ c.addSuccessPath r.uri.parts.absPath :: post := by
      unfold noteSuccess
      rw [send_trying, hq1, k2.uri, hq2]
      simp only
      clear hs hr hpre hf k hq hq1 hq2 k2 q
      induction pre with
      | nil => rfl
      | cons d pre ih => rw [List.cons_append, List.length_cons, List.modify_succ_cons, ih, List.cons_append]
    have hf2 : ∃ q', finished (pre ++ c :: post) (send (pre ++ c :: post) q).1 b =
        .ok (pre ++ c.addSuccessPath r.uri.parts.absPath :: post, q', 0) := by
      unfold finished
      rw [if_neg (fun e => hb' e.2)]
      simp only
      rw [if_neg (fun e => hb ⟨e.2.1, e.2.2.1⟩), if_neg hb', hns]
      exact ⟨_, rfl⟩
    obtain ⟨q', hf2⟩ := hf2
    rw [exchange, hf2]
    rfl
  rw [hcreds]
  have := HA.send_first (pre := pre) (post := post) (c := c.addSuccessPath r.uri.parts.absPath) (r := r2)
    (by rw [(setRequestURI_ok h2).2.2.2.2.1]; exact hn) (by rw [hroot]; exact hpre) (by rw [hroot]; exact hs)
    ((add_testPath ..).mpr (.inr hpath))
  exact this

/-- The hypotheses of C272 about the second request are met by a path below the first. -/
theorem http_credentials_remembered_hypotheses :
    ∃ r r2, newRequest "GET".toList "https://a.org/x/".toList [] [] true = .ok r ∧
      newRequest "POST".toList "https://A.org/x/y?z".toList "1".toList [] false = .ok r2 ∧
      canonicalRoot r2.uri = canonicalRoot r.uri ∧ bob.space = some (canonicalRoot r.uri) ∧ bob.realm = none ∧
      Covers (segments r.uri.parts.absPath) (segments r2.uri.parts.absPath) := by
  let r := (newRequest "GET".toList "https://a.org/x/".toList [] [] true).toOption.getD ⟨[], ⟨[], none, none, {}⟩, [], false, [], 0, [], [], true, none⟩
  let r2 := (newRequest "POST".toList "https://A.org/x/y?z".toList "1".toList [] false).toOption.getD ⟨[], ⟨[], none, none, {}⟩, [], false, [], 0, [], [], true, none⟩
  refine ⟨r, r2, by decide +kernel, by decide +kernel, by decide +kernel, by decide +kernel, rfl, ?_⟩
  rw [← isPrefix_iff]
  decide +kernel

end Verif.Props
