import Verif.Model.HttpAuth
import Verif.Spec.HttpAuth
import Verif.Lemmas.HttpBase64
import Verif.Lemmas.HttpExchange
import Verif.Lemmas.HttpChallenge

/-!
# Credentials, challenges and redirects: properties C258-C269
-/

namespace Verif.Props

open Verif Verif.Http Verif.Http.Msg Verif.Http.Auth Verif.Spec.HttpAuth

/-! ## C258: credentials are read from what is written -/

/-- **C258 (partial).**  Basic credentials are written so that reading gives the same user and password.  Missing: a
colon in either, see `http_credentials_refuted`. -/
theorem http_credentials_partial (c : Credentials) (u p : Str) (h1 : c.userid = some u) (h2 : c.password = some p)
    (hu : ∀ x ∈ u, x.toNat < 256) (hp : ∀ x ∈ p, x.toNat < 256) (cu : ':' ∉ u) (cp : ':' ∉ p) :
    Credentials.fromString c.str = .ok { userid := some u, password := some p } := by
  rw [fromString_str hu hp c h1 h2, splitColon_append cu, splitColon_plain cp]

/-- **C258 refuted.**  Whatever the user and the password, a colon in either of them raises: credentials that are
written cannot be read. -/
theorem http_credentials_refuted (c : Credentials) (u p : Str) (h1 : c.userid = some u) (h2 : c.password = some p)
    (hu : ∀ x ∈ u, x.toNat < 256) (hp : ∀ x ∈ p, x.toNat < 256) (hc : ':' ∈ u ∨ ':' ∈ p) :
    Credentials.fromString c.str = .error (.fault .nameError) := by
  have many : ∀ s : Str, ':' ∈ s → ∃ a b l, splitColon s = a :: b :: l := by
    intro s
    induction s with
    | nil => intro h; cases h
    | cons x t ih =>
      intro h
      rw [splitColon]
      cases ht : splitColon t with
      | nil => exact absurd ht (splitColon_ne t)
      | cons a l =>
        simp only
        by_cases hx : x = ':'
        · rw [if_pos hx]; exact ⟨[], a, l, rfl⟩
        · rw [if_neg hx]
          rcases List.mem_cons.mp h with e | e
          · exact absurd e.symm hx
          · obtain ⟨a', b', l', e'⟩ := ih e
            rw [ht] at e'
            injection e' with e1 e2
            exact ⟨x :: a, b', l', by rw [e2]⟩
  have long : ∀ (u p : Str), ':' ∈ u ∨ ':' ∈ p → ∃ a b d l, splitColon (u ++ ':' :: p) = a :: b :: d :: l := by
    intro u
    induction u with
    | nil =>
      intro p h
      obtain ⟨a, b, l, e⟩ := many p (h.resolve_left (by simp))
      exact ⟨[], a, b, l, by rw [splitColon_append (by simp), e]⟩
    | cons x t ih =>
      intro p h
      show ∃ a b d l, splitColon (x :: (t ++ ':' :: p)) = _
      rw [splitColon]
      by_cases hx : x = ':'
      · obtain ⟨a, b, l, e⟩ := many (t ++ ':' :: p) (by simp)
        rw [e]
        simp only
        rw [if_pos hx]
        exact ⟨_, _, _, _, rfl⟩
      · obtain ⟨a, b, d, l, e⟩ := ih p (h.imp_left fun e => (List.mem_cons.mp e).resolve_left (Ne.symm hx))
        rw [e]
        simp only
        rw [if_neg hx]
        exact ⟨_, _, _, _, rfl⟩
  rw [fromString_str hu hp c h1 h2]
  obtain ⟨a, b, d, l, e⟩ := long u p hc
  rw [e]

/-- The hypotheses of the theorems about C258 are met, and the text is that of the specification of HTTP. -/
theorem http_credentials_hypotheses :
    let c : Credentials := { userid := some "Aladdin".toList, password := some "open sesame".toList }
    (∀ x ∈ "Aladdin".toList, x.toNat < 256) ∧ (∀ x ∈ "open sesame".toList, x.toNat < 256) ∧
    ':' ∉ "Aladdin".toList ∧ ':' ∉ "open sesame".toList ∧ c.str = "Basic QWxhZGRpbjpvcGVuIHNlc2FtZQ==".toList ∧
    ':' ∈ "a:b".toList := by decide +kernel

/-! ## C259: a protection space is one server -/

/-- **C259.**  The protection space of a request, made from its URL, names the server that it is sent to, and two
requests with the same protection space are sent to the same server, whatever the URLs. -/
theorem http_space_one_server (r1 r2 : Request) (method1 url1 body1 method2 url2 body2 : Str) (headers1 headers2 : Headers)
    (auto1 auto2 : Bool) (h1 : newRequest method1 url1 body1 headers1 auto1 = .ok r1)
    (h2 : newRequest method2 url2 body2 headers2 auto2 = .ok r2) :
    Names (canonicalRoot r1.uri) r1.https (Py.lower r1.hostname) r1.port ∧
    (canonicalRoot r1.uri = canonicalRoot r2.uri →
      r1.https = r2.https ∧ Py.lower r1.hostname = Py.lower r2.hostname ∧ r1.port = r2.port) := by
  refine ⟨setRequestURI_names h1, fun e => ?_⟩
  have n1 := setRequestURI_names h1
  have n2 := setRequestURI_names h2
  rw [← e] at n2
  exact names_unique n1 n2

/-- The hypotheses of C259 are met by requests with different URLs for the same server, one with a capital in the host
and the usual port, and the space is that of `https://a.org`. -/
theorem http_space_hypotheses :
    ∃ r1 r2, newRequest "GET".toList "https://a.org/x".toList [] [] true = .ok r1 ∧
      newRequest "GET".toList "HTTPS://A.org:443/y?z".toList [] [] true = .ok r2 ∧
      canonicalRoot r1.uri = canonicalRoot r2.uri ∧ canonicalRoot r1.uri = "https://a.org".toList ∧
      r2.line = "/y?z".toList ∧ r2.hostname = "A.org".toList :=
  ⟨_, _, rfl, rfl, by decide +kernel, by decide +kernel, by decide +kernel, by decide +kernel⟩

/-! ## C260: credentials go to the server they were given for -/

/-- The `Authorization` header of a request, if it has one, is that of credentials for the server it is sent to. -/
def Owned (creds : List Credentials) (s : Sent) : Prop :=
  ∀ v, getHeader s.headers "Authorization".toList = some v →
    ∃ c ∈ creds, v = c.str ∧ ∃ t, c.space = some t ∧ Names t s.https (Py.lower s.hostname) s.port

/-- Two requests have been sent to the same server. -/
def SameServer (s t : Sent) : Prop := s.https = t.https ∧ Py.lower s.hostname = Py.lower t.hostname ∧ s.port = t.port

/-- **C260 (partial).**  Whatever a server answers, a request is sent with no credentials but those for the server it
is sent to, as long as those sent before, in the same exchange, have gone there too.  Missing: what is sent elsewhere
after a redirect, see `http_credentials_owner_refuted`. -/
theorem http_credentials_owner_partial (creds : List Credentials) (method url body : Str) (headers : Headers) (auto : Bool)
    (r : Request) (as : List Reply) (h : newRequest method url body headers auto = .ok r)
    (hn : getHeader headers "Authorization".toList = none) (pre : List Sent) (s : Sent) (post : List Sent)
    (he : (exchange creds r as).1 = pre ++ s :: post) (hs : ∀ t ∈ pre, SameServer t s) : Owned creds s := by
  intro v hv
  refine exchange_auth as creds r (server s) ⟨setRequestURI_names h, (setRequestURI_ok h).2.2.2.2.2⟩ ?_ pre s post he rfl ?_ v hv
  · intro v hv
    rw [(setRequestURI_ok h).2.2.2.2.1] at hv
    unfold authOf at hv
    simp only at hv
    rw [hn] at hv
    cases hv
  · intro t ht
    obtain ⟨h1, h2, h3⟩ := hs t ht
    unfold server
    rw [h1, h2, h3]

/-- Credentials for one server. -/
def bob : Credentials :=
  { space := some "https://a.org".toList, userid := some "bob".toList, password := some "pw".toList }

/-- **C260 refuted.**  A server that asks for credentials and then redirects to another one, without encryption, makes
the client send them there. -/
theorem http_credentials_owner_refuted :
    ∃ r as, newRequest "GET".toList "https://a.org/x".toList [] [] true = .ok r ∧
      ∃ s ∈ (exchange [bob] r as).1, s.https = false ∧ s.hostname = "b.org".toList ∧
        getHeader s.headers "Authorization".toList = some bob.str ∧ ¬ Owned [bob] s := by
  let r := (newRequest "GET".toList "https://a.org/x".toList [] [] true).toOption.getD ⟨[], ⟨[], none, none, {}⟩, [], false, [], 0, [], [], true, none⟩
  let as : List Reply := [{ status := 401, authenticate := some "Basic realm=\"x\"".toList },
    { status := 302, location := some "http://b.org/".toList }]
  refine ⟨r, as, by decide +kernel, (exchange [bob] r as).1.getD 2 ⟨false, [], 0, [], [], [], []⟩, by decide +kernel,
    by decide +kernel, by decide +kernel, by decide +kernel, ?_⟩
  intro h
  obtain ⟨c, hc, _, t, ht, hn⟩ := h bob.str (by decide +kernel)
  rw [List.mem_singleton] at hc
  subst hc
  have e1 : t = "https://a.org".toList := by injection ht with ht; exact ht.symm
  subst e1
  have n2 : Names "https://a.org".toList true "a.org".toList 443 := by
    refine ⟨by decide, by decide, .inl ⟨by decide, by decide +kernel⟩⟩
  have := (names_unique hn n2).1
  exact absurd this (by decide +kernel)

/-- The hypotheses of `http_credentials_owner_partial` are met by an exchange in which the request is redirected to
another path, asked for credentials and sent with them. -/
theorem http_credentials_owner_hypotheses :
    ∃ r pre s, newRequest "GET".toList "https://a.org/x".toList [] [] true = .ok r ∧
      (exchange [bob] r [{ status := 301, location := some " https://A.org:443/y".toList },
        { status := 401, authenticate := some "Basic realm=x".toList }, { status := 200 }]).1 = pre ++ [s] ∧
      pre.length = 2 ∧ (∀ t ∈ pre, t.https = s.https ∧ Py.lower t.hostname = Py.lower s.hostname ∧ t.port = s.port) ∧
      getHeader s.headers "Authorization".toList = some bob.str := by
  let r := (newRequest "GET".toList "https://a.org/x".toList [] [] true).toOption.getD ⟨[], ⟨[], none, none, {}⟩, [], false, [], 0, [], [], true, none⟩
  let l := (exchange [bob] r [{ status := 301, location := some " https://A.org:443/y".toList },
        { status := 401, authenticate := some "Basic realm=x".toList }, { status := 200 }]).1
  exact ⟨r, l.take 2, l.getD 2 ⟨false, [], 0, [], [], [], []⟩, by decide +kernel, by decide +kernel, by decide +kernel,
    by decide +kernel, by decide +kernel⟩

/-! ## C261: the paths for which credentials are known to be good -/

/-- The credentials after a number of successes. -/
def afterAll (c : Credentials) (ps : List (Option Str)) : Credentials := ps.foldl Credentials.addSuccessPath c

theorem afterAll_testPath (ps : List (Option Str)) : ∀ (c : Credentials) (path : Option Str),
    (afterAll c ps).testPath path = true ↔ (c.testPath path = true ∨ ∃ p ∈ ps, Covers (segments p) (segments path)) := by
  induction ps with
  | nil => intro c path; exact ⟨.inl, fun h => h.resolve_right (fun ⟨p, hp, _⟩ => nomatch hp)⟩
  | cons p ps ih =>
    intro c path
    show (afterAll (c.addSuccessPath p) ps).testPath path = true ↔ _
    rw [ih, add_testPath]
    constructor
    · rintro ((h | h) | ⟨q, hq, h⟩)
      · exact .inl h
      · exact .inr ⟨p, List.mem_cons_self .., h⟩
      · exact .inr ⟨q, List.mem_cons_of_mem _ hq, h⟩
    · rintro (h | ⟨q, hq, h⟩)
      · exact .inl (.inl h)
      · rcases List.mem_cons.mp hq with e | e
        · subst e; exact .inl (.inr h)
        · exact .inr ⟨q, e, h⟩

/-- **C261.**  Whatever paths are added to new credentials and in whatever order, they are good for a path if and only
if one of those added covers it: replacing prefixes by more general ones loses nothing and adds nothing. -/
theorem http_success_paths (c : Credentials) (h : c.prefixes = []) (ps : List (Option Str)) (path : Option Str) :
    (afterAll c ps).testPath path = true ↔ ∃ p ∈ ps, Covers (segments p) (segments path) := by
  rw [afterAll_testPath]
  constructor
  · rintro (e | e)
    · unfold Credentials.testPath at e; rw [h] at e; cases e
    · exact e
  · exact .inr

/-- The hypotheses of C261 are met, and prefixes are replaced: after `/a/b` and `/c` come `/a/` and `/a/x`, and two
prefixes are left. -/
theorem http_success_hypotheses :
    let ps := ["/a/b", "/c", "/a/", "/a/x"].map fun s => some s.toList
    (afterAll bob ps).prefixes = [["c".toList], ["a".toList, []]] ∧ (afterAll bob ps).testPath (some "/a/y/z".toList) = true ∧
    (afterAll bob ps).testPath (some "/b".toList) = false ∧ bob.prefixes = [] := by decide +kernel

/-! ## C262: credentials are volunteered only at or below paths where they have worked -/

/-- **C262 (partial).**  Whatever paths without empty segments inside have been added to new credentials, they are good
for a path if and only if it is one of those, or below.  Missing: paths with empty segments, see
`http_volunteered_refuted`. -/
theorem http_volunteered_partial (c : Credentials) (h : c.prefixes = []) (ps : List (Option Str))
    (hp : ∀ p ∈ ps, Plain (segments p)) (path : Option Str) :
    (afterAll c ps).testPath path = true ↔ ∃ p ∈ ps, Below (segments p) (segments path) := by
  rw [http_success_paths c h]
  exact exists_congr fun p => and_congr_right fun hm => covers_below (hp p hm)

/-- **C262, sending.**  A request made without an `Authorization` header is sent with one at once only if there are
credentials for the server that are good for the path of the URL. -/
theorem http_volunteered_sent (creds : List Credentials) (method url body : Str) (headers : Headers) (auto : Bool) (r : Request)
    (h : newRequest method url body headers auto = .ok r) (hn : getHeader headers "Authorization".toList = none) (v : Str)
    (hv : getHeader (send creds r).2.headers "Authorization".toList = some v) :
    ∃ c ∈ creds, v = c.str ∧ (∃ t, c.space = some t ∧ Names t r.https (Py.lower r.hostname) r.port) ∧
      c.testPath r.uri.parts.absPath = true := by
  have h0 : authOf r.headers = none := by
    rw [(setRequestURI_ok h).2.2.2.2.1]
    exact hn
  rcases send_auth creds r v hv with e | ⟨_, c, hc, e1, e2, e3⟩
  · rw [h0] at e; cases e
  · exact ⟨c, hc, e1, ⟨_, e2, setRequestURI_names h⟩, e3⟩

/-- **C262, learning.**  Whatever a server answers in an exchange, credentials that are good for a path afterwards were
good for it before, or else the exchange has a request with these credentials, answered with a status other than 401,
whose path covers it. -/
theorem http_volunteered_learned (creds : List Credentials) (method url body : Str) (headers : Headers) (auto : Bool) (r : Request)
    (as : List Reply) (h : newRequest method url body headers auto = .ok r) (i : Nat) (c' : Credentials)
    (hc : (exchange creds r as).2.1[i]? = some c') (path : Option Str) (hp : c'.testPath path = true) :
    ∃ c, creds[i]? = some c ∧ c'.str = c.str ∧ (c.testPath path = true ∨
      ∃ (k : Nat) (s : Sent) (a : Reply), (exchange creds r as).1[k]? = some s ∧ as[k]? = some a ∧ a.status ≠ 401 ∧
        getHeader s.headers "Authorization".toList = some c.str ∧
        ∃ p q, s.line = (if Uri.truthy p then p.getD [] else ['/']) ++ q ∧ (q = [] ∨ q.head? = some '?') ∧
          Covers (segments p) (segments path)) := by
  have ht : Trial creds r := ⟨setRequestURI_line h, fun i hi => by rw [(setRequestURI_ok h).2.2.2.1] at hi; cases hi⟩
  obtain ⟨c, h1, h2, h3⟩ := exchange_worked (fun v chs => list_at_most_one) as creds r ht i c' hc path hp
  refine ⟨c, h1, h2, h3.imp_right ?_⟩
  rintro ⟨k, s, a, k1, k2, w1, w2, w3⟩
  exact ⟨k, s, a, k1, k2, w1, h2 ▸ w2, w3⟩

/-- **C262 refuted.**  Credentials that have worked for `/a//c` are taken to be good for `/a/x/c`. -/
theorem http_volunteered_refuted :
    (afterAll bob [some "/a//c".toList]).testPath (some "/a/x/c".toList) = true ∧
    ¬ Below (segments (some "/a//c".toList)) (segments (some "/a/x/c".toList)) := by
  have e1 : segments (some "/a//c".toList) = [['a'], [], ['c']] := by decide +kernel
  have e2 : segments (some "/a/x/c".toList) = [['a'], ['x'], ['c']] := by decide +kernel
  refine ⟨by decide +kernel, ?_⟩
  rw [e1, e2]
  rintro (⟨r, h⟩ | ⟨d, x, r, h, _⟩)
  · injection h with _ h; injection h with h _; cases h
  · have := congrArg List.getLast? h
    rw [List.getLast?_append] at this
    simp at this

/-- The hypotheses of the theorems about C262 are met: an exchange in which credentials are asked for and work for
`/a/b`, and the next request for something below, sent with them at once. -/
theorem http_volunteered_hypotheses :
    ∃ r creds r2, newRequest "GET".toList "https://a.org/a/b?q".toList [] [] true = .ok r ∧
      (exchange [bob] r [{ status := 401, authenticate := some "Basic realm=x".toList }, { status := 200 }]).2.1 = creds ∧
      creds = [afterAll bob [some "/a/b".toList]] ∧ Plain (segments (some "/a/b".toList)) ∧
      newRequest "GET".toList "https://a.org/a/b/c".toList [] [] true = .ok r2 ∧
      getHeader (send creds r2).2.headers "Authorization".toList = some bob.str := by
  let r := (newRequest "GET".toList "https://a.org/a/b?q".toList [] [] true).toOption.getD ⟨[], ⟨[], none, none, {}⟩, [], false, [], 0, [], [], true, none⟩
  let r2 := (newRequest "GET".toList "https://a.org/a/b/c".toList [] [] true).toOption.getD ⟨[], ⟨[], none, none, {}⟩, [], false, [], 0, [], [], true, none⟩
  refine ⟨r, [afterAll bob [some "/a/b".toList]], r2, by decide +kernel, by decide +kernel, rfl, ?_, by decide +kernel,
    by decide +kernel⟩
  have e : segments (some "/a/b".toList) = [['a'], ['b']] := by decide +kernel
  rw [e]
  intro s hs
  rw [show [['a'], ['b']].dropLast = [['a']] from rfl, List.mem_singleton] at hs
  rw [hs]
  decide

/-! ## C263: redirects come to an end -/

/-- **C263 refuted.**  A server that redirects to the same URL is asked again without end: whatever the number of
responses, one more request is sent. -/
theorem http_redirects_end_refuted :
    ∃ r, newRequest "GET".toList "http://a.org/x".toList [] [] true = .ok r ∧
      ∀ n, (exchange [] r (List.replicate n { status := 301, location := some "http://a.org/x".toList })).1.length = n + 1 ∧
        (exchange [] r (List.replicate n { status := 301, location := some "http://a.org/x".toList })).2.2 = .waiting := by
  let r := (newRequest "GET".toList "http://a.org/x".toList [] [] true).toOption.getD ⟨[], ⟨[], none, none, {}⟩, [], false, [], 0, [], [], true, none⟩
  refine ⟨r, by decide +kernel, ?_⟩
  intro n
  induction n with
  | zero => exact ⟨rfl, rfl⟩
  | succ n ih =>
    have hf : finished [] (send [] r).1 { status := 301, location := some "http://a.org/x".toList } = .ok ([], r, 1) := by
      decide +kernel
    rw [List.replicate_succ, exchange, hf]
    simp only
    rw [if_neg (by decide)]
    exact ⟨by rw [List.length_cons, ih.1], ih.2⟩

/-! ## C264: what is sent again -/

/-- **C264 (partial).**  Every request of an exchange has the method and the body of the first, and a request other than
`GET` and `HEAD` that is answered with 302 is not sent again.  Missing: the other redirects, see
`http_redirect_methods_refuted`. -/
theorem http_redirect_methods_partial (creds : List Credentials) (method url body : Str) (headers : Headers) (auto : Bool)
    (r : Request) (as : List Reply) (h : newRequest method url body headers auto = .ok r) :
    (∀ s ∈ (exchange creds r as).1, s.method = method ∧ s.body = body) ∧
    (∀ a rest, as = a :: rest → a.status = 302 → method.map upperChar ∉ ["GET".toList, "HEAD".toList] →
      (exchange creds r as).1.length = 1) := by
  have hk := setRequestURI_ok h
  have hset : Auth.Set r := ⟨setRequestURI_names h, hk.2.2.2.2.2⟩
  refine ⟨fun s hs => ?_, ?_⟩
  · have := (exchange_set as creds r hset s hs).2
    rw [hk.1, hk.2.1] at this
    exact this
  · intro a rest e ha hm
    subst e
    rw [exchange]
    cases hf : finished creds (send creds r).1 a with
    | error e => rfl
    | ok p =>
      obtain ⟨creds', r', n⟩ := p
      simp only
      have hn : n = 0 := by
        unfold finished at hf
        rw [if_neg (by rw [ha]; rintro ⟨_, e⟩; exact absurd e (by decide))] at hf
        simp only at hf
        rw [if_neg, if_neg (by rw [ha]; decide)] at hf
        · injection hf with hf
          injection hf with _ hf
          injection hf with _ hf
          exact hf.symm
        · rintro ⟨_, _, _, e | e⟩
          · exact e ha
          · rw [(send_kept creds r).method, hk.1] at e
            exact hm e
      rw [if_pos hn]
      rfl

/-- **C264 refuted.**  A `POST` that is answered with 301, 303 or 307 is sent again, with its body and without asking:
after 303, which says that a `GET` is to follow, too. -/
theorem http_redirect_methods_refuted :
    ∃ r, newRequest "POST".toList "http://a.org/pay".toList "100".toList [] true = .ok r ∧
      ∀ status ∈ [301, 303, 307], ∃ s1 s2,
        (exchange [] r [{ status := status, location := some "http://b.org/pay".toList }]).1 = [s1, s2] ∧
        s2.hostname = "b.org".toList ∧ s2.method = "POST".toList ∧ s2.body = "100".toList := by
  let r := (newRequest "POST".toList "http://a.org/pay".toList "100".toList [] true).toOption.getD ⟨[], ⟨[], none, none, {}⟩, [], false, [], 0, [], [], true, none⟩
  refine ⟨r, by decide +kernel, ?_⟩
  intro status hs
  let l := (exchange [] r [{ status := status, location := some "http://b.org/pay".toList }]).1
  refine ⟨l.getD 0 ⟨false, [], 0, [], [], [], []⟩, l.getD 1 ⟨false, [], 0, [], [], [], []⟩, ?_⟩
  revert status
  decide +kernel

/-- The hypotheses of `http_redirect_methods_partial` are met by a `POST` that is answered with 302. -/
theorem http_redirect_methods_hypotheses :
    ∃ r, newRequest "POST".toList "http://a.org/pay".toList "100".toList [] true = .ok r ∧
      "POST".toList.map upperChar ∉ ["GET".toList, "HEAD".toList] ∧
      (exchange [] r [{ status := 302, location := some "http://b.org/pay".toList }]).2.2 =
        .answered { status := 302, location := some "http://b.org/pay".toList } := by
  let r := (newRequest "POST".toList "http://a.org/pay".toList "100".toList [] true).toOption.getD ⟨[], ⟨[], none, none, {}⟩, [], false, [], 0, [], [], true, none⟩
  exact ⟨r, by decide +kernel, by decide +kernel, by decide +kernel⟩

/-! ## C265: responses are handled without exceptions -/

/-- **C265 (partial).**  A response that is neither a redirect nor asks for credentials ends the exchange after one
request.  Missing: the others, see `http_answers_handled_refuted`. -/
theorem http_answers_handled_partial (creds : List Credentials) (method url body : Str) (headers : Headers) (auto : Bool)
    (r : Request) (a : Reply) (rest : List Reply) (h : newRequest method url body headers auto = .ok r)
    (h1 : ¬ (300 ≤ a.status ∧ a.status ≤ 399)) (h2 : a.status ≠ 401) :
    (exchange creds r (a :: rest)).1.length = 1 ∧ (exchange creds r (a :: rest)).2 = (creds, .answered a) := by
  have ht : r.trying = none := (setRequestURI_ok h).2.2.2.1
  have hf : finished creds (send creds r).1 a = .ok (creds, { (send creds r).1 with trying := none }, 0) := by
    unfold finished
    rw [if_neg (fun e => h2 e.2)]
    simp only
    rw [if_neg (fun e => h1 ⟨e.2.1, e.2.2.1⟩), if_neg h2]
    have : noteSuccess creds (send creds r).1 = creds := by
      unfold noteSuccess
      rw [send_trying, ht]
    rw [this]
  rw [exchange, hf]
  exact ⟨rfl, rfl⟩

/-- **C265 refuted.**  Responses that servers give raise exceptions in the thread that reads them: a redirect without a
location, such as 304, or with a path for one; a request for credentials without a challenge, with one for digests, with
two, or repeated because the credentials were wrong; and any request for credentials that have a realm. -/
theorem http_answers_handled_refuted :
    ∃ r, newRequest "GET".toList "https://a.org/x".toList [] [] true = .ok r ∧
      (exchange [] r [{ status := 304 }]).2.2 = .raised (.fault .attributeError) ∧
      (exchange [] r [{ status := 301, location := some "/y".toList }]).2.2 = .raised (.fault .attributeError) ∧
      (exchange [] r [{ status := 401 }]).2.2 = .raised (.fault .typeError) ∧
      (exchange [] r [{ status := 401, authenticate := some "Digest realm=\"x\", nonce=\"y\"".toList }]).2.2 =
        .raised (.fault .typeError) ∧
      (exchange [bob] r [{ status := 401, authenticate := some "Basic realm=\"x\", Digest realm=\"x\"".toList }]).2.2 =
        .raised (.fault .syntaxError) ∧
      (exchange [bob] r (List.replicate 2 { status := 401, authenticate := some "Basic realm=\"x\"".toList })).2.2 =
        .raised (.fault .attributeError) ∧
      (exchange [{ bob with realm := some "x".toList }] r
        [{ status := 401, authenticate := some "Basic realm=\"x\"".toList }]).2.2 = .raised (.fault .attributeError) := by
  let r := (newRequest "GET".toList "https://a.org/x".toList [] [] true).toOption.getD ⟨[], ⟨[], none, none, {}⟩, [], false, [], 0, [], [], true, none⟩
  exact ⟨r, by decide +kernel, by decide +kernel, by decide +kernel, by decide +kernel, by decide +kernel, by decide +kernel,
    by decide +kernel, by decide +kernel⟩

/-! ## C266: challenges are read from what is written -/

/-- A parameter of a challenge: a token for a name, and octets for a value, a token unless it is to be quoted. -/
def ChallengeParam (p : Str × Str × Bool) : Prop :=
  IsToken p.1 ∧ (∀ c ∈ p.2.1, c.toNat < 256) ∧ (p.2.2 = false → IsToken p.2.1)

/-- **C266 (partial).**  A basic challenge, whatever its parameters, is written so that reading a list gives it alone.
Missing: lists, `FromString` and other schemes, see `http_challenge_lists_refuted` and `http_challenge_refuted`. -/
theorem http_challenge_partial (ps : List (Str × Str × Bool)) (h : ∀ p ∈ ps, ChallengeParam p) :
    ∃ text, (mkChallenge (some "Basic".toList) ps).str = .ok text ∧
      Challenge.listFromString text = some (.ok [mkChallenge (some "Basic".toList) ps]) := by
  have hne : (mkChallenge (some "Basic".toList) ps).params ≠ [] := by
    unfold mkChallenge
    simp only
    split
    · rename_i hr
      intro e
      rw [e] at hr
      cases hr
    · simp
  have hok : ∀ p ∈ (mkChallenge (some "Basic".toList) ps).params, ParamOk p := by
    unfold mkChallenge
    simp only
    split
    · exact h
    · intro p hp
      rcases List.mem_append.mp hp with e | e
      · exact h p e
      · rw [List.mem_singleton] at e
        subst e
        refine ⟨⟨by decide, ?_⟩, by decide +kernel, fun e => nomatch e⟩
        have : ∀ c ∈ "realm".toList, 32 < c.toNat ∧ c.toNat ≠ 127 ∧ c ∉ "()<>@,;:\\\"/[]?={}".toList := by decide +kernel
        exact this
  obtain ⟨text, h1, h2⟩ := listFromString_str _ hne hok
  refine ⟨text, h1, ?_⟩
  rw [h2, mkChallenge_again]

/-- **C266 refuted.**  No header is ever read as more than one challenge. -/
theorem http_challenge_lists_refuted (source : Str) (cs : List Challenge)
    (h : Challenge.listFromString source = some (.ok cs)) : cs.length ≤ 1 := list_at_most_one h

/-- **C266 refuted.**  A list of two challenges raises; so does `FromString` for a challenge with two parameters; and a
challenge of another scheme is read as one without a scheme and without its first parameter. -/
theorem http_challenge_refuted :
    Challenge.listFromString "Basic realm=\"a\", Basic realm=\"b\"".toList = some (.error .syntaxError) ∧
    (mkChallenge (some "Basic".toList) [("realm".toList, "a".toList, true), ("x".toList, "y".toList, false)]).str =
      .ok "Basic realm=\"a\", x=y".toList ∧
    Challenge.fromString "Basic realm=\"a\", x=y".toList = some (.error .syntaxError) ∧
    Challenge.listFromString "Digest realm=\"a\", nonce=\"b\"".toList =
      some (.ok [⟨none, [("nonce".toList, "b".toList, true), ("realm".toList, "Default".toList, true)]⟩]) := by
  decide +kernel

/-- The hypotheses of `http_challenge_partial` are met by parameters with and without quotes, one of which is a text
with quotes in it. -/
theorem http_challenge_hypotheses :
    ∀ p ∈ [("realm".toList, "a \"b\", c=d".toList, true), ("charset".toList, "UTF-8".toList, false)], ChallengeParam p := by
  have tok : ∀ t : Str, t ≠ [] → t.all isTok = true → IsToken t := fun t h1 h2 => (token_iff t).mp ⟨h1, h2⟩
  intro p hp
  simp only [List.mem_cons, List.not_mem_nil, or_false] at hp
  rcases hp with rfl | rfl
  · exact ⟨tok _ (by decide) (by decide +kernel), by decide +kernel, fun e => nomatch e⟩
  · exact ⟨tok _ (by decide) (by decide +kernel), by decide +kernel, fun _ => tok _ (by decide) (by decide +kernel)⟩

/-! ## C267: parameters of challenges are found whatever the case of their names -/

/-- **C267.**  Looking up a name in a challenge fails if and only if no parameter has that name, but for case; what is
found is the value of one that has; and if one has exactly that name, it is the value of such a one. -/
theorem http_challenge_lookup (c : Challenge) (name : Str) :
    (c.lookup name = none ↔ ∀ p ∈ c.params, ¬ SameName p.1 name) ∧
    (∀ v, c.lookup name = some v → ∃ p ∈ c.params, SameName p.1 name ∧ p.2.1 = v) ∧
    (∀ p ∈ c.params, p.1 = name → ∃ q ∈ c.params, q.1 = name ∧ c.lookup name = some q.2.1) := by
  obtain ⟨a1, a2, a3⟩ := pdict_get c.params name
  obtain ⟨b1, b2, _⟩ := pdict_get c.params (Py.lower name)
  have key : ∀ v, c.lookup name = some v → ∃ p ∈ c.params, SameName p.1 name ∧ p.2.1 = v := by
    intro v hv
    unfold Challenge.lookup at hv
    split at hv
    · rename_i w hw
      injection hv with hv
      subst hv
      obtain ⟨p, hp, e, hn⟩ := a1 w hw
      refine ⟨p, hp, ?_, e.symm⟩
      rcases hn with hn | hn
      · rw [hn]; rfl
      · unfold SameName; rw [← hn, lower_idem]
    · obtain ⟨p, hp, e, hn⟩ := b1 v hv
      refine ⟨p, hp, ?_, e.symm⟩
      rcases hn with hn | hn
      · unfold SameName; rw [hn, lower_idem]
      · exact hn
  refine ⟨⟨fun hn p hp hs => ?_, fun hn => ?_⟩, key, fun p hp hn => ?_⟩
  · have := b2 p hp (.inr hs)
    unfold Challenge.lookup at hn
    split at hn
    · cases hn
    · rw [hn] at this; cases this
  · cases hl : c.lookup name with
    | none => rfl
    | some v =>
      obtain ⟨p, hp, hs, _⟩ := key v hl
      exact absurd hs (hn p hp)
  · obtain ⟨q, hq, e1, e2⟩ := a3 p hp hn
    refine ⟨q, hq, e1, ?_⟩
    unfold Challenge.lookup
    rw [e2]

/-- **C267, realms.**  Every challenge has a realm. -/
theorem http_challenge_realm (scheme : Option Str) (ps : List (Str × Str × Bool)) :
    ((mkChallenge scheme ps).lookup "realm".toList).isSome = true := by
  cases hl : (mkChallenge scheme ps).lookup "realm".toList with
  | some v => rfl
  | none =>
    exfalso
    have hn := (http_challenge_lookup _ _).1.mp hl
    unfold mkChallenge at hn
    simp only at hn
    split at hn
    · rename_i hr
      cases hg : Dict.get (pdict ps) "realm".toList with
      | none => rw [hg] at hr; cases hr
      | some v =>
        obtain ⟨p, hp, _, e⟩ := (pdict_get ps "realm".toList).1 v hg
        refine hn p hp ?_
        rcases e with e | e
        · rw [e]; rfl
        · unfold SameName; rw [← e, lower_idem]
    · exact hn ("realm".toList, "Default".toList, true) (by simp) rfl

/-- Two parameters whose names differ in case, each found under its own name, and the first under any other. -/
theorem http_challenge_lookup_hypotheses :
    let c := mkChallenge (some "Basic".toList) [("Realm".toList, "a".toList, true), ("REALM".toList, "b".toList, true)]
    c.lookup "Realm".toList = some "a".toList ∧ c.lookup "REALM".toList = some "b".toList ∧
    c.lookup "rEALM".toList = some "a".toList ∧ c.lookup "nonce".toList = none ∧ c.params.length = 2 := by decide +kernel

/-! ## C268: the `Host` header -/

/-- **C268.**  Whatever a server answers, every request of an exchange has a `Host` header with the host and, if it is
not the usual one, the port of the server that it is sent to. -/
theorem http_host_header (creds : List Credentials) (method url body : Str) (headers : Headers) (auto : Bool)
    (r : Request) (as : List Reply) (h : newRequest method url body headers auto = .ok r) :
    ∀ s ∈ (exchange creds r as).1, getHeader s.headers "Host".toList = some (serverText s.https s.hostname s.port) := by
  intro s hs
  exact (exchange_set as creds r ⟨setRequestURI_names h, (setRequestURI_ok h).2.2.2.2.2⟩ s hs).1

/-- An exchange with a redirect to another port. -/
theorem http_host_hypotheses :
    ∃ r s1 s2, newRequest "GET".toList "http://a.org/x".toList [] [("host".toList, "Host".toList, "evil".toList)] true = .ok r ∧
      (exchange [] r [{ status := 307, location := some "http://b.org:8080".toList }]).1 = [s1, s2] ∧
      getHeader s1.headers "Host".toList = some "a.org".toList ∧ getHeader s2.headers "Host".toList = some "b.org:8080".toList ∧
      s2.port = 8080 := by
  let r := (newRequest "GET".toList "http://a.org/x".toList [] [("host".toList, "Host".toList, "evil".toList)] true).toOption.getD ⟨[], ⟨[], none, none, {}⟩, [], false, [], 0, [], [], true, none⟩
  let l := (exchange [] r [{ status := 307, location := some "http://b.org:8080".toList }]).1
  exact ⟨r, l.getD 0 ⟨false, [], 0, [], [], [], []⟩, l.getD 1 ⟨false, [], 0, [], [], [], []⟩, by decide +kernel, by decide +kernel,
    by decide +kernel, by decide +kernel, by decide +kernel⟩

/-! ## C269: a response is followed by at most one request -/

/-- **C269.**  Whatever the state of an exchange and the response, the request is queued again at most once. -/
theorem http_resent_once (creds creds' : List Credentials) (r r' : Request) (a : Reply) (n : Nat)
    (h : finished creds r a = .ok (creds', r', n)) : n ≤ 1 := by
  obtain ⟨h1, h2⟩ := finished_ok h
  unfold finished at h
  split at h
  · cases h
  · simp only at h
    split at h
    · split at h
      · cases h
      · split at h
        · injection h with h
          injection h with _ h
          injection h with _ h
          omega
        · split at h
          · cases h
          · split at h
            · cases h
            · split at h
              · cases h
              · split at h
                · cases h
                · injection h with h
                  injection h with _ h
                  injection h with _ h
                  omega
    · split at h
      · split at h
        · cases h
        · split at h
          · cases h
          · cases h
          · rename_i chs hchs
            split at h
            · cases h
            · rename_i r2 n2 htr
              injection h with h
              injection h with _ h
              injection h with _ h
              have := list_at_most_one hchs
              have hc := tryChallenges_count chs htr
              omega
      · injection h with h
        injection h with _ h
        injection h with _ h
        omega

/-- A response that is followed by a request. -/
theorem http_resent_hypotheses :
    ∃ r c r', newRequest "GET".toList "https://a.org/x".toList [] [] true = .ok r ∧
      finished [bob] r { status := 401, authenticate := some ", Basic realm=\"x\"".toList } = .ok (c, r', 1) := by
  let r := (newRequest "GET".toList "https://a.org/x".toList [] [] true).toOption.getD ⟨[], ⟨[], none, none, {}⟩, [], false, [], 0, [], [], true, none⟩
  refine ⟨r, [bob], { r with trying := some 0, headers := setHeader r.headers "Authorization".toList (some bob.str) false },
    by decide +kernel, by decide +kernel⟩

end Verif.Props
