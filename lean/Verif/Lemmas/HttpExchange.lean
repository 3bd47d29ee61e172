import Verif.Lemmas.HttpAuth
import Verif.Props.HttpRequest

/-!
# Exchanges: what requests keep while they are sent again
-/

namespace Verif.Http.Auth

open Verif Verif.Http Verif.Http.Msg Verif.Spec.HttpAuth

/-- The `Authorization` header. -/
def authOf (h : Headers) : Option Str := getHeader h "Authorization".toList

theorem auth_put (h : Headers) (v : Str) : authOf (setHeader h "Authorization".toList (some v) false) = some v := by
  unfold authOf
  rw [Props.getHeader_put, if_pos (by decide +kernel)]

theorem auth_host (h : Headers) (v : Str) : authOf (setHeader h "Host".toList (some v) false) = authOf h := by
  unfold authOf
  rw [Props.getHeader_put, if_neg (by decide +kernel)]

theorem host_auth (h : Headers) (v : Str) : getHeader (setHeader h "Authorization".toList (some v) false) "Host".toList =
    getHeader h "Host".toList := by
  rw [Props.getHeader_put, if_neg (by decide +kernel)]

theorem host_put (h : Headers) (v : Str) : getHeader (setHeader h "Host".toList (some v) false) "Host".toList = some v := by
  rw [Props.getHeader_put, if_pos (by decide +kernel)]

/-- What `SetRequestURI` makes of a request. -/
theorem setRequestURI_ok {r r' : Request} {text : Str} (h : setRequestURI r text = .ok r') :
    r'.method = r.method ∧ r'.body = r.body ∧ r'.autoRedirect = r.autoRedirect ∧ r'.trying = r.trying ∧
    authOf r'.headers = authOf r.headers ∧
    getHeader r'.headers "Host".toList = some (serverText r'.https r'.hostname r'.port) := by
  unfold setRequestURI at h
  split at h
  · cases h
  · split at h
    · cases h
    · split at h
      · cases h
      · split at h
        · cases h
        · simp only at h
          split at h
          · injection h with h
            subst h
            refine ⟨rfl, rfl, rfl, rfl, auth_host .., ?_⟩
            simp only
            rw [host_put]
            unfold serverText
            show some _ = some _
            congr 1
            unfold defaultPort
            generalize (if Uri.truthy _ = true then Py.digitsVal 10 _ else _ : Nat) = q
            generalize (if (_ : Bool) = true then 443 else 80 : Nat) = d
            split
            · rw [List.append_nil]
            · rfl
          · cases h

/-- A request whose URL names the server it goes to, as does its `Host` header. -/
structure Set (r : Request) : Prop where
  names : Names (canonicalRoot r.uri) r.https (Py.lower r.hostname) r.port
  host : getHeader r.headers "Host".toList = some (serverText r.https r.hostname r.port)

/-- What does not change when a request is sent, or tried with credentials. -/
structure Kept (r r' : Request) : Prop where
  method : r'.method = r.method
  body : r'.body = r.body
  auto : r'.autoRedirect = r.autoRedirect
  uri : r'.uri = r.uri
  line : r'.line = r.line
  https : r'.https = r.https
  hostname : r'.hostname = r.hostname
  port : r'.port = r.port
  host : getHeader r'.headers "Host".toList = getHeader r.headers "Host".toList

theorem Kept.refl (r : Request) : Kept r r := ⟨rfl, rfl, rfl, rfl, rfl, rfl, rfl, rfl, rfl⟩

theorem Kept.trans {a b c : Request} (h : Kept a b) (k : Kept b c) : Kept a c :=
  ⟨k.method.trans h.method, k.body.trans h.body, k.auto.trans h.auto, k.uri.trans h.uri, k.line.trans h.line,
   k.https.trans h.https, k.hostname.trans h.hostname, k.port.trans h.port, k.host.trans h.host⟩

theorem Kept.set {r r' : Request} (k : Kept r r') (h : Set r) : Set r' :=
  ⟨by rw [k.uri, k.https, k.hostname, k.port]; exact h.names, by rw [k.host, k.https, k.hostname, k.port]; exact h.host⟩

theorem send_kept (creds : List Credentials) (r : Request) : Kept r (send creds r).1 := by
  unfold send
  simp only
  split
  · exact Kept.refl r
  · split
    · exact ⟨rfl, rfl, rfl, rfl, rfl, rfl, rfl, rfl, host_auth ..⟩
    · exact Kept.refl r

theorem send_sent (creds : List Credentials) (r : Request) : (send creds r).2 =
    ⟨r.https, r.hostname, r.port, r.method, r.line, (send creds r).1.headers, r.body⟩ := by
  have k := send_kept creds r
  show (⟨(send creds r).1.https, (send creds r).1.hostname, (send creds r).1.port, (send creds r).1.method,
    (send creds r).1.line, (send creds r).1.headers, (send creds r).1.body⟩ : Sent) = _
  rw [k.https, k.hostname, k.port, k.method, k.line, k.body]

/-- The credentials a header may come from. -/
theorem send_auth (creds : List Credentials) (r : Request) (v : Str) (h : authOf (send creds r).1.headers = some v) :
    authOf r.headers = some v ∨
      (authOf r.headers = none ∧ ∃ c ∈ creds, v = c.str ∧ c.space = some (canonicalRoot r.uri) ∧
        c.testPath r.uri.parts.absPath = true) := by
  unfold send at h
  simp only at h
  split at h
  · exact .inl h
  · rename_i hn
    split at h
    · rename_i c hc
      simp only at h
      rw [auth_put] at h
      injection h with h
      have ht := List.find?_some hc
      unfold Credentials.testURL at ht
      rw [Bool.and_eq_true, beq_iff_eq] at ht
      refine .inr ⟨?_, c, List.mem_of_find?_eq_some hc, h.symm, ht.1, ht.2⟩
      cases ha : authOf r.headers with
      | none => rfl
      | some w => unfold authOf at ha; rw [ha] at hn; exact absurd rfl hn
    · exact .inl h

theorem findLoop_some {space : Str} {ch : Challenge} (cs : List Credentials) : ∀ (n i : Nat),
    findLoop space ch n cs = .ok (some i) → ∃ c, cs[i - n]? = some c ∧ n ≤ i ∧ c.space = some space := by
  induction cs with
  | nil => intro n i h; cases h
  | cons c cs ih =>
    intro n i h
    rw [findLoop] at h
    split at h
    · cases h
    · rename_i hm
      injection h with h
      injection h with h
      subst h
      refine ⟨c, by rw [Nat.sub_self]; rfl, Nat.le_refl _, ?_⟩
      unfold Credentials.matchChallenge at hm
      split at hm
      · cases hm
      · split at hm
        · cases hm
        · rename_i hs
          exact Decidable.not_not.mp hs
    · obtain ⟨d, h1, h2, h3⟩ := ih (n + 1) i h
      refine ⟨d, ?_, by omega, h3⟩
      rw [show i - n = (i - (n + 1)) + 1 by omega]
      exact h1

theorem findCredentials_some {creds : List Credentials} {space : Str} {ch : Challenge} {i : Nat}
    (h : findCredentials creds space ch = .ok (some i)) : ∃ c ∈ creds, creds.getD i {} = c ∧ c.space = some space := by
  unfold findCredentials at h
  split at h
  · cases h
  · obtain ⟨c, h1, _, h3⟩ := findLoop_some creds 0 i h
    rw [Nat.sub_zero] at h1
    exact ⟨c, List.mem_of_getElem? h1, by rw [List.getD_eq_getElem?_getD, h1]; rfl, h3⟩

theorem tryChallenges_kept {creds : List Credentials} (chs : List Challenge) : ∀ {r r' : Request} {n n' : Nat},
    tryChallenges creds r n chs = .ok (r', n') → Kept r r' ∧
      (authOf r'.headers = authOf r.headers ∨
        ∃ c ∈ creds, authOf r'.headers = some c.str ∧ c.space = some (canonicalRoot r.uri)) := by
  induction chs with
  | nil =>
    intro r r' n n' h
    injection h with h
    injection h with h1 h2
    subst h1
    exact ⟨Kept.refl _, .inl rfl⟩
  | cons ch chs ih =>
    intro r r' n n' h
    rw [tryChallenges] at h
    split at h
    · cases h
    · obtain ⟨h1, h2⟩ := ih h
      refine ⟨Kept.trans ?_ h1, h2⟩
      exact ⟨rfl, rfl, rfl, rfl, rfl, rfl, rfl, rfl, rfl⟩
    · rename_i i hf
      obtain ⟨h1, h2⟩ := ih h
      refine ⟨Kept.trans ?_ h1, ?_⟩
      · exact ⟨rfl, rfl, rfl, rfl, rfl, rfl, rfl, rfl, host_auth ..⟩
      rcases h2 with h2 | h2
      · obtain ⟨c, hc, e, hs⟩ := findCredentials_some hf
        refine .inr ⟨c, hc, ?_, hs⟩
        rw [h2, auth_put, e]
      · exact .inr h2

/-- The credentials stay the same but for the paths. -/
def Creds (a b : List Credentials) : Prop :=
  a.map (fun c => (c.space, c.realm, c.userid, c.password)) = b.map (fun c => (c.space, c.realm, c.userid, c.password))

theorem creds_str {c d : Credentials} (h : (c.space, c.realm, c.userid, c.password) = (d.space, d.realm, d.userid, d.password)) :
    c.str = d.str ∧ c.space = d.space := by
  injection h with h1 h
  injection h with h2 h
  injection h with h3 h4
  unfold Credentials.str
  rw [h3, h4]
  exact ⟨rfl, h1⟩

theorem creds_mem {a b : List Credentials} (h : Creds a b) {c : Credentials} (hc : c ∈ a) :
    ∃ d ∈ b, c.str = d.str ∧ c.space = d.space := by
  have : (c.space, c.realm, c.userid, c.password) ∈ b.map (fun c => (c.space, c.realm, c.userid, c.password)) := by
    rw [← h]
    exact List.mem_map.mpr ⟨c, hc, rfl⟩
  obtain ⟨d, hd, e⟩ := List.mem_map.mp this
  exact ⟨d, hd, creds_str e.symm⟩

theorem creds_modify (cs : List Credentials) (i : Nat) (p : Option Str) : Creds (cs.modify i (·.addSuccessPath p)) cs := by
  unfold Creds
  rw [← List.ofFn_getElem (xs := List.map _ (cs.modify i _))]
  apply List.ext_getElem
  · simp
  · intro j h1 h2
    simp only [List.getElem_ofFn, List.getElem_map, List.getElem_modify]
    split <;> rfl

/-- What handling a response does to a request. -/
theorem finished_ok {creds creds' : List Credentials} {r r' : Request} {a : Reply} {n : Nat}
    (h : finished creds r a = .ok (creds', r', n)) :
    Creds creds' creds ∧
    ((Kept r r' ∧ (authOf r'.headers = authOf r.headers ∨
        ∃ c ∈ creds', authOf r'.headers = some c.str ∧ c.space = some (canonicalRoot r.uri))) ∨
     ((300 ≤ a.status ∧ a.status ≤ 399) ∧ (a.status ≠ 302 ∨ r.method.map upperChar ∈ ["GET".toList, "HEAD".toList]) ∧
      n = 1 ∧ r.autoRedirect = true ∧ ∃ l text, a.location = some l ∧ text = strip l ∧
      setRequestURI { r with trying := none } text = .ok r')) := by
  unfold finished at h
  split at h
  · cases h
  · simp only at h
    have hc : Creds (noteSuccess creds r) creds := by
      unfold noteSuccess
      cases r.trying with
      | none => rfl
      | some i => exact creds_modify ..
    split at h
    · rename_i hr
      split at h
      · cases h
      · rename_i l hl
        split at h
        · injection h with h
          injection h with h1 h2
          injection h2 with h2 h3
          subst h1 h2
          exact ⟨hc, .inl ⟨⟨rfl, rfl, rfl, rfl, rfl, rfl, rfl, rfl, rfl⟩, .inl rfl⟩⟩
        · split at h
          · cases h
          · split at h
            · cases h
            · split at h
              · cases h
              · split at h
                · cases h
                · rename_i r2 hs
                  injection h with h
                  injection h with h1 h2
                  injection h2 with h2 h3
                  subst h1 h2
                  exact ⟨hc, .inr ⟨⟨hr.2.1, hr.2.2.1⟩, hr.2.2.2, h3.symm, hr.1, l, strip l, hl, rfl, hs⟩⟩
    · split at h
      · split at h
        · cases h
        · split at h
          · cases h
          · cases h
          · split at h
            · cases h
            · rename_i r2 n2 ht
              injection h with h
              injection h with h1 h2
              injection h2 with h2 h3
              subst h1 h2
              obtain ⟨k, ka⟩ := tryChallenges_kept _ ht
              refine ⟨hc, .inl ⟨Kept.trans ?_ k, ka⟩⟩
              exact ⟨rfl, rfl, rfl, rfl, rfl, rfl, rfl, rfl, rfl⟩
      · injection h with h
        injection h with h1 h2
        injection h2 with h2 h3
        subst h1 h2
        exact ⟨hc, .inl ⟨⟨rfl, rfl, rfl, rfl, rfl, rfl, rfl, rfl, rfl⟩, .inl rfl⟩⟩

theorem finished_set {creds creds' : List Credentials} {r r' : Request} {a : Reply} {n : Nat}
    (h : finished creds r a = .ok (creds', r', n)) (hs : Set r) : Set r' ∧ r'.method = r.method ∧ r'.body = r.body := by
  obtain ⟨_, ⟨k, _⟩ | ⟨_, _, _, _, l, text, _, _, hu⟩⟩ := finished_ok h
  · exact ⟨k.set hs, k.method, k.body⟩
  · have := setRequestURI_ok hu
    exact ⟨⟨setRequestURI_names hu, this.2.2.2.2.2⟩, this.1, this.2.1⟩

/-- Every request of an exchange is set, and has the method and the body of the first. -/
theorem exchange_set (as : List Reply) : ∀ (creds : List Credentials) (r : Request), Set r →
    ∀ s ∈ (exchange creds r as).1, getHeader s.headers "Host".toList = some (serverText s.https s.hostname s.port) ∧
      s.method = r.method ∧ s.body = r.body := by
  have first : ∀ (creds : List Credentials) (r : Request), Set r →
      getHeader (send creds r).2.headers "Host".toList =
        some (serverText (send creds r).2.https (send creds r).2.hostname (send creds r).2.port) ∧
      (send creds r).2.method = r.method ∧ (send creds r).2.body = r.body := by
    intro creds r hr
    rw [send_sent]
    exact ⟨by rw [(send_kept creds r).host]; exact hr.host, rfl, rfl⟩
  induction as with
  | nil =>
    intro creds r hr s hs
    rw [exchange, List.mem_singleton] at hs
    subst hs
    exact first creds r hr
  | cons a as ih =>
    intro creds r hr s hs
    rw [exchange] at hs
    split at hs
    · rw [List.mem_singleton] at hs; subst hs; exact first creds r hr
    · rename_i creds' r' n hf
      obtain ⟨h1, h2, h3⟩ := finished_set hf ((send_kept creds r).set hr)
      split at hs
      · rw [List.mem_singleton] at hs; subst hs; exact first creds r hr
      · simp only at hs
        rcases List.mem_cons.mp hs with e | e
        · subst e; exact first creds r hr
        · have := ih creds' r' h1 s e
          exact ⟨this.1, by rw [this.2.1, h2, (send_kept creds r).method], by rw [this.2.2, h3, (send_kept creds r).body]⟩

/-- The server a request has gone to. -/
def server (s : Sent) : Bool × Str × Nat := (s.https, Py.lower s.hostname, s.port)

/-- The credentials of a request belong to the server it goes to as long as all requests go there. -/
theorem exchange_auth (as : List Reply) : ∀ (creds : List Credentials) (r : Request) (S : Bool × Str × Nat), Set r →
    (∀ v, authOf r.headers = some v → ∃ c ∈ creds, v = c.str ∧ ∃ t, c.space = some t ∧ Names t S.1 S.2.1 S.2.2) →
    ∀ pre s post, (exchange creds r as).1 = pre ++ s :: post → server s = S → (∀ t ∈ pre, server t = S) →
    ∀ v, authOf s.headers = some v → ∃ c ∈ creds, v = c.str ∧ ∃ t, c.space = some t ∧ Names t S.1 S.2.1 S.2.2 := by
  have first : ∀ (creds : List Credentials) (r : Request) (S : Bool × Str × Nat), Set r →
      (∀ v, authOf r.headers = some v → ∃ c ∈ creds, v = c.str ∧ ∃ t, c.space = some t ∧ Names t S.1 S.2.1 S.2.2) →
      server (send creds r).2 = S →
      ∀ v, authOf (send creds r).1.headers = some v →
        ∃ c ∈ creds, v = c.str ∧ ∃ t, c.space = some t ∧ Names t S.1 S.2.1 S.2.2 := by
    intro creds r S hr ha hS v hv
    rcases send_auth creds r v hv with h | ⟨_, c, hc, e, hs, _⟩
    · exact ha v h
    · refine ⟨c, hc, e, _, hs, ?_⟩
      rw [send_sent] at hS
      subst hS
      exact hr.names
  induction as with
  | nil =>
    intro creds r S hr ha pre s post he hS hpre v hv
    rw [exchange] at he
    cases pre with
    | nil =>
      injection he with he _
      subst he
      exact first creds r S hr ha hS v hv
    | cons a pre => injection he with _ he; cases pre <;> cases he
  | cons a as ih =>
    intro creds r S hr ha pre s post he hS hpre v hv
    have one : ∀ {pre post : List Sent}, [(send creds r).2] = pre ++ s :: post → s = (send creds r).2 := by
      intro pre post he
      cases pre with
      | nil => injection he with he _; exact he.symm
      | cons a pre => injection he with _ he; cases pre <;> cases he
    rw [exchange] at he
    split at he
    · have := one he; subst this; exact first creds r S hr ha hS v hv
    · rename_i creds' r' n hf
      split at he
      · have := one he; subst this; exact first creds r S hr ha hS v hv
      · simp only at he
        cases pre with
        | nil =>
          injection he with he _
          subst he
          exact first creds r S hr ha hS v hv
        | cons p pre =>
          injection he with h1 h2
          have hp : server (send creds r).2 = S := by rw [h1]; exact hpre p (List.mem_cons_self ..)
          have hset := (finished_set hf ((send_kept creds r).set hr)).1
          obtain ⟨hcr, hcase⟩ := finished_ok hf
          have hback : ∀ {v : Str}, (∃ c ∈ creds', v = c.str ∧ ∃ t, c.space = some t ∧ Names t S.1 S.2.1 S.2.2) →
              ∃ c ∈ creds, v = c.str ∧ ∃ t, c.space = some t ∧ Names t S.1 S.2.1 S.2.2 := by
            rintro v ⟨c, hc, e, t, ht, hn⟩
            obtain ⟨d, hd, e1, e2⟩ := creds_mem hcr hc
            exact ⟨d, hd, e.trans e1, t, e2 ▸ ht, hn⟩
          have hfwd : ∀ {v : Str}, (∃ c ∈ creds, v = c.str ∧ ∃ t, c.space = some t ∧ Names t S.1 S.2.1 S.2.2) →
              ∃ c ∈ creds', v = c.str ∧ ∃ t, c.space = some t ∧ Names t S.1 S.2.1 S.2.2 := by
            rintro v ⟨c, hc, e, t, ht, hn⟩
            obtain ⟨d, hd, e1, e2⟩ := creds_mem hcr.symm hc
            exact ⟨d, hd, e.trans e1, t, e2 ▸ ht, hn⟩
          refine hback (ih creds' r' S hset ?_ pre s post h2 hS (fun t ht => hpre t (List.mem_cons_of_mem _ ht)) v hv)
          intro w hw
          rcases hcase with ⟨_, hk | ⟨c, hc, hk, hs⟩⟩ | ⟨_, _, _, _, l, text, _, _, hu⟩
          · rw [hk] at hw
            exact hfwd (first creds r S hr ha hp w hw)
          · rw [hk] at hw
            injection hw with hw
            refine ⟨c, hc, hw.symm, _, hs, ?_⟩
            have := ((send_kept creds r).set hr).names
            have k := send_kept creds r
            rw [k.https, k.hostname, k.port] at this
            rw [send_sent] at hp
            subst hp
            exact this
          · rw [(setRequestURI_ok hu).2.2.2.2.1] at hw
            exact hfwd (first creds r S hr ha hp w hw)

/-! ### Where credentials have worked -/

/-- The text of a path in a request line. -/
def pathText (p : Option Str) : Str := if Uri.truthy p then p.getD [] else ['/']

/-- The request line has the path of the URL, and credentials on trial are in the header. -/
structure Trial (creds : List Credentials) (r : Request) : Prop where
  line : ∃ q, r.line = pathText r.uri.parts.absPath ++ q ∧ (q = [] ∨ q.head? = some '?')
  trying : ∀ i, r.trying = some i → ∃ c, creds[i]? = some c ∧ authOf r.headers = some c.str

theorem setRequestURI_line {r r' : Request} {text : Str} (h : setRequestURI r text = .ok r') :
    ∃ q, r'.line = pathText r'.uri.parts.absPath ++ q ∧ (q = [] ∨ q.head? = some '?') := by
  unfold setRequestURI at h
  split at h
  · cases h
  · rename_i u hu
    split at h
    · cases h
    · split at h
      · cases h
      · split at h
        · cases h
        · simp only at h
          split at h
          · injection h with h
            subst h
            refine ⟨_, rfl, ?_⟩
            cases u.parts.query with
            | none => exact .inl rfl
            | some q => exact .inr rfl
          · cases h

theorem send_trial {creds : List Credentials} {r : Request} (h : Trial creds r) : Trial creds (send creds r).1 := by
  have k := send_kept creds r
  refine ⟨by rw [k.line, k.uri]; exact h.line, ?_⟩
  intro i hi
  have ht : (send creds r).1.trying = r.trying := by
    unfold send
    simp only
    split
    · rfl
    · split <;> rfl
  rw [ht] at hi
  obtain ⟨c, hc, ha⟩ := h.trying i hi
  refine ⟨c, hc, ?_⟩
  have : (send creds r).1 = r := by
    unfold send
    simp only
    rw [if_pos]
    unfold authOf at ha
    rw [ha]
    rfl
  rw [this]
  exact ha

theorem send_trying (creds : List Credentials) (r : Request) : (send creds r).1.trying = r.trying := by
  unfold send
  simp only
  split
  · rfl
  · split <;> rfl

theorem tryChallenges_trial {creds : List Credentials} (chs : List Challenge) : ∀ {r r' : Request} {n n' : Nat},
    tryChallenges creds r n chs = .ok (r', n') → Trial creds r → Trial creds r' ∧ n' ≤ n + chs.length := by
  induction chs with
  | nil =>
    intro r r' n n' h ht
    injection h with h
    injection h with h1 h2
    subst h1 h2
    exact ⟨ht, Nat.le_refl _⟩
  | cons ch chs ih =>
    intro r r' n n' h ht
    rw [tryChallenges] at h
    split at h
    · cases h
    · obtain ⟨h1, h2⟩ := ih h ⟨ht.line, fun i hi => nomatch hi⟩
      exact ⟨h1, by simp only [List.length_cons]; omega⟩
    · rename_i i hf
      have : Trial creds { r with
          trying := some i, headers := setHeader r.headers "Authorization".toList (some ((creds.getD i {}).str)) false } := by
        refine ⟨ht.line, fun j hj => ?_⟩
        injection hj with hj
        subst hj
        unfold findCredentials at hf
        split at hf
        · cases hf
        · obtain ⟨c, h1, _, h3⟩ := findLoop_some creds 0 i hf
          rw [Nat.sub_zero] at h1
          refine ⟨c, h1, ?_⟩
          simp only
          rw [auth_put, List.getD_eq_getElem?_getD, h1]
          rfl
      obtain ⟨h1, h2⟩ := ih h this
      exact ⟨h1, by simp only [List.length_cons]; omega⟩

theorem tryChallenges_count {creds : List Credentials} (chs : List Challenge) : ∀ {r r' : Request} {n n' : Nat},
    tryChallenges creds r n chs = .ok (r', n') → n' ≤ n + chs.length := by
  induction chs with
  | nil =>
    intro r r' n n' h
    injection h with h
    injection h with h1 h2
    subst h2
    exact Nat.le_refl _
  | cons ch chs ih =>
    intro r r' n n' h
    rw [tryChallenges] at h
    split at h
    · cases h
    · have := ih h
      simp only [List.length_cons]; omega
    · have := ih h
      simp only [List.length_cons]; omega

/-- The credentials at a place, before and after a response. -/
theorem noteSuccess_get {creds : List Credentials} {r : Request} (i : Nat) :
    (noteSuccess creds r)[i]? = (creds[i]?).map fun c =>
      if r.trying = some i then c.addSuccessPath r.uri.parts.absPath else c := by
  unfold noteSuccess
  cases r.trying with
  | none => cases creds[i]? <;> simp
  | some j =>
    simp only
    rw [List.getElem?_modify]
    by_cases hj : j = i
    · subst hj; simp
    · have : ¬ some j = some i := fun e => hj (by injection e)
      simp [hj]

theorem addSuccessPath_str (c : Credentials) (p : Option Str) : (c.addSuccessPath p).str = c.str := rfl

theorem finished_trial {creds creds' : List Credentials} {r r' : Request} {a : Reply} {n : Nat}
    (h : finished creds r a = .ok (creds', r', n)) (ht : Trial creds r)
    (hl : ∀ v chs, Challenge.listFromString v = some (.ok chs) → chs.length ≤ 1) :
    Trial creds' r' ∧ creds' = noteSuccess creds r ∧ (r.trying = none ∨ a.status ≠ 401) ∧ n ≤ 1 := by
  unfold finished at h
  split at h
  · cases h
  · rename_i hno
    have hst : r.trying = none ∨ a.status ≠ 401 := by
      cases htr : r.trying with
      | none => exact .inl rfl
      | some i => rw [htr] at hno; exact .inr fun e => hno ⟨rfl, e⟩
    simp only at h
    have h0 : Trial (noteSuccess creds r) { r with trying := none } := ⟨ht.line, fun i hi => nomatch hi⟩
    split at h
    · split at h
      · cases h
      · split at h
        · injection h with h
          injection h with h1 h2
          injection h2 with h2 h3
          subst h1 h2 h3
          exact ⟨h0, rfl, hst, Nat.zero_le _⟩
        · split at h
          · cases h
          · split at h
            · cases h
            · split at h
              · cases h
              · split at h
                · cases h
                · rename_i r2 hs
                  injection h with h
                  injection h with h1 h2
                  injection h2 with h2 h3
                  subst h1 h2 h3
                  refine ⟨⟨setRequestURI_line hs, fun i hi => ?_⟩, rfl, hst, Nat.le_refl _⟩
                  rw [(setRequestURI_ok hs).2.2.2.1] at hi
                  cases hi
    · split at h
      · split at h
        · cases h
        · rename_i v hv
          split at h
          · cases h
          · cases h
          · rename_i chs hchs
            split at h
            · cases h
            · rename_i r2 n2 htr
              injection h with h
              injection h with h1 h2
              injection h2 with h2 h3
              subst h1 h2 h3
              obtain ⟨h4, h5⟩ := tryChallenges_trial _ htr h0
              have := hl v chs hchs
              exact ⟨h4, rfl, hst, by omega⟩
      · injection h with h
        injection h with h1 h2
        injection h2 with h2 h3
        subst h1 h2 h3
        exact ⟨h0, rfl, hst, Nat.zero_le _⟩

/-- A request that shows that credentials are good at a path. -/
def Worked (c : Credentials) (s : Sent) (a : Reply) (path : Option Str) : Prop :=
  a.status ≠ 401 ∧ authOf s.headers = some c.str ∧
    ∃ p q, s.line = pathText p ++ q ∧ (q = [] ∨ q.head? = some '?') ∧ Covers (segments p) (segments path)

theorem noteSuccess_worked {creds : List Credentials} {r : Request} {a : Reply} (ht : Trial creds r)
    (hst : r.trying = none ∨ a.status ≠ 401) {i : Nat} {c' : Credentials} (hc : (noteSuccess creds r)[i]? = some c')
    {path : Option Str} (hp : c'.testPath path = true) :
    ∃ c, creds[i]? = some c ∧ c'.str = c.str ∧ (c.testPath path = true ∨ Worked c' (send creds r).2 a path) := by
  rw [noteSuccess_get] at hc
  cases hci : creds[i]? with
  | none => rw [hci] at hc; cases hc
  | some c =>
    rw [hci] at hc
    injection hc with hc
    simp only at hc
    by_cases hti : r.trying = some i
    · rw [if_pos hti] at hc
      subst hc
      refine ⟨c, rfl, rfl, ?_⟩
      rw [add_testPath] at hp
      rcases hp with hp | hp
      · exact .inl hp
      · refine .inr ⟨?_, ?_, ?_⟩
        · rcases hst with e | e
          · rw [e] at hti; cases hti
          · exact e
        · obtain ⟨d, hd, ha⟩ := (send_trial ht).trying i (by rw [send_trying]; exact hti)
          rw [hci] at hd
          injection hd with hd
          subst hd
          exact ha
        · obtain ⟨q, h1, h2⟩ := ht.line
          rw [send_sent]
          exact ⟨r.uri.parts.absPath, q, h1, h2, hp⟩
    · rw [if_neg hti] at hc
      subst hc
      exact ⟨c, rfl, rfl, .inl hp⟩

/-- Credentials come to be used at a path only because a request with them has worked. -/
theorem exchange_worked (hl : ∀ v chs, Challenge.listFromString v = some (.ok chs) → chs.length ≤ 1) (as : List Reply) :
    ∀ (creds : List Credentials) (r : Request), Trial creds r → ∀ (i : Nat) (c' : Credentials), (exchange creds r as).2.1[i]? = some c' →
    ∀ path, c'.testPath path = true → ∃ c, creds[i]? = some c ∧ c'.str = c.str ∧
      (c.testPath path = true ∨
        ∃ (k : Nat) (s : Sent) (a : Reply), (exchange creds r as).1[k]? = some s ∧ as[k]? = some a ∧ Worked c' s a path) := by
  induction as with
  | nil =>
    intro creds r ht i c' hc path hp
    exact ⟨c', hc, rfl, .inl hp⟩
  | cons a as ih =>
    intro creds r ht i c' hc path hp
    rw [exchange] at hc ⊢
    cases hf : finished creds (send creds r).1 a with
    | error e =>
      rw [hf] at hc
      simp only at hc ⊢
      split at hc
      · exact ⟨c', hc, rfl, .inl hp⟩
      · rename_i hno
        have hst : r.trying = none ∨ a.status ≠ 401 := by
          cases htr : r.trying with
          | none => exact .inl rfl
          | some i => rw [htr] at hno; exact .inr fun e => hno ⟨rfl, e⟩
        obtain ⟨c, h1, h2, h3⟩ := noteSuccess_worked (a := a) ht hst hc hp
        exact ⟨c, h1, h2, h3.imp_right fun w => ⟨0, _, a, rfl, rfl, w⟩⟩
    | ok p =>
      obtain ⟨creds', r', n⟩ := p
      rw [hf] at hc
      obtain ⟨h1, h2, h3, h4⟩ := finished_trial hf (send_trial ht) hl
      rw [send_trying] at h3
      have hns : noteSuccess creds (send creds r).1 = noteSuccess creds r := by
        unfold noteSuccess
        rw [send_trying, (send_kept creds r).uri]
      rw [hns] at h2
      simp only at hc ⊢
      by_cases hn : n = 0
      · rw [if_pos hn] at hc ⊢
        simp only at hc
        rw [h2] at hc
        obtain ⟨c, e1, e2, e3⟩ := noteSuccess_worked (a := a) ht h3 hc hp
        exact ⟨c, e1, e2, e3.imp_right fun w => ⟨0, _, a, rfl, rfl, w⟩⟩
      · rw [if_neg hn] at hc ⊢
        simp only at hc ⊢
        obtain ⟨c, e1, e2, e3⟩ := ih creds' r' h1 i c' hc path hp
        rcases e3 with e3 | ⟨k, s, b, k1, k2, k3⟩
        · rw [h2] at e1
          obtain ⟨d, d1, d2, d3⟩ := noteSuccess_worked (a := a) ht h3 e1 e3
          refine ⟨d, d1, e2.trans d2, d3.imp_right fun w => ⟨0, _, a, rfl, rfl, w.1, ?_, w.2.2⟩⟩
          rw [e2]
          exact w.2.1
        · have hd : ∃ d, creds[i]? = some d ∧ c.str = d.str := by
            rw [h2, noteSuccess_get] at e1
            cases hci : creds[i]? with
            | none => rw [hci] at e1; cases e1
            | some d =>
              rw [hci] at e1
              injection e1 with e1
              refine ⟨d, rfl, ?_⟩
              rw [← e1]
              split <;> rfl
          obtain ⟨d, d1, d2⟩ := hd
          exact ⟨d, d1, e2.trans d2, .inr ⟨k + 1, s, b, k1, k2, k3⟩⟩

end Verif.Http.Auth
