import Verif.Props.ODataUri

/-! # Errors of OData URIs and the parameters of service operations (C161, C162) -/

namespace Verif.Props

open Verif Verif.OData Verif.Spec.OData

/-! ## Words of header values -/

/-- Only `ValueError` and `TypeError`. -/
def Mild {α : Type} (x : Except Http.Fault α) : Prop := ∀ e, x = .error e → e = .valueError ∨ e = .typeError

theorem mild_map {α β : Type} {x : Except Http.Fault α} {f : α → β} (h : Mild x) : Mild (x.map f) := by
  intro e he
  cases x with
  | ok a => cases he
  | error e' => cases he; exact h _ rfl

theorem mild_value {α : Type} : Mild (.error .valueError : Except Http.Fault α) := by intro e h; cases h; exact .inl rfl

theorem mild_type {α : Type} : Mild (.error .typeError : Except Http.Fault α) := by intro e h; cases h; exact .inr rfl

theorem mild_ok {α : Type} (a : α) : Mild (.ok a : Except Http.Fault α) := by intro e h; cases h

theorem mild_quoted (u : Bool) (s : Str) : Mild (Http.quotedRest u s) := by
  fun_induction Http.quotedRest u s with
  | case1 => exact mild_ok _
  | case2 => exact mild_ok _
  | case3 => exact mild_type
  | case4 => rename_i ih; exact mild_map ih
  | case5 => exact mild_value
  | case6 => exact mild_value
  | case7 => rename_i ih; exact mild_map ih

theorem mild_comment (u : Bool) (n : Nat) (s : Str) : Mild (Http.commentRest u n s) := by
  fun_induction Http.commentRest u n s with
  | case1 => exact mild_value
  | case2 => exact mild_ok _
  | case3 => rename_i ih; exact mild_map ih
  | case4 => rename_i ih; exact mild_map ih
  | case5 => exact mild_type
  | case6 => rename_i ih; exact mild_map ih
  | case7 => exact mild_value
  | case8 => exact mild_value
  | case9 => rename_i ih; exact mild_map ih

theorem mild_word (s : Str) : Mild (Http.oneWord s) := by
  unfold Http.oneWord
  split
  · exact mild_ok _
  · split
    · split
      · exact mild_map (mild_comment _ _ _)
      · split
        · exact mild_map (mild_quoted _ _)
        · exact mild_ok _
    · split <;> exact mild_ok _

theorem mild_words {ign : Bool} : ∀ {n : Nat} {s : Str} {e : Http.Fault}, Http.wordLoop ign n s = some (.error e) →
    e = .valueError ∨ e = .typeError
  | _, [], e, h => by unfold Http.wordLoop at h; cases h
  | 0, _ :: _, e, h => by unfold Http.wordLoop at h; cases h
  | n + 1, c :: t, e, h => by
    unfold Http.wordLoop at h
    dsimp only at h
    cases hw : Http.oneWord (Http.skipLws (c :: t)).2 with
    | error e' =>
      rw [hw] at h
      injection h with h
      injection h with h
      subst h
      exact mild_word _ _ hw
    | ok p =>
      rw [hw] at h
      dsimp only at h
      cases hl : Http.wordLoop ign n p.2 with
      | none => rw [hl] at h; cases h
      | some r =>
        cases r with
        | ok ws => rw [hl] at h; cases h
        | error e' =>
          rw [hl] at h
          injection h with h
          injection h with h
          subst h
          exact mild_words hl

/-- What is raised by `AcceptList.FromString`. -/
theorem accept_faults {q : Str → Bool} {s : Str} {e : Http.Fault} (h : Http.acceptFromString q s = some (.error e)) :
    e = .syntaxError ∨ e = .valueError ∨ e = .typeError := by
  rcases reader_tame (tame_bind (tame_requireAcceptList q) fun l => tame_bind tame_requireEnd fun _ => tame_pure l)
    true s e h with h | h
  · exact .inl h
  · exact .inr (mild_words h)

/-! ## C161: the exceptions -/

/-- The exceptions that can be raised. -/
def Expected (e : UriFault) : Prop := e = .pathOption ∨ e = .queryOption ∨ e = .valueError ∨ e = .typeError

/-- All exceptions are expected ones, and reading ends unless `b`. -/
def Safe (b : Prop) {α : Type} (x : Except UriFault α) : Prop := ∀ e, x = .error e → Expected e ∨ (e = .endless ∧ b)

variable {b : Prop}

theorem safe_ok {α : Type} (a : α) : Safe b (.ok a : Except UriFault α) := by intro e h; cases h

theorem safe_of {α : Type} {e : UriFault} (he : Expected e) : Safe b (.error e : Except UriFault α) := by
  intro e' h; cases h; exact .inl he

theorem expected_value : Expected .valueError := .inr (.inr (.inl rfl))

theorem expected_path : Expected .pathOption := .inl rfl

theorem expected_query : Expected .queryOption := .inr (.inl rfl)

theorem safe_map {α β : Type} {x : Except UriFault α} {f : α → β} (h : Safe b x) : Safe b (x.map f) := by
  intro e he
  cases x with
  | ok a => cases he
  | error e' => cases he; exact h _ rfl

theorem safe_bind {α β : Type} {x : Except UriFault α} {f : α → Except UriFault β} (h : Safe b x) (hf : ∀ a, x = .ok a → Safe b (f a)) :
    Safe b (x.bind f) := by
  intro e he
  cases x with
  | ok a => exact hf a rfl e he
  | error e' => cases he; exact h _ rfl

theorem safe_fold {α β : Type} {f : β → α → Except UriFault β} : ∀ {l : List α} {a : β}, (∀ x ∈ l, ∀ a, Safe b (f a x)) → Safe b (l.foldlM f a)
  | [], a, _ => safe_ok a
  | x :: l, a, h => by
    rw [List.foldlM_cons]
    exact safe_bind (h x (by simp) a) fun b' _ => safe_fold fun y hy => h y (by simp [hy])

theorem safe_lift {α β : Type} {x : Except Fault α} {f : α → β} (h : ∀ e, x = .error e → e = .valueError ∨ e = .typeError) :
    Safe b (lift x f) := by
  intro e he
  cases x with
  | ok a => cases he
  | error e' =>
    cases he
    rcases h e' rfl with rfl | rfl
    · exact .inl (.inr (.inr (.inl rfl)))
    · exact .inl (.inr (.inr (.inr rfl)))

theorem safe_literal (U : UriTables) (s : Str) : Safe b (keyLiteral U s) := by
  refine safe_lift fun e h => ?_
  have hp := plain_literal U.tables s
  unfold parseURILiteral at h
  split at h
  · next he => cases h; exact hp _ he
  · cases h
  · cases h; exact .inl rfl

theorem safe_decode (s : Str) : Safe b (decodeText s) := by
  unfold decodeText
  split
  · exact safe_ok _
  · exact safe_of expected_value

/-- The words of the three media types are read as such. -/
theorem accept_short (q : Str → Bool) (sub : Str)
    (h : Http.words true ("application/".toList ++ sub) = some (.ok [some "application".toList, some ['/'], some sub])) (ht : sub ∈
      ["atom+xml".toList, "json".toList, "xml".toList]) :
    ∃ l, Http.acceptFromString q ("application/".toList ++ sub) = some (.ok l) := by
  unfold Http.acceptFromString Http.fromString
  rw [h]
  simp only [List.mem_cons, List.not_mem_nil, or_false] at ht
  rcases ht with rfl | rfl | rfl <;> exact ⟨_, rfl⟩

theorem safe_format (U : UriTables) (s : Str) (hb : b) : Safe b (formatOption U s) := by
  have hraise : ∀ e : Http.Fault, e = .valueError ∨ e = .typeError →
      Safe b (match e with
        | .valueError => (.error .valueError : Except UriFault OptValue)
        | .typeError => .error .typeError
        | _ => .error .other) := by
    rintro e (rfl | rfl)
    · exact safe_of expected_value
    · exact safe_of (.inr (.inr (.inr rfl)))
  have hends : Safe b (.error .endless : Except UriFault OptValue) := by intro e h; cases h; exact .inr ⟨rfl, hb⟩
  have hshort : ∀ t : Str, (∃ l, Http.acceptFromString U.quality t = some (.ok l)) →
      Safe b (match Http.acceptFromString U.quality t with
        | none => (.error .endless : Except UriFault OptValue)
        | some (.ok l) => .ok (.format l)
        | some (.error e) => match e with
          | .valueError => .error .valueError
          | .typeError => .error .typeError
          | _ => .error .other) := by
    rintro t ⟨l, e⟩
    rw [e]
    exact safe_ok _
  unfold formatOption
  dsimp only
  cases h : Http.acceptFromString U.quality s with
  | none => exact hends
  | some r =>
    cases r with
    | ok l => exact safe_ok _
    | error e =>
      dsimp only
      rcases accept_faults h with rfl | he
      · dsimp only
        split
        · exact hshort _ (accept_short U.quality "atom+xml".toList (by decide +kernel) (by simp))
        · split
          · exact hshort _ (accept_short U.quality "json".toList (by decide +kernel) (by simp))
          · split
            · exact hshort _ (accept_short U.quality "xml".toList (by decide +kernel) (by simp))
            · exact safe_of expected_query
      · rcases he with rfl | rfl
        · exact hraise .valueError (.inl rfl)
        · exact hraise .typeError (.inr rfl)

theorem safe_integer (s : Str) : Safe b (integerOption s) := by
  unfold integerOption
  dsimp only
  split
  · exact safe_of expected_value
  · split
    · exact safe_ok _
    · exact safe_of expected_value

theorem safe_value (U : UriTables) (p : SysOpt) (s : Str) (hb : p = .format → b) : Safe b (optionValue U p s) := by
  cases p with
  | filter => exact safe_lift (plain_parse U.tables s)
  | expand => exact safe_lift fun e h => .inl (expandLoop_error (Nat.lt_succ_self _) h)
  | select => exact safe_lift fun e h => .inl (selectLoop_error (Nat.lt_succ_self _) h)
  | orderby => exact safe_lift (orderLoop_plain (Nat.lt_succ_self _))
  | format => exact safe_format U s (hb rfl)
  | skip => exact safe_map (safe_integer s)
  | top => exact safe_map (safe_integer s)
  | skiptoken => exact safe_ok _
  | inlinecount =>
    show Safe b (match inlineCount s with
      | some c => (.ok (.inlinecount c) : Except UriFault OptValue)
      | none => .error .valueError)
    split
    · exact safe_ok _
    · exact safe_of expected_value

theorem safe_option (U : UriTables) (n v : Str) (hb : SysOpt.decode n = some .format → b) : Safe b (systemOption U n v) := by
  have hg : ∀ {α : Type} {x : Except UriFault α}, Safe b x → Safe b (guarded x) := by
    intro α x h e he
    unfold guarded at he
    split at he
    · cases he; exact .inl expected_query
    · exact h e he
  unfold systemOption
  refine hg ?_
  split
  · exact safe_of expected_value
  · next p hp => exact safe_map (safe_value U p v fun e => hb (by rw [hp, e]))

/-- A part of the query that is the option `$format`. -/
def FormatPart (d : Str) : Prop := ∃ n v t, d = '$' :: (n ++ '=' :: v) ∧ decodeText n = .ok t ∧ SysOpt.decode t = some .format

theorem atEquals_some {s n v : Str} (h : atEquals s = some (n, v)) : s = n ++ '=' :: v := by
  unfold atEquals at h
  have htd := List.takeWhile_append_dropWhile (p := (· != '=')) (l := s)
  split at h
  · cases h
  · next c w e =>
    cases h
    have hc : c = '=' := by
      have : ∀ (l : Str), l.dropWhile (· != '=') = c :: v → c = '=' := by
        intro l
        induction l with
        | nil => intro h; cases h
        | cons x l ih =>
          rw [List.dropWhile_cons]
          intro h
          split at h
          · exact ih h
          · next hx =>
            cases h
            simpa using hx
      exact this s e
    rw [e, hc] at htd
    exact htd.symm

theorem safe_part (U : UriTables) (q : Query) (d : Str) (hb : FormatPart d → b) : Safe b (queryPart U q d) := by
  unfold queryPart
  split
  · next r =>
    split
    · exact safe_of expected_value
    · next n v e =>
      refine safe_bind (safe_decode n) fun name hn => safe_bind (safe_decode v) fun value _ =>
        safe_bind (safe_option U name value fun hf => hb ⟨n, v, name, by rw [← atEquals_some e], hn, hf⟩) fun _ _ => safe_ok _
  · split
    · exact safe_bind (safe_decode _) fun _ _ => safe_ok _
    · exact safe_ok _

theorem safe_named (U : UriTables) (d : List (Str × Lit)) (k : Str) : Safe b (namedKeys U d k) := by
  unfold namedKeys
  split
  · exact safe_bind (safe_decode _) fun _ _ => safe_bind (safe_literal U _) fun _ _ => safe_ok _
  · exact safe_of expected_value

theorem safe_segment (U : UriTables) (s : Str) : Safe b (splitSegment U s) := by
  unfold splitSegment
  split
  · exact safe_ok _
  · split
    · refine safe_bind (safe_decode _) fun _ _ => ?_
      dsimp only
      split
      · exact safe_ok _
      · split
        · split
          · exact safe_map (safe_named U _ _)
          · exact safe_map (safe_literal U _)
        · exact safe_map (safe_fold fun k _ d => safe_named U d k)
    · exact safe_map (safe_decode _)

theorem safe_step (U : UriTables) (p : Path) (s : Str) : Safe b (pathStep U p s) := by
  unfold pathStep
  split
  · split
    · exact safe_of expected_path
    · split
      · exact safe_of expected_path
      · exact safe_map (safe_segment U s)
  · split
    · split
      · exact safe_of expected_value
      · split
        · exact safe_of expected_path
        · split
          · exact safe_of expected_path
          · split
            · exact safe_of expected_path
            · exact safe_ok _
    · split
      · exact safe_of expected_path
      · exact safe_map (safe_segment U s)

theorem safe_walk (U : UriTables) (r : Str) : Safe b (readPath U r) := by
  unfold readPath
  split
  · exact safe_ok _
  · refine safe_bind (safe_fold fun s _ p => safe_step U p s) fun p _ => ?_
    split
    · exact safe_of expected_path
    · exact safe_ok _

theorem safe_validation (p : Path) (q : Query) : Safe b (validation p q) := by
  have hval : ∀ n, Safe b (validate q n) := by
    intro n
    unfold validate
    split
    · exact safe_ok _
    · exact safe_of expected_query
  unfold validation
  split
  · exact hval _
  · exact hval _
  · exact hval _
  · split <;> exact hval _
  · exact safe_ok _

/-- **C161, partial**: whatever the path and the query, the only exceptions are `InvalidPathOption`, `InvalidSystemQueryOption`,
`ValueError` and `TypeError`; and without a `$format` option the constructor returns or raises one of them. -/
theorem uri_errors_partial (U : UriTables) (pre a : Str) (query : Option Str) :
    (∃ u, readURI U pre a query = .ok u) ∨ (∃ e, readURI U pre a query = .error e ∧ Expected e) ∨
      (readURI U pre a query = .error .endless ∧ ∃ s, query = some s ∧ ∃ d ∈ Py.split '&' s, FormatPart d) := by
  have h : Safe (∃ s, query = some s ∧ ∃ d ∈ Py.split '&' s, FormatPart d) (readURI U pre a query) := by
    unfold readURI
    split
    · exact safe_ok _
    · refine safe_bind ?_ fun q _ => safe_bind (safe_walk U _) fun p _ => safe_map (safe_validation p q)
      cases query with
      | none => exact safe_ok _
      | some s => exact safe_fold fun d hd q => safe_part U q d fun hf => ⟨s, rfl, d, hd, hf⟩
  cases hr : readURI U pre a query with
  | ok u => exact .inl ⟨u, rfl⟩
  | error e =>
    rcases h e hr with he | ⟨rfl, hb⟩
    · exact .inr (.inl ⟨e, rfl, he⟩)
    · exact .inr (.inr ⟨rfl, hb⟩)

/-- **C161, refuted**: exceptions other than the documented `ServerError` are raised, for a key, for a path option, for a query
option without a value, for text that is not UTF-8, for a time with a bare point; and the constructor does not return if the
value of `$format` has a control character. -/
theorem uri_errors_refuted :
    readURI uriTables [] "/C(x)".toList none = .error .valueError ∧
    readURI uriTables [] "/$bogus".toList none = .error .valueError ∧
    readURI uriTables [] "/C".toList (some "$top".toList) = .error .valueError ∧
    readURI uriTables [] "/C%FF".toList none = .error .valueError ∧
    readURI uriTables [] "/C".toList (some "$filter=a%20eq%20time'12:30:15.'".toList) = .error .typeError ∧
    readURI uriTables [] "/C".toList (some "$format=%22%5C".toList) = .error .typeError ∧
    readURI uriTables [] "/C".toList (some "$format=%7F".toList) = .error .endless := by
  refine ⟨?_, ?_, ?_, ?_, ?_, ?_, ?_⟩ <;> decide +kernel

/-- **C161**: the value of a query option other than `$format`, if it cannot be read, is reported with
`InvalidSystemQueryOption` or, because of times with a bare point, `TypeError`. -/
theorem option_errors (U : UriTables) (o : SysOpt) (s : Str) (ho : o ≠ .format) :
    (∃ v, systemOption U (sysWord o).toList s = .ok (o, v)) ∨ systemOption U (sysWord o).toList s = .error .queryOption ∨
      ((o = .filter ∨ o = .orderby) ∧ systemOption U (sysWord o).toList s = .error .typeError) := by
  have hone : ∀ {α : Type} {x : Except Fault α} {f : α → OptValue} (_ : ∀ e, x = .error e → e = .valueError),
      (∃ v, guarded ((lift x f).map fun v => (o, v)) = .ok (o, v)) ∨ guarded ((lift x f).map fun v => (o, v)) = .error .queryOption := by
    intro α x f h
    cases x with
    | ok a => exact .inl ⟨f a, rfl⟩
    | error e => rw [h e rfl]; exact .inr rfl
  have htwo : ∀ {α : Type} {x : Except Fault α} {f : α → OptValue} (_ : ∀ e, x = .error e → e = .valueError ∨ e = .typeError),
      (∃ v, guarded ((lift x f).map fun v => (o, v)) = .ok (o, v)) ∨ guarded ((lift x f).map fun v => (o, v)) = .error .queryOption ∨
        guarded ((lift x f).map fun v => (o, v)) = .error .typeError := by
    intro α x f h
    cases x with
    | ok a => exact .inl ⟨f a, rfl⟩
    | error e =>
      rcases h e rfl with rfl | rfl
      · exact .inr (.inl rfl)
      · exact .inr (.inr rfl)
  have hint : ∀ f : Nat → OptValue, (∃ v, guarded (((integerOption s).map f).map fun v => (o, v)) = .ok (o, v)) ∨
      guarded (((integerOption s).map f).map fun v => (o, v)) = .error .queryOption := by
    intro f
    unfold integerOption
    dsimp only
    split
    · exact .inr rfl
    · split
      · exact .inl ⟨_, rfl⟩
      · exact .inr rfl
  rw [systemOption_word]
  cases o with
  | format => exact absurd rfl ho
  | filter =>
    rcases htwo (f := .filter) (plain_parse U.tables s) with h | h | h
    · exact .inl h
    · exact .inr (.inl h)
    · exact .inr (.inr ⟨.inl rfl, h⟩)
  | orderby =>
    rcases htwo (x := parseOrder U.tables s) (f := .orderby) (orderLoop_plain (Nat.lt_succ_self _)) with h | h | h
    · exact .inl h
    · exact .inr (.inl h)
    · exact .inr (.inr ⟨.inr rfl, h⟩)
  | expand =>
    rcases hone (x := parseExpand U.tables s) (f := .expand) (fun e h => expandLoop_error (Nat.lt_succ_self _) h) with h | h
    · exact .inl h
    · exact .inr (.inl h)
  | select =>
    rcases hone (x := parseSelect U.tables s) (f := .select) (fun e h => selectLoop_error (Nat.lt_succ_self _) h) with h | h
    · exact .inl h
    · exact .inr (.inl h)
  | skip =>
    rcases hint .skip with h | h
    · exact .inl h
    · exact .inr (.inl h)
  | top =>
    rcases hint .top with h | h
    · exact .inl h
    · exact .inr (.inl h)
  | skiptoken => exact .inl ⟨_, rfl⟩
  | inlinecount =>
    unfold optionValue
    dsimp only
    split
    · exact .inl ⟨_, rfl⟩
    · exact .inr (.inl rfl)

/-! ## C162: the parameters of service operations -/

theorem custom_part {U : UriTables} {q : Query} {d : Str} (hn : Named d) : queryPart U q d =
    match atEquals d with
    | some (n, _) => (decodeText n).bind fun name =>
      .ok { q with table := Dict.set q.table name q.options.length, options := q.options ++ [d] }
    | none => .ok { q with options := q.options ++ [d] } := by
  rw [queryPart.eq_def]
  split
  · exact absurd rfl hn
  · rfl

theorem part_keeps {U : UriTables} {q q' : Query} {d t : Str} (h : queryPart U q d = .ok q') (ho : OtherPart t d) :
    Dict.get q'.table t = Dict.get q.table t ∧ ∃ r, q'.options = q.options ++ r := by
  cases ho with
  | system r =>
    unfold queryPart at h
    simp only [] at h
    split at h
    · cases h
    · obtain ⟨_, _, h⟩ := ebind_ok h
      obtain ⟨_, _, h⟩ := ebind_ok h
      obtain ⟨_, _, h⟩ := ebind_ok h
      cases h
      exact ⟨rfl, [], by simp⟩
  | bare hn he =>
    have hat : atEquals d = none := by
      unfold atEquals
      rw [whiles_all.mpr]
      intro c hc
      rw [bne_iff_ne]
      rintro rfl
      exact he hc
    rw [custom_part hn, hat] at h
    cases h
    exact ⟨rfl, _, rfl⟩
  | @named n v x hn he hs hx =>
    rw [custom_part hn, atEquals_of he] at h
    dsimp only at h
    rw [decodeText_stands hs] at h
    cases h
    refine ⟨?_, _, rfl⟩
    rw [Dict.get_set, if_neg (fun e => hx e.symm)]

theorem parts_keep {U : UriTables} {t : Str} : ∀ {l : List Str} {q q' : Query}, l.foldlM (queryPart U) q = .ok q' → (∀ d ∈ l, OtherPart t d) →
    Dict.get q'.table t = Dict.get q.table t ∧ ∃ r, q'.options = q.options ++ r
  | [], q, q', h, _ => by cases h; exact ⟨rfl, [], by simp⟩
  | d :: l, q, q', h, ho => by
    rw [List.foldlM_cons] at h
    obtain ⟨q1, h1, h2⟩ := ebind_ok h
    obtain ⟨k1, r1, e1⟩ := part_keeps h1 (ho d (by simp))
    obtain ⟨k2, r2, e2⟩ := parts_keep h2 (fun x hx => ho x (by simp [hx]))
    exact ⟨k2.trans k1, r1 ++ r2, by rw [e2, e1, List.append_assoc]⟩

/-- **C162, partial**: the value of a parameter of a query is the literal that its last occurrence gives it, where the literal is
taken as it stands in the query. -/
theorem param_reads_partial {U : UriTables} {l₁ l₂ : List Str} {n v t : Str} {lit : Lit} {q : Query}
    (ha : ∀ d ∈ l₁ ++ (n ++ '=' :: v) :: l₂, '&' ∉ d) (hn : Named (n ++ '=' :: v)) (he : '=' ∉ n) (ht : Stands n t)
    (hv : Literal U.tables v lit) (ho : ∀ d ∈ l₂, OtherPart t d)
    (hq : readQuery U (some (Py.join '&' (l₁ ++ (n ++ '=' :: v) :: l₂))) = .ok q) : getParamValue U q t = some (.ok lit) := by
  unfold readQuery at hq
  dsimp only at hq
  rw [split_join_parts (by simp) ha, List.foldlM_append] at hq
  obtain ⟨q1, _, hq⟩ := ebind_ok hq
  rw [List.foldlM_cons, custom_part hn, atEquals_of he] at hq
  dsimp only at hq
  rw [decodeText_stands ht] at hq
  obtain ⟨k, r, e⟩ := parts_keep (t := t) hq ho
  rw [Dict.get_set, if_pos rfl] at k
  have hget : q.options[q1.options.length]? = some (n ++ '=' :: v) := by rw [e]; simp
  unfold getParamValue
  rw [k]
  dsimp only
  rw [hget]
  dsimp only
  rw [atEquals_of he]
  dsimp only
  rw [keyLiteral, literals_read hv]
  rfl

/-- **C162**: a parameter that no part of the query gives a value is missing. -/
theorem param_missing {U : UriTables} {l : List Str} {t : Str} {q : Query} (h0 : l ≠ []) (ha : ∀ d ∈ l, '&' ∉ d)
    (ho : ∀ d ∈ l, OtherPart t d) (hq : readQuery U (some (Py.join '&' l)) = .ok q) : getParamValue U q t = none := by
  unfold readQuery at hq
  dsimp only at hq
  rw [split_join_parts h0 ha] at hq
  obtain ⟨k, _⟩ := parts_keep hq ho
  unfold getParamValue
  rw [k]
  rfl

/-- A query with two parameters, one of them given twice. -/
theorem param_example :
    (readQuery uriTables (some "a=1&$top=2&b='x'&a=3".toList)).toOption.bind (getParamValue uriTables · "a".toList) = some (.ok (.int32 3)) ∧
    (readQuery uriTables (some "a=1&$top=2&b='x'&a=3".toList)).toOption.bind (getParamValue uriTables · "b".toList) =
      some (.ok (.string ['x'])) ∧
    ((readQuery uriTables (some "a=1&$top=2&b='x'&a=3".toList)).toOption.bind (getParamValue uriTables · "c".toList)) = none := by
  refine ⟨?_, ?_, ?_⟩ <;> decide +kernel

/-- **C162, refuted**: the escapes in the value of a parameter are not undone: the string `a b` arrives as `a%20b`, a date and time
with its colons escaped is an error. -/
theorem param_refuted :
    (readQuery uriTables (some "a='a%20b'".toList)).toOption.bind (getParamValue uriTables · "a".toList) =
      some (.ok (.string "a%20b".toList)) ∧
    (readQuery uriTables (some "a=time'12%3A30'".toList)).toOption.bind (getParamValue uriTables · "a".toList) = some (.error .valueError) ∧
    (readQuery uriTables (some "a=time'12:30'".toList)).toOption.bind (getParamValue uriTables · "a".toList) =
      some (.ok (.time 12 30 0 [])) := by
  refine ⟨?_, ?_, ?_⟩ <;> decide +kernel

end Verif.Props
