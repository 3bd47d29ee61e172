import Verif.Lemmas.ODataUri
import Verif.Props.ODataOptions
import Verif.Props.HttpErrors

/-! # OData URIs (C155–C162) -/

namespace Verif.Props

open Verif Verif.OData Verif.Spec.OData

/-! ## C155: the shape of paths -/

/-- **C155**: a path of URI characters is accepted exactly if it consists of names that can be read, or of such names and one
path option, or of such names, `$links` and one more name; and then it is read as these names with their keys. -/
theorem path_reads_partial {U : UriTables} {ss : List Str} {p : Path} (h0 : ss ≠ []) (h1 : ss ≠ [[]])
    (hu : ∀ s ∈ ss, UriChars s) (hs : ∀ s ∈ ss, '/' ∉ s) :
    readPath U ('/' :: Py.join '/' ss) = .ok p ↔ PathShape (splitSegment U) ss p := by
  rw [readPath_walk h0 h1 hs, walk_shape U ss [] p hu]
  constructor
  · rintro ⟨q, h, rfl⟩; exact h
  · intro h; exact ⟨p, h, rfl⟩

/-- The empty path and the path of the service. -/
theorem path_root (U : UriTables) : readPath U [] = .ok ⟨[], none, none⟩ ∧ readPath U ['/'] = .ok ⟨[], none, none⟩ := ⟨rfl, rfl⟩

/-- **C155**: if all names can be read and all options exist, what is refused is refused with `InvalidPathOption`. -/
theorem path_refused {U : UriTables} {ss : List Str} (h0 : ss ≠ []) (h1 : ss ≠ [[]]) (hu : ∀ s ∈ ss, UriChars s)
    (hs : ∀ s ∈ ss, '/' ∉ s) (hn : ∀ s ∈ ss, Named s → ∃ np, splitSegment U s = .ok np)
    (ho : ∀ t, '$' :: t ∈ ss → ∃ o, Py.lower t = (pathWord o).toList) (hno : ¬ ∃ p, PathShape (splitSegment U) ss p) :
    readPath U ('/' :: Py.join '/' ss) = .error .pathOption := by
  have key : ∀ (ss : List Str) (p : Path), (∀ s ∈ ss, UriChars s) → (∀ s ∈ ss, Named s → ∃ np, splitSegment U s = .ok np) →
      (∀ t, '$' :: t ∈ ss → ∃ o, Py.lower t = (pathWord o).toList) → (∃ r, walk U p ss = .ok r) ∨ walk U p ss = .error .pathOption := by
    intro ss
    induction ss with
    | nil =>
      intro p _ _ _
      rw [walk_nil]
      split
      · exact .inr rfl
      · exact .inl ⟨p, rfl⟩
    | cons s ss ih =>
      intro p hu hn ho
      have ih' := fun p => ih p (fun x hx => hu x (by simp [hx])) (fun x hx => hn x (by simp [hx])) (fun t ht => ho t (by simp [ht]))
      have hstep : (∃ p', pathStep U p s = .ok p') ∨ pathStep U p s = .error .pathOption := by
        unfold pathStep
        have hnamed : ∀ f : Str × Keys → Path, ¬ s.head? = some '$' → ∃ p', (splitSegment U s).map f = .ok p' := by
          intro f h
          obtain ⟨np, e⟩ := hn s (by simp) h
          rw [e]
          exact ⟨_, rfl⟩
        split
        · split
          · exact .inr rfl
          · split
            · exact .inr rfl
            · next h => exact .inl (hnamed _ h)
        · split
          · next h =>
            obtain ⟨t, rfl⟩ := dollar_of (s := s) (fun hh => hh h)
            obtain ⟨o, e⟩ := ho t (by simp)
            have hd := (pathOpt_decode (uriChars_cons (hu ('$' :: t) (by simp))) o).mpr e
            rw [List.tail_cons, hd]
            dsimp only
            split
            · exact .inr rfl
            · split
              · exact .inr rfl
              · split
                · exact .inr rfl
                · exact .inl ⟨_, rfl⟩
          · next h =>
            split
            · exact .inr rfl
            · exact .inl (hnamed _ h)
      rw [walk_cons]
      rcases hstep with ⟨p', e⟩ | e
      · rw [e]; exact ih' p'
      · rw [e]; exact .inr rfl
  rw [readPath_walk h0 h1 hs]
  rcases key ss ⟨[], none, none⟩ hu hn ho with ⟨r, e⟩ | e
  · exact absurd ⟨r, by rw [← path_reads_partial h0 h1 hu hs, readPath_walk h0 h1 hs]; exact e⟩ hno
  · exact e

/-- The tables of the examples. -/
def uriTables : UriTables := ⟨plainTables, fun _ => false⟩

/-- Paths of all shapes, and one that is refused. -/
theorem path_example :
    readPath uriTables "/Customers(1)/Orders".toList =
      .ok ⟨[("Customers".toList, some [([], .int32 1)]), ("Orders".toList, none)], none, none⟩ ∧
    readPath uriTables "/Customers/$count".toList = .ok ⟨[("Customers".toList, none)], some .count, none⟩ ∧
    readPath uriTables "/Customers(1)/$links/Orders".toList =
      .ok ⟨[("Customers".toList, some [([], .int32 1)]), ("Orders".toList, none)], some .links, some "Orders".toList⟩ ∧
    readPath uriTables "/Customers/$count/Orders".toList = .error .pathOption := by
  refine ⟨?_, ?_, ?_, ?_⟩ <;> decide +kernel

/-- **C155, refuted**: the rule of OData for the place of an option is not kept: `$metadata` and `$batch` are accepted below a
collection, `$links` and `$count` without one; and an option that does not exist raises `ValueError`. -/
theorem path_rule_refuted :
    (∃ p, readPath uriTables "/Customers/$metadata".toList = .ok p ∧ ¬ PathRule p.navPath p.option) ∧
    (∃ p, readPath uriTables "/Customers/$batch".toList = .ok p ∧ ¬ PathRule p.navPath p.option) ∧
    (∃ p, readPath uriTables "/$links/Orders".toList = .ok p ∧ ¬ PathRule p.navPath p.option) ∧
    (∃ p, readPath uriTables "/$count".toList = .ok p ∧ ¬ PathRule p.navPath p.option) ∧
    readPath uriTables "/Customers/$bogus".toList = .error .valueError := by
  refine ⟨⟨⟨[("Customers".toList, none)], some .metadata, none⟩, by decide +kernel, fun h => ?_⟩,
    ⟨⟨[("Customers".toList, none)], some .batch, none⟩, by decide +kernel, fun h => ?_⟩,
    ⟨⟨[("Orders".toList, none)], some .links, some "Orders".toList⟩, by decide +kernel, fun h => ?_⟩,
    ⟨⟨[], some .count, none⟩, by decide +kernel, fun h => ?_⟩, by decide +kernel⟩
  · have h : [("Customers".toList, (none : Keys))] = [] := h
    cases h
  · have h : [("Customers".toList, (none : Keys))] = [] := h
    cases h
  · have h : 2 ≤ 1 := h
    omega
  · exact h rfl

/-! ## C156: the prefix -/

/-- **C156**: the path below the prefix of the service is read as if there were no prefix. -/
theorem uri_below (U : UriTables) (pre a : Str) (q : Option Str) : readURI U pre (pre ++ a) q = readURI U [] a q := by
  unfold readURI
  rw [if_neg (by rintro ⟨_, h⟩; exact h (List.prefix_append _ _)), if_neg (by simp), List.drop_left]
  rfl

/-- **C156**: a path that does not begin with the prefix is not unpacked. -/
theorem uri_elsewhere (U : UriTables) {pre a : Str} (q : Option Str) (h : ¬ pre <+: a) : readURI U pre a q = .ok .foreign := by
  have hne : pre ≠ [] := by
    intro e
    rw [e] at h
    exact h List.nil_prefix
  unfold readURI
  rw [if_pos ⟨hne, h⟩]

/-- **C156**: the scheme, the authority and the fragment of a URI make no difference: its path and query are read. -/
theorem uri_whole (U : UriTables) (pre : Str) (c : Spec.Components) (hc : c.WF) (a : Str) (ha : c.absPath = some a)
    (t : Str) (ht : ({ c with fragment := none } : Spec.Components).text = t) (hu : Spec.UriText t) :
    odataURI U c.text pre = readURI U pre a c.query := by
  have hr : ∀ r, c.relPath = some r → r.head? ≠ some ':' := by
    intro r hr
    have := (hc.relPath r hr).2.2.2.2
    rw [ha] at this
    cases this
  unfold odataURI
  rw [uri_parse_composed_partial c hc hr t hu ht]
  rw [ha]
  rfl

/-- A URI with a scheme, an authority, a path below the prefix and a query; and a relative one. -/
theorem uri_example :
    odataURI uriTables "http://host/x.svc/Products(1)?$top=3&page=7".toList "/x.svc".toList =
      .ok ⟨some "/Products(1)".toList, ⟨[("Products".toList, some [([], .int32 1)])], none, none⟩,
        ⟨[(.top, .top 3)], ["page=7".toList], [("page".toList, 0)]⟩⟩ ∧
    odataURI uriTables "Products(1)?$top=3".toList "/x.svc".toList =
      .ok ⟨some "/Products(1)".toList, ⟨[("Products".toList, some [([], .int32 1)])], none, none⟩, ⟨[(.top, .top 3)], [], []⟩⟩ ∧
    odataURI uriTables "http://host/other/Products".toList "/x.svc".toList = .ok .foreign := by
  refine ⟨?_, ?_, ?_⟩ <;> decide +kernel

/-- **C156, refuted**: a path that merely begins with the text of the prefix is taken to be below it. -/
theorem uri_prefix_refuted :
    odataURI uriTables "http://host/x.svcOther/Products".toList "/x.svc".toList =
      .ok ⟨some "Other/Products".toList, ⟨[("Products".toList, none)], none, none⟩, ⟨[], [], []⟩⟩ := by decide +kernel

/-! ## C157: segments and keys -/

/-- **C157**: a segment without brackets at its end is a name. -/
theorem segment_name {U : UriTables} {s t : Str} (hs : Named s) (hb : ¬ ('(' ∈ s ∧ s.getLast? = some ')')) (ht : Stands s t) :
    splitSegment U s = .ok (t, none) := by
  unfold splitSegment
  rw [if_neg hs, if_neg hb, decodeText_stands ht]
  rfl

/-- **C157**: empty brackets are a key predicate without keys. -/
theorem segment_empty {U : UriTables} {n t : Str} (hn : Named n) (hp : '(' ∉ n) (ht : Stands n t) :
    splitSegment U (n ++ "()".toList) = .ok (t, some []) := segment_brackets (body := []) hn hp (decodeText_stands ht)

/-- **C157, partial**: a single literal in brackets is the key, if its text has neither a comma nor an equals sign. -/
theorem segment_single_partial {U : UriTables} {n t l : Str} {v : Lit} (hn : Named n) (hp : '(' ∉ n) (ht : Stands n t)
    (hl : Literal U.tables l v) (hne : l ≠ []) (hc : ',' ∉ l) (he : '=' ∉ l) :
    splitSegment U (n ++ '(' :: (l ++ [')'])) = .ok (t, some [([], v)]) := by
  rw [segment_brackets hn hp (decodeText_stands ht), if_neg hne, CP.split_of_not_mem _ _ hc]
  dsimp only
  rw [if_neg he, keyLiteral, literals_read hl]
  rfl

/-- **C157, partial**: a list of named keys is read as the dictionary of these keys, if the literals have neither commas nor
equals signs. -/
theorem segment_keys_partial {U : UriTables} {n t : Str} {ks : List NamedKey} (hn : Named n) (hp : '(' ∉ n) (ht : Stands n t)
    (h0 : ks ≠ []) (hk : ∀ k ∈ ks, k.OK U) (hd : (ks.map (·.name)).Nodup) :
    ∃ d, splitSegment U (n ++ '(' :: (Py.join ',' (ks.map (·.text)) ++ [')'])) = .ok (t, some d) ∧
      (∀ k ∈ ks, Dict.get d k.name = some k.lit) ∧ ∀ x, x ∉ ks.map (·.name) → Dict.get d x = none := by
  obtain ⟨g1, g2⟩ := get_foldl_set (key := NamedKey.name) (val := NamedKey.lit) (d := []) hd
  refine ⟨_, ?_, g1, g2⟩
  have hone : ∀ k ∈ ks, ∀ d, namedKeys U d k.text = .ok (Dict.set d k.name k.lit) := by
    intro k hm d
    obtain ⟨o1, o2, o3, _, o5, _⟩ := hk k hm
    exact namedKeys_of o3 o5 (decodeText_stands o1) (by rw [keyLiteral, literals_read o2]; rfl)
  have hfold : (ks.map (·.text)).foldlM (namedKeys U) [] = .ok (ks.foldl (fun d k => Dict.set d k.name k.lit) []) := by
    rw [List.foldlM_map]
    exact foldlM_ok hone
  have hcomma : ∀ s ∈ ks.map (·.text), ',' ∉ s := by
    intro s hs
    obtain ⟨k, hm, rfl⟩ := List.mem_map.mp hs
    obtain ⟨_, _, _, o4, _, o6⟩ := hk k hm
    intro h
    rcases List.mem_append.mp h with h | h
    · exact o4 h
    · rcases List.mem_cons.mp h with h | h
      · exact absurd h (by decide)
      · exact o6 h
  have hsplit := split_join_parts (sep := ',') (ps := ks.map (·.text)) (by simpa using h0) hcomma
  rw [segment_brackets hn hp (decodeText_stands ht), if_neg, hsplit]
  · match ks, h0, hone, hfold with
    | [k], _, hone, hfold =>
      have he : '=' ∈ k.text := by simp [NamedKey.text]
      simp only [List.map_cons, List.map_nil]
      rw [if_pos he, hone k (by simp)]
      rfl
    | k :: k' :: ks, _, _, hfold =>
      simp only [List.map_cons] at hfold ⊢
      rw [hfold]
      rfl
  · intro h
    rw [h] at hsplit
    match ks, h0, hsplit with
    | k :: ks, _, hsplit =>
      have : k.text = [] := ((List.cons.inj hsplit).1).symm
      simp [NamedKey.text] at this

/-- The hypotheses are met. -/
theorem segment_example :
    splitSegment uriTables "Caf%C3%A9s('x')".toList = .ok (['C', 'a', 'f', 'é', 's'], some [([], .string ['x'])]) ∧
    splitSegment uriTables "Items(Order=1,Line=2L)".toList =
      .ok ("Items".toList, some [("Line".toList, .int64 2), ("Order".toList, .int32 1)]) := by
  refine ⟨?_, ?_⟩ <;> decide +kernel

/-- The parts of the first of these segments. -/
theorem segment_hypotheses : Stands "Caf%C3%A9s".toList ['C', 'a', 'f', 'é', 's'] ∧ Named "Caf%C3%A9s".toList := by
  refine ⟨⟨?_, by decide +kernel⟩, fun h => absurd h (by decide)⟩
  refine .char _ _ (by decide) (.char _ _ (by decide) (.char _ _ (by decide) (.escape _ _ _ (by decide) (by decide)
    (.escape _ _ _ (by decide) (by decide) (.char _ _ (by decide) .nil)))))

/-- **C157, refuted**: a comma in a key is taken for the end of the key, escapes in a key are not undone. -/
theorem segment_keys_refuted :
    parseURILiteral plainTables "'a,b'".toList = .ok (.string "a,b".toList) ∧
    splitSegment uriTables "Customers('a,b')".toList = .error .valueError ∧
    splitSegment uriTables "Customers('a=b')".toList = .error .valueError ∧
    splitSegment uriTables "Customers('a%20b')".toList = .ok ("Customers".toList, some [([], .string "a%20b".toList)]) := by
  refine ⟨?_, ?_, ?_, ?_⟩ <;> decide +kernel

/-! ## C158: keys that were written -/

/-- **C158, refuted**: the key `'a b'`, written and read back, is the key `'a%20b'`; a key of two parts, written and read back, is
an error. -/
theorem key_written_refuted (fin : Bool → Nat → Int → Str) :
    splitSegment uriTables ('C' :: formatKeyDict fin [([], .string "a b".toList)]) = .ok (['C'], some [([], .string "a%20b".toList)]) ∧
    splitSegment uriTables ('C' :: formatKeyDict fin [(['a'], .int32 1), (['b'], .int32 2)]) = .error .valueError := by
  have h1 : formatKeyDict fin [([], .string "a b".toList)] = formatKeyDict (fun _ _ _ => []) [([], .string "a b".toList)] := rfl
  have h2 : formatKeyDict fin [(['a'], .int32 1), (['b'], .int32 2)] =
    formatKeyDict (fun _ _ _ => []) [(['a'], .int32 1), (['b'], .int32 2)] := rfl
  rw [h1, h2]
  refine ⟨?_, ?_⟩ <;> decide +kernel

theorem plain_reserved {c : Char} (h : PlainChar c) : Uri.isReserved c = false := by
  have inj : ∀ d : Char, c.toNat = d.toNat → c = d := fun d e => by rw [← ofNat_toNat c, e, ofNat_toNat]
  unfold Uri.isReserved
  rw [decide_eq_false_iff_not]
  intro hm
  refine h.2 ?_
  simp only [List.mem_cons, List.not_mem_nil, or_false] at hm ⊢
  rcases hm with e | e | e | e | e | e | e | e | e | e
  · exact .inl (inj ';' e)
  · exact .inr (.inl (inj '/' e))
  · exact .inr (.inr (.inl (inj '?' e)))
  · exact .inr (.inr (.inr (.inl (inj ':' e))))
  · exact .inr (.inr (.inr (.inr (.inl (inj '@' e)))))
  · exact .inr (.inr (.inr (.inr (.inr (.inl (inj '&' e))))))
  · exact .inr (.inr (.inr (.inr (.inr (.inr (.inl (inj '=' e)))))))
  · exact .inr (.inr (.inr (.inr (.inr (.inr (.inr (.inl (inj '+' e))))))))
  · exact .inr (.inr (.inr (.inr (.inr (.inr (.inr (.inr (.inl (inj '$' e)))))))))
  · exact .inr (.inr (.inr (.inr (.inr (.inr (.inr (.inr (.inr (inj ',' e)))))))))

theorem plain_ascii {c : Char} (h : PlainChar c) : c.toNat < 128 := by
  have := h.1
  unfold Spec.uriChar at this
  simp only [Bool.or_eq_true, Bool.and_eq_true, decide_eq_true_eq, Char.le_def, UInt32.le_iff_toNat_le] at this
  have hv : c.toNat = c.val.toNat := rfl
  rw [hv]
  rcases this with ((h | h) | h) | h
  · exact Nat.lt_of_le_of_lt h.2 (by decide)
  · exact Nat.lt_of_le_of_lt h.2 (by decide)
  · exact Nat.lt_of_le_of_lt h.2 (by decide)
  · simp only [List.mem_cons, List.not_mem_nil, or_false] at h
    rcases h with h | h | h | h | h | h | h | h | h | h | h | h | h | h | h | h | h | h | h <;> rw [h] <;> decide

theorem escape_plain {r : Char → Bool} {s : Str} (h : ∀ c ∈ s, PlainChar c) (hr : ∀ c, PlainChar c → r c = false) : Uri.escapeData r (utf8Encode s) = s := by
  have hasc : utf8Encode s = s := utf8_ascii fun c hc => plain_ascii (h c hc)
  rw [hasc]
  unfold Uri.escapeData
  clear hasc
  induction s with
  | nil => rfl
  | cons c s ih =>
    have hc := h c (by simp)
    rw [List.flatMap_cons, ih (fun d hd => h d (by simp [hd])), Uri.escapeChar, hr c hc]
    have : (Uri.isUnreserved c || Uri.isReserved c) = true := by rw [Bool.or_comm, Uri.uriChar_eq]; exact hc.1
    rw [this]
    rfl

/-- **C158, partial**: a single key whose text consists of letters, digits and the marks of URIs is read back. -/
theorem key_written_partial {U : UriTables} (fin : Bool → Nat → Int → Str) {n t k : Str} {v : Lit} (hn : Named n) (hp : '(' ∉ n)
    (ht : Stands n t) (hv : Sound U.tables v) (hl : ∀ c ∈ litText fin v, PlainChar c) :
    splitSegment U (n ++ formatKeyDict fin [(k, v)]) = .ok (t, some [([], v)]) := by
  have hw := written_literal fin hv
  have e : formatKeyDict fin [(k, v)] = '(' :: (litText fin v ++ [')']) := by
    unfold formatKeyDict
    dsimp only
    refine escape_plain ?_ (fun c hc => plain_reserved hc)
    intro c hc
    rcases List.mem_cons.mp hc with rfl | hc
    · exact ⟨by decide, by decide⟩
    · rcases List.mem_append.mp hc with hc | hc
      · exact hl c hc
      · rcases List.mem_cons.mp hc with rfl | hc
        · exact ⟨by decide, by decide⟩
        · cases hc
  rw [e]
  refine segment_single_partial hn hp ht hw ?_ ?_ ?_
  · intro h
    have := literals_read hw
    rw [h] at this
    have e : parseURILiteral U.tables [] = .error .valueError := rfl
    rw [e] at this
    cases this
  · intro h
    exact (hl _ h).2 (by decide)
  · intro h
    exact (hl _ h).2 (by decide)

/-- The hypotheses are met by a string key and by a globally unique identifier. -/
theorem key_written_example (fin : Bool → Nat → Int → Str) :
    Sound plainTables (.string "O'Neil".toList) ∧ (∀ c ∈ litText fin (.string "O'Neil".toList), PlainChar c) ∧
    splitSegment uriTables ('C' :: formatKeyDict fin [(['k'], .string "O'Neil".toList)]) = .ok (['C'], some [([], .string "O'Neil".toList)]) := by
  have h : ∀ c ∈ litText fin (.string "O'Neil".toList), PlainChar c := by
    have : litText fin (.string "O'Neil".toList) = "'O''Neil'".toList := rfl
    rw [this]
    decide +kernel
  refine ⟨trivial, h, ?_⟩
  exact key_written_partial (U := uriTables) fin (n := ['C']) (t := ['C']) (by decide) (by decide)
    ⟨.char _ _ (by decide) .nil, by decide⟩ trivial h

/-! ## C159: the system query options -/

/-- **C159**: a query of options is read as these options with the values they stand for, in whatever order and however the
names and values are escaped. -/
theorem query_reads {U : UriTables} {ps : List QueryOption} (h0 : ps ≠ []) (hok : ∀ p ∈ ps, p.OK) (hd : (ps.map (·.opt)).Nodup)
    (val : QueryOption → OptValue) (hv : ∀ p ∈ ps, optionValue U p.opt p.value = .ok (val p)) :
    ∃ q, readQuery U (some (Py.join '&' (ps.map (·.text)))) = .ok q ∧ q.options = [] ∧ q.table = [] ∧
      Says q (ps.map fun p => (p.opt, val p)) := by
  obtain ⟨g1, g2⟩ := get_foldl_set (key := QueryOption.opt) (val := val) (d := []) hd
  refine ⟨⟨ps.foldl (fun d p => Dict.set d p.opt (val p)) [], [], []⟩, ?_, rfl, rfl, ?_, ?_⟩
  · have hamp : ∀ s ∈ ps.map (·.text), '&' ∉ s := by
      intro s hs
      obtain ⟨p, hm, rfl⟩ := List.mem_map.mp hs
      obtain ⟨_, _, _, o4, o5⟩ := hok p hm
      intro h
      rcases List.mem_cons.mp h with h | h
      · exact absurd h (by decide)
      · rcases List.mem_append.mp h with h | h
        · exact o4 h
        · rcases List.mem_cons.mp h with h | h
          · exact absurd h (by decide)
          · exact o5 h
    unfold readQuery
    dsimp only
    rw [split_join_parts (by simpa using h0) hamp, List.foldlM_map]
    rw [foldlM_ok (g := fun q p => { q with sys := Dict.set q.sys p.opt (val p) }) (fun p hm q => ?_), foldl_sys]
    obtain ⟨o1, o2, o3, _, _⟩ := hok p hm
    rw [QueryOption.text, queryPart_sys o3 (decodeText_stands o1) (decodeText_stands o2), hv p hm]
    rfl
  · intro x hx
    obtain ⟨p, hm, rfl⟩ := List.mem_map.mp hx
    exact g1 p hm
  · intro o ho
    rw [List.map_map] at ho
    exact g2 o ho

/-- **C159**: what `FormatSysQueryOptions` writes is read as the same options and values, for values of any characters. -/
theorem query_written {U : UriTables} {l : List (SysOpt × Str)} (h0 : l ≠ []) (hd : (l.map (·.1)).Nodup)
    (val : SysOpt × Str → OptValue) (hv : ∀ x ∈ l, optionValue U x.1 x.2 = .ok (val x)) :
    ∃ q, readQuery U (some (formatSysQueryOptions l)) = .ok q ∧ q.options = [] ∧ q.table = [] ∧
      Says q (l.map fun x => (x.1, val x)) := by
  obtain ⟨g1, g2⟩ := get_foldl_set (key := Prod.fst) (val := val) (d := []) hd
  refine ⟨⟨l.foldl (fun d x => Dict.set d x.1 (val x)) [], [], []⟩, ?_, rfl, rfl, ?_, ?_⟩
  · have hname : ∀ o : SysOpt, '=' ∉ o.name ∧ '&' ∉ o.name ∧ Uri.unescapeData o.name = o.name ∧ utf8Decode o.name = some o.name := by
      intro o; cases o <;> decide +kernel
    have hamp : ∀ s ∈ l.map (fun x => '$' :: (x.1.name ++ '=' :: Uri.escapeData Uri.isReserved (utf8Encode x.2))), '&' ∉ s := by
      intro s hs
      obtain ⟨x, hm, rfl⟩ := List.mem_map.mp hs
      intro h
      rcases List.mem_cons.mp h with h | h
      · exact absurd h (by decide)
      · rcases List.mem_append.mp h with h | h
        · exact (hname x.1).2.1 h
        · rcases List.mem_cons.mp h with h | h
          · exact absurd h (by decide)
          · exact uri_escape_hides Uri.isReserved _ (utf8_octets x.2) '&' (by decide) (by decide) (by decide) h
    unfold readQuery formatSysQueryOptions
    dsimp only
    rw [split_join_parts (by simpa using h0) hamp, List.foldlM_map]
    rw [foldlM_ok (g := fun q x => { q with sys := Dict.set q.sys x.1 (val x) }) (fun x hm q => ?_), foldl_sys]
    have hdec : decodeText x.1.name = .ok (sysWord x.1).toList := by
      unfold decodeText
      rw [(hname x.1).2.2.1, (hname x.1).2.2.2, sysWord_name]
    rw [queryPart_sys (hname x.1).1 hdec (decodeText_escape _ x.2), hv x hm]
    rfl
  · intro x hx
    obtain ⟨p, hm, rfl⟩ := List.mem_map.mp hx
    exact g1 p hm
  · intro o ho
    rw [List.map_map] at ho
    exact g2 o ho

theorem whiles_all {p : Char → Bool} {s : Str} : s.dropWhile p = [] ↔ ∀ c ∈ s, p c = true := by
  induction s with
  | nil => simp
  | cons c s ih =>
    rw [List.dropWhile_cons]
    cases h : p c with
    | true => simp [h, ih]
    | false => simp [h]

theorem digitsVal_natOf (s : Str) (h : ∀ c ∈ s, Py.isDigit c = true) : Py.digitsVal 10 s = natOf s := by
  unfold natOf Py.digitsVal
  generalize 0 = n
  induction s generalizing n with
  | nil => rfl
  | cons c s ih =>
    rw [List.foldl_cons, List.foldl_cons]
    have hc : Py.hexVal c = c.toNat - 48 := by
      have := h c (by simp)
      unfold Py.isDigit at this
      unfold Py.hexVal
      simp only [Bool.and_eq_true, decide_eq_true_eq] at this
      rw [if_pos this.2]
    rw [hc]
    have : n * 10 + (c.toNat - 48) = 10 * n + (c.toNat - 48) := by omega
    rw [this]
    exact ih (fun d hd => h d (by simp [hd])) _

/-- **C159**: the values of `$skip` and `$top` are exactly the texts of decimal digits. -/
theorem numbers_read (U : UriTables) (s : Str) (n : Nat) :
    (optionValue U .skip s = .ok (.skip n) ↔ Digits s ∧ natOf s = n) ∧
    (optionValue U .top s = .ok (.top n) ↔ Digits s ∧ natOf s = n) := by
  have key : integerOption s = .ok n ↔ Digits s ∧ natOf s = n := by
    unfold integerOption
    have htd := List.takeWhile_append_dropWhile (p := Py.isDigit) (l := s)
    by_cases h : ∀ c ∈ s, Py.isDigit c = true
    · have h1 : s.takeWhile Py.isDigit = s := by
        rw [whiles_all.mpr h, List.append_nil] at htd; exact htd
      have h2 : s.dropWhile Py.isDigit = [] := whiles_all.mpr h
      dsimp only
      rw [h1, h2]
      by_cases hs : s = []
      · rw [if_pos hs]
        exact ⟨fun h => (by cases h), fun h => absurd hs h.1.1⟩
      · rw [if_neg hs, if_pos rfl, digitsVal_natOf s h]
        exact ⟨fun e => ⟨⟨hs, h⟩, (by injection e)⟩, fun e => by rw [e.2]⟩
    · have h2 : s.dropWhile Py.isDigit ≠ [] := by
        rw [Ne, whiles_all]; exact h
      dsimp only
      rw [if_neg h2]
      constructor
      · intro e; split at e <;> cases e
      · intro e; exact absurd e.1.2 h
  constructor
  · show (integerOption s).map OptValue.skip = _ ↔ _
    rw [← key]
    cases integerOption s with
    | error e => exact ⟨fun h => (by cases h), fun h => (by cases h)⟩
    | ok m => exact ⟨fun h => (by cases h; rfl), fun h => (by cases h; rfl)⟩
  · show (integerOption s).map OptValue.top = _ ↔ _
    rw [← key]
    cases integerOption s with
    | error e => exact ⟨fun h => (by cases h), fun h => (by cases h)⟩
    | ok m => exact ⟨fun h => (by cases h; rfl), fun h => (by cases h; rfl)⟩

/-- **C159**: `$inlinecount` has exactly two values, written in any case and with any space around them. -/
theorem inlinecount_read (U : UriTables) (s : Str) (v : OptValue) :
    optionValue U .inlinecount s = .ok v ↔
      (v = .inlinecount true ∧ Py.lower (strip s) = "allpages".toList) ∨ (v = .inlinecount false ∧ Py.lower (strip s) = "none".toList) := by
  have hne : "none".toList ≠ "allpages".toList := by decide
  show (match inlineCount s with
    | some b => .ok (.inlinecount b)
    | none => .error UriFault.valueError) = Except.ok v ↔ _
  unfold inlineCount
  by_cases h : Py.lower (strip s) = "allpages".toList
  · rw [if_pos h]
    exact ⟨fun e => .inl ⟨(by cases e; rfl), h⟩, fun e => by
      rcases e with e | e
      · rw [e.1]
      · exact absurd (e.2.symm.trans h) hne⟩
  · rw [if_neg h]
    by_cases h' : Py.lower (strip s) = "none".toList
    · rw [if_pos h']
      exact ⟨fun e => .inr ⟨(by cases e; rfl), h'⟩, fun e => by
        rcases e with e | e
        · exact absurd e.2 h
        · rw [e.1]⟩
    · rw [if_neg h']
      exact ⟨fun e => (by cases e), fun e => by
        rcases e with e | e
        · exact absurd e.2 h
        · exact absurd e.2 h'⟩

/-- Both values, in other letters and with spaces. -/
theorem inlinecount_example : optionValue uriTables .inlinecount " AllPages ".toList = .ok (.inlinecount true) ∧
    optionValue uriTables .inlinecount "NONE".toList = .ok (.inlinecount false) := by
  constructor
  · exact (inlinecount_read _ _ _).mpr (.inl ⟨rfl, by decide +kernel⟩)
  · exact (inlinecount_read _ _ _).mpr (.inr ⟨rfl, by decide +kernel⟩)

/-- **C159**: only escaped UTF-8 is read: names and values with other bytes, overlong forms among them, are errors. -/
theorem text_read {s : Str} (h : Spec.Percents s) (t : Str) : decodeText s = .ok t ↔ Stands s t := by
  refine ⟨fun e => ⟨h, ?_⟩, decodeText_stands⟩
  unfold decodeText at e
  rw [uri_unescape_partial s h] at e
  split at e
  · next u hu =>
    cases e
    rw [utf8_spec]
    exact utf8_encode_decode _ _ hu
  · cases e

/-- The overlong form of `/` is no text. -/
theorem text_overlong : decodeText "%C0%AF".toList = .error .valueError := by decide +kernel

/-- A query with an escaped filter, a number and a token. -/
theorem query_example :
    formatSysQueryOptions [(.top, "10".toList), (.filter, "a eq '&é'".toList)] = "$top=10&$filter=a%20eq%20'%26%C3%A9'".toList ∧
    readQuery uriTables (some "$top=10&$filter=a%20eq%20'%26%C3%A9'".toList) =
      .ok ⟨[(.filter, .filter (.binary .eq [.prop ['a'], .lit (.string ['&', 'é'])])), (.top, .top 10)], [], []⟩ := by
  refine ⟨?_, ?_⟩ <;> decide +kernel

theorem ebind_ok {ε α β : Type} {x : Except ε α} {f : α → Except ε β} {b : β} (h : x.bind f = .ok b) : ∃ a, x = .ok a ∧ f a = .ok b := by
  cases x with
  | error e => cases h
  | ok a => exact ⟨a, rfl, h⟩

/-! ## C160: which options are accepted -/

theorem get_mem {κ β : Type} [DecidableEq κ] {d : List (κ × β)} {k : κ} {v : β} (h : Dict.get d k = some v) : ∃ x ∈ d, x.1 = k := by
  induction d with
  | nil => cases h
  | cons x d ih =>
    rw [Dict.get_cons] at h
    split at h
    · next e => exact ⟨x, by simp, e⟩
    · obtain ⟨y, hy, e⟩ := ih h
      exact ⟨y, by simp [hy], e⟩

theorem mem_get {κ β : Type} [DecidableEq κ] {d : List (κ × β)} {x : κ × β} (h : x ∈ d) : ∃ v, Dict.get d x.1 = some v := by
  induction d with
  | nil => cases h
  | cons y d ih =>
    rw [Dict.get_cons]
    by_cases e : y.1 = x.1
    · exact ⟨_, if_pos e⟩
    · rw [if_neg e]
      rcases List.mem_cons.mp h with rfl | h
      · exact absurd rfl e
      · exact ih h

theorem keyed_iff (nav : List (Str × Keys)) : keyed nav = true ↔ Single nav := by
  unfold keyed Single
  constructor
  · intro h
    split at h
    · next n k ks e =>
      obtain ⟨l, e⟩ := List.getLast?_eq_some_iff.mp e
      exact ⟨l, n, k, ks, e⟩
    · cases h
  · rintro ⟨l, n, k, ks, rfl⟩
    rw [List.getLast?_concat]

theorem validation_iff {p : Path} {q : Query} :
    validation p q = .ok () ↔ ∀ o v, Dict.get q.sys o = some v → Allowed p.option (Single p.navPath) o := by
  have hval : ∀ n, validate q n = .ok () ↔ ∀ o v, Dict.get q.sys o = some v → o ∈ supported n := by
    intro n
    unfold validate
    constructor
    · intro h o v hg
      obtain ⟨x, hx, rfl⟩ := get_mem hg
      split at h
      · next ha =>
        have := List.all_eq_true.mp ha x hx
        simpa using this
      · cases h
    · intro h
      rw [if_pos]
      rw [List.all_eq_true]
      intro x hx
      obtain ⟨v, hg⟩ := mem_get hx
      simpa using h x.1 v hg
  unfold validation
  cases ho : p.option with
  | none => exact ⟨fun _ _ _ _ => trivial, fun _ => rfl⟩
  | some o =>
    cases o with
    | metadata =>
      dsimp only
      rw [hval]
      exact ⟨fun h o v hg => absurd (h o v hg) (by simp [supported]), fun h o v hg => absurd (h o v hg) (by simp [Allowed])⟩
    | batch =>
      dsimp only
      rw [hval]
      exact ⟨fun h o v hg => absurd (h o v hg) (by simp [supported]), fun h o v hg => absurd (h o v hg) (by simp [Allowed])⟩
    | links => exact hval 7
    | value => exact ⟨fun _ _ _ _ => trivial, fun _ => rfl⟩
    | count =>
      dsimp only
      have hk := keyed_iff p.navPath
      by_cases hs : Single p.navPath
      · rw [if_pos (hk.mpr hs), hval]
        exact ⟨fun h o v hg => ⟨fun _ => h o v hg, fun hn => absurd hs hn⟩, fun h o v hg => (h o v hg).1 hs⟩
      · rw [if_neg (fun h => hs (hk.mp h)), hval]
        exact ⟨fun h o v hg => ⟨fun hn => absurd hn hs, fun _ => h o v hg⟩, fun h o v hg => (h o v hg).2 hs⟩

/-- **C160**: an accepted URI has only options that go with its path. -/
theorem options_allowed {U : UriTables} {pre a : Str} {query : Option Str} {u : ODataURI} (h : readURI U pre a query = .ok u)
    (o : SysOpt) (v : OptValue) (hv : Dict.get u.query.sys o = some v) : Allowed u.path.option (Single u.path.navPath) o := by
  unfold readURI at h
  split at h
  · cases h
    cases hv
  · obtain ⟨q, h1, h⟩ := ebind_ok h
    obtain ⟨p, h2, h⟩ := ebind_ok h
    cases hval : validation p q with
    | error e => rw [hval] at h; cases h
    | ok x =>
      rw [hval] at h
      cases h
      exact validation_iff.mp hval o v hv

/-- **C160**: a URI whose path and query can be read and whose options go with its path is accepted; if an option does not go
with its path, the error is `InvalidSystemQueryOption`. -/
theorem options_refused {U : UriTables} {a : Str} {query : Option Str} {q : Query} {p : Path} (hq : readQuery U query = .ok q)
    (hp : readPath U a = .ok p) :
    ((∀ o v, Dict.get q.sys o = some v → Allowed p.option (Single p.navPath) o) → readURI U [] a query = .ok ⟨some a, p, q⟩) ∧
    ((∃ o v, Dict.get q.sys o = some v ∧ ¬ Allowed p.option (Single p.navPath) o) → readURI U [] a query = .error .queryOption) := by
  have hr : readURI U [] a query = (validation p q).map fun _ => ⟨some a, p, q⟩ := by
    unfold readURI
    rw [if_neg (by simp), hq]
    show (readPath U a).bind _ = _
    rw [hp]
    rfl
  rw [hr]
  constructor
  · intro h
    rw [validation_iff.mpr h]
    rfl
  · rintro ⟨o, v, hg, hn⟩
    have hne : validation p q ≠ .ok () := fun h => hn (validation_iff.mp h o v hg)
    have : validation p q = .ok () ∨ validation p q = .error .queryOption := by
      have hval : ∀ n, validate q n = .ok () ∨ validate q n = .error .queryOption := by
        intro n
        unfold validate
        split
        · exact .inl rfl
        · exact .inr rfl
      unfold validation
      split
      · exact hval 7
      · exact hval 8
      · exact hval 9
      · split
        · exact hval 16
        · exact hval 15
      · exact .inl rfl
    rcases this with h | h
    · exact absurd h hne
    · rw [h]; rfl

/-- An option that goes with the path and one that does not. -/
theorem options_example :
    readURI uriTables [] "/Customers/$count".toList (some "$top=1".toList) =
      .ok ⟨some "/Customers/$count".toList, ⟨[("Customers".toList, none)], some .count, none⟩, ⟨[(.top, .top 1)], [], []⟩⟩ ∧
    readURI uriTables [] "/Customers(1)/$count".toList (some "$top=1".toList) = .error .queryOption := by
  refine ⟨?_, ?_⟩ <;> decide +kernel

end Verif.Props
