import Verif.Model.Uri
import Verif.Spec.Uri

/-!
# Lemmas about URI characters and the component parser
-/

namespace Verif.Uri

set_option linter.unusedVariables false

open Verif Verif.Spec

theorem mem_ofNat (l : List Nat) (h : ∀ n ∈ l, (Char.ofNat n).toNat = n) (c : Char) :
    (c.toNat ∈ l) ↔ c ∈ l.map Char.ofNat := by
  constructor
  · intro hc
    exact List.mem_map.2 ⟨c.toNat, hc, Char.ofNat_toNat c⟩
  · intro hc
    obtain ⟨n, hn, rfl⟩ := List.mem_map.1 hc
    rw [h n hn]; exact hn

theorem le_iff (a b : Char) : a ≤ b ↔ a.toNat ≤ b.toNat := by
  rw [Char.le_def]; exact UInt32.le_iff_toNat_le

theorem eq_iff_toNat (a b : Char) : a = b ↔ a.toNat = b.toNat := by
  constructor
  · rintro rfl; rfl
  · intro h; rw [← Char.ofNat_toNat a, h, Char.ofNat_toNat]

theorem uriChar_eq (c : Char) : (isReserved c || isUnreserved c) = uriChar c := by
  rw [Bool.eq_iff_iff]
  unfold isReserved isUnreserved isAlphaNum isAlpha isDigit isMark uriChar
  simp only [Bool.or_eq_true, Bool.and_eq_true, decide_eq_true_eq, le_iff, eq_iff_toNat, List.mem_cons, List.not_mem_nil, or_false,
    Char.reduceToNat]
  omega

theorem isHex_eq (c : Char) : isHex c = hexDigit c := by
  rw [Bool.eq_iff_iff]
  unfold isHex isDigit hexDigit
  simp only [Bool.or_eq_true, Bool.and_eq_true, decide_eq_true_eq, le_iff, Char.reduceToNat]

theorem hexVal_eq (c : Char) (h : isHex c = true) : Py.hexVal c = hexDigitVal c := by
  unfold isHex isDigit at h
  unfold Py.hexVal hexDigitVal
  simp only [le_iff, Char.reduceToNat, Bool.or_eq_true, Bool.and_eq_true, decide_eq_true_eq] at *
  split
  · rfl
  · split <;> omega

theorem digitsVal_eq (a b : Char) (ha : isHex a = true) (hb : isHex b = true) :
    Py.digitsVal 16 [a, b] = 16 * hexDigitVal a + hexDigitVal b := by
  have h1 := hexVal_eq a ha
  have h2 := hexVal_eq b hb
  simp only [Py.digitsVal, List.foldl_cons, List.foldl_nil, h1, h2]; omega

theorem alpha_eq (c : Char) : isAlpha c = (('A' ≤ c && c ≤ 'Z') || ('a' ≤ c && c ≤ 'z')) := by
  rw [Bool.eq_iff_iff]
  unfold isAlpha
  simp only [Bool.or_eq_true, Bool.and_eq_true, decide_eq_true_eq, le_iff, Char.reduceToNat]

theorem schemeChar_eq (c : Char) : isSchemeChar c =
    (('A' ≤ c && c ≤ 'Z') || ('a' ≤ c && c ≤ 'z') || ('0' ≤ c && c ≤ '9') || c ∈ ['+', '-', '.']) := by
  rw [Bool.eq_iff_iff]
  unfold isSchemeChar isAlphaNum isAlpha isDigit
  simp only [Bool.or_eq_true, Bool.and_eq_true, decide_eq_true_eq, le_iff, eq_iff_toNat, List.mem_cons, List.not_mem_nil, or_false,
    Char.reduceToNat]

theorem schemeName_eq (s : Str) : schemeName s = match s with
    | [] => false
    | c :: t => isAlpha c && t.all isSchemeChar := by
  cases s with
  | nil => rfl
  | cons c t => simp only [schemeName, alpha_eq, ← schemeChar_eq]

theorem isSlash (c : Char) : c.toNat = 0x2F ↔ c = '/' := (eq_iff_toNat c '/').symm
theorem isQuery (c : Char) : c.toNat = 0x3F ↔ c = '?' := (eq_iff_toNat c '?').symm
theorem isHash (c : Char) : c.toNat = 0x23 ↔ c = '#' := (eq_iff_toNat c '#').symm
theorem isPct (c : Char) : c.toNat = 0x25 ↔ c = '%' := (eq_iff_toNat c '%').symm
theorem isColon (c : Char) : c.toNat = 0x3A ↔ c = ':' := (eq_iff_toNat c ':').symm
theorem isAt (c : Char) : c.toNat = 0x40 ↔ c = '@' := (eq_iff_toNat c '@').symm
theorem isSemi (c : Char) : c.toNat = 0x3B ↔ c = ';' := (eq_iff_toNat c ';').symm

/-! ## `ParseURIC` -/

theorem uricLoop_stop (n : Nat) (c : Char) (t : Str) (h : uriChar c = false) (hp : c ≠ '%') :
    uricLoop .plain n (c :: t) = n := by
  rw [uricLoop, uriChar_eq, h, if_neg (by decide), if_neg (by rw [isPct]; exact hp)]

theorem uricLoop_append (a : Str) (ha : UriText a) : ∀ (n : Nat) (b : Str),
    uricLoop .plain n (a ++ b) = uricLoop .plain (n + a.length) b := by
  induction ha with
  | nil => intro n b; rfl
  | char c t hc ht ih =>
    intro n b
    show uricLoop .plain n (c :: (t ++ b)) = _
    rw [uricLoop, uriChar_eq, hc, if_pos rfl, ih, List.length_cons]
    congr 1; omega
  | escape x y t hx hy ht ih =>
    intro n b
    show uricLoop .plain n ('%' :: x :: y :: (t ++ b)) = _
    have h0 : (isReserved '%' || isUnreserved '%') = false := by decide
    rw [uricLoop, h0, if_neg (by decide), if_pos (by decide), uricLoop, isHex_eq, hx, if_pos rfl, uricLoop, isHex_eq, hy,
      if_pos rfl, ih]
    congr 1; simp only [List.length_cons]; omega

theorem uricLoop_lower (m : UricMode) (s : Str) : ∀ n, n ≤ uricLoop m n s := by
  induction s generalizing m with
  | nil => intro n; cases m <;> simp [uricLoop]
  | cons c t ih =>
    intro n
    cases m <;> rw [uricLoop]
    · split
      · exact Nat.le_trans (Nat.le_succ n) (ih _ _)
      · split
        · exact ih _ _
        · exact Nat.le_refl _
    · split
      · exact ih _ _
      · exact Nat.le_refl _
    · split
      · exact Nat.le_trans (by omega) (ih _ (n + 3))
      · exact Nat.le_refl _

/-- What the scanner recognises is a URI text followed by the rest. -/
theorem uricLoop_split (k : Nat) : ∀ (s : Str), s.length ≤ k → ∀ n, ∃ a b, s = a ++ b ∧ UriText a ∧
    uricLoop .plain n s = n + a.length := by
  induction k with
  | zero =>
    intro s hs n
    have : s = [] := List.eq_nil_of_length_eq_zero (by omega)
    subst this
    exact ⟨[], [], rfl, .nil, rfl⟩
  | succ k ih =>
    intro s hs n
    match s with
    | [] => exact ⟨[], [], rfl, .nil, rfl⟩
    | c :: t =>
      rw [uricLoop, uriChar_eq]
      by_cases hc : uriChar c = true
      · obtain ⟨a, b, hab, ha, hl⟩ := ih t (by simp at hs; omega) (n + 1)
        refine ⟨c :: a, b, by rw [hab]; rfl, .char c a hc ha, ?_⟩
        rw [if_pos hc, hl]; simp only [List.length_cons]; omega
      · rw [if_neg hc]
        by_cases hp : c.toNat = 0x25
        · rw [if_pos hp]
          have hc' : c = '%' := (isPct c).1 hp
          match t with
          | [] => exact ⟨[], [c], rfl, .nil, rfl⟩
          | x :: t' =>
            rw [uricLoop]
            by_cases hx : isHex x = true
            · rw [if_pos hx]
              match t' with
              | [] => exact ⟨[], [c, x], rfl, .nil, rfl⟩
              | y :: t'' =>
                rw [uricLoop]
                by_cases hy : isHex y = true
                · rw [if_pos hy]
                  obtain ⟨a, b, hab, ha, hl⟩ := ih t'' (by simp at hs; omega) (n + 3)
                  refine ⟨'%' :: x :: y :: a, b, by rw [hab, hc']; rfl, .escape x y a (by rw [← isHex_eq]; exact hx)
                    (by rw [← isHex_eq]; exact hy) ha, ?_⟩
                  rw [hl]; simp only [List.length_cons]; omega
                · rw [if_neg hy]; exact ⟨[], _, rfl, .nil, rfl⟩
            · rw [if_neg hx]; exact ⟨[], _, rfl, .nil, rfl⟩
        · rw [if_neg hp]; exact ⟨[], _, rfl, .nil, rfl⟩

theorem parseURIC_text (a : Str) (ha : UriText a) : parseURIC a = a.length := by
  have := uricLoop_append a ha 0 []
  rw [List.append_nil] at this
  rw [parseURIC, this]; simp [uricLoop]

theorem parseURIC_hash (a f : Str) (ha : UriText a) : parseURIC (a ++ '#' :: f) = a.length := by
  rw [parseURIC, uricLoop_append a ha, uricLoop_stop _ _ _ (by decide) (by decide)]; omega

theorem text_append {a b : Str} (ha : UriText a) (hb : UriText b) : UriText (a ++ b) := by
  induction ha with
  | nil => exact hb
  | char c t hc _ ih => exact .char c _ hc ih
  | escape x y t hx hy _ ih => exact .escape x y _ hx hy ih

/-- A URI character that is not a hexadecimal digit never lies inside an escape. -/
theorem text_split {s : Str} (hs : UriText s) (d : Char) (hd : hexDigit d = false) : ∀ (hp : d ≠ '%') (a b : Str),
    s = a ++ d :: b → UriText a ∧ UriText b := by
  intro hp
  induction hs with
  | nil => intro a b h; cases a <;> cases h
  | char c t hc ht ih =>
    intro a b h
    cases a with
    | nil => injection h with h1 h2; subst h2; exact ⟨.nil, ht⟩
    | cons x a =>
      injection h with h1 h2
      obtain ⟨h3, h4⟩ := ih a b h2
      subst h1
      exact ⟨.char _ _ hc h3, h4⟩
  | escape x y t hx hy ht ih =>
    intro a b h
    match a with
    | [] => injection h with h1 _; exact absurd h1.symm hp
    | [_] => injection h with _ h; injection h with h1 _; rw [h1, hd] at hx; cases hx
    | [_, _] => injection h with _ h; injection h with _ h; injection h with h1 _; rw [h1, hd] at hy; cases hy
    | p :: q :: r :: a =>
      injection h with h1 h; injection h with h2 h; injection h with h3 h
      subst h1; subst h2; subst h3
      obtain ⟨h4, h5⟩ := ih a b h
      exact ⟨.escape _ _ _ hx hy h4, h5⟩

/-! ## `ParseScheme` -/

theorem schemeLoop_some (s : Str) : ∀ (acc r : Str), schemeLoop acc s = some r →
    ∃ m t, s = m ++ ':' :: t ∧ r = acc ++ m ∧ (acc ≠ [] → m.all isSchemeChar = true) ∧
      (acc = [] → m = [] ∨ schemeName m = true) := by
  induction s with
  | nil => intro acc r h; cases h
  | cons c t ih =>
    intro acc r h
    rw [schemeLoop] at h
    split at h
    · rename_i hc
      obtain ⟨m, u, h1, h2, h3, h4⟩ := ih _ _ h
      have hm := h3 (by simp)
      refine ⟨c :: m, u, by rw [h1]; rfl, by rw [h2]; simp, ?_, ?_⟩
      · intro _
        rw [List.all_cons, hm, Bool.and_true]
        have : isAlpha c = true → isSchemeChar c = true := by
          intro h; simp [isSchemeChar, isAlphaNum, h]
        simp only [Bool.or_eq_true, Bool.and_eq_true] at hc
        rcases hc with hc | hc
        · exact hc.2
        · exact this hc
      · intro ha
        subst ha
        right
        rw [schemeName_eq]
        simp only [ne_eq, not_true_eq_false, decide_false, Bool.false_and, Bool.false_or] at hc
        simp [hc, hm]
    · split at h
      · rename_i _ hcol
        injection h with h
        exact ⟨[], t, by rw [(isColon c).1 hcol]; rfl, by rw [← h]; simp, by simp, by simp⟩
      · cases h

theorem schemeLoop_tail (m : Str) (hm : m.all isSchemeChar = true) (t : Str) : ∀ acc, acc ≠ [] →
    schemeLoop acc (m ++ ':' :: t) = some (acc ++ m) := by
  induction m with
  | nil =>
    intro acc h
    show schemeLoop acc (':' :: t) = _
    rw [schemeLoop, if_neg (by simp [h]; decide), if_pos (by decide), List.append_nil]
  | cons c m ih =>
    intro acc h
    rw [List.all_cons, Bool.and_eq_true] at hm
    show schemeLoop acc (c :: (m ++ ':' :: t)) = _
    rw [schemeLoop, if_pos (by simp [h, hm.1]), ih hm.2 _ (by simp)]
    simp

theorem parseScheme_name (m t : Str) (hm : schemeName m = true) : parseScheme (m ++ ':' :: t) = some m := by
  rw [schemeName_eq] at hm
  match m, hm with
  | c :: m, hm =>
    simp only [Bool.and_eq_true] at hm
    show schemeLoop [] (c :: (m ++ ':' :: t)) = _
    rw [schemeLoop, if_pos (by simp [hm.1]), schemeLoop_tail m hm.2 t _ (by simp)]
    rfl

theorem parseScheme_none (o : Str) (h : ∀ s t, o = s ++ ':' :: t → s ≠ [] ∧ schemeName s = false) :
    parseScheme o = none := by
  cases hs : parseScheme o with
  | none => rfl
  | some r =>
    obtain ⟨m, t, h1, h2, _, h4⟩ := schemeLoop_some o [] r hs
    obtain ⟨h5, h6⟩ := h m t h1
    rcases h4 rfl with h7 | h7
    · exact absurd h7 h5
    · rw [h6] at h7; cases h7

/-! ## The component parser -/

/-- The text of the components of a hierarchical part. -/
def partsText (p : Parts) : Str :=
  p.opaquePart.getD [] ++
  (p.authority.elim [] ('/' :: '/' :: ·)) ++
  p.absPath.getD [] ++ p.relPath.getD [] ++
  (p.query.elim [] ('?' :: ·))

/-- What has been read when the parser is in a mode with a given accumulated text. -/
def before : Mode → Str → Parts → Str
  | .slash, _, _ => ['/']
  | .auth, acc, _ => '/' :: '/' :: acc
  | .path, acc, p => (p.authority.elim [] ('/' :: '/' :: ·)) ++ acc
  | .rel, acc, _ => acc
  | .query, acc, p => partsText p ++ '?' :: acc

/-- The components that are known in each mode. -/
def Known : Mode → Parts → Prop
  | .slash, p => p = {}
  | .auth, p => p = {}
  | .path, p => p.opaquePart = none ∧ p.absPath = none ∧ p.relPath = none ∧ p.query = none
  | .rel, p => p = {}
  | .query, p => p.query = none

theorem parseLoop_text (s : Str) : ∀ (m : Mode) (acc : Str) (p : Parts), Known m p →
    partsText (parseLoop m acc p s) = before m acc p ++ s := by
  induction s with
  | nil =>
    intro m acc p h
    cases m <;> simp only [parseLoop, Known, before] at * <;> first | (subst h) | skip
    · simp [partsText]
    · simp [partsText]
    · obtain ⟨h1, h2, h3, h4⟩ := h; simp [partsText, h1, h3, h4]
    · simp [partsText]
    · simp [partsText, h]
  | cons c t ih =>
    intro m acc p h
    cases m
    · simp only [Known] at h; subst h
      rw [parseLoop]
      split
      · rename_i hc; rw [ih _ _ _ (by simp [Known]), (isSlash c).1 hc]; simp [before]
      · split
        · rename_i hc; rw [ih _ _ _ (by simp [Known]), (isQuery c).1 hc]; simp [before, partsText]
        · rw [ih _ _ _ (by simp [Known])]; simp [before]
    · simp only [Known] at h; subst h
      rw [parseLoop]
      split
      · rename_i hc; rw [ih _ _ _ (by simp [Known]), (isSlash c).1 hc]; simp [before]
      · split
        · rename_i hc; rw [ih _ _ _ (by simp [Known]), (isQuery c).1 hc]; simp [before, partsText]
        · rw [ih _ _ _ (by simp [Known])]; simp [before]
    · simp only [Known] at h
      obtain ⟨h1, h2, h3, h4⟩ := h
      rw [parseLoop]
      split
      · rename_i hc; rw [ih _ _ _ (by simp [Known, h4]), (isQuery c).1 hc]; simp [before, partsText, h1, h3, h4]
      · rw [ih _ _ _ (by simp [Known, *])]; simp [before]
    · simp only [Known] at h; subst h
      rw [parseLoop]
      split
      · rename_i hc; rw [ih _ _ _ (by simp [Known]), (isQuery c).1 hc]; simp [before, partsText]
      · rw [ih _ _ _ (by simp [Known])]; simp [before]
    · simp only [Known] at h
      rw [parseLoop, ih _ _ _ (by simp [Known, h])]; simp [before]

theorem parseRelativeURI_text (s : Str) : partsText (parseRelativeURI s) = s := by
  unfold parseRelativeURI
  cases s with
  | nil => rfl
  | cons c t =>
    simp only
    split
    · rename_i hc; rw [parseLoop_text _ _ _ _ (by simp [Known]), (isSlash c).1 hc]; rfl
    · split
      · rename_i hc; rw [parseLoop_text _ _ _ _ (by simp [Known]), (isQuery c).1 hc]; rfl
      · rw [parseLoop_text _ _ _ _ (by simp [Known])]; rfl

theorem parseSchemeSpecificPart_text (s : Str) : partsText (parseSchemeSpecificPart s) = s := by
  unfold parseSchemeSpecificPart
  cases s with
  | nil => rfl
  | cons c t =>
    simp only
    split
    · rename_i hc; rw [parseLoop_text _ _ _ _ (by simp [Known]), (isSlash c).1 hc]; rfl
    · simp [partsText]

/-! ### Parsing a composed text -/

theorem loop_query (q : Str) : ∀ acc p, parseLoop .query acc p q = { p with query := some (acc ++ q) } := by
  induction q with
  | nil => intro acc p; simp [parseLoop]
  | cons c t ih => intro acc p; rw [parseLoop, ih]; simp

/-- Text of an optional query. -/
def qText (q : Option Str) : Str := q.elim [] ('?' :: ·)

theorem loop_path (b : Str) (hb : '?' ∉ b) (q : Option Str) : ∀ acc p, p.query = none →
    parseLoop .path acc p (b ++ qText q) = { p with absPath := some (acc ++ b), query := q } := by
  induction b with
  | nil =>
    intro acc p hp
    cases q with
    | none =>
      show parseLoop .path acc p [] = _
      simp [parseLoop, ← hp]
    | some q =>
      show parseLoop .path acc p ('?' :: q) = _
      rw [parseLoop, if_pos (by decide), loop_query]; simp
  | cons c t ih =>
    intro acc p hp
    simp only [List.mem_cons, not_or] at hb
    show parseLoop .path acc p (c :: (t ++ qText q)) = _
    rw [parseLoop, if_neg (by rw [isQuery]; exact fun h => hb.1 h.symm), ih hb.2 _ _ hp]; simp

theorem loop_rel (b : Str) (hb : '?' ∉ b) (q : Option Str) : ∀ acc p, p.query = none →
    parseLoop .rel acc p (b ++ qText q) = { p with relPath := some (acc ++ b), query := q } := by
  induction b with
  | nil =>
    intro acc p hp
    cases q with
    | none =>
      show parseLoop .rel acc p [] = _
      simp [parseLoop, ← hp]
    | some q =>
      show parseLoop .rel acc p ('?' :: q) = _
      rw [parseLoop, if_pos (by decide), loop_query]; simp
  | cons c t ih =>
    intro acc p hp
    simp only [List.mem_cons, not_or] at hb
    show parseLoop .rel acc p (c :: (t ++ qText q)) = _
    rw [parseLoop, if_neg (by rw [isQuery]; exact fun h => hb.1 h.symm), ih hb.2 _ _ hp]; simp

/-- After two slashes: an authority, then an absolute path or nothing, then an optional query. -/
theorem loop_auth (a : Str) (ha : '/' ∉ a ∧ '?' ∉ a) (p : Option Str) (hp : ∀ x, p = some x → x.head? = some '/' ∧ '?' ∉ x)
    (q : Option Str) : ∀ acc, parseLoop .auth acc {} (a ++ p.getD [] ++ qText q) =
      { authority := some (acc ++ a), absPath := p, query := q } := by
  induction a with
  | nil =>
    intro acc
    cases p with
    | none =>
      cases q with
      | none => simp [qText, parseLoop]
      | some q =>
        show parseLoop .auth acc {} ('?' :: q) = _
        rw [parseLoop, if_neg (by decide), if_pos (by decide), loop_query]; simp
    | some x =>
      obtain ⟨h1, h2⟩ := hp x rfl
      match x, h1 with
      | c :: t, h1 =>
        simp only [List.head?_cons, Option.some.injEq] at h1
        subst h1
        simp only [List.mem_cons, not_or] at h2
        show parseLoop .auth acc {} ('/' :: (t ++ qText q)) = _
        rw [parseLoop, if_pos (by decide), loop_path t h2.2 q _ _ rfl]; simp
  | cons c t ih =>
    intro acc
    simp only [List.mem_cons, not_or] at ha
    show parseLoop .auth acc {} (c :: (t ++ p.getD [] ++ qText q)) = _
    rw [parseLoop, if_neg (by rw [isSlash]; exact fun h => ha.1.1 h.symm),
      if_neg (by rw [isQuery]; exact fun h => ha.2.1 h.symm), ih ⟨ha.1.2, ha.2.2⟩]; simp

/-- After one slash without a second one. -/
theorem loop_slash (x : Str) (h1 : x.head? = some '/') (h2 : '?' ∉ x) (h3 : ∀ t, x ≠ '/' :: '/' :: t) (q : Option Str) :
    parseLoop .slash ['/'] {} (x.tail ++ qText q) = { absPath := some x, query := q } := by
  match x, h1 with
  | c :: t, h1 =>
    simp only [List.head?_cons, Option.some.injEq] at h1
    subst h1
    simp only [List.mem_cons, not_or] at h2
    show parseLoop .slash ['/'] {} (t ++ qText q) = _
    match t, h2.2, h3 with
    | [], _, _ =>
      cases q with
      | none => rfl
      | some q =>
        show parseLoop .slash ['/'] {} ('?' :: q) = _
        rw [parseLoop, if_neg (by decide), if_pos (by decide), loop_query]; simp
    | d :: t, h2, h3 =>
      simp only [List.mem_cons, not_or] at h2
      have hd : d ≠ '/' := fun h => h3 t (by rw [h])
      show parseLoop .slash ['/'] {} (d :: (t ++ qText q)) = _
      rw [parseLoop, if_neg (by rw [isSlash]; exact hd), if_neg (by rw [isQuery]; exact fun h => h2.1 h.symm),
        loop_path t h2.2 q _ _ rfl]; simp

end Verif.Uri
