import Verif.Model.PyXml
import Verif.Spec.PyXml
import Verif.Props.Names

/-!
# Every plain well-formed document is read

The XML parser reads every well-formed document without a document type declaration, whose names are of the basic
multilingual plane and whose processing instructions have no doubled question marks, and builds the reported tree.
-/

namespace Verif.Props

open Verif Verif.Names Verif.Spec
open Verif.PyXml (isS isChar lit need span parseS parseName needName quote closeQuote isDec isHex digitVal number refChar
  charRef predefined entityRef reference pre attLoop attSpec stagLoop stag etag charData comment piData parsePI
  cdata addData preData preElem element content misc versionInfo isEncStart isEncChar encodingDecl sdDecl xmlDecl decl
  document entity eol bad markup)

namespace PX

/-- What a processor reports for a child. -/
def flat : PyXml.Node → List Spec.Node
  | .text s => s.map .chr
  | .elem n as ks => [.elem n as (flatAll ks)]
where
  /-- What a processor reports for some children. -/
  flatAll : List PyXml.Node → List Spec.Node
    | [] => []
    | k :: r => flat k ++ flatAll r

open flat (flatAll)

/-! ## Characters -/

theorem isS_iff (c : Char) : isS c = true ↔ SChar c := by
  simp [isS, SChar, ← Char.toNat_inj]
  omega

theorem isDec_iff (c : Char) : isDec c = true ↔ DecDigit c := by
  simp [isDec, DecDigit, Char.le_def, UInt32.le_iff_toNat_le]

theorem le_iff (c d : Char) : (c ≤ d) ↔ c.toNat ≤ d.toNat := by
  rw [Char.le_def, UInt32.le_iff_toNat_le]; rfl

theorem hexDigit_val {c : Char} {v : Nat} (h : HexDigit c v) : isHex c = true ∧ digitVal c = v := by
  cases h with
  | dec a b =>
    have hd : isDec c = true := (isDec_iff c).2 ⟨a, b⟩
    simp [isHex, digitVal, hd]
  | lower a b =>
    have hd : isDec c = false := by
      cases hh : isDec c with
      | false => rfl
      | true => have := (isDec_iff c).1 hh; unfold DecDigit at this; omega
    have h1 : 'a' ≤ c := (le_iff _ _).2 a
    have h2 : c ≤ 'f' := (le_iff _ _).2 b
    simp [isHex, digitVal, hd, h1, h2]
    omega
  | upper a b =>
    have hd : isDec c = false := by
      cases hh : isDec c with
      | false => rfl
      | true => have := (isDec_iff c).1 hh; unfold DecDigit at this; omega
    have h1 : 'A' ≤ c := (le_iff _ _).2 a
    have h2 : c ≤ 'F' := (le_iff _ _).2 b
    have h3 : ¬ 'a' ≤ c := fun h => by
      have := (le_iff _ _).1 h
      have e : ('a' : Char).toNat = 97 := rfl
      omega
    simp [isHex, digitVal, hd, h1, h2, h3]
    omega

theorem isHex_digit {c : Char} (h : isHex c = true) : HexDigit c (digitVal c) := by
  cases hd : isDec c with
  | true =>
    have := (isDec_iff c).1 hd
    have e : digitVal c = c.toNat - 48 := by simp [digitVal, hd]
    rw [e]
    exact .dec c this.1 this.2
  | false =>
    simp [isHex, hd] at h
    rcases h with ⟨a, b⟩ | ⟨a, b⟩
    · have a' := (le_iff _ _).1 a
      have b' := (le_iff _ _).1 b
      have e : digitVal c = c.toNat - 97 + 10 := by
        have : (97 : Nat) ≤ c.toNat := a'
        simp [digitVal, hd, a]
        omega
      rw [e]
      exact .lower c a' b'
    · have a' := (le_iff _ _).1 a
      have b' := (le_iff _ _).1 b
      have h3 : ¬ 'a' ≤ c := fun h => by
        have := (le_iff _ _).1 h
        have e : ('a' : Char).toNat = 97 := rfl
        have e' : ('F' : Char).toNat = 70 := rfl
        omega
      have e : digitVal c = c.toNat - 65 + 10 := by
        have : (65 : Nat) ≤ c.toNat := a'
        simp [digitVal, hd, h3]
        omega
      rw [e]
      exact .upper c a' b'

theorem toNat_le (c : Char) : c.toNat ≤ 0x10FFFF := by
  have := c.valid
  unfold UInt32.isValidChar Nat.isValidChar at this
  have e : c.val.toNat = c.toNat := rfl
  omega

theorem isChar_iff (c : Char) : isChar c.toNat = true ↔ XmlChar c := by
  have := toNat_le c
  simp [isChar, XmlChar]
  omega

/-! ## Tokens -/

/-- The text does not go on with a character that passes the test. -/
def Stops (p : Char → Bool) (s : Str) : Prop := ∀ c t, s = c :: t → p c = false

theorem span_app (p : Char → Bool) (a b : Str) (ha : ∀ c ∈ a, p c = true) (hb : Stops p b) : span p (a ++ b) = (a, b) := by
  induction a with
  | nil =>
    cases b with
    | nil => rfl
    | cons c t => simp [span, hb c t rfl]
  | cons c t ih =>
    have := ih (fun d hd => ha d (List.mem_cons_of_mem _ hd))
    have hc := ha c List.mem_cons_self
    simp [span, hc, this]

theorem lit_app (m s : Str) : lit m (m ++ s) = some s := by
  induction m with
  | nil => rfl
  | cons c t ih => simp [lit, ih]

theorem lit_some {m s r : Str} (h : lit m s = some r) : s = m ++ r := by
  induction m generalizing s with
  | nil => simp [lit] at h; simp [h]
  | cons c t ih =>
    cases s with
    | nil => simp [lit] at h
    | cons d u =>
      rw [lit] at h
      split at h
      · rename_i e
        subst e
        simp [ih h]
      · simp at h

theorem lit_none {m s : Str} (h : ¬ m <+: s) : lit m s = none := by
  cases e : lit m s with
  | none => rfl
  | some r => exact absurd ⟨r, (lit_some e).symm⟩ h

theorem need_app (m s : Str) : need m (m ++ s) = .ok s := by simp [need, lit_app]

theorem need_ok {m s r : Str} (h : need m s = .ok r) : s = m ++ r := by
  unfold need at h
  split at h
  · rename_i r' e
    simp at h
    subst h
    exact lit_some e
  · simp [bad] at h

theorem parseS_app (w s : Str) (hw : OptS w) (hs : Stops isS s) : parseS (w ++ s) = (w, s) :=
  span_app _ _ _ (fun c hc => (isS_iff c).2 (hw c hc)) hs

theorem stops_of (p : Char → Bool) (c : Char) (t : Str) (h : p c = false) : Stops p (c :: t) := by
  intro d u e
  injection e with e1 e2
  subst e1
  exact h

theorem bmp_start {n : Str} (h : BmpName n) : ∃ c t, n = c :: t ∧ isNameStartChar c = true ∧ ∀ d ∈ t, isNameChar d = true := by
  obtain ⟨⟨c, t, rfl, h1, h2⟩, hb⟩ := h
  exact ⟨c, t, rfl, (name_start_test_partial c (hb c List.mem_cons_self)).2 h1,
    fun d hd => (name_char_test_partial d (hb d (List.mem_cons_of_mem _ hd))).2 (h2 d hd)⟩

theorem parseName_app (n s : Str) (hn : BmpName n) (hs : Stops isNameChar s) : parseName (n ++ s) = some (n, s) := by
  obtain ⟨c, t, rfl, h1, h2⟩ := bmp_start hn
  show (if isNameStartChar c then some (c :: (span isNameChar (t ++ s)).1, (span isNameChar (t ++ s)).2) else none) = _
  rw [if_pos h1, span_app _ _ _ h2 hs]

theorem needName_app (n s : Str) (hn : BmpName n) (hs : Stops isNameChar s) : needName (n ++ s) = .ok (n, s) := by
  simp [needName, parseName_app n s hn hs]

theorem isS_notName (c : Char) (h : isS c = true) : isNameChar c = false := by
  rcases (isS_iff c).1 h with rfl | rfl | rfl | rfl <;> decide +kernel

theorem start_notS {c : Char} (h : isNameStartChar c = true) : isS c = false := by
  cases e : isS c with
  | false => rfl
  | true =>
    have := isS_notName c e
    rw [name_start_is_name c h] at this
    simp at this

theorem bmp_stopsS {n s : Str} (h : BmpName n) : Stops isS (n ++ s) := by
  obtain ⟨c, t, rfl, h1, _⟩ := bmp_start h
  exact stops_of _ _ _ (start_notS h1)

/-- White space or nothing, then a text where names end: names end there. -/
theorem stopsName_space {w s : Str} (hw : OptS w) (hs : Stops isNameChar s) : Stops isNameChar (w ++ s) := by
  cases w with
  | nil => exact hs
  | cons c t => exact stops_of _ _ _ (isS_notName c ((isS_iff c).2 (hw c List.mem_cons_self)))

theorem eq_app (w w' s : Str) (hw : OptS w) (hw' : OptS w') (hs : Stops isS s) :
    PyXml.eq (w ++ '=' :: w' ++ s) = .ok s := by
  have h1 : parseS (w ++ ('=' :: (w' ++ s))) = (w, '=' :: (w' ++ s)) :=
    parseS_app _ _ hw (stops_of _ _ _ (by decide +kernel))
  have e : w ++ '=' :: w' ++ s = w ++ ('=' :: (w' ++ s)) := by simp
  have h2 : need ['='] ('=' :: (w' ++ s)) = .ok (w' ++ s) := need_app ['='] _
  rw [e, PyXml.eq, h1]
  simp only [h2, parseS_app _ _ hw' hs]

/-! ## References -/

theorem dec_val {d : Char} (h : DecDigit d) : digitVal d = d.toNat - 48 := by
  simp [digitVal, (isDec_iff d).2 h]

theorem number_dec (ds : Str) (n : Nat) (h : ∀ d ∈ ds, DecDigit d) :
    ds.foldl (fun n d => 10 * n + digitVal d) n = ds.foldl (fun n d => 10 * n + (d.toNat - 48)) n := by
  induction ds generalizing n with
  | nil => rfl
  | cons d t ih =>
    simp only [List.foldl_cons, dec_val (h d List.mem_cons_self)]
    exact ih _ (fun x hx => h x (List.mem_cons_of_mem _ hx))

theorem number_hex {ds : Str} {n : Nat} (h : HexNumber ds n) : number 16 ds = n ∧ ds ≠ [] ∧ ∀ d ∈ ds, isHex d = true := by
  induction h with
  | @one c v h =>
    obtain ⟨h1, h2⟩ := hexDigit_val h
    refine ⟨by simp [number, h2], by simp, fun d hd => ?_⟩
    simp at hd
    subst hd
    exact h1
  | @more c ds n v _ h ih =>
    obtain ⟨h1, h2⟩ := hexDigit_val h
    obtain ⟨i1, i2, i3⟩ := ih
    unfold number at i1
    refine ⟨by simp [number, List.foldl_append, i1, h2], by simp, fun d hd => ?_⟩
    rcases List.mem_append.1 hd with hd | hd
    · exact i3 d hd
    · simp at hd
      subst hd
      exact h1

theorem refChar_ok (c : Char) (s : Str) (hc : XmlChar c) : refChar c.toNat (';' :: s) = .ok (c, s) := by
  have h := toNat_le c
  have h2 : need [';'] (';' :: s) = .ok s := need_app [';'] s
  rw [refChar, if_neg (by omega), h2]
  simp [(isChar_iff c).2 hc, Char.ofNat_toNat]

theorem semi_notName : isNameChar ';' = false := by decide +kernel

theorem reference_app {r : Str} {c : Char} (h : XRef r c) (s : Str) : reference (r ++ ';' :: s) = .ok (c, s) := by
  have key : ∀ n : Str, BmpName n → (∀ t, n ++ ';' :: s ≠ '#' :: t) → predefined n = some c →
      reference (n ++ ';' :: s) = .ok (c, s) := by
    intro n hn hh hp
    have e : reference (n ++ ';' :: s) = entityRef (n ++ ';' :: s) := by
      unfold reference
      split
      · rename_i t e
        exact absurd e (hh t)
      · rfl
    have h2 : need [';'] (';' :: s) = .ok s := need_app [';'] s
    rw [e, entityRef, needName_app n _ hn (stops_of _ _ _ semi_notName)]
    simp only [h2, hp]
  have bmp : ∀ n : Str, (∃ c t, n = c :: t ∧ (97 ≤ c.toNat ∧ c.toNat ≤ 122) ∧ ∀ d ∈ t, 97 ≤ d.toNat ∧ d.toNat ≤ 122) →
      BmpName n := by
    rintro n ⟨c, t, rfl, hc, ht⟩
    refine ⟨⟨c, t, rfl, ?_, fun d hd => ?_⟩, fun d hd => ?_⟩
    · simp only [XmlNameStart]; omega
    · have := ht d hd
      simp only [XmlNameChar, XmlNameStart]
      omega
    · rcases List.mem_cons.1 hd with rfl | hd
      · omega
      · have := ht d hd
        omega
  cases h with
  | pre h =>
    cases h with
    | amp => exact key _ (bmp _ ⟨_, _, rfl, by decide, by decide⟩) (by intro t h; injection h with h; exact absurd h (by decide)) rfl
    | lt => exact key _ (bmp _ ⟨_, _, rfl, by decide, by decide⟩) (by intro t h; injection h with h; exact absurd h (by decide)) rfl
    | gt => exact key _ (bmp _ ⟨_, _, rfl, by decide, by decide⟩) (by intro t h; injection h with h; exact absurd h (by decide)) rfl
    | quot => exact key _ (bmp _ ⟨_, _, rfl, by decide, by decide⟩) (by intro t h; injection h with h; exact absurd h (by decide)) rfl
    | apos => exact key _ (bmp _ ⟨_, _, rfl, by decide, by decide⟩) (by intro t h; injection h with h; exact absurd h (by decide)) rfl
    | num ds c hne hd hv hc =>
      show charRef (ds ++ ';' :: s) = _
      have hx : lit ['x'] (ds ++ ';' :: s) = none := by
        cases ds with
        | nil => exact absurd rfl hne
        | cons d t =>
          apply lit_none
          rintro ⟨r, e⟩
          simp at e
          have := hd d List.mem_cons_self
          rw [← e.1] at this
          exact absurd this (by decide)
      have hs : span isDec (ds ++ ';' :: s) = (ds, ';' :: s) :=
        span_app _ _ _ (fun d h => (isDec_iff d).2 (hd d h)) (stops_of _ _ _ (by decide +kernel))
      have hn : number 10 ds = c.toNat := by
        rw [← hv]
        exact number_dec ds 0 hd
      rw [charRef, hx]
      simp only [hs, if_neg hne, hn]
      exact refChar_ok c s hc
  | hex hv hc =>
    rename_i ds
    obtain ⟨hn, hne, hd⟩ := number_hex hv
    show charRef ('x' :: (ds ++ ';' :: s)) = _
    have hx : lit ['x'] ('x' :: (ds ++ ';' :: s)) = some (ds ++ ';' :: s) := lit_app ['x'] _
    have hs : span isHex (ds ++ ';' :: s) = (ds, ';' :: s) :=
      span_app _ _ _ hd (stops_of _ _ _ (by decide +kernel))
    rw [charRef, hx]
    simp only [hs, if_neg hne, hn]
    exact refChar_ok c s hc

/-! ## Tags -/

theorem attVal_app {q : Char} {s v : Str} (h : XAttVal q s v) (hq : Quote q) (r : Str) :
    ∃ n, ∀ m, n ≤ m → attLoop q m (s ++ q :: r) = some (.ok (v, r)) := by
  induction h with
  | nil =>
    refine ⟨1, fun m hm => ?_⟩
    obtain ⟨k, rfl⟩ : ∃ k, m = k + 1 := ⟨m - 1, by omega⟩
    simp [attLoop]
  | chr c hc h1 h2 h3 h4 _ ih =>
    obtain ⟨n, ih⟩ := ih
    refine ⟨n + 1, fun m hm => ?_⟩
    obtain ⟨k, rfl⟩ : ∃ k, m = k + 1 := ⟨m - 1, by omega⟩
    have h5 : ¬ isS c = true := fun h => h4 ((isS_iff c).1 h)
    rw [List.cons_append, attLoop, if_neg h3, if_neg h2, if_neg h5, if_neg h1, ih k (by omega)]
    rfl
  | space c hc _ ih =>
    obtain ⟨n, ih⟩ := ih
    refine ⟨n + 1, fun m hm => ?_⟩
    obtain ⟨k, rfl⟩ : ∃ k, m = k + 1 := ⟨m - 1, by omega⟩
    have h1 : c ≠ q := by
      rintro rfl
      rcases hq with rfl | rfl <;> rcases hc with h | h | h | h <;> exact absurd h (by decide)
    have h2 : c ≠ '&' := by
      rintro rfl
      rcases hc with h | h | h | h <;> exact absurd h (by decide)
    rw [List.cons_append, attLoop, if_neg h1, if_neg h2, if_pos ((isS_iff c).2 hc), ih k (by omega)]
    rfl
  | @ref rr c s v hr _ ih =>
    obtain ⟨n, ih⟩ := ih
    refine ⟨n + 1, fun m hm => ?_⟩
    obtain ⟨k, rfl⟩ : ∃ k, m = k + 1 := ⟨m - 1, by omega⟩
    have h1 : '&' ≠ q := by
      rintro rfl
      rcases hq with h | h <;> exact absurd h (by decide)
    have e : '&' :: rr ++ ';' :: s ++ q :: r = '&' :: (rr ++ ';' :: (s ++ q :: r)) := by simp
    rw [e, attLoop, if_neg h1, if_pos rfl, reference_app hr]
    simp only [ih k (by omega)]
    rfl

theorem quote_notS {q : Char} (h : Quote q) : isS q = false := by
  rcases h with rfl | rfl <;> decide +kernel

theorem att_app {n w1 w2 v val : Str} {q : Char} (hn : BmpName n) (hw1 : OptS w1) (hw2 : OptS w2) (hq : Quote q)
    (hv : XAttVal q v val) (r : Str) :
    ∃ k, ∀ m, k ≤ m → attSpec m (n ++ w1 ++ '=' :: w2 ++ q :: v ++ q :: r) = some (.ok (n, val, r)) := by
  obtain ⟨k, hk⟩ := attVal_app hv hq r
  refine ⟨k, fun m hm => ?_⟩
  have e : n ++ w1 ++ '=' :: w2 ++ q :: v ++ q :: r = n ++ (w1 ++ '=' :: w2 ++ (q :: (v ++ q :: r))) := by simp
  have h1 : needName (n ++ (w1 ++ '=' :: w2 ++ (q :: (v ++ q :: r)))) = .ok (n, w1 ++ '=' :: w2 ++ (q :: (v ++ q :: r))) :=
    needName_app _ _ hn (by
      rw [List.append_assoc]
      exact stopsName_space hw1 (stops_of _ _ _ (by decide +kernel)))
  have h2 := eq_app w1 w2 (q :: (v ++ q :: r)) hw1 hw2 (stops_of _ _ _ (quote_notS hq))
  have h3 : quote (q :: (v ++ q :: r)) = .ok (q, v ++ q :: r) := by
    unfold Quote at hq
    rw [quote, if_pos hq]
  rw [e, attSpec, h1]
  simp only [h2, h3, hk m hm]

/-- The end of a start tag. -/
def tagEnd (empty : Bool) : Str := if empty then ['/', '>'] else ['>']

theorem stagLoop_end (n : Nat) (as : List (Str × Str)) (w r : Str) (b : Bool) (hw : OptS w) :
    stagLoop (n + 1) as (w ++ tagEnd b ++ r) = some (.ok (as, b, r)) := by
  have hp : parseS (w ++ (tagEnd b ++ r)) = (w, tagEnd b ++ r) := by
    apply parseS_app _ _ hw
    cases b
    · exact stops_of _ _ _ (by decide +kernel)
    · exact stops_of _ _ _ (by decide +kernel)
  rw [List.append_assoc, stagLoop, hp]
  cases b with
  | false => rfl
  | true =>
    have h : need ['>'] ('>' :: r) = .ok r := need_app ['>'] r
    simp only [tagEnd, if_true, List.cons_append, List.nil_append, h]

theorem start_not (c : Char) (h : isNameStartChar c = true) : c ≠ '>' ∧ c ≠ '/' ∧ c ≠ '!' ∧ c ≠ '?' := by
  refine ⟨?_, ?_, ?_, ?_⟩ <;> rintro rfl <;> exact absurd h (by decide +kernel)

theorem attrs_app {a : Str} {as : List (Str × Str)} (h : XAttrs BmpName a as) (acc : List (Str × Str)) (w r : Str)
    (b : Bool) (hw : OptS w) (hd : ((acc ++ as).map Prod.fst).Nodup) :
    ∃ n, ∀ m, n ≤ m → stagLoop m acc (a ++ w ++ tagEnd b ++ r) = some (.ok (acc ++ as, b, r)) := by
  induction h generalizing acc with
  | nil =>
    refine ⟨1, fun m hm => ?_⟩
    obtain ⟨k, rfl⟩ : ∃ k, m = k + 1 := ⟨m - 1, by omega⟩
    have := stagLoop_end k acc w r b hw
    simpa using this
  | @cons u n w1 w2 v val s q as hu hn hw1 hw2 hq hv _ ih =>
    have hd' : ((acc ++ [(n, val)] ++ as).map Prod.fst).Nodup := by simpa using hd
    obtain ⟨k1, h1⟩ := att_app hn hw1 hw2 hq hv (s ++ w ++ tagEnd b ++ r)
    obtain ⟨k2, h2⟩ := ih (acc ++ [(n, val)]) hd'
    refine ⟨k1 + k2 + 1, fun m hm => ?_⟩
    obtain ⟨k, rfl⟩ : ∃ k, m = k + 1 := ⟨m - 1, by omega⟩
    have hp : parseS (u ++ (n ++ w1 ++ '=' :: w2 ++ q :: v ++ q :: (s ++ w ++ tagEnd b ++ r))) =
        (u, n ++ w1 ++ '=' :: w2 ++ q :: v ++ q :: (s ++ w ++ tagEnd b ++ r)) := by
      apply parseS_app _ _ hu.2
      simp only [List.append_assoc]
      exact bmp_stopsS hn
    have e : u ++ n ++ w1 ++ '=' :: w2 ++ q :: v ++ q :: s ++ w ++ tagEnd b ++ r =
        u ++ (n ++ w1 ++ '=' :: w2 ++ q :: v ++ q :: (s ++ w ++ tagEnd b ++ r)) := by simp
    have hnot : acc.any (fun a => a.1 = n) = false := by
      rw [List.any_eq_false]
      intro x hx hxe
      simp at hxe
      rw [List.map_append, List.nodup_append] at hd
      exact hd.2.2 x.1 (List.mem_map_of_mem hx) n (by simp) hxe
    obtain ⟨c, t, rfl, hc, _⟩ := bmp_start hn
    have hcn := start_not c hc
    rw [e, stagLoop, hp]
    show (match c :: t ++ w1 ++ '=' :: w2 ++ q :: v ++ q :: (s ++ w ++ tagEnd b ++ r) with
      | '>' :: t => _
      | '/' :: t => _
      | r => _) = _
    split
    · rename_i x ex
      simp at ex
      exact absurd ex.1 hcn.1
    · rename_i x ex
      simp at ex
      exact absurd ex.1 hcn.2.1
    · rw [if_neg hu.1, h1 k (by omega)]
      simp only [hnot]
      have := h2 k (by omega)
      simpa using this

theorem attrs_head {a : Str} {as : List (Str × Str)} (h : XAttrs BmpName a as) {s : Str} (hs : Stops isNameChar s) :
    Stops isNameChar (a ++ s) := by
  cases h with
  | nil => exact hs
  | @cons u n w1 w2 v val s' q as' hu _ _ _ _ _ _ =>
    obtain ⟨hne, hall⟩ := hu
    cases u with
    | nil => exact absurd rfl hne
    | cons c t => exact stops_of _ _ _ (isS_notName c ((isS_iff c).2 (hall c List.mem_cons_self)))

theorem tagEnd_notName (b : Bool) (r : Str) : Stops isNameChar (tagEnd b ++ r) := by
  cases b <;> exact stops_of _ _ _ (by decide +kernel)

theorem stag_app {n a w : Str} {as : List (Str × Str)} (hn : BmpName n) (ha : XAttrs BmpName a as)
    (hd : (as.map Prod.fst).Nodup) (hw : OptS w) (b : Bool) (r : Str) :
    ∃ k, ∀ m, k ≤ m → stag m ('<' :: n ++ a ++ w ++ tagEnd b ++ r) = some (.ok (n, as, b, r)) := by
  obtain ⟨k, hk⟩ := attrs_app ha [] w r b hw (by simpa using hd)
  refine ⟨k, fun m hm => ?_⟩
  have e : '<' :: n ++ a ++ w ++ tagEnd b ++ r = '<' :: (n ++ (a ++ w ++ tagEnd b ++ r)) := by simp
  have h1 : need ['<'] ('<' :: (n ++ (a ++ w ++ tagEnd b ++ r))) = .ok (n ++ (a ++ w ++ tagEnd b ++ r)) := need_app ['<'] _
  have h2 : needName (n ++ (a ++ w ++ tagEnd b ++ r)) = .ok (n, a ++ w ++ tagEnd b ++ r) := by
    apply needName_app _ _ hn
    rw [List.append_assoc, List.append_assoc]
    exact attrs_head ha (stopsName_space hw (tagEnd_notName b r))
  have := hk m hm
  rw [e, stag, h1]
  simp only [h2, this, List.nil_append]

theorem etag_app {n w : Str} (hn : BmpName n) (hw : OptS w) (r : Str) :
    etag ('<' :: '/' :: n ++ w ++ '>' :: r) = .ok (n, r) := by
  have e : '<' :: '/' :: n ++ w ++ '>' :: r = '<' :: '/' :: (n ++ (w ++ '>' :: r)) := by simp
  have h1 : need ['<', '/'] ('<' :: '/' :: (n ++ (w ++ '>' :: r))) = .ok (n ++ (w ++ '>' :: r)) := need_app ['<', '/'] _
  have h2 : needName (n ++ (w ++ '>' :: r)) = .ok (n, w ++ '>' :: r) :=
    needName_app _ _ hn (stopsName_space hw (stops_of _ _ _ (by decide +kernel)))
  have h3 : parseS (w ++ '>' :: r) = (w, '>' :: r) := parseS_app _ _ hw (stops_of _ _ _ (by decide +kernel))
  have h4 : need ['>'] ('>' :: r) = .ok r := need_app ['>'] _
  rw [e, etag, h1]
  simp only [h2, h3, h4]

/-! ## Comments, processing instructions and CDATA sections -/

theorem comment_step (k : Nat) (hk : k ≤ 1) (d s : Str) (h : ¬ Occurs ['-', '-'] (List.replicate k '-' ++ d ++ ['-'])) :
    comment k (d ++ '-' :: '-' :: '>' :: s) = .ok s := by
  induction d generalizing k with
  | nil =>
    have : k = 0 := by
      rcases Nat.eq_or_lt_of_le hk with rfl | h1
      · exact absurd ⟨[], [], by simp⟩ h
      · omega
    subst this
    simp [comment]
  | cons c t ih =>
    by_cases hc : c = '-'
    · subst hc
      have : k = 0 := by
        rcases Nat.eq_or_lt_of_le hk with rfl | h1
        · exact absurd ⟨[], t ++ ['-'], by simp⟩ h
        · omega
      subst this
      rw [List.cons_append, comment, if_pos rfl, if_neg (by omega)]
      exact ih 1 (by omega) (by simpa using h)
    · have h0 : ¬ Occurs ['-', '-'] (List.replicate 0 '-' ++ t ++ ['-']) := by
        intro ho
        apply h
        refine ho.trans ⟨List.replicate k '-' ++ [c], [], by simp⟩
      have := ih 0 (by omega) h0
      rw [List.cons_append, comment, if_neg hc]
      split
      · rw [if_neg (by omega)]; exact this
      · split
        · rw [if_pos (by omega)]; exact this
        · rw [if_neg (by omega)]; exact this

theorem comment_app {d : Str} (h : XComment d) (s : Str) : comment 0 (d ++ "-->".toList ++ s) = .ok s := by
  have := comment_step 0 (by omega) d s (by simpa using h.2)
  simpa using this

theorem piData_app : (t s : Str) → ¬ Occurs ['?', '>'] t → ¬ Occurs ['?', '?'] (t ++ ['?']) →
    piData (t ++ '?' :: '>' :: s) = .ok s
  | [], s, _, _ => by simp [piData]
  | [c], s, h1, h2 => by
    have hc : c ≠ '?' := by
      rintro rfl
      exact h2 ⟨[], [], rfl⟩
    show piData (c :: '?' :: '>' :: s) = _
    rw [piData.eq_def]
    split
    · rename_i e; simp at e
    · rename_i t e
      exact absurd (List.cons.inj e).1 hc
    · rename_i e
      exact absurd (List.cons.inj e).1 hc
    · rename_i e
      exact absurd (List.cons.inj e).1 hc
    · rename_i e
      obtain ⟨_, rfl⟩ := List.cons.inj e
      simp [piData]
  | c :: x :: t, s, h1, h2 => by
    have m1 : ¬ Occurs ['?', '>'] (x :: t) := fun h => h1 (h.trans ⟨[c], [], by simp⟩)
    have m2 : ¬ Occurs ['?', '?'] (x :: t ++ ['?']) := fun h => h2 (h.trans ⟨[c], [], by simp⟩)
    have n1 : ¬ Occurs ['?', '>'] t := fun h => m1 (h.trans ⟨[x], [], by simp⟩)
    have n2 : ¬ Occurs ['?', '?'] (t ++ ['?']) := fun h => m2 (h.trans ⟨[x], [], by simp⟩)
    show piData (c :: x :: (t ++ '?' :: '>' :: s)) = _
    rw [piData.eq_def]
    split
    · rename_i e; simp at e
    · rename_i e
      simp at e
      obtain ⟨rfl, rfl, _⟩ := e
      exact absurd ⟨[], t, rfl⟩ h1
    · rename_i e
      simp at e
    · rename_i e
      simp at e
      obtain ⟨_, _, rfl⟩ := e
      exact piData_app t s n1 n2
    · rename_i e
      obtain ⟨_, rfl⟩ := List.cons.inj e
      exact piData_app (x :: t) s m1 m2

theorem splitS (t : Str) : ∃ w u, t = w ++ u ∧ OptS w ∧ Stops isS u := by
  induction t with
  | nil => exact ⟨[], [], rfl, by intro c h; simp at h, by intro c t h; simp at h⟩
  | cons c t ih =>
    by_cases hc : isS c = true
    · obtain ⟨w, u, rfl, h1, h2⟩ := ih
      refine ⟨c :: w, u, rfl, fun d hd => ?_, h2⟩
      rcases List.mem_cons.1 hd with rfl | hd
      · exact (isS_iff _).1 hc
      · exact h1 d hd
    · exact ⟨[], c :: t, rfl, by intro c h; simp at h, stops_of _ _ _ (by simpa using hc)⟩

theorem parsePI_app {d : Str} (h : XPI BmpName PlainPI d) (s : Str) : parsePI (d ++ "?>".toList ++ s) = .ok s := by
  obtain ⟨t, d, rfl, hn, hx, ⟨hp, hq⟩⟩ := h
  show parsePI (t ++ d ++ ['?', '>'] ++ s) = _
  rcases hp with rfl | ⟨w, u, rfl, hw, hu, ho⟩
  · have e : t ++ [] ++ ['?', '>'] ++ s = t ++ ('?' :: '>' :: s) := by simp
    have h1 := parseName_app t ('?' :: '>' :: s) hn (stops_of _ _ _ (by decide +kernel))
    have h2 : parseS ('?' :: '>' :: s) = ([], '?' :: '>' :: s) :=
      parseS_app [] _ (by intro c h; simp at h) (stops_of _ _ _ (by decide +kernel))
    rw [e, parsePI, h1]
    simp only [if_neg hx, h2, if_true]
    exact need_app ['?', '>'] s
  · obtain ⟨w', u', rfl, hw', hu'⟩ := splitS u
    have e : t ++ (w ++ (w' ++ u')) ++ ['?', '>'] ++ s = t ++ ((w ++ w') ++ (u' ++ '?' :: '>' :: s)) := by simp
    have hww : OptS (w ++ w') := by
      intro c hc
      rcases List.mem_append.1 hc with h | h
      · exact hw.2 c h
      · exact hw' c h
    have hne : w ++ w' ≠ [] := by
      intro h
      exact hw.1 (List.append_eq_nil_iff.1 h).1
    have hst : Stops isS (u' ++ '?' :: '>' :: s) := by
      cases u' with
      | nil => exact stops_of _ _ _ (by decide +kernel)
      | cons c x => exact stops_of _ _ _ (hu' c x rfl)
    have hnm : Stops isNameChar ((w ++ w') ++ (u' ++ '?' :: '>' :: s)) := by
      cases hww' : w ++ w' with
      | nil => exact absurd hww' hne
      | cons c x => exact stops_of _ _ _ (isS_notName c ((isS_iff c).2 (hww c (by simp [hww']))))
    have h1 := parseName_app t _ hn hnm
    have h2 := parseS_app _ _ hww hst
    rw [e, parsePI, h1]
    simp only [if_neg hx, h2, if_neg hne]
    apply piData_app
    · intro h
      exact ho (h.trans ⟨w', [], by simp⟩)
    · intro h
      exact hq (h.trans ⟨w ++ w', [], by simp⟩)

theorem cdata_app (d s : Str) (h : ¬ Occurs [']', ']', '>'] (d ++ [']', ']'])) :
    cdata (d ++ "]]>".toList ++ s) = (d, "]]>".toList ++ s) := by
  show cdata (d ++ [']', ']', '>'] ++ s) = (d, [']', ']', '>'] ++ s)
  induction d with
  | nil => simp [cdata, lit]
  | cons c t ih =>
    have hn : lit [']', ']', '>'] (c :: (t ++ [']', ']', '>'] ++ s)) = none := by
      apply lit_none
      rintro ⟨r, e⟩
      apply h
      cases t with
      | nil => simp at e
      | cons x u =>
        cases u with
        | nil =>
          simp at e
        | cons y v =>
          simp at e
          obtain ⟨rfl, rfl, rfl, _⟩ := e
          exact ⟨[], v ++ [']', ']'], by simp⟩
    have ih := ih (fun ho => h (ho.trans ⟨[c], [], by simp⟩))
    show cdata (c :: (t ++ [']', ']', '>'] ++ s)) = _
    rw [cdata, hn, ih]
    simp

/-! ## Content -/

theorem flatAll_addData (d : Str) (ks : List PyXml.Node) : flatAll (addData d ks) = d.map .chr ++ flatAll ks := by
  unfold addData
  split
  · rename_i h
    simp [h]
  · split
    · simp [flatAll, flat]
    · simp [flatAll, flat]

theorem addData_cons (c : Char) (d : Str) (ks : List PyXml.Node) : addData (c :: d) ks = addData [c] (addData d ks) := by
  by_cases hd : d = []
  · subst hd
    simp [addData]
  · unfold addData
    rw [if_neg (by simp), if_neg hd, if_neg (by simp)]
    cases ks with
    | nil => rfl
    | cons k r => cases k <;> rfl

theorem preData_cons (c : Char) (d : Str) (x : Option (Except Err (List PyXml.Node × Str))) :
    preData (c :: d) x = preData [c] (preData d x) := by
  match x with
  | none => rfl
  | some (.error _) => rfl
  | some (.ok (ks, r)) => simp [preData, addData_cons c d ks]

theorem preData_nil (x : Option (Except Err (List PyXml.Node × Str))) : preData [] x = x := by
  match x with
  | none => rfl
  | some (.error _) => rfl
  | some (.ok (ks, r)) => simp [preData, addData]

/-- A character that ends character data. -/
def TextChar (c : Char) : Prop := c ≠ '<' ∧ c ≠ '&'

theorem content_text (n : Nat) (c : Char) (t : Str) (h : TextChar c) :
    content (n + 1) (c :: t) = preData (charData (c :: t)).1 (content n (charData (c :: t)).2) := by
  rw [content, if_neg h.1, if_neg h.2]

theorem charData_cons (c : Char) (t : Str) (h : TextChar c) (hp : ¬ [']', ']', '>'] <+: c :: t) :
    charData (c :: t) = (c :: (charData t).1, (charData t).2) := by
  rw [charData, if_neg (by rintro (rfl | rfl); exact h.1 rfl; exact h.2 rfl), lit_none hp]
  simp

/-- One more character of text. -/
theorem content_chr {c : Char} {t r : Str} {ks : List PyXml.Node} {n : Nat} (h : TextChar c) (hp : ¬ [']', ']', '>'] <+: c :: t)
    (ht : t ≠ []) (hc : ∀ m, n ≤ m → content m t = some (.ok (ks, r))) :
    ∀ m, n + 2 ≤ m → content m (c :: t) = some (.ok (addData [c] ks, r)) := by
  intro m hm
  obtain ⟨k, rfl⟩ : ∃ k, m = k + 1 := ⟨m - 1, by omega⟩
  rw [content_text k c t h, charData_cons c t h hp]
  cases t with
  | nil => exact absurd rfl ht
  | cons d u =>
    by_cases hd : TextChar d
    · have h2 := hc (k + 1) (by omega)
      rw [content_text k d u hd] at h2
      rw [preData_cons, h2]
      rfl
    · have e : charData (d :: u) = ([], d :: u) := by
        rw [charData, if_pos]
        unfold TextChar at hd
        by_cases h1 : d = '<'
        · exact Or.inl h1
        · right
          exact Classical.byContradiction fun h2 => hd ⟨h1, h2⟩
      rw [e]
      show preData [c] (content k (d :: u)) = _
      rw [hc k (by omega)]
      rfl

/-- The end of some content: an end tag. -/
def Closes (r : Str) : Prop := ∃ t, r = '<' :: '/' :: t

theorem content_close (n : Nat) {r : Str} (h : Closes r) : content (n + 1) r = some (.ok ([], r)) := by
  obtain ⟨t, rfl⟩ := h
  rw [content, if_pos rfl]
  rfl

theorem start_elem {c : Char} (h : isNameStartChar c = true) (n : Nat) (t : Str) :
    content (n + 1) ('<' :: c :: t) = (match element n ('<' :: c :: t) with
      | none => none
      | some (.error e) => some (.error e)
      | some (.ok (e, r)) => preElem e (content n r)) := by
  have hc := start_not c h
  have e : markup (c :: t) = .elem := by
    unfold markup
    split
    · rename_i e; exact absurd (List.cons.inj e).1 hc.2.2.1
    · rename_i e; exact absurd (List.cons.inj e).1 hc.2.2.2
    · rename_i e; exact absurd (List.cons.inj e).1 hc.2.1
    · rfl
  rw [content, if_pos rfl, e]
  rfl

theorem element_empty {n a w : Str} {as : List (Str × Str)} (hn : BmpName n) (ha : XAttrs BmpName a as)
    (hd : (as.map Prod.fst).Nodup) (hw : OptS w) (r : Str) :
    ∃ k, ∀ m, k ≤ m → element m ('<' :: n ++ a ++ w ++ '/' :: '>' :: r) = some (.ok (.elem n as [], r)) := by
  obtain ⟨k, hk⟩ := stag_app hn ha hd hw true r
  refine ⟨k + 1, fun m hm => ?_⟩
  obtain ⟨j, rfl⟩ : ∃ j, m = j + 1 := ⟨m - 1, by omega⟩
  have := hk j (by omega)
  have e : '<' :: n ++ a ++ w ++ tagEnd true ++ r = '<' :: n ++ a ++ w ++ '/' :: '>' :: r := by simp [tagEnd]
  rw [e] at this
  rw [element, this]

theorem element_full {n a w k w' : Str} {as : List (Str × Str)} {ks : List PyXml.Node} (hn : BmpName n)
    (ha : XAttrs BmpName a as) (hd : (as.map Prod.fst).Nodup) (hw : OptS w) (hw' : OptS w') (r : Str)
    (hk : ∃ j, ∀ m, j ≤ m → content m (k ++ ('<' :: '/' :: n ++ w' ++ '>' :: r)) =
      some (.ok (ks, '<' :: '/' :: n ++ w' ++ '>' :: r))) :
    ∃ j, ∀ m, j ≤ m → element m ('<' :: n ++ a ++ w ++ '>' :: k ++ '<' :: '/' :: n ++ w' ++ '>' :: r) =
      some (.ok (.elem n as ks, r)) := by
  obtain ⟨j1, h1⟩ := hk
  obtain ⟨j2, h2⟩ := stag_app hn ha hd hw false (k ++ ('<' :: '/' :: n ++ w' ++ '>' :: r))
  refine ⟨j1 + j2 + 1, fun m hm => ?_⟩
  obtain ⟨j, rfl⟩ : ∃ j, m = j + 1 := ⟨m - 1, by omega⟩
  have e : '<' :: n ++ a ++ w ++ '>' :: k ++ '<' :: '/' :: n ++ w' ++ '>' :: r =
      '<' :: n ++ a ++ w ++ tagEnd false ++ (k ++ ('<' :: '/' :: n ++ w' ++ '>' :: r)) := by simp [tagEnd]
  rw [e, element, h2 j (by omega)]
  simp only [h1 j (by omega), etag_app hn hw' r, if_true]

theorem xcontent_reads {s : Str} {ns : List Spec.Node} (h : XContent BmpName PlainPI s ns) :
    ∀ r, Closes r → ∃ ks, flatAll ks = ns ∧ ∃ n, ∀ m, n ≤ m → content m (s ++ r) = some (.ok (ks, r)) := by
  induction h with
  | nil =>
    intro r hr
    refine ⟨[], rfl, 1, fun m hm => ?_⟩
    obtain ⟨j, rfl⟩ : ∃ j, m = j + 1 := ⟨m - 1, by omega⟩
    exact content_close j hr
  | @chr c s ns hc h1 h2 h3 _ ih =>
    intro r hr
    obtain ⟨ks, hf, n, hn⟩ := ih r hr
    refine ⟨addData [c] ks, by rw [flatAll_addData, hf]; rfl, n + 2, ?_⟩
    refine content_chr ⟨h1, h2⟩ ?_ ?_ hn
    · rintro ⟨x, e⟩
      apply h3
      obtain ⟨t, rfl⟩ := hr
      cases s with
      | nil => simp at e
      | cons a u =>
        cases u with
        | nil => simp at e
        | cons b v =>
          simp at e
          obtain ⟨rfl, rfl, rfl, _⟩ := e
          exact ⟨v, rfl⟩
    · obtain ⟨t, rfl⟩ := hr
      simp
  | @ref rr c s ns hr' _ ih =>
    intro r hr
    obtain ⟨ks, hf, n, hn⟩ := ih r hr
    refine ⟨addData [c] ks, by rw [flatAll_addData, hf]; rfl, n + 1, fun m hm => ?_⟩
    obtain ⟨j, rfl⟩ : ∃ j, m = j + 1 := ⟨m - 1, by omega⟩
    have e : '&' :: rr ++ ';' :: s ++ r = '&' :: (rr ++ ';' :: (s ++ r)) := by simp
    rw [e, content, if_neg (by decide), if_pos rfl, reference_app hr']
    simp only [hn j (by omega), preData]
  | @cdata d s ns _ ho _ ih =>
    intro r hr
    obtain ⟨ks, hf, n, hn⟩ := ih r hr
    refine ⟨addData d ks, by rw [flatAll_addData, hf], n + 1, fun m hm => ?_⟩
    obtain ⟨j, rfl⟩ : ∃ j, m = j + 1 := ⟨m - 1, by omega⟩
    have e : "<![CDATA[".toList ++ d ++ "]]>".toList ++ s ++ r =
        '<' :: '!' :: '[' :: 'C' :: 'D' :: 'A' :: 'T' :: 'A' :: '[' :: (d ++ "]]>".toList ++ (s ++ r)) := by simp
    have h1 : need ['C', 'D', 'A', 'T', 'A', '['] ('C' :: 'D' :: 'A' :: 'T' :: 'A' :: '[' :: (d ++ "]]>".toList ++ (s ++ r))) =
      .ok (d ++ "]]>".toList ++ (s ++ r)) := need_app ['C', 'D', 'A', 'T', 'A', '['] _
    have h2 : need [']', ']', '>'] ("]]>".toList ++ (s ++ r)) = .ok (s ++ r) := need_app [']', ']', '>'] _
    rw [e, content, if_pos rfl]
    simp only [markup, h1, cdata_app d (s ++ r) ho, h2, hn j (by omega), preData]
  | @comment d s ns hd _ ih =>
    intro r hr
    obtain ⟨ks, hf, n, hn⟩ := ih r hr
    refine ⟨ks, hf, n + 1, fun m hm => ?_⟩
    obtain ⟨j, rfl⟩ : ∃ j, m = j + 1 := ⟨m - 1, by omega⟩
    have e : "<!--".toList ++ d ++ "-->".toList ++ s ++ r =
        '<' :: '!' :: '-' :: '-' :: (d ++ "-->".toList ++ (s ++ r)) := by simp
    have h1 : need ['-'] ('-' :: (d ++ "-->".toList ++ (s ++ r))) = .ok (d ++ "-->".toList ++ (s ++ r)) := need_app ['-'] _
    rw [e, content, if_pos rfl]
    simp only [markup, h1, comment_app hd (s ++ r), hn j (by omega)]
  | @pi d s ns hd _ ih =>
    intro r hr
    obtain ⟨ks, hf, n, hn⟩ := ih r hr
    refine ⟨ks, hf, n + 1, fun m hm => ?_⟩
    obtain ⟨j, rfl⟩ : ∃ j, m = j + 1 := ⟨m - 1, by omega⟩
    have e : "<?".toList ++ d ++ "?>".toList ++ s ++ r = '<' :: '?' :: (d ++ "?>".toList ++ (s ++ r)) := by simp
    rw [e, content, if_pos rfl]
    simp only [markup, parsePI_app hd (s ++ r), hn j (by omega)]
  | @elem n a w k w' s as ks ns hn ha hd hw hw' _ _ ih1 ih2 =>
    intro r hr
    obtain ⟨ks2, hf2, j2, h2⟩ := ih2 r hr
    obtain ⟨ks1, hf1, j1, h1⟩ := ih1 ('<' :: '/' :: n ++ w' ++ '>' :: (s ++ r)) ⟨n ++ w' ++ '>' :: (s ++ r), by simp⟩
    obtain ⟨j3, h3⟩ := element_full hn ha hd hw hw' (s ++ r) ⟨j1, h1⟩
    refine ⟨.elem n as ks1 :: ks2, by simp [flatAll, flat, hf1, hf2], j1 + j2 + j3 + 1, fun m hm => ?_⟩
    obtain ⟨j, rfl⟩ : ∃ j, m = j + 1 := ⟨m - 1, by omega⟩
    have h3 := h3 j (by omega)
    have h2 := h2 j (by omega)
    obtain ⟨c, t, rfl, hc, _⟩ := bmp_start hn
    have e : '<' :: (c :: t) ++ a ++ w ++ '>' :: k ++ '<' :: '/' :: (c :: t) ++ w' ++ '>' :: s ++ r =
      '<' :: c :: (t ++ a ++ w ++ '>' :: k ++ '<' :: '/' :: (c :: t) ++ w' ++ '>' :: (s ++ r)) := by simp
    have e' : '<' :: (c :: t) ++ a ++ w ++ '>' :: k ++ '<' :: '/' :: (c :: t) ++ w' ++ '>' :: (s ++ r) =
      '<' :: c :: (t ++ a ++ w ++ '>' :: k ++ '<' :: '/' :: (c :: t) ++ w' ++ '>' :: (s ++ r)) := by simp
    rw [e'] at h3
    rw [e, start_elem hc, h3]
    simp only [h2, preElem]
  | @empty n a w s as ns hn ha hd hw _ ih =>
    intro r hr
    obtain ⟨ks2, hf2, j2, h2⟩ := ih r hr
    obtain ⟨j3, h3⟩ := element_empty hn ha hd hw (s ++ r)
    refine ⟨.elem n as [] :: ks2, by simp [flatAll, flat, hf2], j2 + j3 + 1, fun m hm => ?_⟩
    obtain ⟨j, rfl⟩ : ∃ j, m = j + 1 := ⟨m - 1, by omega⟩
    have h3 := h3 j (by omega)
    have h2 := h2 j (by omega)
    obtain ⟨c, t, rfl, hc, _⟩ := bmp_start hn
    have e : '<' :: (c :: t) ++ a ++ w ++ '/' :: '>' :: s ++ r = '<' :: c :: (t ++ a ++ w ++ '/' :: '>' :: (s ++ r)) := by simp
    have e' : '<' :: (c :: t) ++ a ++ w ++ '/' :: '>' :: (s ++ r) = '<' :: c :: (t ++ a ++ w ++ '/' :: '>' :: (s ++ r)) := by simp
    rw [e'] at h3
    rw [e, start_elem hc, h3]
    simp only [h2, preElem]

/-! ## Documents -/

theorem misc_end {r : Str} (hr : r = [] ∨ ∃ c t, r = '<' :: c :: t ∧ isNameStartChar c = true) (n : Nat) :
    misc (n + 1) r = some (.ok r) := by
  rcases hr with rfl | ⟨c, t, rfl, hc⟩
  · rfl
  · have hn := start_not c hc
    have h1 : lit ['<', '!', '-', '-'] ('<' :: c :: t) = none := lit_none (by
      rintro ⟨x, e⟩
      simp at e
      exact hn.2.2.1 e.1.symm)
    have h2 : lit ['<', '?'] ('<' :: c :: t) = none := lit_none (by
      rintro ⟨x, e⟩
      simp at e
      exact hn.2.2.2 e.1.symm)
    have h3 : isS '<' = false := by decide +kernel
    simp only [misc, h1, h2, h3]
    rfl

theorem misc_app {m : Str} (h : XMisc BmpName PlainPI m) {r : Str}
    (hr : r = [] ∨ ∃ c t, r = '<' :: c :: t ∧ isNameStartChar c = true) :
    ∃ k, ∀ j, k ≤ j → misc j (m ++ r) = some (.ok r) := by
  induction h with
  | nil =>
    refine ⟨1, fun j hj => ?_⟩
    obtain ⟨i, rfl⟩ : ∃ i, j = i + 1 := ⟨j - 1, by omega⟩
    exact misc_end hr i
  | space c hc _ ih =>
    obtain ⟨k, hk⟩ := ih
    refine ⟨k + 1, fun j hj => ?_⟩
    obtain ⟨i, rfl⟩ : ∃ i, j = i + 1 := ⟨j - 1, by omega⟩
    rw [List.cons_append, misc]
    simp only [(isS_iff c).2 hc, if_true]
    exact hk i (by omega)
  | @comment d s hd _ ih =>
    obtain ⟨k, hk⟩ := ih
    refine ⟨k + 1, fun j hj => ?_⟩
    obtain ⟨i, rfl⟩ : ∃ i, j = i + 1 := ⟨j - 1, by omega⟩
    have e : "<!--".toList ++ d ++ "-->".toList ++ s ++ r = '<' :: '!' :: '-' :: '-' :: (d ++ "-->".toList ++ (s ++ r)) := by simp
    have h1 : lit ['<', '!', '-', '-'] ('<' :: '!' :: '-' :: '-' :: (d ++ "-->".toList ++ (s ++ r))) =
      some (d ++ "-->".toList ++ (s ++ r)) := lit_app ['<', '!', '-', '-'] _
    have h3 : isS '<' = false := by decide +kernel
    rw [e, misc]
    simp only [h1, h3, comment_app hd]
    exact hk i (by omega)
  | @pi d s hd _ ih =>
    obtain ⟨k, hk⟩ := ih
    refine ⟨k + 1, fun j hj => ?_⟩
    obtain ⟨i, rfl⟩ : ∃ i, j = i + 1 := ⟨j - 1, by omega⟩
    have e : "<?".toList ++ d ++ "?>".toList ++ s ++ r = '<' :: '?' :: (d ++ "?>".toList ++ (s ++ r)) := by simp
    have h1 : lit ['<', '!', '-', '-'] ('<' :: '?' :: (d ++ "?>".toList ++ (s ++ r))) = none := lit_none (by
      rintro ⟨x, e⟩
      simp at e)
    have h2 : lit ['<', '?'] ('<' :: '?' :: (d ++ "?>".toList ++ (s ++ r))) = some (d ++ "?>".toList ++ (s ++ r)) :=
      lit_app ['<', '?'] _
    have h3 : isS '<' = false := by decide +kernel
    rw [e, misc]
    simp only [h1, h2, h3, parsePI_app hd]
    exact hk i (by omega)

theorem quote_app {q : Char} (h : Quote q) (s : Str) : quote (q :: s) = .ok (q, s) := by
  unfold Quote at h
  rw [quote, if_pos h]

theorem close_app (q : Char) (s : Str) : closeQuote q (q :: s) = .ok s := by
  rw [closeQuote, if_pos rfl]

theorem quote_notDec {q : Char} (h : Quote q) : isDec q = false := by
  rcases h with rfl | rfl <;> decide +kernel

theorem quote_notEnc {q : Char} (h : Quote q) : isEncChar q = false := by
  rcases h with rfl | rfl <;> decide +kernel

theorem someS_parse {w s : Str} (hw : SomeS w) (hs : Stops isS s) : parseS (w ++ s) = (w, s) := parseS_app _ _ hw.2 hs

theorem version_app {v : Str} (h : XPseudo "version".toList XVersion v) (r : Str) : versionInfo (v ++ r) = .ok r := by
  obtain ⟨w, e, q, v, rfl, hw, ⟨w1, w2, rfl, hw1, hw2⟩, hq, ds, rfl, hne, hd⟩ := h
  have e0 : w ++ "version".toList ++ (w1 ++ '=' :: w2) ++ q :: ('1' :: '.' :: ds) ++ [q] ++ r =
    w ++ ('v' :: 'e' :: 'r' :: 's' :: 'i' :: 'o' :: 'n' :: (w1 ++ '=' :: w2 ++ (q :: ('1' :: '.' :: (ds ++ q :: r))))) := by simp
  have h1 := someS_parse (s := 'v' :: 'e' :: 'r' :: 's' :: 'i' :: 'o' :: 'n' ::
    (w1 ++ '=' :: w2 ++ (q :: ('1' :: '.' :: (ds ++ q :: r))))) hw (stops_of _ _ _ (by decide +kernel))
  have h2 : need ['v', 'e', 'r', 's', 'i', 'o', 'n'] ('v' :: 'e' :: 'r' :: 's' :: 'i' :: 'o' :: 'n' ::
    (w1 ++ '=' :: w2 ++ (q :: ('1' :: '.' :: (ds ++ q :: r))))) = .ok (w1 ++ '=' :: w2 ++ (q :: ('1' :: '.' :: (ds ++ q :: r)))) :=
    need_app ['v', 'e', 'r', 's', 'i', 'o', 'n'] _
  have h3 := eq_app w1 w2 (q :: ('1' :: '.' :: (ds ++ q :: r))) hw1 hw2 (stops_of _ _ _ (quote_notS hq))
  have h4 : need ['1', '.'] ('1' :: '.' :: (ds ++ q :: r)) = .ok (ds ++ q :: r) := need_app ['1', '.'] _
  have h5 : span isDec (ds ++ q :: r) = (ds, q :: r) :=
    span_app _ _ _ (fun c hc => (isDec_iff c).2 (hd c hc)) (stops_of _ _ _ (quote_notDec hq))
  rw [e0, versionInfo, h1]
  simp only [if_neg hw.1, h2, h3, quote_app hq, h4, h5, if_neg hne, close_app]

theorem letter_enc {c : Char} (h : XLetter c) : isEncStart c = true := by
  simp only [isEncStart, Bool.or_eq_true, Bool.and_eq_true, decide_eq_true_eq, le_iff]
  exact h

theorem encChar_of {d : Char} (h : XLetter d ∨ DecDigit d ∨ d = '.' ∨ d = '_' ∨ d = '-') : isEncChar d = true := by
  rcases h with h | h | rfl | rfl | rfl
  · simp [isEncChar, letter_enc h]
  · simp [isEncChar, (isDec_iff d).2 h]
  · decide +kernel
  · decide +kernel
  · decide +kernel

/-- A pseudo-attribute after its word. -/
theorem pseudo_tail {e : Str} {q : Char} (he : XEq e) (hq : Quote q) (s : Str) : PyXml.eq (e ++ q :: s) = .ok (q :: s) := by
  obtain ⟨w1, w2, rfl, hw1, hw2⟩ := he
  exact eq_app w1 w2 (q :: s) hw1 hw2 (stops_of _ _ _ (quote_notS hq))

theorem enc_app {e v : Str} {q : Char} (he : XEq e) (hq : Quote q) (hv : XEncName v) (r : Str) :
    encodingDecl (e ++ q :: v ++ [q] ++ r) = .ok r := by
  obtain ⟨c, t, rfl, hc, ht⟩ := hv
  have e0 : e ++ q :: (c :: t) ++ [q] ++ r = e ++ q :: (c :: (t ++ q :: r)) := by simp
  have h5 : span isEncChar (t ++ q :: r) = (t, q :: r) :=
    span_app _ _ _ (fun d hd => encChar_of (ht d hd)) (stops_of _ _ _ (quote_notEnc hq))
  rw [e0, encodingDecl, pseudo_tail he hq]
  simp only [quote_app hq, letter_enc hc, if_true, h5, close_app]

theorem sd_app {e v : Str} {q : Char} (he : XEq e) (hq : Quote q) (hv : v = "yes".toList ∨ v = "no".toList) (r : Str) :
    sdDecl (e ++ q :: v ++ [q] ++ r) = .ok r := by
  have e0 : e ++ q :: v ++ [q] ++ r = e ++ q :: (v ++ q :: r) := by simp
  rw [e0, sdDecl, pseudo_tail he hq]
  simp only [quote_app hq]
  rcases hv with rfl | rfl
  · have h : need ['y', 'e', 's'] ('y' :: 'e' :: 's' :: q :: r) = .ok (q :: r) := need_app ['y', 'e', 's'] _
    show (match need ['y', 'e', 's'] ('y' :: 'e' :: 's' :: q :: r) with | .error e => Except.error e | .ok r2 => closeQuote q r2) = _
    rw [h]
    exact close_app q r
  · have h : need ['n', 'o'] ('n' :: 'o' :: q :: r) = .ok (q :: r) := need_app ['n', 'o'] _
    show (match need ['n', 'o'] ('n' :: 'o' :: q :: r) with | .error e => Except.error e | .ok r2 => closeQuote q r2) = _
    rw [h]
    exact close_app q r

/-- The end of an XML declaration. -/
theorem decl_end {w : Str} (hw : OptS w) (r : Str) : need ['?', '>'] (parseS (w ++ '?' :: '>' :: r)).2 = .ok r := by
  rw [parseS_app _ _ hw (stops_of _ _ _ (by decide +kernel))]
  exact need_app ['?', '>'] r

theorem decl_end' {w : Str} (hw : OptS w) (r : Str) :
    need ['?', '>'] (parseS (parseS (w ++ '?' :: '>' :: r)).2).2 = .ok r := by
  rw [parseS_app _ _ hw (stops_of _ _ _ (by decide +kernel))]
  have h : OptS [] := by intro c hc; simp at hc
  exact decl_end h r

theorem lit_first {a b : Char} {m t : Str} (h : a ≠ b) : lit (a :: m) (b :: t) = none := by
  rw [lit, if_neg h]

theorem xmlDecl_app {v enc sd w : Str} (hv : XPseudo "version".toList XVersion v)
    (he : enc = [] ∨ XPseudo "encoding".toList XEncName enc)
    (hs : sd = [] ∨ XPseudo "standalone".toList (fun v => v = "yes".toList ∨ v = "no".toList) sd) (hw : OptS w) (r : Str) :
    xmlDecl (v ++ (enc ++ (sd ++ (w ++ '?' :: '>' :: r)))) = .ok r := by
  have hsd : ∀ {e v : Str} {q : Char}, XEq e → Quote q → v = "yes".toList ∨ v = "no".toList →
      sdDecl (e ++ (q :: (v ++ (q :: (w ++ '?' :: '>' :: r))))) = .ok (w ++ '?' :: '>' :: r) := by
    intro e v q h1 h2 h3
    have := sd_app h1 h2 h3 (w ++ '?' :: '>' :: r)
    simpa using this
  have hend : parseS (w ++ '?' :: '>' :: r) = (w, '?' :: '>' :: r) := parseS_app _ _ hw (stops_of _ _ _ (by decide +kernel))
  have hend2 : parseS ('?' :: '>' :: r) = ([], '?' :: '>' :: r) :=
    parseS_app [] _ (by intro c hc; simp at hc) (stops_of _ _ _ (by decide +kernel))
  have hneed : need ['?', '>'] ('?' :: '>' :: r) = .ok r := need_app ['?', '>'] r
  rw [xmlDecl, version_app hv]
  rcases he with rfl | ⟨w1, e1, q1, v1, rfl, hw1, he1, hq1, hv1⟩
  · rcases hs with rfl | ⟨w2, e2, q2, v2, rfl, hw2, he2, hq2, hv2⟩
    · simp only [List.nil_append, hend]
      by_cases hwn : w = []
      · subst hwn
        simp only [if_true, List.nil_append, hend2, hneed]
      · simp only [if_neg hwn, lit_first (show 'e' ≠ '?' by decide), lit_first (show 's' ≠ '?' by decide), hend2, hneed]
    · have e0 : [] ++ (w2 ++ "standalone".toList ++ e2 ++ q2 :: v2 ++ [q2] ++ (w ++ '?' :: '>' :: r)) =
        w2 ++ ('s' :: 't' :: 'a' :: 'n' :: 'd' :: 'a' :: 'l' :: 'o' :: 'n' :: 'e' :: (e2 ++ (q2 :: (v2 ++ (q2 :: (w ++ '?' :: '>' :: r)))))) := by simp
      have h1 := someS_parse (s := 's' :: 't' :: 'a' :: 'n' :: 'd' :: 'a' :: 'l' :: 'o' :: 'n' :: 'e' ::
        (e2 ++ (q2 :: (v2 ++ (q2 :: (w ++ '?' :: '>' :: r)))))) hw2 (stops_of _ _ _ (by decide +kernel))
      have h2 : lit ['s', 't', 'a', 'n', 'd', 'a', 'l', 'o', 'n', 'e'] ('s' :: 't' :: 'a' :: 'n' :: 'd' :: 'a' :: 'l' :: 'o' :: 'n' :: 'e' ::
        (e2 ++ (q2 :: (v2 ++ (q2 :: (w ++ '?' :: '>' :: r)))))) = some (e2 ++ (q2 :: (v2 ++ (q2 :: (w ++ '?' :: '>' :: r))))) :=
        lit_app ['s', 't', 'a', 'n', 'd', 'a', 'l', 'o', 'n', 'e'] _
      rw [e0]
      simp only [h1, if_neg hw2.1, lit_first (show 'e' ≠ 's' by decide), h2, hsd he2 hq2 hv2, hend, hneed]
  · have henc := enc_app he1 hq1 hv1 (sd ++ (w ++ '?' :: '>' :: r))
    have e0 : w1 ++ "encoding".toList ++ e1 ++ q1 :: v1 ++ [q1] ++ (sd ++ (w ++ '?' :: '>' :: r)) =
        w1 ++ ('e' :: 'n' :: 'c' :: 'o' :: 'd' :: 'i' :: 'n' :: 'g' :: (e1 ++ q1 :: v1 ++ [q1] ++ (sd ++ (w ++ '?' :: '>' :: r)))) := by simp
    have h1 := someS_parse (s := 'e' :: 'n' :: 'c' :: 'o' :: 'd' :: 'i' :: 'n' :: 'g' :: (e1 ++ q1 :: v1 ++ [q1] ++ (sd ++ (w ++ '?' :: '>' :: r))))
      hw1 (stops_of _ _ _ (by decide +kernel))
    have h2 : lit ['e', 'n', 'c', 'o', 'd', 'i', 'n', 'g'] ('e' :: 'n' :: 'c' :: 'o' :: 'd' :: 'i' :: 'n' :: 'g' ::
        (e1 ++ q1 :: v1 ++ [q1] ++ (sd ++ (w ++ '?' :: '>' :: r)))) = some (e1 ++ q1 :: v1 ++ [q1] ++ (sd ++ (w ++ '?' :: '>' :: r))) :=
      lit_app ['e', 'n', 'c', 'o', 'd', 'i', 'n', 'g'] _
    rw [e0]
    simp only [h1, if_neg hw1.1, h2, henc]
    rcases hs with rfl | ⟨w2, e2, q2, v2, rfl, hw2, he2, hq2, hv2⟩
    · simp only [List.nil_append, hend]
      by_cases hwn : w = []
      · subst hwn
        simp only [if_true, List.nil_append, hend2, hneed]
      · simp only [if_neg hwn, lit_first (show 's' ≠ '?' by decide), hend2, hneed]
    · have e0 : (w2 ++ "standalone".toList ++ e2 ++ q2 :: v2 ++ [q2] ++ (w ++ '?' :: '>' :: r)) =
        w2 ++ ('s' :: 't' :: 'a' :: 'n' :: 'd' :: 'a' :: 'l' :: 'o' :: 'n' :: 'e' :: (e2 ++ (q2 :: (v2 ++ (q2 :: (w ++ '?' :: '>' :: r)))))) := by simp
      have h1 := someS_parse (s := 's' :: 't' :: 'a' :: 'n' :: 'd' :: 'a' :: 'l' :: 'o' :: 'n' :: 'e' ::
        (e2 ++ (q2 :: (v2 ++ (q2 :: (w ++ '?' :: '>' :: r)))))) hw2 (stops_of _ _ _ (by decide +kernel))
      have h2 : lit ['s', 't', 'a', 'n', 'd', 'a', 'l', 'o', 'n', 'e'] ('s' :: 't' :: 'a' :: 'n' :: 'd' :: 'a' :: 'l' :: 'o' :: 'n' :: 'e' ::
        (e2 ++ (q2 :: (v2 ++ (q2 :: (w ++ '?' :: '>' :: r)))))) = some (e2 ++ (q2 :: (v2 ++ (q2 :: (w ++ '?' :: '>' :: r))))) :=
        lit_app ['s', 't', 'a', 'n', 'd', 'a', 'l', 'o', 'n', 'e'] _
      rw [e0]
      simp only [h1, if_neg hw2.1, h2, hsd he2 hq2 hv2, hend, hneed]

theorem xelement_reads {e : Str} {root : Spec.Node} (h : XElement BmpName PlainPI e root) (r : Str) :
    ∃ t, flat t = [root] ∧ ∃ n, ∀ m, n ≤ m → element m (e ++ r) = some (.ok (t, r)) := by
  cases h with
  | @elem n a w k w' as ks hn ha hd hw hw' hk =>
    obtain ⟨ks', hf, j, hj⟩ := xcontent_reads hk ('<' :: '/' :: n ++ w' ++ '>' :: r) ⟨n ++ w' ++ '>' :: r, by simp⟩
    obtain ⟨i, hi⟩ := element_full hn ha hd hw hw' r ⟨j, hj⟩
    refine ⟨.elem n as ks', by simp [flat, hf], i, fun m hm => ?_⟩
    have := hi m hm
    simpa using this
  | @empty n a w as hn ha hd hw =>
    obtain ⟨i, hi⟩ := element_empty hn ha hd hw r
    refine ⟨.elem n as [], by simp [flat, flatAll], i, fun m hm => ?_⟩
    have := hi m hm
    simpa using this

theorem xelement_start {e : Str} {root : Spec.Node} (h : XElement BmpName PlainPI e root) :
    ∃ c t, e = '<' :: c :: t ∧ isNameStartChar c = true := by
  cases h with
  | elem hn _ _ _ _ _ =>
    obtain ⟨c, t, rfl, hc, _⟩ := bmp_start hn
    exact ⟨c, _, rfl, hc⟩
  | empty hn _ _ _ =>
    obtain ⟨c, t, rfl, hc, _⟩ := bmp_start hn
    exact ⟨c, _, rfl, hc⟩

theorem document_reads {s : Str} {root : Spec.Node} (h : XDocument BmpName PlainPI PlainStart s root) :
    ∃ t, flat t = [root] ∧ ∃ n, ∀ m, n ≤ m → document m s = some (.ok t) := by
  obtain ⟨d, m, e, m', rfl, hd, hm, he, hm'⟩ := h
  have hdecl : decl (d ++ (m ++ e ++ m')) = .ok (m ++ e ++ m') := by
    rcases hd with ⟨rfl, hb⟩ | ⟨v, enc, sd, w, rfl, hv, henc, hsd, hw⟩
    · have hb : ¬ ['<', '?', 'x', 'm', 'l'] <+: [] ++ (m ++ e ++ m') := hb
      rw [List.nil_append] at hb ⊢
      rw [decl, lit_none hb]
    · have e0 : "<?xml".toList ++ v ++ enc ++ sd ++ w ++ "?>".toList ++ (m ++ e ++ m') =
        '<' :: '?' :: 'x' :: 'm' :: 'l' :: (v ++ (enc ++ (sd ++ (w ++ '?' :: '>' :: (m ++ e ++ m'))))) := by simp
      have h1 : lit ['<', '?', 'x', 'm', 'l'] ('<' :: '?' :: 'x' :: 'm' :: 'l' :: (v ++ (enc ++ (sd ++ (w ++ '?' :: '>' :: (m ++ e ++ m')))))) =
        some (v ++ (enc ++ (sd ++ (w ++ '?' :: '>' :: (m ++ e ++ m'))))) := lit_app ['<', '?', 'x', 'm', 'l'] _
      rw [e0, decl, h1]
      exact xmlDecl_app hv henc hsd hw _
  obtain ⟨t, hf, n1, h1⟩ := xelement_reads he m'
  obtain ⟨c, u, rfl, hc⟩ := xelement_start he
  obtain ⟨n2, h2⟩ := misc_app hm (r := '<' :: c :: u ++ m') (.inr ⟨c, u ++ m', rfl, hc⟩)
  obtain ⟨n3, h3⟩ := misc_app hm' (r := []) (.inl rfl)
  refine ⟨t, hf, n1 + n2 + n3, fun k hk => ?_⟩
  have h4 : lit ['<', '!', 'D', 'O', 'C', 'T', 'Y', 'P', 'E'] ('<' :: c :: u ++ m') = none := lit_none (by
    rintro ⟨x, e⟩
    simp at e
    exact (start_not c hc).2.2.1 e.1.symm)
  have h2 := h2 k (by omega)
  have h3 := h3 k (by omega)
  rw [List.append_nil] at h3
  rw [← List.append_assoc] at h2
  rw [document, hdecl]
  simp only [h2, h4, h1 k (by omega), h3]
  simp

/-! ## Line ends -/

/-- A leading line feed is dropped. -/
def dropLF : Str → Str
  | [] => []
  | c :: t => if c = '\n' then t else c :: t

theorem lineEnds_cons (c : Char) (t : Str) (h : c ≠ '\r') : lineEnds (c :: t) = c :: lineEnds t := by
  rw [lineEnds.eq_def]
  split
  · rename_i e; exact absurd (List.cons.inj e).1 h
  · rename_i e; exact absurd (List.cons.inj e).1 h
  · rename_i e
    obtain ⟨rfl, rfl⟩ := List.cons.inj e
    rfl
  · rename_i e; simp at e

theorem lineEnds_cr (t : Str) : lineEnds ('\r' :: t) = '\n' :: lineEnds (dropLF t) := by
  cases t with
  | nil => rfl
  | cons c u =>
    by_cases h : c = '\n'
    · subst h; rfl
    · rw [lineEnds.eq_def]
      split
      · rename_i e
        exact absurd (List.cons.inj (List.cons.inj e).2).1 h
      · rename_i e
        obtain ⟨_, rfl⟩ := List.cons.inj e
        simp [dropLF, h]
      · rename_i h1 e
        exact absurd (List.cons.inj e).1.symm h1
      · rename_i e; simp at e

theorem eol_lineEnds (s : Str) : eol false s = lineEnds s ∧ eol true s = lineEnds (dropLF s) := by
  induction s with
  | nil => exact ⟨rfl, rfl⟩
  | cons c t ih =>
    by_cases h : c = '\r'
    · subst h
      refine ⟨by rw [eol, if_pos rfl, ih.2, lineEnds_cr], ?_⟩
      rw [eol, if_pos rfl, ih.2]
      show _ = lineEnds (if '\r' = '\n' then t else '\r' :: t)
      rw [if_neg (by decide), lineEnds_cr]
    · by_cases h2 : c = '\n'
      · subst h2
        refine ⟨by rw [eol, if_neg h, if_pos rfl, if_neg (by decide), ih.1, lineEnds_cons _ _ h], ?_⟩
        rw [eol, if_neg h, if_pos rfl, if_pos rfl, ih.1]
        rfl
      · refine ⟨by rw [eol, if_neg h, if_neg h2, ih.1, lineEnds_cons _ _ h], ?_⟩
        rw [eol, if_neg h, if_neg h2, ih.1]
        show _ = lineEnds (if c = '\n' then t else c :: t)
        rw [if_neg h2, lineEnds_cons _ _ h]

theorem misc_head {N P : Str → Prop} {m : Str} (h : XMisc N P m) : m = [] ∨ ∃ c t, m = c :: t ∧ (SChar c ∨ c = '<') := by
  cases h with
  | nil => exact .inl rfl
  | space c hc _ => exact .inr ⟨c, _, rfl, .inl hc⟩
  | comment _ _ => exact .inr ⟨'<', _, rfl, .inr rfl⟩
  | pi _ _ => exact .inr ⟨'<', _, rfl, .inr rfl⟩

/-- A well-formed document begins with white space or `<`. -/
theorem document_head {N P B : Str → Prop} {s : Str} {root : Spec.Node} (h : XDocument N P B s root) :
    ∃ c t, s = c :: t ∧ (SChar c ∨ c = '<') := by
  obtain ⟨d, m, e, m', rfl, hd, hm, he, _⟩ := h
  have he' : ∃ t, e = '<' :: t := by
    cases he with
    | elem _ _ _ _ _ _ => exact ⟨_, rfl⟩
    | empty _ _ _ _ => exact ⟨_, rfl⟩
  rcases hd with ⟨rfl, _⟩ | ⟨v, enc, sd, w, rfl, _⟩
  · rcases misc_head hm with rfl | ⟨c, t, rfl, hc⟩
    · obtain ⟨t, rfl⟩ := he'
      exact ⟨'<', t ++ m', by simp, .inr rfl⟩
    · exact ⟨c, t ++ e ++ m', by simp, hc⟩
  · exact ⟨'<', _, rfl, .inr rfl⟩

theorem entity_source {N P B : Str → Prop} {src : Str} {root : Spec.Node} (h : XSource N P B src root) :
    src ≠ [] ∧ XDocument N P B (entity src) root := by
  obtain ⟨s, hs, hd⟩ := h
  rcases hs with rfl | rfl
  · obtain ⟨c, t, e, hc⟩ := document_head hd
    refine ⟨by rintro rfl; simp [lineEnds] at e, ?_⟩
    have hne : c ≠ '\uFEFF' := by
      rintro rfl
      rcases hc with (h | h | h | h) | h <;> exact absurd h (by decide)
    rw [entity, (eol_lineEnds src).1, e]
    simp only [if_neg hne]
    rw [← e]
    exact hd
  · refine ⟨by simp, ?_⟩
    rw [entity, (eol_lineEnds _).1, lineEnds_cons _ _ (by decide)]
    exact hd

end PX

open PX

/-- **Documents are read.**  Every well-formed source without a document type declaration whose names are of the basic
multilingual plane, whose processing instructions have no doubled question marks and which does not begin as an XML
declaration without having one, is read, and the tree is what an XML processor reports for it. -/
theorem py_xml_reads_partial (src : Str) (root : Spec.Node) (h : PlainDocument src root) :
    ∃ t, flat t = [root] ∧ ∃ n, ∀ m, n ≤ m → PyXml.read m src = some (.ok t) := by
  obtain ⟨hne, hd⟩ := entity_source h
  obtain ⟨t, hf, n, hn⟩ := document_reads hd
  exact ⟨t, hf, n, fun m hm => by rw [PyXml.read, if_neg hne]; exact hn m hm⟩

end Verif.Props
