import Verif.Spec.ODataEval
import Verif.Props.ODataArith

/-!
# Methods of strings and dates in OData expressions
-/

namespace Verif.Props

open Verif Verif.OData Verif.OData.Eval

/-! ## C148: strings and dates -/

theorem eval_call {E : Env} {W : World} {ctx : Option Value} {m : Meth} {args : List Expr} {vs : List Value}
    (h : evalList E W ctx args = .ok vs) : eval E W ctx (.call m args) = method E m vs := by
  rw [eval, h]
  rfl

theorem eval_args2 {E : Env} {W : World} {ctx : Option Value} {x y : Expr} {l r : Value}
    (hx : eval E W ctx x = .ok l) (hy : eval E W ctx y = .ok r) : evalList E W ctx [x, y] = .ok [l, r] := by
  rw [evalList, hx, evalList, hy, evalList]
  rfl

theorem eval_args3 {E : Env} {W : World} {ctx : Option Value} {x y z : Expr} {l r u : Value}
    (hx : eval E W ctx x = .ok l) (hy : eval E W ctx y = .ok r) (hz : eval E W ctx z = .ok u) :
    evalList E W ctx [x, y, z] = .ok [l, r, u] := by
  rw [evalList, hx, evalList, hy, evalList, hz, evalList]
  rfl

theorem eval_args1 {E : Env} {W : World} {ctx : Option Value} {x : Expr} {l : Value}
    (hx : eval E W ctx x = .ok l) : evalList E W ctx [x] = .ok [l] := by
  rw [evalList, hx, evalList]
  rfl

/-- Where a string is first found. -/
theorem find_spec (needle s : Str) :
    (∀ i, find needle s = some i ↔ (∃ p q, s = p ++ needle ++ q ∧ p.length = i) ∧
      ∀ p q, s = p ++ needle ++ q → i ≤ p.length) ∧
      (find needle s = none ↔ ∀ p q, s ≠ p ++ needle ++ q) := by
  have hsome : ∀ i, find needle s = some i → (∃ p q, s = p ++ needle ++ q ∧ p.length = i) ∧
      ∀ p q, s = p ++ needle ++ q → i ≤ p.length := by
    induction s with
    | nil =>
      intro i h
      rw [find] at h
      split at h
      · rename_i e
        cases h
        exact ⟨⟨[], [], by rw [e]; rfl, rfl⟩, fun _ _ _ => Nat.zero_le _⟩
      · cases h
    | cons c t ih =>
      intro i h
      rw [find] at h
      split at h
      · rename_i e
        cases h
        obtain ⟨q, hq⟩ := List.isPrefixOf_iff_prefix.mp e
        exact ⟨⟨[], q, hq.symm, rfl⟩, fun _ _ _ => Nat.zero_le _⟩
      · rename_i e
        cases hf : find needle t with
        | none => rw [hf] at h; cases h
        | some j =>
          rw [hf] at h
          cases h
          obtain ⟨⟨p, q, h1, h2⟩, h3⟩ := ih j hf
          refine ⟨⟨c :: p, q, by rw [h1]; rfl, by rw [List.length_cons, h2]⟩, fun p' q' h => ?_⟩
          cases p' with
          | nil => exact absurd (List.isPrefixOf_iff_prefix.mpr ⟨q', h.symm⟩) e
          | cons d p' =>
            injection h with _ h
            have := h3 p' q' h
            simp only [List.length_cons]
            omega
  have hnone : find needle s = none → ∀ p q, s ≠ p ++ needle ++ q := by
    induction s with
    | nil =>
      intro h p q e
      rw [find] at h
      split at h
      · cases h
      · rename_i hn
        cases p with
        | nil =>
          cases needle with
          | nil => exact hn rfl
          | cons => cases e
        | cons => cases e
    | cons c t ih =>
      intro h p q e
      rw [find] at h
      split at h
      · cases h
      · rename_i hn
        cases p with
        | nil => exact hn (List.isPrefixOf_iff_prefix.mpr ⟨q, e.symm⟩)
        | cons d p =>
          injection e with _ e
          cases hf : find needle t with
          | none =>
            refine ih ?_ hf p q e
            intro i hi
            rw [hf] at hi; cases hi
          | some j => rw [hf] at h; cases h
  refine ⟨fun i => ⟨hsome i, fun h => ?_⟩, hnone, fun h => ?_⟩
  · obtain ⟨⟨p, q, h1, h2⟩, h3⟩ := h
    cases hf : find needle s with
    | none => exact absurd h1 (hnone hf p q)
    | some j =>
      obtain ⟨⟨p', q', h4, h5⟩, h6⟩ := hsome j hf
      have := h3 p' q' h4
      have := h6 p q h1
      congr 1
      omega
  · cases hf : find needle s with
    | none => rfl
    | some j =>
      obtain ⟨⟨p, q, h4, _⟩, _⟩ := hsome j hf
      exact absurd h4 (h p q)

/-- `startswith`, `endswith` and `substringof`: the text is the beginning, the end or a part of the other one.  The part is
the first argument of `substringof`, the second one of the others. -/
theorem parts_found {E : Env} {W : World} {ctx : Option Value} {x y : Expr} {a b : Str}
    (hx : eval E W ctx x = .ok (.simple (.string a))) (hy : eval E W ctx y = .ok (.simple (.string b))) :
    ∃ s e o : Bool, eval E W ctx (.call .startswith [x, y]) = .ok (.simple (.bool s)) ∧
      eval E W ctx (.call .endswith [x, y]) = .ok (.simple (.bool e)) ∧
      eval E W ctx (.call .substringof [x, y]) = .ok (.simple (.bool o)) ∧
      (s = true ↔ ∃ t, a = b ++ t) ∧ (e = true ↔ ∃ t, a = t ++ b) ∧ (o = true ↔ ∃ p q, b = p ++ a ++ q) := by
  have h := eval_args2 hx hy
  refine ⟨b.isPrefixOf a, b.isSuffixOf a, (find a b).isSome, eval_call h, eval_call h, eval_call h, ?_, ?_, ?_⟩
  · rw [List.isPrefixOf_iff_prefix]
    exact ⟨fun ⟨t, h⟩ => ⟨t, h.symm⟩, fun ⟨t, h⟩ => ⟨t, h.symm⟩⟩
  · rw [List.isSuffixOf_iff_suffix]
    exact ⟨fun ⟨t, h⟩ => ⟨t, h.symm⟩, fun ⟨t, h⟩ => ⟨t, h.symm⟩⟩
  · obtain ⟨h1, h2⟩ := find_spec a b
    cases hf : find a b with
    | none => exact ⟨fun h => (by cases h), fun ⟨p, q, e⟩ => absurd e (h2.mp hf p q)⟩
    | some i =>
      obtain ⟨⟨p, q, e, _⟩, _⟩ := (h1 i).mp hf
      exact ⟨fun _ => ⟨p, q, e⟩, fun _ => rfl⟩

/-- `indexof` is the number of characters before the first place where the second text is found in the first one, `-1` if it
is not found; `concat` and `length` are what they say. -/
theorem text_measured {E : Env} {W : World} {ctx : Option Value} {x y : Expr} {a b : Str}
    (hx : eval E W ctx x = .ok (.simple (.string a))) (hy : eval E W ctx y = .ok (.simple (.string b)))
    (hlen : a.length < 2 ^ 31) :
    (∃ i : Int, eval E W ctx (.call .indexof [x, y]) = .ok (.simple (.int32 i)) ∧
      (i = -1 ∧ (∀ p q, a ≠ p ++ b ++ q) ∨
        ∃ p q, a = p ++ b ++ q ∧ i = p.length ∧ ∀ p' q', a = p' ++ b ++ q' → p.length ≤ p'.length)) ∧
      eval E W ctx (.call .concat [x, y]) = .ok (.simple (.string (a ++ b))) ∧
      eval E W ctx (.call .length [x]) = .ok (.simple (.int32 a.length)) := by
  have h := eval_args2 hx hy
  refine ⟨?_, eval_call h, ?_⟩
  · have e : eval E W ctx (.call .indexof [x, y]) =
        (setInt32 (match find b a with | some i => (i : Int) | none => -1)).map .simple := eval_call h
    obtain ⟨h1, h2⟩ := find_spec b a
    cases hf : find b a with
    | none =>
      rw [hf] at e
      exact ⟨-1, e, .inl ⟨rfl, h2.mp hf⟩⟩
    | some i =>
      rw [hf] at e
      obtain ⟨⟨p, q, h3, h4⟩, h5⟩ := (h1 i).mp hf
      have hle : p.length ≤ a.length := by
        rw [h3]; simp only [List.length_append]; omega
      have hr : range .int32 (i : Int) := by simp only [range]; omega
      refine ⟨i, ?_, .inr ⟨p, q, h3, by rw [h4], fun p' q' h => ?_⟩⟩
      · rw [e]
        show (setInt32 (i : Int)).map _ = _
        rw [setInt32_ok hr]
        rfl
      · rw [h4]; exact h5 p' q' h
  · have e : eval E W ctx (.call .length [x]) = (setInt32 (a.length : Int)).map .simple := eval_call (eval_args1 hx)
    rw [e, setInt32_ok (by simp only [range]; omega)]
    rfl

theorem glue_cons (sep p : Str) {ps : List Str} (h : ps ≠ []) : glue sep (p :: ps) = p ++ sep ++ glue sep ps := by
  cases ps with
  | nil => exact absurd rfl h
  | cons => rfl

/-- The pieces of a text between the places where a string is found. -/
theorem replace_pieces (a : Char) (old new : Str) : ∀ (n : Nat) (s : Str), s.length ≤ n →
    ∃ ps, ps ≠ [] ∧ s = glue (a :: old) ps ∧ replaceLoop a old new s = glue new ps ∧
      ∀ p ∈ ps, ∀ u v, p ≠ u ++ a :: old ++ v := by
  intro n
  have hnil : ∀ u v, ([] : Str) ≠ u ++ a :: old ++ v := by
    intro u v h
    cases u <;> cases h
  have base : ∃ ps, ps ≠ [] ∧ ([] : Str) = glue (a :: old) ps ∧ replaceLoop a old new [] = glue new ps ∧
      ∀ p ∈ ps, ∀ u v, p ≠ u ++ a :: old ++ v := by
    refine ⟨[[]], by simp, rfl, by rw [replaceLoop]; rfl, ?_⟩
    intro p hp
    rw [List.mem_singleton.mp hp]
    exact hnil
  induction n with
  | zero =>
    intro s hs
    cases s with
    | nil => exact base
    | cons => simp only [List.length_cons] at hs; omega
  | succ n ih =>
    intro s hs
    cases s with
    | nil => exact base
    | cons c t =>
      simp only [List.length_cons] at hs
      rw [replaceLoop]
      split
      · rename_i e
        obtain ⟨q, hq⟩ := List.isPrefixOf_iff_prefix.mp e
        injection hq with hc hq
        replace hq : old ++ q = t := hq
        have ht : t.drop old.length = q := by rw [← hq, List.drop_left]
        rw [ht]
        have hl : q.length ≤ t.length := by rw [← hq, List.length_append]; omega
        obtain ⟨ps, h1, h2, h3, h4⟩ := ih q (by omega)
        refine ⟨[] :: ps, by simp, ?_, ?_, ?_⟩
        · rw [glue_cons _ _ h1, ← h2, ← hq, ← hc]
          rfl
        · rw [glue_cons _ _ h1, h3]
          rfl
        · intro p hp
          rcases List.mem_cons.mp hp with rfl | hp
          · exact hnil
          · exact h4 p hp
      · rename_i e
        obtain ⟨ps, h1, h2, h3, h4⟩ := ih t (by omega)
        cases ps with
        | nil => exact absurd rfl h1
        | cons p ps =>
          have hcons : ∀ sep : Str, c :: glue sep (p :: ps) = glue sep ((c :: p) :: ps) := by
            intro sep
            cases ps with
            | nil => rfl
            | cons => rfl
          refine ⟨(c :: p) :: ps, by simp, by rw [h2, hcons], by rw [h3, hcons], ?_⟩
          intro r hr
          rcases List.mem_cons.mp hr with rfl | hr
          · intro u v h
            cases u with
            | nil =>
              apply e
              rw [List.isPrefixOf_iff_prefix]
              have ht : ∃ z, t = p ++ z := by
                cases ps with
                | nil => exact ⟨[], by rw [h2, List.append_nil]; rfl⟩
                | cons q qs => exact ⟨(a :: old) ++ glue (a :: old) (q :: qs), by rw [h2, glue_cons _ _ (by simp), List.append_assoc]⟩
              obtain ⟨z, hz⟩ := ht
              refine ⟨v ++ z, ?_⟩
              rw [hz, ← List.cons_append, h]
              simp
            | cons d u =>
              injection h with _ h
              exact h4 p (by simp) u v h
          · exact h4 r (by simp [hr])

/-- `replace` cuts the text where the second string is found, which is not empty, and puts the third one there; in the pieces
it is not found any more. -/
theorem text_replaced {E : Env} {W : World} {ctx : Option Value} {x y z : Expr} {s old new : Str}
    (hx : eval E W ctx x = .ok (.simple (.string s))) (hy : eval E W ctx y = .ok (.simple (.string old)))
    (hz : eval E W ctx z = .ok (.simple (.string new))) (ho : old ≠ []) :
    ∃ ps, s = glue old ps ∧ eval E W ctx (.call .replace [x, y, z]) = .ok (.simple (.string (glue new ps))) ∧
      ∀ p ∈ ps, ∀ u v, p ≠ u ++ old ++ v := by
  cases old with
  | nil => exact absurd rfl ho
  | cons a old =>
    obtain ⟨ps, _, h2, h3, h4⟩ := replace_pieces a old new s.length s (Nat.le_refl _)
    refine ⟨ps, h2, ?_, h4⟩
    have e : eval E W ctx (.call .replace [x, y, z]) = .ok (.simple (.string (replaceLoop a old new s))) :=
      eval_call (eval_args3 hx hy hz)
    rw [e, h3]

/-- `substring` skips as many characters as the second argument says and returns as many as the third one says, or all if
there is none. -/
theorem text_cut {E : Env} {W : World} {ctx : Option Value} {x y z : Expr} {s : Str} {i n : Nat}
    (hx : eval E W ctx x = .ok (.simple (.string s))) (hy : eval E W ctx y = .ok (.simple (.int32 i)))
    (hz : eval E W ctx z = .ok (.simple (.int32 n))) (hi : i ≤ s.length) :
    (∃ p r q, s = p ++ r ++ q ∧ p.length = i ∧ r.length = min n (s.length - i) ∧
      eval E W ctx (.call .substring [x, y, z]) = .ok (.simple (.string r))) ∧
      ∃ p r, s = p ++ r ∧ p.length = i ∧ eval E W ctx (.call .substring [x, y]) = .ok (.simple (.string r)) := by
  have hb : ∀ k : Nat, bound s.length (k : Int) = min k s.length := by
    intro k
    rw [bound, if_neg (by omega)]
    simp
  constructor
  · have e : eval E W ctx (.call .substring [x, y, z]) = .ok (.simple (.string (slice s i ((i : Int) + n)))) :=
      eval_call (eval_args3 hx hy hz)
    have hs : slice s i ((i : Int) + n) = (s.drop i).take n := by
      have : (i : Int) + n = ((i + n : Nat) : Int) := by omega
      rw [slice, this, hb, hb, Nat.min_eq_left hi]
      rcases Nat.le_total (i + n) s.length with h | h
      · rw [Nat.min_eq_left h]
        congr 1
        omega
      · rw [Nat.min_eq_right h, List.take_of_length_le (by simp), List.take_of_length_le (by simp; omega)]
    rw [hs] at e
    refine ⟨s.take i, _, (s.drop i).drop n, ?_, by simp [hi], by simp, e⟩
    rw [List.append_assoc, List.take_append_drop, List.take_append_drop]
  · have e : eval E W ctx (.call .substring [x, y]) = .ok (.simple (.string (slice s i (s.length : Int)))) :=
      eval_call (eval_args2 hx hy)
    have hs : slice s i (s.length : Int) = s.drop i := by
      rw [slice, hb, hb, Nat.min_eq_left hi, Nat.min_self, List.take_of_length_le (by simp)]
    rw [hs] at e
    exact ⟨s.take i, _, (List.take_append_drop i s).symm, by simp [hi], e⟩

theorem dropWhile_split (f : Char → Bool) (s : Str) :
    ∃ u, s = u ++ s.dropWhile f ∧ (∀ c ∈ u, f c = true) ∧ ∀ c t, s.dropWhile f = c :: t → f c = false := by
  induction s with
  | nil => exact ⟨[], rfl, by simp, fun c t h => by cases h⟩
  | cons d t ih =>
    by_cases h : f d
    · obtain ⟨u, h1, h2, h3⟩ := ih
      have e : (d :: t).dropWhile f = t.dropWhile f := by simp [h]
      refine ⟨d :: u, ?_, ?_, ?_⟩
      · rw [e, List.cons_append, ← h1]
      · intro c hc
        rcases List.mem_cons.mp hc with rfl | hc
        · exact h
        · exact h2 c hc
      · rw [e]; exact h3
    · have e : (d :: t).dropWhile f = d :: t := by simp [h]
      refine ⟨[], by rw [e]; rfl, by simp, ?_⟩
      intro c u hc
      rw [e] at hc
      cases hc
      simpa using h

/-- `trim` takes the white space off both ends, and nothing else. -/
theorem text_trimmed {E : Env} {W : World} {ctx : Option Value} {x : Expr} {s : Str}
    (hx : eval E W ctx x = .ok (.simple (.string s))) :
    ∃ u r v, s = u ++ r ++ v ∧ eval E W ctx (.call .trim [x]) = .ok (.simple (.string r)) ∧
      (∀ c ∈ u ++ v, E.space c = true) ∧ (∀ c t, r = c :: t → E.space c = false) ∧
      ∀ c t, r = t ++ [c] → E.space c = false := by
  obtain ⟨u, h1, h2, h3⟩ := dropWhile_split E.space s
  obtain ⟨v, h4, h5, h6⟩ := dropWhile_split E.space (s.dropWhile E.space).reverse
  have hs : s.dropWhile E.space = strip E s ++ v.reverse := by
    have := congrArg List.reverse h4
    rw [List.reverse_reverse, List.reverse_append] at this
    exact this
  refine ⟨u, strip E s, v.reverse, ?_, eval_call (eval_args1 hx), ?_, ?_, ?_⟩
  · rw [List.append_assoc, ← hs, ← h1]
  · intro c hc
    rcases List.mem_append.mp hc with hc | hc
    · exact h2 c hc
    · exact h5 c (List.mem_reverse.mp hc)
  · intro c t h
    refine h3 c (t ++ v.reverse) ?_
    rw [hs, h]
    rfl
  · intro c t h
    refine h6 c t.reverse ?_
    have := congrArg List.reverse h
    rw [strip, List.reverse_reverse, List.reverse_append] at this
    exact this

/-- The parts of a point of time. -/
theorem dates_taken_apart {E : Env} {W : World} {ctx : Option Value} {x : Expr} {d : Cal.Date} {h m s : Nat} {f : Str}
    (hx : eval E W ctx x = .ok (.simple (.dateTime d h m s f))) (hd : range .int32 (d.century * 100 + d.year))
    (hmo : range .int32 d.month) (hda : range .int32 d.day) (hh : h < 2 ^ 31) (hm : m < 2 ^ 31) (hs : s < 2 ^ 31) :
    eval E W ctx (.call .year [x]) = .ok (.simple (.int32 (d.century * 100 + d.year))) ∧
      eval E W ctx (.call .month [x]) = .ok (.simple (.int32 d.month)) ∧
      eval E W ctx (.call .day [x]) = .ok (.simple (.int32 d.day)) ∧
      eval E W ctx (.call .hour [x]) = .ok (.simple (.int32 h)) ∧
      eval E W ctx (.call .minute [x]) = .ok (.simple (.int32 m)) ∧
      eval E W ctx (.call .second [x]) = .ok (.simple (.int32 s)) := by
  have nat : ∀ n : Nat, n < 2 ^ 31 → range .int32 (n : Int) := by
    intro n hn
    simp only [range]
    omega
  have step : ∀ (me : Meth) (n : Int), method E me [.simple (.dateTime d h m s f)] = (setInt32 n).map .simple →
      range .int32 n → eval E W ctx (.call me [x]) = .ok (.simple (.int32 n)) := by
    intro me n h1 h2
    rw [eval_call (eval_args1 hx), h1, setInt32_ok h2]
    rfl
  exact ⟨step _ _ rfl hd, step _ _ rfl hmo, step _ _ rfl hda, step _ _ rfl (nat h hh), step _ _ rfl (nat m hm),
    step _ _ rfl (nat s hs)⟩

/-- A null instead of a string makes the result null, of the type the result has otherwise. -/
theorem text_null {E : Env} {W : World} {ctx : Option Value} {x y : Expr} {o : Option Ty} {r : SVal}
    (ho : o = none ∨ o = some .string) (hr : r.ty = none ∨ r.ty = some .string)
    (hx : eval E W ctx x = .ok (.simple (.null o))) (hy : eval E W ctx y = .ok (.simple r)) :
    (∀ m, m = .startswith ∨ m = .endswith ∨ m = .substringof →
      eval E W ctx (.call m [x, y]) = .ok (.simple (.null (some .boolean))) ∧
      eval E W ctx (.call m [y, x]) = .ok (.simple (.null (some .boolean)))) ∧
      eval E W ctx (.call .indexof [x, y]) = .ok (.simple (.null (some .int32))) ∧
      eval E W ctx (.call .indexof [y, x]) = .ok (.simple (.null (some .int32))) ∧
      ∀ m, m = .tolower ∨ m = .toupper ∨ m = .trim →
        eval E W ctx (.call m [x]) = .ok (.simple (.null (some .string))) := by
  have shape : (∃ u, r = .null u ∧ (u = none ∨ u = some .string)) ∨ ∃ b, r = .string b := by
    cases r with
    | null u => exact .inl ⟨u, rfl, hr⟩
    | string b => exact .inr ⟨b, rfl⟩
    | bool | byte | sbyte | int16 | int32 | int64 | decimal | double | single | binary | guid | dateTime | time | offset =>
      rcases hr with h | h <;> cases h
  have hxy := eval_args2 hx hy
  have hyx := eval_args2 hy hx
  refine ⟨?_, ?_, ?_, ?_⟩
  · intro m hm
    rw [eval_call hxy, eval_call hyx]
    rcases hm with rfl | rfl | rfl <;> rcases shape with ⟨u, rfl, rfl | rfl⟩ | ⟨b, rfl⟩ <;> rcases ho with rfl | rfl <;>
      exact ⟨rfl, rfl⟩
  · rw [eval_call hxy]
    rcases shape with ⟨u, rfl, rfl | rfl⟩ | ⟨b, rfl⟩ <;> rcases ho with rfl | rfl <;> rfl
  · rw [eval_call hyx]
    rcases shape with ⟨u, rfl, rfl | rfl⟩ | ⟨b, rfl⟩ <;> rcases ho with rfl | rfl <;> rfl
  · intro m hm
    rw [eval_call (eval_args1 hx)]
    rcases hm with rfl | rfl | rfl <;> rcases ho with rfl | rfl <;> rfl

/-- `indexof('abcb','b')` is `1`; `replace('abcb','b','xy')` has the pieces `a`, `c` and an empty one; `substringof('bc','abcb')`
is true. -/
theorem text_example {E : Env} {W : World} {ctx : Option Value} :
    eval E W ctx (.call .indexof [.lit (.string "abcb".toList), .lit (.string ['b'])]) = .ok (.simple (.int32 1)) ∧
      eval E W ctx (.call .replace [.lit (.string "abcb".toList), .lit (.string ['b']), .lit (.string "xy".toList)]) =
        .ok (.simple (.string "axycxy".toList)) ∧
      glue ['b'] [['a'], ['c'], []] = "abcb".toList ∧ glue "xy".toList [['a'], ['c'], []] = "axycxy".toList ∧
      eval E W ctx (.call .substringof [.lit (.string "bc".toList), .lit (.string "abcb".toList)]) =
        .ok (.simple (.bool true)) := by
  refine ⟨rfl, ?_, rfl, rfl, rfl⟩
  have e : eval E W ctx (.call .replace [.lit (.string "abcb".toList), .lit (.string ['b']), .lit (.string "xy".toList)]) =
      .ok (.simple (.string (replaceLoop 'b' [] "xy".toList "abcb".toList))) := rfl
  rw [e]
  simp [replaceLoop]

end Verif.Props
