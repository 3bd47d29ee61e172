import Verif.Props.Abnf

/-!
# Rules of grammars: definitions, and data that are refused or never decided
-/

namespace Verif.Props.Abnf
open Verif Verif.Abnf Verif.Spec.Abnf

/-! ## Definitions -/

/-- The strings of a rule depend on its definition alone. -/
theorem derives_congr {look : Nat → Option Rule} {i j : Nat} (h : look i = look j) {s : Text} (hd : Derives look i s) :
    Derives look j s := by
  cases hd with
  | terminal hl => exact .terminal (h ▸ hl)
  | literal hl h1 => exact .literal (h ▸ hl) h1
  | range hl h1 h2 => exact .range (h ▸ hl) h1 h2
  | seq hl h1 => exact .seq (h ▸ hl) h1
  | alt hl h1 h2 => exact .alt (h ▸ hl) h1 h2
  | rep hl h1 h2 h3 => exact .rep (h ▸ hl) h1 h2 h3
  | alias hl h1 => exact .alias (h ▸ hl) h1

theorem derives_same {look : Nat → Option Rule} {i j : Nat} (h : look i = look j) (s : Text) :
    Derives look i s ↔ Derives look j s := ⟨derives_congr h, derives_congr h.symm⟩

theorem derives_alias {look : Nat → Option Rule} {i j : Nat} (h : look i = some (.alias j)) (s : Text) :
    Derives look i s ↔ Derives look j s := by
  constructor
  · intro hd
    cases hd <;> rename_i hl <;> simp_all
  · exact .alias h

theorem derives_two {look : Nat → Option Rule} {i j k : Nat} (h : look i = some (.alt [j, k])) (s : Text) :
    Derives look i s ↔ Derives look j s ∨ Derives look k s := by
  constructor
  · intro hd
    cases hd with
    | alt hl hr hd =>
      rw [h] at hl
      cases hl
      simp only [List.mem_cons, List.not_mem_nil, or_false] at hr
      rcases hr with rfl | rfl
      · exact .inl hd
      · exact .inr hd
    | terminal hl => rw [h] at hl; cases hl
    | literal hl => rw [h] at hl; cases hl
    | range hl => rw [h] at hl; cases hl
    | seq hl => rw [h] at hl; cases hl
    | rep hl => rw [h] at hl; cases hl
    | «alias» hl => rw [h] at hl; cases hl
  · rintro (hd | hd)
    · exact .alt h (by simp) hd
    · exact .alt h (by simp) hd

theorem find_put (d : List (Text × Nat)) (k : Text) (v : Nat) : find (put d k v) k = some v := by
  simp [find, put]

theorem find_put_other (d : List (Text × Nat)) {k l : Text} (v : Nat) (h : l ≠ k) : find (put d k v) l = find d l := by
  unfold find put
  rw [List.find?_cons_of_neg (by simpa using fun e => h e.symm), List.find?_filter]
  congr 1
  congr 1
  funext e
  by_cases he : e.1 = l
  · subst he; simp [h]
  · simp [he]

/-- C331.  A rule that is added has its definition; other rules keep theirs, and names theirs. -/
theorem abnf_add_rule (b : Base) (r : Rule) :
    (b.addRule r).1.look (b.addRule r).2 = some r ∧ (∀ i d, b.look i = some d → (b.addRule r).1.look i = some d) ∧
    (b.addRule r).1.ruleID = b.ruleID := by
  unfold Base.addRule
  split
  · next i hi =>
    refine ⟨?_, fun _ _ h => h, rfl⟩
    obtain ⟨hlt, hp, _⟩ := List.findIdx?_eq_some_iff_getElem.1 hi
    simp only [Base.look, List.getElem?_eq_getElem hlt, Option.map_some]
    simpa using hp
  · refine ⟨by simp [Base.look], ?_, rfl⟩
    intro i d h
    unfold Base.look at h ⊢
    dsimp only
    cases hg : b.rules[i]? with
    | none => rw [hg] at h; cases h
    | some e =>
      obtain ⟨hlt, _⟩ := List.getElem?_eq_some_iff.1 hg
      rw [List.getElem?_append_left hlt, hg]
      rw [hg] at h
      exact h

/-- C332.  After the definition of a name, the name and — if it was declared before — the rules that referred to it have the strings
of the rule that it was defined as; names in another case are the same name. -/
theorem abnf_define_rule (b b' : Base) (name : Text) (i : Nat) (h : b.defineRule name false i = .ok b') :
    (∃ k, (∀ other, lower other = lower name → b'.getRuleID other = .ok k) ∧ ∀ s, Derives b'.look k s ↔ Derives b'.look i s) ∧
    (∀ old, b.getRuleID name = .ok old → ∀ s, Derives b'.look old s ↔ Derives b'.look i s) ∧
    (∀ other, lower other ≠ lower name → b'.getRuleID other = b.getRuleID other) := by
  have getput : ∀ (rs : List (Option Text × Rule)) (k : Nat) (other : Text), lower other = lower name →
      (⟨rs, put b.ruleID (lower name) k⟩ : Base).getRuleID other = .ok k := by
    intro rs k other ho
    simp only [Base.getRuleID, ho, find_put]
  have getother : ∀ (rs : List (Option Text × Rule)) (k : Nat) (other : Text), lower other ≠ lower name →
      (⟨rs, put b.ruleID (lower name) k⟩ : Base).getRuleID other = b.getRuleID other := by
    intro rs k other ho
    simp only [Base.getRuleID, find_put_other _ _ ho]
  unfold Base.defineRule at h
  split at h
  · exact nomatch h
  · next rule hrule =>
    obtain ⟨hi, hget⟩ := List.getElem?_eq_some_iff.1 hrule
    simp only [if_true] at h
    split at h
    · next old hold =>
      have hid : ∀ k, b.getRuleID name = .ok k → k = old := by
        intro k hk
        simp only [Base.getRuleID, hold] at hk
        cases hk
        rfl
      split at h
      · exact nomatch h
      · next oldRule holdRule =>
        obtain ⟨ho, _⟩ := List.getElem?_eq_some_iff.1 holdRule
        split at h
        · split at h
          · cases h
            have heq : ∀ s, Derives (Base.look ⟨b.rules.set old (some name, rule.2), put b.ruleID (lower name) old⟩) old s ↔
                Derives (Base.look ⟨b.rules.set old (some name, rule.2), put b.ruleID (lower name) old⟩) i s := by
              apply derives_same
              simp only [Base.look]
              rw [List.getElem?_set_self ho]
              by_cases hio : old = i
              · subst hio; rw [List.getElem?_set_self ho]
              · rw [List.getElem?_set_ne hio, hrule]; rfl
            exact ⟨⟨old, getput _ _, heq⟩, fun k hk => hid k hk ▸ heq, getother _ _⟩
          · split at h
            · next hio =>
              cases h
              exact ⟨⟨i, getput _ _, fun _ => Iff.rfl⟩, fun k hk s => by rw [hid k hk, hio], getother _ _⟩
            · next hio =>
              cases h
              refine ⟨⟨i, getput _ _, fun _ => Iff.rfl⟩, fun k hk => ?_, getother _ _⟩
              rw [hid k hk]
              apply derives_alias
              simp only [Base.look]
              rw [List.getElem?_set_ne hio, List.getElem?_set_self ho]
              rfl
        · exact nomatch h
    · next hnone =>
      have hno : ∀ k, b.getRuleID name ≠ .ok k := by
        intro k hk
        simp only [Base.getRuleID, hnone] at hk
        exact nomatch hk
      split at h
      · cases h
        refine ⟨⟨b.rules.length, getput _ _, ?_⟩, fun k hk => absurd hk (hno k), getother _ _⟩
        apply derives_same
        simp only [Base.look]
        rw [List.getElem?_append_left hi, hrule, List.getElem?_append_right (Nat.le_refl _)]
        simp
      · cases h
        exact ⟨⟨i, getput _ _, fun _ => Iff.rfl⟩, fun k hk => absurd hk (hno k), getother _ _⟩

/-- C333, without names in upper case and for the name alone: alternatives that are added to a name are strings of it. -/
theorem abnf_incremental_partial (b b' : Base) (name : Text) (hn : lower name = name) (i : Nat)
    (h : b.defineRule name true i = .ok b') :
    ∃ old k, b.getRuleID name = .ok old ∧ b'.getRuleID name = .ok k ∧
      ∀ s, Derives b'.look k s ↔ Derives b'.look old s ∨ Derives b'.look i s := by
  unfold Base.defineRule at h
  split at h
  · exact nomatch h
  · simp only [Bool.true_eq_false, if_false] at h
    split at h
    · exact nomatch h
    · next j hj =>
      rw [hn] at hj
      split at h
      · exact nomatch h
      · next basic hb =>
        split at h
        · exact nomatch h
        · split at h
          · exact nomatch h
          · cases h
            refine ⟨basic, b.rules.length, by simp only [Base.getRuleID, hn, hb], by simp only [Base.getRuleID, find_put], ?_⟩
            apply derives_two
            simp only [Base.look]
            rw [List.getElem?_append_right (by simp)]
            simp

/-- The rule bases that calls make. -/
inductive Reach : Base → Prop
  | empty : Reach Abnf.empty
  | add {b} (r : Rule) : Reach b → Reach (b.addRule r).1
  | declare {b} (name : Text) : Reach b → Reach (b.declareRule name).1
  | define {b b'} (name : Text) (incremental : Bool) (i : Nat) : Reach b → b.defineRule name incremental i = .ok b' → Reach b'

theorem lowerChar_idem (c : Nat) : lowerChar (lowerChar c) = lowerChar c := by
  unfold lowerChar
  repeat' split
  all_goals omega

theorem lower_idem (s : Text) : lower (lower s) = lower s := by
  unfold lower
  rw [List.map_map]
  exact List.map_congr_left fun c _ => lowerChar_idem c

theorem keys_put {d : List (Text × Nat)} (h : ∀ e ∈ d, lower e.1 = e.1) (name : Text) (v : Nat) :
    ∀ e ∈ put d (lower name) v, lower e.1 = e.1 := by
  intro e he
  rcases List.mem_cons.1 he with rfl | he
  · exact lower_idem name
  · exact h e (List.mem_filter.1 he).1

theorem reach_keys {b : Base} (h : Reach b) : ∀ e ∈ b.ruleID, lower e.1 = e.1 := by
  induction h with
  | empty => exact fun _ h => nomatch h
  | add r _ ih => rw [(abnf_add_rule _ r).2.2]; exact ih
  | declare name _ ih =>
    unfold Base.declareRule
    split
    · exact ih
    · exact keys_put ih name _
  | define name inc i _ hd ih =>
    unfold Base.defineRule at hd
    repeat' split at hd
    all_goals cases hd
    all_goals exact keys_put ih name _

/-- C333 is refuted: no alternatives can be added to a name with a letter in upper case, whatever was defined before. -/
theorem abnf_incremental_upper_refuted (b : Base) (h : Reach b) (name : Text) (hn : lower name ≠ name) (i : Nat) (b' : Base) :
    b.defineRule name true i ≠ .ok b' := by
  have hf : find b.ruleID name = none := by
    unfold find
    rw [Option.map_eq_none_iff, List.find?_eq_none]
    intro e he heq
    have : e.1 = name := by simpa using heq
    exact hn (this ▸ reach_keys h e he)
  unfold Base.defineRule
  simp only [Bool.true_eq_false, if_false, hf]
  repeat' split
  all_goals exact fun h => nomatch h

/-- Calls in turn: a definition of `a` as "x", of `b` as `a a`, and "y" added to `a`. -/
def laterAlternative : Except Fail Base := do
  let (b, x) := empty.addRule (.literal [120])
  let b ← b.defineRule [97] false x
  let (b, a) := b.declareRule [97]
  let (b, aa) := b.addRule (.seq [a, a])
  let b ← b.defineRule [98] false aa
  let (b, y) := b.addRule (.literal [121])
  b.defineRule [97] true y

/-- C333 is refuted: alternatives that are added to a name are not strings of it in rules that were defined before — `b` is `a a`
and `a` has "y", but `b` has only "xx". -/
theorem abnf_incremental_reference_refuted :
    ∃ b i j, laterAlternative = .ok b ∧ b.getRuleID [97] = .ok i ∧ b.getRuleID [98] = .ok j ∧ Derives b.look i [121] ∧
      ¬ Derives b.look j [121, 121] := by
  refine ⟨⟨[(none, .literal [120]), (some [98], .seq [0, 0]), (none, .literal [121]), (some [97], .alt [0, 2])],
    [([97], 3), ([98], 1)]⟩, 3, 1, by decide +kernel, by decide +kernel, by decide +kernel, ?_, ?_⟩
  · refine Derives.alt (r := 2) (rs := [0, 2]) rfl (by simp) ?_
    exact Derives.literal (ps := [(121, 121)]) rfl (by simp [SameLetter])
  · intro h
    have hs : Sensible (Base.look ⟨[(none, .literal [120]), (some [98], .seq [0, 0]), (none, .literal [121]),
        (some [97], .alt [0, 2])], [([97], 3), ([98], 1)]⟩) := by
      constructor
      · intro i rs hl
        match i with
        | 0 => cases hl
        | 1 => cases hl
        | 2 => cases hl
        | 3 => cases hl; simp
        | n + 4 => simp [Base.look] at hl
      · intro i min m r hl
        match i with
        | 0 => cases hl
        | 1 => cases hl
        | 2 => cases hl
        | 3 => cases hl
        | n + 4 => simp [Base.look] at hl
    have h1 := (wants_none hs).2 h
    change Seq _ [0, 0] [121, 121] at h1
    obtain ⟨a, b, hab, ha, hb⟩ := seq_cons.1 h1
    have ha := (wants_none hs).2 ha
    change lower a = lower [120] at ha
    match a, hab with
    | [], _ => cases ha
    | c :: cs, hab =>
      simp only [List.cons_append, List.cons.injEq] at hab
      obtain ⟨rfl, _⟩ := hab
      simp [lower, lowerChar] at ha

/-- Calls in turn: `a` is defined as `b`, and then `b` as "x". -/
def forward : Except Fail Base := do
  let (b, i) := empty.declareRule [98]
  let b ← b.defineRule [97] false i
  let (b, x) := b.addRule (.literal [120])
  b.defineRule [98] false x

/-- C334 is refuted: a name that is defined as another, which is defined later, has no strings; nothing is generated from it or
accepted for it. -/
theorem abnf_forward_refuted :
    ∃ b i j, forward = .ok b ∧ b.getRuleID [97] = .ok i ∧ b.getRuleID [98] = .ok j ∧ Derives b.look j [120] ∧
      (∀ s, ¬ Derives b.look i s) ∧ (∀ rnd opt turns s, generate b rnd opt [97] turns ≠ some (.ok s)) := by
  refine ⟨⟨[(none, .alias 2), (some [97], .undefined), (some [98], .literal [120])], [([98], 2), ([97], 1)]⟩, 1, 2,
    by decide +kernel, by decide +kernel, by decide +kernel, ?_, ?_, ?_⟩
  · exact Derives.literal (ps := [(120, 120)]) rfl (by simp [SameLetter])
  · intro s h
    cases h <;> simp_all [Base.look]
  · intro rnd opt turns s
    cases turns with
    | zero => exact fun h => nomatch h
    | succ n => exact fun h => nomatch h

/-! ## Data that are refused, accepted too soon, or never decided -/

theorem insert_perm (t : Thread) : ∀ l : List Thread, (insertThread t l).Perm (t :: l)
  | [] => List.Perm.refl _
  | u :: us => by
    unfold insertThread
    split
    · exact List.Perm.refl _
    · exact ((insert_perm t us).cons u).trans (List.Perm.swap t u us)

/-- The order of Python is one of those that the theorems allow. -/
theorem pySort_perm : ∀ l : List Thread, (pySort l).Perm l
  | [] => List.Perm.refl _
  | t :: ts => (insert_perm t (pySort ts)).trans ((pySort_perm ts).cons t)

/-- A grammar with one rule, `x = "a" / "b"`. -/
def choice : Base := ⟨[(none, .literal [97]), (none, .literal [98]), (some [120], .alt [0, 1])], [([120], 2)]⟩

theorem choice_reach : Reach choice := by
  have h : ((((empty.addRule (.literal [97])).1.addRule (.literal [98])).1.addRule (.alt [0, 1])).1).defineRule [120] false 2 =
      .ok choice := by decide +kernel
  exact .define _ _ _ (.add _ (.add _ (.add _ .empty))) h

theorem choice_sensible : Sensible choice.look := by
  constructor
  · intro i rs hl
    match i with
    | 0 => cases hl
    | 1 => cases hl
    | 2 => cases hl; simp
    | n + 3 => simp [Base.look, choice] at hl
  · intro i min m r hl
    match i with
    | 0 => cases hl
    | 1 => cases hl
    | 2 => cases hl
    | n + 3 => simp [Base.look, choice] at hl

/-- C328 is not empty: "A" is accepted for `x` with the right name, and "aAb" for `x = 2"a"` as it is. -/
theorem choice_accepts : validate choice pySort true [120] [65] 10 = some (.ok ()) ∧
    validate ⟨[(none, .literal [97]), (some [120], .rep 2 (some 2) 0)], [([120], 1)]⟩ pySort false [120] [97, 65, 98] 10 =
      some (.ok ()) := by decide +kernel

/-- C330 is not empty: "b" is generated from `x` when the last number is taken. -/
theorem choice_generates : generate choice (fun _ _ hi => hi - 1) 3 [120] 10 = some (.ok [98]) := by decide +kernel

/-- C329 is not empty: "c" is refused as invalid by the program with the right name. -/
theorem choice_refuses : validate choice pySort true [120] [99] 10 = some (.error .invalid) := by decide +kernel

/-- C329 is refuted: "b", which is a string of `x` and was generated from `x`, is refused. -/
theorem abnf_refused_refuted :
    ∃ i, choice.getRuleID [120] = .ok i ∧ Derives choice.look i [98] ∧
      generate choice (fun _ _ hi => hi - 1) 3 [120] 10 = some (.ok [98]) ∧
      validate choice pySort false [120] [98] 10 = some (.error .name) := by
  refine ⟨2, by decide +kernel, ?_, choice_generates, by decide +kernel⟩
  refine Derives.alt (r := 1) (rs := [0, 1]) rfl (by simp) ?_
  exact Derives.literal (ps := [(98, 98)]) rfl (by simp [SameLetter])

/-- C329 is refuted, for all data: nothing at all is accepted for `x = "a" / "b"`. -/
theorem abnf_choice_refuted (data : Text) : validate choice pySort false [120] data 10 = some (.error .name) := by
  have hid : choice.getRuleID [120] = .ok 2 := by decide +kernel
  unfold validate
  rw [hid]
  by_cases ha : lower (data.take 1) = lower [97]
  · have hb : ¬ lower [97] = lower [98] := by decide +kernel
    simp [loop, pySort, insertThread, turn, Base.look, choice, next, threadLe, stackLe, entryLt, ha, hb]
  · simp [loop, pySort, insertThread, turn, Base.look, choice, next, threadLe, stackLe, entryLt, ha]

theorem turn_nonempty {look : Nat → Option Rule} {data : Text} {pos : Nat} {e : Entry} {st : List Entry} {ts : List Thread}
    (h : turn look data pos e st = .ok ts) : ts ≠ [] := by
  unfold turn at h
  repeat' split at h
  all_goals cases h
  all_goals simp

theorem loop_errors {look : Nat → Option Rule} {sort : List Thread → List Thread} (hp : ∀ l, (sort l).Perm l) {data : Text}
    {f : Fail} : ∀ (n : Nat) (ts : List Thread), ts ≠ [] → loop look sort false data n ts = some (.error f) → f = .name
  | 0, _, _, h => nomatch h
  | n + 1, ts, hne, h => by
    rw [loop.eq_def] at h
    dsimp only at h
    split at h
    · next hsort =>
      have := hp ts
      rw [hsort] at this
      exact absurd this.symm.eq_nil hne
    · exact nomatch h
    · split at h
      · next hturn =>
        refine loop_errors hp n _ ?_ h
        intro he
        exact turn_nonempty hturn (List.append_eq_nil_iff.1 he).2
      · simp only [if_true] at h
        cases h
        rfl

/-- C335 is refuted: no data whatever are reported as invalid; when data are refused for a rule with a known name, the error is that
a name in the program is not defined. -/
theorem abnf_invalid_refuted (b : Base) (sort : List Thread → List Thread) (hp : ∀ l, (sort l).Perm l) (name data : Text) (i : Nat)
    (hi : b.getRuleID name = .ok i) (turns : Nat) (f : Fail) (h : validate b sort false name data turns = some (.error f)) :
    f = .name := by
  unfold validate at h
  rw [hi] at h
  exact loop_errors hp turns _ (by simp) h

/-- C336 is refuted: data that only start with a string of a rule are accepted, whatever comes after it. -/
theorem abnf_whole_refuted (t : Text) (caught : Bool) :
    validate ⟨[(some [120], .literal [97])], [([120], 0)]⟩ pySort caught [120] (97 :: t) 2 = some (.ok ()) := by
  simp [validate, Base.getRuleID, find, lower, lowerChar, loop, pySort, insertThread, turn, Base.look]

/-- A grammar with the rules `x = *"" y` and `y = "b"`. -/
def idle : Base :=
  ⟨[(none, .literal []), (none, .rep 0 none 0), (none, .alias 4), (some [120], .seq [1, 2]), (some [121], .literal [98])],
    [([121], 4), ([120], 3)]⟩

/-- The calls that make it, in the order of its text. -/
def idleCalls : Except Fail Base := do
  let (b, e) := empty.addRule (.literal [])
  let (b, r) := b.addRule (.rep 0 none e)
  let (b, y) := b.declareRule [121]
  let (b, s) := b.addRule (.seq [r, y])
  let b ← b.defineRule [120] false s
  let (b, l) := b.addRule (.literal [98])
  b.defineRule [121] false l

theorem idle_calls : idleCalls = .ok idle := by decide +kernel

/-- The parser that would accept "b". -/
def waiting : Thread := (0, [(4, none)])

/-- The parser that has repeated nothing so often, and the ones that come of it. -/
def again (k : Nat) : Thread := (0, [(0, none), (1, some k), (3, some 0)])
def again' (k : Nat) : Thread := (0, [(1, some k), (3, some 0)])
def done : Thread := (0, [(3, some 0)])
def done' : Thread := (0, [(2, none)])

theorem insert_waiting : ∀ m, insertThread waiting (List.replicate m waiting) = List.replicate (m + 1) waiting
  | 0 => rfl
  | m + 1 => by
    have : threadLe waiting waiting = true := by decide +kernel
    rw [List.replicate_succ]
    simp only [insertThread, this, if_true]
    rfl

theorem insert_before {t : Thread} (h : threadLe t waiting = true) : ∀ m,
    insertThread t (List.replicate m waiting) = t :: List.replicate m waiting
  | 0 => rfl
  | m + 1 => by
    rw [List.replicate_succ]
    simp only [insertThread, h, if_true]

theorem sort_waiting : ∀ m, pySort (List.replicate m waiting) = List.replicate m waiting
  | 0 => rfl
  | m + 1 => by
    rw [List.replicate_succ, pySort, sort_waiting m, insert_waiting, ← List.replicate_succ]

theorem sort_one {t : Thread} (h : threadLe waiting t = false) : ∀ m,
    pySort (List.replicate m waiting ++ [t]) = t :: List.replicate m waiting
  | 0 => rfl
  | m + 1 => by
    rw [List.replicate_succ, List.cons_append, pySort, sort_one h m]
    simp only [insertThread, h, Bool.false_eq_true, if_false]
    rw [insert_waiting]
    rfl

theorem sort_two {t u : Thread} (h : threadLe waiting t = false) (h' : threadLe waiting u = false) (h2 : threadLe t u = true) : ∀ m,
    pySort (List.replicate m waiting ++ [t, u]) = t :: u :: List.replicate m waiting
  | 0 => by simp [pySort, insertThread, h2]
  | m + 1 => by
    rw [List.replicate_succ, List.cons_append, pySort, sort_two h h' h2 m]
    simp only [insertThread, h, h', Bool.false_eq_true, if_false]
    rw [insert_waiting]
    rfl

theorem again_le (k : Nat) : threadLe (again k) waiting = true := by
  simp [threadLe, again, waiting, stackLe, entryLt]

theorem le_again (k : Nat) : threadLe waiting (again k) = false := by
  simp [threadLe, again, waiting, stackLe, entryLt]

theorem le_again' (k : Nat) : threadLe waiting (again' k) = false := by
  simp [threadLe, again', waiting, stackLe, entryLt]

theorem done_le (k : Nat) : threadLe done (again k) = true := by
  simp [threadLe, again, done, stackLe]

theorem again_done' (k : Nat) : threadLe (again k) done' = false := by
  simp [threadLe, again, done', stackLe, entryLt]

theorem loop_turn {look : Nat → Option Rule} {caught : Bool} {data : Text} {n pos : Nat} {L rest ts : List Thread} {e : Entry}
    {st : List Entry} (h : pySort L = (pos, e :: st) :: rest) (ht : turn look data pos e st = .ok ts) :
    loop look pySort caught data (n + 1) L = loop look pySort caught data n (rest ++ ts) := by
  rw [loop.eq_def]
  dsimp only
  rw [h]
  dsimp only
  rw [ht]

theorem idle_loop (caught : Bool) (data : Text) : ∀ n : Nat,
    (∀ k m L, pySort L = again k :: List.replicate m waiting → loop idle.look pySort caught data n L = none) ∧
    (∀ k m L, pySort L = again' k :: List.replicate m waiting → loop idle.look pySort caught data n L = none) ∧
    (∀ k m L, pySort L = done :: again k :: List.replicate m waiting → loop idle.look pySort caught data n L = none) ∧
    (∀ k m L, pySort L = done' :: again k :: List.replicate m waiting → loop idle.look pySort caught data n L = none)
  | 0 => ⟨fun _ _ _ _ => rfl, fun _ _ _ _ => rfl, fun _ _ _ _ => rfl, fun _ _ _ _ => rfl⟩
  | n + 1 => by
    obtain ⟨h1, h2, h3, h4⟩ := idle_loop caught data n
    refine ⟨?_, ?_, ?_, ?_⟩
    · intro k m L hL
      rw [loop_turn (ts := [again' k]) hL (by simp [turn, idle, Base.look, again', lower])]
      exact h2 k m _ (sort_one (le_again' k) m)
    · intro k m L hL
      rw [loop_turn (ts := [done, again (k + 1)]) hL (by simp [turn, idle, Base.look, again, done, next])]
      exact h3 (k + 1) m _ (sort_two (by decide +kernel) (le_again _) (done_le _) m)
    · intro k m L hL
      rw [loop_turn (ts := [done']) hL (by simp [turn, idle, Base.look, done', next])]
      refine h4 k m _ ?_
      rw [List.cons_append, pySort, sort_one (by decide +kernel) m]
      simp only [insertThread, again_done', Bool.false_eq_true, if_false]
      rw [insert_before (again_le k)]
    · intro k m L hL
      rw [loop_turn (ts := [waiting]) hL (by simp [turn, idle, Base.look, waiting])]
      refine h1 k (m + 1) _ ?_
      rw [List.cons_append, ← List.replicate_succ', pySort, sort_waiting, insert_before (again_le k)]

/-- C337 is refuted: for `x = *"" y` and `y = "b"`, no data are ever accepted or refused — not "b", which is a string of `x` —
whether or not the name of the error is right. -/
theorem abnf_decides_refuted :
    ∃ i, idle.getRuleID [120] = .ok i ∧ Derives idle.look i [98] ∧
      ∀ caught data turns, validate idle pySort caught [120] data turns = none := by
  refine ⟨3, by decide +kernel, ?_, ?_⟩
  · refine Derives.seq (ps := [(1, []), (2, [98])]) rfl ?_
    intro p hp
    simp only [List.mem_cons, List.not_mem_nil, or_false] at hp
    rcases hp with rfl | rfl
    · exact Derives.rep (ss := []) rfl (fun _ h => nomatch h) (Nat.le_refl 0) (fun _ h => nomatch h)
    · exact Derives.alias rfl (Derives.literal (ps := [(98, 98)]) rfl (by simp [SameLetter]))
  · intro caught data turns
    have hid : idle.getRuleID [120] = .ok 3 := by decide +kernel
    unfold validate
    rw [hid]
    dsimp only
    cases turns with
    | zero => rfl
    | succ n =>
      rw [loop_turn (ts := [(0, [(1, none), (3, some 0)])]) (rest := []) rfl (by simp [turn, idle, Base.look, next])]
      cases n with
      | zero => rfl
      | succ n =>
        rw [loop_turn (ts := [done, again 0]) (rest := []) rfl (by simp [turn, idle, Base.look, next, done, again])]
        exact (idle_loop caught data n).2.2.1 0 0 _ (by decide +kernel)

end Verif.Props.Abnf
