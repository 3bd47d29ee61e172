import Verif.Spec.Abnf

/-!
# Data of grammars: what is accepted and what is generated
-/

namespace Verif.Props.Abnf
open Verif Verif.Abnf Verif.Spec.Abnf

/-! ## Letters -/

theorem lowerChar_eq {c d : Nat} : lowerChar c = lowerChar d ↔ SameLetter c d := by
  unfold lowerChar SameLetter
  split <;> split <;> omega

theorem sameLetter_symm {c d : Nat} (h : SameLetter c d) : SameLetter d c := lowerChar_eq.1 (lowerChar_eq.2 h).symm

theorem lower_pairs : ∀ (l s : Text), lower l = lower s ↔
    ∃ ps : List (Nat × Nat), ps.map Prod.fst = l ∧ ps.map Prod.snd = s ∧ ∀ p ∈ ps, SameLetter p.1 p.2
  | [], [] => ⟨fun _ => ⟨[], rfl, rfl, (fun _ h => nomatch h)⟩, fun _ => rfl⟩
  | [], d :: s => by
    constructor
    · intro h; simp [lower] at h
    · rintro ⟨ps, h1, h2, _⟩
      rw [List.map_eq_nil_iff.1 h1] at h2
      cases h2
  | c :: l, [] => by
    constructor
    · intro h; simp [lower] at h
    · rintro ⟨ps, h1, h2, _⟩
      rw [List.map_eq_nil_iff.1 h2] at h1
      cases h1
  | c :: l, d :: s => by
    have ih := lower_pairs l s
    simp only [lower] at ih
    simp only [lower, List.map_cons, List.cons.injEq]
    rw [ih, lowerChar_eq]
    constructor
    · rintro ⟨h, ps, h1, h2, h3⟩
      refine ⟨(c, d) :: ps, by simp [h1], by simp [h2], ?_⟩
      intro p hp
      rcases List.mem_cons.1 hp with rfl | hp
      · exact h
      · exact h3 p hp
    · rintro ⟨ps, h1, h2, h3⟩
      cases ps with
      | nil => cases h1
      | cons p ps =>
        simp only [List.map_cons, List.cons.injEq] at h1 h2
        obtain ⟨rfl, h1⟩ := h1
        obtain ⟨rfl, h2⟩ := h2
        exact ⟨h3 p List.mem_cons_self, ps, h1, h2, fun q hq => h3 q (List.mem_cons_of_mem _ hq)⟩

/-! ## Entries of stacks -/

/-- A string is a sequence of strings of rules. -/
def Seq (look : Nat → Option Rule) (rs : List Nat) (u : Text) : Prop :=
  ∃ ps : List (Nat × Text), ps.map Prod.fst = rs ∧ (∀ p ∈ ps, Derives look p.1 p.2) ∧ u = (ps.map Prod.snd).flatten

theorem seq_nil {look : Nat → Option Rule} {u : Text} : Seq look [] u ↔ u = [] := by
  constructor
  · rintro ⟨ps, h, _, rfl⟩
    rw [List.map_eq_nil_iff.1 h]
    rfl
  · rintro rfl
    exact ⟨[], rfl, (fun _ h => nomatch h), rfl⟩

theorem seq_cons {look : Nat → Option Rule} {r : Nat} {rs : List Nat} {u : Text} :
    Seq look (r :: rs) u ↔ ∃ a b, u = a ++ b ∧ Derives look r a ∧ Seq look rs b := by
  constructor
  · rintro ⟨ps, h, hd, rfl⟩
    cases ps with
    | nil => cases h
    | cons p ps =>
      simp only [List.map_cons, List.cons.injEq] at h
      obtain ⟨rfl, h⟩ := h
      exact ⟨p.2, (ps.map Prod.snd).flatten, rfl, hd p List.mem_cons_self, ps, h,
        fun q hq => hd q (List.mem_cons_of_mem _ hq), rfl⟩
  · rintro ⟨a, b, rfl, ha, ps, h, hd, rfl⟩
    refine ⟨(r, a) :: ps, by simp [h], ?_, rfl⟩
    intro p hp
    rcases List.mem_cons.1 hp with rfl | hp
    · exact ha
    · exact hd p hp

/-- The strings that an entry of a stack of `ValidateData` still wants. -/
def Wants (look : Nat → Option Rule) (e : Entry) (u : Text) : Prop :=
  match look e.1 with
  | some (.terminal s) => u = s
  | some (.literal s) => lower u = lower s
  | some (.range lo hi) => ∃ c, u = [c] ∧ lo ≤ c ∧ c ≤ hi
  | some (.seq rs) => Seq look (rs.drop (next e.2)) u
  | some (.alt rs) => (∃ r ∈ rs.drop (next e.2), Derives look r u) ∨ (rs.length ≤ next e.2 ∧ u = [])
  | some (.rep min max r) => ∃ ss : List Text, (∀ s ∈ ss, Derives look r s) ∧ u = ss.flatten ∧ min ≤ next e.2 + ss.length ∧
      (ss = [] ∨ ∀ m, max = some m → next e.2 + ss.length ≤ m)
  | some (.alias r) => Derives look r u
  | some (.prose _) => False
  | some .undefined => False
  | none => False

theorem wants_none {look : Nat → Option Rule} (hs : Sensible look) {i : Nat} {u : Text} :
    Wants look (i, none) u ↔ Derives look i u := by
  unfold Wants
  constructor
  · intro h
    dsimp only at h
    split at h
    · next s hl => subst h; exact .terminal hl
    · next s hl =>
      obtain ⟨ps, h1, h2, h3⟩ := (lower_pairs s u).1 h.symm
      subst h1; subst h2
      exact .literal hl h3
    · next lo hi hl => obtain ⟨c, rfl, h1, h2⟩ := h; exact .range hl h1 h2
    · next rs hl =>
      obtain ⟨ps, h1, h2, rfl⟩ := h
      simp only [next, List.drop_zero] at h1
      subst h1
      exact .seq hl h2
    · next rs hl =>
      rcases h with ⟨r, hr, hd⟩ | ⟨h, _⟩
      · exact .alt hl (List.mem_of_mem_drop hr) hd
      · exact absurd (List.length_eq_zero_iff.1 (Nat.le_zero.1 h)) (hs.alt i rs hl)
    · next min max r hl =>
      obtain ⟨ss, h1, rfl, h2, h3⟩ := h
      simp only [next, Nat.zero_add] at h2 h3
      refine .rep hl h1 h2 ?_
      rcases h3 with rfl | h3
      · intro m hm; exact Nat.zero_le m
      · exact h3
    · next r hl => exact .alias hl h
    · exact h.elim
    · exact h.elim
    · exact h.elim
  · intro h
    cases h with
    | terminal hl => simp only [hl]
    | literal hl h => simp only [hl]; exact ((lower_pairs _ _).2 ⟨_, rfl, rfl, h⟩).symm
    | range hl h1 h2 => simp only [hl]; exact ⟨_, rfl, h1, h2⟩
    | seq hl h => simp only [hl]; exact ⟨_, by simp [next], h, rfl⟩
    | alt hl hr h => simp only [hl]; exact .inl ⟨_, by simpa [next] using hr, h⟩
    | rep hl h h1 h2 => simp only [hl]; exact ⟨_, h, rfl, by simpa [next] using h1, .inr (by simpa [next] using h2)⟩
    | alias hl h => simp only [hl]; exact h

/-- A parser can still succeed: the data from its position start with strings that the entries of its stack want, in turn. -/
def Can (look : Nat → Option Rule) (data : Text) : Nat → List Entry → Prop
  | _, [] => True
  | pos, e :: st => ∃ u, Wants look e u ∧ u <+: data.drop pos ∧ Can look data (pos + u.length) st

theorem prefix_split {a b data : Text} {pos : Nat} :
    a ++ b <+: data.drop pos ↔ a <+: data.drop pos ∧ b <+: data.drop (pos + a.length) := by
  rw [← List.drop_drop]
  generalize data.drop pos = d
  constructor
  · rintro ⟨t, rfl⟩
    refine ⟨⟨b ++ t, by simp⟩, ⟨t, ?_⟩⟩
    rw [List.append_assoc, List.drop_left]
  · rintro ⟨⟨t, rfl⟩, h⟩
    rw [List.drop_left] at h
    obtain ⟨t', rfl⟩ := h
    exact ⟨t', by simp⟩

theorem can_two {look : Nat → Option Rule} {data : Text} {pos : Nat} {e f : Entry} {st : List Entry} :
    Can look data pos (e :: f :: st) ↔
      ∃ u, (∃ a b, u = a ++ b ∧ Wants look e a ∧ Wants look f b) ∧ u <+: data.drop pos ∧ Can look data (pos + u.length) st := by
  simp only [Can]
  constructor
  · rintro ⟨a, ha, h1, b, hb, h2, h3⟩
    refine ⟨a ++ b, ⟨a, b, rfl, ha, hb⟩, prefix_split.2 ⟨h1, h2⟩, ?_⟩
    rw [List.length_append, ← Nat.add_assoc]
    exact h3
  · rintro ⟨_, ⟨a, b, rfl, ha, hb⟩, h, h3⟩
    obtain ⟨h1, h2⟩ := prefix_split.1 h
    refine ⟨a, ha, h1, b, hb, h2, ?_⟩
    rw [List.length_append, ← Nat.add_assoc] at h3
    exact h3

theorem can_rest {look : Nat → Option Rule} {data : Text} {pos : Nat} {st : List Entry} :
    Can look data pos st ↔ ∃ u, u = [] ∧ u <+: data.drop pos ∧ Can look data (pos + u.length) st := by
  constructor
  · intro h
    exact ⟨[], rfl, List.nil_prefix, h⟩
  · rintro ⟨u, rfl, _, h⟩
    exact h

/-- The parsers that a turn leaves can succeed if and only if the one before could. -/
theorem turn_ok {look : Nat → Option Rule} (hs : Sensible look) {data : Text} {pos : Nat} {e : Entry} {st : List Entry}
    {ts : List Thread} (h : turn look data pos e st = .ok ts) :
    Can look data pos (e :: st) ↔ ∃ t ∈ ts, Can look data t.1 t.2 := by
  have one : ∀ p s, (∃ t ∈ [((p, s) : Thread)], Can look data t.1 t.2) ↔ Can look data p s := by
    intro p s
    simp
  have key : ∀ P : Text → Prop, (∀ u, Wants look e u ↔ P u) →
      (Can look data pos (e :: st) ↔ ∃ u, P u ∧ u <+: data.drop pos ∧ Can look data (pos + u.length) st) := by
    intro P hP
    simp only [Can, hP]
  unfold turn at h
  split at h
  · exact nomatch h
  · next s hl =>
    split at h
    · next hm =>
      cases h
      rw [one, key (fun u => u = s) (by intro u; simp only [Wants, hl])]
      constructor
      · rintro ⟨u, rfl, _, h⟩; exact h
      · intro h; exact ⟨s, rfl, by rw [← hm]; exact List.take_prefix _ _, by simpa using h⟩
    · exact nomatch h
  · next s hl =>
    split at h
    · next hm =>
      cases h
      rw [one, key (fun u => lower u = lower s) (by intro u; simp only [Wants, hl])]
      have len : ∀ u, lower u = lower s → u.length = s.length := by
        intro u hu
        have := congrArg List.length hu
        simpa [lower] using this
      constructor
      · rintro ⟨u, hu, _, h⟩
        rw [len u hu] at h
        exact h
      · intro h
        exact ⟨(data.drop pos).take s.length, hm, List.take_prefix _ _, by rw [len _ hm]; exact h⟩
    · exact nomatch h
  · next lo hi hl =>
    split at h
    · next c hc =>
      split at h
      · next hb =>
        cases h
        rw [one, key (fun u => ∃ c, u = [c] ∧ lo ≤ c ∧ c ≤ hi) (by intro u; simp only [Wants, hl])]
        constructor
        · rintro ⟨_, ⟨d, rfl, _⟩, _, h⟩; exact h
        · intro h
          refine ⟨[c], ⟨c, rfl, hb⟩, ?_, h⟩
          obtain ⟨hlt, hget⟩ := List.getElem?_eq_some_iff.1 hc
          rw [List.drop_eq_getElem_cons hlt, hget]
          exact ⟨_, rfl⟩
      · exact nomatch h
    · exact nomatch h
  · next rs hl =>
    split at h
    · next r hr =>
      obtain ⟨hlt, hget⟩ := List.getElem?_eq_some_iff.1 hr
      have hd : rs.drop (next e.2) = r :: rs.drop (next e.2 + 1) := by rw [List.drop_eq_getElem_cons hlt, hget]
      have hw : ∀ u, Wants look e u ↔ ∃ a b, u = a ++ b ∧ Derives look r a ∧ Seq look (rs.drop (next e.2 + 1)) b := by
        intro u
        simp only [Wants, hl]
        rw [hd, seq_cons]
      rw [key _ hw]
      split at h
      · cases h
        rw [one, can_two]
        simp only [wants_none hs]
        simp only [Wants, hl, next]
      · next hge =>
        cases h
        rw [one]
        have : rs.drop (next e.2 + 1) = [] := List.drop_eq_nil_of_le (by omega)
        simp only [Can, wants_none hs, this, seq_nil]
        constructor
        · rintro ⟨_, ⟨a, b, rfl, ha, rfl⟩, h1, h2⟩
          rw [List.append_nil] at h1 h2
          exact ⟨a, ha, h1, h2⟩
        · rintro ⟨a, ha, h1, h2⟩
          exact ⟨a, ⟨a, [], by simp, ha, rfl⟩, h1, h2⟩
    · next hr =>
      cases h
      rw [one, key (fun u => u = []), ← can_rest]
      intro u
      simp only [Wants, hl]
      rw [List.drop_eq_nil_of_le (List.getElem?_eq_none_iff.1 hr), seq_nil]
  · next rs hl =>
    split at h
    · next r hr =>
      obtain ⟨hlt, hget⟩ := List.getElem?_eq_some_iff.1 hr
      have hd : rs.drop (next e.2) = r :: rs.drop (next e.2 + 1) := by rw [List.drop_eq_getElem_cons hlt, hget]
      have hw : ∀ u, Wants look e u ↔ Derives look r u ∨ ∃ r ∈ rs.drop (next e.2 + 1), Derives look r u := by
        intro u
        simp only [Wants, hl]
        rw [hd]
        simp only [List.mem_cons]
        constructor
        · rintro (⟨q, rfl | hq, hq'⟩ | ⟨hle, _⟩)
          · exact .inl hq'
          · exact .inr ⟨q, hq, hq'⟩
          · omega
        · rintro (hq' | ⟨q, hq, hq'⟩)
          · exact .inl ⟨r, .inl rfl, hq'⟩
          · exact .inl ⟨q, .inr hq, hq'⟩
      rw [key _ hw]
      split at h
      · next hlt' =>
        cases h
        simp only [List.mem_cons, List.not_mem_nil, or_false, exists_eq_or_imp, exists_eq_left, Can, wants_none hs]
        simp only [Wants, hl, next]
        constructor
        · rintro ⟨u, h | h, h1, h2⟩
          · exact .inr ⟨u, h, h1, h2⟩
          · exact .inl ⟨u, .inl h, h1, h2⟩
        · rintro (⟨u, h | ⟨h, _⟩, h1, h2⟩ | ⟨u, h, h1, h2⟩)
          · exact ⟨u, .inr h, h1, h2⟩
          · change rs.length ≤ next e.2 + 1 at h
            omega
          · exact ⟨u, .inl h, h1, h2⟩
      · next hge =>
        cases h
        rw [one]
        have : rs.drop (next e.2 + 1) = [] := List.drop_eq_nil_of_le (by omega)
        simp only [Can, wants_none hs, this, List.not_mem_nil, false_and, exists_false, or_false]
    · next hr =>
      cases h
      rw [one, key (fun u => u = []), ← can_rest]
      intro u
      have hle := List.getElem?_eq_none_iff.1 hr
      simp only [Wants, hl]
      rw [List.drop_eq_nil_of_le hle]
      simp [hle]
  · next min max r hl =>
    have hk : ∀ u, Wants look e u ↔ ((min ≤ next e.2 ∧ u = []) ∨ ((∀ m, max = some m → next e.2 < m) ∧
        ∃ a b, u = a ++ b ∧ Derives look r a ∧ Wants look (e.1, some (next e.2)) b)) := by
      intro u
      simp only [Wants, hl]
      constructor
      · rintro ⟨ss, h1, rfl, h2, h3⟩
        cases ss with
        | nil => exact .inl ⟨h2, rfl⟩
        | cons s ss =>
          have h3 : ∀ m, max = some m → next e.2 + (ss.length + 1) ≤ m := by
            rcases h3 with h3 | h3
            · exact nomatch h3
            · exact h3
          refine .inr ⟨fun m hm => by have := h3 m hm; omega, s, ss.flatten, rfl, h1 s List.mem_cons_self, ss,
            fun q hq => h1 q (List.mem_cons_of_mem _ hq), rfl, ?_, .inr ?_⟩
          · have : min ≤ next e.2 + (ss.length + 1) := h2
            change min ≤ next e.2 + 1 + ss.length
            omega
          · intro m hm
            have := h3 m hm
            change next e.2 + 1 + ss.length ≤ m
            omega
      · rintro (⟨h, rfl⟩ | ⟨hm, a, b, rfl, ha, ss, h1, rfl, h2, h3⟩)
        · exact ⟨[], fun _ h => (nomatch h), rfl, h, .inl rfl⟩
        · change min ≤ next e.2 + 1 + ss.length at h2
          refine ⟨a :: ss, ?_, rfl, ?_, .inr ?_⟩
          · intro q hq
            rcases List.mem_cons.1 hq with rfl | hq
            · exact ha
            · exact h1 q hq
          · rw [List.length_cons]; omega
          · intro m hmm
            have hlt := hm m hmm
            rw [List.length_cons]
            rcases h3 with rfl | h3
            · simp only [List.length_nil]; omega
            · have : next e.2 + 1 + ss.length ≤ m := h3 m hmm
              omega
    split at h
    · next hlt =>
      cases h
      rw [one, can_two]
      have hmax : ∀ m, max = some m → next e.2 < m := by
        intro m hm
        have := hs.rep e.1 min m r (by rw [hl, hm])
        omega
      rw [key _ hk]
      simp only [wants_none hs]
      constructor
      · rintro ⟨u, ⟨h, _⟩ | ⟨_, h⟩, h1, h2⟩
        · omega
        · exact ⟨u, h, h1, h2⟩
      · rintro ⟨u, h, h1, h2⟩
        exact ⟨u, .inr ⟨hmax, h⟩, h1, h2⟩
    · next hge =>
      split at h
      · next hall =>
        cases h
        have hmax : ∀ m, max = some m → next e.2 < m := by
          rintro m rfl
          simpa using hall
        simp only [List.mem_cons, List.not_mem_nil, or_false, exists_eq_or_imp, exists_eq_left]
        rw [key _ hk, can_two]
        simp only [wants_none hs]
        constructor
        · rintro ⟨u, ⟨_, rfl⟩ | ⟨_, h⟩, h1, h2⟩
          · exact .inl h2
          · exact .inr ⟨u, h, h1, h2⟩
        · rintro (h | ⟨u, h, h1, h2⟩)
          · exact ⟨[], .inl ⟨by omega, rfl⟩, List.nil_prefix, h⟩
          · exact ⟨u, .inr ⟨hmax, h⟩, h1, h2⟩
      · next hall =>
        cases h
        rw [one, key (fun u => u = []), ← can_rest]
        intro u
        rw [hk]
        constructor
        · rintro (⟨_, h⟩ | ⟨hm, _⟩)
          · exact h
          · exfalso
            apply hall
            cases max with
            | none => rfl
            | some m => simpa using hm m rfl
        · intro h
          exact .inl ⟨by omega, h⟩
  · exact nomatch h
  · next r hl =>
    cases h
    rw [one]
    simp only [Can, wants_none hs]
    simp only [Wants, hl]
  · exact nomatch h

/-- A parser whose data do not match cannot succeed. -/
theorem turn_invalid {look : Nat → Option Rule} {data : Text} {pos : Nat} {e : Entry} {st : List Entry}
    (h : turn look data pos e st = .error .invalid) : ¬ Can look data pos (e :: st) := by
  rintro ⟨u, hw, ⟨t, ht⟩, _⟩
  unfold turn at h
  split at h
  · exact nomatch h
  · next s hl =>
    split at h
    · exact nomatch h
    · next hn =>
      simp only [Wants, hl] at hw
      subst hw
      apply hn
      rw [← ht, List.take_left]
  · next s hl =>
    split at h
    · exact nomatch h
    · next hn =>
      simp only [Wants, hl] at hw
      have hlen : u.length = s.length := by simpa [lower] using congrArg List.length hw
      apply hn
      rw [← ht, ← hlen, List.take_left]
      exact hw
  · next lo hi hl =>
    simp only [Wants, hl] at hw
    obtain ⟨c, rfl, hb⟩ := hw
    have hc : data[pos]? = some c := by
      have : (data.drop pos)[0]? = some c := by rw [← ht]; rfl
      simpa using this
    rw [hc] at h
    simp only [hb, and_self, if_true] at h
    exact nomatch h
  · split at h
    · split at h <;> exact nomatch h
    · exact nomatch h
  · split at h
    · split at h <;> exact nomatch h
    · exact nomatch h
  · split at h
    · exact nomatch h
    · split at h <;> exact nomatch h
  · exact nomatch h
  · exact nomatch h
  · exact nomatch h

/-! ## The loop -/

theorem loop_ok {look : Nat → Option Rule} (hs : Sensible look) {sort : List Thread → List Thread}
    (hp : ∀ l, (sort l).Perm l) {caught : Bool} {data : Text} : ∀ (n : Nat) (ts : List Thread),
    loop look sort caught data n ts = some (.ok ()) → ∃ t ∈ ts, Can look data t.1 t.2
  | 0, _, h => nomatch h
  | n + 1, ts, h => by
    rw [loop.eq_def] at h
    dsimp only at h
    have hmem : ∀ t, t ∈ sort ts ↔ t ∈ ts := fun t => (hp ts).mem_iff
    split at h
    · exact nomatch h
    · next pos rest hsort => exact ⟨(pos, []), (hmem _).1 (by rw [hsort]; exact List.mem_cons_self), trivial⟩
    · next pos e st rest hsort =>
      have hin : ∀ t, t ∈ rest → t ∈ ts := fun t ht => (hmem _).1 (by rw [hsort]; exact List.mem_cons_of_mem _ ht)
      split at h
      · next new hturn =>
        obtain ⟨t, ht, hc⟩ := loop_ok hs hp n _ h
        rcases List.mem_append.1 ht with ht | ht
        · exact ⟨t, hin t ht, hc⟩
        · exact ⟨(pos, e :: st), (hmem _).1 (by rw [hsort]; exact List.mem_cons_self), (turn_ok hs hturn).2 ⟨t, ht, hc⟩⟩
      · split at h
        · exact nomatch h
        · split at h
          · obtain ⟨t, ht, hc⟩ := loop_ok hs hp n _ h
            exact ⟨t, hin t ht, hc⟩
          · exact nomatch h

theorem loop_invalid {look : Nat → Option Rule} (hs : Sensible look) {sort : List Thread → List Thread}
    (hp : ∀ l, (sort l).Perm l) {data : Text} : ∀ (n : Nat) (ts : List Thread),
    loop look sort true data n ts = some (.error .invalid) → ∀ t ∈ ts, ¬ Can look data t.1 t.2
  | 0, _, h => nomatch h
  | n + 1, ts, h => by
    rw [loop.eq_def] at h
    dsimp only at h
    have hmem : ∀ t, t ∈ sort ts ↔ t ∈ ts := fun t => (hp ts).mem_iff
    split at h
    · next hsort =>
      intro t ht
      rw [← hmem, hsort] at ht
      exact nomatch ht
    · exact nomatch h
    · next pos e st rest hsort =>
      intro t ht
      rw [← hmem, hsort] at ht
      split at h
      · next new hturn =>
        have ih := loop_invalid hs hp n _ h
        rcases List.mem_cons.1 ht with rfl | ht
        · intro hc
          obtain ⟨t, ht, hc⟩ := (turn_ok hs hturn).1 hc
          exact ih t (List.mem_append.2 (.inr ht)) hc
        · exact ih t (List.mem_append.2 (.inl ht))
      · next f hturn =>
        simp only [Bool.true_eq_false, if_false] at h
        split at h
        · next hf =>
          subst hf
          rcases List.mem_cons.1 ht with rfl | ht
          · exact turn_invalid hturn
          · exact loop_invalid hs hp n _ h t ht
        · next hf =>
          simp only [Option.some.injEq, Except.error.injEq] at h
          exact absurd h hf

theorem can_start {look : Nat → Option Rule} (hs : Sensible look) {data : Text} {i : Nat} :
    Can look data 0 [(i, none)] ↔ ∃ u, Derives look i u ∧ u <+: data := by
  simp only [Can, wants_none hs, and_true, List.drop_zero]

/-- C328.  Whatever the order in which parsers are tried, data that are accepted for a rule start with a string of that rule. -/
theorem abnf_accepted_starts (b : Base) (hs : Sensible b.look) (sort : List Thread → List Thread) (hp : ∀ l, (sort l).Perm l)
    (caught : Bool) (name data : Text) (turns : Nat) (h : validate b sort caught name data turns = some (.ok ())) :
    ∃ i u, b.getRuleID name = .ok i ∧ Derives b.look i u ∧ u <+: data := by
  unfold validate at h
  split at h
  · exact nomatch h
  · next i hi =>
    obtain ⟨t, ht, hc⟩ := loop_ok hs hp turns _ h
    rw [List.mem_singleton.1 ht] at hc
    obtain ⟨u, hu, hpre⟩ := (can_start hs).1 hc
    exact ⟨i, u, hi, hu, hpre⟩

/-- C329, for the program with the right name of the error in its handler: data that are refused as invalid start with no string of
the rule. -/
theorem abnf_refused_partial (b : Base) (hs : Sensible b.look) (sort : List Thread → List Thread) (hp : ∀ l, (sort l).Perm l)
    (name data : Text) (turns : Nat) (h : validate b sort true name data turns = some (.error .invalid)) (i : Nat)
    (hi : b.getRuleID name = .ok i) (u : Text) (hu : Derives b.look i u) : ¬ u <+: data := by
  intro hpre
  unfold validate at h
  rw [hi] at h
  exact loop_invalid hs hp turns _ h _ (List.mem_singleton.2 rfl) ((can_start hs).2 ⟨u, hu, hpre⟩)

/-! ## Generated data -/

/-- The strings that an entry of a stack of `GenerateData` may still give. -/
def Gives (look : Nat → Option Rule) (i : Nat) (mark : Mark) (u : Text) : Prop :=
  match look i with
  | some (.terminal s) => u = s
  | some (.literal s) => lower u = lower s
  | some (.range lo hi) => ∃ c, u = [c] ∧ lo ≤ c ∧ c ≤ hi
  | some (.seq rs) => Seq look (rs.drop (nextMark mark)) u
  | some (.alt rs) => (match mark with | .chosen => u = [] | _ => ∃ r ∈ rs, Derives look r u)
  | some (.rep _ _ r) => (match mark with
    | .left n _ => ∃ ss : List Text, (∀ s ∈ ss, Derives look r s) ∧ ss.length = n - 1 ∧ u = ss.flatten
    | _ => Derives look i u)
  | some (.alias r) => (match mark with | .at _ => u = [] | _ => Derives look r u)
  | some (.prose _) => False
  | some .undefined => False
  | none => False

theorem gives_start {look : Nat → Option Rule} {i : Nat} {u : Text} (h : Gives look i .start u) : Derives look i u := by
  unfold Gives at h
  split at h
  · next s hl => subst h; exact .terminal hl
  · next s hl =>
    obtain ⟨ps, h1, h2, h3⟩ := (lower_pairs s u).1 h.symm
    subst h1; subst h2
    exact .literal hl h3
  · next lo hi hl => obtain ⟨c, rfl, h1, h2⟩ := h; exact .range hl h1 h2
  · next rs hl =>
    obtain ⟨ps, h1, h2, rfl⟩ := h
    simp only [nextMark, List.drop_zero] at h1
    subst h1
    exact .seq hl h2
  · next rs hl => obtain ⟨r, hr, hd⟩ := h; exact .alt hl hr hd
  · exact h
  · next r hl => exact .alias hl h
  · exact h.elim
  · exact h.elim
  · exact h.elim

/-- The strings that a stack of `GenerateData` may still give. -/
def StackGives (look : Nat → Option Rule) : List (Nat × Mark) → Text → Prop
  | [], s => s = []
  | e :: st, s => ∃ u v, s = u ++ v ∧ Gives look e.1 e.2 u ∧ StackGives look st v

theorem genLiteral_lower (rnd : Nat → Nat → Nat → Nat) : ∀ (n : Nat) (s : Text), lower (genLiteral rnd n s).1 = lower s
  | _, [] => rfl
  | n, c :: cs => by
    unfold genLiteral
    split
    · next ha =>
      have ih := genLiteral_lower rnd (n + 1) cs
      simp only [lower, List.map_cons] at ih ⊢
      rw [ih]
      congr 1
      unfold isAlpha at ha
      simp only [Bool.or_eq_true, Bool.and_eq_true, decide_eq_true_eq] at ha
      unfold lowerChar upperChar
      repeat' split
      all_goals omega
    · have ih := genLiteral_lower rnd n cs
      simp only [lower, List.map_cons] at ih ⊢
      rw [ih]

/-- Random numbers are in their ranges. -/
def InRange (rnd : Nat → Nat → Nat → Nat) : Prop := ∀ n lo hi, lo < hi → lo ≤ rnd n lo hi ∧ rnd n lo hi < hi

theorem genTurn_gives {look : Nat → Option Rule} {rnd : Nat → Nat → Nat → Nat} (hr : InRange rnd) {maxOpt : Nat} {g g' : Gen}
    {i : Nat} {mark : Mark} (h : genTurn look rnd maxOpt g i mark = .ok g') :
    ∃ new, g'.result = g.result ++ new ∧ ∀ s, StackGives look g'.stack s →
      ∃ u v, new ++ s = u ++ v ∧ Gives look i mark u ∧ StackGives look g.stack v := by
  unfold genTurn at h
  split at h
  · exact nomatch h
  · next s hl =>
    cases h
    exact ⟨s, rfl, fun v hv => ⟨s, v, rfl, by simp only [Gives, hl], hv⟩⟩
  · next s hl =>
    cases h
    exact ⟨_, rfl, fun v hv => ⟨_, v, rfl, by simp only [Gives, hl]; exact genLiteral_lower _ _ _, hv⟩⟩
  · next lo hi hl =>
    split at h
    · next hlt =>
      cases h
      have := hr g.taken lo (hi + 1) hlt
      exact ⟨_, rfl, fun v hv => ⟨_, v, rfl, by simp only [Gives, hl]; exact ⟨_, rfl, this.1, by omega⟩, hv⟩⟩
    · exact nomatch h
  · next rs hl =>
    dsimp only at h
    split at h
    · next r hget =>
      cases h
      refine ⟨[], by simp, ?_⟩
      rintro s ⟨a, _, rfl, ha, b, v, rfl, hb, hv⟩
      refine ⟨a ++ b, v, by simp, ?_, hv⟩
      simp only [Gives, hl] at hb ⊢
      obtain ⟨hlt, hget⟩ := List.getElem?_eq_some_iff.1 hget
      rw [List.drop_eq_getElem_cons hlt, hget, seq_cons]
      exact ⟨a, b, rfl, gives_start ha, hb⟩
    · next hget =>
      cases h
      refine ⟨[], by simp, fun v hv => ⟨[], v, rfl, ?_, hv⟩⟩
      simp only [Gives, hl]
      rw [List.drop_eq_nil_of_le (List.getElem?_eq_none_iff.1 hget), seq_nil]
  · next r hl =>
    split at h
    · cases h
      exact ⟨[], by simp, fun v hv => ⟨[], v, rfl, by simp only [Gives, hl], hv⟩⟩
    · next hm =>
      cases h
      refine ⟨[], by simp, ?_⟩
      rintro s ⟨a, _, rfl, ha, b, v, rfl, hb, hv⟩
      simp only [Gives, hl] at hb
      subst hb
      refine ⟨a, v, by simp, ?_, hv⟩
      simp only [Gives, hl]
      have := gives_start ha
      cases mark <;> first | exact this | exact absurd rfl (hm _)
  · next rs hl =>
    split at h
    · cases h
      exact ⟨[], by simp, fun v hv => ⟨[], v, rfl, by simp only [Gives, hl], hv⟩⟩
    · next hm =>
      dsimp only at h
      split at h
      · exact nomatch h
      · next r hget =>
        cases h
        refine ⟨[], by simp, ?_⟩
        rintro s ⟨a, _, rfl, ha, b, v, rfl, hb, hv⟩
        simp only [Gives, hl] at hb
        subst hb
        refine ⟨a, v, by simp, ?_, hv⟩
        simp only [Gives, hl]
        have hmem : r ∈ rs := (List.mem_filter.1 (List.mem_of_getElem? hget)).1
        have := gives_start ha
        cases mark <;> first | exact ⟨r, hmem, this⟩ | exact absurd rfl hm
  · next min max r hl =>
    split at h
    · next n extra =>
      split at h
      · next hn =>
        cases h
        refine ⟨[], by simp, ?_⟩
        rintro s ⟨a, _, rfl, ha, b, v, rfl, hb, hv⟩
        refine ⟨a ++ b, v, by simp, ?_, hv⟩
        simp only [Gives, hl] at hb ⊢
        obtain ⟨ss, h1, h2, rfl⟩ := hb
        refine ⟨a :: ss, ?_, by rw [List.length_cons]; omega, rfl⟩
        intro q hq
        rcases List.mem_cons.1 hq with rfl | hq
        · exact gives_start ha
        · exact h1 q hq
      · next hn =>
        cases h
        refine ⟨[], by simp, fun v hv => ⟨[], v, rfl, ?_, hv⟩⟩
        simp only [Gives, hl]
        exact ⟨[], fun _ h => (nomatch h), by simp only [List.length_nil]; omega, rfl⟩
    · next hm =>
      dsimp only at h
      split at h
      · next htop =>
        have hrnd := hr g.taken _ _ htop
        generalize hN : rnd g.taken min _ = n at h hrnd
        have hmax : ∀ m, max = some m → n ≤ m := by
          rintro m rfl
          unfold repeatTop at hrnd
          dsimp only at hrnd
          split at hrnd <;> omega
        have hg : ∀ u, Derives look i u → Gives look i mark u := by
          intro u hu
          simp only [Gives, hl]
          cases mark <;> first | exact hu | exact absurd rfl (hm _ _)
        split at h
        · next hn =>
          cases h
          refine ⟨[], by simp, ?_⟩
          rintro s ⟨a, _, rfl, ha, b, v, rfl, hb, hv⟩
          refine ⟨a ++ b, v, by simp, hg _ ?_, hv⟩
          simp only [Gives, hl] at hb
          obtain ⟨ss, h1, h2, rfl⟩ := hb
          have hlen : (a :: ss).length = n := by rw [List.length_cons]; omega
          refine Derives.rep (ss := a :: ss) hl ?_ (by rw [hlen]; exact hrnd.1) (by rw [hlen]; exact hmax)
          intro q hq
          rcases List.mem_cons.1 hq with rfl | hq
          · exact gives_start ha
          · exact h1 q hq
        · next hn =>
          cases h
          refine ⟨[], by simp, fun v hv => ⟨[], v, rfl, hg _ ?_, hv⟩⟩
          exact Derives.rep (ss := []) hl (fun _ h => nomatch h) (by simp only [List.length_nil]; omega)
            (fun m hm => Nat.zero_le m)
      · exact nomatch h
  · exact nomatch h
  · exact nomatch h

theorem genLoop_gives {look : Nat → Option Rule} {rnd : Nat → Nat → Nat → Nat} (hr : InRange rnd) {maxOpt : Nat} (T : Text → Prop)
    {s : Text} : ∀ (n : Nat) (g : Gen), (∀ u, StackGives look g.stack u → T (g.result ++ u)) →
    genLoop look rnd maxOpt n g = some (.ok s) → T s
  | 0, _, _, h => nomatch h
  | n + 1, g, hg, h => by
    rw [genLoop.eq_def] at h
    dsimp only at h
    split at h
    · next hst =>
      cases h
      have := hg [] (by rw [hst]; rfl)
      simpa using this
    · next i mark rest hst =>
      split at h
      · exact nomatch h
      · next g' hturn =>
        refine genLoop_gives hr T n g' ?_ h
        intro u hu
        obtain ⟨new, hres, hnew⟩ := genTurn_gives hr hturn
        obtain ⟨a, b, hab, ha, hb⟩ := hnew u hu
        rw [hres, List.append_assoc, hab]
        exact hg (a ++ b) (by rw [hst]; exact ⟨a, b, rfl, ha, hb⟩)

/-- C330.  Whatever random numbers are taken, generated data are a string of the rule. -/
theorem abnf_generated_derives (b : Base) (rnd : Nat → Nat → Nat → Nat) (hr : InRange rnd) (maxOpt : Nat) (name s : Text)
    (turns : Nat) (h : generate b rnd maxOpt name turns = some (.ok s)) :
    ∃ i, b.getRuleID name = .ok i ∧ Derives b.look i s := by
  unfold generate at h
  split at h
  · exact nomatch h
  · next i hi =>
    refine ⟨i, hi, genLoop_gives hr (fun s => Derives b.look i s) turns _ ?_ h⟩
    rintro u ⟨a, v, rfl, ha, rfl⟩
    simp only [List.nil_append, List.append_nil]
    exact gives_start ha

/-- C329, for the program with the right name of the error: generated data are not refused as invalid. -/
theorem abnf_generated_not_refused_partial (b : Base) (hs : Sensible b.look) (rnd : Nat → Nat → Nat → Nat) (hr : InRange rnd)
    (maxOpt : Nat) (name s : Text) (turns turns' : Nat) (h : generate b rnd maxOpt name turns = some (.ok s))
    (sort : List Thread → List Thread) (hp : ∀ l, (sort l).Perm l) :
    validate b sort true name s turns' ≠ some (.error .invalid) := by
  intro hv
  obtain ⟨i, hi, hd⟩ := abnf_generated_derives b rnd hr maxOpt name s turns h
  exact abnf_refused_partial b hs sort hp name s turns' hv i hi s hd (List.prefix_refl s)

end Verif.Props.Abnf
