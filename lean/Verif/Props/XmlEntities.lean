import Verif.Spec.XmlEntities

/-!
# What reading entities yields, and whether it ends
-/

namespace Verif.Props.XE
open Verif.PyXml.Ent

/-- What is still to be read, the current entity first. -/
def flat (es : List Entry) : List Tok := es.flatMap (·.rest)

theorem settle_flat : ∀ (es : List Entry) (o : List Name), flat (settle es o).1 = flat es
  | [], _ => rfl
  | [_], _ => rfl
  | e :: f :: es, o => by
    unfold settle
    split
    · rename_i h
      rw [settle_flat (f :: es)]
      simp [flat, h]
    · rfl

/-- Nothing on top has been read to its end, unless it is all there is. -/
def Settled : List Entry → Prop
  | e :: _ :: _ => e.rest ≠ []
  | _ => True

theorem settle_settled : ∀ (es : List Entry) (o : List Name), Settled (settle es o).1
  | [], _ => trivial
  | [_], _ => trivial
  | e :: f :: es, o => by
    unfold settle
    split
    · exact settle_settled (f :: es) _
    · rename_i h; exact h

theorem settle_suffix : ∀ (es : List Entry) (o : List Name), ∃ pre, es = pre ++ (settle es o).1
  | [], _ => ⟨[], rfl⟩
  | [_], _ => ⟨[], rfl⟩
  | e :: f :: es, o => by
    unfold settle
    split
    · obtain ⟨pre, h⟩ := settle_suffix (f :: es) (close e o)
      exact ⟨e :: pre, by rw [List.cons_append, ← h]⟩
    · exact ⟨[], rfl⟩

theorem means_append {d : Decl} {a b : List Tok} {x y : List Char} (ha : Means d a x) (hb : Means d b y) : Means d (a ++ b) (x ++ y) := by
  induction ha with
  | nil => exact hb
  | chr _ ih => exact .chr ih
  | ref h1 h2 _ _ ih => rw [List.append_assoc]; exact .ref h1 h2 ih

theorem means_split {d : Decl} : ∀ {a b : List Tok} {z : List Char}, Means d (a ++ b) z → ∃ x y, z = x ++ y ∧ Means d a x ∧ Means d b y
  | [], _, z, h => ⟨[], z, rfl, .nil, h⟩
  | .chr c :: a, b, _, .chr h => by
    obtain ⟨x, y, e, h1, h2⟩ := means_split (a := a) h
    exact ⟨c :: x, y, by rw [e]; rfl, .chr h1, h2⟩
  | .ref n :: a, b, _, .ref (mid := mid) h0 h1 h => by
    obtain ⟨x, y, e, h2, h3⟩ := means_split (a := a) h
    exact ⟨mid ++ x, y, by rw [e, List.append_assoc], .ref h0 h1 h2, h3⟩

/-- Steps of reading, with what is still to be read before and after. -/
inductive Moves (d : Decl) (s : State) : State → Prop
  | chr {e es c t} : s.stack = e :: es → e.rest = .chr c :: t →
      Moves d s ⟨(settle ({ e with rest := t } :: es) s.opened).1, (settle ({ e with rest := t } :: es) s.opened).2, s.out ++ [c]⟩
  | ref {e es n t text} : s.stack = e :: es → e.rest = .ref n :: t → d n = some text →
      n ∉ (settle ({ e with rest := t } :: es) s.opened).2 → e.name ≠ some n →
      Moves d s ⟨if text = [] then (settle ({ e with rest := t } :: es) s.opened).1
          else ⟨some n, text⟩ :: (settle ({ e with rest := t } :: es) s.opened).1,
        n :: (settle ({ e with rest := t } :: es) s.opened).2, s.out⟩

theorem step_moves {d : Decl} {s s' : State} (h : step d s = .more s') : Moves d s s' := by
  unfold step at h
  split at h
  · cases h
  · rename_i e es hs
    split at h
    · cases h
    · rename_i c t ht
      injection h with h
      subst h
      exact .chr hs ht
    · rename_i n t ht
      simp only at h
      split at h
      · cases h
      · rename_i text hd
        split at h
        · cases h
        · rename_i hno
          injection h with h
          subst h
          exact .ref hs ht hd (fun hx => hno (.inl hx)) (fun hx => hno (.inr hx))

theorem step_done {d : Decl} {s : State} {out : List Char} (h : step d s = .done out) (hs : Settled s.stack) :
    out = s.out ∧ flat s.stack = [] := by
  unfold step at h
  split at h
  · rename_i h0; injection h with h; rw [h0]; exact ⟨h.symm, rfl⟩
  · rename_i e es he
    split at h
    · rename_i hr
      injection h with h
      rw [he] at hs ⊢
      cases es with
      | nil => exact ⟨h.symm, by simp [flat, hr]⟩
      | cons f es => exact absurd hr hs
    · cases h
    · simp only at h
      split at h
      · cases h
      · split at h <;> cases h

theorem moves_settled {d : Decl} {s s' : State} (h : Moves d s s') : Settled s'.stack := by
  cases h with
  | chr => exact settle_settled _ _
  | @ref e es n t text _ _ _ _ _ =>
    show Settled (if text = [] then _ else _)
    split
    · exact settle_settled _ _
    · rename_i ht
      cases hx : (settle ({ e with rest := t } :: es) s.opened).1 with
      | nil => trivial
      | cons f fs => exact ht

theorem flat_push {text : List Tok} {n : Name} {es : List Entry} :
    flat (if text = [] then es else ⟨some n, text⟩ :: es) = text ++ flat es := by
  split
  · rename_i h; rw [h]; rfl
  · rfl

theorem run_means {d : Decl} : ∀ (k : Nat) (s : State) (text : List Char), Settled s.stack → run d k s = .done text →
    ∃ out, Means d (flat s.stack) out ∧ text = s.out ++ out
  | 0, _, _, _, h => by cases h
  | k + 1, s, text, hs, h => by
    unfold run at h
    split at h
    · rename_i s' he
      have hm := step_moves he
      obtain ⟨out, h1, h2⟩ := run_means k s' text (moves_settled hm) h
      cases hm with
      | @chr e es c t hst ht =>
        refine ⟨c :: out, ?_, by rw [h2]; simp⟩
        simp only [settle_flat] at h1
        rw [hst]
        simpa [flat, ht] using Means.chr (c := c) h1
      | @ref e es n t tx hst ht hd _ _ =>
        simp only [flat_push, settle_flat] at h1
        obtain ⟨x, y, hxy, hx, hy⟩ := means_split h1
        refine ⟨x ++ y, ?_, by rw [h2, hxy]⟩
        rw [hst]
        simpa [flat, ht] using Means.ref (n := n) hd hx hy
    · obtain ⟨h1, h2⟩ := step_done h hs
      exact ⟨[], by rw [h2]; exact .nil, by rw [h1]; simp⟩

/-- **Whatever is read is what the references stand for**, for all declarations. -/
theorem text_is_meant (d : Decl) (doc : List Tok) (k : Nat) (text : List Char) (h : run d k (start doc) = .done text) :
    Means d doc text := by
  obtain ⟨out, h1, h2⟩ := run_means k (start doc) text trivial h
  have : text = out := by simpa [start] using h2
  subst this
  simpa [flat, start] using h1

/-! ## Declarations without cycles -/

/-- The same meaning, one reference after the other. -/
inductive Lin (d : Decl) : List Tok → List Char → Prop
  | nil : Lin d [] []
  | chr {c ts out} : Lin d ts out → Lin d (.chr c :: ts) (c :: out)
  | ref {n text ts out} : d n = some text → Lin d (text ++ ts) out → Lin d (.ref n :: ts) out

theorem lin_append {d : Decl} {a b : List Tok} {x y : List Char} (ha : Lin d a x) (hb : Lin d b y) : Lin d (a ++ b) (x ++ y) := by
  induction ha with
  | nil => exact hb
  | chr _ ih => exact .chr ih
  | ref h1 _ ih => exact .ref h1 (by simpa [List.append_assoc] using ih)

theorem means_lin {d : Decl} {a : List Tok} {x : List Char} (h : Means d a x) : Lin d a x := by
  induction h with
  | nil => exact .nil
  | chr _ ih => exact .chr ih
  | ref h _ _ ih1 ih2 => exact .ref h (lin_append ih1 ih2)

/-- What is being read goes up in the order of the references. -/
structure Good (d : Decl) (rank : Name → Nat) (s : State) : Prop where
  settled : Settled s.stack
  held : ∀ n ∈ s.opened, ∃ e ∈ s.stack, e.name = some n
  order : s.stack.Pairwise fun e f => ∃ n, e.name = some n ∧ ∀ m, f.name = some m → rank n < rank m
  refs : ∀ e ∈ s.stack, ∀ m, .ref m ∈ e.rest → d m ≠ none ∧ ∀ n, e.name = some n → rank m < rank n

theorem close_mem {e : Entry} {o : List Name} {n : Name} : n ∈ close e o ↔ n ∈ o ∧ e.name ≠ some n := by
  unfold close
  split
  · rename_i h; simp [h]
  · rename_i m h
    simp [h]
    intro _
    exact ⟨fun a b => a b.symm, fun a b => a b.symm⟩

theorem settle_held : ∀ (es : List Entry) (o : List Name), (∀ n ∈ o, ∃ e ∈ es, e.name = some n) →
    ∀ n ∈ (settle es o).2, ∃ e ∈ (settle es o).1, e.name = some n
  | [], _, h => h
  | [_], _, h => h
  | e :: f :: es, o, h => by
    unfold settle
    split
    · refine settle_held (f :: es) _ fun n hn => ?_
      obtain ⟨hn, hne⟩ := close_mem.1 hn
      obtain ⟨x, hx, hxn⟩ := h n hn
      rcases List.mem_cons.1 hx with rfl | hx
      · exact absurd hxn hne
      · exact ⟨x, hx, hxn⟩
    · exact h

theorem good_next {d : Decl} {rank : Name → Nat} {s : State} {e : Entry} {es : List Entry} {x : Tok} {t : List Tok} (h : Good d rank s)
    (hs : s.stack = e :: es) (he : e.rest = x :: t) (out : List Char) :
    Good d rank ⟨(settle ({ e with rest := t } :: es) s.opened).1, (settle ({ e with rest := t } :: es) s.opened).2, out⟩ := by
  obtain ⟨pre, hp⟩ := settle_suffix ({ e with rest := t } :: es) s.opened
  have hsub : (settle ({ e with rest := t } :: es) s.opened).1.Sublist ({ e with rest := t } :: es) := by
    have := List.sublist_append_right pre (settle ({ e with rest := t } :: es) s.opened).1
    rwa [← hp] at this
  have ho := h.order
  rw [hs] at ho
  refine ⟨settle_settled _ _, ?_, ?_, ?_⟩
  · refine settle_held _ _ fun n hn => ?_
    obtain ⟨y, hy, hyn⟩ := h.held n hn
    rw [hs] at hy
    rcases List.mem_cons.1 hy with rfl | hy
    · exact ⟨_, List.mem_cons_self .., hyn⟩
    · exact ⟨y, List.mem_cons_of_mem _ hy, hyn⟩
  · refine List.Pairwise.sublist hsub ?_
    rw [List.pairwise_cons] at ho ⊢
    exact ho
  · intro f hf m hm
    rcases List.mem_cons.1 (hsub.subset hf) with rfl | hf'
    · exact h.refs e (by rw [hs]; exact List.mem_cons_self ..) m (by rw [he]; exact List.mem_cons_of_mem _ hm)
    · exact h.refs f (by rw [hs]; exact List.mem_cons_of_mem _ hf') m hm

theorem lin_run {d : Decl} {rank : Name → Nat} (hr : ∀ n text, d n = some text → ∀ m, .ref m ∈ text → rank m < rank n)
    (hd : ∀ n text, d n = some text → ∀ m, .ref m ∈ text → d m ≠ none) (hne : ∀ n, d n ≠ some []) {ts : List Tok} {out : List Char}
    (h : Lin d ts out) : ∀ s : State, Good d rank s → flat s.stack = ts → ∃ k, run d k s = .done (s.out ++ out) := by
  induction h with
  | nil =>
    intro s hg hf
    refine ⟨1, ?_⟩
    have : step d s = .done s.out := by
      unfold step
      split
      · rfl
      · rename_i e es hs
        have : e.rest = [] := by
          rw [hs] at hf
          simp [flat] at hf
          exact hf.1
        rw [this]
    simp [run, this]
  | @chr c ts out _ ih =>
    intro s hg hf
    cases hs : s.stack with
    | nil => rw [hs] at hf; cases hf
    | cons e es =>
      have hr0 : ∃ t, e.rest = .chr c :: t ∧ t ++ flat es = ts := by
        rw [hs] at hf
        cases hre : e.rest with
        | nil =>
          cases es with
          | nil => simp [flat, hre] at hf
          | cons f fs => have := hg.settled; rw [hs] at this; exact absurd hre this
        | cons y t =>
          simp [flat, hre] at hf
          exact ⟨t, by rw [hf.1], by simpa [flat] using hf.2⟩
      obtain ⟨t, ht, hts⟩ := hr0
      obtain ⟨k, hk⟩ := ih _ (good_next hg hs ht (s.out ++ [c])) (by
        show flat (settle _ _).1 = ts
        rw [settle_flat]; simpa [flat] using hts)
      refine ⟨k + 1, ?_⟩
      have : step d s = .more ⟨(settle ({ e with rest := t } :: es) s.opened).1, (settle ({ e with rest := t } :: es) s.opened).2, s.out ++ [c]⟩ := by
        unfold step
        simp only [hs, ht]
      unfold run
      rw [this]
      simpa using hk
  | @ref n text ts out hdn _ ih =>
    intro s hg hf
    cases hs : s.stack with
    | nil => rw [hs] at hf; cases hf
    | cons e es =>
      have hr0 : ∃ t, e.rest = .ref n :: t ∧ t ++ flat es = ts := by
        rw [hs] at hf
        cases hre : e.rest with
        | nil =>
          cases es with
          | nil => simp [flat, hre] at hf
          | cons f fs => have := hg.settled; rw [hs] at this; exact absurd hre this
        | cons y t =>
          simp [flat, hre] at hf
          exact ⟨t, by rw [hf.1], by simpa [flat] using hf.2⟩
      obtain ⟨t, ht, hts⟩ := hr0
      have hg' := good_next hg hs ht s.out
      have hmem : e ∈ s.stack := by rw [hs]; exact List.mem_cons_self ..
      have hn1 : ∀ k, e.name = some k → rank n < rank k := (hg.refs e hmem n (by rw [ht]; exact List.mem_cons_self ..)).2
      have hbelow : ∀ f ∈ es, ∀ m, f.name = some m → rank n < rank m := by
        intro f hf m hm
        have ho := hg.order
        rw [hs, List.pairwise_cons] at ho
        obtain ⟨k, hk, hlt⟩ := ho.1 f hf
        exact Nat.lt_trans (hn1 k hk) (hlt m hm)
      obtain ⟨pre, hp⟩ := settle_suffix ({ e with rest := t } :: es) s.opened
      have hall : ∀ f ∈ (settle ({ e with rest := t } :: es) s.opened).1, ∀ m, f.name = some m → rank n < rank m := by
        intro f hf m hm
        have : f ∈ ({ e with rest := t } :: es : List Entry) := by rw [hp]; exact List.mem_append_right _ hf
        rcases List.mem_cons.1 this with rfl | h'
        · exact hn1 m hm
        · exact hbelow f h' m hm
      have hno : n ∉ (settle ({ e with rest := t } :: es) s.opened).2 := by
        intro hx
        obtain ⟨f, hf, hfn⟩ := hg'.held n hx
        exact Nat.lt_irrefl _ (hall f hf n hfn)
      have hen : e.name ≠ some n := fun hx => Nat.lt_irrefl _ (hn1 n hx)
      have htx : text ≠ [] := fun hx => hne n (by rw [hdn, hx])
      have hgood : Good d rank ⟨⟨some n, text⟩ :: (settle ({ e with rest := t } :: es) s.opened).1,
          n :: (settle ({ e with rest := t } :: es) s.opened).2, s.out⟩ := by
        refine ⟨?_, ?_, ?_, ?_⟩
        · show Settled (⟨some n, text⟩ :: (settle ({ e with rest := t } :: es) s.opened).1)
          cases (settle ({ e with rest := t } :: es) s.opened).1 with
          | nil => trivial
          | cons => exact htx
        · intro m hm
          rcases List.mem_cons.1 hm with rfl | hm
          · exact ⟨_, List.mem_cons_self .., rfl⟩
          · obtain ⟨f, hf, hfn⟩ := hg'.held m hm
            exact ⟨f, List.mem_cons_of_mem _ hf, hfn⟩
        · exact List.pairwise_cons.2 ⟨fun f hf => ⟨n, rfl, hall f hf⟩, hg'.order⟩
        · intro f hf m hm
          rcases List.mem_cons.1 hf with rfl | hf
          · exact ⟨hd n text hdn m hm, fun k hk => by injection hk with hk; subst hk; exact hr n text hdn m hm⟩
          · exact hg'.refs f hf m hm
      obtain ⟨k, hk⟩ := ih _ hgood (by
        show text ++ flat (settle _ _).1 = text ++ ts
        rw [settle_flat]; congr 1)
      refine ⟨k + 1, ?_⟩
      have : step d s = .more ⟨⟨some n, text⟩ :: (settle ({ e with rest := t } :: es) s.opened).1,
          n :: (settle ({ e with rest := t } :: es) s.opened).2, s.out⟩ := by
        unfold step
        simp only [hs, ht, hdn, hno, hen, htx, or_false, if_false]
      unfold run
      rw [this]
      exact hk

theorem means_exists {d : Decl} {rank : Name → Nat} (hr : ∀ n text, d n = some text → ∀ m, .ref m ∈ text → rank m < rank n)
    (hd : ∀ n text, d n = some text → ∀ m, .ref m ∈ text → d m ≠ none) : ∀ (b : Nat) (ts : List Tok),
    (∀ m, .ref m ∈ ts → rank m < b) → (∀ m, .ref m ∈ ts → d m ≠ none) → ∃ out, Means d ts out := by
  intro b
  induction b with
  | zero =>
    intro ts
    induction ts with
    | nil => exact fun _ _ => ⟨[], .nil⟩
    | cons x ts ih =>
      intro hb hd'
      cases x with
      | chr c =>
        obtain ⟨o, ho⟩ := ih (fun m hm => hb m (List.mem_cons_of_mem _ hm)) (fun m hm => hd' m (List.mem_cons_of_mem _ hm))
        exact ⟨_, .chr ho⟩
      | ref n => exact absurd (hb n (List.mem_cons_self ..)) (Nat.not_lt_zero _)
  | succ b ihb =>
    intro ts
    induction ts with
    | nil => exact fun _ _ => ⟨[], .nil⟩
    | cons x ts ih =>
      intro hb hd'
      obtain ⟨o, ho⟩ := ih (fun m hm => hb m (List.mem_cons_of_mem _ hm)) (fun m hm => hd' m (List.mem_cons_of_mem _ hm))
      cases x with
      | chr c => exact ⟨_, .chr ho⟩
      | ref n =>
        cases hn : d n with
        | none => exact absurd hn (hd' n (List.mem_cons_self ..))
        | some text =>
          have hlt := hb n (List.mem_cons_self ..)
          obtain ⟨mid, hm⟩ := ihb text (fun m hm => Nat.lt_of_lt_of_le (hr n text hn m hm) (Nat.le_of_lt_succ hlt)) (fun m hm => hd n text hn m hm)
          exact ⟨_, .ref hn hm ho⟩

/-- **Documents whose entities are declared, not empty and do not refer to themselves are read to their end**, and yield what the
references stand for. -/
theorem acyclic_is_read (d : Decl) (doc : List Tok) (ha : Acyclic d) (hd : Declared d doc) (hne : ∀ n, d n ≠ some []) :
    ∃ k text, run d k (start doc) = .done text ∧ Means d doc text := by
  obtain ⟨rank, hr⟩ := ha
  have hb : ∃ b, ∀ m, Tok.ref m ∈ doc → rank m < b := by
    clear hd
    induction doc with
    | nil => exact ⟨0, fun _ h => nomatch h⟩
    | cons x ts ih =>
      obtain ⟨b, hb⟩ := ih
      refine ⟨b + (match x with | .ref n => rank n + 1 | _ => 0), fun m hm => ?_⟩
      rcases List.mem_cons.1 hm with rfl | hm
      · show rank m < b + (rank m + 1); omega
      · have := hb m hm; omega
  obtain ⟨b, hb⟩ := hb
  obtain ⟨out, ho⟩ := means_exists hr hd.2 b doc hb hd.1
  obtain ⟨k, hk⟩ := lin_run hr hd.2 hne (means_lin ho) (start doc)
    ⟨trivial, fun _ h => (nomatch h), by simp [start], fun e he m hm => by
      have : e = ⟨none, doc⟩ := by simpa [start] using he
      subst this
      exact ⟨hd.1 m hm, fun _ h => nomatch h⟩⟩
    (by simp [flat, start])
  exact ⟨k, out, by simpa [start] using hk, ho⟩

end Verif.Props.XE
