import Verif.Props.XmlEntities

/-!
# When reading entities ends
-/

namespace Verif.Props.XE
open Verif.PyXml.Ent

theorem length_le_of_nodup {N : List Name} : ∀ {l : List Name}, l.Nodup → (∀ x ∈ l, x ∈ N) → l.length ≤ N.length := by
  intro l
  induction l generalizing N with
  | nil => exact fun _ _ => Nat.zero_le _
  | cons x l ih =>
    intro hn hs
    obtain ⟨hx, hn⟩ := List.nodup_cons.1 hn
    have hm := hs x (List.mem_cons_self ..)
    have := ih (N := N.erase x) hn fun y hy => (List.mem_erase_of_ne (fun (e : y = x) => hx (e ▸ hy))).2 (hs y (List.mem_cons_of_mem _ hy))
    have h1 := List.length_erase_of_mem hm
    have h2 : 0 < N.length := List.length_pos_of_mem hm
    simp only [List.length_cons]
    omega

/-- No text ends with a reference. -/
def EndsPlain (t : List Tok) : Prop := ∀ pre n, t ≠ pre ++ [.ref n]

theorem EndsPlain.tail {x : Tok} {t : List Tok} (h : EndsPlain (x :: t)) : EndsPlain t :=
  fun pre n e => h (x :: pre) n (by rw [e]; rfl)

/-- What holds while reading: the entities that wait are declared, open and different, and what is left of them does not end with a
reference; the document is at the bottom. -/
structure Inv (d : Decl) (s : State) : Prop where
  bottom : ∃ (up : List Entry) (doc : List Tok) (names : List Name), s.stack = up ++ [⟨none, doc⟩] ∧ up.map (·.name) = names.map some ∧ names.Nodup ∧
    (∀ n ∈ names, n ∈ s.opened ∧ d n ≠ none)
  plain : ∀ e ∈ s.stack, e.name ≠ none → EndsPlain e.rest

/-- How much there is to read at most: what is deeper weighs less. -/
def weight (W D : Nat) : List Entry → Nat
  | [] => 0
  | e :: es => e.rest.length * W ^ (D - es.length) + weight W D es

theorem settle_weight (W D : Nat) : ∀ (es : List Entry) (o : List Name), weight W D (settle es o).1 = weight W D es
  | [], _ => rfl
  | [_], _ => rfl
  | e :: f :: es, o => by
    unfold settle
    split
    · rename_i h
      rw [settle_weight W D (f :: es)]
      simp [weight, h]
    · rfl

theorem settle_inv {d : Decl} : ∀ (es : List Entry) (o : List Name) (out out' : List Char), Inv d ⟨es, o, out⟩ →
    Inv d ⟨(settle es o).1, (settle es o).2, out'⟩
  | [], _, _, _, h => ⟨h.bottom, h.plain⟩
  | [_], _, _, _, h => ⟨h.bottom, h.plain⟩
  | e :: f :: es, o, out, out', h => by
    unfold settle
    split
    · refine settle_inv (f :: es) _ out out' ⟨?_, fun x hx => h.plain x (List.mem_cons_of_mem _ hx)⟩
      obtain ⟨up, doc, names, hs, hn, hnd, ho⟩ := h.bottom
      cases up with
      | nil => cases hs
      | cons u us =>
        cases names with
        | nil => cases hn
        | cons n ns =>
          simp only [List.map_cons, List.cons.injEq] at hn
          simp only [List.cons_append, List.cons.injEq] at hs
          obtain ⟨hx, hnd⟩ := List.nodup_cons.1 hnd
          refine ⟨us, doc, ns, hs.2, hn.2, hnd, fun m hm => ⟨close_mem.2 ⟨(ho m (List.mem_cons_of_mem _ hm)).1, ?_⟩,
            (ho m (List.mem_cons_of_mem _ hm)).2⟩⟩
          rw [hs.1, hn.1]
          intro e
          injection e with e
          exact hx (e ▸ hm)
    · exact ⟨h.bottom, h.plain⟩

theorem inv_tail {d : Decl} {e : Entry} {es : List Entry} {o : List Name} {out : List Char} {x : Tok} {t : List Tok}
    (h : Inv d ⟨e :: es, o, out⟩) (ht : e.rest = x :: t) : Inv d ⟨{ e with rest := t } :: es, o, out⟩ := by
  refine ⟨?_, ?_⟩
  · obtain ⟨up, doc, names, hs, hn, hnd, ho⟩ := h.bottom
    cases up with
    | nil =>
      simp only [List.nil_append, List.cons.injEq] at hs
      obtain ⟨rfl, rfl⟩ := hs
      exact ⟨[], t, names, rfl, hn, hnd, ho⟩
    | cons u us =>
      simp only [List.cons_append, List.cons.injEq] at hs
      obtain ⟨rfl, rfl⟩ := hs
      exact ⟨{ e with rest := t } :: us, doc, names, rfl, hn, hnd, ho⟩
  · intro f hf hfn
    rcases List.mem_cons.1 hf with rfl | hf
    · have := h.plain e (List.mem_cons_self ..) hfn
      rw [ht] at this
      exact this.tail
    · exact h.plain f (List.mem_cons_of_mem _ hf) hfn

/-- Nothing that a reference follows is popped: what contains it has not been read to its end, or is the document. -/
theorem settle_ref {d : Decl} {e : Entry} {es : List Entry} {o : List Name} {out : List Char} {n : Name} {t : List Tok}
    (h : Inv d ⟨e :: es, o, out⟩) (ht : e.rest = .ref n :: t) :
    settle ({ e with rest := t } :: es) o = ({ e with rest := t } :: es, o) := by
  cases es with
  | nil => rfl
  | cons f fs =>
    unfold settle
    split
    · rename_i hx
      have hx : t = [] := hx
      obtain ⟨up, doc, names, hs, hn, _, _⟩ := h.bottom
      cases up with
      | nil => cases hs
      | cons u us =>
        cases names with
        | nil => cases hn
        | cons m ns =>
          simp only [List.cons_append, List.cons.injEq] at hs
          simp only [List.map_cons, List.cons.injEq] at hn
          have : e.name ≠ none := by rw [hs.1, hn.1]; exact fun h => nomatch h
          exact absurd (by rw [ht, hx]; rfl) (h.plain e (List.mem_cons_self ..) this [] n)
    · rfl

theorem moves_lighter {d : Decl} {N : List Name} {L : Nat} (hN : ∀ n, d n ≠ none → n ∈ N)
    (hL : ∀ n text, d n = some text → text.length ≤ L) (hp : ∀ n text, d n = some text → EndsPlain text) {s s' : State} (h : Inv d s)
    (hm : Moves d s s') : Inv d s' ∧ weight (L + 1) N.length s'.stack < weight (L + 1) N.length s.stack := by
  have hW : ∀ k, 0 < (L + 1) ^ k := fun k => Nat.pow_pos (Nat.succ_pos _)
  cases hm with
  | @chr e es c t hs ht =>
    obtain ⟨stack, opened, out⟩ := s
    simp only at hs
    subst hs
    refine ⟨settle_inv _ _ _ _ (inv_tail h ht), ?_⟩
    simp only [settle_weight, weight, ht, List.length_cons, Nat.succ_mul]
    have := hW (N.length - es.length)
    omega
  | @ref e es n t text hs ht hd hno hen =>
    obtain ⟨stack, opened, out⟩ := s
    simp only at hs
    subst hs
    rw [settle_ref h ht] at *
    have hi := inv_tail h ht
    have hdn : d n ≠ none := by rw [hd]; exact fun h => nomatch h
    obtain ⟨up, doc, names, hs, hn, hnd, ho⟩ := hi.bottom
    have hnn : n ∉ names := fun hx => hno (ho n hx).1
    have hlen : es.length + 1 ≤ N.length := by
      have h1 := length_le_of_nodup (N := N) (l := n :: names) (List.nodup_cons.2 ⟨hnn, hnd⟩) (fun x hx => by
        rcases List.mem_cons.1 hx with rfl | hx
        · exact hN _ hdn
        · exact hN _ (ho x hx).2)
      have h2 := congrArg List.length hs
      have h3 := congrArg List.length hn
      simp only [List.length_cons, List.length_append, List.length_map, List.length_nil] at h1 h2 h3
      omega
    have hpow : (L + 1) ^ (N.length - es.length) = (L + 1) * (L + 1) ^ (N.length - (es.length + 1)) := by
      rw [← Nat.pow_succ']; congr 1; omega
    have hlt := hL n text hd
    constructor
    · constructor
      · show ∃ up doc names, (if text = [] then _ else _) = _ ∧ _
        split
        · exact ⟨up, doc, names, hs, hn, hnd, fun m hm => ⟨List.mem_cons_of_mem _ (ho m hm).1, (ho m hm).2⟩⟩
        · refine ⟨⟨some n, text⟩ :: up, doc, n :: names, by rw [List.cons_append, ← hs], by rw [List.map_cons, List.map_cons, hn],
            List.nodup_cons.2 ⟨hnn, hnd⟩, fun m hm => ?_⟩
          rcases List.mem_cons.1 hm with rfl | hm
          · exact ⟨List.mem_cons_self .., hdn⟩
          · exact ⟨List.mem_cons_of_mem _ (ho m hm).1, (ho m hm).2⟩
      · intro f hf hfn
        change f ∈ (if text = [] then _ else _) at hf
        split at hf
        · exact hi.plain f hf hfn
        · rcases List.mem_cons.1 hf with rfl | hf
          · exact hp n text hd
          · exact hi.plain f hf hfn
    · show weight _ _ (if text = [] then _ else _) < _
      have hpos := hW (N.length - (es.length + 1))
      split
      · simp only [weight, ht, List.length_cons, Nat.succ_mul]
        have := hW (N.length - es.length)
        omega
      · simp only [weight, ht, List.length_cons, Nat.succ_mul, hpow]
        have := Nat.mul_le_mul_right ((L + 1) ^ (N.length - (es.length + 1))) hlt
        omega

theorem run_ends {d : Decl} {N : List Name} {L : Nat} (hN : ∀ n, d n ≠ none → n ∈ N)
    (hL : ∀ n text, d n = some text → text.length ≤ L) (hp : ∀ n text, d n = some text → EndsPlain text) : ∀ (k : Nat) (s : State), Inv d s →
    weight (L + 1) N.length s.stack < k → ∀ s', run d k s ≠ .more s'
  | 0, _, _, hk, _ => absurd hk (Nat.not_lt_zero _)
  | k + 1, s, hi, hk, s' => by
    unfold run
    cases he : step d s with
    | more s1 =>
      obtain ⟨h1, h2⟩ := moves_lighter hN hL hp hi (step_moves he)
      exact run_ends hN hL hp k s1 h1 (by omega) s'
    | done => exact fun h => nomatch h
    | recursion => exact fun h => nomatch h
    | undeclared => exact fun h => nomatch h

/-- **Reading always ends if no text of an entity ends with a reference**, however entities refer to one another: after as many
characters and references as the document has, times a power of the longest text. -/
theorem plain_endings_end (d : Decl) (N : List Name) (L : Nat) (hN : ∀ n, d n ≠ none → n ∈ N)
    (hL : ∀ n text, d n = some text → text.length ≤ L) (hp : ∀ n text, d n = some text → ∀ pre m, text ≠ pre ++ [.ref m])
    (doc : List Tok) : ∀ s, run d (doc.length * (L + 1) ^ N.length + 1) (start doc) ≠ .more s :=
  run_ends hN hL hp _ (start doc)
    ⟨⟨[], doc, [], rfl, rfl, List.nodup_nil, fun _ h => nomatch h⟩, fun e he hn => by
      have : e = ⟨none, doc⟩ := by simpa [start] using he
      subst this
      exact absurd rfl hn⟩
    (by simp [weight, start])

/-- **Entities that refer to one another are rejected if no text ends with a reference**: what has no meaning is not read. -/
theorem cycles_rejected_partial (d : Decl) (N : List Name) (L : Nat) (hN : ∀ n, d n ≠ none → n ∈ N)
    (hL : ∀ n text, d n = some text → text.length ≤ L) (hp : ∀ n text, d n = some text → ∀ pre m, text ≠ pre ++ [.ref m])
    (doc : List Tok) (hno : ¬ ∃ text, Means d doc text) : ∃ k, run d k (start doc) = .recursion ∨ run d k (start doc) = .undeclared := by
  refine ⟨doc.length * (L + 1) ^ N.length + 1, ?_⟩
  cases h : run d (doc.length * (L + 1) ^ N.length + 1) (start doc) with
  | more s => exact absurd h (plain_endings_end d N L hN hL hp doc s)
  | done text => exact absurd ⟨text, text_is_meant d doc _ text h⟩ hno
  | recursion => exact .inl rfl
  | undeclared => exact .inr rfl

/-! ## What is refuted -/

/-- Two entities that consist of a reference to the other. -/
def looping : Decl := fun n => if n = 0 then some [.ref 1] else if n = 1 then some [.ref 0] else none

theorem looping_goes_on : ∀ (k : Nat), (∃ s, run looping k ⟨[⟨some 0, [.ref 1]⟩, ⟨none, []⟩], [0], []⟩ = .more s) ∧
    ∃ s, run looping k ⟨[⟨some 1, [.ref 0]⟩, ⟨none, []⟩], [1], []⟩ = .more s
  | 0 => ⟨⟨_, rfl⟩, ⟨_, rfl⟩⟩
  | k + 1 => by
    obtain ⟨⟨a, ha⟩, ⟨b, hb⟩⟩ := looping_goes_on k
    constructor
    · refine ⟨b, ?_⟩
      unfold run
      have : step looping ⟨[⟨some 0, [.ref 1]⟩, ⟨none, []⟩], [0], []⟩ = .more ⟨[⟨some 1, [.ref 0]⟩, ⟨none, []⟩], [1], []⟩ := by
        decide +kernel
      rw [this]; exact hb
    · refine ⟨a, ?_⟩
      unfold run
      have : step looping ⟨[⟨some 1, [.ref 0]⟩, ⟨none, []⟩], [1], []⟩ = .more ⟨[⟨some 0, [.ref 1]⟩, ⟨none, []⟩], [0], []⟩ := by
        decide +kernel
      rw [this]; exact ha

theorem looping_for_ever (k : Nat) : ∃ s, run looping k (start [.ref 0]) = .more s := by
  cases k with
  | zero => exact ⟨_, rfl⟩
  | succ k =>
    obtain ⟨s, hs⟩ := (looping_goes_on k).1
    refine ⟨s, ?_⟩
    unfold run
    have : step looping (start [.ref 0]) = .more ⟨[⟨some 0, [.ref 1]⟩, ⟨none, []⟩], [0], []⟩ := by decide +kernel
    rw [this]; exact hs

/-- **Not all references to entities that contain themselves are rejected**: with two declared entities that consist of a reference to
the other, reading never ends. -/
theorem cycles_rejected_refuted : ¬ ∀ (d : Decl) (doc : List Tok), (∃ N : List Name, ∀ n, d n ≠ none → n ∈ N) →
    (¬ ∃ text, Means d doc text) → ∃ k, run d k (start doc) = .recursion ∨ run d k (start doc) = .undeclared := by
  intro h
  have hm : ∀ ts out, Means looping ts out → .ref 0 ∉ ts ∧ .ref 1 ∉ ts := by
    intro ts out hm
    induction hm with
    | nil => exact ⟨fun h => (nomatch h), fun h => nomatch h⟩
    | chr _ ih => exact ⟨by simp [ih.1], by simp [ih.2]⟩
    | @ref n text ts mid out hd _ _ ih1 ih2 =>
      exfalso
      unfold looping at hd
      split at hd
      · injection hd with hd; subst hd; exact ih1.2 (List.mem_cons_self ..)
      · split at hd
        · injection hd with hd; subst hd; exact ih1.1 (List.mem_cons_self ..)
        · cases hd
  obtain ⟨k, hk⟩ := h looping [.ref 0] ⟨[0, 1], fun n hn => by
    unfold looping at hn
    split at hn
    · rename_i h; simp [h]
    · split at hn
      · rename_i h; simp [h]
      · exact absurd rfl hn⟩ (fun ⟨t, ht⟩ => (hm _ t ht).1 (List.mem_cons_self ..))
  obtain ⟨s, hs⟩ := looping_for_ever k
  rw [hs] at hk
  rcases hk with hk | hk <;> cases hk

/-- **Entities without text cannot be referred to twice**: although the declarations are fine, the second reference is taken for
recursion. -/
theorem empty_read_refuted : ¬ ∀ (d : Decl) (doc : List Tok), Acyclic d → Declared d doc → ∃ k text, run d k (start doc) = .done text := by
  intro h
  obtain ⟨k, text, hk⟩ := h (fun n => if n = 0 then some [] else none) [.ref 0, .ref 0]
    ⟨fun _ => 0, fun n text hn m hm => by
      simp only at hn
      split at hn
      · injection hn with hn; subst hn; cases hm
      · cases hn⟩
    ⟨fun m hm => by
      have : m = 0 := by simpa using hm
      simp [this], fun n text hn m hm => by
      simp only at hn
      split at hn
      · injection hn with hn; subst hn; cases hm
      · cases hn⟩
  match k with
  | 0 => cases hk
  | 1 =>
    have : run (fun n => if n = 0 then some [] else none) 1 (start [.ref 0, .ref 0]) = .more ⟨[⟨none, [.ref 0]⟩], [0], []⟩ := rfl
    rw [this] at hk
    cases hk
  | k + 2 =>
    have : run (fun n => if n = 0 then some [] else none) (k + 2) (start [.ref 0, .ref 0]) = .recursion := rfl
    rw [this] at hk
    cases hk

/-! ## How long texts get -/

/-- Every entity refers twice to the one before; the first has two characters. -/
def doubling : Decl
  | 0 => some ['x', 'x'] |>.map (·.map .chr)
  | n + 1 => some [.ref n, .ref n]

theorem doubling_means : ∀ k, ∃ text, Means doubling [.ref k] text ∧ text.length = 2 ^ (k + 1)
  | 0 => ⟨['x', 'x'], .ref (mid := ['x', 'x']) (out := []) rfl (.chr (.chr .nil)) .nil, rfl⟩
  | k + 1 => by
    obtain ⟨t, h, hl⟩ := doubling_means k
    refine ⟨(t ++ t) ++ [], .ref (n := k + 1) rfl (means_append h h) .nil, ?_⟩
    rw [List.append_nil, List.length_append, hl, Nat.pow_succ 2 (k + 1)]
    exact (Nat.mul_two _).symm

theorem lin_unique {d : Decl} {a : List Tok} {x : List Char} (h : Lin d a x) : ∀ y, Lin d a y → y = x := by
  induction h with
  | nil => intro y hy; cases hy; rfl
  | chr _ ih => intro y hy; cases hy with | chr h => rw [ih _ h]
  | ref hd _ ih => intro y hy; cases hy with | ref hd' h => rw [hd] at hd'; injection hd' with hd'; subst hd'; exact ih _ h

/-- What references stand for is unique. -/
theorem means_unique {d : Decl} {a : List Tok} {x y : List Char} (hx : Means d a x) (hy : Means d a y) : y = x :=
  lin_unique (means_lin hx) _ (means_lin hy)

/-- **Texts are not bounded by the size of what is read**: `k + 1` entities of at most two tokens make a document of one reference grow
to 2 ^ (k + 1) characters. -/
theorem growth_bounded_refuted (k : Nat) : ∃ (d : Decl) (fuel : Nat) (text : List Char), (∀ n, d n ≠ none → n ≤ k) ∧
    (∀ n t, d n = some t → t.length ≤ 2) ∧ run d fuel (start [.ref k]) = .done text ∧ text.length = 2 ^ (k + 1) := by
  refine ⟨fun n => if n ≤ k then doubling n else none, ?_⟩
  have hac : Acyclic (fun n => if n ≤ k then doubling n else none) := ⟨id, fun n text hn m hm => by
    simp only at hn
    split at hn
    · cases n with
      | zero => simp [doubling] at hn; subst hn; simp at hm
      | succ n => simp [doubling] at hn; subst hn; simp at hm; subst hm; exact Nat.lt_succ_self _
    · cases hn⟩
  have hde : Declared (fun n => if n ≤ k then doubling n else none) [.ref k] := by
    have hdef : ∀ n, n ≤ k → (if n ≤ k then doubling n else none) ≠ none := by
      intro n hn
      rw [if_pos hn]
      cases n <;> exact fun h => nomatch h
    refine ⟨fun m hm => ?_, fun n text hn m hm => ?_⟩
    · have : m = k := by simpa using hm
      subst this; exact hdef _ (Nat.le_refl _)
    · simp only at hn
      split at hn
      · rename_i hle
        cases n with
        | zero => simp [doubling] at hn; subst hn; simp at hm
        | succ n => simp [doubling] at hn; subst hn; simp at hm; subst hm; exact hdef _ (Nat.le_of_succ_le hle)
      · cases hn
  have hne : ∀ n, (if n ≤ k then doubling n else none) ≠ some [] := by
    intro n
    split
    · cases n <;> simp [doubling]
    · exact fun h => nomatch h
  obtain ⟨fuel, text, h1, h2⟩ := acyclic_is_read _ _ hac hde hne
  refine ⟨fuel, text, fun n hn => ?_, fun n t hn => ?_, h1, ?_⟩
  · simp only at hn
    split at hn
    · assumption
    · exact absurd rfl hn
  · simp only at hn
    split at hn
    · cases n with
      | zero => simp [doubling] at hn; subst hn; simp
      | succ n => simp [doubling] at hn; subst hn; simp
    · cases hn
  · have hlift : ∀ ts out, Means doubling ts out → (∀ m, Tok.ref m ∈ ts → m ≤ k) → Means (fun n => if n ≤ k then doubling n else none) ts out := by
      intro ts out hm
      induction hm with
      | nil => exact fun _ => .nil
      | chr _ ih => exact fun hb => .chr (ih fun m hm => hb m (List.mem_cons_of_mem _ hm))
      | @ref n text ts mid out hd _ _ ih1 ih2 =>
        intro hb
        have hn := hb n (List.mem_cons_self ..)
        refine .ref (n := n) (text := text) (by simp only [if_pos hn, hd]) (ih1 fun m hm => ?_) (ih2 fun m hm => hb m (List.mem_cons_of_mem _ hm))
        cases n with
        | zero => simp [doubling] at hd; subst hd; simp at hm
        | succ n => simp [doubling] at hd; subst hd; simp at hm; subst hm; exact Nat.le_of_succ_le hn
    obtain ⟨t, ht, hl⟩ := doubling_means k
    rw [means_unique (hlift _ _ ht fun m hm => by
      have : m = k := by simpa using hm
      exact this ▸ Nat.le_refl _) h2, hl]

/-! ## The hypotheses can be met -/

/-- `&1;` with 0 = "hi" and 1 = "&0;-&0;": read to its end, no text ends … -/
example : run (fun n => if n = 0 then some [.chr 'h', .chr 'i'] else if n = 1 then some [.ref 0, .chr '-', .ref 0, .chr '.'] else none) 20
    (start [.ref 1, .ref 0]) = .done ['h', 'i', '-', 'h', 'i', '.', 'h', 'i'] := by decide +kernel

/-- … and an entity that refers to itself, with something after the reference, is rejected. -/
example : run (fun n => if n = 0 then some [.ref 1, .chr '.'] else if n = 1 then some [.ref 0, .chr '.'] else none) 20
    (start [.ref 0]) = .recursion := by decide +kernel

end Verif.Props.XE
