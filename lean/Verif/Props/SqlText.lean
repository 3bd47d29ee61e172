import Verif.Spec.SqlText

/-!
# The text of a condition does not depend on the literals
-/

namespace Verif.Props

open Verif Verif.OData Verif.OData.Sql Verif.Spec.Sql

namespace SQ

/-- What is claimed of a text with its parameters. -/
structure Fine (C : Coll) (e : Expr) (ctx : Option Op) (x : Out) : Prop where
  same : ∃ ps, sql C (blank e) ctx = .ok (x.1, ps)
  count : x.2.length = holes x.1
  names : ∀ s, Piece.name s ∈ x.1 → IsColumn C s
  params : ∀ p ∈ x.2, ∃ v, Occurs v e ∧ prepare v = .ok p
  own : ¬ Foreign e

theorem memberNames_own (e : Expr) : ∀ {n}, memberNames e = .ok n → ¬ Foreign e := by
  fun_induction memberNames e with
  | case1 name => intro n h hf; cases hf
  | case2 a b more ih1 ih2 =>
    intro n h hf
    cases h1 : memberNames a with
    | error e => rw [h1] at h; cases h
    | ok x =>
      cases h2 : memberNames b with
      | error e => rw [h1, h2] at h; cases h
      | ok y =>
        cases hf with
        | binary hx hf =>
          simp at hx
          rcases hx with rfl | rfl
          · exact ih1 h1 hf
          · exact ih2 h2 hf
  | case3 => intro n h; cases h
  | case4 => intro n h; cases h

theorem declared_split {n : Str} {k : Kind} (ds : List (Str × Kind)) (h : declared n ds = some k) :
    ∃ pre post, ds = pre ++ (n, k) :: post ∧ ∀ d ∈ pre, d.1 ≠ n := by
  induction ds with
  | nil => cases h
  | cons d ds ih =>
    obtain ⟨a, b⟩ := d
    rw [declared] at h
    split at h
    · rename_i e
      cases h
      subst e
      exact ⟨[], ds, rfl, fun _ h => nomatch h⟩
    · rename_i e
      obtain ⟨pre, post, e1, e2⟩ := ih h
      refine ⟨(a, b) :: pre, post, by rw [e1]; rfl, fun d hd => ?_⟩
      rcases List.mem_cons.mp hd with e3 | e3
      · rw [e3]; exact e
      · exact e2 d e3

theorem walk_declared (names : List Str) : ∀ {fields}, memberWalk (some fields) names = .ok none → Declared fields names := by
  induction names with
  | nil => intro fields h; cases h
  | cons n rest ih =>
    intro fields h
    rw [memberWalk] at h
    split at h
    · cases h
    · rename_i hd
      obtain ⟨pre, post, e1, e2⟩ := declared_split _ hd
      cases rest with
      | nil => rw [e1]; exact .simple e2
      | cons m rest => rw [memberWalk] at h; cases h
    · rename_i f hd
      obtain ⟨pre, post, e1, e2⟩ := declared_split _ hd
      rw [e1]
      exact .complex e2 (ih h)
    · cases h

theorem property_inv (C : Coll) {n : Str} {x : Out} (h : Sql.property C n = .ok x) :
    ∃ names q, (Declared C.props names ∧ C.mangled names = some q) ∧ x = ([.name (C.column q)], []) := by
  unfold Sql.property at h
  split at h
  · cases h
  · rename_i hd
    obtain ⟨pre, post, e1, e2⟩ := declared_split _ hd
    cases h3 : C.mangled [n] with
    | none => rw [h3] at h; cases h
    | some q => rw [h3] at h; cases h; exact ⟨_, q, ⟨e1 ▸ .simple e2, h3⟩, rfl⟩
  · cases h
  · cases h

theorem memberNames_blank (e : Expr) : ∀ {n}, memberNames e = .ok n → memberNames (blank e) = .ok n := by
  fun_induction memberNames e with
  | case1 name => intro n h; exact h
  | case2 a b more ih1 ih2 =>
    intro n h
    cases h1 : memberNames a with
    | error e => rw [h1] at h; cases h
    | ok x =>
      cases h2 : memberNames b with
      | error e => rw [h1, h2] at h; cases h
      | ok y =>
        rw [h1, h2] at h
        rw [blank, blankAll, blankAll, memberNames, ih1 h1, ih2 h2]
        exact h
  | case3 => intro n h; cases h
  | case4 => intro n h; cases h

theorem blank_member (C : Coll) {e : Expr} {x : Out} (h : member C e = .ok x) : member C (blank e) = .ok x := by
  unfold member at h ⊢
  cases h1 : memberNames e with
  | error e => rw [h1] at h; cases h
  | ok n => rw [memberNames_blank e h1]; rw [h1] at h; exact h

theorem member_inv (C : Coll) {e : Expr} {x : Out} (h : member C e = .ok x) :
    ∃ names q, (Declared C.props names ∧ C.mangled names = some q) ∧ x = ([.name (C.column q)], []) := by
  unfold member at h
  cases h1 : memberNames e with
  | error e => rw [h1] at h; cases h
  | ok n =>
    rw [h1] at h
    cases h2 : memberWalk (some C.props) n with
    | error e => simp only [h2, bind, Except.bind] at h; cases h
    | ok w =>
      simp only [h2, bind, Except.bind] at h
      cases w with
      | some _ => cases h
      | none =>
        cases h3 : C.mangled n with
        | none => rw [h3] at h; cases h
        | some q => rw [h3] at h; cases h; exact ⟨n, q, ⟨walk_declared n h2, h3⟩, rfl⟩

theorem holes_append (a b : List Piece) : holes (a ++ b) = holes a + holes b := List.countP_append

theorem bracket_fine (q : List Piece) (ctx : Option Op) (o : Op) :
    holes (bracket q ctx o) = holes q ∧ ∀ s, Piece.name s ∈ bracket q ctx o → Piece.name s ∈ q := by
  unfold bracket
  split
  · refine ⟨?_, fun s h => ?_⟩
    · simp [holes]
    · simpa using h
  · exact ⟨rfl, fun _ h => h⟩

theorem join_fine (o : Op) (a b : Out) (ctx : Option Op) (ha : a.2.length = holes a.1) (hb : b.2.length = holes b.1) :
    (join o a b ctx).2.length = holes (join o a b ctx).1 ∧ (∀ s, Piece.name s ∈ (join o a b ctx).1 → Piece.name s ∈ a.1 ∨ Piece.name s ∈ b.1) := by
  unfold join
  refine ⟨?_, fun s h => ?_⟩
  · rw [(bracket_fine _ _ _).1, List.length_append, ha, hb, holes_append]
    simp [holes]
  · have := (bracket_fine _ _ _).2 s h
    simpa using this

/-- A join of the same texts has the same text. -/
theorem join_text {o : Op} {a a' b b' : Out} (ctx) (ha : a.1 = a'.1) (hb : b.1 = b'.1) : (join o a b ctx).1 = (join o a' b' ctx).1 := by
  unfold join; rw [ha, hb]

theorem two {C : Coll} {a b : Expr} {ca cb : Option Op} {f : Out → Out → Out} {x : Out}
    (h : (do let u ← sql C a ca; let v ← sql C b cb; (.ok (f u v) : Except Fail Out)) = .ok x) :
    ∃ u v, sql C a ca = .ok u ∧ sql C b cb = .ok v ∧ x = f u v := by
  cases h1 : sql C a ca with
  | error e => rw [h1] at h; cases h
  | ok u =>
    cases h2 : sql C b cb with
    | error e => rw [h1, h2] at h; cases h
    | ok v => rw [h1, h2] at h; cases h; exact ⟨u, v, rfl, rfl, rfl⟩

theorem fine_join {C : Coll} {e a b : Expr} {ca cb ctx : Option Op} {f : Out → Out → Out} {u v : Out} (hu : Fine C a ca u) (hv : Fine C b cb v)
    (hs : ∀ a' b' : Out, sql C (blank a) ca = .ok a' → sql C (blank b) cb = .ok b' → sql C (blank e) ctx = .ok (f a' b'))
    (ht : ∀ a a' b b' : Out, a.1 = a'.1 → b.1 = b'.1 → (f a b).1 = (f a' b').1)
    (hc : ∀ a b : Out, a.2.length = holes a.1 → b.2.length = holes b.1 → (f a b).2.length = holes (f a b).1)
    (hn : ∀ (a b : Out) s, Piece.name s ∈ (f a b).1 → Piece.name s ∈ a.1 ∨ Piece.name s ∈ b.1)
    (hp : ∀ (a b : Out) p, p ∈ (f a b).2 → p ∈ a.2 ∨ p ∈ b.2)
    (hoa : ∀ l, Occurs l a → Occurs l e) (hob : ∀ l, Occurs l b → Occurs l e)
    (how : ¬ Foreign a → ¬ Foreign b → ¬ Foreign e) : Fine C e ctx (f u v) := by
  obtain ⟨pa, ea⟩ := hu.same
  obtain ⟨pb, eb⟩ := hv.same
  refine ⟨⟨(f (u.1, pa) (v.1, pb)).2, ?_⟩, hc _ _ hu.count hv.count, fun s h => ?_, fun p h => ?_, how hu.own hv.own⟩
  · rw [hs _ _ ea eb, ht u (u.1, pa) v (v.1, pb) rfl rfl]
  · rcases hn _ _ _ h with h | h
    · exact hu.names s h
    · exact hv.names s h
  · rcases hp _ _ _ h with h | h
    · obtain ⟨l, o, e⟩ := hu.params p h
      exact ⟨l, hoa l o, e⟩
    · obtain ⟨l, o, e⟩ := hv.params p h
      exact ⟨l, hob l o, e⟩

theorem percent_holes : percent.2.length = holes percent.1 := rfl

theorem fine (C : Coll) (e : Expr) (ctx : Option Op) : ∀ {x}, sql C e ctx = .ok x → Fine C e ctx x := by
  induction e, ctx using sql.induct (C := C) with
  | case1 => intro x h; rw [sql] at h; cases h
  | case2 => intro x h; rw [sql] at h; cases h
  | case3 v c =>
    intro x h
    rw [sql] at h
    cases hp : prepare v with
    | error e => rw [hp] at h; cases h
    | ok p =>
      rw [hp] at h
      cases h
      refine ⟨⟨[.none], ?_⟩, rfl, ?_, ?_, ?_⟩
      · rw [blank, sql]; rfl
      · simp
      · intro p' h'
        simp at h'
        exact ⟨v, .lit, by rw [hp, h']⟩
      · intro h; cases h
  | case4 n c =>
    intro x h
    rw [sql] at h
    obtain ⟨names, q, e1, e2⟩ := property_inv C h
    refine ⟨⟨x.2, by rw [blank, sql, h]⟩, by rw [e2]; rfl, ?_, by rw [e2]; simp, fun h => by cases h⟩
    rw [e2]
    intro s hs
    simp at hs
    exact ⟨names, q, e1.1, e1.2, hs⟩
  | case5 args c =>
    intro x h
    rw [sql] at h
    have hb := blank_member C h
    obtain ⟨names, q, e1, e2⟩ := member_inv C h
    rw [blank] at hb
    refine ⟨⟨x.2, by rw [blank, sql, hb]⟩, by rw [e2]; rfl, ?_, by rw [e2]; simp, ?_⟩
    · rw [e2]
      intro s hs
      simp at hs
      exact ⟨names, q, e1.1, e1.2, hs⟩
    · unfold member at h
      cases h1 : memberNames (.binary .member args) with
      | error e => rw [h1] at h; cases h
      | ok n => exact memberNames_own _ h1
  | case6 op ctx hm o ho a b tail ih1 ih2 =>
    intro x h
    have unf : ∀ a b tail, sql C (.binary op (a :: b :: tail)) ctx =
        (do let u ← sql C a (some o); let v ← sql C b (some o); (.ok (join o u v ctx) : Except Fail Out)) := by
      intro a b tail
      rw [sql.eq_def]
      cases op <;> first | (exact absurd rfl hm) | (simp only [infixOp] at ho; cases ho; rfl) | (simp [infixOp] at ho)
    rw [unf] at h
    obtain ⟨u, v, e1, e2, rfl⟩ := two h
    refine fine_join (f := fun u v => join o u v ctx) (ih1 e1) (ih2 e2) ?_ (fun _ _ _ _ h1 h2 => join_text ctx h1 h2)
      (fun _ _ h1 h2 => (join_fine _ _ _ _ h1 h2).1) (fun a b s h => ?_) (fun a b p h => ?_) ?_ ?_ ?_
    · intro a' b' h1 h2
      rw [blank, blankAll, blankAll, unf, h1, h2]; rfl
    · have := (bracket_fine _ _ _).2 s h
      simpa using this
    · simpa [join] using h
    · exact fun l h => .binary (by simp) h
    · exact fun l h => .binary (e := b) (by simp) h
    · intro n1 n2 hf
      cases hf with
      | mod | cast | isof => simp [infixOp] at ho
      | binary hx hf => simp at hx; rcases hx with rfl | rfl <;> contradiction
  | case7 op args ctx hm o ho hargs =>
    intro x h
    rw [sql.eq_def] at h
    cases op <;> first | (exact absurd rfl hm) | (simp only [infixOp] at ho h; cases h)
  | case8 op args ctx hm ho hop =>
    intro x h
    rw [sql, ho] at h
    · rw [if_pos hop] at h; cases h
    · exact hm
  | case9 op args ctx hm ho hop =>
    intro x h
    rw [sql, ho] at h
    · rw [if_neg hop] at h; cases h
    · exact hm
  | case10 a b tail ctx ih1 ih2 =>
    intro x h
    rw [sql] at h
    obtain ⟨u, v, e1, e2, rfl⟩ := two (f := fun u v => join .like u (join .concat percent v (some .like)) ctx) h
    refine fine_join (f := fun u v => join .like u (join .concat percent v (some .like)) ctx) (ih1 e1) (ih2 e2) ?_ ?_ ?_ ?_ ?_ ?_ ?_ ?_
    · intro a' b' h1 h2
      rw [blank, blankAll, blankAll, sql, h1, h2]; rfl
    · intro a a' b b' h1 h2
      simp only [join, h1, h2]
    · intro a b h1 h2
      exact (join_fine .like _ _ ctx h1 (join_fine .concat percent _ _ percent_holes h2).1).1
    · intro a b s h
      simp only [join] at h
      have h := (bracket_fine _ _ _).2 s h
      simp only [List.mem_append, List.mem_cons, percent] at h
      rcases h with h | h | h
      · exact .inl h
      · cases h
      · have h := (bracket_fine _ _ _).2 s h
        exact .inr (by simpa using h)
    · intro a b p h
      simpa [join, percent] using h
    · exact fun l h => .call (e := a) (by simp) h
    · exact fun l h => .call (e := b) (by simp) h
    · intro n1 n2 hf
      cases hf with
      | call2 _ hx hf => simp at hx; rcases hx with rfl | rfl <;> contradiction
  | case11 a b tail ctx ih1 ih2 =>
    intro x h
    rw [sql] at h
    obtain ⟨u, v, e1, e2, rfl⟩ := two (f := fun u v => join .like u (join .concat v percent (some .like)) ctx) h
    refine fine_join (f := fun u v => join .like u (join .concat v percent (some .like)) ctx) (ih1 e1) (ih2 e2) ?_ ?_ ?_ ?_ ?_ ?_ ?_ ?_
    · intro a' b' h1 h2
      rw [blank, blankAll, blankAll, sql, h1, h2]; rfl
    · intro a a' b b' h1 h2
      simp only [join, h1, h2]
    · intro a b h1 h2
      exact (join_fine .like _ _ ctx h1 (join_fine .concat _ percent _ h2 percent_holes).1).1
    · intro a b s h
      simp only [join] at h
      have h := (bracket_fine _ _ _).2 s h
      simp only [List.mem_append, List.mem_cons, percent] at h
      rcases h with h | h | h
      · exact .inl h
      · cases h
      · have h := (bracket_fine _ _ _).2 s h
        exact .inr (by simpa using h)
    · intro a b p h
      simpa [join, percent] using h
    · exact fun l h => .call (e := a) (by simp) h
    · exact fun l h => .call (e := b) (by simp) h
    · intro n1 n2 hf
      cases hf with
      | call2 _ hx hf => simp at hx; rcases hx with rfl | rfl <;> contradiction
  | case12 a b tail ctx ih1 ih2 =>
    intro x h
    rw [sql] at h
    obtain ⟨u, v, e1, e2, rfl⟩ := two (f := fun u v => join .like u (join .concat percent (join .concat v percent (some .mul)) (some .like)) ctx) h
    refine fine_join (f := fun u v => join .like u (join .concat percent (join .concat v percent (some .mul)) (some .like)) ctx) (ih1 e1) (ih2 e2) ?_ ?_ ?_ ?_ ?_ ?_ ?_ ?_
    · intro a' b' h1 h2
      rw [blank, blankAll, blankAll, sql, h1, h2]; rfl
    · intro a a' b b' h1 h2
      simp only [join, h1, h2]
    · intro a b h1 h2
      exact (join_fine .like _ _ ctx h1 (join_fine .concat percent _ _ percent_holes
        (join_fine .concat _ percent _ h2 percent_holes).1).1).1
    · intro a b s h
      simp only [join] at h
      have h := (bracket_fine _ _ _).2 s h
      simp only [List.mem_append, List.mem_cons, percent] at h
      rcases h with h | h | h
      · exact .inl h
      · cases h
      · have h := (bracket_fine _ _ _).2 s h
        simp only [List.mem_append, List.mem_cons, List.not_mem_nil, or_false] at h
        rcases h with h | h | h
        · cases h
        · cases h
        · have h := (bracket_fine _ _ _).2 s h
          exact .inr (by simpa using h)
    · intro a b p h
      simpa [join, percent] using h
    · exact fun l h => .call (e := b) (by simp) h
    · exact fun l h => .call (e := a) (by simp) h
    · intro n1 n2 hf
      cases hf with
      | call2 _ hx hf => simp at hx; rcases hx with rfl | rfl <;> contradiction
  | case13 a b tail ctx ih1 ih2 =>
    intro x h
    rw [sql] at h
    obtain ⟨u, v, e1, e2, rfl⟩ := two (f := fun u v => join .concat u v ctx) h
    refine fine_join (f := fun u v => join .concat u v ctx) (ih1 e1) (ih2 e2) ?_ ?_ ?_ ?_ ?_ ?_ ?_ ?_
    · intro a' b' h1 h2
      rw [blank, blankAll, blankAll, sql, h1, h2]; rfl
    · intro a a' b b' h1 h2
      exact join_text ctx h1 h2
    · intro a b h1 h2
      exact (join_fine _ _ _ _ h1 h2).1
    · intro a b s h
      have := (bracket_fine _ _ _).2 s h
      simpa using this
    · intro a b p h
      simpa [join] using h
    · exact fun l h => .call (e := a) (by simp) h
    · exact fun l h => .call (e := b) (by simp) h
    · intro n1 n2 hf
      cases hf with
      | call2 _ hx hf => simp at hx; rcases hx with rfl | rfl <;> contradiction
  | case14 a b tail ctx ih1 ih2 =>
    intro x h
    rw [sql] at h
    obtain ⟨u, v, e1, e2, rfl⟩ := two (f := fun u v => (.opening "POSITION(".toList :: (u.1 ++ .mid " IN ".toList :: (v.1 ++ [.closing ")".toList])), u.2 ++ v.2)) h
    refine fine_join (f := fun u v => (.opening "POSITION(".toList :: (u.1 ++ .mid " IN ".toList :: (v.1 ++ [.closing ")".toList])), u.2 ++ v.2)) (ih1 e1) (ih2 e2) ?_ ?_ ?_ ?_ ?_ ?_ ?_ ?_
    · intro a' b' h1 h2
      rw [blank, blankAll, blankAll, sql, h1, h2]; rfl
    · intro a a' b b' h1 h2
      simp only [h1, h2]
    · intro a b h1 h2
      simp only [List.length_append, h1, h2]
      simp [holes]
    · intro a b s h
      simpa using h
    · intro a b p h
      simpa using h
    · exact fun l h => .call (e := a) (by simp) h
    · exact fun l h => .call (e := b) (by simp) h
    · intro n1 n2 hf
      cases hf with
      | call2 _ hx hf => simp at hx; rcases hx with rfl | rfl <;> contradiction
  | case15 a b tail ctx ih1 ih2 =>
    intro x h
    rw [sql] at h
    cases h1 : sql C a none with
    | error e => rw [h1] at h; cases h
    | ok u =>
      cases h2 : sql C b none with
      | error e => rw [h1, h2] at h; cases h
      | ok v => rw [h1, h2] at h; cases h
  | case16 m args x h1 h2 h3 h4 h5 h6 hm =>
    intro x h
    rw [sql] at h <;> first | assumption | skip
    rw [if_pos hm] at h
    cases h
  | case17 m ctx hm f hf a tail h1 h2 h3 h4 h5 h6 ih =>
    intro x h
    have unf : ∀ a tail', (tail = [] → tail' = []) → sql C (.call m (a :: tail')) ctx =
        (do let u ← sql C a none; (.ok (apply f u) : Except Fail Out)) := by
      intro a' tail' ht
      have key : ∀ k, (∀ (a_1 b : Expr) (tail_1 : List Expr), m = k → a :: tail = a_1 :: b :: tail_1 → False) →
          ∀ (a_1 b : Expr) (tail_1 : List Expr), m = k → a' :: tail' = a_1 :: b :: tail_1 → False := by
        intro k hk x y z e1 e2
        cases tail with
        | nil => rw [ht rfl] at e2; simp at e2
        | cons b t => exact hk _ _ _ e1 rfl
      rw [sql, if_neg hm, hf]
      · exact key _ h1
      · exact key _ h2
      · exact key _ h3
      · exact key _ h4
      · exact key _ h5
      · exact key _ h6
    rw [unf a tail id] at h
    cases e1 : sql C a none with
    | error e => rw [e1] at h; cases h
    | ok u =>
      rw [e1] at h
      cases h
      have hu := ih e1
      obtain ⟨ps, hs⟩ := hu.same
      refine ⟨⟨ps, ?_⟩, ?_, ?_, ?_, ?_⟩
      · rw [blank, blankAll, unf _ _ (by intro h; rw [h]; rfl), hs]; rfl
      · simp only [apply]
        rw [hu.count]
        simp [holes]
      · intro s hs
        simp [apply] at hs
        exact hu.names s hs
      · intro p hp
        obtain ⟨v, o, e⟩ := hu.params p hp
        exact ⟨v, .call (by simp) o, e⟩
      · intro hF
        cases hF with
        | substring b more => exact h6 _ _ _ rfl rfl
        | replace | round | floor | ceiling => simp at hm
        | call1 hF => exact hu.own hF
        | call2 hk hx hF =>
          simp only [List.mem_cons, List.not_mem_nil, or_false] at hk
          rcases hk with rfl | rfl | rfl | rfl | rfl <;> simp [function] at hf
  | case18 m ctx hm f hf h1 h2 h3 h4 h5 h6 =>
    intro x h
    rw [sql, if_neg hm, hf] at h <;> first | assumption | skip
    cases h
  | case19 m args ctx h1 h2 h3 h4 h5 h6 hm hf =>
    intro x h
    rw [sql, if_neg hm, hf] at h <;> first | assumption | skip
    cases h

theorem clause_inv (C : Coll) {e : Expr} {x : Out} (h : filterClause C e = .ok x) :
    ∃ y, sql C e (some .and) = .ok y ∧ x = (.lp :: (y.1 ++ [.rp]), y.2) := by
  unfold filterClause at h
  cases hx : sql C e (some .and) with
  | error => rw [hx] at h; cases h
  | ok y => rw [hx] at h; cases h; exact ⟨y, rfl, rfl⟩

end SQ

/-- Rounding to the nearest whole number. -/
theorem SQ.rounded (n : Nat) {k : Nat} (hk : 0 < k) :
    2 * ((2 * n + k) / (2 * k)) * k ≤ 2 * n + k ∧ 2 * n < 2 * ((2 * n + k) / (2 * k)) * k + k := by
  have hd := Nat.div_add_mod (2 * n + k) (2 * k)
  have hm := Nat.mod_lt (2 * n + k) (show 2 * k > 0 by omega)
  rw [Nat.mul_right_comm 2 ((2 * n + k) / (2 * k)) k]
  generalize 2 * k * ((2 * n + k) / (2 * k)) = a at *
  omega

/-- What is handed to the database is the value of the literal. -/
theorem SQ.prepare_value {v : Lit} {p : Param} (h : prepare v = .ok p) : IsValue v p := by
  cases v with
  | dateTime d hh m s f =>
    simp only [prepare] at h
    split at h
    · cases h
    · rename_i hc
      simp only [not_or, Nat.not_lt] at hc
      cases h
      obtain ⟨c1, c2, c3, c4, c5⟩ := hc
      have hpos : 0 < 10 ^ f.length := Nat.pos_of_ne_zero (by simp)
      obtain ⟨r1, r2⟩ := SQ.rounded (Py.digitsVal 10 f * 1000000) hpos
      exact .dateTime (by omega) c2 c3 c4 c5 r1 r2
  | _ => cases h; constructor

/-- **C197.**  Whatever a client puts into the literals of a filter reaches the database as parameters only: filters that differ
in their literals only have the same text, which has as many question marks for parameters as there are parameters; the names
in it are those of columns of the collection; every parameter is the value of a literal of the filter. -/
theorem sql_text_safe (C : Coll) {e : Expr} {q : List Piece} {ps : List Param} (h : filterClause C e = .ok (q, ps)) :
    (∀ e' q' ps', SameButLiterals e e' → filterClause C e' = .ok (q', ps') → q' = q) ∧
    ps.length = holes q ∧ (∀ s, Piece.name s ∈ q → IsColumn C s) ∧ ∀ p ∈ ps, ∃ v, Occurs v e ∧ IsValue v p := by
  obtain ⟨y, hy, e1⟩ := SQ.clause_inv C h
  cases e1
  have f := SQ.fine C e _ hy
  refine ⟨fun e' q' ps' hs h' => ?_, ?_, ?_, fun p hp => (f.params p hp).imp fun v hv => ⟨hv.1, SQ.prepare_value hv.2⟩⟩
  · obtain ⟨y', hy', e2⟩ := SQ.clause_inv C h'
    cases e2
    obtain ⟨p1, s1⟩ := f.same
    obtain ⟨p2, s2⟩ := (SQ.fine C e' _ hy').same
    rw [← hs, s1] at s2
    simp only [Except.ok.injEq, Prod.mk.injEq] at s2
    rw [s2.1]
  · rw [f.count]
    simp [holes]
  · intro s hs
    exact f.names s (by simpa using hs)

/-- **C198.**  A filter with an operator or a function the store has no text for is refused, however deep it is. -/
theorem sql_foreign_refused (C : Coll) {e : Expr} (h : Foreign e) : ∃ x, filterClause C e = .error x := by
  cases hx : filterClause C e with
  | error x => exact ⟨x, rfl⟩
  | ok x =>
    obtain ⟨y, hy, _⟩ := SQ.clause_inv C hx
    exact absurd h (SQ.fine C e _ hy).own

/-- **C194, symbols.**  Every operator that is written between its operands is written as SQL writes it. -/
theorem sql_operators_written (op : Oper) (o : Op) (h : infixOp op = some o) : (op, String.ofList o.text) ∈ symbols := by
  cases op <;> cases h <;> decide

theorem SQ.function_texts (lite : Bool) (m : Meth) (f : Str × Str) (h : function lite m = some f) :
    ∃ x, x ∈ functionTexts ∧ x.1 = m ∧ f = (((if lite then x.2.2 else x.2.1).1).toList, ((if lite then x.2.2 else x.2.1).2).toList) := by
  have key : ∀ (x : Meth × (String × String) × (String × String)), x ∈ functionTexts → x.1 = m →
      function lite m = some (((if lite then x.2.2 else x.2.1).1).toList, ((if lite then x.2.2 else x.2.1).2).toList) →
      ∃ x, x ∈ functionTexts ∧ x.1 = m ∧ f = (((if lite then x.2.2 else x.2.1).1).toList, ((if lite then x.2.2 else x.2.1).2).toList) :=
    fun x hx hm hf => ⟨x, hx, hm, Option.some.inj (h.symm.trans hf)⟩
  cases m with
  | tolower => exact key (.tolower, ("LOWER(", ")"), ("lower(", ")")) (by simp [functionTexts]) rfl (by cases lite <;> rfl)
  | toupper => exact key (.toupper, ("UPPER(", ")"), ("upper(", ")")) (by simp [functionTexts]) rfl (by cases lite <;> rfl)
  | trim => exact key (.trim, ("TRIM(", ")"), ("TRIM(", ")")) (by simp [functionTexts]) rfl (by cases lite <;> rfl)
  | length => exact key (.length, ("CHAR_LENGTH(", ")"), ("length(", ")")) (by simp [functionTexts]) rfl (by cases lite <;> rfl)
  | year => exact key (.year, ("EXTRACT(YEAR FROM ", ")"), ("CAST(strftime('%Y',", ") AS INTEGER)")) (by simp [functionTexts]) rfl (by cases lite <;> rfl)
  | month => exact key (.month, ("EXTRACT(MONTH FROM ", ")"), ("CAST(strftime('%m',", ") AS INTEGER)")) (by simp [functionTexts]) rfl (by cases lite <;> rfl)
  | day => exact key (.day, ("EXTRACT(DAY FROM ", ")"), ("CAST(strftime('%d',", ") AS INTEGER)")) (by simp [functionTexts]) rfl (by cases lite <;> rfl)
  | hour => exact key (.hour, ("EXTRACT(HOUR FROM ", ")"), ("CAST(strftime('%H',", ") AS INTEGER)")) (by simp [functionTexts]) rfl (by cases lite <;> rfl)
  | minute => exact key (.minute, ("EXTRACT(MINUTE FROM ", ")"), ("CAST(strftime('%M',", ") AS INTEGER)")) (by simp [functionTexts]) rfl (by cases lite <;> rfl)
  | second => exact key (.second, ("EXTRACT(SECOND FROM ", ")"), ("CAST(strftime('%S',", ") AS INTEGER)")) (by simp [functionTexts]) rfl (by cases lite <;> rfl)
  | _ => simp [function] at h

/-- **C194, functions.**  Functions of one operand are written as standard SQL or SQLite writes them, around the text of the operand, and
with its parameters. -/
theorem sql_functions_written (C : Coll) (m : Meth) (a : Expr) (ctx : Option Op) (q : List Piece) (ps : List Param)
    (h : sql C (.call m [a]) ctx = .ok (q, ps)) :
    ∃ f x, f ∈ functionTexts ∧ f.1 = m ∧ sql C a none = .ok x ∧ ps = x.2 ∧
      chars q = (if C.lite then f.2.2 else f.2.1).1.toList ++ chars x.1 ++ (if C.lite then f.2.2 else f.2.1).2.toList := by
  have key : ∀ (f : Str × Str), function C.lite m = some f → (do let x ← sql C a none; .ok (apply f x) : Except Fail Out) = .ok (q, ps) →
      ∃ f x, f ∈ functionTexts ∧ f.1 = m ∧ sql C a none = .ok x ∧ ps = x.2 ∧
        chars q = (if C.lite then f.2.2 else f.2.1).1.toList ++ chars x.1 ++ (if C.lite then f.2.2 else f.2.1).2.toList := by
    intro f hf h
    obtain ⟨x, hx, hm, rfl⟩ := SQ.function_texts C.lite m f hf
    cases hs : sql C a none with
    | error y => rw [hs] at h; cases h
    | ok y =>
      rw [hs] at h
      injection h with h
      refine ⟨x, y, hx, hm, rfl, ?_, ?_⟩
      · exact (congrArg Prod.snd h).symm
      · have hq := (congrArg Prod.fst h).symm
        simp only at hq
        rw [hq]
        simp [apply, chars, Piece.text]
  have hsql : sql C (.call m [a]) ctx = (if m = .replace ∨ m = .round ∨ m = .floor ∨ m = .ceiling then .error .notImplemented
      else match function C.lite m with
        | some f => (do let x ← sql C a none; .ok (apply f x) : Except Fail Out)
        | none => .error .index) := by
    clear key h; cases m <;> simp only [sql] <;> rfl
  rw [hsql] at h
  split at h
  · cases h
  · split at h
    · rename_i f hf; exact key f hf h
    · cases h

/-- A table with a column `A`. -/
def SQ.sampleTable : Coll where
  props := [(['A'], .simple)]
  mangled n := if n = [['A']] then some ['A'] else none
  table := ['T']
  qualify := true
  lite := true

/-- The two theorems speak of filters that occur: a filter with a value that looks like SQL, and `not (A eq 1)`. -/
theorem sql_text_example (C : Coll) (hC : C = SQ.sampleTable) :
    (∃ q ps, filterClause C (.binary .eq [.prop ['A'], .lit (.string "' OR ''='".toList)]) = .ok (q, ps) ∧
      chars q = "(T.A = ?)".toList ∧ ps = [.text "' OR ''='".toList]) ∧
    SameButLiterals (.binary .eq [.prop ['A'], .lit (.string "' OR ''='".toList)]) (.binary .eq [.prop ['A'], .lit (.int32 1)]) ∧
    Foreign (.binary .boolAnd [.lit (.bool true), .unary .boolNot [.binary .eq [.prop ['A'], .lit (.int32 1)]]]) := by
  subst hC
  refine ⟨⟨_, _, rfl, ?_, rfl⟩, rfl, .binary (.tail _ (.head _)) (.unary _ _)⟩
  decide +kernel

end Verif.Props
