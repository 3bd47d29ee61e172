import Verif.Spec.Sql

/-!
# The SQL text of a filter is read as the filter
-/

namespace Verif.Props

open Verif Verif.OData Verif.OData.Sql Verif.Spec.Sql

namespace SQ

/-- A result that is reached with enough time. -/
def Ev {α : Type} (f : Nat → Option α) (r : α) : Prop := ∃ n, ∀ m, n ≤ m → f m = some r

/-- The next operator, if there is one, has the level `k` or a lower one. -/
def NextLe (lv : Op → Nat) (k : Nat) (q : List Piece) : Prop := ∀ o r, q = .op o :: r → lv o ≤ k

/-- The pieces are an operand. -/
def U (lv : Op → Nat) (q : List Piece) (ps : List Param) (t : Tree) : Prop :=
  ∃ t', Regrouped t' t ∧ ∀ rest rps, Ev (fun n => operand lv n (q ++ rest, ps ++ rps)) (t', rest, rps)

/-- The pieces are read at every level up to `k`. -/
def A (lv : Op → Nat) (k : Nat) (q : List Piece) (ps : List Param) (t : Tree) : Prop :=
  ∃ t', Regrouped t' t ∧ ∀ l, l ≤ k → ∀ rest rps r, NextLe lv k rest → Ev (fun n => more lv n l t' (rest, rps)) r →
    Ev (fun n => condition lv n l (q ++ rest, ps ++ rps)) r

/-- The pieces are read after the operator `o`. -/
def B (lv : Op → Nat) (o : Op) (q : List Piece) (ps : List Param) (t : Tree) : Prop :=
  ∀ lhs, ∃ t', Regrouped t' (.bin o lhs t) ∧ ∀ l, l ≤ lv o → ∀ rest rps r, NextLe lv (lv o) rest →
    Ev (fun n => more lv n l t' (rest, rps)) r → Ev (fun n => more lv n l lhs (.op o :: (q ++ rest), ps ++ rps)) r

theorem nextLe_rp (lv k r) : NextLe lv k (.rp :: r) := fun o r h => by simp at h

theorem nextLe_closing (lv k c r) : NextLe lv k (.closing c :: r) := fun o r h => by simp at h

theorem nextLe_mid (lv k c r) : NextLe lv k (.mid c :: r) := fun o r h => by simp at h

theorem nextLe_nil (lv k) : NextLe lv k [] := fun o r h => by simp at h

/-- Reading stops before an operator of a lower level. -/
theorem more_stops (lv l k t rest rps) (h : NextLe lv k rest) (hk : k < l) :
    Ev (fun n => more lv n l t (rest, rps)) (t, rest, rps) := by
  refine ⟨1, ?_⟩
  intro m hm
  obtain ⟨m, rfl⟩ : ∃ i, m = i + 1 := ⟨m - 1, by omega⟩
  show more lv (m + 1) l t (rest, rps) = _
  match rest, h with
  | [], _ => rfl
  | .op o :: q, h =>
    have h1 := h o q rfl
    have h2 : ¬ l ≤ lv o := by omega
    rw [more]
    simp only [h2, if_false]
  | .hole :: _, _ | .name _ :: _, _ | .lp :: _, _ | .rp :: _, _ | .opening _ :: _, _ | .mid _ :: _, _
  | .closing _ :: _, _ | .percent :: _, _ => rfl

theorem more_end (lv l t rest rps) (h : ∀ o r, rest ≠ .op o :: r) :
    Ev (fun n => more lv n l t (rest, rps)) (t, rest, rps) := by
  refine ⟨1, ?_⟩
  intro m hm
  obtain ⟨m, rfl⟩ : ∃ i, m = i + 1 := ⟨m - 1, by omega⟩
  show more lv (m + 1) l t (rest, rps) = _
  match rest, h with
  | [], _ => rfl
  | .op o :: q, h => exact absurd rfl (h o q)
  | .hole :: _, _ | .name _ :: _, _ | .lp :: _, _ | .rp :: _, _ | .opening _ :: _, _ | .mid _ :: _, _
  | .closing _ :: _, _ | .percent :: _, _ => rfl

theorem a_of_u {lv q ps t} (h : U lv q ps t) (k) : A lv k q ps t := by
  obtain ⟨t', h1, h2⟩ := h
  refine ⟨t', h1, ?_⟩
  intro l hl rest rps r hn hr
  obtain ⟨n1, h3⟩ := h2 rest rps
  obtain ⟨n2, h4⟩ := hr
  refine ⟨max n1 n2 + 1, ?_⟩
  intro m hm
  obtain ⟨m, rfl⟩ : ∃ i, m = i + 1 := ⟨m - 1, by omega⟩
  have e1 := h3 m (by omega)
  have e2 := h4 m (by omega)
  show condition lv (m + 1) l _ = _
  rw [condition]
  simp only at e1 e2
  rw [e1]
  exact e2

theorem b_of_a {lv k q ps t o} (h : A lv k q ps t) (hk : lv o < k) : B lv o q ps t := by
  obtain ⟨t', h1, h2⟩ := h
  intro lhs
  refine ⟨.bin o lhs t', .bin (.refl _) h1, ?_⟩
  intro l hl rest rps r hn hr
  have hn' : NextLe lv k rest := fun o' q' e => by have := hn o' q' e; omega
  obtain ⟨n1, h3⟩ := h2 (lv o + 1) (by omega) rest rps _ hn' (more_stops lv (lv o + 1) (lv o) t' rest rps hn (by omega))
  obtain ⟨n2, h4⟩ := hr
  refine ⟨max n1 n2 + 1, ?_⟩
  intro m hm
  obtain ⟨m, rfl⟩ : ∃ i, m = i + 1 := ⟨m - 1, by omega⟩
  have e1 := h3 m (by omega)
  have e2 := h4 m (by omega)
  show more lv (m + 1) l lhs _ = _
  rw [more]
  simp only at e1 e2
  simp only [hl, if_true, e1]
  exact e2

theorem a_bin {lv k o q1 ps1 t1 q2 ps2 t2} (h1 : A lv k q1 ps1 t1) (hk : lv o ≤ k) (h2 : B lv o q2 ps2 t2) :
    A lv (lv o) (q1 ++ .op o :: q2) (ps1 ++ ps2) (.bin o t1 t2) := by
  obtain ⟨t1', r1, e1⟩ := h1
  obtain ⟨t', r2, e2⟩ := h2 t1'
  refine ⟨t', r2.trans (.bin r1 (.refl _)), ?_⟩
  intro l hl rest rps r hn hr
  have := e1 l (by omega) (.op o :: (q2 ++ rest)) (ps2 ++ rps) r
    (fun o' q' e => by simp only [List.cons.injEq, Piece.op.injEq] at e; rw [← e.1]; exact hk) (e2 l hl rest rps r hn hr)
  simpa [List.append_assoc] using this

theorem b_bin {lv o q1 ps1 t1 q2 ps2 t2} (hr : regroups o = true) (h1 : B lv o q1 ps1 t1) (h2 : B lv o q2 ps2 t2) :
    B lv o (q1 ++ .op o :: q2) (ps1 ++ ps2) (.bin o t1 t2) := by
  intro lhs
  obtain ⟨t', r1, e1⟩ := h1 lhs
  obtain ⟨t'', r2, e2⟩ := h2 t'
  refine ⟨t'', (r2.trans (.bin r1 (.refl _))).trans (.assoc hr), ?_⟩
  intro l hl rest rps r hn hr
  have := e1 l hl (.op o :: (q2 ++ rest)) (ps2 ++ rps) r
    (fun o' q' e => by simp only [List.cons.injEq, Piece.op.injEq] at e; rw [← e.1]; exact Nat.le_refl _)
    (e2 l hl rest rps r hn hr)
  simpa [List.append_assoc] using this

theorem operand_lp (lv n q ps) : Spec.Sql.operand lv (n + 1) (.lp :: q, ps) =
    match condition lv n 0 (q, ps) with
    | some (t, .rp :: q', ps') => some (t, q', ps')
    | _ => none := by
  rw [Spec.Sql.operand.eq_def]
  cases ps <;> rfl

theorem operand_opening (lv n f q ps) : Spec.Sql.operand lv (n + 1) (.opening f :: q, ps) =
    match condition lv n 0 (q, ps) with
    | some (t, .closing c :: q', ps') => some (.call1 f c t, q', ps')
    | some (t, .mid m :: q', ps') =>
      match condition lv n 0 (q', ps') with
      | some (u, .closing c :: q'', ps'') => some (.call2 f m c t u, q'', ps'')
      | _ => none
    | _ => none := by
  rw [Spec.Sql.operand.eq_def]
  cases ps <;> rfl

theorem u_paren {lv k q ps t} (h : A lv k q ps t) : U lv (.lp :: (q ++ [.rp])) ps t := by
  obtain ⟨t', r1, e1⟩ := h
  refine ⟨t', r1, ?_⟩
  intro rest rps
  obtain ⟨n, h2⟩ := e1 0 (by omega) (.rp :: rest) rps _ (nextLe_rp _ _ _) (more_end lv 0 t' (.rp :: rest) rps (by simp))
  refine ⟨n + 1, ?_⟩
  intro m hm
  obtain ⟨m, rfl⟩ : ∃ i, m = i + 1 := ⟨m - 1, by omega⟩
  have := h2 m (by omega)
  show operand lv (m + 1) _ = _
  simp only [List.cons_append, List.append_assoc, List.nil_append, operand_lp]
  simp only at this
  simp only [this]

theorem u_call1 {lv k q ps t} (f c) (h : A lv k q ps t) : U lv (.opening f :: (q ++ [.closing c])) ps (.call1 f c t) := by
  obtain ⟨t', r1, e1⟩ := h
  refine ⟨.call1 f c t', .call1 r1, ?_⟩
  intro rest rps
  obtain ⟨n, h2⟩ := e1 0 (by omega) (.closing c :: rest) rps _ (nextLe_closing _ _ _ _)
    (more_end lv 0 t' (.closing c :: rest) rps (by simp))
  refine ⟨n + 1, ?_⟩
  intro m hm
  obtain ⟨m, rfl⟩ : ∃ i, m = i + 1 := ⟨m - 1, by omega⟩
  have := h2 m (by omega)
  show operand lv (m + 1) _ = _
  simp only [List.cons_append, List.append_assoc, List.nil_append, operand_opening]
  simp only at this
  simp only [this]

theorem u_call2 {lv k k' q ps t q' ps' t'} (f d c) (h : A lv k q ps t) (h' : A lv k' q' ps' t') :
    U lv (.opening f :: (q ++ .mid d :: (q' ++ [.closing c]))) (ps ++ ps') (.call2 f d c t t') := by
  obtain ⟨u, r1, e1⟩ := h
  obtain ⟨u', r2, e2⟩ := h'
  refine ⟨.call2 f d c u u', .call2 r1 r2, ?_⟩
  intro rest rps
  obtain ⟨n, h2⟩ := e1 0 (by omega) (.mid d :: (q' ++ (.closing c :: rest))) (ps' ++ rps) _ (nextLe_mid _ _ _ _)
    (more_end lv 0 u _ (ps' ++ rps) (by simp))
  obtain ⟨n', h2'⟩ := e2 0 (by omega) (.closing c :: rest) rps _ (nextLe_closing _ _ _ _)
    (more_end lv 0 u' (.closing c :: rest) rps (by simp))
  refine ⟨max n n' + 1, ?_⟩
  intro m hm
  obtain ⟨m, rfl⟩ : ∃ i, m = i + 1 := ⟨m - 1, by omega⟩
  have e := h2 m (by omega)
  have e' := h2' m (by omega)
  show operand lv (m + 1) _ = _
  simp only [List.cons_append, List.append_assoc, List.nil_append, operand_opening]
  simp only at e e'
  simp only [e, e']

theorem u_hole (lv p) : U lv [.hole] [p] (.param p) :=
  ⟨_, .refl _, fun rest rps => ⟨1, fun m hm => by
    obtain ⟨m, rfl⟩ : ∃ i, m = i + 1 := ⟨m - 1, by omega⟩
    rfl⟩⟩

theorem u_name (lv q) : U lv [.name q] [] (.column q) :=
  ⟨_, .refl _, fun rest rps => ⟨1, fun m hm => by
    obtain ⟨m, rfl⟩ : ∃ i, m = i + 1 := ⟨m - 1, by omega⟩
    rfl⟩⟩

theorem u_percent (lv) : U lv [.percent] [] .percent :=
  ⟨_, .refl _, fun rest rps => ⟨1, fun m hm => by
    obtain ⟨m, rfl⟩ : ∃ i, m = i + 1 := ⟨m - 1, by omega⟩
    rfl⟩⟩

/-! ## The outermost operator of a text -/

/-- The outermost operator of the text of a filter. -/
def topOp : Expr → Option Op
  | .binary op _ => infixOp op
  | .call .startswith _ | .call .endswith _ | .call .substringof _ => some .like
  | .call .concat _ => some .concat
  | _ => none

/-- The text stands in a context: it is an operand, or its outermost operator is strong enough. -/
def G (lv : Op → Nat) (ctx : Option Op) (e : Expr) (x : Out) (t : Tree) : Prop :=
  U lv x.1 x.2 t ∨ ∃ o, topOp e = some o ∧ ctxPrec ctx ≤ o.prec ∧ A lv (lv o) x.1 x.2 t ∧ (regroups o = true → B lv o x.1 x.2 t)

/-- Two texts joined. -/
theorem g_join {lv o k} {x y : Out} {t u : Tree} (ctx : Option Op) (e : Expr) (he : topOp e = some o) (hx : A lv k x.1 x.2 t)
    (hk : lv o ≤ k) (hy : B lv o y.1 y.2 u) (hb : regroups o = true → B lv o x.1 x.2 t) :
    G lv ctx e (join o x y ctx) (.bin o t u) := by
  have ha := a_bin hx hk hy
  unfold G join bracket
  by_cases hc : ctxPrec ctx > o.prec
  · left
    simp only [hc, if_true]
    exact u_paren ha
  · right
    simp only [hc, if_false]
    exact ⟨o, he, by omega, ha, fun hr => b_bin hr (hb hr) hy⟩

/-! ## Which operators need no brackets -/

/-- The shape of a filter by its outermost operator. -/
def shape : Option Op → Shape
  | none => .other
  | some .or => .or
  | some .and => .and
  | some .add => .add
  | some .sub => .sub
  | some .mul => .mul
  | some .div => .div
  | some .concat => .concat
  | some _ => .cmp

theorem shapeOf_top (e : Expr) : shapeOf e = shape (topOp e) := by
  cases e with
  | binary op args => cases op <;> rfl
  | call m args => cases m <;> rfl
  | _ => rfl

/-- The facts on the levels of a table. -/
theorem levels {lv} (h : Precedences lv) :
    lv .or < lv .and ∧ lv .and < lv .eq ∧ lv .and < lv .ne ∧ lv .and < lv .lt ∧ lv .and < lv .gt ∧ lv .and < lv .le ∧
    lv .and < lv .ge ∧ lv .and < lv .like ∧ lv .eq < lv .add ∧ lv .ne < lv .add ∧ lv .lt < lv .add ∧ lv .gt < lv .add ∧
    lv .le < lv .add ∧ lv .ge < lv .add ∧ lv .like < lv .add ∧ lv .eq < lv .concat ∧ lv .ne < lv .concat ∧
    lv .lt < lv .concat ∧ lv .gt < lv .concat ∧ lv .le < lv .concat ∧ lv .ge < lv .concat ∧ lv .like < lv .concat ∧
    lv .add = lv .sub ∧ lv .add < lv .mul ∧ lv .mul = lv .div := by
  have a := h.andCmp
  have b := h.cmpAdd
  have c := h.cmpConcat
  simp only [List.mem_cons, List.not_mem_nil, or_false, forall_eq_or_imp, forall_eq] at a b c
  exact ⟨h.orAnd, a.1, a.2.1, a.2.2.1, a.2.2.2.1, a.2.2.2.2.1, a.2.2.2.2.2.1, a.2.2.2.2.2.2, b.1, b.2.1, b.2.2.1, b.2.2.2.1,
    b.2.2.2.2.1, b.2.2.2.2.2.1, b.2.2.2.2.2.2, c.1, c.2.1, c.2.2.1, c.2.2.2.1, c.2.2.2.2.1, c.2.2.2.2.2.1, c.2.2.2.2.2.2,
    h.addSub, h.addMul, h.mulDiv⟩

/-- On the left of an operator. -/
theorem left_level {lv} (hP : Precedences lv) {o oa : Op} {r : Shape} (h : mayStand (shape (some o)) (shape (some oa)) r = true)
    (hp : o.prec ≤ oa.prec) : lv o ≤ lv oa := by
  obtain ⟨h1, h2, h3, h4, h5, h6, h7, h8, h9, h10, h11, h12, h13, h14, h15, h16, h17, h18, h19, h20, h21, h22, h23, h24, h25⟩ :=
    levels hP
  cases o <;> cases oa <;> simp_all [mayStand, shape, Op.prec] <;> omega

/-- On the right of an operator. -/
theorem right_level {lv} (hP : Precedences lv) {o ob : Op} {l : Shape} (h : mayStand (shape (some o)) l (shape (some ob)) = true)
    (hp : o.prec ≤ ob.prec) : lv o < lv ob ∨ (ob = o ∧ regroups o = true) := by
  obtain ⟨h1, h2, h3, h4, h5, h6, h7, h8, h9, h10, h11, h12, h13, h14, h15, h16, h17, h18, h19, h20, h21, h22, h23, h24, h25⟩ :=
    levels hP
  cases o <;> cases ob <;> simp_all [mayStand, shape, Op.prec, regroups] <;> omega

/-! ## What the code writes -/

/-- Its operators are those of the specification. -/
theorem opOf_infix (op : Oper) : opOf op = infixOp op := by cases op <;> rfl

/-- A text in a context is read at the levels of the operator before it. -/
theorem g_left {lv} (hP : Precedences lv) {o : Op} {c : Option Op} {e : Expr} {x : Out} {t : Tree} {r : Shape} (h : G lv c e x t)
    (hc : ctxPrec c = o.prec) (hs : mayStand (shape (some o)) (shapeOf e) r = true) : ∃ k, lv o ≤ k ∧ A lv k x.1 x.2 t := by
  rcases h with h | ⟨oa, h1, h2, h3, _⟩
  · exact ⟨lv o, Nat.le_refl _, a_of_u h _⟩
  · rw [shapeOf_top, h1] at hs
    exact ⟨lv oa, left_level hP hs (by rw [← hc]; exact h2), h3⟩

/-- A text in a context is read after the operator. -/
theorem g_right {lv} (hP : Precedences lv) {o : Op} {c : Option Op} {e : Expr} {x : Out} {t : Tree} {l : Shape} (h : G lv c e x t)
    (hc : ctxPrec c = o.prec) (hs : mayStand (shape (some o)) l (shapeOf e) = true) : B lv o x.1 x.2 t := by
  rcases h with h | ⟨ob, h1, h2, h3, h4⟩
  · exact b_of_a (a_of_u h (lv o + 1)) (by omega)
  · rw [shapeOf_top, h1] at hs
    rcases right_level hP hs (by rw [← hc]; exact h2) with hl | ⟨rfl, hr⟩
    · exact b_of_a h3 hl
    · exact h4 hr

/-- The operators that may be regrouped may stand on their own left. -/
theorem swap {o : Op} (hr : regroups o = true) {l r : Shape} (hs : mayStand (shape (some o)) l r = true) :
    mayStand (shape (some o)) l l = true := by
  cases o <;> cases l <;> simp_all [mayStand, shape, regroups]

/-- Two operands and the operator between them. -/
theorem g_infix {lv} (hP : Precedences lv) {o : Op} {a b e : Expr} {x y : Out} {t u : Tree} (ctx : Option Op) {c : Option Op}
    (hc : ctxPrec c = o.prec) (he : topOp e = some o) (hs : mayStand (shape (some o)) (shapeOf a) (shapeOf b) = true)
    (ha : G lv c a x t) (hb : G lv c b y u) : G lv ctx e (join o x y ctx) (.bin o t u) := by
  obtain ⟨k, hk, h1⟩ := g_left hP ha hc hs
  exact g_join ctx e he h1 hk (g_right hP hb hc hs) fun hr => g_right hP ha hc (swap hr hs)

/-- The names of a path. -/
theorem names_path {e : Expr} {names : List Str} (h : memberNames e = .ok names) : Path e names := by
  induction e using memberNames.induct generalizing names with
  | case1 n =>
    simp only [memberNames, Except.ok.injEq] at h
    subst h
    exact .prop n
  | case2 a b more iha ihb =>
    rw [memberNames] at h
    cases ha : memberNames a with
    | error => rw [ha] at h; cases h
    | ok x =>
      cases hb : memberNames b with
      | error => rw [ha, hb] at h; cases h
      | ok y =>
        rw [ha, hb] at h
        cases h
        exact .member (iha ha) (ihb hb)
  | case3 args hne =>
    rw [memberNames] at h
    · cases h
    · exact hne
  | case4 e h1 h2 h3 =>
    rw [memberNames] at h
    · cases h
    · exact h1
    · exact h2
    · exact h3

/-- A path becomes the name of its column. -/
theorem g_member {lv C args x} (h : member C (.binary .member args) = .ok x) :
    ∃ t, Meant C (.binary .member args) t ∧ U lv x.1 x.2 t := by
  unfold member at h
  cases hn : memberNames (.binary .member args) with
  | error => rw [hn] at h; cases h
  | ok names =>
    rw [hn] at h
    cases hw : memberWalk (some C.props) names with
    | error => simp only [bind, Except.bind, hw] at h; cases h
    | ok w =>
      cases w with
      | some => simp only [bind, Except.bind, hw] at h; cases h
      | none =>
        cases hm : C.mangled names with
        | none => simp only [bind, Except.bind, hw, hm] at h; cases h
        | some q =>
          simp only [bind, Except.bind, hw, hm] at h
          cases h
          exact ⟨_, .member (names_path hn) hm, u_name ..⟩

/-- A property becomes the name of its column. -/
theorem g_property {lv C name x} (h : property C name = .ok x) : ∃ t, Meant C (.prop name) t ∧ U lv x.1 x.2 t := by
  unfold Sql.property at h
  split at h
  · cases h
  · split at h
    · rename_i q hm
      cases h
      exact ⟨_, .prop hm, u_name ..⟩
    · cases h
  · cases h
  · cases h

/-- The functions of one operand. -/
theorem sql_function (C : Coll) (ctx) {m : Meth} {a : Expr} {rest : List Expr} (n1 : m ≠ .startswith) (n2 : m ≠ .endswith)
    (n3 : m ≠ .substringof) (n4 : m ≠ .concat) (n5 : m ≠ .indexof) (n6 : m ≠ .substring ∨ rest = []) :
    sql C (.call m (a :: rest)) ctx =
      if m = .replace ∨ m = .round ∨ m = .floor ∨ m = .ceiling then .error .notImplemented
      else match function C.lite m with
        | some f => do
          let x ← sql C a none
          .ok (apply f x)
        | none => .error .index := by
  rw [sql]
  · cases function C.lite m <;> rfl
  · exact fun _ _ _ h => absurd h n2
  · exact fun _ _ _ h => absurd h n1
  · exact fun _ _ _ h => absurd h n3
  · exact fun _ _ _ h => absurd h n4
  · exact fun _ _ _ h => absurd h n5
  · intro x b r hm he
    rcases n6 with h | h
    · exact h hm
    · subst h
      simp at he

/-- The text of an orderly filter is read as the filter. -/
theorem reads {lv} (hP : Precedences lv) (C : Coll) {e : Expr} (ho : Orderly e) :
    ∀ ctx x, sql C e ctx = .ok x → ∃ t, Meant C e t ∧ G lv ctx e x t := by
  induction ho with
  | lit v =>
    intro ctx x h
    rw [sql] at h
    cases hp : prepare v with
    | error => rw [hp] at h; cases h
    | ok p =>
      rw [hp] at h
      cases h
      exact ⟨_, .lit hp, .inl (u_hole ..)⟩
  | prop n =>
    intro ctx x h
    rw [sql] at h
    obtain ⟨t, h1, h2⟩ := g_property h
    exact ⟨t, h1, .inl h2⟩
  | member args =>
    intro ctx x h
    rw [sql] at h
    obtain ⟨t, h1, h2⟩ := g_member h
    exact ⟨t, h1, .inl h2⟩
  | @binary op a b rest _ _ hs iha ihb =>
    intro ctx x h
    by_cases hm : op = .member
    · subst hm
      rw [sql] at h
      obtain ⟨t, h1, h2⟩ := g_member h
      exact ⟨t, h1, .inl h2⟩
    · rw [sql] at h
      · cases hi : infixOp op with
        | none => simp only [hi] at h; split at h <;> cases h
        | some o =>
          simp only [hi] at h
          cases ha : sql C a (some o) with
          | error => rw [ha] at h; cases h
          | ok p =>
            cases hb : sql C b (some o) with
            | error => rw [ha, hb] at h; cases h
            | ok q =>
              rw [ha, hb] at h
              cases h
              obtain ⟨t, t1, t2⟩ := iha _ _ ha
              obtain ⟨u, u1, u2⟩ := ihb _ _ hb
              refine ⟨.bin o t u, .bin (by rw [opOf_infix, hi]) t1 u1, g_infix hP ctx rfl (by simp [topOp, hi]) ?_ t2 u2⟩
              rw [shapeOf_top] at hs
              simpa [topOp, hi] using hs
      · exact fun h => hm h
  | @startswith a b rest _ _ h1 h2 h3 iha ihb =>
    intro ctx x h
    rw [sql] at h
    cases ha : sql C a (some .like) with
    | error => rw [ha] at h; cases h
    | ok p =>
      cases hb : sql C b (some .mul) with
      | error => rw [ha, hb] at h; cases h
      | ok q =>
        rw [ha, hb] at h
        cases h
        obtain ⟨t, t1, t2⟩ := iha _ _ ha
        obtain ⟨u, u1, u2⟩ := ihb _ _ hb
        refine ⟨_, .startswith t1 u1, ?_⟩
        have hc : mayStand (shape (some .concat)) (shapeOf b) .other = true := by
          simp only [mayStand, shape]; simp [h2, h3]
        have hp : G lv (some .mul) (.prop []) percent .percent := .inl (u_percent lv)
        have g1 : G lv (some .like) (.call .concat [b, .prop []]) (join .concat q percent (some .like)) (.bin .concat u .percent) :=
          g_infix hP _ rfl rfl hc u2 hp
        exact g_infix hP (b := .call .concat [b, .prop []]) ctx rfl rfl (by show (shapeOf a != .cmp && Shape.concat != .cmp) = true; simp [h1]) t2 g1
  | @endswith a b rest _ _ h1 h2 h3 iha ihb =>
    intro ctx x h
    rw [sql] at h
    cases ha : sql C a (some .like) with
    | error => rw [ha] at h; cases h
    | ok p =>
      cases hb : sql C b (some .mul) with
      | error => rw [ha, hb] at h; cases h
      | ok q =>
        rw [ha, hb] at h
        cases h
        obtain ⟨t, t1, t2⟩ := iha _ _ ha
        obtain ⟨u, u1, u2⟩ := ihb _ _ hb
        refine ⟨_, .endswith t1 u1, ?_⟩
        have hc : mayStand (shape (some .concat)) .other (shapeOf b) = true := by
          simp only [mayStand, shape]; simp [h2, h3]
        have hp : G lv (some .mul) (.prop []) percent .percent := .inl (u_percent lv)
        have g1 : G lv (some .like) (.call .concat [.prop [], b]) (join .concat percent q (some .like)) (.bin .concat .percent u) :=
          g_infix hP (a := .prop []) _ rfl rfl hc hp u2
        exact g_infix hP (b := .call .concat [.prop [], b]) ctx rfl rfl (by show (shapeOf a != .cmp && Shape.concat != .cmp) = true; simp [h1]) t2 g1
  | @substringof a b rest _ _ h1 h2 h3 iha ihb =>
    intro ctx x h
    rw [sql] at h
    cases hb : sql C b (some .like) with
    | error => rw [hb] at h; cases h
    | ok q =>
      cases ha : sql C a (some .mul) with
      | error => rw [hb, ha] at h; cases h
      | ok p =>
        rw [hb, ha] at h
        cases h
        obtain ⟨t, t1, t2⟩ := iha _ _ ha
        obtain ⟨u, u1, u2⟩ := ihb _ _ hb
        refine ⟨_, .substringof t1 u1, ?_⟩
        have hc : mayStand (shape (some .concat)) (shapeOf a) .other = true := by
          simp only [mayStand, shape]; simp [h2, h3]
        have hp : G lv (some .mul) (.prop []) percent .percent := .inl (u_percent lv)
        have g1 : G lv (some .mul) (.call .concat [a, .prop []]) (join .concat p percent (some .mul)) (.bin .concat t .percent) :=
          g_infix hP _ rfl rfl hc t2 hp
        have g2 : G lv (some .like) (.call .concat [.prop [], .call .concat [a, .prop []]])
            (join .concat percent (join .concat p percent (some .mul)) (some .like))
            (.bin .concat .percent (.bin .concat t .percent)) := g_infix hP (a := .prop []) _ rfl rfl rfl hp g1
        exact g_infix hP (b := .call .concat [.prop [], .call .concat [a, .prop []]]) ctx rfl rfl
          (by show (shapeOf b != .cmp && Shape.concat != .cmp) = true; simp [h1]) u2 g2
  | @concat a b rest _ _ hs iha ihb =>
    intro ctx x h
    rw [sql] at h
    cases ha : sql C a (some .mul) with
    | error => rw [ha] at h; cases h
    | ok p =>
      cases hb : sql C b (some .mul) with
      | error => rw [ha, hb] at h; cases h
      | ok q =>
        rw [ha, hb] at h
        cases h
        obtain ⟨t, t1, t2⟩ := iha _ _ ha
        obtain ⟨u, u1, u2⟩ := ihb _ _ hb
        exact ⟨_, .concat t1 u1, g_infix hP ctx rfl rfl hs t2 u2⟩
  | @indexof a b rest _ _ iha ihb =>
    intro ctx x h
    rw [sql] at h
    cases ha : sql C a none with
    | error => rw [ha] at h; cases h
    | ok p =>
      cases hb : sql C b none with
      | error => rw [ha, hb] at h; cases h
      | ok q =>
        rw [ha, hb] at h
        cases h
        obtain ⟨t, t1, t2⟩ := iha _ _ ha
        obtain ⟨u, u1, u2⟩ := ihb _ _ hb
        refine ⟨_, .indexof t1 u1, .inl ?_⟩
        have e1 : ∃ k, A lv k p.1 p.2 t := by
          rcases t2 with h | ⟨o, _, _, h, _⟩
          · exact ⟨0, a_of_u h 0⟩
          · exact ⟨_, h⟩
        have e2 : ∃ k, A lv k q.1 q.2 u := by
          rcases u2 with h | ⟨o, _, _, h, _⟩
          · exact ⟨0, a_of_u h 0⟩
          · exact ⟨_, h⟩
        obtain ⟨_, e1⟩ := e1
        obtain ⟨_, e2⟩ := e2
        exact u_call2 _ _ _ e1 e2
  | @function m a rest n1 n2 n3 n4 n5 _ iha =>
    intro ctx x h
    have key : ∀ f, function C.lite m = some f →
        (do let x ← sql C a none; Except.ok (apply f x) : Except Fail Out) = .ok x → ∃ t, Meant C (.call m (a :: rest)) t ∧
          G lv ctx (.call m (a :: rest)) x t := by
      intro f hf h
      cases ha : sql C a none with
      | error => rw [ha] at h; cases h
      | ok p =>
        rw [ha] at h
        cases h
        obtain ⟨t, t1, t2⟩ := iha _ _ ha
        refine ⟨_, .function (f := f.1) (c := f.2) hf t1, .inl ?_⟩
        rcases t2 with h | ⟨o, _, _, h, _⟩
        · exact u_call1 _ _ (a_of_u h 0)
        · exact u_call1 _ _ h
    by_cases n6 : m = .substring
    · exfalso
      subst n6
      cases rest with
      | nil =>
        rw [sql_function C ctx (by simp) (by simp) (by simp) (by simp) (by simp) (.inr rfl)] at h
        simp only [function] at h
        simp at h
      | cons b rest =>
        rw [sql] at h
        cases ha : sql C a none with
        | error => rw [ha] at h; cases h
        | ok p =>
          cases hb : sql C b none with
          | error => rw [ha, hb] at h; cases h
          | ok q => rw [ha, hb] at h; cases h
    · rw [sql_function C ctx n1 n2 n3 n4 n5 (.inl n6)] at h
      split at h
      · cases h
      · cases hf : function C.lite m with
        | none => rw [hf] at h; cases h
        | some f =>
          rw [hf] at h
          exact key f hf h

end SQ

/-- **C194 (part).**  A database whose table of precedences is that of SQLite, of the SQL standard, or like them, reads the
condition written for an orderly filter, and gives the parameters to it, as the filter is meant; only `AND`, `OR` and `||` may
be grouped otherwise. -/
theorem sql_reads_partial {lv : Op → Nat} (hP : Precedences lv) (C : Coll) {e : Expr} (ho : Orderly e) {q : List Piece}
    {ps : List Param} (h : filterClause C e = .ok (q, ps)) :
    ∃ t t', Meant C e t ∧ Regrouped t' t ∧ ReadsAs lv q ps t' := by
  unfold filterClause at h
  cases hx : sql C e (some .and) with
  | error => rw [hx] at h; cases h
  | ok x =>
    rw [hx] at h
    cases h
    obtain ⟨t, h1, h2⟩ := SQ.reads hP C ho _ _ hx
    have hu : SQ.U lv (.lp :: (x.1 ++ [.rp])) x.2 t := by
      rcases h2 with h | ⟨o, _, _, h, _⟩
      · exact SQ.u_paren (SQ.a_of_u h 0)
      · exact SQ.u_paren h
    obtain ⟨t', r1, e1⟩ := SQ.a_of_u hu 0
    refine ⟨t, t', h1, r1, ?_⟩
    obtain ⟨n, hn⟩ := e1 0 (Nat.le_refl _) [] [] _ (SQ.nextLe_nil _ _) (SQ.more_end lv 0 t' [] [] (by simp))
    refine ⟨n, fun m hm => ?_⟩
    have := hn m hm
    simpa using this

theorem sqlite_precedences : Precedences sqlite := by
  constructor <;> decide

theorem standard_precedences : Precedences standard := by
  constructor <;> decide

end Verif.Props
