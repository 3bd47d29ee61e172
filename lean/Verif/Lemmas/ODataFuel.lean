import Verif.Lemmas.ODataLen

/-! # The recursion budget of the reader of OData expressions is large enough -/

namespace Verif.OData

open Verif

/-- What `common` does to the text. -/
def CommonMoves (s : Str) (r : Option Expr × Str) : Prop :=
  (∃ e, r.1 = some e ∧ r.2.length < s.length) ∨ (r.1 = none ∧ r.2.length ≤ s.length)

/-- What `term` does to the text. -/
def TermMoves (s : Str) (r : Operand × Str) : Prop :=
  (r.1 = .nothing ∧ r.2.length ≤ s.length) ∨ (r.1 ≠ .nothing ∧ r.2.length < s.length)

theorem operand_ne (e : Expr) : operand e ≠ .nothing := by
  cases e <;> simp [operand]

theorem moves (T : Tables) : ∀ n : Nat,
    (∀ ops s r, common T n ops s = .ok r → CommonMoves s r) ∧ (∀ s r, term T n s = .ok r → TermMoves s r) ∧
    (∀ s r, arguments T n s = .ok r → r.2.length < s.length) ∧
    (∀ op s r, castLike T n op s = .ok r → r.2.length < s.length)
  | 0 => by
    refine ⟨?_, ?_, ?_, ?_⟩
    · intro ops s r h; simp [common] at h
    · intro s r h; simp [term] at h
    · intro s r h; simp [arguments] at h
    · intro op s r h; simp [castLike] at h
  | n + 1 => by
    obtain ⟨ihc, iht, iha, ihk⟩ := moves T n
    refine ⟨?_, ?_, ?_, ?_⟩
    · intro ops s r h
      have hw := wsp_le s
      simp only [common] at h
      split at h
      · simp at h
      · next t ht =>
        have hm := iht _ _ ht
        split at h
        · injection h with h; subst h
          rcases hm with ⟨_, hm⟩ | ⟨hm, _⟩
          · exact Or.inr ⟨rfl, by simp only at hm ⊢; omega⟩
          · simp at hm
        · simp at h
      · next o t ht =>
        have hm := iht _ _ ht
        rcases hm with ⟨hm, _⟩ | ⟨_, hm⟩
        · simp at hm
        · rcases ihc _ _ _ h with ⟨e, h1, h2⟩ | ⟨h1, h2⟩
          · exact Or.inl ⟨e, h1, by simp only at hm; omega⟩
          · exact Or.inr ⟨h1, by simp only at hm; omega⟩
      · next e t ht =>
        have hm := iht _ _ ht
        rcases hm with ⟨hm, _⟩ | ⟨_, hm⟩
        · simp at hm
        · have hn := nextOp_le T t
          simp only at hm
          split at h
          · next u hu =>
            rw [hu] at hn
            injection h with h; subst h
            exact Or.inl ⟨_, rfl, by simp only at hn ⊢; omega⟩
          · next o u hu =>
            rw [hu] at hn
            simp only at hn
            rcases ihc _ _ _ h with ⟨e, h1, h2⟩ | ⟨h1, h2⟩
            · exact Or.inl ⟨e, h1, by omega⟩
            · exact Or.inr ⟨h1, by omega⟩
    · intro s r h
      simp only [term] at h
      split at h
      · simp at h
      · next v t hl =>
        injection h with h; subst h
        rcases uriLiteral_moves hl with ⟨_, _, h2⟩ | ⟨h1, _⟩
        · exact Or.inr ⟨by simp, h2⟩
        · simp at h1
      · next t hl =>
        have ht : t = s := by
          rcases uriLiteral_moves hl with ⟨_, h1, _⟩ | ⟨_, h2⟩
          · simp at h1
          · exact h2
        subst ht
        split at h
        · next name u hi =>
          have hu := ident_lt hi
          have hw := wsp_le u
          split at h
          · split at h
            · simp at h
            · injection h with h; subst h
              exact Or.inr ⟨by simp, by simp only; omega⟩
          · split at h
            · obtain ⟨v, hv, rfl⟩ := map_ok h
              have := ihk _ _ _ hv
              exact Or.inr ⟨by simp, by simp only; omega⟩
            · split at h
              · obtain ⟨v, hv, rfl⟩ := map_ok h
                have := ihk _ _ _ hv
                exact Or.inr ⟨by simp, by simp only; omega⟩
              · split at h
                · next x hx =>
                  rw [hx] at hw
                  simp only [List.length_cons] at hw
                  split at h
                  · simp at h
                  · obtain ⟨v, hv, rfl⟩ := map_ok h
                    have := iha _ _ hv
                    exact Or.inr ⟨by simp, by simp only; omega⟩
                · injection h with h; subst h
                  exact Or.inr ⟨by simp, by simp only; omega⟩
        · split at h
          · next u =>
            split at h
            · simp at h
            · simp at h
            · next e x hx =>
              injection h with h; subst h
              have h1 := skipChar_le ')' x
              rcases ihc _ _ _ hx with ⟨_, _, h2⟩ | ⟨h2, _⟩
              · refine Or.inr ⟨operand_ne e, ?_⟩
                simp only [List.length_cons] at h2 ⊢
                omega
              · simp at h2
          · injection h with h; subst h
            exact Or.inr ⟨by simp, by simp⟩
          · injection h with h; subst h
            exact Or.inl ⟨rfl, Nat.le_refl _⟩
    · intro s r h
      have hw := wsp_le s
      simp only [arguments] at h
      split at h
      · simp at h
      · simp at h
      · next e t ht =>
        have hw2 := wsp_le t
        rcases ihc _ _ _ ht with ⟨_, _, h2⟩ | ⟨h2, _⟩
        · simp only at h2
          split at h
          · next u hu =>
            rw [hu] at hw2
            simp only [List.length_cons] at hw2
            obtain ⟨v, hv, rfl⟩ := map_ok h
            have := iha _ _ hv
            simp only; omega
          · next u hu =>
            rw [hu] at hw2
            simp only [List.length_cons] at hw2
            injection h with h; subst h
            simp only; omega
          · simp at h
        · simp at h2
    · intro op s r h
      have hw := wsp_le s
      simp only [castLike] at h
      split at h
      · next t ht =>
        rw [ht] at hw
        simp only [List.length_cons] at hw
        split at h
        · simp at h
        · simp at h
        · next e u hu =>
          have hw2 := wsp_le u
          rcases ihc _ _ _ hu with ⟨_, _, h2⟩ | ⟨h2, _⟩
          · simp only at h2
            split at h
            · next x hx =>
              rw [hx] at hw2
              simp only [List.length_cons] at hw2
              split at h
              · injection h with h; subst h
                simp only; omega
              · simp at h
            · have h3 := skipChar_le ',' (wsp u)
              have h4 := wsp_le (skipChar ',' (wsp u))
              split at h
              · simp at h
              · simp at h
              · next f x hx =>
                have h5 := wsp_le x
                have h6 := skipChar_le ')' (wsp x)
                split at h
                · injection h with h; subst h
                  rcases ihc _ _ _ hx with ⟨_, _, h7⟩ | ⟨h7, _⟩
                  · simp only at h7 ⊢; omega
                  · simp at h7
                · simp at h
          · simp at h2
      · simp at h

theorem map_congr' {α β : Type} {x y : Except Fault α} {f : α → β} (h : x = y) : x.map f = y.map f := by rw [h]

/-- The budgets that suffice. -/
theorem stable (T : Tables) : ∀ n : Nat,
    (∀ m ops (s : Str), 3 * s.length + 3 ≤ n → 3 * s.length + 3 ≤ m → common T n ops s = common T m ops s) ∧
    (∀ m (s : Str), 3 * s.length + 1 ≤ n → 3 * s.length + 1 ≤ m → term T n s = term T m s) ∧
    (∀ m (s : Str), 3 * s.length + 4 ≤ n → 3 * s.length + 4 ≤ m → arguments T n s = arguments T m s) ∧
    (∀ m op (s : Str), 3 * s.length + 1 ≤ n → 3 * s.length + 1 ≤ m → castLike T n op s = castLike T m op s)
  | 0 => by
    refine ⟨?_, ?_, ?_, ?_⟩
    · intro m ops s h; omega
    · intro m s h; omega
    · intro m s h; omega
    · intro m op s h; omega
  | n + 1 => by
    obtain ⟨ihc, iht, iha, ihk⟩ := stable T n
    refine ⟨?_, ?_, ?_, ?_⟩
    · intro m ops s hn hm
      cases m with
      | zero => omega
      | succ m =>
        have hw := wsp_le s
        simp only [common]
        rw [iht m (wsp s) (by omega) (by omega)]
        split
        · rfl
        · rfl
        · next o t ht =>
          have hmv := (moves T m).2.1 _ _ ht
          rcases hmv with ⟨hmv, _⟩ | ⟨_, hmv⟩
          · simp at hmv
          · simp only at hmv
            exact ihc m _ t (by omega) (by omega)
        · next e t ht =>
          have hmv := (moves T m).2.1 _ _ ht
          rcases hmv with ⟨hmv, _⟩ | ⟨_, hmv⟩
          · simp at hmv
          · simp only at hmv
            have hno := nextOp_le T t
            split
            · rfl
            · next o u hu =>
              rw [hu] at hno
              simp only at hno
              exact ihc m _ u (by omega) (by omega)
    · intro m s hn hm
      cases m with
      | zero => omega
      | succ m =>
        simp only [term]
        split
        · rfl
        · rfl
        · next t hl =>
          have ht : t = s := by
            rcases uriLiteral_moves hl with ⟨_, h1, _⟩ | ⟨_, h2⟩
            · simp at h1
            · exact h2
          subst ht
          split
          · next name u hi =>
            have hu := ident_lt hi
            have hw := wsp_le u
            split
            · rfl
            · split
              · exact map_congr' (ihk m _ _ (by omega) (by omega))
              · split
                · exact map_congr' (ihk m _ _ (by omega) (by omega))
                · split
                  · next x hx =>
                    rw [hx] at hw
                    simp only [List.length_cons] at hw
                    split
                    · rfl
                    · exact map_congr' (iha m _ (by omega) (by omega))
                  · rfl
          · split
            · simp only [List.length_cons] at hn hm
              rename_i tl _
              have hz : common T n [] tl = common T m [] tl := ihc m [] tl (by omega) (by omega)
              simp only [hz]
            · rfl
            · rfl
    · intro m s hn hm
      cases m with
      | zero => omega
      | succ m =>
        have hw := wsp_le s
        simp only [arguments]
        rw [ihc m [] (wsp s) (by omega) (by omega)]
        split
        · rfl
        · rfl
        · next e t ht =>
          have hw2 := wsp_le t
          rcases (moves T m).1 _ _ _ ht with ⟨_, _, h2⟩ | ⟨h2, _⟩
          · simp only at h2
            split
            · next u hu =>
              rw [hu] at hw2
              simp only [List.length_cons] at hw2
              exact map_congr' (iha m _ (by omega) (by omega))
            · rfl
            · rfl
          · simp at h2
    · intro m op s hn hm
      cases m with
      | zero => omega
      | succ m =>
        have hw := wsp_le s
        simp only [castLike]
        split
        · next t ht =>
          rw [ht] at hw
          simp only [List.length_cons] at hw
          rw [ihc m [] t (by omega) (by omega)]
          split
          · rfl
          · rfl
          · next e u hu =>
            have hw2 := wsp_le u
            rcases (moves T m).1 _ _ _ hu with ⟨_, _, h2⟩ | ⟨h2, _⟩
            · simp only at h2
              split
              · rfl
              · have h3 := skipChar_le ',' (wsp u)
                have h4 := wsp_le (skipChar ',' (wsp u))
                rw [ihc m [] _ (by omega) (by omega)]
            · simp at h2
        · rfl

/-! ## The reader without its budget -/

/-- `common` with a sufficient budget. -/
def C (T : Tables) (ops : List Open) (s : Str) : Except Fault (Option Expr × Str) := common T (3 * s.length + 3) ops s

/-- `term` with a sufficient budget. -/
def Tm (T : Tables) (s : Str) : Except Fault (Operand × Str) := term T (3 * s.length + 1) s

/-- `arguments` with a sufficient budget. -/
def Ar (T : Tables) (s : Str) : Except Fault (List Expr × Str) := arguments T (3 * s.length + 4) s

/-- `castLike` with a sufficient budget. -/
def Ca (T : Tables) (op : Oper) (s : Str) : Except Fault (Expr × Str) := castLike T (3 * s.length + 1) op s

theorem C_of (T : Tables) {n : Nat} (ops : List Open) {s : Str} (h : 3 * s.length + 3 ≤ n) : common T n ops s = C T ops s :=
  (stable T n).1 _ ops s h (Nat.le_refl _)

theorem Tm_of (T : Tables) {n : Nat} {s : Str} (h : 3 * s.length + 1 ≤ n) : term T n s = Tm T s :=
  (stable T n).2.1 _ s h (Nat.le_refl _)

theorem Ar_of (T : Tables) {n : Nat} {s : Str} (h : 3 * s.length + 4 ≤ n) : arguments T n s = Ar T s :=
  (stable T n).2.2.1 _ s h (Nat.le_refl _)

theorem Ca_of (T : Tables) {n : Nat} (op : Oper) {s : Str} (h : 3 * s.length + 1 ≤ n) : castLike T n op s = Ca T op s :=
  (stable T n).2.2.2 _ op s h (Nat.le_refl _)

theorem C_moves {T : Tables} {ops : List Open} {s : Str} {r : Option Expr × Str} (h : C T ops s = .ok r) : CommonMoves s r :=
  (moves T _).1 _ _ _ h

theorem Tm_moves {T : Tables} {s : Str} {r : Operand × Str} (h : Tm T s = .ok r) : TermMoves s r :=
  (moves T _).2.1 _ _ h

/-- What follows a value (the last lines of `common`). -/
def cont (T : Tables) (ops : List Open) (e : Expr) (s : Str) : Except Fault (Option Expr × Str) :=
  match nextOp T s with
  | (none, s) => .ok (some (finish ops e), s)
  | (some r, s) => C T (bindOp ops (some e) r) s

/-- The loop without its budget. -/
theorem C_eq (T : Tables) (ops : List Open) (s : Str) : C T ops s =
    match Tm T (wsp s) with
    | .error e => .error e
    | .ok (.nothing, s) => if ops.isEmpty then .ok (none, s) else .error .valueError
    | .ok (.operator o, s) => C T (bindOp ops none o) s
    | .ok (.value e, s) => cont T ops e s := by
  have hw := wsp_le s
  rw [C, show 3 * s.length + 3 = (3 * s.length + 2) + 1 from rfl]
  generalize hk : 3 * s.length + 2 = k
  simp only [common]
  rw [Tm_of T (s := wsp s) (by omega)]
  split
  · next ht => rw [ht]
  · next ht => rw [ht]
  · next o t ht =>
    rw [ht]
    rcases Tm_moves ht with ⟨hmv, _⟩ | ⟨_, hmv⟩
    · simp at hmv
    · simp only at hmv ⊢
      exact C_of T _ (by omega)
  · next e t ht =>
    rw [ht]
    rcases Tm_moves ht with ⟨hmv, _⟩ | ⟨_, hmv⟩
    · simp at hmv
    · simp only at hmv ⊢
      have hno := nextOp_le T t
      unfold cont
      split
      · next hu => rw [hu]
      · next o u hu =>
        rw [hu] at hno ⊢
        simp only at hno ⊢
        exact C_of T _ (by omega)

/-- An operand without its budget. -/
theorem Tm_eq (T : Tables) (s : Str) : Tm T s =
    match uriLiteral T s with
    | .error e => .error e
    | .ok (some v, s) => .ok (.value (.lit v), s)
    | .ok (none, s) =>
      match simpleIdentifier T s with
      | some (name, t) =>
        if name = ['n', 'o', 't'] then
          if wsp t = t then .error .valueError
          else .ok (.operator { unary := true, op := .boolNot, args := [] }, wsp t)
        else if name = ['i', 's', 'o', 'f'] then
          (Ca T .isof (wsp t)).map fun r => (.value r.1, r.2)
        else if name = ['c', 'a', 's', 't'] then
          (Ca T .cast (wsp t)).map fun r => (.value r.1, r.2)
        else
          match wsp t with
          | '(' :: u =>
            match Meth.decode name with
            | none => .error .valueError
            | some m => (Ar T u).map fun r => (.value (.call m r.1), r.2)
          | u => .ok (.value (.prop name), u)
      | none =>
        match s with
        | '(' :: t =>
          match C T [] t with
          | .error e => .error e
          | .ok (none, _) => .error .valueError
          | .ok (some e, t) => .ok (operand e, skipChar ')' t)
        | '-' :: t => .ok (.operator { unary := true, op := .negate, args := [] }, t)
        | s => .ok (.nothing, s) := by
  rw [Tm]
  generalize hk : 3 * s.length = k
  simp only [term]
  split
  · next hl => rw [hl]
  · next hl => rw [hl]
  · next t hl =>
    have ht : t = s := by
      rcases uriLiteral_moves hl with ⟨_, h1, _⟩ | ⟨_, h2⟩
      · simp at h1
      · exact h2
    subst ht
    rw [hl]
    dsimp only
    split
    · next name u hi =>
      rw [hi]
      dsimp only
      have hu := ident_lt hi
      have hw := wsp_le u
      split
      · rfl
      · split
        · exact map_congr' (Ca_of T _ (by omega))
        · split
          · exact map_congr' (Ca_of T _ (by omega))
          · split
            · next x hx =>
              rw [hx] at hw ⊢
              simp only [List.length_cons] at hw
              split
              · next hd => rw [hd]; rfl
              · next hd => rw [hd]; exact map_congr' (Ar_of T (by omega))
            · next hx => split
                         · next hy => exact absurd hy (hx _)
                         · rfl
    · next hi =>
      rw [hi]
      dsimp only
      split
      · simp only [List.length_cons] at hk
        rename_i tl
        have hz : common T k [] tl = C T [] tl := C_of T [] (s := tl) (by omega)
        simp only [hz]
        rfl
      · rfl
      · next h1 h2 => split
                      · exact absurd rfl (h1 _)
                      · exact absurd rfl (h2 _)
                      · rfl

/-- The arguments of a call without their budget. -/
theorem Ar_eq (T : Tables) (s : Str) : Ar T s =
    match C T [] (wsp s) with
    | .error e => .error e
    | .ok (none, _) => .error .valueError
    | .ok (some e, s) =>
      match wsp s with
      | ',' :: t => (Ar T t).map fun r => (e :: r.1, r.2)
      | ')' :: t => .ok ([e], t)
      | _ => .error .valueError := by
  have hw := wsp_le s
  rw [Ar, show 3 * s.length + 4 = (3 * s.length + 3) + 1 from rfl]
  generalize hk : 3 * s.length + 3 = k
  simp only [arguments]
  rw [C_of T [] (s := wsp s) (by omega)]
  split
  · next ht => rw [ht]
  · next ht => rw [ht]
  · next e t ht =>
    rw [ht]
    dsimp only
    have hw2 := wsp_le t
    rcases C_moves ht with ⟨_, _, h2⟩ | ⟨h2, _⟩
    · simp only at h2
      split
      · next u hu =>
        rw [hu] at hw2 ⊢
        simp only [List.length_cons] at hw2
        exact map_congr' (Ar_of T (by omega))
      · next hu => rw [hu]; rfl
      · next h1 h2 => split
                      · next hy => exact absurd hy (h1 _)
                      · next hy => exact absurd hy (h2 _)
                      · rfl
    · simp at h2

/-- A cast without its budget. -/
theorem Ca_eq (T : Tables) (op : Oper) (s : Str) : Ca T op s =
    match wsp s with
    | '(' :: t =>
      match C T [] t with
      | .error e => .error e
      | .ok (none, _) => .error .valueError
      | .ok (some e, t) =>
        match wsp t with
        | ')' :: u => if isString e then .ok (.binary op [e], u) else .error .valueError
        | u =>
          match C T [] (wsp (skipChar ',' u)) with
          | .error e => .error e
          | .ok (none, _) => .error .valueError
          | .ok (some f, u) =>
            if isString f then .ok (.binary op [e, f], skipChar ')' (wsp u)) else .error .valueError
    | _ => .error .valueError := by
  have hw := wsp_le s
  rw [Ca]
  generalize hk : 3 * s.length = k
  simp only [castLike]
  split
  · next t ht =>
    rw [ht] at hw ⊢
    simp only [List.length_cons] at hw
    rw [C_of T [] (s := t) (by omega)]
    show (_ : Except Fault (Expr × Str)) = match C T [] t with
      | .error e => .error e
      | .ok (none, _) => .error .valueError
      | .ok (some e, t) =>
        match wsp t with
        | ')' :: u => if isString e then .ok (.binary op [e], u) else .error .valueError
        | u =>
          match C T [] (wsp (skipChar ',' u)) with
          | .error e => .error e
          | .ok (none, _) => .error .valueError
          | .ok (some f, u) =>
            if isString f then .ok (.binary op [e, f], skipChar ')' (wsp u)) else .error .valueError
    split
    · next hu => rw [hu]
    · next hu => rw [hu]
    · next e u hu =>
      rw [hu]
      dsimp only
      have hw2 := wsp_le u
      rcases C_moves hu with ⟨_, _, h2⟩ | ⟨h2, _⟩
      · simp only at h2
        split
        · next hx => rw [hx]; rfl
        · next hx =>
          have h3 := skipChar_le ',' (wsp u)
          have h4 := wsp_le (skipChar ',' (wsp u))
          rw [C_of T [] (s := wsp (skipChar ',' (wsp u))) (by omega)]
          symm
          split
          · next hz => exact absurd hz (hx _)
          · rfl
      · simp at h2
  · next hx => split
               · next hz => exact absurd hz (hx _)
               · rfl

theorem parseExpr_eq (T : Tables) (s : Str) : parseExpr T s =
    match C T [] s with
    | .error e => .error e
    | .ok (some e, []) => .ok e
    | .ok _ => .error .valueError := rfl

end Verif.OData
