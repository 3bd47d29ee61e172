import Verif.Spec.SqlPage
import Verif.Lemmas.ODataWrite
import Verif.Lemmas.ODataGrammar

/-!
# Lemmas about pages: the order of rows, and tokens that are written and read
-/

namespace Verif.Lemmas.SqlPage

open Verif Verif.OData Verif.OData.SqlPage Verif.Spec.SqlPage

/-! ## The order -/

theorem str_trich {s t : Str} (h1 : ¬ s < t) (h2 : ¬ t < s) : s = t :=
  Std.Trichotomous.trichotomous (r := (· < · : List Char → List Char → Prop)) s t h1 h2

theorem str_trans {s t u : Str} (h1 : s < t) (h2 : t < u) : s < u := List.lt_trans h1 h2

theorem str_irrefl (s : Str) : ¬ s < s := List.lt_irrefl s

theorem first_irrefl (nf : Bool) {k : Kind} {x : Sql.Param} (h : OfKind k x) : first nf x x = false := by
  cases h with
  | int _ _ => simp [first, less]
  | text s => simp [first, less, str_irrefl s]

theorem first_trans {nf : Bool} {k : Kind} {x y z : Sql.Param} (hx : OfKind k x) (hy : OfKind k y) (hz : OfKind k z)
    (h1 : first nf x y = true) (h2 : first nf y z = true) : first nf x z = true := by
  cases hx with
  | int _ _ =>
    cases hy; cases hz
    simp only [first, less, beq_iff_eq, Option.some.injEq, decide_eq_true_eq] at h1 h2 ⊢
    omega
  | text s =>
    cases hy; cases hz
    simp only [first, less, beq_iff_eq, Option.some.injEq, decide_eq_true_eq] at h1 h2 ⊢
    exact str_trans h1 h2

theorem first_total {nf : Bool} {k : Kind} {x y : Sql.Param} (hx : OfKind k x) (hy : OfKind k y)
    (h1 : first nf x y = false) (h2 : first nf y x = false) : x = y := by
  cases hx with
  | int _ _ =>
    cases hy
    simp only [first, less, beq_eq_false_iff_ne, ne_eq, Option.some.injEq, decide_eq_true_eq] at h1 h2
    congr 1
    omega
  | text s =>
    cases hy
    simp only [first, less, beq_eq_false_iff_ne, ne_eq, Option.some.injEq, decide_eq_true_eq] at h1 h2
    rw [str_trich h1 h2]

/-- `x` comes before `y` in a column of the direction. -/
def dirFirst (nf d : Bool) (x y : Sql.Param) : Bool := if d then first nf y x else first nf x y

theorem before_cons (nf d : Bool) (ds : List Bool) (x y : Sql.Param) (xs ys : List Sql.Param) :
    before nf (d :: ds) (x :: xs) (y :: ys) = (dirFirst nf d x y || (x == y && before nf ds xs ys)) := rfl

theorem dirFirst_irrefl (nf d : Bool) {k : Kind} {x : Sql.Param} (h : OfKind k x) : dirFirst nf d x x = false := by
  unfold dirFirst
  split <;> exact first_irrefl nf h

theorem dirFirst_trans {nf d : Bool} {k : Kind} {x y z : Sql.Param} (hx : OfKind k x) (hy : OfKind k y) (hz : OfKind k z)
    (h1 : dirFirst nf d x y = true) (h2 : dirFirst nf d y z = true) : dirFirst nf d x z = true := by
  unfold dirFirst at *
  split at h1
  · next hd => rw [if_pos hd] at h2 ⊢; exact first_trans hz hy hx h2 h1
  · next hd => rw [if_neg hd] at h2 ⊢; exact first_trans hx hy hz h1 h2

theorem dirFirst_total {nf d : Bool} {k : Kind} {x y : Sql.Param} (hx : OfKind k x) (hy : OfKind k y)
    (h1 : dirFirst nf d x y = false) (h2 : dirFirst nf d y x = false) : x = y := by
  unfold dirFirst at *
  split at h1
  · next hd => rw [if_pos hd] at h2; exact first_total hx hy h2 h1
  · next hd => rw [if_neg hd] at h2; exact first_total hx hy h1 h2

theorem before_irrefl (nf : Bool) : ∀ {ks : List Kind} {ds : List Bool} {xs : List Sql.Param}, OfKinds ks xs →
    before nf ds xs xs = false := by
  intro ks ds xs h
  induction h generalizing ds with
  | nil => cases ds <;> rfl
  | cons hx _ ih =>
    cases ds with
    | nil => rfl
    | cons d ds => rw [before_cons, dirFirst_irrefl nf d hx, ih]; simp

theorem before_trans {nf : Bool} : ∀ {ks : List Kind} {ds : List Bool} {xs ys zs : List Sql.Param}, OfKinds ks xs →
    OfKinds ks ys → OfKinds ks zs → before nf ds xs ys = true → before nf ds ys zs = true → before nf ds xs zs = true := by
  intro ks ds xs ys zs hx
  induction hx generalizing ds ys zs with
  | nil => intro _ _ h; cases ds <;> simp [before] at h
  | cons hx hxs ih =>
    intro hy hz h1 h2
    cases hy with
    | cons hy hys =>
      cases hz with
      | cons hz hzs =>
        cases ds with
        | nil => simp [before] at h1
        | cons d ds =>
          rw [before_cons] at h1 h2 ⊢
          simp only [Bool.or_eq_true, Bool.and_eq_true, beq_iff_eq] at h1 h2 ⊢
          rcases h1 with h1 | ⟨rfl, h1⟩
          · rcases h2 with h2 | ⟨rfl, h2⟩
            · exact .inl (dirFirst_trans hx hy hz h1 h2)
            · exact .inl h1
          · rcases h2 with h2 | ⟨rfl, h2⟩
            · exact .inl h2
            · exact .inr ⟨rfl, ih hys hzs h1 h2⟩

theorem before_total {nf : Bool} : ∀ {ks : List Kind} {ds : List Bool} {xs ys : List Sql.Param}, OfKinds ks xs →
    OfKinds ks ys → ks.length = ds.length → before nf ds xs ys = false → before nf ds ys xs = false → xs = ys := by
  intro ks ds xs ys hx
  induction hx generalizing ds ys with
  | nil => intro hy _ _ _; cases hy; rfl
  | cons hx hxs ih =>
    intro hy hl h1 h2
    cases hy with
    | cons hy hys =>
      cases ds with
      | nil => simp at hl
      | cons d ds =>
        rw [before_cons] at h1 h2
        simp only [Bool.or_eq_false_iff] at h1 h2
        have hxy := dirFirst_total hx hy h1.1 h2.1
        subst hxy
        simp only [beq_self_eq_true, Bool.true_and] at h1 h2
        rw [ih hys (by simpa using hl) h1.2 h2.2]

/-! ## Tokens -/

/-- The literal of a value of a column. -/
def litOf : Sql.Param → Lit
  | .int n => .int64 n
  | .text s => .string s
  | _ => .null

theorem newAll_of : ∀ {ks : List Kind} {xs : List Sql.Param}, OfKinds ks xs → newAll xs = .ok (xs.map litOf) := by
  intro ks xs h
  induction h with
  | nil => rfl
  | cons hx _ ih =>
    cases hx with
    | int h1 h2 =>
      rw [newAll, newFromSQL, if_neg (by omega), ih]
      rfl
    | text s =>
      rw [newAll, newFromSQL, ih]
      rfl

theorem tokenLen_of : ∀ {ks : List Kind} {xs : List Sql.Param}, OfKinds ks xs → tokenLen (xs.map litOf) = size xs := by
  intro ks xs h
  induction h with
  | nil => rfl
  | cons hx _ ih =>
    cases hx with
    | int h1 h2 => exact ih
    | text s => rw [List.map_cons, litOf, tokenLen, size, ih]

theorem litOf_sound (T : Tables) {k : Kind} {x : Sql.Param} (h : OfKind k x) : Spec.OData.Sound T (litOf x) := by
  cases h with
  | @int n h1 h2 =>
    have a : -9223372036854775808 ≤ n := h1
    have b : n ≤ 9223372036854775807 := h2
    exact ⟨a, b⟩
  | text s => exact True.intro

theorem text_head (fin : Bool → Nat → Int → Str) {k : Kind} {x : Sql.Param} (h : OfKind k x) (rest : Str) :
    wsp (litText fin (litOf x) ++ rest) = litText fin (litOf x) ++ rest := by
  apply wsp_of
  intro c t hc
  cases h with
  | @int n h1 h2 =>
    replace hc : intText n ++ ['L'] ++ rest = c :: t := hc
    unfold intText at hc
    split at hc
    · simp only [List.cons_append] at hc
      injection hc with hc _
      subst hc
      decide
    · have hd := strNat_digits n.natAbs
      cases hs : Py.strNat n.natAbs with
      | nil => exact absurd hs hd.1
      | cons a u =>
        rw [hs] at hc
        simp only [List.cons_append] at hc
        injection hc with hc _
        subst hc
        have := hd.2 a (by rw [hs]; simp)
        simp only [Py.isDigit, Bool.and_eq_true, decide_eq_true_eq] at this
        simp only [isWsp, Bool.or_eq_false_iff, beq_eq_false_iff_ne, ne_eq]
        constructor
        · rintro rfl; exact absurd this.1 (by decide)
        · rintro rfl; exact absurd this.1 (by decide)
  | text s =>
    replace hc : '\'' :: (doubled s ++ ['\'']) ++ rest = c :: t := hc
    rw [List.cons_append] at hc
    injection hc with hc _
    subst hc
    decide

theorem readToken_of (T : Tables) (fin : Bool → Nat → Int → Str) : ∀ {ks : List Kind} {xs : List Sql.Param} {n : Nat}, OfKinds ks xs →
    xs ≠ [] → xs.length ≤ n → readToken T n (commas (xs.map fun x => litText fin (litOf x))) = .ok (xs.map litOf) := by
  intro ks xs n h
  induction h generalizing n with
  | nil => intro h0; exact absurd rfl h0
  | @cons k ks x xs hx hxs ih =>
    intro _ hn
    cases n with
    | zero => simp at hn
    | succ n =>
      have hlit := written_literal (T := T) fin (litOf_sound T hx)
      cases xs with
      | nil =>
        have hr := literal_read (rest := []) hlit (by intro c t hc; cases hc)
        have hw := text_head fin hx []
        rw [List.append_nil] at hr hw
        show readToken T (n + 1) (litText fin (litOf x)) = _
        rw [readToken, hw, hr]
        rfl
      | cons y ys =>
        have hr := literal_read (rest := ',' :: commas ((y :: ys).map fun x => litText fin (litOf x))) hlit
          (by intro c t hc; injection hc with hc _; subst hc; simp)
        have hw := text_head fin hx (',' :: commas ((y :: ys).map fun x => litText fin (litOf x)))
        have ih' := ih (n := n) (by simp) (by simpa using hn)
        show readToken T (n + 1) (litText fin (litOf x) ++ ',' :: commas ((y :: ys).map fun x => litText fin (litOf x))) = _
        rw [readToken, hw, hr]
        have hc : wsp (',' :: commas ((y :: ys).map fun x => litText fin (litOf x))) =
            ',' :: commas ((y :: ys).map fun x => litText fin (litOf x)) :=
          wsp_of (by intro c t hc; injection hc with hc _; subst hc; decide)
        simp only [hc, ih']
        rfl

theorem commas_length (fin : Bool → Nat → Int → Str) : ∀ {ks : List Kind} {xs : List Sql.Param}, OfKinds ks xs →
    xs.length ≤ (commas (xs.map fun x => litText fin (litOf x))).length + 1 := by
  intro ks xs h
  induction h with
  | nil => simp
  | @cons k ks x xs hx hxs ih =>
    cases xs with
    | nil => simp
    | cons y ys =>
      show _ ≤ (litText fin (litOf x) ++ ',' :: commas ((y :: ys).map fun x => litText fin (litOf x))).length + 1
      simp only [List.length_cons, List.length_append] at ih ⊢
      omega

theorem kinds_length : ∀ {ks : List Kind} {xs : List Sql.Param}, OfKinds ks xs → xs.length = ks.length := by
  intro ks xs h
  induction h with
  | nil => rfl
  | cons _ _ ih => simp [ih]

theorem dirs_length (C : Coll) : C.dirs.length = C.orderby.length + C.keys := by
  simp [Coll.dirs]

/-- A token that was written is read back. -/
theorem setPage_of {T : Tables} (fin : Bool → Nat → Int → Str) {C : Coll} {ks : List Kind} {xs : List Sql.Param}
    (h : OfKinds ks xs) (hk : ks.length = C.dirs.length) (hn : xs ≠ []) (top skip : Option Int) :
    setPage T C top skip (some (commas (xs.map fun x => litText fin (litOf x)))) =
      .ok { top := top, skip := skip, token := some (xs.map litOf), next := none } := by
  have hl : (xs.map litOf).length = C.orderby.length + C.keys := by
    rw [List.length_map, kinds_length h, hk, dirs_length]
  unfold setPage
  simp only [readToken_of T fin h hn (commas_length fin h)]
  rw [if_neg (by omega), if_neg (by omega)]

/-! ## The condition -/

theorem less_past {nf d : Bool} {k : Kind} {x p : Sql.Param} (hx : OfKind k x) (hp : OfKind k p) :
    (if d then less x p else less p x) = some (dirFirst nf d p x) := by
  unfold dirFirst
  cases d <;> cases hx <;> cases hp <;> simp [first, less]

theorem equal_of {k : Kind} {x p : Sql.Param} (hx : OfKind k x) (hp : OfKind k p) : equal x p = some (p == x) := by
  cases hx with
  | int _ _ =>
    cases hp
    simp only [equal, Option.some.injEq]
    rw [Bool.eq_iff_iff]
    simp only [decide_eq_true_eq, beq_iff_eq, Sql.Param.int.injEq]
    exact eq_comm
  | text s =>
    cases hp
    simp only [equal, Option.some.injEq]
    rw [Bool.eq_iff_iff]
    simp only [decide_eq_true_eq, beq_iff_eq, Sql.Param.text.injEq]
    exact eq_comm

theorem prepare_of {k : Kind} {x : Sql.Param} (hx : OfKind k x) : prepare (litOf x) = .ok x := by
  cases hx <;> rfl

theorem either_some (a b : Bool) : either (some a) (some b) = some (a || b) := by
  cases a <;> cases b <;> rfl

theorem both_some (a b : Bool) : both (some a) (some b) = some (a && b) := by
  cases a <;> cases b <;> rfl

/-- The condition made of the values of a row selects the rows that come after it. -/
theorem skipCond_of {nf : Bool} : ∀ {ks : List Kind} {ps : List Sql.Param} {ds : List Bool} (pre : List Sql.Param), OfKinds ks ps →
    ks.length = ds.length → ds ≠ [] → ∃ c, skipCond pre.length ds (ps.map litOf) = .ok c ∧
      ∀ pre' : List Sql.Param, pre'.length = pre.length → ∀ xs, OfKinds ks xs →
        truth (pre' ++ xs) c = some (before nf ds ps xs) := by
  intro ks ps ds pre h
  induction h generalizing ds pre with
  | nil => intro hl hd; cases ds with
    | nil => exact absurd rfl hd
    | cons _ _ => simp at hl
  | @cons k ks p ps hp hps ih =>
    intro hl _
    cases ds with
    | nil => simp at hl
    | cons d ds =>
      cases ds with
      | nil =>
        refine ⟨.past pre.length d p, ?_, ?_⟩
        · rw [List.map_cons, skipCond, prepare_of hp]
          rfl
        · intro pre' hpre xs hxs
          cases hxs with
          | @cons _ _ x xs hx hxs =>
            have hnil : ks = [] := by
              cases ks with
              | nil => rfl
              | cons _ _ => simp at hl
            subst hnil
            cases hps
            cases hxs
            rw [before_cons, truth, List.getElem?_append_right (by omega), hpre, Nat.sub_self]
            simp only [List.getElem?_cons_zero, before, Bool.and_false, Bool.or_false]
            exact less_past hx hp
      | cons d' ds =>
        obtain ⟨c, h1, h2⟩ := ih (ds := d' :: ds) (pre ++ [p]) (by simpa using hl) (by simp)
        rw [List.length_append] at h1
        refine ⟨.or (.past pre.length d p) (.and (.same pre.length p) c), ?_, ?_⟩
        · rw [List.map_cons, skipCond, prepare_of hp]
          show (do let r ← skipCond (pre.length + 1) (d' :: ds) (ps.map litOf); pure _) = _
          have : skipCond (pre.length + 1) (d' :: ds) (ps.map litOf) = .ok c := h1
          rw [this]
          rfl
        · intro pre' hpre xs hxs
          cases hxs with
          | @cons _ _ x xs hx hxs =>
            have h3 := h2 (pre' ++ [x]) (by simp [hpre]) xs hxs
            rw [List.append_assoc, List.cons_append, List.nil_append] at h3
            rw [before_cons, truth, truth, truth, truth, List.getElem?_append_right (by omega), hpre, Nat.sub_self]
            simp only [List.getElem?_cons_zero]
            rw [less_past (nf := nf) hx hp, equal_of hx hp, h3, both_some, either_some]

end Verif.Lemmas.SqlPage
