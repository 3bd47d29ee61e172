import Verif.Props.SqlPage

/-!
# Where reading page by page fails

`NULL` in the order columns, long values and `$top` together with links.
-/

namespace Verif.Props.SQP

open Verif Verif.OData Verif.OData.SqlPage Verif.Spec.SqlPage Verif.Lemmas.SqlPage

variable {T : Tables} {fin : Bool → Nat → Int → Str} {nf : Bool} {C : Coll} {topmax : Option Int} {ks : List Kind}

/-! ## The number of rows -/

theorem loop_top : ∀ (rows : List Row) (skip topmax : Option Int) (n : Int), 1 ≤ n →
    ((loop rows skip (some n) topmax).1.length : Int) ≤ n
  | [], skip, topmax, n, hn => by rw [loop]; simp; omega
  | a :: t, skip, topmax, n, hn => by
    rw [loop]
    split
    · exact loop_top _ _ _ _ hn
    · split
      · simp; omega
      · split
        · simp; omega
        · next hr =>
          have h2 : 1 ≤ n - 1 := by
            simp only [reached, decide_eq_true_eq] at hr
            omega
          have := loop_top t skip (topmax.map (· - 1)) (n - 1) h2
          simp only [Option.map_some, List.length_cons]
          omega

/-- A single page has at most as many rows as asked for. -/
theorem page_within_top {req : Link} {table page : List Row} {next : Option Link} {n : Nat} (hreq : req.top = some (n : Int))
    (h : Served T fin nf C topmax table req page next) : page.length ≤ n := by
  obtain ⟨S, c, rows, S', h1, -, -, h4, -⟩ := h
  have hS : S.top = some (n : Int) := by
    unfold setPage at h1
    split at h1
    · injection h1 with h1; subst h1; exact hreq
    · split at h1
      · cases h1
      · split at h1
        · split at h1
          · split at h1
            · injection h1 with h1; subst h1; exact hreq
            · cases h1
          · cases h1
        · split at h1
          · cases h1
          · injection h1 with h1; subst h1; exact hreq
  rw [iterpage] at h4
  split at h4
  · injection h4 with h4 _
    subst h4
    simp
  · next h0 =>
    injection h4 with h4 _
    subst h4
    have hn : 1 ≤ (n : Int) := by
      rw [hS] at h0
      have : (n : Int) ≠ 0 := fun h => h0 (by rw [h])
      omega
    have := loop_top rows S.skip topmax n hn
    rw [← hS] at this
    omega

theorem loop_below : ∀ (rows : List Row) (n : Nat) (topmax : Option Int), (∀ m, topmax = some m → ((n : Int) + 1 < m)) →
    ∃ e, loop rows none (some ((n : Int) + 1)) topmax = (rows.take (n + 1), e) ∧ ∀ a, e ≠ .full a
  | [], n, topmax, _ => ⟨.noMore, by rw [loop]; simp, by intro a h; cases h⟩
  | a :: t, n, topmax, hm => by
    have hs : skips none = false := rfl
    have hr : reached topmax = false := by
      cases topmax with
      | none => rfl
      | some m =>
        have := hm m rfl
        simp only [reached, decide_eq_false_iff_not]
        omega
    rw [loop, hs, hr]
    simp only [Bool.false_eq_true, if_false]
    cases n with
    | zero =>
      refine ⟨.topped, ?_, by intro a h; cases h⟩
      rw [if_pos (by rfl)]
      simp
    | succ n =>
      obtain ⟨e, h1, h2⟩ := loop_below t n (topmax.map (· - 1)) (by
        intro m hm'
        cases topmax with
        | none => cases hm'
        | some k =>
          simp only [Option.map_some, Option.some.injEq] at hm'
          have := hm k rfl
          omega)
      refine ⟨e, ?_, h2⟩
      rw [if_neg (by simp only [reached, decide_eq_true_eq]; omega)]
      have he : (Option.map (fun x => x - 1) (some (((n + 1 : Nat) : Int) + 1))) = some ((n : Int) + 1) := by
        simp only [Option.map_some, Option.some.injEq]
        omega
      simp only [he, h1, List.take_succ_cons]

/-- Fewer rows than the limit of the server are answered in a single page, with the first rows in order and no link. -/
theorem top_below_limit {table page : List Row} {next : Option Link} {n : Nat} (hn : 0 < n)
    (hm : ∀ m, topmax = some m → (n : Int) < m)
    (h : Served T fin nf C topmax table { top := some n, skip := none, token := none } page next) :
    next = none ∧ ∃ rows, Answer nf C table none rows ∧ page = rows.take n := by
  obtain ⟨S, c, rows, S', h1, h2, h3, h4, h5⟩ := h
  simp only [setPage] at h1
  injection h1 with h1
  subst h1
  simp only [pageCond] at h2
  injection h2 with h2
  subst h2
  cases n with
  | zero => omega
  | succ n =>
    obtain ⟨e, h6, h7⟩ := loop_below rows n topmax (by intro m hmm; have := hm m hmm; omega)
    have hcast : (((n + 1 : Nat) : Int)) = (n : Int) + 1 := by omega
    rw [iterpage, if_neg (by intro h0; injection h0 with h0; omega)] at h4
    simp only [hcast, h6] at h4
    injection h4 with h4 h4'
    refine ⟨?_, rows, h3, h4.symm⟩
    cases e with
    | noMore =>
      simp only [Bool.false_eq_true, if_false] at h4'
      injection h4' with h4'
      subst h4'
      exact h5.symm
    | full a => exact absurd rfl (h7 a)
    | topped =>
      simp only [Bool.false_eq_true, if_false] at h4'
      injection h4' with h4'
      subst h4'
      exact h5.symm

/-! ## Nulls -/

theorem newAll_null : ∀ (xs : List Sql.Param), Sql.Param.none ∈ xs → ∃ e, newAll xs = .error e
  | [], h => by cases h
  | x :: xs, h => by
    rw [newAll]
    cases hx : newFromSQL x with
    | error e => exact ⟨e, rfl⟩
    | ok v =>
      rcases List.mem_cons.mp h with rfl | h
      · cases hx
      · obtain ⟨e, he⟩ := newAll_null xs h
        refine ⟨e, ?_⟩
        simp only [he]
        rfl

/-- A page that ends with a row that has `NULL` in an order column raises an exception instead of giving a link. -/
theorem null_at_end {S : Page} {rows page : List Row} {last : Row} {setNext : Bool} {topmax : Option Int} (h0 : S.top ≠ some 0)
    (h : loop rows S.skip S.top topmax = (page, .full last)) (hn : Sql.Param.none ∈ last.order) :
    ∃ e, iterpage S topmax setNext rows = (page, .error e) := by
  obtain ⟨e, he⟩ := newAll_null last.order hn
  refine ⟨e, ?_⟩
  have ht : nextToken S (topmax.getD 0) last = .error e := by
    unfold nextToken
    rw [he]
    rfl
  rw [iterpage, if_neg h0]
  simp only [h, ht]

theorem skipCond_null : ∀ {ds : List Bool} {vs : List Lit} {i : Nat} {c : Cond} {row : List Sql.Param},
    skipCond i ds vs = .ok c → row[i]? = some .none → truth row c ≠ some true := by
  intro ds vs i c row h hr
  have hl : ∀ p, less Sql.Param.none p = none := by intro p; cases p <;> rfl
  have hl' : ∀ p, less p Sql.Param.none = none := by intro p; cases p <;> rfl
  have he : ∀ p, equal Sql.Param.none p = none := by intro p; cases p <;> rfl
  cases ds with
  | nil => cases h
  | cons d ds =>
    cases vs with
    | nil => cases h
    | cons v vs =>
      rw [skipCond] at h
      cases hp : prepare v with
      | error e => rw [hp] at h; cases h
      | ok p =>
        rw [hp] at h
        cases ds with
        | nil =>
          injection h with h
          subst h
          simp only [truth, hr, hl, hl']
          cases d <;> simp
        | cons d' ds =>
          cases hs : skipCond (i + 1) (d' :: ds) vs with
          | error e =>
            simp only [hs] at h
            cases h
          | ok r =>
            simp only [hs] at h
            injection h with h
            subst h
            simp only [truth, hr, hl, hl', he]
            cases d <;> cases truth row r with
            | none => simp [both, either]
            | some b => cases b <;> simp [both, either]

/-- **A row with `NULL` in the first order column is on the first page or on none**, wherever the database sorts it. -/
theorem null_only_on_first_page {req : Link} {table page : List Row} {next : Option Link} {t : Str} (ht : req.token = some t)
    (h : Served T fin nf C topmax table req page next) : ∀ r ∈ page, r.order.head? ≠ some .none := by
  intro r hr h0
  obtain ⟨S, c, rows, S', h1, h2, ⟨hperm, -⟩, h4, -⟩ := h
  have hS : ∃ vs, S.token = some vs := by
    unfold setPage at h1
    rw [ht] at h1
    simp only at h1
    split at h1
    · cases h1
    · split at h1
      · split at h1
        · split at h1
          · injection h1 with h1; subst h1; exact ⟨_, rfl⟩
          · cases h1
        · cases h1
      · split at h1
        · cases h1
        · injection h1 with h1; subst h1; exact ⟨_, rfl⟩
  obtain ⟨vs, hS⟩ := hS
  have hmem : r ∈ rows := by
    rw [iterpage] at h4
    split at h4
    · injection h4 with h4 _; subst h4; cases hr
    · injection h4 with h4 _; subst h4
      exact loop_mem _ _ _ _ r hr
  have hsel := (List.mem_filter.mp (hperm.mem_iff.mp hmem)).2
  unfold pageCond at h2
  rw [hS] at h2
  simp only at h2
  cases hc : skipCond 0 C.dirs vs with
  | error e => rw [hc] at h2; cases h2
  | ok c' =>
    rw [hc] at h2
    injection h2 with h2
    subst h2
    have hrow : r.order[0]? = some .none := by rw [← List.head?_eq_getElem?]; exact h0
    exact skipCond_null hc hrow (by simpa [selected] using hsel)

/-! ## Examples -/

/-- A collection with one order rule and one key. -/
def C1 : Coll := { orderby := [false], keys := 1 }

/-- Two rows; the second has no value in the column to order by. -/
def row0 : Row := ⟨0, [.int 1, .int 0]⟩
def row1 : Row := ⟨1, [.none, .int 1]⟩
def row2 : Row := ⟨2, [.int 2, .int 2]⟩

theorem row0_kinds : OfKinds [.int, .int] row0.order :=
  .cons (.int (by decide) (by decide)) (.cons (.int (by decide) (by decide)) .nil)

theorem row2_kinds : OfKinds [.int, .int] row2.order :=
  .cons (.int (by decide) (by decide)) (.cons (.int (by decide) (by decide)) .nil)

/-- A table that meets the conditions. -/
theorem regular_example : Regular C1 [.int, .int] [row2, row0] where
  columns := rfl
  kinds := by
    intro r hr
    rcases List.mem_cons.mp hr with rfl | hr
    · exact row2_kinds
    · rcases List.mem_cons.mp hr with rfl | hr
      · exact row0_kinds
      · cases hr
  short := by decide
  keys := by decide

/-- Reading it a row at a time gives both rows in order. -/
theorem reading_example (T : Tables) (fin : Bool → Nat → Int → Str) (nf : Bool) :
    ∃ tables pages, (∀ t ∈ tables, t = [row2, row0]) ∧ Reading T fin nf C1 (some 1) all tables pages ∧
      pages.flatten = [row0, row2] := by
  obtain ⟨k, pages, -, h⟩ := reading_ends (T := T) (fin := fin) (nf := nf) (topmax := some 1) (C := C1) (by decide) regular_example
  refine ⟨_, pages, fun t ht => List.eq_of_mem_replicate ht, h, ?_⟩
  obtain ⟨h1, h2⟩ := reading_of_unchanged (by decide) regular_example (fun t ht => List.eq_of_mem_replicate ht) h
  have hb : before nf C1.dirs row2.order row0.order = false := by cases nf <;> decide
  generalize pages.flatten = l at h1 h2
  have hlen := h1.length_eq
  match l, hlen with
  | [a, b], _ =>
    have ha : a = row2 ∨ a = row0 := by simpa using h1.mem_iff.mp (show a ∈ [a, b] by simp)
    have hb' : b = row2 ∨ b = row0 := by simpa using h1.mem_iff.mp (show b ∈ [a, b] by simp)
    have hnd : ([a, b] : List Row).Nodup := h1.nodup_iff.mpr (by decide)
    rcases ha with rfl | rfl <;> rcases hb' with rfl | rfl
    · simp at hnd
    · have := (List.pairwise_cons.mp h2).1 row0 (by simp)
      rw [hb] at this
      cases this
    · rfl
    · simp at hnd

/-- A database that sorts `NULL` first: there is no answer to the first request. -/
theorem null_first_refuted (T : Tables) (fin : Bool → Nat → Int → Str) :
    ¬ ∃ page next, Served T fin true C1 (some 1) [row0, row1] all page next := by
  rintro ⟨page, next, S, c, rows, S', h1, h2, ⟨hperm, hsort⟩, h4, -⟩
  simp only [setPage, all] at h1
  injection h1 with h1
  subst h1
  simp only [pageCond] at h2
  injection h2 with h2
  subst h2
  have hrows : ∃ r t, rows = r :: t ∧ r = row1 := by
    have hp : rows.Perm [row0, row1] := hperm
    match rows, hp.length_eq with
    | [a, b], _ =>
      have ha : a = row0 ∨ a = row1 := by simpa using hp.mem_iff.mp (show a ∈ [a, b] by simp)
      have hb : b = row0 ∨ b = row1 := by simpa using hp.mem_iff.mp (show b ∈ [a, b] by simp)
      have hnd : ([a, b] : List Row).Nodup := hp.nodup_iff.mpr (by decide)
      refine ⟨a, [b], rfl, ?_⟩
      rcases ha with rfl | rfl
      · rcases hb with rfl | rfl
        · simp at hnd
        · have := (List.pairwise_cons.mp hsort).1 row1 (by simp)
          exact absurd this (by decide)
      · rfl
  obtain ⟨r, t, rfl, rfl⟩ := hrows
  obtain ⟨e, he⟩ := null_at_end (S := { top := none, skip := none, token := none, next := none }) (rows := row1 :: t)
    (page := [row1]) (last := row1) (setNext := false) (topmax := some 1) (by simp) rfl (by decide)
  rw [he] at h4
  injection h4 with _ h4
  cases h4

/-- A database that sorts `NULL` last: the row is never read. -/
theorem null_last_refuted (T : Tables) (fin : Bool → Nat → Int → Str) :
    ∃ pages, Reading T fin false C1 (some 1) all [[row0, row1], [row0, row1]] pages ∧ row1 ∉ pages.flatten := by
  refine ⟨[[row0], []], .more (next := linkOf fin (some row0.order)) ?_ (.last ?_), by decide⟩
  · refine ⟨_, none, [row0, row1], { top := none, skip := none, token := none, next := some (row0.order.map litOf) }, rfl, rfl,
      ⟨.refl _, by decide⟩, rfl, rfl⟩
  · refine ⟨_, _, [], _, setPage_of fin row0_kinds rfl (by decide) none none, rfl, ⟨?_, .nil⟩, rfl, rfl⟩
    have : [row0, row1].filter (selected (some (.or (.past 0 false (.int 1)) (.and (.same 0 (.int 1)) (.past 1 false (.int 0)))))) = [] := by
      decide
    exact this ▸ List.Perm.refl _

/-! ## Long values -/

theorem tokenLen_string {s : Str} : tokenLen [.string s] = s.length := by simp [tokenLen]

/-- **A key with more than 512 characters**: if it ends the first page, there is no answer. -/
theorem long_refuted (T : Tables) (fin : Bool → Nat → Int → Str) (s : Str) (hs : 512 < s.length) (id : Nat) :
    ¬ ∃ page next, Served T fin nf { orderby := [], keys := 1 } (some 1) [⟨id, [.text s]⟩] all page next := by
  rintro ⟨page, next, S, c, rows, S', h1, h2, ⟨hperm, -⟩, h4, -⟩
  simp only [setPage, all] at h1
  injection h1 with h1
  subst h1
  simp only [pageCond] at h2
  injection h2 with h2
  subst h2
  have hp : rows.Perm [⟨id, [.text s]⟩] := hperm
  have hr : rows = [⟨id, [.text s]⟩] := List.perm_singleton.mp hp
  subst hr
  have hl : loop [⟨id, [.text s]⟩] none none (some 1) = ([⟨id, [.text s]⟩], .full ⟨id, [.text s]⟩) := rfl
  have ht : nextToken { top := none, skip := none, token := none, next := none } ((some 1 : Option Int).getD 0) ⟨id, [.text s]⟩ =
      .error .type := by
    show (if tokenLen [.string s] > 512 then _ else _) = _
    rw [tokenLen_string, if_pos hs]
  rw [iterpage, if_neg (by simp)] at h4
  simp only [hl, ht] at h4
  injection h4 with _ h4
  cases h4

/-! ## `$top` and links -/

/-- **A client that asks for one entity and follows the links gets all of them**, if the server's limit is not larger. -/
theorem top_refuted (T : Tables) (fin : Bool → Nat → Int → Str) :
    ∃ tables pages, Reading T fin nf C1 (some 1) { top := some 1, skip := none, token := none } tables pages ∧
      pages.flatten.length = 2 := by
  refine ⟨[[row0, row2], [row0, row2], [row0, row2]], [[row0], [row2], []],
    .more (next := linkOf fin (some row0.order)) ?_ (.more (next := linkOf fin (some row2.order)) ?_ (.last ?_)), rfl⟩
  · refine ⟨_, none, [row0, row2], { top := some 1, skip := none, token := none, next := some (row0.order.map litOf) }, rfl, rfl,
      ⟨.refl _, ?_⟩, rfl, rfl⟩
    cases nf <;> decide
  · refine ⟨_, _, [row2], _, setPage_of fin row0_kinds rfl (by decide) none none, rfl, ⟨?_, by simp⟩, rfl, rfl⟩
    have : [row0, row2].filter (selected (some (.or (.past 0 false (.int 1)) (.and (.same 0 (.int 1)) (.past 1 false (.int 0)))))) = [row2] := by
      decide
    exact this ▸ List.Perm.refl _
  · refine ⟨_, _, [], _, setPage_of fin row2_kinds rfl (by decide) none none, rfl, ⟨?_, .nil⟩, rfl, rfl⟩
    have : [row0, row2].filter (selected (some (.or (.past 0 false (.int 2)) (.and (.same 0 (.int 2)) (.past 1 false (.int 2)))))) = [] := by
      decide
    exact this ▸ List.Perm.refl _

end Verif.Props.SQP
