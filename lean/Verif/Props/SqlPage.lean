import Verif.Lemmas.SqlPage

/-!
# Reading a collection in a SQL database page by page

The client follows the links to the next pages while others change the table between its requests.
-/

namespace Verif.Props.SQP

open Verif Verif.OData Verif.OData.SqlPage Verif.Spec.SqlPage Verif.Lemmas.SqlPage

/-- The link to the page after a row with these values, or the first request. -/
def linkOf (fin : Bool → Nat → Int → Str) : Option (List Sql.Param) → Link
  | none => all
  | some p => { top := none, skip := none, token := some (commas (p.map fun x => litText fin (litOf x))) }

/-- The row comes after the place. -/
def after (nf : Bool) (ds : List Bool) : Option (List Sql.Param) → List Sql.Param → Bool
  | none, _ => true
  | some p, x => before nf ds p x

/-- How the loop goes on without `$top` and `$skip`. -/
theorem loop_split : ∀ (rows : List Row) (topmax : Option Int),
    ∃ l r e, rows = l ++ r ∧ loop rows none none topmax = (l, e) ∧
      ((e = .noMore ∧ r = []) ∨ ∃ l' a, l = l' ++ [a] ∧ e = .full a)
  | [], topmax => ⟨[], [], .noMore, rfl, rfl, .inl ⟨rfl, rfl⟩⟩
  | a :: rows, topmax => by
    have hs : skips none = false := rfl
    have ht : reached none = false := rfl
    rw [loop]
    simp only [hs, ht, Bool.false_eq_true, if_false, Option.map_none]
    cases hr : reached topmax with
    | true => exact ⟨[a], rows, .full a, rfl, rfl, .inr ⟨[], a, rfl, rfl⟩⟩
    | false =>
      simp only [Bool.false_eq_true, if_false]
      obtain ⟨l, r, e, h1, h2, h3⟩ := loop_split rows (topmax.map (· - 1))
      refine ⟨a :: l, r, e, by rw [h1]; rfl, by rw [h2], ?_⟩
      rcases h3 with h3 | ⟨l', b, h3, h4⟩
      · exact .inl h3
      · exact .inr ⟨a :: l', b, by rw [h3]; rfl, h4⟩

variable {T : Tables} {fin : Bool → Nat → Int → Str} {nf : Bool} {C : Coll} {topmax : Option Int} {ks : List Kind}

/-- A place that a token can hold. -/
def Place (ks : List Kind) (pos : Option (List Sql.Param)) : Prop := ∀ p, pos = some p → OfKinds ks p

theorem query_of {pos : Option (List Sql.Param)} (hp : Place ks pos) (hk : ks.length = C.dirs.length) (hC : 0 < C.keys) :
    ∃ c, setPage T C (linkOf fin pos).top (linkOf fin pos).skip (linkOf fin pos).token =
        .ok { top := none, skip := none, token := pos.map (·.map litOf), next := none } ∧
      pageCond C { top := none, skip := none, token := pos.map (·.map litOf), next := none } = .ok c ∧
      ∀ r : Row, OfKinds ks r.order → selected c r = after nf C.dirs pos r.order := by
  cases pos with
  | none => exact ⟨none, rfl, rfl, fun r _ => rfl⟩
  | some p =>
    have h := hp p rfl
    have hd : C.dirs ≠ [] := by
      intro h0
      have := dirs_length C
      rw [h0] at this
      simp at this
      omega
    have hn : p ≠ [] := by
      intro h0
      subst h0
      cases h
      apply hd
      exact List.length_eq_zero_iff.mp hk.symm
    obtain ⟨c, h1, h2⟩ := skipCond_of (nf := nf) (ds := C.dirs) [] h hk hd
    refine ⟨some c, setPage_of fin h hk hn none none, ?_, ?_⟩
    · unfold pageCond
      have : skipCond 0 C.dirs (p.map litOf) = .ok c := h1
      simp only [Option.map_some, this]
      rfl
    · intro r hr
      have := h2 [] rfl r.order hr
      rw [List.nil_append] at this
      simp only [selected, this, after]
      cases before nf C.dirs p r.order <;> rfl

/-- One request: the page holds the next rows in order; without a link nothing is left, and a link leads to the rows after the
last one of the page. -/
theorem served_page {pos : Option (List Sql.Param)} {table page : List Row} {next : Option Link} (hp : Place ks pos)
    (hC : 0 < C.keys) (hR : Regular C ks table)
    (h : Served T fin nf C topmax table (linkOf fin pos) page next) :
    page.Pairwise (fun a b => before nf C.dirs a.order b.order = true) ∧
    (∀ r ∈ page, r ∈ table ∧ after nf C.dirs pos r.order = true) ∧
    ((next = none ∧ ∀ r ∈ table, after nf C.dirs pos r.order = true → r ∈ page) ∨
      ∃ a ∈ page, next = some (linkOf fin (some a.order)) ∧
        (∀ r ∈ page, r = a ∨ before nf C.dirs r.order a.order = true) ∧
        ∀ r ∈ table, after nf C.dirs pos r.order = true → r ∈ page ∨ before nf C.dirs a.order r.order = true) := by
  obtain ⟨S, c, rows, S', h1, h2, ⟨hperm, hsort⟩, h4, h5⟩ := h
  obtain ⟨c', q1, q2, q3⟩ := query_of (T := T) (fin := fin) (nf := nf) hp hR.columns hC
  rw [q1] at h1
  injection h1 with h1
  subst h1
  rw [q2] at h2
  injection h2 with h2
  subst h2
  -- the rows of the answer
  have hmem : ∀ r, r ∈ rows ↔ r ∈ table ∧ after nf C.dirs pos r.order = true := by
    intro r
    rw [hperm.mem_iff, List.mem_filter]
    constructor
    · rintro ⟨a, b⟩
      exact ⟨a, by rw [← q3 r (hR.kinds r a)]; exact b⟩
    · rintro ⟨a, b⟩
      exact ⟨a, by rw [q3 r (hR.kinds r a)]; exact b⟩
  have hdist : rows.Pairwise fun a b => a.order ≠ b.order := by
    have hf : (table.filter (selected c')).Pairwise fun a b : Row => a.order ≠ b.order := hR.keys.sublist List.filter_sublist
    exact (hperm.symm.pairwise hf (fun {x y} (hxy : x.order ≠ y.order) => hxy.symm))
  have hstrict : rows.Pairwise fun a b => before nf C.dirs a.order b.order = true := by
    have hboth := List.Pairwise.and hsort hdist
    refine List.Pairwise.imp_of_mem ?_ hboth
    intro a b ha hb hab
    cases hc : before nf C.dirs a.order b.order with
    | true => rfl
    | false =>
      exact absurd (before_total (hR.kinds a ((hmem a).mp ha).1) (hR.kinds b ((hmem b).mp hb).1) hR.columns hc hab.1) hab.2
  obtain ⟨l, r, e, hl, hloop, hend⟩ := loop_split rows topmax
  rw [iterpage, if_neg (by simp)] at h4
  simp only [hloop] at h4
  injection h4 with h4 h4'
  subst h4
  have hsub : l.Pairwise fun a b => before nf C.dirs a.order b.order = true := by
    rw [hl] at hstrict
    exact (List.pairwise_append.mp hstrict).1
  refine ⟨hsub, fun x hx => (hmem x).mp (by rw [hl]; exact List.mem_append_left _ hx), ?_⟩
  rcases hend with ⟨rfl, rfl⟩ | ⟨l', a, hla, rfl⟩
  · left
    simp only [Bool.false_eq_true, if_false] at h4'
    injection h4' with h4'
    subst h4'
    refine ⟨h5.symm, ?_⟩
    intro x hx ha
    have := (hmem x).mpr ⟨hx, ha⟩
    rw [hl, List.append_nil] at this
    exact this
  · right
    have hal : a ∈ l := by rw [hla]; simp
    have hat : a ∈ table := ((hmem a).mp (by rw [hl]; exact List.mem_append_left _ hal)).1
    have hk := hR.kinds a hat
    have htok : nextToken { top := none, skip := none, token := pos.map (·.map litOf), next := none } (topmax.getD 0) a =
        .ok (a.order.map litOf) := by
      unfold nextToken
      rw [newAll_of hk]
      show (if tokenLen (a.order.map litOf) > 512 then _ else _) = _
      rw [tokenLen_of hk, if_neg (by have := hR.short a hat; omega)]
    simp only [htok, Bool.false_eq_true, if_false] at h4'
    injection h4' with h4'
    subst h4'
    refine ⟨a, hal, ?_, ?_, ?_⟩
    · rw [← h5]
      have hne : a.order ≠ [] := by
        intro h0
        have := kinds_length hk
        rw [h0, hR.columns, dirs_length] at this
        simp at this
        omega
      cases ho : a.order with
      | nil => exact absurd ho hne
      | cons x xs =>
        simp only [nextLink, nextSkipToken, List.map_cons, Option.map_some, linkOf, List.map_map]
        rfl
    · intro x hx
      rw [hla] at hx hsub
      rcases List.mem_append.mp hx with hx | hx
      · exact .inr ((List.pairwise_append.mp hsub).2.2 x hx a (by simp))
      · exact .inl (by simpa using hx)
    · intro x hx ha
      have hxr := (hmem x).mpr ⟨hx, ha⟩
      rw [hl] at hxr hstrict
      rcases List.mem_append.mp hxr with hxr | hxr
      · exact .inl hxr
      · exact .inr ((List.pairwise_append.mp hstrict).2.2 a hal x hxr)

theorem after_trans {pos : Option (List Sql.Param)} {x y : List Sql.Param} (hp : Place ks pos) (hx : OfKinds ks x)
    (hy : OfKinds ks y) (h1 : after nf C.dirs pos x = true) (h2 : before nf C.dirs x y = true) :
    after nf C.dirs pos y = true := by
  cases pos with
  | none => rfl
  | some p => exact before_trans (hp p rfl) hx hy h1 h2

theorem reading_from (hC : 0 < C.keys) {req : Link} {tables pages : List (List Row)}
    (h : Reading T fin nf C topmax req tables pages) : ∀ (pos : Option (List Sql.Param)), req = linkOf fin pos → Place ks pos →
    (∀ table ∈ tables, Regular C ks table) →
    pages.flatten.Pairwise (fun a b => before nf C.dirs a.order b.order = true) ∧
    (∀ r ∈ pages.flatten, OfKinds ks r.order ∧ after nf C.dirs pos r.order = true) ∧
    (∀ r, (∀ table ∈ tables, r ∈ table) → after nf C.dirs pos r.order = true → r ∈ pages.flatten) := by
  induction h with
  | @last table page req hs =>
    intro pos hreq hp hR
    subst hreq
    obtain ⟨h1, h2, h3⟩ := served_page hp hC (hR table (by simp)) hs
    rcases h3 with ⟨_, h3⟩ | ⟨a, _, h3, _⟩
    · refine ⟨by simpa using h1, ?_, ?_⟩
      · intro r hr
        have hr' := h2 r (by simpa using hr)
        exact ⟨(hR table (by simp)).kinds r hr'.1, hr'.2⟩
      · intro r hr ha
        simpa using h3 r (hr table (by simp)) ha
    · cases h3
  | @more table page req next tables pages hs _ ih =>
    intro pos hreq hp hR
    subst hreq
    have hRt := hR table (by simp)
    obtain ⟨h1, h2, h3⟩ := served_page hp hC hRt hs
    rcases h3 with ⟨h3, _⟩ | ⟨a, ha, h3, h4, h5⟩
    · cases h3
    · injection h3 with h3
      have hak := hRt.kinds a (h2 a ha).1
      obtain ⟨i1, i2, i3⟩ := ih (some a.order) h3 (by intro p hpa; cases hpa; exact hak)
        (fun t ht => hR t (List.mem_cons_of_mem _ ht))
      refine ⟨?_, ?_, ?_⟩
      · rw [List.flatten_cons, List.pairwise_append]
        refine ⟨h1, i1, ?_⟩
        intro x hx y hy
        have hy' := i2 y hy
        rcases h4 x hx with rfl | hxa
        · exact hy'.2
        · exact before_trans (hRt.kinds x (h2 x hx).1) hak hy'.1 hxa hy'.2
      · intro r hr
        rw [List.flatten_cons] at hr
        rcases List.mem_append.mp hr with hr | hr
        · have := h2 r hr
          exact ⟨hRt.kinds r this.1, this.2⟩
        · have hr' := i2 r hr
          exact ⟨hr'.1, after_trans hp hak hr'.1 (h2 a ha).2 hr'.2⟩
      · intro r hr har
        rw [List.flatten_cons, List.mem_append]
        rcases h5 r (hr table (by simp)) har with h | h
        · exact .inl h
        · exact .inr (i3 r (fun t ht => hr t (List.mem_cons_of_mem _ ht)) h)

/-- **Every row that is in the table throughout is read exactly once, in order, whatever happens to the others between the
requests.**  The pages together are strictly ascending in the order asked for, so that nothing is read twice. -/
theorem reading_complete {tables pages : List (List Row)} (hC : 0 < C.keys) (hR : ∀ table ∈ tables, Regular C ks table)
    (h : Reading T fin nf C topmax all tables pages) :
    (∀ r, (∀ table ∈ tables, r ∈ table) → pages.flatten.count r = 1) ∧
    pages.flatten.Pairwise (fun a b => before nf C.dirs a.order b.order = true) := by
  obtain ⟨h1, h2, h3⟩ := reading_from hC h none rfl (by intro p hp; cases hp) hR
  refine ⟨?_, h1⟩
  intro r hr
  have hm := h3 r hr rfl
  have hnd : pages.flatten.Nodup := by
    refine List.Pairwise.imp_of_mem ?_ h1
    intro a b ha hb hab he
    subst he
    rw [before_irrefl nf (h2 a ha).1] at hab
    cases hab
  rw [List.Nodup.count hnd, if_pos hm]

theorem loop_mem (rows : List Row) : ∀ (skip top topmax : Option Int), ∀ r ∈ (loop rows skip top topmax).1, r ∈ rows := by
  induction rows with
  | nil => intro _ _ _ r hr; exact hr
  | cons a t ih =>
    intro skip top topmax r hr
    rw [loop] at hr
    split at hr
    · exact List.mem_cons_of_mem _ (ih _ _ _ r hr)
    · split at hr
      · have : r = a := by simpa using hr
        subst this
        exact List.mem_cons_self ..
      · split at hr
        · have : r = a := by simpa using hr
          subst this
          exact List.mem_cons_self ..
        · rcases List.mem_cons.mp hr with rfl | hr
          · exact List.mem_cons_self ..
          · exact List.mem_cons_of_mem _ (ih _ _ _ r hr)

/-- What is read was in the table when its page was read. -/
theorem reading_true {req : Link} {tables pages : List (List Row)} (h : Reading T fin nf C topmax req tables pages) :
    tables.length = pages.length ∧ ∀ (i : Nat) (table page : List Row), tables[i]? = some table → pages[i]? = some page → ∀ r ∈ page, r ∈ table := by
  have one : ∀ {table page : List Row} {req : Link} {next : Option Link}, Served T fin nf C topmax table req page next →
      ∀ r ∈ page, r ∈ table := by
    rintro table page req next ⟨S, c, rows, S', -, -, ⟨hperm, -⟩, h4, -⟩ r hr
    have hp : r ∈ rows := by
      rw [iterpage] at h4
      split at h4
      · injection h4 with h4 _
        subst h4
        cases hr
      · injection h4 with h4 _
        subst h4
        exact loop_mem _ _ _ _ r hr
    have := hperm.mem_iff.mp hp
    exact (List.mem_filter.mp this).1
  induction h with
  | last hs =>
    refine ⟨rfl, ?_⟩
    intro i table page ht hpg
    cases i with
    | zero =>
      simp only [List.getElem?_cons_zero, Option.some.injEq] at ht hpg
      subst ht; subst hpg
      exact one hs
    | succ i => simp at ht
  | more hs _ ih =>
    refine ⟨by simp [ih.1], ?_⟩
    intro i table page ht hpg
    cases i with
    | zero =>
      simp only [List.getElem?_cons_zero, Option.some.injEq] at ht hpg
      subst ht; subst hpg
      exact one hs
    | succ i =>
      simp only [List.getElem?_cons_succ] at ht hpg
      exact ih.2 i table page ht hpg

/-- A table that does not change is read completely. -/
theorem reading_of_unchanged {table : List Row} {tables pages : List (List Row)} (hC : 0 < C.keys) (hR : Regular C ks table)
    (hT : ∀ t ∈ tables, t = table) (h : Reading T fin nf C topmax all tables pages) :
    pages.flatten.Perm table ∧ pages.flatten.Pairwise (fun a b => before nf C.dirs a.order b.order = true) := by
  obtain ⟨h1, h2⟩ := reading_complete hC (fun t ht => by rw [hT t ht]; exact hR) h
  have ht := reading_true h
  refine ⟨?_, h2⟩
  have hnd : table.Nodup := by
    refine List.Pairwise.imp ?_ hR.keys
    intro a b hab he
    exact hab (by rw [he])
  rw [List.perm_iff_count]
  intro r
  rw [List.Nodup.count hnd]
  split
  · next hr => exact h1 r (fun t htt => by rw [hT t htt]; exact hr)
  · next hr =>
    rw [List.count_eq_zero]
    intro hm
    obtain ⟨page, hp, hrp⟩ := List.mem_flatten.mp hm
    obtain ⟨i, hi, hpi⟩ := List.mem_iff_getElem.mp hp
    have hit : i < tables.length := by rw [ht.1]; exact hi
    refine hr ?_
    rw [← hT tables[i] (List.getElem_mem hit)]
    exact ht.2 i tables[i] page (List.getElem?_eq_getElem hit) (by rw [List.getElem?_eq_getElem hi, hpi]) r hrp

theorem insert_sorted (hk : ks.length = C.dirs.length) (a : Row) (ha : OfKinds ks a.order) : ∀ (s : List Row), (∀ r ∈ s, OfKinds ks r.order) →
    (s.Pairwise fun x y => before nf C.dirs y.order x.order = false) →
    ∃ s' : List Row, s'.Perm (a :: s) ∧ s'.Pairwise fun x y => before nf C.dirs y.order x.order = false
  | [], _, _ => ⟨[a], .refl _, by simp⟩
  | b :: s, hs, hp => by
    have hb := hs b (by simp)
    have hp' := List.pairwise_cons.mp hp
    cases hc : before nf C.dirs b.order a.order with
    | false =>
      refine ⟨a :: b :: s, .refl _, List.pairwise_cons.mpr ⟨?_, hp⟩⟩
      intro r hr
      rcases List.mem_cons.mp hr with rfl | hr
      · exact hc
      · cases hx : before nf C.dirs r.order a.order with
        | false => rfl
        | true =>
          have hrb := hp'.1 r hr
          have hrk := hs r (List.mem_cons_of_mem _ hr)
          cases hbr : before nf C.dirs b.order r.order with
          | true => rw [before_trans hb hrk ha hbr hx] at hc; exact absurd hc (by simp)
          | false =>
            have := before_total hb hrk hk hbr hrb
            rw [this, hx] at hc
            exact absurd hc (by simp)
    | true =>
      obtain ⟨s', h1, h2⟩ := insert_sorted hk a ha s (fun r hr => hs r (List.mem_cons_of_mem _ hr)) hp'.2
      refine ⟨b :: s', (List.Perm.cons b h1).trans (.swap a b s), List.pairwise_cons.mpr ⟨?_, h2⟩⟩
      intro r hr
      rcases List.mem_cons.mp (h1.mem_iff.mp hr) with rfl | hr
      · cases hx : before nf C.dirs r.order b.order with
        | false => rfl
        | true =>
          have := before_trans ha hb ha hx hc
          rw [before_irrefl nf ha] at this
          cases this
      · exact hp'.1 r hr

theorem exists_sorted (hk : ks.length = C.dirs.length) : ∀ (l : List Row), (∀ r ∈ l, OfKinds ks r.order) →
    ∃ s : List Row, s.Perm l ∧ s.Pairwise fun x y => before nf C.dirs y.order x.order = false
  | [], _ => ⟨[], .refl _, .nil⟩
  | a :: l, h => by
    obtain ⟨s, h1, h2⟩ := exists_sorted hk l (fun r hr => h r (List.mem_cons_of_mem _ hr))
    obtain ⟨s', h3, h4⟩ := insert_sorted (nf := nf) hk a (h a (by simp)) s
      (fun r hr => h r (List.mem_cons_of_mem _ (h1.mem_iff.mp hr))) h2
    exact ⟨s', h3.trans (h1.cons a), h4⟩

/-- Every request that follows a link is answered. -/
theorem served_exists {pos : Option (List Sql.Param)} {table : List Row} (hp : Place ks pos) (hC : 0 < C.keys)
    (hR : Regular C ks table) : ∃ page next, Served T fin nf C topmax table (linkOf fin pos) page next := by
  obtain ⟨c, q1, q2, q3⟩ := query_of (T := T) (fin := fin) (nf := nf) hp hR.columns hC
  obtain ⟨rows, r1, r2⟩ := exists_sorted (nf := nf) hR.columns (table.filter (selected c))
    (fun r hr => hR.kinds r (List.mem_filter.mp hr).1)
  obtain ⟨l, r, e, hl, hloop, hend⟩ := loop_split rows topmax
  rcases hend with ⟨rfl, rfl⟩ | ⟨l', a, hla, rfl⟩
  · refine ⟨l, nextLink fin { top := none, skip := none, token := pos.map (·.map litOf), next := none }, _, c, rows, _, q1, q2, ⟨r1, r2⟩, ?_, rfl⟩
    rw [iterpage, if_neg (by simp)]
    simp only [hloop]
    try rfl
  · have hat : a ∈ table := by
      have : a ∈ rows := by rw [hl, hla]; simp
      exact (List.mem_filter.mp (r1.mem_iff.mp this)).1
    have hk := hR.kinds a hat
    have htok : nextToken { top := none, skip := none, token := pos.map (·.map litOf), next := none } (topmax.getD 0) a =
        .ok (a.order.map litOf) := by
      unfold nextToken
      rw [newAll_of hk]
      show (if tokenLen (a.order.map litOf) > 512 then _ else _) = _
      rw [tokenLen_of hk, if_neg (by have := hR.short a hat; omega)]
    refine ⟨l, nextLink fin { top := none, skip := none, token := pos.map (·.map litOf), next := some (a.order.map litOf) }, _, c, rows, _, q1, q2, ⟨r1, r2⟩, ?_, rfl⟩
    rw [iterpage, if_neg (by simp)]
    simp only [hloop, htok]
    try rfl

theorem reading_from_exists {table : List Row} (hC : 0 < C.keys) (hR : Regular C ks table) : ∀ (n : Nat)
    (pos : Option (List Sql.Param)), Place ks pos →
    (table.filter fun r => after nf C.dirs pos r.order).length ≤ n →
    ∃ k pages, k ≤ n ∧ Reading T fin nf C topmax (linkOf fin pos) (List.replicate (k + 1) table) pages := by
  intro n
  induction n with
  | zero =>
    intro pos hp hn
    obtain ⟨page, next, hs⟩ := served_exists (T := T) (fin := fin) (nf := nf) (topmax := topmax) hp hC hR
    obtain ⟨-, h2, h3⟩ := served_page hp hC hR hs
    rcases h3 with ⟨rfl, -⟩ | ⟨a, ha, -⟩
    · exact ⟨0, [page], Nat.le_refl _, .last hs⟩
    · have hmem : a ∈ table.filter fun r => after nf C.dirs pos r.order := List.mem_filter.mpr (h2 a ha)
      rw [List.length_eq_zero_iff.mp (Nat.le_zero.mp hn)] at hmem
      cases hmem
  | succ n ih =>
    intro pos hp hn
    obtain ⟨page, next, hs⟩ := served_exists (T := T) (fin := fin) (nf := nf) (topmax := topmax) hp hC hR
    obtain ⟨-, h2, h3⟩ := served_page hp hC hR hs
    rcases h3 with ⟨rfl, -⟩ | ⟨a, ha, rfl, -, -⟩
    · exact ⟨0, [page], Nat.zero_le _, .last hs⟩
    · have hak := hR.kinds a (h2 a ha).1
      have hlt : (table.filter fun r => after nf C.dirs (some a.order) r.order).length <
          (table.filter fun r => after nf C.dirs pos r.order).length := by
        have hnd : table.Nodup := by
          refine List.Pairwise.imp ?_ hR.keys
          intro a b hab he
          exact hab (by rw [he])
        have hsub : ∀ l : List Row, (∀ r ∈ l, r ∈ table) → a ∈ l →
            (l.filter fun r => after nf C.dirs (some a.order) r.order).length <
              (l.filter fun r => after nf C.dirs pos r.order).length := by
          have hle : ∀ l : List Row, (∀ r ∈ l, r ∈ table) →
              (l.filter fun r => after nf C.dirs (some a.order) r.order).length ≤
                (l.filter fun r => after nf C.dirs pos r.order).length := by
            intro l
            induction l with
            | nil => intro _; exact Nat.le_refl _
            | cons b t iht =>
              intro hl
              have hb := hR.kinds b (hl b (by simp))
              have iht' := iht (fun r hr => hl r (List.mem_cons_of_mem _ hr))
              rw [List.filter_cons, List.filter_cons]
              split
              · next h =>
                rw [if_pos (after_trans hp hak hb (h2 a ha).2 h)]
                simpa using iht'
              · split
                · exact Nat.le_succ_of_le iht'
                · exact iht'
          intro l
          induction l with
          | nil => intro _ h; cases h
          | cons b t iht =>
            intro hl hal
            have hb := hR.kinds b (hl b (by simp))
            have hlt := hle t (fun r hr => hl r (List.mem_cons_of_mem _ hr))
            rw [List.filter_cons, List.filter_cons]
            rcases List.mem_cons.mp hal with rfl | hal
            · rw [if_neg (by simp only [after]; rw [before_irrefl nf hak]; simp), if_pos (h2 a ha).2]
              exact Nat.lt_succ_of_le hlt
            · have iht' := iht (fun r hr => hl r (List.mem_cons_of_mem _ hr)) hal
              split
              · next h =>
                rw [if_pos (after_trans hp hak hb (h2 a ha).2 h)]
                simpa using iht'
              · split
                · exact Nat.lt_succ_of_lt iht'
                · exact iht'
        exact hsub table (fun r hr => hr) (h2 a ha).1
      obtain ⟨k, pages, hk, hr⟩ := ih (some a.order) (by intro p hpa; cases hpa; exact hak) (by omega)
      exact ⟨k + 1, page :: pages, by omega, by rw [List.replicate_succ]; exact .more hs hr⟩

/-- **Reading ends**: as long as the table does not change, every request is answered and after at most one page for every row
there is a page without a link. -/
theorem reading_ends {table : List Row} (hC : 0 < C.keys) (hR : Regular C ks table) :
    ∃ k pages, k ≤ table.length ∧ Reading T fin nf C topmax all (List.replicate (k + 1) table) pages :=
  reading_from_exists hC hR table.length none (by intro p hp; cases hp) (List.length_filter_le _ _)

/-- No page has more rows than the limit of the server. -/
theorem page_size_bounded {req : Link} {table page : List Row} {next : Option Link} {m : Int} (hm : 1 ≤ m)
    (h : Served T fin nf C (some m) table req page next) : (page.length : Int) ≤ m := by
  obtain ⟨S, c, rows, S', -, -, -, h4, -⟩ := h
  have key : ∀ (rows : List Row) (skip top : Option Int) (m : Int), 1 ≤ m →
      ((loop rows skip top (some m)).1.length : Int) ≤ m := by
    intro rows
    induction rows with
    | nil => intro skip top m hm; rw [loop]; simp; omega
    | cons a t ih =>
      intro skip top m hm
      rw [loop]
      split
      · exact ih _ _ _ hm
      · split
        · simp; omega
        · next hr =>
          have hm2 : 1 ≤ m - 1 := by
            simp only [reached, decide_eq_true_eq] at hr
            omega
          split
          · simp; omega
          · have := ih skip (top.map (· - 1)) (m - 1) hm2
            simp only [Option.map_some, List.length_cons]
            omega
  rw [iterpage] at h4
  split at h4
  · injection h4 with h4 _
    subst h4
    simp
    omega
  · injection h4 with h4 _
    subst h4
    exact key _ _ _ _ hm

end Verif.Props.SQP
