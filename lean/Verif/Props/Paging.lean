import Verif.Lemmas.Paging

/-!
# Properties of pages

C105: reading page after page gives each entity once, in order.  C106: the limit and the end of what was asked for.
C107: the order is the order that was asked for, and is the same on each page.
-/

set_option linter.unusedVariables false

namespace Verif.Props

open Verif Verif.Paging Verif.Spec.Paging

variable {E : Type}

theorem limit_some {p : Page} {a s : Nat} (ha : p.first = a) (h0 : p.topmax ≠ some 0)
    (hs : pageSize p.top p.topmax = some s) : p.limit.1 = some ((a : Int) + s) := by
  unfold Page.limit
  rw [ha]
  unfold pageSize at hs
  rcases ht : p.top with _ | t <;> rcases hm : p.topmax with _ | _ | m <;> simp [ht, hm] at hs h0 ⊢
  · omega
  · omega
  · by_cases h : m + 1 < t
    · rw [if_pos h]; simp; omega
    · rw [if_neg h]; simp; omega

theorem limit_none {p : Page} (h0 : p.topmax ≠ some 0) (hs : pageSize p.top p.topmax = none) :
    p.limit = (none, false) := by
  unfold Page.limit
  unfold pageSize at hs
  rcases ht : p.top with _ | t <;> rcases hm : p.topmax with _ | _ | m <;> simp [ht, hm] at hs h0 ⊢

/-- One page, and where the next one starts. -/
theorem iterpage_page (values : List E) (p : Page) (a s : Nat) (ha : p.first = a) (h0 : p.topmax ≠ some 0)
    (hs : pageSize p.top p.topmax = some s) (hpos : 0 < s) :
    (iterpage values true p).1 = page values a s 0 ∧
    (if values.length > a + s then
        (iterpage values true p).2.first = ((a + s : Nat) : Int) ∧ (iterpage values true p).2.top = p.top ∧
          (iterpage values true p).2.topmax = p.topmax
      else (iterpage values true p).2.top = some 0) := by
  have hl := limit_some ha h0 hs
  have htop : p.top ≠ some 0 := by
    intro h
    unfold pageSize at hs
    rw [h] at hs
    rcases hm : p.topmax with _ | m <;> simp [hm] at hs <;> omega
  unfold iterpage
  rw [if_neg htop]
  rcases hlim : p.limit with ⟨eMax, tr⟩
  rw [hlim] at hl
  subst hl
  simp only [Option.map_some]
  have hf : ({ p with nextSkiptoken := if tr then some (hexFormat ((a : Int) + s)) else none } : Page).first = a := ha
  rw [hf, pageLoop_page]
  refine ⟨rfl, ?_⟩
  by_cases hlen : values.length > a + s
  · rw [if_pos hlen, if_pos hlen]
    cases tr
    · refine ⟨?_, rfl, rfl⟩
      simp [Page.first]
      omega
    · refine ⟨?_, rfl, rfl⟩
      have := parse_hexFormat (a + s)
      simp only [Int.natCast_add] at this
      simp [Page.first, this]
  · rw [if_neg hlen, if_neg hlen]
    rfl

theorem iterpage_done (values : List E) (b : Bool) (p : Page) (h : p.top = some 0) : iterpage values b p = ([], p) := by
  unfold iterpage
  rw [if_pos h]

theorem readPages_done (values : List E) (n : Nat) (p : Page) (h : p.top = some 0) :
    readPages values n p = (List.replicate n [], p) := by
  induction n with
  | zero => rfl
  | succ n ih => simp [readPages, iterpage_done values true p h, ih, List.replicate_succ]

/-- Pages beyond the end are empty. -/
theorem page_beyond (values : List E) (a s j : Nat) (h : values.length ≤ a + j * s) : page values a s j = [] := by
  unfold page
  rw [List.drop_of_length_le h]
  exact List.take_nil

/-- Reading page after page gives the pages of the collection, in order. -/
theorem pages_read (values : List E) (n : Nat) : ∀ (p : Page) (a s : Nat), p.first = a → p.topmax ≠ some 0 →
    pageSize p.top p.topmax = some s → 0 < s →
    (readPages values n p).1 = (List.range n).map (page values a s) ∧
    (0 < n → ((readPages values n p).2.top = some 0 ↔ values.length ≤ a + n * s)) := by
  induction n with
  | zero => intro p a s _ _ _ _; exact ⟨rfl, fun h => absurd h (by omega)⟩
  | succ n ih =>
    intro p a s ha h0 hs hpos
    have htop : p.top ≠ some 0 := by
      intro h
      unfold pageSize at hs
      rw [h] at hs
      rcases hm : p.topmax with _ | m <;> simp [hm] at hs <;> omega
    obtain ⟨h1, h2⟩ := iterpage_page values p a s ha h0 hs hpos
    have hshift : (List.range (n + 1)).map (page values a s) =
        page values a s 0 :: (List.range n).map (page values (a + s) s) := by
      rw [List.range_succ_eq_map, List.map_cons, List.map_map]
      congr 1
      apply List.map_congr_left
      intro j _
      show page values a s (j + 1) = page values (a + s) s j
      unfold page
      rw [show a + (j + 1) * s = a + s + j * s by rw [Nat.add_mul]; omega]
    rw [hshift]
    simp only [readPages]
    by_cases hlen : values.length > a + s
    · rw [if_pos hlen] at h2
      obtain ⟨i1, i2⟩ := ih _ (a + s) s h2.1 (by rw [h2.2.2]; exact h0) (by rw [h2.2.1, h2.2.2]; exact hs) hpos
      refine ⟨by rw [h1, i1], fun _ => ?_⟩
      rcases Nat.eq_zero_or_pos n with hn | hn
      · subst hn
        simp only [readPages, h2.2.1]
        constructor
        · intro h; exact absurd h htop
        · intro h; omega
      · rw [i2 hn, show a + (n + 1) * s = a + s + n * s by rw [Nat.add_mul]; omega]
    · rw [if_neg hlen] at h2
      rw [readPages_done values n _ h2, h1]
      refine ⟨?_, fun _ => ?_⟩
      · congr 1
        symm
        apply List.ext_getElem
        · simp
        · intro i hi _
          simp only [List.getElem_map, List.getElem_range, List.getElem_replicate]
          exact page_beyond _ _ _ _ (by omega)
      · constructor
        · intro _; rw [Nat.add_mul]; omega
        · intro _; exact h2

/-- The pages together. -/
theorem pages_flatten (values : List E) (a s : Nat) (n : Nat) :
    ((List.range n).map (page values a s)).flatten = (values.drop a).take (n * s) := by
  induction n with
  | zero => simp
  | succ n ih =>
    rw [List.range_succ, List.map_append, List.flatten_append, ih]
    simp only [List.map_cons, List.map_nil, List.flatten_cons, List.flatten_nil, List.append_nil]
    unfold page
    rw [Nat.add_mul, Nat.one_mul, List.take_add, List.drop_drop]

/-- C105. A collection read page by page: after `n` calls the pages are the first `n` pages of the collection (whatever
limits the size of a page, `$top` or the service), the end is announced exactly when nothing is left, and then the
pages together are the collection from the first place on: each entity once, and in order. -/
theorem pages_partition (values : List E) (p : Page) (a s n : Nat) (ha : p.first = a) (h0 : p.topmax ≠ some 0)
    (hs : pageSize p.top p.topmax = some s) (hpos : 0 < s) (hn : 0 < n) :
    (readPages values n p).1 = (List.range n).map (page values a s) ∧
    ((readPages values n p).2.top = some 0 ↔ values.length ≤ a + n * s) ∧
    ((readPages values n p).2.top = some 0 → (readPages values n p).1.flatten = values.drop a) := by
  obtain ⟨h1, h2⟩ := pages_read values n p a s ha h0 hs hpos
  refine ⟨h1, h2 hn, fun h => ?_⟩
  rw [h1, pages_flatten]
  apply List.take_of_length_le
  have := (h2 hn).mp h
  simp
  omega

/-- C105. Without a limit there is one page, with everything from the first place on. -/
theorem page_unlimited (values : List E) (p : Page) (a n : Nat) (ha : p.first = a) (h0 : p.topmax ≠ some 0)
    (hs : pageSize p.top p.topmax = none) :
    (readPages values (n + 1) p).1 = values.drop a :: List.replicate n [] := by
  have htop : p.top = none := by
    unfold pageSize at hs
    rcases ht : p.top with _ | t <;> rcases hm : p.topmax with _ | m <;> simp [ht, hm] at hs ⊢
  have : iterpage values true p = (values.drop a, { p with nextSkiptoken := none, top := some 0, skip := some 0, skiptoken := none }) := by
    unfold iterpage
    rw [if_neg (by rw [htop]; simp), limit_none h0 hs]
    have hf : ({ p with nextSkiptoken := none } : Page).first = a := ha
    have := pageLoop_none a values 0
    simp only [Int.natCast_zero, Nat.sub_zero] at this
    simp [hf, this]
  simp [readPages, this, readPages_done]

/-- Non-vacuity of `pages_partition`: a collection of five from the second place on, at most three at once by `$top` and
at most two by the service. -/
theorem pages_hypotheses :
    let p : Page := { top := some 3, skip := some 1, topmax := some 2, skiptoken := none, nextSkiptoken := none }
    p.first = 1 ∧ p.topmax ≠ some 0 ∧ pageSize p.top p.topmax = some 2 ∧
    (readPages [10, 20, 30, 40, 50] 2 p).1 = [[20, 30], [40, 50]] ∧
    (readPages [10, 20, 30, 40, 50] 2 p).2.top = some 0 := by decide +kernel

/-! ### The end of what was asked for -/

/-- A skip token of the service, or none. -/
def Token (token : Option Str) (a : Nat) : Prop := token = none ∧ a = 0 ∨ token = some (hexFormat (a : Int))

theorem token_first {token : Option Str} {a : Nat} (h : Token token a) (top : Option Nat) (topmax : Option Nat) (p : Page) :
    ({ top := top, skip := none, topmax := topmax, skiptoken := token, nextSkiptoken := none } : Page).first = a := by
  rcases h with ⟨h, ha⟩ | h
  · simp [Page.first, h, ha]
  · simp [Page.first, h, parse_hexFormat]

theorem feed_page (m : Nat) (hm : 0 < m) (values : List E) (token : Option Str) (a : Nat) (h : Token token a) :
    feed m values none none token = (page values a m 0, some (hexFormat ((a + m : Nat) : Int))) := by
  obtain ⟨k, rfl⟩ : ∃ k, m = k + 1 := ⟨m - 1, by omega⟩
  have hf := token_first h none (some (k + 1)) ⟨none, none, none, none, none⟩
  have hp := pageLoop_page a (k + 1) values
  unfold feed iterpage
  simp only [Page.set, Page.limit, hf]
  have hf2 : ∀ x, ({ top := none, skip := none, topmax := some (k + 1), skiptoken := token, nextSkiptoken := x } : Page).first = a :=
    fun x => hf
  simp only [Int.natCast_add] at hp hf2 ⊢
  simp [hf2] at hp ⊢
  rw [hp]

/-- C106. A client that follows the links to the next page gets each entity once, in order, and comes to an end. -/
theorem client_gets_all (m : Nat) (hm : 0 < m) (values : List E) (n : Nat) : ∀ (token : Option Str) (a : Nat),
    Token token a → values.length ≤ a + n * m → follow m values (n + 1) token = (values.drop a, true) := by
  induction n with
  | zero =>
    intro token a h hl
    simp only [follow, feed_page m hm values token a h]
    have : page values a m 0 = [] := page_beyond _ _ _ _ (by omega)
    rw [this, List.drop_of_length_le (by omega)]
    rfl
  | succ n ih =>
    intro token a h hl
    rw [follow]
    simp only [feed_page m hm values token a h]
    by_cases he : values.length ≤ a
    · have : page values a m 0 = [] := page_beyond _ _ _ _ (by omega)
      rw [this, List.drop_of_length_le he]
      rfl
    · have hne : (page values a m 0).isEmpty = false := by
        unfold page
        rw [List.isEmpty_eq_false_iff]
        intro h
        have := congrArg List.length h
        simp at this
        omega
      have := ih (some (hexFormat ((a + m : Nat) : Int))) (a + m) (.inr rfl) (by rw [Nat.add_mul] at hl; omega)
      simp only [hne, Bool.false_eq_true, if_false, this]
      unfold page
      simp only [Nat.zero_mul, Nat.add_zero]
      rw [← List.drop_drop, List.take_append_drop]

/-- C106, partial. Nothing is lost: as long as entities are left after a page that the service cut short, there is a
link to the next page, and it leads to the entity after the last one of this page.  Missing: no link when nothing is
left (`next_page_refuted`). -/
theorem next_page_partial (m : Nat) (hm : 0 < m) (values : List E) (token : Option Str) (a : Nat) (h : Token token a) :
    (feed m values none none token).1 = (values.drop a).take m ∧
    ∃ t, (feed m values none none token).2 = some t ∧ Token (some t) (a + m) := by
  rw [feed_page m hm values token a h]
  refine ⟨by simp [page], _, rfl, .inr rfl⟩

/-- C106, refuted. There is a link to the next page even when everything was returned: whatever the collection. -/
theorem next_page_refuted (values : List E) (m : Nat) (hm : 0 < m) (hlen : values.length ≤ m) :
    (feed m values none none none).1 = values ∧ (feed m values none none none).2 ≠ none := by
  rw [feed_page m hm values none 0 (.inl ⟨rfl, rfl⟩)]
  exact ⟨by simp [page, List.take_of_length_le hlen], by simp⟩

/-- C106, partial. The limit `$top` that was asked for is kept if the service does not cut the page short. -/
theorem top_kept_partial (m t : Nat) (ht : t ≤ m) (h0 : 0 < t) (values : List E) (skip : Option Nat) :
    feed m values (some t) skip none = ((values.drop (skip.getD 0)).take t, none) := by
  obtain ⟨k, rfl⟩ : ∃ k, m = k + 1 := ⟨m - 1, by omega⟩
  have hf : ∀ x, ({ top := some t, skip := skip, topmax := some (k + 1), skiptoken := none, nextSkiptoken := x } : Page).first =
      ((skip.getD 0 : Nat) : Int) := by
    intro x
    cases skip <;> simp [Page.first]
  have hp := pageLoop_page (skip.getD 0) t values
  unfold feed iterpage
  have : ¬ k + 1 < t := by omega
  have h0' : ¬ t = 0 := by omega
  simp [Page.set, Page.limit, hf, hp, this, h0', page]

/-- C106, refuted. The limit `$top` is forgotten when the service cuts the page short: of five entities three are asked
for, and the pages hold all five; the link to the next page leads to all of them as well. -/
theorem top_refuted :
    (readPages [10, 20, 30, 40, 50] 3 { top := some 3, skip := none, topmax := some 2, skiptoken := none, nextSkiptoken := none }).1 =
      [[10, 20], [30, 40], [50]] ∧
    feed 2 [10, 20, 30, 40, 50] (some 3) none none = ([10, 20], some "2".toList) ∧
    follow 2 [10, 20, 30, 40, 50] 9 (some "2".toList) = ([30, 40, 50], true) := by decide +kernel

/-! ### Ordering -/

/-- Sorting by the rules, one after the other from the last to the first, is sorting by the first, in case of a tie by
the second, and so on, in the end by key. -/
theorem ordered (keyLe : E → E → Bool) (hk : Comparison keyLe) (rules : List ((E → E → Bool) × Bool))
    (hr : ∀ r ∈ rules, Comparison r.1) (es : List E) :
    (orderPaged keyLe rules es).Perm es ∧ (orderPaged keyLe rules es).Pairwise (Before keyLe rules) := by
  induction rules with
  | nil => exact ⟨stableSort_perm es, stableSort_sorted hk es⟩
  | cons r rs ih =>
    obtain ⟨i1, i2⟩ := ih (fun r h => hr r (List.mem_cons_of_mem _ h))
    rw [orderPaged_cons]
    refine ⟨(stableSort_perm _).trans i1, ?_⟩
    obtain ⟨le, b⟩ := r
    have hle := hr (le, b) (by simp)
    cases b
    · exact stableSort_lex hle _ i2
    · exact stableSort_lex (comparison_flip hle) _ i2

/-- If no two different entities have the same key, the order determines the list. -/
theorem before_antisymm (keyLe : E → E → Bool) (rules : List ((E → E → Bool) × Bool)) (a b : E)
    (hk : keyLe a b = true → keyLe b a = true → a = b) :
    Before keyLe rules a b → Before keyLe rules b a → a = b := by
  induction rules with
  | nil => exact hk
  | cons r rs ih =>
    obtain ⟨le, d⟩ := r
    cases d
    · intro h1 h2; exact ih (h1.2 h2.1) (h2.2 h1.1)
    · intro h1 h2; exact ih (h1.2 h2.1) (h2.2 h1.1)

/-- C107. Pages are read from the entities in the order that was asked for: by the first rule, in case of a tie by the
second, and so on, in the end by key.  This order does not depend on the order in which the store happens to list its
entities, so that pages read at different times fit together. -/
theorem page_order (keyLe : E → E → Bool) (hk : Comparison keyLe) (rules : List ((E → E → Bool) × Bool))
    (hr : ∀ r ∈ rules, Comparison r.1) (es es' : List E) (hp : es.Perm es')
    (hkeys : ∀ a ∈ es, ∀ b ∈ es, keyLe a b = true → keyLe b a = true → a = b) :
    (orderPaged keyLe rules es).Perm es ∧ (orderPaged keyLe rules es).Pairwise (Before keyLe rules) ∧
    orderPaged keyLe rules es' = orderPaged keyLe rules es := by
  obtain ⟨h1, h2⟩ := ordered keyLe hk rules hr es
  obtain ⟨h3, h4⟩ := ordered keyLe hk rules hr es'
  refine ⟨h1, h2, ?_⟩
  refine List.Perm.eq_of_pairwise ?_ h4 h2 (h3.trans (hp.symm.trans h1.symm))
  intro a b ha hb
  exact before_antisymm keyLe rules a b (hkeys a (hp.mem_iff.mpr (h3.mem_iff.mp ha)) b (h1.mem_iff.mp hb))

/-- Without paging, entities that the rules do not tell apart come in the order of the store. -/
theorem plain_order_refuted :
    let rule : (Nat × Nat → Nat × Nat → Bool) × Bool := (fun a b => a.1 ≤ b.1, false)
    [(1, 1), (1, 2)].Perm [(1, 2), (1, 1)] ∧
    orderPlain [rule] [(1, 1), (1, 2)] ≠ orderPlain [rule] [(1, 2), (1, 1)] := by
  refine ⟨.swap _ _ _, by decide⟩

/-- Non-vacuity of `page_order`: price from high to low, then key. -/
theorem page_order_hypotheses :
    let keyLe : Nat × Nat → Nat × Nat → Bool := fun a b => a.2 ≤ b.2
    let rule : (Nat × Nat → Nat × Nat → Bool) × Bool := (fun a b => a.1 ≤ b.1, true)
    Comparison keyLe ∧ Comparison rule.1 ∧
    orderPaged keyLe [rule] [(5, 3), (7, 1), (5, 2)] = [(7, 1), (5, 2), (5, 3)] := by
  refine ⟨⟨?_, ?_⟩, ⟨?_, ?_⟩, by decide⟩
  · intro a b; simp; omega
  · intro a b c; simp; omega
  · intro a b; simp; omega
  · intro a b c; simp; omega

end Verif.Props
