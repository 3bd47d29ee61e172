import Verif.Model.ODataFeeds
import Verif.Props.Paging

/-!
# Pages of the client, feeds and links in JSON and XML
-/

namespace Verif.Props.Feeds
open Verif Verif.Paging Verif.Spec.Paging Verif.Props

variable {E : Type}

theorem first_at {token : Option Str} {a : Nat} (h : Token token a) (top skip topmax : Option Nat) (x : Option Str) :
    ({ top := top, skip := skip, topmax := topmax, skiptoken := token, nextSkiptoken := x } : Page).first =
      ((skip.getD 0 + a : Nat) : Int) := by
  rcases h with ⟨h, ha⟩ | h
  · cases skip <;> simp [Page.first, h, ha]
  · cases skip <;> simp [Page.first, h, parse_hexFormat]

/-- What the server answers to any settings of a client. -/
theorem feed_at (m : Nat) (hm : 0 < m) (values : List E) (top skip : Option Nat) (token : Option Str) (a : Nat) (h : Token token a)
    (ht : top ≠ some 0) :
    feed m values top skip token = (page values (skip.getD 0 + a) (min (top.getD m) m) 0,
      if top.all (fun t => m < t) then some (hexFormat ((skip.getD 0 + a + m : Nat) : Int)) else none) := by
  obtain ⟨k, rfl⟩ : ∃ k, m = k + 1 := ⟨m - 1, by omega⟩
  have hf := fun x => first_at h top skip (some (k + 1)) x
  unfold feed iterpage
  cases top with
  | none =>
    have hp := pageLoop_page (skip.getD 0 + a) (k + 1) values
    simp only [Int.natCast_add] at hp hf
    simp [Page.set, Page.limit, hf]
    exact congrArg Prod.fst hp
  | some t =>
    have ht' : ¬ t = 0 := fun e => ht (by rw [e])
    by_cases hlt : k + 1 < t
    · have hp := pageLoop_page (skip.getD 0 + a) (k + 1) values
      simp only [Int.natCast_add] at hp hf
      have hmin : min t (k + 1) = k + 1 := Nat.min_eq_right (by omega)
      simp [Page.set, Page.limit, hf, hlt, ht', hmin]
      exact congrArg Prod.fst hp
    · have hp := pageLoop_page (skip.getD 0 + a) t values
      simp only [Int.natCast_add] at hp hf
      have hmin : min t (k + 1) = t := Nat.min_eq_left (by omega)
      simp [Page.set, Page.limit, hf, hp, hlt, ht', hmin]

theorem page_shift (values : List E) (a s j : Nat) : page values (a + s) s j = page values a s (j + 1) := by
  unfold page
  congr 2
  rw [Nat.add_mul]
  omega

/-- Reading page after page with the client gives the pages of the collection, in order, from the place that was set on; their size is
the smaller one of what was asked for and what the server allows. -/
theorem client_pages (m : Nat) (hm : 0 < m) (values : List E) (n : Nat) : ∀ (p : ClientPage) (a : Nat), Token p.skiptoken a →
    p.top ≠ some 0 → clientPages m values n p = (List.range n).map (page values (p.skip.getD 0 + a) (min (p.top.getD m) m)) := by
  induction n with
  | zero => intro p a _ _; rfl
  | succ n ih =>
    intro p a h ht
    rw [List.range_succ_eq_map, List.map_cons, List.map_map, clientPages]
    have hfeed := feed_at m hm values p.top p.skip p.skiptoken a h ht
    simp only [clientPage, hfeed]
    by_cases hall : p.top.all (fun t => m < t) = true
    · simp only [if_pos hall]
      have hmin : min (p.top.getD m) m = m := by
        cases hp : p.top with
        | none => exact Nat.min_self m
        | some t => rw [hp] at hall; simp at hall; exact Nat.min_eq_right (by rw [Option.getD_some]; omega)
      congr 1
      rw [ih { p with skiptoken := some (hexFormat ((p.skip.getD 0 + a + m : Nat) : Int)), skip := none, nextSkiptoken := some (hexFormat ((p.skip.getD 0 + a + m : Nat) : Int)) } (p.skip.getD 0 + a + m) (.inr rfl) ht]
      apply List.map_congr_left
      intro j _
      simp only [Option.getD_none, Nat.zero_add, Function.comp, hmin]
      rw [page_shift]
    · simp only [if_neg hall]
      have hs : 0 < min (p.top.getD m) m := by
        cases hp : p.top with
        | none => rw [hp] at hall; simp at hall
        | some t =>
          have : t ≠ 0 := fun e => ht (by rw [hp, e])
          simp only [Option.getD_some]
          rcases Nat.le_total t m with h | h
          · rw [Nat.min_eq_left h]; omega
          · rw [Nat.min_eq_right h]; omega
      congr 1
      generalize hsz : min (p.top.getD m) m = s at hs ⊢
      have hlen : (page values (p.skip.getD 0 + a) s 0).length = min s (values.length - (p.skip.getD 0 + a)) := by
        simp [page]
      have : clientPages m values n
          { p with nextSkiptoken := none, skip := some (p.skip.getD 0 + (page values (p.skip.getD 0 + a) s 0).length) } =
          (List.range n).map (page values (p.skip.getD 0 + (page values (p.skip.getD 0 + a) s 0).length + a) s) := by
        have := ih { p with nextSkiptoken := none, skip := some (p.skip.getD 0 + (page values (p.skip.getD 0 + a) s 0).length) } a h ht
        simpa only [Option.getD_some, hsz] using this
      have hgoal : (List.range n).map (page values (p.skip.getD 0 + (page values (p.skip.getD 0 + a) s 0).length + a) s) =
          (List.range n).map (page values (p.skip.getD 0 + a) s ∘ Nat.succ) := by
        apply List.map_congr_left
        intro j _
        rw [Function.comp, ← page_shift]
        by_cases hfull : p.skip.getD 0 + a + s ≤ values.length
        · rw [hlen, Nat.min_eq_left (by omega)]
          congr 1
          omega
        · rw [page_beyond, page_beyond]
          · omega
          · rw [hlen]
            have := Nat.zero_le (j * s)
            omega
      rw [← hgoal, ← this]
      cases hk : p.skip with
      | none => simp
      | some k => simp

/-- All pages together are the collection from the place that was set on, each entity once, as soon as there are enough pages. -/
theorem client_partition (m : Nat) (hm : 0 < m) (values : List E) (n : Nat) (p : ClientPage) (a : Nat) (h : Token p.skiptoken a)
    (ht : p.top ≠ some 0) (hn : values.length ≤ n) : (clientPages m values n p).flatten = values.drop (p.skip.getD 0 + a) := by
  rw [client_pages m hm values n p a h ht, pages_flatten]
  apply List.take_of_length_le
  rw [List.length_drop]
  have hs : 0 < min (p.top.getD m) m := by
    cases hp : p.top with
    | none => rw [Option.getD_none, Nat.min_self]; exact hm
    | some t =>
      have : t ≠ 0 := fun e => ht (by rw [hp, e])
      simp only [Option.getD_some]
      rcases Nat.le_total t m with h | h
      · rw [Nat.min_eq_left h]; omega
      · rw [Nat.min_eq_right h]; omega
  have := Nat.le_mul_of_pos_right n hs
  omega

/-- Pages of four on a server that allows three, and pages of two. -/
theorem client_pages_sample :
    clientPages 3 [1, 2, 3, 4, 5, 6, 7] 4 ⟨some 4, some 0, none, none⟩ = [[1, 2, 3], [4, 5, 6], [7], []] ∧
    clientPages 3 [1, 2, 3, 4, 5, 6, 7] 4 ⟨some 2, some 1, none, none⟩ = [[2, 3], [4, 5], [6, 7], []] ∧
    Token none 0 := ⟨by decide +kernel, by decide +kernel, .inl ⟨rfl, rfl⟩⟩

/-! ## JSON -/

/-- An answer in JSON has all that was asked for, and no link to a next page: nothing is left for one. -/
theorem json_complete (version : Nat) (values : List E) (top skip : Option Nat) (token : Option Str) (a : Nat) (h : Token token a)
    (inlineCount : Bool) :
    (feedJson version values top skip token inlineCount).entries =
      (match top with
        | none => values.drop (skip.getD 0 + a)
        | some t => (values.drop (skip.getD 0 + a)).take t) ∧
    (feedJson version values top skip token inlineCount).next = none := by
  have hit : iterpage values false { top := top, skip := skip, topmax := none, skiptoken := token, nextSkiptoken := none } =
      ((match top with
        | none => values.drop (skip.getD 0 + a)
        | some t => (values.drop (skip.getD 0 + a)).take t),
       { top := top, skip := skip, topmax := none, skiptoken := token, nextSkiptoken := none }) := by
    have hf := fun x => first_at h top skip none x
    unfold iterpage
    cases top with
    | none =>
      have hp := pageLoop_none (skip.getD 0 + a) values 0
      simp only [Int.natCast_add, Nat.sub_zero] at hp hf
      have h0 : ((0 : Nat) : Int) = 0 := rfl
      rw [h0] at hp
      simp [Page.limit, hf, hp]
    | some t =>
      by_cases ht' : t = 0
      · simp [ht']
      · have hp := pageLoop_page (skip.getD 0 + a) t values
        simp only [Int.natCast_add] at hp hf
        simp [Page.limit, hf, hp, ht', page]
  simp only [feedJson, inJson, Page.set, hit]
  by_cases hv : version < 2
  · rw [if_pos hv]; exact ⟨rfl, rfl⟩
  · rw [if_neg hv]; exact ⟨rfl, rfl⟩

/-- The count of an answer in JSON is the number of all entities, whatever the page; it is there exactly if it was asked for, in
version 2. -/
theorem json_count (version : Nat) (values : List E) (top skip : Option Nat) (token : Option Str) (inlineCount : Bool) :
    (feedJson version values top skip token inlineCount).count =
      if inlineCount = true ∧ 2 ≤ version then some values.length else none := by
  simp only [feedJson, inJson]
  by_cases hv : version < 2
  · rw [if_pos hv, if_neg (by omega)]
  · rw [if_neg hv]
    cases inlineCount with
    | true => rw [if_pos rfl, if_pos ⟨rfl, by omega⟩]
    | false => rw [if_neg (by decide), if_neg (fun h => nomatch h.1)]

/-- No limit on the size of answers holds in JSON: every collection that is larger than what the server allows is sent as a whole. -/
theorem json_limit_refuted (topmax version : Nat) (values : List E) (h : topmax < values.length) (inlineCount : Bool) :
    topmax < (feedJson version values none none none inlineCount).entries.length := by
  rw [(json_complete version values none none none 0 (.inl ⟨rfl, rfl⟩) inlineCount).1]
  simpa using h

/-- In XML the limit holds. -/
theorem atom_limit (topmax : Nat) (hm : 0 < topmax) (values : List E) (top skip : Option Nat) (token : Option Str) (a : Nat)
    (h : Token token a) : (feed topmax values top skip token).1.length ≤ topmax := by
  by_cases ht : top = some 0
  · subst ht
    simp [feed, iterpage, Page.set]
  · rw [feed_at topmax hm values top skip token a h ht]
    simp only [page, List.length_take]
    have : min (top.getD topmax) topmax ≤ topmax := Nat.min_le_right _ _
    omega

/-- Links in XML are not paged: whoever asks for fewer links than there are gets all of them, and so does whoever skips some. -/
theorem links_xml_refuted (values : List E) (t k : Nat) (ht : t < values.length) (hk : 0 < k) (inlineCount : Bool) :
    (linksXml values (some t) none none inlineCount).entries ≠ (feedJson 2 values (some t) none none inlineCount).entries ∧
    (linksXml values none (some k) none inlineCount).entries ≠ (feedJson 2 values none (some k) none inlineCount).entries ∧
    (linksXml values none none none true).count ≠ (feedJson 2 values none none none true).count := by
  rw [(json_complete 2 values (some t) none none 0 (.inl ⟨rfl, rfl⟩) inlineCount).1,
    (json_complete 2 values none (some k) none 0 (.inl ⟨rfl, rfl⟩) inlineCount).1, json_count]
  refine ⟨fun h => ?_, fun h => ?_, fun h => nomatch h⟩
  · have := congrArg List.length h
    simp [linksXml] at this
    omega
  · have := congrArg List.length h
    simp [linksXml] at this
    omega

end Verif.Props.Feeds
