import Verif.Spec.XmlNames
import Verif.Lemmas.ContentPackage

/-!
# Reading names with prefixes
-/

namespace Verif.Props.Names
open Verif Verif.PyXml.Names

theorem declName_inj {p q : Str} (h : declName p = declName q) : p = q := by
  unfold declName at h
  by_cases hp : p = []
  · by_cases hq : q = []
    · rw [hp, hq]
    · rw [if_pos hp, if_neg hq] at h
      have := congrArg List.length h
      simp at this
  · by_cases hq : q = []
    · rw [if_neg hp, if_pos hq] at h
      have := congrArg List.length h
      simp at this
    · rw [if_neg hp, if_neg hq] at h
      exact List.append_cancel_left h

theorem declName_not_free (p : Str) : ¬ Free (declName p) := by
  unfold Free declName
  by_cases hp : p = []
  · rw [if_pos hp]; decide
  · rw [if_neg hp]
    intro h
    apply h
    rfl

theorem not_free_of_decl {a : Str} (h : IsDecl a) : ¬ Free a := by
  obtain ⟨p, rfl⟩ := h
  exact declName_not_free p

theorem declarations_cons_free {a v : Str} {l : List (Str × Str)} (h : Free a) : declarations ((a, v) :: l) = declarations l := by
  rw [declarations, if_neg h]

theorem declarations_cons_decl {p v : Str} {l : List (Str × Str)} : declarations ((declName p, v) :: l) = (p, v) :: declarations l := by
  rw [declarations, if_pos (Classical.not_not.1 (declName_not_free p))]
  unfold declName
  by_cases hp : p = []
  · rw [if_pos hp, if_pos (by decide), hp]
  · rw [if_neg hp, if_neg (by
      intro h
      rw [List.length_append] at h
      have : "xmlns:".toList.length = 6 := by decide
      omega)]
    rfl

/-- The declarations of a tag are what its attributes declare. -/
theorem get_declarations (p : Str) : ∀ (l : List (Str × Str)),
    (∀ e ∈ l, ¬ IsDecl e.1 → Free e.1) → get p (declarations l) = value (declName p) l
  | [], _ => rfl
  | (a, v) :: l, h => by
    have ih := get_declarations p l (fun e he => h e (List.mem_cons_of_mem _ he))
    by_cases hd : IsDecl a
    · obtain ⟨q, rfl⟩ := hd
      rw [declarations_cons_decl, PyXml.Names.get.eq_def, value]
      simp only
      by_cases hq : q = p
      · rw [if_pos hq, if_pos (by rw [hq])]
      · rw [if_neg hq, if_neg (fun e => hq (declName_inj e)), ih]
    · rw [declarations_cons_free (h (a, v) List.mem_cons_self hd), value, if_neg (fun e => hd ⟨p, e⟩), ih]

/-- The declarations in force are what is bound. -/
def Agree (scope : List (List (Str × Str))) (env : Env) : Prop := ∀ p, getNS p scope = env p

theorem agree_base : Agree [] Env.base := fun p => by
  unfold getNS Env.base searchNS
  rfl

theorem agree_extend {scope : List (List (Str × Str))} {env : Env} (h : Agree scope env) (attrs : List (Str × Str))
    (hp : ∀ e ∈ attrs, (IsDecl e.1 → e.2 ≠ [] ∧ e.2 ≠ noNS) ∧ (¬ IsDecl e.1 → Free e.1)) :
    Agree (declarations attrs :: scope) (env.extend attrs) := by
  intro p
  have hget := get_declarations p attrs (fun e he => (hp e he).2)
  have hne : ∀ (l : List (Str × Str)) (v : Str), value (declName p) l = some v → ∃ e ∈ l, IsDecl e.1 ∧ e.2 = v := by
    intro l
    induction l with
    | nil => intro v h; cases h
    | cons e l ih =>
      intro v h
      rw [value] at h
      by_cases he : e.1 = declName p
      · rw [if_pos he] at h
        cases h
        exact ⟨e, List.mem_cons_self, ⟨p, he⟩, rfl⟩
      · rw [if_neg he] at h
        obtain ⟨e', h1, h2⟩ := ih v h
        exact ⟨e', List.mem_cons_of_mem _ h1, h2⟩
  have hs := h p
  unfold getNS at hs ⊢
  unfold Env.extend
  by_cases hx : p = "xml".toList
  · rw [if_pos hx, if_pos hx]
  · rw [if_neg hx] at hs ⊢
    rw [if_neg hx, searchNS, hget]
    cases hv : value (declName p) attrs with
    | none => exact hs
    | some u =>
      cases u with
      | nil =>
        obtain ⟨e, he, hd, hev⟩ := hne attrs [] hv
        exact absurd hev ((hp e he).1 hd).1
      | cons c u => rfl

theorem split_plain {q : Str} (h : ':' ∉ q) : Py.split ':' q = [q] := Verif.CP.split_of_not_mem ':' q h

theorem split_prefixed {p l : Str} (hp : ':' ∉ p) (hl : ':' ∉ l) : Py.split ':' (p ++ ':' :: l) = [p, l] := by
  rw [Verif.CP.split_append, split_plain hp, split_plain hl]
  rfl

theorem free_prefix {p l : Str} (h : Free (p ++ ':' :: l)) : p ≠ "xmlns".toList := by
  rintro rfl
  exact h rfl

/-- What is looked up for a prefix of a tag. -/
theorem lookup_inner {scope : List (List (Str × Str))} {env : Env} {attrs : List (Str × Str)}
    (ha : Agree (declarations attrs :: scope) env)
    (hp : ∀ e ∈ attrs, (IsDecl e.1 → e.2 ≠ [] ∧ e.2 ≠ noNS) ∧ (¬ IsDecl e.1 → Free e.1)) (p : Str) (hx : p ≠ "xml".toList) :
    (match get p (declarations attrs) with
      | some u => some u
      | none => getNS p scope) = env p := by
  have := ha p
  unfold getNS at this ⊢
  rw [if_neg hx] at this ⊢
  rw [searchNS] at this
  cases hg : get p (declarations attrs) with
  | none => rw [hg] at this; exact this
  | some u =>
    rw [hg] at this
    cases u with
    | cons c u => exact this
    | nil =>
      exfalso
      have hv := get_declarations p attrs (fun e he => (hp e he).2)
      rw [hg] at hv
      have : ∀ (l : List (Str × Str)), (∀ e ∈ l, IsDecl e.1 → e.2 ≠ []) → value (declName p) l ≠ some [] := by
        intro l
        induction l with
        | nil => intro _ h; cases h
        | cons e l ih =>
          intro hl h
          rw [value] at h
          by_cases he : e.1 = declName p
          · rw [if_pos he] at h
            exact hl e List.mem_cons_self ⟨p, he⟩ (Option.some.inj h)
          · rw [if_neg he] at h
            exact ih (fun e he => hl e (List.mem_cons_of_mem _ he)) h
      exact this attrs (fun e he hd => ((hp e he).1 hd).1) hv.symm

section
variable {scope : List (List (Str × Str))} {env : Env} {attrs : List (Str × Str)}
  (ha : Agree (declarations attrs :: scope) env)
  (hp : ∀ e ∈ attrs, (IsDecl e.1 → e.2 ≠ [] ∧ e.2 ≠ noNS) ∧ (¬ IsDecl e.1 → Free e.1))
include ha

theorem env_xml : env "xml".toList = some xmlNS := by
  rw [← ha]
  rfl

include hp

theorem expand_element {q : Str} {n : Option Str × Str} (hf : Free q) (h : NameOf env q n) :
    expand (declarations attrs) scope q true = .ok n := by
  cases h with
  | plain hc =>
    have hq : q ≠ "xmlns".toList := by rintro rfl; exact hf rfl
    unfold expand
    rw [split_plain hc]
    simp only [if_neg hq, if_true]
    rw [← lookup_inner ha hp [] (by decide)]
    rfl
  | @prefixed p l u h1 h2 h3 h4 =>
    unfold expand
    rw [split_prefixed h2 h3]
    have hn := free_prefix hf
    by_cases hx : p = "xml".toList
    · simp only [if_pos hx]
      rw [hx, env_xml ha] at h4
      rw [← h4]
    · simp only [if_neg hx, if_neg hn]
      rw [← h4, ← lookup_inner ha hp p hx]
      rfl

theorem expand_attribute {q : Str} {n : Option Str × Str} (hf : Free q) (h : AttrOf env q n) :
    ∃ m, expand (declarations attrs) scope q false = .ok m ∧ (n = m ∧ n.1 ≠ none ∨ m = (some noNS, n.2) ∧ n.1 = none) := by
  cases h with
  | plain hc =>
    have hq : q ≠ "xmlns".toList := by rintro rfl; exact hf rfl
    refine ⟨(some noNS, q), ?_, .inr ⟨rfl, rfl⟩⟩
    unfold expand
    rw [split_plain hc]
    simp only [if_neg hq, Bool.false_eq_true, if_false]
  | @prefixed p l u h1 h2 h3 h4 =>
    refine ⟨(some u, l), ?_, .inl ⟨rfl, by simp⟩⟩
    unfold expand
    rw [split_prefixed h2 h3]
    have hn := free_prefix hf
    by_cases hx : p = "xml".toList
    · simp only [if_pos hx]
      rw [hx, env_xml ha] at h4
      rw [← h4]
    · simp only [if_neg hx, if_neg hn]
      rw [← h4, ← lookup_inner ha hp p hx]
      rfl
end

/-- Nothing that is bound is called `~`. -/
def NoTilde (env : Env) : Prop := ∀ p, env p ≠ some noNS

theorem noTilde_base : NoTilde Env.base := by
  intro p h
  unfold Env.base at h
  by_cases hp : p = "xml".toList
  · rw [if_pos hp] at h; exact absurd h (by decide)
  · rw [if_neg hp] at h; cases h

theorem value_mem {a v : Str} : ∀ {l : List (Str × Str)}, value a l = some v → (a, v) ∈ l
  | [], h => by cases h
  | e :: l, h => by
    rw [value] at h
    by_cases he : e.1 = a
    · rw [if_pos he] at h
      cases h
      rw [← he]
      exact List.mem_cons_self
    · rw [if_neg he] at h
      exact List.mem_cons_of_mem _ (value_mem h)

theorem noTilde_extend {env : Env} (h : NoTilde env) (attrs : List (Str × Str))
    (hp : ∀ e ∈ attrs, (IsDecl e.1 → e.2 ≠ [] ∧ e.2 ≠ noNS) ∧ (¬ IsDecl e.1 → Free e.1)) : NoTilde (env.extend attrs) := by
  intro p hv
  unfold Env.extend at hv
  by_cases hx : p = "xml".toList
  · rw [if_pos hx] at hv; exact absurd hv (by decide)
  · rw [if_neg hx] at hv
    cases hval : value (declName p) attrs with
    | none => rw [hval] at hv; exact h p hv
    | some u =>
      rw [hval] at hv
      have := ((hp _ (value_mem hval)).1 ⟨p, rfl⟩).2
      cases u with
      | nil => cases hv
      | cons c u => exact this (Option.some.inj hv)

theorem expandAttrs_mean {scope : List (List (Str × Str))} {env : Env} {attrs : List (Str × Str)}
    (ha : Agree (declarations attrs :: scope) env) (ht : NoTilde env)
    (hp : ∀ e ∈ attrs, (IsDecl e.1 → e.2 ≠ [] ∧ e.2 ≠ noNS) ∧ (¬ IsDecl e.1 → Free e.1))
    {l : List (Str × Str)} {as : List ((Option Str × Str) × Str)} (h : AttrsMean env l as) (hn : (as.map Prod.fst).Nodup)
    (hl : ∀ e ∈ l, (IsDecl e.1 → e.2 ≠ [] ∧ e.2 ≠ noNS) ∧ (¬ IsDecl e.1 → Free e.1)) :
    ∃ r, expandAttrs (declarations attrs) scope l = .ok r ∧ r.map (fun a => (attrTree a.1, a.2)) = as ∧
      (∀ e ∈ r, e.1.1 ≠ none) ∧ (r.map Prod.fst).Nodup := by
  induction h with
  | nil => exact ⟨[], rfl, rfl, by simp, List.nodup_nil⟩
  | @decl a v l r hd _ ih =>
    obtain ⟨x, h1, h2, h3, h4⟩ := ih hn (fun e he => hl e (List.mem_cons_of_mem _ he))
    refine ⟨x, ?_, h2, h3, h4⟩
    rw [expandAttrs, if_pos (Classical.not_not.1 (not_free_of_decl hd)), h1]
  | @attr a v n l r hd hat _ ih =>
    rw [List.map_cons, List.nodup_cons] at hn
    obtain ⟨x, h1, h2, h3, h4⟩ := ih hn.2 (fun e he => hl e (List.mem_cons_of_mem _ he))
    have hf := (hl (a, v) List.mem_cons_self).2 hd
    obtain ⟨m, hm, hmn⟩ := expand_attribute ha hp hf hat
    have htree : attrTree m = n := by
      rcases hmn with ⟨rfl, h⟩ | ⟨rfl, h⟩
      · unfold attrTree
        rw [if_neg]
        intro e
        cases hat with
        | plain => exact h rfl
        | prefixed _ _ _ hu => exact ht _ (hu.trans e)
      · unfold attrTree
        rw [if_pos rfl]
        exact Prod.ext h.symm rfl
    have hmx : ∀ e ∈ x, e.1 ≠ m := by
      intro e he hem
      apply hn.1
      rw [← h2, List.map_map]
      exact List.mem_map.2 ⟨e, he, by simp only [Function.comp, hem, htree]⟩
    refine ⟨(m, v) :: x, ?_, ?_, ?_, ?_⟩
    · rw [expandAttrs, if_neg hf, hm]
      simp only [bind, Except.bind, h1]
      rw [List.filter_eq_self.2]
      intro e he
      rw [decide_eq_true_iff]
      exact hmx e he
    · rw [List.map_cons, h2, htree]
    · intro e he
      rcases List.mem_cons.1 he with rfl | he
      · rcases hmn with ⟨rfl, h⟩ | ⟨rfl, h⟩
        · exact h
        · simp
      · exact h3 e he
    · rw [List.map_cons, List.nodup_cons]
      refine ⟨?_, h4⟩
      intro hm
      obtain ⟨e, he, hem⟩ := List.mem_map.1 hm
      exact hmx e he hem

mutual
theorem read_means : ∀ (raw : Raw) (scope : List (List (Str × Str))) (env : Env) (t : Tree), Agree scope env → NoTilde env →
    Means env raw t → raw.Plain → ∃ n, read scope raw = .ok n ∧ n.tree = t
  | .text s, _, _, _, _, _, h, _ => by
    cases h
    exact ⟨.text s, rfl, rfl⟩
  | .elem q attrs cs, scope, env, _, ha, ht, h, hpl => by
    rw [Raw.Plain] at hpl
    obtain ⟨hf, hp, hcs⟩ := hpl
    cases h with
    | @elem _ _ _ _ ns name as ts h1 h2 _ h3 h4 =>
      have ha' := agree_extend ha attrs hp
      have ht' := noTilde_extend ht attrs hp
      obtain ⟨r, hr, hrt, _⟩ := expandAttrs_mean ha' ht' hp h2 h3 hp
      obtain ⟨ns', hk, hkt⟩ := readAll_means cs _ _ ts ha' ht' h4 hcs
      refine ⟨.elem ns name r ⟨declarations attrs, inverse (declarations attrs)⟩ ns', ?_, ?_⟩
      · rw [PyXml.Names.read, hr]
        simp only [bind, Except.bind, expand_element ha' hp hf h1, hk]
      · rw [Node.tree, hrt, hkt]

theorem readAll_means : ∀ (rs : List Raw) (scope : List (List (Str × Str))) (env : Env) (ts : List Tree), Agree scope env → NoTilde env →
    MeanAll env rs ts → Raw.AllPlain rs → ∃ ns, readAll scope rs = .ok ns ∧ Node.trees ns = ts
  | [], _, _, _, _, _, h, _ => by
    cases h
    exact ⟨[], rfl, rfl⟩
  | r :: rs, scope, env, _, ha, ht, h, hpl => by
    rw [Raw.AllPlain] at hpl
    cases h with
    | cons h1 h2 =>
      obtain ⟨n, hn, hnt⟩ := read_means r scope env _ ha ht h1 hpl.1
      obtain ⟨ns, hns, hnst⟩ := readAll_means rs scope env _ ha ht h2 hpl.2
      refine ⟨n :: ns, ?_, by rw [Node.trees, hnt, hnst]⟩
      rw [readAll, hn]
      simp only [bind, Except.bind, hns]
end

/-- **Names are read as what they mean**: every tree of tags that has a meaning, in which no default namespace is removed. -/
theorem names_read (raw : Raw) (t : Tree) (h : Means Env.base raw t) (hp : raw.Plain) : ∃ n, read [] raw = .ok n ∧ n.tree = t :=
  read_means raw [] Env.base t agree_base noTilde_base h hp

end Verif.Props.Names
