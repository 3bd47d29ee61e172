import Verif.Props.ManifestXml

/-!
# C29: educational descriptions in written metadata, and what the writers get wrong (C78)
-/

set_option linter.unusedVariables false

namespace Verif.Props

open Verif Verif.Py Verif.Spec Verif.XmlUtils Verif.ItemXml Verif.ManifestXml

/-! ### Finding elements in a laid out document -/

/-- An element with the given name. -/
def named (n : String) (k : Node) : Bool := match k with | .chr _ => false | .elem m _ _ => m == n.toList

theorem inside_elem (n : String) (m : Str) (as : List (Str × Str)) (ks : List Node) :
    inside n (.elem m as ks) = ks.filter (named n) := rfl

theorem inside_el (n m : String) (ks : List Node) : inside n (el m ks) = ks.filter (named n) := rfl

theorem named_laid {n : String} {x y : Node} (h : LaidOut x y) : named n x = named n y := by
  cases h <;> rfl

theorem filter_laid {n : String} {ks ks' : List Node} (h : LaidOuts ks ks') :
    LaidOuts (ks.filter (named n)) (ks'.filter (named n)) := by
  induction ks generalizing ks' with
  | nil => cases h; exact .nil
  | cons x ks ih =>
    cases h with
    | white c hc h => exact ih h
    | @cons _ y _ ks' hx h =>
      rw [List.filter_cons, List.filter_cons, named_laid hx]
      by_cases hn : named n y = true
      · rw [if_pos hn, if_pos hn]; exact .cons hx (ih h)
      · rw [if_neg hn, if_neg hn]; exact ih h

theorem filter_chars (n : String) (s : Str) : (chars s).filter (named n) = [] := by
  induction s with
  | nil => rfl
  | cons c t ih => exact ih

theorem inside_laid {n : String} {x y : Node} (h : LaidOut x y) : LaidOuts (inside n x) (inside n y) := by
  cases h with
  | text m as s hm => rw [inside_elem, filter_chars]; exact .nil
  | elems m as hm h => exact filter_laid h

theorem inside_noChr {n : String} {x : Node} : ∀ c, .chr c ∉ inside n x := by
  intro c hc
  match x with
  | .chr _ => simp [inside] at hc
  | .elem m as ks =>
    rw [inside_elem, List.mem_filter] at hc
    exact absurd hc.2 (by simp [named])

theorem descend_noChr (path : List String) (x : Node) (hx : ∀ c, x ≠ .chr c) : ∀ c, .chr c ∉ descend path x := by
  intro c hc
  induction path generalizing x with
  | nil => simp [descend] at hc; exact hx c hc.symm
  | cons n ns ih =>
    rw [descend, List.mem_flatMap] at hc
    obtain ⟨y, hy, hc⟩ := hc
    exact ih y (fun d e => inside_noChr d (e ▸ hy)) hc

theorem descend_laid (path : List String) {x y : Node} (h : LaidOut x y) : LaidOuts (descend path x) (descend path y) := by
  induction path generalizing x y with
  | nil => exact .cons h .nil
  | cons n ns ih =>
    rw [descend, descend]
    have k := inside_laid (n := n) h
    have kc := inside_noChr (n := n) (x := x)
    generalize inside n x = xs at k kc
    generalize inside n y = ys at k
    induction xs generalizing ys with
    | nil => cases k; exact .nil
    | cons a xs ih' =>
      cases k with
      | white c hc k => exact absurd (List.mem_cons_self) (kc c)
      | cons ha k =>
        rw [List.flatMap_cons, List.flatMap_cons]
        exact laidOuts_append (ih ha) (ih' (fun c hc => kc c (List.mem_cons_of_mem _ hc)) _ k)

theorem texts_laid {xs ys : List Node} (h : LaidOuts xs ys) (hc : ∀ c, .chr c ∉ xs)
    (hy : ∀ y ∈ ys, ∃ n as ks, y = .elem n as ks ∧ n ∈ textElements) : xs = ys := by
  induction xs generalizing ys with
  | nil => cases h; rfl
  | cons x xs ih =>
    cases h with
    | white c _ h => exact absurd (List.mem_cons_self) (hc c)
    | @cons _ y _ ys hx h =>
      have := ih h (fun c k => hc c (List.mem_cons_of_mem _ k)) fun y hy' => hy y (List.mem_cons_of_mem _ hy')
      subst this
      obtain ⟨n, as, ks, rfl, hn⟩ := hy _ List.mem_cons_self
      cases hx with
      | text => rfl
      | elems _ _ hn' _ => exact absurd hn hn'

/-! ### The educational elements of the tree -/

theorem named_el (n m : String) (ks : List Node) : named n (el m ks) = (m.toList == n.toList) := rfl

theorem filter_map_el {α : Type} (n m : String) (l : List α) (g : α → List Node) :
    (l.map fun x => el m (g x)).filter (named n) = if m.toList == n.toList then l.map fun x => el m (g x) else [] := by
  induction l with
  | nil => simp
  | cons x l ih =>
    rw [List.map_cons, List.filter_cons, ih, named_el]
    split <;> rfl

theorem filter_vocab (n m : String) (l : List Vocab) (h : (m.toList == n.toList) = false) :
    (l.map (vocabTree m)).filter (named n) = [] := by
  have : l.map (vocabTree m) = l.map fun v => el m [el "imsmd:source" [langTree v.1], el "imsmd:value" [langTree v.2]] := rfl
  rw [this, filter_map_el, h]
  rfl

theorem inside_lang (d : LangString) : inside "imsmd:langstring" (el "imsmd:description" [langTree d]) = [langTree d] := by
  have : named "imsmd:langstring" (langTree d) = true := by
    have : named "imsmd:langstring" (langTree d) = ("imsmd:langstring".toList == "imsmd:langstring".toList) := rfl
    rw [this, beq_self_eq_true]
  rw [inside_el, List.filter_cons, if_pos this]
  rfl

theorem descend_descr (x : Node) : descend ["imsmd:description", "imsmd:langstring"] x =
    (inside "imsmd:description" x).flatMap fun d => inside "imsmd:langstring" d := by
  simp only [descend]
  congr 1
  funext d
  induction inside "imsmd:langstring" d with
  | nil => rfl
  | cons y ys ih => rw [List.flatMap_cons, ih]; rfl

theorem educational_descr (e : Educational) :
    (educationalTrees e).flatMap (descend ["imsmd:description", "imsmd:langstring"]) = e.description.map langTree := by
  have start : (e.context.map (vocabTree "imsmd:context") ++ e.difficulty.toList.map (vocabTree "imsmd:difficulty")).filter
      (named "imsmd:description") = [] := by
    rw [List.filter_append, filter_vocab _ _ _ (by decide +kernel), filter_vocab _ _ _ (by decide +kernel)]
    rfl
  have one : ∀ d : LangString, named "imsmd:description" (el "imsmd:description" [langTree d]) = true := by
    intro d
    rw [named_el, beq_self_eq_true]
  rw [educationalTrees]
  match e.description with
  | [] =>
    simp only [-String.reduceToList]
    rw [List.flatMap_cons, descend_descr, inside_el, start]
    rfl
  | d :: ds =>
    simp only [-String.reduceToList]
    rw [List.flatMap_cons, descend_descr, inside_el, List.filter_append, start, List.nil_append, List.filter_cons,
      if_pos (one d), List.filter_nil, List.flatMap_cons, List.flatMap_nil, inside_lang, List.map_cons]
    simp only [-String.reduceToList, List.append_nil, List.cons_append, List.nil_append]
    congr 1
    induction ds with
    | nil => rfl
    | cons d' ds ih =>
      rw [List.map_cons, List.flatMap_cons, ih, List.map_cons, descend_descr, inside_el, List.filter_cons, if_pos (one d'),
        List.filter_nil, List.flatMap_cons, List.flatMap_nil, inside_lang]
      rfl

theorem xmlText_lang (d : LangString) : xmlText (langTree d) = d.text := by
  rw [langTree, xmlText]
  exact xmlTexts_chars d.text

/-- Elements whose names are not `n`. -/
def Others (n : String) (ks : List Node) : Prop := ks.filter (named n) = []

theorem lom_descr {ks : List Node} (l : Lom) (hk : Others "imsmd:educational" ks) :
    descend ["imsmd:educational", "imsmd:description", "imsmd:langstring"]
      (el "imsmd:lom" (ks ++ l.educational.flatMap educationalTrees)) =
    l.educational.flatMap fun e => e.description.map langTree := by
  have all : ∀ es : List Educational, (es.flatMap educationalTrees).filter (named "imsmd:educational") =
      es.flatMap educationalTrees := by
    intro es
    rw [List.filter_eq_self]
    intro x hx
    rw [List.mem_flatMap] at hx
    obtain ⟨e, -, hx⟩ := hx
    rw [educationalTrees] at hx
    revert hx
    match e.description with
    | [] =>
      intro hx
      simp only [-String.reduceToList, List.mem_singleton] at hx
      rw [hx, named_el, beq_self_eq_true]
    | d :: ds =>
      intro hx
      simp only [-String.reduceToList, List.mem_cons, List.mem_map] at hx
      rcases hx with hx | ⟨d', -, hx⟩
      · rw [hx, named_el, beq_self_eq_true]
      · rw [← hx, named_el, beq_self_eq_true]
  rw [descend, inside_el, List.filter_append, hk, List.nil_append, all, List.flatMap_assoc]
  congr 1
  funext e
  exact educational_descr e

theorem writes_some {α : Type} {l : List α} {f : α → Str} (h : ∀ x ∈ l, ∃ ys, Writes (f x) ys) : ∃ ys, Writes (l.flatMap f) ys := by
  induction l with
  | nil => exact ⟨_, writes_nil⟩
  | cons x l ih =>
    obtain ⟨ys, h1⟩ := h x (by simp)
    obtain ⟨zs, h2⟩ := ih fun y hy => h y (by simp [hy])
    rw [List.flatMap_cons]
    exact ⟨_, writes_append h1 h2⟩

theorem identifier_some {i : Identifier} (h : OptOk TextOk i.entry) : ∃ ys, Writes (writeIdentifier imsmd i) ys := by
  have he := reads_xmlOpt h
  rw [writeIdentifier]
  by_cases hc : given? i.catalog = true
  · rw [if_pos hc]
    have hcat : Writes (tag "\n\t<" imsmd "catalog" ++ (xmlOpt i.entry ++ tag "</" imsmd "catalog"))
        [el "imsmd:catalog" (chars (i.entry.getD []))] := writes_text "imsmd:catalog" ['\n', '\t'] (by decide +kernel) he
    have hen : ∃ ys, Writes (if given? i.entry then
        tag "\n\t<" imsmd "entry" ++ (tag "<" imsmd "langstring" ++ (xmlOpt i.entry ++ (tag "</" imsmd "langstring" ++
          tag "</" imsmd "entry")))
       else []) ys := by
      by_cases hg : given? i.entry = true
      · rw [if_pos hg]
        have hls : Writes (tag "<" imsmd "langstring" ++ (xmlOpt i.entry ++ tag "</" imsmd "langstring"))
            [el "imsmd:langstring" (chars (i.entry.getD []))] := writes_text "imsmd:langstring" [] (by decide +kernel) he
        have := writes_block (op := tag "\n\t<" imsmd "entry") (cl := tag "</" imsmd "entry") "imsmd:entry"
          ['\n', '\t'] [] (by decide +kernel) hls
        simp only [-String.reduceToList, List.append_assoc] at this
        exact ⟨_, this⟩
      · rw [if_neg hg]; exact ⟨_, writes_nil⟩
    obtain ⟨ys, hen⟩ := hen
    have := writes_block (op := tag "\n<" imsmd "catalogentry") (cl := tag "\n</" imsmd "catalogentry")
      "imsmd:catalogentry" ['\n'] ['\n'] (by decide +kernel) (writes_append hcat hen)
    simp only [-String.reduceToList, List.append_assoc] at this
    exact ⟨_, this⟩
  · rw [if_neg hc]
    exact ⟨_, writes_text "imsmd:identifier" ['\n'] (by decide +kernel) he⟩

theorem general_some {g : General} (h : GeneralTexts g) : ∃ ks, Writes (writeGeneral imsmd g) [el "imsmd:general" ks] := by
  obtain ⟨h1, h2, h3, h4⟩ := h
  obtain ⟨ys, k1⟩ := writes_some (l := g.identifier) fun i hi => identifier_some (h1 i hi)
  have k2 := writes_option g.title (writeIn imsmd "title") (fun t => el "imsmd:title" [langTree t]) fun t ht => writes_title (h2 t ht)
  have k3 := writes_map (l := g.description) (f := writeIn imsmd "description")
    (g := fun d => el "imsmd:description" [langTree d]) fun d hd => writes_description (h3 d hd)
  have k4 := writes_map (l := g.keyword) (f := writeIn imsmd "keyword")
    (g := fun d => el "imsmd:keyword" [langTree d]) fun d hd => writes_keyword (h4 d hd)
  have := writes_block (op := tag "\n<" imsmd "general") (cl := tag "\n</" imsmd "general") "imsmd:general" ['\n'] ['\n']
    (by decide +kernel) (writes_append k1 (writes_append k2 (writes_append k3 k4)))
  rw [writeGeneral]
  simp only [-String.reduceToList, List.append_assoc] at this
  exact ⟨_, this⟩

theorem lom_some {l : Lom} (h : LomTexts l) : ∃ ks, Others "imsmd:educational" ks ∧
    Writes (writeLom imsmd l) [el "imsmd:lom" (ks ++ l.educational.flatMap educationalTrees)] := by
  have k1 : ∃ ks, Others "imsmd:educational" ks ∧ Writes (ifSome l.general (writeGeneral imsmd)) ks := by
    rcases hg : l.general with _ | g
    · exact ⟨[], rfl, writes_nil⟩
    · obtain ⟨ks, k⟩ := general_some (h.1 g hg)
      refine ⟨_, ?_, k⟩
      have : named "imsmd:educational" (el "imsmd:general" ks) = false := by rw [named_el]; decide +kernel
      rw [Others, List.filter_cons, this]
      rfl
  obtain ⟨ks, ho, k1⟩ := k1
  have k2 := writes_option l.lifecycle (writeLifecycle imsmd) lifecycleTree fun g hg => writes_lifecycle (h.2.1 g hg)
  have k3 := writes_flatMap (l := l.educational) fun e he => writes_educational (h.2.2 e he)
  have := writes_block (op := tag "\n<" imsmd "lom") (cl := tag "\n</" imsmd "lom") "imsmd:lom"
    ['\n'] ['\n'] (by decide +kernel) (writes_append k1 (writes_append k2 k3))
  refine ⟨ks ++ l.lifecycle.toList.map lifecycleTree, ?_, ?_⟩
  · have e : (l.lifecycle.toList.map lifecycleTree).filter (named "imsmd:educational") = [] := by
      rcases l.lifecycle with _ | c
      · rfl
      · have : named "imsmd:educational" (lifecycleTree c) = false := by
          rw [lifecycleTree, named_el]; decide +kernel
        rw [Option.toList_some, List.map_cons, List.map_nil, List.filter_cons, this]
        rfl
    rw [Others] at ho ⊢
    rw [List.filter_append, ho, e]
    rfl
  · rw [writeLom]
    shaped this

theorem texts_langs (ls : List LangString) : (ls.map langTree).map xmlText = ls.map (·.text) := by
  rw [List.map_map]
  congr 1
  funext d
  exact xmlText_lang d

theorem langs_text {ls : List LangString} : ∀ y ∈ ls.map langTree, ∃ n as ks, y = .elem n as ks ∧ n ∈ textElements := by
  intro y hy
  rw [List.mem_map] at hy
  obtain ⟨d, -, rfl⟩ := hy
  exact ⟨_, _, _, rfl, by decide +kernel⟩

theorem flatMap_descr (es : List Educational) :
    (es.flatMap fun e => e.description.map langTree) = (es.flatMap (·.description)).map langTree := by
  rw [List.map_flatMap]

theorem descr_texts (es : List Educational) :
    (es.flatMap fun e => e.description.map langTree).map xmlText = es.flatMap fun e => e.description.map (·.text) := by
  rw [flatMap_descr, texts_langs, List.map_flatMap]

/-- **C29.** The metadata written for any LOM whose texts can be written (`LomTexts`: legal characters,
no carriage returns, no quotes or line breaks in languages) can be read, and hold every educational
description, exactly once and in order, whatever the number of descriptions and of educational
categories.  What is missing for the full claim is false: see `description_unreadable`. -/
theorem descriptions_written_partial (l : Lom) (h : LomTexts l) :
    (∃ xs, Reads (writeLom imsmd l) xs) ∧
    ∀ xs, Reads (writeLom imsmd l) xs → ∀ n as, descriptionsRead (.elem n as xs) = descriptionsOf l := by
  obtain ⟨ks, ho, ys, hr, hl⟩ := lom_some h
  refine ⟨⟨ys, hr⟩, ?_⟩
  intro xs hx n as
  have := reads_unique hx hr
  subst this
  have e : descriptionsRead (.elem n as xs) = descriptionsRead (.elem "metadata".toList as xs) := rfl
  have hlaid : LaidOut (.elem "metadata".toList as xs)
      (.elem "metadata".toList as [el "imsmd:lom" (ks ++ l.educational.flatMap educationalTrees)]) :=
    .elems _ _ (by decide +kernel) hl
  have k := descend_laid ["imsmd:lom", "imsmd:educational", "imsmd:description", "imsmd:langstring"] hlaid
  have kc := descend_noChr ["imsmd:lom", "imsmd:educational", "imsmd:description", "imsmd:langstring"]
    (.elem "metadata".toList as xs) (by intro c hc; cases hc)
  rw [e, descriptionsRead, descriptionsOf, ← descr_texts]
  have hf : descend ["imsmd:lom", "imsmd:educational", "imsmd:description", "imsmd:langstring"]
      (.elem "metadata".toList as [el "imsmd:lom" (ks ++ l.educational.flatMap educationalTrees)]) =
      l.educational.flatMap fun e => e.description.map langTree := by
    have hn : named "imsmd:lom" (el "imsmd:lom" (ks ++ l.educational.flatMap educationalTrees)) = true := by
      rw [named_el, beq_self_eq_true]
    rw [descend, inside_elem, List.filter_cons, if_pos hn, List.filter_nil, List.flatMap_cons, List.flatMap_nil,
      List.append_nil]
    exact lom_descr l ho
  rw [hf] at k
  rw [texts_laid k kc (by rw [flatMap_descr]; exact langs_text)]

/-! ### The same for whole manifests -/

theorem eq_of_laid {α : Type} {xs ys : List Node} (f : Node → α) (h : LaidOuts xs ys) (hc : ∀ c, .chr c ∉ xs)
    (hf : ∀ x y, y ∈ ys → LaidOut x y → f x = f y) : xs.map f = ys.map f := by
  induction xs generalizing ys with
  | nil => cases h; rfl
  | cons x xs ih =>
    cases h with
    | white c _ h => exact absurd (List.mem_cons_self) (hc c)
    | @cons _ y _ ys hx h =>
      rw [List.map_cons, List.map_cons, hf x y List.mem_cons_self hx,
        ih h (fun c k => hc c (List.mem_cons_of_mem _ k)) fun x y hy => hf x y (List.mem_cons_of_mem _ hy)]

theorem descend_one (n : String) (x : Node) : descend [n] x = inside n x := by
  rw [descend]
  induction inside n x with
  | nil => rfl
  | cons y ys ih => rw [List.flatMap_cons, ih]; rfl

theorem attr_laid {x y : Node} (n : String) (h : LaidOut x y) : attr n x = attr n y := by
  cases h <;> rfl

theorem resources_of_tree (mid : Str) (p : Package) :
    descend ["resources", "resource"] (manifestTree mid p) = p.resources.map resourceTree := by
  rw [descend]
  have e : inside "resources" (manifestTree mid p) =
      if p.resources = [] then [] else [el "resources" (p.resources.map resourceTree)] := by
    rw [manifestTree, inside_elem, List.filter_append, List.filter_append]
    have e1 : ∀ l : Lom, named "resources" (el "metadata" (schemaTrees ++ [lomTree l])) = false := by
      intro l; rw [named_el]; decide +kernel
    have e2 : named "resources" (el "organizations" []) = false := by rw [named_el]; decide +kernel
    have e3 : named "resources" (el "resources" (p.resources.map resourceTree)) = true := by rw [named_el, beq_self_eq_true]
    have e4 : (p.lom.toList.map fun l => el "metadata" (schemaTrees ++ [lomTree l])).filter (named "resources") = [] := by
      rcases p.lom with _ | l
      · rfl
      · rw [Option.toList_some, List.map_cons, List.map_nil, List.filter_cons, e1]; rfl
    rw [e4, List.filter_cons, e2]
    by_cases h : p.resources = []
    · rw [if_pos h]; rfl
    · rw [if_neg h, List.filter_cons, if_pos e3]; rfl
  rw [e]
  have all : (p.resources.map resourceTree).filter (named "resource") = p.resources.map resourceTree := by
    rw [List.filter_eq_self]
    intro x hx
    rw [List.mem_map] at hx
    obtain ⟨r, -, rfl⟩ := hx
    have : named "resource" (resourceTree r) = ("resource".toList == "resource".toList) := rfl
    rw [this, beq_self_eq_true]
  by_cases h : p.resources = []
  · rw [if_pos h, h]; rfl
  · rw [if_neg h, List.flatMap_cons, List.flatMap_nil, List.append_nil, descend_one, inside_el, all]

theorem filter_resource (r : Resource) (n : String) (h : n = "metadata" ∨ n = "file") :
    inside n (resourceTree r) = if n = "file" then r.files.map fileTree
      else if r.lom.isNone && r.qtiMD.isNone then [] else [el "metadata" (r.lom.toList.map lomTree ++ r.qtiMD.toList.map qtiTree)] := by
  have ef : ∀ f : File, named n (fileTree f) = ("file".toList == n.toList) := fun f => rfl
  have em : ∀ ks, named n (el "metadata" ks) = ("metadata".toList == n.toList) := fun ks => rfl
  have hfiles : (r.files.map fileTree).filter (named n) = if n = "file" then r.files.map fileTree else [] := by
    by_cases hn : n = "file"
    · rw [if_pos hn, List.filter_eq_self]
      intro x hx
      rw [List.mem_map] at hx
      obtain ⟨f, -, rfl⟩ := hx
      rw [ef, hn, beq_self_eq_true]
    · rw [if_neg hn, List.filter_eq_nil_iff]
      intro x hx
      rw [List.mem_map] at hx
      obtain ⟨f, -, rfl⟩ := hx
      rw [ef]
      rcases h with rfl | rfl
      · decide +kernel
      · exact absurd rfl hn
  unfold resourceTree
  rw [inside_elem, List.filter_append, hfiles]
  by_cases hk : (r.lom.isNone && r.qtiMD.isNone) = true
  · rw [if_pos hk]
    by_cases hn : n = "file"
    · rw [if_pos hn]; rfl
    · rw [if_neg hn]; rfl
  · rw [if_neg hk, List.filter_cons, em]
    by_cases hn : n = "file"
    · subst hn
      have : ("metadata".toList == "file".toList) = false := by decide +kernel
      rw [this, if_pos rfl, if_pos rfl]; rfl
    · have hn' : n = "metadata" := by rcases h with h | h; exact h; exact absurd h hn
      subst hn'
      rw [beq_self_eq_true, if_pos rfl, if_neg hn, if_neg hn]; rfl

/-- The identifiers, types and entry points of the resources, and the names of their files. -/
def contentsRead (root : Node) : List ((Option Str × Option Str × Option Str) × List (Option Str)) :=
  (descend ["resources", "resource"] root).map fun r =>
    ((attr "identifier" r, attr "type" r, attr "href" r), (descend ["file"] r).map (attr "href"))

theorem attr_resource (r : Resource) : attr "identifier" (resourceTree r) = some r.id ∧
    attr "type" (resourceTree r) = present r.type ∧ attr "href" (resourceTree r) = r.entryPoint.bind fun f => present f.href := by
  have e1 : ("identifier".toList == "type".toList) = false := by decide +kernel
  have e2 : ("identifier".toList == "href".toList) = false := by decide +kernel
  have e3 : ("type".toList == "href".toList) = false := by decide +kernel
  have e4 : ("href".toList == "type".toList) = false := by decide +kernel
  unfold resourceTree
  simp only [-String.reduceToList, attr]
  refine ⟨?_, ?_, ?_⟩ <;> rcases present r.type with _ | t <;> rcases (r.entryPoint.bind fun f => present f.href) with _ | h <;>
    simp only [-String.reduceToList, given, List.find?_cons, List.find?_nil, beq_self_eq_true, e1, e2, e3, e4, Option.map_some, Option.map_none]

theorem attr_file (f : File) : attr "href" (fileTree f) = present f.href := by
  unfold fileTree
  simp only [-String.reduceToList, attr]
  rcases present f.href with _ | h <;>
    simp only [-String.reduceToList, given, List.find?_cons, List.find?_nil, beq_self_eq_true, Option.map_some, Option.map_none]

/-- **C78.** Read back, the manifest lists exactly the resources of the package, in order, each with its
identifier, type, entry point and files. -/
theorem manifest_contents_partial (p : Package) (h : PackageOk p) (n : Str) (as : List (Str × Str)) (ks : List Node)
    (hr : ReadsDocument (writeManifest p) (.elem n as ks)) :
    contentsRead (.elem n as ks) = p.resources.map fun r =>
      ((some r.id, present r.type, r.entryPoint.bind fun f => present f.href), r.files.map fun f => present f.href) := by
  obtain ⟨mid, root, -, -, -, hl, hu⟩ := manifest_document_partial p h
  rw [hu n as ks hr, contentsRead]
  obtain ⟨n', as', ks', rfl⟩ := laidOut_elem hl
  have k := descend_laid ["resources", "resource"] hl
  rw [resources_of_tree] at k
  rw [eq_of_laid _ k (descend_noChr _ _ (by intro c hc; cases hc)), List.map_map]
  · refine List.map_congr_left ?_
    intro r _
    obtain ⟨a1, a2, a3⟩ := attr_resource r
    simp only [-String.reduceToList, Function.comp]
    rw [a1, a2, a3, descend_one, filter_resource r "file" (.inr rfl), if_pos rfl, List.map_map]
    congr 1
    refine List.map_congr_left ?_
    intro f _
    exact attr_file f
  · intro x y _ hxy
    show ((_, _, _), _) = ((_, _, _), _)
    rw [attr_laid "identifier" hxy, attr_laid "type" hxy, attr_laid "href" hxy]
    congr 1
    obtain ⟨n', as', ks', rfl⟩ := laidOut_elem hxy
    exact eq_of_laid _ (descend_laid ["file"] hxy) (descend_noChr _ _ (by intro c hc; cases hc))
      fun a b _ hab => attr_laid _ hab

/-- **C29.** In a manifest within the guards, every resource has exactly its own educational
descriptions, in order. -/
theorem manifest_descriptions_partial (p : Package) (h : PackageOk p) (n : Str) (as : List (Str × Str)) (ks : List Node)
    (hr : ReadsDocument (writeManifest p) (.elem n as ks)) :
    ((descend ["resources", "resource"] (.elem n as ks)).map fun r => (inside "metadata" r).flatMap descriptionsRead) =
      p.resources.map fun r => r.lom.toList.flatMap descriptionsOf := by
  obtain ⟨mid, root, -, -, -, hl, hu⟩ := manifest_document_partial p h
  rw [hu n as ks hr]
  obtain ⟨n', as', ks', rfl⟩ := laidOut_elem hl
  have k := descend_laid ["resources", "resource"] hl
  rw [resources_of_tree] at k
  have e : ∀ r : Node, (inside "metadata" r).flatMap descriptionsRead =
      (descend ["metadata", "imsmd:lom", "imsmd:educational", "imsmd:description", "imsmd:langstring"] r).map xmlText := by
    intro r
    rw [descend, List.map_flatMap]
    rfl
  have langs : ∀ r : Resource,
      descend ["metadata", "imsmd:lom", "imsmd:educational", "imsmd:description", "imsmd:langstring"] (resourceTree r) =
      r.lom.toList.flatMap fun l => l.educational.flatMap fun e => e.description.map langTree := by
    intro r
    rw [descend, filter_resource r "metadata" (.inl rfl), if_neg (by decide)]
    have hq : (r.qtiMD.toList.map qtiTree).filter (named "imsmd:lom") = [] := by
      rcases r.qtiMD with _ | q
      · rfl
      · have : named "imsmd:lom" (qtiTree q) = false := by rw [qtiTree, named_el]; decide +kernel
        rw [Option.toList_some, List.map_cons, List.map_nil, List.filter_cons, this]; rfl
    have hlom : ∀ l, named "imsmd:lom" (lomTree l) = true := by
      intro l; rw [lomTree, named_el, beq_self_eq_true]
    rcases hl : r.lom with _ | l
    · rw [Option.toList_none]
      rcases hq' : r.qtiMD with _ | q
      · rfl
      · rw [hq'] at hq
        rw [if_neg (by simp), List.flatMap_cons, List.flatMap_nil, List.append_nil, descend, inside_el, List.filter_append, hq]
        rfl
    · rw [if_neg (by simp), List.flatMap_cons, List.flatMap_nil, List.append_nil, descend, inside_el, List.filter_append, hq,
        Option.toList_some, List.map_cons, List.map_nil, List.filter_cons, if_pos (hlom l), List.filter_nil,
        List.append_nil, List.flatMap_cons, List.flatMap_nil, List.append_nil, List.flatMap_cons, List.flatMap_nil, List.append_nil]
      unfold lomTree
      refine lom_descr l ?_
      rw [Others, List.filter_append]
      have g1 : (l.general.toList.map generalTree).filter (named "imsmd:educational") = [] := by
        rcases l.general with _ | g
        · rfl
        · have : named "imsmd:educational" (generalTree g) = false := by rw [generalTree, named_el]; decide +kernel
          rw [Option.toList_some, List.map_cons, List.map_nil, List.filter_cons, this]; rfl
      have g2 : (l.lifecycle.toList.map lifecycleTree).filter (named "imsmd:educational") = [] := by
        rcases l.lifecycle with _ | g
        · rfl
        · have : named "imsmd:educational" (lifecycleTree g) = false := by rw [lifecycleTree, named_el]; decide +kernel
          rw [Option.toList_some, List.map_cons, List.map_nil, List.filter_cons, this]; rfl
      rw [g1, g2]; rfl
  simp only [-String.reduceToList, e]
  rw [eq_of_laid _ k (descend_noChr _ _ (by intro c hc; cases hc)), List.map_map]
  · refine List.map_congr_left ?_
    intro r _
    simp only [-String.reduceToList, Function.comp]
    rw [langs, List.map_flatMap]
    congr 1
    funext l
    exact descr_texts l.educational
  · intro x y hy hxy
    rw [List.mem_map] at hy
    obtain ⟨r, -, rfl⟩ := hy
    obtain ⟨n', as', ks', rfl⟩ := laidOut_elem hxy
    have k := descend_laid ["metadata", "imsmd:lom", "imsmd:educational", "imsmd:description", "imsmd:langstring"] hxy
    rw [texts_laid k (descend_noChr _ _ (by intro c hc; cases hc))]
    rw [langs]
    intro y hy
    rw [List.mem_flatMap] at hy
    obtain ⟨l, -, hy⟩ := hy
    rw [flatMap_descr] at hy
    exact langs_text y hy

/-! ### A package within the guards -/

/-- A package with one item: two educational descriptions, a contributor, an image. -/
def samplePackage : Package :=
  let general : General :=
    { identifier := [{ entry := some "Q&A <1>".toList }], title := some { text := "Sums".toList, lang := some "en".toList } }
  let lifecycle : Lifecycle :=
    { status := some ({ text := "LOMv1.0".toList }, { text := "final".toList }),
      contribute := [{ role := ({ text := "LOMv1.0".toList }, { text := "author".toList }),
                       entity := ["BEGIN:VCARD\r\nFN:A\r\nEND:VCARD\r\n".toList] }] }
  let educational : Educational :=
    { difficulty := some ({ text := "LOMv1.0".toList }, { text := "easy".toList }),
      description := [{ text := "first".toList }, { text := "second > first".toList }] }
  { lom := none, idSpace := ["manifest".toList],
    resources := [{ id := "Q1".toList, type := some "imsqti_item_xmlv2p1".toList,
                    lom := some { general := some general, lifecycle := some lifecycle, educational := [educational] },
                    qtiMD := some { interactionTypes := ["choiceInteraction".toList], toolVendor := some "A & B".toList },
                    files := [{ href := some "Q1.xml".toList }, { href := some "images/a%20b.png".toList }],
                    entryPoint := some { href := some "Q1.xml".toList } }] }

theorem cardOk_sample : CardOk "BEGIN:VCARD\r\nFN:A\r\nEND:VCARD\r\n".toList := by
  have e : "BEGIN:VCARD\r\nFN:A\r\nEND:VCARD\r\n".toList.all (fun c => plainChar c || c == '\r' || c == '\n') = true := by
    decide +kernel
  have e' : ("BEGIN:VCARD\r\nFN:A\r\nEND:VCARD\r\n".toList ++ [']', ']']).contains '>' = false := by decide +kernel
  generalize "BEGIN:VCARD\r\nFN:A\r\nEND:VCARD\r\n".toList = v at *
  constructor
  · intro c hc
    rw [List.all_eq_true] at e
    have := e c hc
    rw [Bool.or_eq_true, Bool.or_eq_true, beq_iff_eq, beq_iff_eq] at this
    rcases this with (k | rfl) | rfl
    · exact ((rawOk_plain (s := [c]) (by simp [k])).1 c (by simp)).1
    · simp [XmlChar]
    · simp [XmlChar]
  · intro ⟨a, b, h⟩
    rw [← h] at e'
    simp at e'

theorem langOk_plain {s : String} {l : Option Str} (h : s.toList.all (fun c => plainChar c || c == '<' || c == '&') = true)
    (hl : OptOk AttOk l) : LangOk ⟨s.toList, l⟩ := by
  refine ⟨?_, hl⟩
  intro c hc
  rw [List.all_eq_true] at h
  have := h c hc
  rw [Bool.or_eq_true, Bool.or_eq_true, beq_iff_eq, beq_iff_eq] at this
  rcases this with (k | rfl) | rfl
  · exact textOk_of_attOk (rawOk_plain (s := [c]) (by simp [k])).1 c (by simp)
  · exact ⟨by simp [XmlChar], by decide⟩
  · exact ⟨by simp [XmlChar], by decide⟩

theorem optOk_some {P : Str → Prop} {s : Str} (h : P s) : OptOk P (some s) := by
  intro t ht; injection ht with ht; rw [← ht]; exact h

theorem samplePackage_ok : PackageOk samplePackage := by
  have raw : ∀ s : String, s.toList.all plainChar = true → RawOk s.toList := fun s h => rawOk_plain h
  have att : ∀ s : String, s.toList.all plainChar = true → AttOk s.toList := fun s h => (rawOk_plain h).1
  have txt : ∀ s : String, s.toList.all (fun c => plainChar c || c == '<' || c == '&') = true → TextOk s.toList :=
    fun s h => (langOk_plain (l := none) h (optOk_none _)).1
  have lang : ∀ s : String, s.toList.all (fun c => plainChar c || c == '<' || c == '&') = true → LangOk ⟨s.toList, none⟩ :=
    fun s h => langOk_plain h (optOk_none _)
  refine ⟨optOk_none _, (by intro l h; cases h), ?_⟩
  intro r hr
  rw [samplePackage, List.mem_singleton] at hr
  subst hr
  refine ⟨raw _ (by decide +kernel), optOk_some (raw _ (by decide +kernel)), ?_, ?_, ?_, ?_, ?_⟩
  · intro f hf; injection hf with hf; subst hf; exact optOk_some (att "Q1.xml" (by decide +kernel))
  · intro l hl
    injection hl with hl
    subst hl
    refine ⟨⟨?_, ?_, ?_⟩, ?_⟩
    · intro g hg
      injection hg with hg
      subst hg
      refine ⟨?_, ?_, by simp, by simp⟩
      · intro i hi
        rw [List.mem_singleton] at hi
        subst hi
        exact optOk_some (txt "Q&A <1>" (by decide +kernel))
      · intro t ht
        injection ht with ht
        subst ht
        exact langOk_plain (s := "Sums") (by decide +kernel) (optOk_some (att "en" (by decide +kernel)))
    · intro c hc
      injection hc with hc
      subst hc
      refine ⟨?_, ?_⟩
      · intro s hs; injection hs with hs; subst hs
        exact ⟨lang "LOMv1.0" (by decide +kernel), lang "final" (by decide +kernel)⟩
      · intro c hc
        rw [List.mem_singleton] at hc
        subst hc
        refine ⟨⟨lang "LOMv1.0" (by decide +kernel), lang "author" (by decide +kernel)⟩, ?_⟩
        intro v hv
        rw [List.mem_singleton] at hv
        subst hv
        exact cardOk_sample
    · intro e he
      rw [List.mem_singleton] at he
      subst he
      refine ⟨by simp, ?_, ?_⟩
      · intro d hd; injection hd with hd; subst hd
        exact ⟨lang "LOMv1.0" (by decide +kernel), lang "easy" (by decide +kernel)⟩
      · intro d hd
        rw [List.mem_cons, List.mem_singleton] at hd
        rcases hd with rfl | rfl
        · exact lang "first" (by decide +kernel)
        · exact lang "second > first" (by decide +kernel)
    · intro g hg
      injection hg with hg
      subst hg
      intro i hi
      rw [List.mem_singleton] at hi
      subst hi
      intro h
      exact absurd rfl h
  · intro m hm
    injection hm with hm
    subst hm
    refine ⟨?_, optOk_none _, optOk_none _, optOk_none _, optOk_some (txt "A & B" (by decide +kernel))⟩
    intro t ht
    rw [List.mem_singleton] at ht
    subst ht
    exact txt "choiceInteraction" (by decide +kernel)
  · intro f hf
    rw [List.mem_cons, List.mem_singleton] at hf
    rcases hf with rfl | rfl
    · exact ⟨optOk_some (att "Q1.xml" (by decide +kernel)), by intro l h; cases h⟩
    · exact ⟨optOk_some (att "images/a%20b.png" (by decide +kernel)), by intro l h; cases h⟩
  · intro _
    exact .inl (by simp)

/-- The hypotheses of the theorems above hold for this package. -/
theorem samplePackage_read : ∃ mid root, mid ≠ "manifest".toList ∧ ReadsDocument (writeManifest samplePackage) root ∧
    LaidOut root (manifestTree mid samplePackage) := by
  obtain ⟨mid, root, -, h2, h3, h4, -⟩ := manifest_document_partial samplePackage samplePackage_ok
  refine ⟨mid, root, ?_, h3, h4⟩
  intro e
  exact (h2 rfl).2 (by rw [e, samplePackage]; exact List.mem_singleton.2 rfl)

/-! ### What the writers lose -/

/-- The QTI metadata of a resource that has neither files nor other metadata are not written. -/
theorem qti_metadata_lost (r : Resource) (h : r.files = []) (h' : r.lom = none) (m : Option QtiMD) :
    writeResource { r with qtiMD := m } = writeResource r := by
  unfold writeResource
  rw [h, h']
  rfl

/-- The name of a catalog is never written: the entry is written in its place. -/
theorem catalog_lost (ns : Str) (c c' : Str) (e : Option Str) (h : c ≠ []) (h' : c' ≠ []) :
    writeIdentifier ns ⟨some c, e⟩ = writeIdentifier ns ⟨some c', e⟩ := by
  match c, c' with
  | _ :: _, _ :: _ => rfl

/-- A vCard with `]]>` in it can end its element: one contributor is read as two. -/
theorem vcard_injects :
    ["a]]></imsmd:vcard></imsmd:centity>\n<imsmd:centity><imsmd:vcard><![CDATA[b".toList].flatMap (writeEntity imsmd) =
      ["a".toList, "b".toList].flatMap (writeEntity imsmd) := by
  decide +kernel

theorem nameStart_xmlChar {c : Char} (h : XmlNameStart c) : XmlChar c := by
  have n : ∀ e : Char, c = e → c.toNat = e.toNat := fun e h => by rw [h]
  simp only [XmlNameStart] at h
  simp only [XmlChar]
  rcases h with h | h | h | h | h | h | h | h | h | h | h | h | h | h | h | h
  · have := n _ h; simp at this; omega
  · omega
  · have := n _ h; simp at this; omega
  all_goals omega

theorem nameChar_xmlChar {c : Char} (h : XmlNameChar c) : XmlChar c := by
  have n : ∀ e : Char, c = e → c.toNat = e.toNat := fun e h => by rw [h]
  simp only [XmlNameChar] at h
  rcases h with h | h | h | h | h | h | h
  · exact nameStart_xmlChar h
  · have := n _ h; simp at this; simp only [XmlChar]; omega
  · have := n _ h; simp at this; simp only [XmlChar]; omega
  all_goals (simp only [XmlChar]; omega)

theorem ref_xmlChars {r : Str} {c : Char} (h : Ref r c) : ∀ d ∈ r, XmlChar d := by
  intro d hd
  cases h with
  | num ds c h1 h2 h3 h4 =>
    rw [List.mem_cons] at hd
    rcases hd with rfl | hd
    · simp [XmlChar]
    · have := h2 d hd
      simp only [XmlChar]; omega
  | _ =>
    simp only [List.mem_cons, List.not_mem_nil, or_false] at hd
    first
      | (rcases hd with rfl | rfl | rfl | rfl <;> simp [XmlChar])
      | (rcases hd with rfl | rfl | rfl <;> simp [XmlChar])
      | (rcases hd with rfl | rfl <;> simp [XmlChar])

theorem attVal_xmlChars {v val : Str} (h : AttVal v val) : ∀ d ∈ v, XmlChar d := by
  induction h with
  | nil => simp
  | chr c hc _ _ _ _ _ _ _ ih => intro d hd; rw [List.mem_cons] at hd; rcases hd with rfl | hd; exact hc; exact ih d hd
  | space c hc _ ih =>
    intro d hd
    rw [List.mem_cons] at hd
    rcases hd with rfl | hd
    · rcases hc with rfl | rfl <;> simp [XmlChar]
    · exact ih d hd
  | ref hr _ ih =>
    intro d hd
    simp only [List.cons_append, List.mem_cons, List.mem_append] at hd
    rcases hd with rfl | hd | rfl | hd
    · simp [XmlChar]
    · exact ref_xmlChars hr d hd
    · simp [XmlChar]
    · exact ih d hd

theorem attrs_xmlChars {a : Str} {as : List (Str × Str)} (h : Attrs a as) : ∀ d ∈ a, XmlChar d := by
  induction h with
  | nil => simp
  | cons hw hn hv _ ih =>
    intro d hd
    simp only [List.append_assoc, List.cons_append, List.mem_cons, List.mem_append] at hd
    rcases hd with hd | hd | rfl | rfl | hd | rfl | hd
    · rcases hw.2 d hd with rfl | rfl | rfl <;> simp [XmlChar]
    · exact nameChar_xmlChar (name_nameChars hn d hd)
    · simp [XmlChar]
    · simp [XmlChar]
    · exact attVal_xmlChars hv d hd
    · simp [XmlChar]
    · exact ih d hd

/-- Only legal characters occur in a text that can be read. -/
theorem reads_xmlChars {s : Str} {ns : List Node} (h : Reads s ns) : ∀ d ∈ s, XmlChar d := by
  induction h with
  | nil => simp
  | chr c hc _ _ _ _ _ ih => intro d hd; rw [List.mem_cons] at hd; rcases hd with rfl | hd; exact hc; exact ih d hd
  | ref hr _ ih =>
    intro d hd
    simp only [List.cons_append, List.mem_cons, List.mem_append] at hd
    rcases hd with rfl | hd | rfl | hd
    · simp [XmlChar]
    · exact ref_xmlChars hr d hd
    · simp [XmlChar]
    · exact ih d hd
  | cdata hd' _ _ ih =>
    intro d hd
    simp only [List.cons_append, List.mem_cons, List.mem_append] at hd
    rcases hd with rfl | rfl | rfl | rfl | rfl | rfl | rfl | rfl | rfl | hd | rfl | rfl | rfl | hd
    all_goals first | exact hd' d hd | exact ih d hd | simp [XmlChar]
  | comment hd' _ _ ih =>
    intro d hd
    simp only [List.cons_append, List.mem_cons, List.mem_append] at hd
    rcases hd with rfl | rfl | rfl | rfl | hd | rfl | rfl | rfl | hd
    all_goals first | exact (hd' d hd).1 | exact ih d hd | simp [XmlChar]
  | elem hn ha _ _ _ ihk ih =>
    intro d hd
    simp only [List.append_assoc, List.cons_append, List.mem_cons, List.mem_append] at hd
    rcases hd with rfl | hd | hd | rfl | hd | rfl | rfl | hd | rfl | hd
    all_goals first
      | exact nameChar_xmlChar (name_nameChars hn d hd) | exact attrs_xmlChars ha d hd | exact ihk d hd | exact ih d hd
      | simp [XmlChar]
  | empty hn ha _ _ ih =>
    intro d hd
    simp only [List.append_assoc, List.cons_append, List.mem_cons, List.mem_append] at hd
    rcases hd with rfl | hd | hd | rfl | rfl | hd
    all_goals first
      | exact nameChar_xmlChar (name_nameChars hn d hd) | exact attrs_xmlChars ha d hd | exact ih d hd | simp [XmlChar]

/-- A description with a control character makes the metadata unreadable: it is written as it is. -/
theorem description_unreadable : ∃ l : Lom, descriptionsOf l = [[Char.ofNat 1]] ∧ ∀ xs, ¬ Reads (writeLom imsmd l) xs := by
  refine ⟨{ educational := [{ description := [{ text := [Char.ofNat 1] }] }] }, by decide +kernel, ?_⟩
  intro xs h
  have := reads_xmlChars h (Char.ofNat 1) (by decide +kernel)
  simp [XmlChar] at this

end Verif.Props
