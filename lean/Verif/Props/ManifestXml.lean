import Verif.Lemmas.ManifestXml
import Verif.Props.ContentPackage
import Verif.Props.ItemDoc

/-!
# C78 and C29: written manifests and their metadata
-/

set_option linter.unusedVariables false

namespace Verif.Props

open Verif Verif.Py Verif.Spec Verif.XmlUtils Verif.ItemXml Verif.ManifestXml

theorem writes_lang {l : LangString} (h : LangOk l) : Writes (writeLang imsmd l) [langTree l] := by
  have ha : Attrs (optAttr " xml:lang=\"" l.lang) (given [("xml:lang", present l.lang)]) :=
    optAttr_attrs _ "xml:lang" (by decide +kernel) h.2
  have := writes_open_text (op := "\n\t<".toList ++ (imsmd ++ "langstring".toList)) (cl := tag "</" imsmd "langstring")
    "imsmd:langstring" ['\n', '\t'] (by decide +kernel) ha (by simp) (reads_xmlString h.1)
  rw [writeLang, langTree]
  shaped this

theorem present_eq_none {o : Option Str} : present o = none ↔ given? o = false := by
  match o with
  | none => simp [present, given?]
  | some [] => simp [present, given?]
  | some (c :: t) => simp [present, given?]

theorem present_of_given {o : Option Str} (h : given? o = true) : ∃ s, o = some s ∧ present o = some s := by
  match o with
  | none => simp [given?] at h
  | some [] => simp [given?] at h
  | some (c :: t) => exact ⟨_, rfl, rfl⟩

theorem reads_xmlOpt {o : Option Str} (h : OptOk TextOk o) : Reads (xmlOpt o) (chars (o.getD [])) := by
  refine reads_xmlString ?_
  match o with
  | none => intro c hc; simp at hc
  | some s => exact h s rfl

theorem writes_identifier {i : Identifier} (h1 : OptOk TextOk i.entry)
    (h2 : present i.catalog ≠ none → i.catalog = i.entry) : Writes (writeIdentifier imsmd i) [identifierTree i] := by
  have he := reads_xmlOpt h1
  rw [writeIdentifier, identifierTree]
  by_cases hc : given? i.catalog = true
  · rw [if_pos hc]
    obtain ⟨c, h1, h2'⟩ := present_of_given hc
    have hce : i.entry = some c := by rw [← h2 (by rw [h2']; simp), h1]
    have hge : given? i.entry = true := by rw [hce, ← h1]; exact hc
    have h3 : present i.entry = some c := by rw [hce, ← h1, h2', h1]
    rw [if_pos hge, h2', h3]
    rw [hce] at he
    simp only [Option.getD_some] at he
    have hcat : Writes (tag "\n\t<" imsmd "catalog" ++ (xmlOpt (some c) ++ tag "</" imsmd "catalog"))
        [el "imsmd:catalog" (chars c)] := writes_text "imsmd:catalog" ['\n', '\t'] (by decide +kernel) he
    have hls : Writes (tag "<" imsmd "langstring" ++ (xmlOpt (some c) ++ tag "</" imsmd "langstring"))
        [el "imsmd:langstring" (chars c)] := writes_text "imsmd:langstring" [] (by decide +kernel) he
    have hen := writes_block (op := tag "\n\t<" imsmd "entry") (cl := tag "</" imsmd "entry") "imsmd:entry"
      ['\n', '\t'] [] (by decide +kernel) hls
    have := writes_block (op := tag "\n<" imsmd "catalogentry") (cl := tag "\n</" imsmd "catalogentry")
      "imsmd:catalogentry" ['\n'] ['\n'] (by decide +kernel) (writes_append hcat hen)
    rw [hce]
    shaped this
  · rw [if_neg hc]
    have hp : present i.catalog = none := present_eq_none.2 (by simpa using hc)
    rw [hp]
    exact writes_text "imsmd:identifier" ['\n'] (by decide +kernel) he

theorem writes_option {α : Type} (o : Option α) (f : α → Str) (g : α → Node) (h : ∀ x, o = some x → Writes (f x) [g x]) :
    Writes (ifSome o f) (o.toList.map g) := by
  match o with
  | none => exact writes_nil
  | some x => exact h x rfl

theorem writes_title {l : LangString} (h : LangOk l) : Writes (writeIn imsmd "title" l) [el "imsmd:title" [langTree l]] :=
  writes_block "imsmd:title" ['\n'] ['\n'] (by decide +kernel) (writes_lang h)

theorem writes_description {l : LangString} (h : LangOk l) :
    Writes (writeIn imsmd "description" l) [el "imsmd:description" [langTree l]] :=
  writes_block "imsmd:description" ['\n'] ['\n'] (by decide +kernel) (writes_lang h)

theorem writes_keyword {l : LangString} (h : LangOk l) :
    Writes (writeIn imsmd "keyword" l) [el "imsmd:keyword" [langTree l]] :=
  writes_block "imsmd:keyword" ['\n'] ['\n'] (by decide +kernel) (writes_lang h)

theorem writes_general {g : General} (h : GeneralTexts g) (hc : CatalogsOk g) : Writes (writeGeneral imsmd g) [generalTree g] := by
  obtain ⟨h1, h2, h3, h4⟩ := h
  have k1 := writes_map (l := g.identifier) fun i hi => writes_identifier (h1 i hi) (hc i hi)
  have k2 := writes_option g.title (writeIn imsmd "title") (fun t => el "imsmd:title" [langTree t]) fun t ht => writes_title (h2 t ht)
  have k3 := writes_map (l := g.description) (f := writeIn imsmd "description")
    (g := fun d => el "imsmd:description" [langTree d]) fun d hd => writes_description (h3 d hd)
  have k4 := writes_map (l := g.keyword) (f := writeIn imsmd "keyword")
    (g := fun d => el "imsmd:keyword" [langTree d]) fun d hd => writes_keyword (h4 d hd)
  have := writes_block (op := tag "\n<" imsmd "general") (cl := tag "\n</" imsmd "general") "imsmd:general" ['\n'] ['\n']
    (by decide +kernel) (writes_append k1 (writes_append k2 (writes_append k3 k4)))
  rw [writeGeneral, generalTree]
  shaped this

theorem writes_vocab {n m : String} {v : Vocab} (h : VocabOk v)
    (hn : (blockTag (tag "\n<" imsmd n) (tag "\n</" imsmd n) ['\n'] ['\n'] m.toList && decide (m.toList ∉ textElements)) = true) :
    Writes (writeVocab imsmd n v) [vocabTree m v] := by
  have k1 := writes_block (op := tag "\n<" imsmd "source") (cl := tag "\n</" imsmd "source") "imsmd:source" ['\n'] ['\n']
    (by decide +kernel) (writes_lang h.1)
  have k2 := writes_block (op := tag "\n<" imsmd "value") (cl := tag "\n</" imsmd "value") "imsmd:value" ['\n'] ['\n']
    (by decide +kernel) (writes_lang h.2)
  have := writes_block m ['\n'] ['\n'] hn (writes_append k1 k2)
  rw [writeVocab, vocabTree]
  shaped this

theorem writes_entity {v : Str} (h : CardOk v) :
    Writes (writeEntity imsmd v) [el "imsmd:centity" [el "imsmd:vcard" (chars (lineEnds v))]] := by
  have hc : Reads ("<![CDATA[".toList ++ (v ++ "]]>".toList)) (chars (lineEnds v)) := by
    have := Reads.cdata h.1 h.2 Reads.nil
    have e : "<![CDATA[".toList = ['<', '!', '[', 'C', 'D', 'A', 'T', 'A', '['] := by decide +kernel
    have e' : "]]>".toList = [']', ']', '>'] := by decide +kernel
    rw [e, e']
    simpa only [List.append_nil, List.cons_append, List.nil_append, List.append_assoc, chars] using this
  have k1 : Writes (tag "<" imsmd "vcard" ++ (("<![CDATA[".toList ++ (v ++ "]]>".toList)) ++ tag "</" imsmd "vcard"))
      [el "imsmd:vcard" (chars (lineEnds v))] := writes_text "imsmd:vcard" [] (by decide +kernel) hc
  have := writes_block (op := tag "\n<" imsmd "centity") (cl := tag "</" imsmd "centity") "imsmd:centity" ['\n'] []
    (by decide +kernel) k1
  rw [writeEntity]
  shaped this

theorem writes_contribute {c : Contribute} (h : ContributeOk c) : Writes (writeContribute imsmd c) [contributeTree c] := by
  have k1 := writes_vocab (n := "role") (m := "imsmd:role") h.1 (by decide +kernel)
  have k2 := writes_map (l := c.entity) (f := writeEntity imsmd)
    (g := fun v => el "imsmd:centity" [el "imsmd:vcard" (chars (lineEnds v))]) fun v hv => writes_entity (h.2 v hv)
  have := writes_block (op := tag "\n<" imsmd "contribute") (cl := tag "\n</" imsmd "contribute") "imsmd:contribute"
    ['\n'] ['\n'] (by decide +kernel) (writes_append k1 k2)
  rw [writeContribute, contributeTree]
  shaped this

theorem writes_lifecycle {l : Lifecycle} (h : LifecycleOk l) : Writes (writeLifecycle imsmd l) [lifecycleTree l] := by
  have k1 := writes_option l.status (writeVocab imsmd "status") (vocabTree "imsmd:status")
    fun s hs => writes_vocab (h.1 s hs) (by decide +kernel)
  have k2 := writes_map (l := l.contribute) fun c hc => writes_contribute (h.2 c hc)
  have := writes_block (op := tag "\n<" imsmd "lifecycle") (cl := tag "\n</" imsmd "lifecycle") "imsmd:lifecycle"
    ['\n'] ['\n'] (by decide +kernel) (writes_append k1 k2)
  rw [writeLifecycle, lifecycleTree]
  shaped this

theorem writes_educationalHead {e : Educational} (h : EducationalOk e) :
    Writes (writeEducationalHead imsmd e) [el "imsmd:educational" (e.context.map (vocabTree "imsmd:context") ++
      e.difficulty.toList.map (vocabTree "imsmd:difficulty") ++
      e.description.head?.toList.map fun d => el "imsmd:description" [langTree d])] := by
  have k1 := writes_map (l := e.context) (f := writeVocab imsmd "context") (g := vocabTree "imsmd:context")
    fun c hc => writes_vocab (h.1 c hc) (by decide +kernel)
  have k2 := writes_option e.difficulty (writeVocab imsmd "difficulty") (vocabTree "imsmd:difficulty")
    fun s hs => writes_vocab (h.2.1 s hs) (by decide +kernel)
  have k3 : Writes (match e.description with | [] => [] | d :: _ => writeIn imsmd "description" d)
      (e.description.head?.toList.map fun d => el "imsmd:description" [langTree d]) := by
    have h3 := h.2.2
    revert h3
    match e.description with
    | [] => intro _; exact writes_nil
    | d :: ds => intro h3; exact writes_description (h3 d (by simp))
  have := writes_block (op := tag "\n<" imsmd "educational") (cl := tag "\n</" imsmd "educational") "imsmd:educational"
    ['\n'] ['\n'] (by decide +kernel) (writes_append k1 (writes_append k2 k3))
  rw [writeEducationalHead]
  shaped this

theorem writes_educational {e : Educational} (h : EducationalOk e) : Writes (writeEducational imsmd e) (educationalTrees e) := by
  have k1 := writes_educationalHead h
  have k2 := writes_map (l := e.description.tail) (f := fun d => writeEducationalHead imsmd { description := [d] })
    (g := fun d => el "imsmd:educational" [el "imsmd:description" [langTree d]]) (by
      intro d hd
      exact writes_educationalHead ⟨by simp, by simp, by
        intro x hx
        simp only [List.mem_singleton] at hx
        subst hx
        exact h.2.2 x (List.mem_of_mem_tail hd)⟩)
  have k := writes_append k1 k2
  rw [writeEducational, educationalTrees]
  revert k
  generalize writeEducationalHead imsmd e = t
  match e.description with
  | [] => intro k; simpa using k
  | d :: ds => intro k; simpa using k

theorem writes_lom {l : Lom} (h' : LomOk l) : Writes (writeLom imsmd l) [lomTree l] := by
  obtain ⟨h, hc⟩ := h'
  have k1 := writes_option l.general (writeGeneral imsmd) generalTree fun g hg => writes_general (h.1 g hg) (hc g hg)
  have k2 := writes_option l.lifecycle (writeLifecycle imsmd) lifecycleTree fun g hg => writes_lifecycle (h.2.1 g hg)
  have k3 := writes_flatMap (l := l.educational) fun e he => writes_educational (h.2.2 e he)
  have := writes_block (op := tag "\n<" imsmd "lom") (cl := tag "\n</" imsmd "lom") "imsmd:lom"
    ['\n'] ['\n'] (by decide +kernel) (writes_append k1 (writes_append k2 k3))
  rw [writeLom, lomTree]
  shaped this

/-! ### QTI metadata -/

/-- The tags of a line of QTI metadata. -/
def fieldTag (n m : String) : Bool :=
  blockTag (tag "\n<" imsqti n) (tag "</" imsqti n) ['\n'] [] m.toList && decide (m.toList ∈ textElements)

theorem reads_truth (b : Bool) : Reads (boolText b) (chars (truth b)) := by
  have : TextOk (truth b) := textOk_of_attOk (rawOk_truth b).1
  have h := reads_xmlString this
  have e : xmlString (truth b) = boolText b := by cases b <;> decide +kernel
  rwa [e] at h

theorem writes_flag {n m : String} (o : Option Bool) (h : fieldTag n m = true) :
    Writes (writeFlag imsqti n o) (o.toList.map fun b => el m (chars (truth b))) :=
  writes_option o (fun b => writeField imsqti n (boolText b)) _ fun b _ => writes_text m ['\n'] h (reads_truth b)

theorem writes_tool {n m : String} {o : Option Str} (h : fieldTag n m = true) (ho : OptOk TextOk o) :
    Writes (writeTool imsqti n o) ((present o).toList.map fun t => el m (chars t)) := by
  rw [writeTool]
  by_cases hg : given? o = true
  · rw [if_pos hg]
    obtain ⟨s, h1, h2⟩ := present_of_given hg
    rw [h2, h1]
    exact writes_text m ['\n'] h (reads_xmlString (ho s h1))
  · rw [if_neg hg, present_eq_none.2 (by simpa using hg)]
    exact writes_nil

theorem writes_qti {q : QtiMD} (h : QtiOk q) : Writes (writeQtiMD imsqti q) [qtiTree q] := by
  obtain ⟨h1, h2, h3, h4, h5⟩ := h
  have k1 := writes_flag (n := "itemTemplate") (m := "imsqti:itemTemplate") q.itemTemplate (by decide +kernel)
  have k2 := writes_flag (n := "timeDependent") (m := "imsqti:timeDependent") q.timeDependent (by decide +kernel)
  have k3 := writes_flag (n := "composite") (m := "imsqti:composite") q.composite (by decide +kernel)
  have k4 := writes_map (l := q.interactionTypes) (f := fun t => writeField imsqti "interactionType" (xmlString t))
    (g := fun t => el "imsqti:interactionType" (chars t))
    fun t ht => writes_text "imsqti:interactionType" ['\n'] (by decide +kernel) (reads_xmlString (h1 t ht))
  have k5 := writes_option q.feedbackType (fun t => writeField imsqti "feedbackType" (xmlString t))
    (fun t => el "imsqti:feedbackType" (chars t))
    fun t ht => writes_text "imsqti:feedbackType" ['\n'] (by decide +kernel) (reads_xmlString (h2 t ht))
  have k6 := writes_flag (n := "solutionAvailable") (m := "imsqti:solutionAvailable") q.solutionAvailable (by decide +kernel)
  have k7 := writes_tool (n := "toolName") (m := "imsqti:toolName") (by decide +kernel) h3
  have k8 := writes_tool (n := "toolVersion") (m := "imsqti:toolVersion") (by decide +kernel) h4
  have k9 := writes_tool (n := "toolVendor") (m := "imsqti:toolVendor") (by decide +kernel) h5
  have := writes_block (op := tag "\n<" imsqti "qtiMetadata") (cl := tag "\n</" imsqti "qtiMetadata") "imsqti:qtiMetadata"
    ['\n'] ['\n'] (by decide +kernel) (writes_append k1 (writes_append k2 (writes_append k3 (writes_append k4
      (writes_append k5 (writes_append k6 (writes_append k7 (writes_append k8 k9))))))))
  rw [writeQtiMD, qtiTree]
  shaped this

/-! ### Files, resources and the manifest -/

theorem text_plain (t : String) (h : t.toList.all plainChar = true) (hx : xmlString t.toList = t.toList) :
    Reads t.toList (chars t.toList) := by
  have := reads_xmlString (textOk_of_attOk (rawOk_plain h).1)
  rwa [hx] at this

theorem writes_schema (op op' : String) (lead : Str)
    (h : (blockTag op.toList "</schema>".toList lead [] "schema".toList && decide ("schema".toList ∈ textElements)) = true)
    (h' : (blockTag op'.toList "</schemaversion>".toList lead [] "schemaversion".toList &&
      decide ("schemaversion".toList ∈ textElements)) = true) :
    Writes ((op.toList ++ ("IMS Content".toList ++ "</schema>".toList)) ++
      (op'.toList ++ ("1.1.3".toList ++ "</schemaversion>".toList))) schemaTrees :=
  writes_append (writes_text "schema" lead h (text_plain "IMS Content" (by decide +kernel) (by decide +kernel)))
    (writes_text "schemaversion" lead h' (text_plain "1.1.3" (by decide +kernel) (by decide +kernel)))

theorem writes_file {f : File} (h : FileOk f) : Writes (writeFile f) [fileTree f] := by
  have ha : Attrs (optAttr " href=\"" f.href) (given [("href", present f.href)]) :=
    optAttr_attrs _ "href" (by decide +kernel) h.1
  unfold writeFile fileTree
  rcases hl : f.lom with _ | l
  · have := writes_single (op := "\n\t\t<file".toList) "file" ['\n', '\t', '\t'] (by decide +kernel) ha (by simp)
    rw [Option.toList_none, List.map_nil]
    shaped this
  · have k := writes_append (writes_schema "\n\t\t\t\t<schema>" "\n\t\t\t\t<schemaversion>" ['\n', '\t', '\t', '\t', '\t']
      (by decide +kernel) (by decide +kernel)) (writes_lom (h.2 l hl))
    have k2 := writes_block (op := "\n\t\t\t<metadata>".toList) (cl := "\n\t\t\t</metadata>".toList) "metadata"
      ['\n', '\t', '\t', '\t'] ['\n', '\t', '\t', '\t'] (by decide +kernel) k
    have := writes_open (op := "\n\t\t<file".toList) (cl := "\n\t\t</file>".toList) "file" ['\n', '\t', '\t']
      ['\n', '\t', '\t'] (by decide +kernel) ha (by simp) k2
    rw [Option.toList_some, List.map_cons, List.map_nil]
    shaped this

theorem writes_metadata {l : Option Lom} {m : Option QtiMD} (hl : ∀ x, l = some x → LomOk x) (hm : ∀ x, m = some x → QtiOk x) :
    Writes (writeMetadata l m) (if l.isNone && m.isNone then []
      else [el "metadata" (l.toList.map lomTree ++ m.toList.map qtiTree)]) := by
  rw [writeMetadata]
  by_cases h : (l.isNone && m.isNone) = true
  · rw [if_pos h, if_pos h]; exact writes_nil
  · rw [if_neg h, if_neg h]
    have k1 := writes_option l (writeLom imsmd) lomTree fun x hx => writes_lom (hl x hx)
    have k2 := writes_option m (writeQtiMD imsqti) qtiTree fun x hx => writes_qti (hm x hx)
    have := writes_block (op := "\n\t\t<metadata>".toList) (cl := "\n\t\t</metadata>".toList) "metadata"
      ['\n', '\t', '\t'] ['\n', '\t', '\t'] (by decide +kernel) (writes_append k1 k2)
    shaped this

theorem attrs_entry {e : Option File} (h : ∀ f, e = some f → OptOk AttOk f.href) :
    Attrs (ifSome e (fun f => optAttr " href=\"" f.href)) (given [("href", e.bind fun f => present f.href)]) := by
  match e with
  | none => exact .nil
  | some f =>
    have := optAttr_attrs " href=\"" "href" (by decide +kernel) (h f rfl)
    simp only [-String.reduceToList, ifSome, Option.bind_some]
    exact this

theorem writes_resource {r : Resource} (h : ResourceOk r) : Writes (writeResource r) [resourceTree r] := by
  obtain ⟨h1, h2, h3, h4, h5, h6, h7⟩ := h
  have ha := attrs_cons (attrs_raw " identifier=\"" "identifier" (by decide +kernel) h1)
    (attrs_cons (optRaw_attrs " type=\"" "type" (by decide +kernel) h2) (attrs_entry h3))
  unfold writeResource resourceTree
  by_cases he : (r.files.isEmpty && r.lom.isNone) = true
  · rw [if_pos he]
    rw [Bool.and_eq_true, List.isEmpty_iff, Option.isNone_iff_eq_none] at he
    have hq : r.qtiMD = none := by
      rcases hq : r.qtiMD with _ | m
      · rfl
      · rcases h7 (by rw [hq]; simp) with k | k
        · exact absurd he.1 k
        · exact absurd he.2 k
    have := writes_single (op := "\n\t<resource".toList) "resource" ['\n', '\t'] (by decide +kernel) ha (by simp)
    rw [he.1, he.2, hq]
    simp only [-String.reduceToList, Option.isNone_none, Bool.and_self, if_true, List.map_nil]
    shaped this
  · rw [if_neg he]
    have k1 := writes_metadata h4 h5
    have k2 := writes_map (l := r.files) fun f hf => writes_file (h6 f hf)
    have := writes_open (op := "\n\t<resource".toList) (cl := "\n\t</resource>".toList) "resource" ['\n', '\t']
      ['\n', '\t'] (by decide +kernel) ha (by simp) (writes_append k1 k2)
    shaped this

theorem rawOk_legal {s : Str} (h : LegalId s) : RawOk s := by
  refine rawOk_plain ?_
  obtain ⟨c, t, rfl, hc, ht⟩ := h
  have key : ∀ d, IdChar d → plainChar d = true := by
    intro d hd
    have : plainChar d = true ↔ (32 ≤ d.toNat ∧ d.toNat ≤ 126) ∧ d ≠ '"' ∧ d ≠ '<' ∧ d ≠ '&' := by
      simp only [plainChar, Bool.and_eq_true, decide_eq_true_eq, Bool.not_eq_true', Bool.or_eq_false_iff,
        beq_eq_false_iff_ne]
      exact ⟨fun x => ⟨x.1, x.2.1.1, x.2.1.2, x.2.2⟩, fun x => ⟨x.1, ⟨x.2.1, x.2.2.1⟩, x.2.2.2⟩⟩
    rw [this]
    have n : ∀ e : Char, d ≠ e ↔ d.toNat ≠ e.toNat := by
      intro e
      refine not_congr ?_
      exact ⟨fun h => by rw [h], fun h => Char.ext (UInt32.toNat_inj.mp h)⟩
    rw [n, n, n]
    simp only [IdChar, Letter, Char.le_def, UInt32.le_iff_toNat_le] at hd
    have e0 : ∀ c : Char, c.val.toNat = c.toNat := fun _ => rfl
    simp only [e0] at hd
    have q : ∀ e : Char, d = e → d.toNat = e.toNat := fun e h => by rw [h]
    rcases hd with (⟨k1, k2⟩ | ⟨k1, k2⟩) | ⟨k1, k2⟩ | k | k | k | k
    · simp at k1 k2 ⊢; omega
    · simp at k1 k2 ⊢; omega
    · simp at k1 k2 ⊢; omega
    all_goals subst k; decide
  rw [List.all_cons, key c (CP.idStart_idChar hc), List.all_eq_true.2 fun d hd => key d (ht d hd)]
  rfl

/-- The identifier written for the manifest: the one of the package, or a new one. -/
theorem manifestId_value {p : Package} (h : OptOk AttOk p.id) :
    ∃ mid, AttVal (manifestId p) mid ∧ (∀ s, present p.id = some s → mid = s) ∧
      (present p.id = none → LegalId mid ∧ mid ∉ p.idSpace) := by
  rw [manifestId]
  by_cases hg : given? p.id = true
  · rw [if_pos hg]
    obtain ⟨s, h1, h2⟩ := present_of_given hg
    refine ⟨s, ?_, by rw [h2]; simp, by rw [h2]; simp⟩
    rw [h1]
    exact attVal_xmlString (h s h1)
  · rw [if_neg hg, present_eq_none.2 (by simpa using hg)]
    have hl : LegalId "manifest".toList := by
      have e : "manifest".toList = ['m', 'a', 'n', 'i', 'f', 'e', 's', 't'] := by decide +kernel
      rw [e]
      refine ⟨_, _, rfl, .inl (by unfold Letter; decide), ?_⟩
      intro d hd
      refine .inl ?_
      simp only [List.mem_cons, List.not_mem_nil, or_false] at hd
      rcases hd with rfl | rfl | rfl | rfl | rfl | rfl | rfl <;> (unfold Letter; decide)
    have := CP.getUniqueID_legal p.idSpace _ hl
    exact ⟨_, attVal_raw (rawOk_legal this), by simp, fun _ => ⟨this, CP.getUniqueID_fresh _ _⟩⟩

theorem attrs_fixed (head n v : String) (h : (headOf head.toList n.toList && v.toList.all plainChar) = true) :
    Attrs (head.toList ++ (v.toList ++ ['"'])) (given [(n, some v.toList)]) := by
  rw [Bool.and_eq_true] at h
  exact attrs_raw head n h.1 (rawOk_plain h.2)

theorem schemaLocation_value : AttVal schemaLocation
    "http://www.imsglobal.org/xsd/imscp_v1p1 http://www.imsglobal.org/xsd/imscp_v1p2.xsd  http://www.imsglobal.org/xsd/imsmd_v1p2 http://www.imsglobal.org/xsd/imsmd_v1p2p4.xsd  http://www.imsglobal.org/xsd/imsqti_v2p1 http://www.imsglobal.org/xsd/imsqti_v2p1.xsd".toList := by
  have e : schemaLocation.map (fun c => if c = '\t' ∨ c = '\n' then ' ' else c) =
      "http://www.imsglobal.org/xsd/imscp_v1p1 http://www.imsglobal.org/xsd/imscp_v1p2.xsd  http://www.imsglobal.org/xsd/imsmd_v1p2 http://www.imsglobal.org/xsd/imsmd_v1p2p4.xsd  http://www.imsglobal.org/xsd/imsqti_v2p1 http://www.imsglobal.org/xsd/imsqti_v2p1.xsd".toList := by
    decide +kernel
  rw [← e]
  have key : schemaLocation.all (fun c => plainChar c || c == '\n') = true := by decide +kernel
  rw [List.all_eq_true] at key
  refine attVal_flat ?_
  intro c hc
  have := key c hc
  rw [Bool.or_eq_true, beq_iff_eq] at this
  rcases this with k | rfl
  · obtain ⟨k1, k2, k3⟩ := rawOk_plain (s := [c]) (by simp [k])
    obtain ⟨m1, m2, m3, m4, m5⟩ := k1 c (by simp)
    exact ⟨m1, m2, m5, by simpa using Ne.symm (a := '<') (b := c) (by simpa using k2), by
      simpa using Ne.symm (a := '&') (b := c) (by simpa using k3)⟩
  · exact ⟨by simp [XmlChar], by decide, by decide, by decide, by decide⟩

theorem attrs_manifest {v mid : Str} (h : AttVal v mid) :
    Attrs (" identifier=\"".toList ++ (v ++ (['"'] ++
    ("\n\txmlns=\"".toList ++ ("http://www.imsglobal.org/xsd/imscp_v1p1".toList ++ (['"'] ++
    ("\n\txmlns:imsmd=\"".toList ++ ("http://www.imsglobal.org/xsd/imsmd_v1p2".toList ++ (['"'] ++
    ("\n\txmlns:imsqti=\"".toList ++ ("http://www.imsglobal.org/xsd/imsqti_v2p1".toList ++ (['"'] ++
    ("\n\txmlns:xsi=\"".toList ++ ("http://www.w3.org/2001/XMLSchema-instance".toList ++ (['"'] ++
    ("\n\txsi:schemaLocation=\"".toList ++ (schemaLocation ++ ['"']))))))))))))))))) (given (("identifier", some mid) :: namespaces)) := by
  have k1 : Attrs (" identifier=\"".toList ++ (v ++ ['"'])) (given [("identifier", some mid)]) := by
    have := attrs_one (head := " identifier=\"".toList) (n := "identifier") (by decide +kernel) h
    rwa [List.append_assoc] at this
  have k6 : Attrs ("\n\txsi:schemaLocation=\"".toList ++ (schemaLocation ++ ['"'])) (given [("xsi:schemaLocation", some "http://www.imsglobal.org/xsd/imscp_v1p1 http://www.imsglobal.org/xsd/imscp_v1p2.xsd  http://www.imsglobal.org/xsd/imsmd_v1p2 http://www.imsglobal.org/xsd/imsmd_v1p2p4.xsd  http://www.imsglobal.org/xsd/imsqti_v2p1 http://www.imsglobal.org/xsd/imsqti_v2p1.xsd".toList)]) := by
    have := attrs_one (head := "\n\txsi:schemaLocation=\"".toList) (n := "xsi:schemaLocation") (by decide +kernel) schemaLocation_value
    rwa [List.append_assoc] at this
  have := attrs_cons k1 (attrs_cons (attrs_fixed "\n\txmlns=\"" "xmlns" "http://www.imsglobal.org/xsd/imscp_v1p1" (by decide +kernel))
    (attrs_cons (attrs_fixed "\n\txmlns:imsmd=\"" "xmlns:imsmd" "http://www.imsglobal.org/xsd/imsmd_v1p2" (by decide +kernel))
    (attrs_cons (attrs_fixed "\n\txmlns:imsqti=\"" "xmlns:imsqti" "http://www.imsglobal.org/xsd/imsqti_v2p1" (by decide +kernel))
    (attrs_cons (attrs_fixed "\n\txmlns:xsi=\"" "xmlns:xsi" "http://www.w3.org/2001/XMLSchema-instance" (by decide +kernel)) k6))))
  rw [namespaces]
  shaped this

theorem namespaces_nodup (mid : Str) : (((("identifier", some mid) :: namespaces : List (String × Option Str))).map Prod.fst).Nodup := by
  have : ((("identifier", some mid) :: namespaces : List (String × Option Str))).map Prod.fst =
    ["identifier", "xmlns", "xmlns:imsmd", "xmlns:imsqti", "xmlns:xsi", "xsi:schemaLocation"] := rfl
  rw [this]
  decide +kernel

theorem writes_manifest {p : Package} (h : PackageOk p) {mid : Str} (hm : AttVal (manifestId p) mid) :
    ∃ body, writeManifest p = "<?xml version=\"1.0\"?>".toList ++ body ∧ Writes body [manifestTree mid p] := by
  obtain ⟨h1, h2, h3⟩ := h
  unfold writeManifest manifestTree
  refine ⟨_, rfl, ?_⟩
  have k1 := writes_option p.lom (fun l => "\n<metadata>".toList ++ ("\n\t<schema>".toList ++ ("IMS Content".toList ++
      ("</schema>".toList ++ ("\n\t<schemaversion>".toList ++ ("1.1.3".toList ++ ("</schemaversion>".toList ++
      (writeLom imsmd l ++ "\n</metadata>".toList))))))))
    (fun l => el "metadata" (schemaTrees ++ [lomTree l])) (by
      intro l hl
      have k := writes_append (writes_schema "\n\t<schema>" "\n\t<schemaversion>" ['\n', '\t']
        (by decide +kernel) (by decide +kernel)) (writes_lom (h2 l hl))
      have := writes_block (op := "\n<metadata>".toList) (cl := "\n</metadata>".toList) "metadata"
        ['\n'] ['\n'] (by decide +kernel) k
      shaped this)
  have k2 : Writes "\n<organizations/>".toList [el "organizations" []] := by
    have := writes_single (op := "\n<organizations".toList) (l := []) "organizations" ['\n'] (by decide +kernel) .nil (by simp)
    have e : "\n<organizations/>".toList = "\n<organizations".toList ++ "/>".toList := by decide +kernel
    rw [e]
    shaped this
  have k3 : Writes (if p.resources.isEmpty then []
      else "\n<resources>".toList ++ (p.resources.flatMap writeResource ++ "\n</resources>".toList))
      (if p.resources = [] then [] else [el "resources" (p.resources.map resourceTree)]) := by
    by_cases he : p.resources = []
    · rw [if_pos (by rw [he]; rfl), if_pos he]; exact writes_nil
    · rw [if_neg (by simpa using he), if_neg he]
      exact writes_block (op := "\n<resources>".toList) (cl := "\n</resources>".toList) "resources" ['\n'] ['\n']
        (by decide +kernel) (writes_map (l := p.resources) fun r hr => writes_resource (h3 r hr))
  have := writes_open (op := "\n<manifest".toList) (cl := "\n</manifest>".toList) "manifest" ['\n'] ['\n']
    (by decide +kernel) (attrs_manifest hm) (namespaces_nodup mid) (writes_append k1 (writes_append k2 k3))
  shaped this

theorem laid_one {xs : List Node} {y : Node} (h : LaidOuts xs [y]) : ∃ w w' x, xs = chars w ++ x :: chars w' ∧
    LaidOut x y ∧ ∀ c ∈ w ++ w', c = ' ' ∨ c = '\t' ∨ c = '\n' := by
  have tail : ∀ {zs : List Node}, LaidOuts zs [] → ∃ w, zs = chars w ∧ ∀ c ∈ w, c = ' ' ∨ c = '\t' ∨ c = '\n' := by
    intro zs
    induction zs with
    | nil => intro _; exact ⟨[], rfl, by simp⟩
    | cons z zs ih =>
      intro h
      cases h with
      | white c hc h =>
        obtain ⟨w, rfl, hw⟩ := ih h
        exact ⟨c :: w, rfl, by simpa using ⟨hc, hw⟩⟩
  induction xs with
  | nil => cases h
  | cons z zs ih =>
    cases h with
    | white c hc h =>
      obtain ⟨w, w', x, rfl, hx, hw⟩ := ih h
      exact ⟨c :: w, w', x, rfl, hx, by simpa using ⟨hc, by simpa using hw⟩⟩
    | cons hx h =>
      obtain ⟨w, rfl, hw⟩ := tail h
      exact ⟨[], w, z, rfl, hx, by simpa using hw⟩

theorem laidOut_elem {x y : Node} (h : LaidOut x y) : ∃ n as ks, x = .elem n as ks := by
  cases h with
  | text n as s _ => exact ⟨_, _, _, rfl⟩
  | elems n as _ _ => exact ⟨_, _, _, rfl⟩

/-- **C78.** The manifest of a package is a well-formed document.  An XML processor reports exactly
one tree for it, which is, up to white space between elements, the tree of `Spec.ManifestXml`: every
resource with its identifier, type, entry point, files and metadata, in order, and nothing else.  The
identifier of the manifest is the one set, or a legal one that is new.  This holds for packages within
the guards of `Spec.ManifestXml`; what is missing for the full claim is false, see below. -/
theorem manifest_document_partial (p : Package) (h : PackageOk p) :
    ∃ mid root, (∀ s, present p.id = some s → mid = s) ∧ (present p.id = none → LegalId mid ∧ mid ∉ p.idSpace) ∧
      ReadsDocument (writeManifest p) root ∧ LaidOut root (manifestTree mid p) ∧
      ∀ n as ks, ReadsDocument (writeManifest p) (.elem n as ks) → .elem n as ks = root := by
  obtain ⟨mid, hm, h1, h2⟩ := manifestId_value h.1
  obtain ⟨body, hb, xs, hr, hl⟩ := writes_manifest h hm
  obtain ⟨w, w', x, rfl, hx, hw⟩ := laid_one hl
  have hread : ReadsDocument (writeManifest p) x := ⟨_, body, hb, .inl rfl, w, w', hw, hr⟩
  refine ⟨mid, x, h1, h2, hread, hx, ?_⟩
  intro n as ks h'
  obtain ⟨n', as', ks', rfl⟩ := laidOut_elem hx
  exact document_unique h' hread

end Verif.Props
