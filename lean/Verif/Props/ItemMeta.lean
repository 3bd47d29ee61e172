import Verif.Spec.ItemMeta
import Verif.Props.Names

/-!
# The metadata of an item survive migration (C79), under the terms of LOM (C80)
-/

set_option linter.unusedVariables false

namespace Verif.Props

open Verif Verif.Py Verif.ManifestXml Verif.ItemMeta Verif.Spec.ItemMeta
open Verif.Names (strip isSpace)

/-- Stripping twice is stripping once. -/
theorem strip_strip (s : Str) : strip (strip s) = strip s := strip_id _ (strip_ends s).1 (strip_ends s).2

/-- What is held while the item is being read. -/
def soFar (s : State) : Held where
  title := s.lom.general.bind (·.title)
  descriptions := s.lom.general.elim [] (·.description)
  keywords := s.lom.general.elim [] (·.keyword)
  topics := s.educational.elim [] (·.description)
  contexts := s.educational.elim [] (fun e => e.context.map (·.2.text))
  difficulty := (s.educational.bind (·.difficulty)).map (·.2.text)
  status := (s.lom.lifecycle.bind (·.status)).map (·.2.text)
  contributions := s.lom.lifecycle.elim [] (fun l => l.contribute.map (fun c => (c.role.2.text, c.entity)))
  vendor := s.qtiMD.toolVendor
  maximum := s.max

/-- One more fact. -/
def learn (env : Env) (h : Held) (f : Fact) : Held :=
  let say := fun (t : Str) => ({ text := t, lang := env.lang } : LangString)
  match f with
  | .keyword t => { h with keywords := h.keywords ++ [say t] }
  | .description t => { h with descriptions := h.descriptions ++ [say t] }
  | .title t =>
    if (ownTitle env.itemTitle).isSome then { h with descriptions := h.descriptions ++ [say t] }
    else { h with title := some (say t) }
  | .topic t => { h with topics := h.topics ++ [say t] }
  | .context t => { h with contexts := h.contexts ++ [t] }
  | .difficulty t => { h with difficulty := some t }
  | .status t => { h with status := some t }
  | .vendor t => { h with vendor := some t }
  | .people role names =>
    if env.vobject then { h with contributions := h.contributions ++ [(role, names.map env.personCard)] } else h
  | .organisation name =>
    if env.vobject then { h with contributions := h.contributions ++ [("unknown".toList, [env.orgCard name])] } else h
  | .maximum r => { h with maximum := some r }

theorem ownTitle_given (o : Option Str) : (ownTitle o).isSome = given? o := by
  rcases o with _ | _ | ⟨c, t⟩ <;> rfl

theorem soFar_keyword (env : Env) (s : State) (t : Str) :
    soFar (addKeyword env s t) = learn env (soFar s) (.keyword t) := by
  rcases s with ⟨⟨_ | g, l, e⟩, ed, q, m⟩ <;> rfl

theorem soFar_description (env : Env) (s : State) (t : Str) :
    soFar (addDescription env s t) = learn env (soFar s) (.description t) := by
  rcases s with ⟨⟨_ | g, l, e⟩, ed, q, m⟩ <;> rfl

theorem soFar_title (env : Env) (s : State) (t : Str) :
    soFar (setTitle env s t) = learn env (soFar s) (.title t) := by
  have h := ownTitle_given env.itemTitle
  unfold setTitle
  cases hg : given? env.itemTitle with
  | true =>
    rw [if_pos rfl, soFar_description]
    simp [learn, h, hg]
  | false =>
    rw [hg] at h
    rcases s with ⟨⟨_ | g, l, e⟩, ed, q, m⟩ <;>
      simp [learn, h, soFar, onGeneral, general]

theorem soFar_topic (env : Env) (s : State) (t : Str) :
    soFar (addTopic env s t) = learn env (soFar s) (.topic t) := by
  rcases s with ⟨l, _ | e, q, m⟩ <;> rfl

theorem soFar_context (env : Env) (s : State) (t : Str) (b : Bool) :
    soFar (addContext s t b) = learn env (soFar s) (.context t) := by
  rcases s with ⟨l, _ | e, q, m⟩ <;> simp [soFar, addContext, onEducational, learn, plain]

theorem soFar_difficulty (env : Env) (s : State) (t : Str) (b : Bool) :
    soFar (setDifficulty s t b) = learn env (soFar s) (.difficulty t) := by
  rcases s with ⟨l, _ | e, q, m⟩ <;> rfl

theorem soFar_status (env : Env) (s : State) (src t : Str) :
    soFar (setStatus s src t) = learn env (soFar s) (.status t) := by
  rcases s with ⟨⟨g, _ | l, e⟩, ed, q, m⟩ <;> rfl

theorem soFar_contributor (s : State) (c : Contribute) :
    soFar (addContributor s c)
      = { soFar s with contributions := (soFar s).contributions ++ [(c.role.2.text, c.entity)] } := by
  rcases s with ⟨⟨g, _ | l, e⟩, ed, q, m⟩ <;> simp [soFar, addContributor, onLifecycle, lifecycle]

/-- Each handler learns what the text says under the name. -/
theorem soFar_texts (env : Env) (s : State) (data : Str) (f : Str → State) (make : Str → Fact)
    (h : ∀ t, t = strip data → soFar (f t) = learn env (soFar s) (make t)) :
    soFar (ifText data s f) = (texts make data).foldl (learn env) (soFar s) := by
  unfold ifText texts
  by_cases hd : strip data = []
  · rw [if_pos hd, if_pos hd]; rfl
  · rw [if_neg hd, if_neg hd, h _ rfl]; rfl

theorem soFar_keywords (env : Env) : ∀ (ps : List Str) (s : State),
    soFar (ps.foldl (closeKeyword env) s)
      = (((ps.map strip).filterMap fun k => if k = [] then none else some (Fact.keyword k))).foldl (learn env) (soFar s)
  | [], s => rfl
  | p :: ps, s => by
    rw [List.foldl_cons, soFar_keywords env ps]
    by_cases h : strip p = []
    · simp [closeKeyword, h]
    · simp [closeKeyword, h, soFar_keyword]

theorem soFar_level (env : Env) (s : State) (data : Str) :
    soFar (closeLevel s data) = learn env (soFar s) (level data) := by
  unfold closeLevel level levelMap
  simp only [-String.reduceToList]
  generalize lower (strip data) = d
  by_cases h1 : d = "pre-school".toList
  · subst h1; rw [if_pos rfl]; exact soFar_context env s _ _
  by_cases h2 : d = "school".toList
  · subst h2; exact soFar_context env s _ _
  by_cases h3 : d = "he/fe".toList
  · subst h3; exact soFar_context env s _ _
  by_cases h4 : d = "vocational".toList
  · subst h4; exact soFar_context env s _ _
  by_cases h5 : d = "professional development".toList
  · subst h5; exact soFar_context env s _ _
  rw [if_neg h1, if_neg h2, if_neg h3, if_neg h4, if_neg h5]
  have : (["pre-school", "school", "he/fe", "vocational", "professional development"].zip
      ["pre-school", "school", "higher education", "vocational", "training"]).find?
      (fun p => decide (p.1.toList = d)) = none := by
    rw [List.find?_eq_none]
    intro p hp
    simp only [-String.reduceToList, List.zip_cons_cons, List.zip_nil_right, List.mem_cons, List.not_mem_nil, or_false] at hp
    rcases hp with rfl | rfl | rfl | rfl | rfl
    · simp only [-String.reduceToList, decide_eq_true_eq]; exact fun e => h1 e.symm
    · simp only [-String.reduceToList, decide_eq_true_eq]; exact fun e => h2 e.symm
    · simp only [-String.reduceToList, decide_eq_true_eq]; exact fun e => h3 e.symm
    · simp only [-String.reduceToList, decide_eq_true_eq]; exact fun e => h4 e.symm
    · simp only [-String.reduceToList, decide_eq_true_eq]; exact fun e => h5 e.symm
  rw [this]
  exact soFar_difficulty env s _ _

section
variable (rf : Str → Option Rat) (data : Str)

theorem named_keywords : named rf "keywords".toList data
    = ((split ',' data).map strip).filterMap fun k => if k = [] then none else some (.keyword k) := by simp [named]
theorem named_domain : named rf "domain".toList data = texts .keyword data := by simp [named]
theorem named_description : named rf "description".toList data = texts .description data := by simp [named]
theorem named_title : named rf "title".toList data = texts .title data := by simp [named]
theorem named_name : named rf "name".toList data = texts .title data := by simp [named]
theorem named_topic : named rf "topic".toList data = texts .topic data := by simp [named]
theorem named_area : named rf "syllabusarea".toList data = texts .topic data := by simp [named]
theorem named_level : named rf "levelofdifficulty".toList data = texts (fun _ => level data) data := by simp [named]
theorem named_status : named rf "status".toList data = texts .status data := by simp [named]
theorem named_layout : named rf "layoutstatus".toList data = texts .status data := by simp [named]
theorem named_vendor : named rf "toolvendor".toList data = texts .vendor data := by simp [named]
theorem named_people (name : Str) (h : name ∈ ["author".toList, "creator".toList, "owner".toList]) :
    named rf name data = texts (fun d => .people name ((split ',' d).filter fun n => strip n ≠ [])) data := by
  simp only [List.mem_cons, List.not_mem_nil, or_false] at h
  rcases h with rfl | rfl | rfl <;> simp [named]
theorem named_organisation : named rf "organisation".toList data = texts .organisation data := by simp [named]
theorem named_maximum : named rf "maximumscore".toList data = ((rf (strip data)).map Fact.maximum).toList := by
  simp [named]
theorem named_marks : named rf "marks".toList data = ((rf (strip data)).map Fact.maximum).toList := by
  simp [named]

end

theorem close_domain (env : Env) (s : State) (data : Str) :
    soFar (close env s .domain data) = (texts .keyword data).foldl (learn env) (soFar s) :=
  soFar_texts env s data _ _ fun t _ => soFar_keyword env s t

theorem close_topic (env : Env) (s : State) (data : Str) :
    soFar (close env s .topic data) = (texts .topic data).foldl (learn env) (soFar s) :=
  soFar_texts env s data _ _ fun t _ => soFar_topic env s t

theorem close_description (env : Env) (s : State) (data : Str) :
    soFar (close env s .description data) = (texts .description data).foldl (learn env) (soFar s) :=
  soFar_texts env s data _ _ fun t _ => soFar_description env s t

theorem close_title (env : Env) (s : State) (data : Str) :
    soFar (close env s .title data) = (texts .title data).foldl (learn env) (soFar s) :=
  soFar_texts env s data _ _ fun t _ => soFar_title env s t

theorem close_vendor (env : Env) (s : State) (data : Str) :
    soFar (close env s .vendor data) = (texts .vendor data).foldl (learn env) (soFar s) :=
  soFar_texts env s data _ _ fun t _ => rfl

theorem close_status (env : Env) (s : State) (data : Str) :
    soFar (close env s .status data) = (texts .status data).foldl (learn env) (soFar s) :=
  soFar_texts env s data _ _ fun t _ => soFar_status env s _ t

theorem close_maximum (env : Env) (s : State) (data : Str) :
    soFar (close env s .maximum data)
      = ((env.readFloat (strip data)).map Fact.maximum).toList.foldl (learn env) (soFar s) := by
  unfold close
  cases env.readFloat (strip data) <;> rfl

theorem close_level (env : Env) (s : State) (data : Str) (h : strip data ≠ []) :
    soFar (close env s .level data) = (texts (fun _ => level data) data).foldl (learn env) (soFar s) := by
  rw [texts, if_neg h]
  exact soFar_level env s data

theorem close_contributor (env : Env) (s : State) (role data : Str) (h : strip data ≠ []) :
    soFar (close env s (.contributor role) data)
      = (texts (fun d => .people role ((split ',' d).filter fun n => strip n ≠ [])) data).foldl (learn env) (soFar s) := by
  rw [texts, if_neg h]
  rw [List.foldl_cons, List.foldl_nil, show close env s (.contributor role) data = closeContributor env s role data from rfl]
  unfold closeContributor learn
  cases env.vobject with
  | true => rw [if_pos rfl, soFar_contributor]; rfl
  | false => rfl

theorem close_organisation (env : Env) (s : State) (data : Str) (h : strip data ≠ []) :
    soFar (close env s .organisation data) = (texts .organisation data).foldl (learn env) (soFar s) := by
  rw [texts, if_neg h]
  rw [List.foldl_cons, List.foldl_nil, show close env s .organisation data = closeOrganisation env s data from rfl]
  unfold closeOrganisation learn
  cases env.vobject with
  | true => rw [if_pos rfl, soFar_contributor]; rfl
  | false => rfl

/-- What is learned of one piece of metadata: what it says, if it is listened to. -/
theorem soFar_element (env : Env) (s : State) (name data : Str) (hh : ¬ Hollow (.element name data)) (s' : State)
    (h : readEntry env s (.element name data) = .ok s') :
    soFar s' = (if heard env.ext (.element name data) then facts env.readFloat (.element name data) else []).foldl
      (learn env) (soFar s) := by
  have ok : ∀ k, elementKind env.ext name = some k → s' = close env s k data := by
    intro k hk; simp [readEntry, hk] at h; exact h.symm
  have no : elementKind env.ext name = none → s' = s := by
    intro hk; simp [readEntry, hk] at h; exact h.symm
  clear h
  unfold elementKind at ok no
  by_cases h1 : name = "qmd_itemtype".toList
  · rw [ok .itemType (by rw [if_pos h1])]; subst h1; simp [heard, close]
  by_cases h2 : name = "qmd_levelofdifficulty".toList
  · rw [ok .level (by rw [if_neg h1, if_pos h2])]; subst h2
    rw [close_level env s data (fun e => hh ⟨e, by simp⟩), ← named_level env.readFloat]
    simp [heard, facts]
  by_cases h3 : name = "qmd_maximumscore".toList
  · rw [ok .maximum (by rw [if_neg h1, if_neg h2, if_pos h3])]; subst h3
    rw [close_maximum env s data, ← named_maximum env.readFloat]
    simp [heard, facts]
  by_cases h4 : name = "qmd_status".toList
  · rw [ok .status (by rw [if_neg h1, if_neg h2, if_neg h3, if_pos h4])]; subst h4
    rw [close_status env s data, ← named_status env.readFloat]
    simp [heard, facts]
  by_cases h5 : name = "qmd_toolvendor".toList
  · rw [ok .vendor (by rw [if_neg h1, if_neg h2, if_neg h3, if_neg h4, if_pos h5])]; subst h5
    rw [close_vendor env s data, ← named_vendor env.readFloat]
    simp [heard, facts]
  by_cases h6 : name = "qmd_topic".toList
  · rw [ok .topic (by rw [if_neg h1, if_neg h2, if_neg h3, if_neg h4, if_neg h5, if_pos h6])]; subst h6
    rw [close_topic env s data, ← named_topic env.readFloat]
    simp [heard, facts]
  simp only [-String.reduceToList, if_neg h1, if_neg h2, if_neg h3, if_neg h4, if_neg h5, if_neg h6] at ok no
  cases he : env.ext with
  | false =>
    simp only [-String.reduceToList, he, Bool.false_eq_true, if_false] at no
    rw [no trivial]
    have : heard false (.element name data) = false := by
      simp only [-String.reduceToList, heard, List.any_cons, List.any_nil, Bool.false_and, Bool.or_false,
        Bool.or_eq_false_iff, decide_eq_false_iff_not]
      exact ⟨fun e => h2 e.symm, fun e => h3 e.symm, fun e => h4 e.symm, fun e => h5 e.symm, fun e => h6 e.symm⟩
    rw [this]; rfl
  | true =>
    simp only [-String.reduceToList, he, if_true] at ok no
    by_cases g1 : name = "qmd_keywords".toList
    · rw [ok .keywords (by rw [if_pos g1])]; subst g1
      show soFar ((split ',' data).foldl (closeKeyword env) s) = _
      rw [soFar_keywords, ← named_keywords env.readFloat]
      simp [heard, facts]
    by_cases g2 : name = "qmd_domain".toList
    · rw [ok .domain (by rw [if_neg g1, if_pos g2])]; subst g2
      rw [close_domain, ← named_domain env.readFloat]
      simp [heard, facts]
    by_cases g3 : name = "qmd_description".toList
    · rw [ok .description (by rw [if_neg g1, if_neg g2, if_pos g3])]; subst g3
      rw [close_description, ← named_description env.readFloat]
      simp [heard, facts]
    by_cases g4 : name = "qmd_title".toList
    · rw [ok .title (by rw [if_neg g1, if_neg g2, if_neg g3, if_pos g4])]; subst g4
      rw [close_title, ← named_title env.readFloat]
      simp [heard, facts]
    by_cases g5 : name = "qmd_author".toList
    · rw [ok (.contributor "author".toList) (by rw [if_neg g1, if_neg g2, if_neg g3, if_neg g4, if_pos g5])]; subst g5
      rw [close_contributor env s _ data (fun e => hh ⟨e, by simp⟩), ← named_people env.readFloat data _ (by simp)]
      simp [heard, facts]
    by_cases g6 : name = "qmd_organisation".toList
    · rw [ok .organisation (by rw [if_neg g1, if_neg g2, if_neg g3, if_neg g4, if_neg g5, if_pos g6])]; subst g6
      rw [close_organisation env s data (fun e => hh ⟨e, by simp⟩), ← named_organisation env.readFloat data]
      simp [heard, facts]
    rw [no (by rw [if_neg g1, if_neg g2, if_neg g3, if_neg g4, if_neg g5, if_neg g6])]
    have : heard true (.element name data) = false := by
      simp only [-String.reduceToList, heard, List.any_cons, List.any_nil, Bool.true_and, Bool.or_false,
        Bool.or_eq_false_iff, decide_eq_false_iff_not]
      exact ⟨⟨fun e => h2 e.symm, fun e => h3 e.symm, fun e => h4 e.symm, fun e => h5 e.symm, fun e => h6 e.symm⟩,
        fun e => g1 e.symm, fun e => g2 e.symm, fun e => g3 e.symm, fun e => g4 e.symm, fun e => g5 e.symm,
        fun e => g6 e.symm⟩
    rw [this]; rfl

theorem named_strip_texts (make : Str → Fact) (data : Str) : texts make (strip data) = texts make data := by
  unfold texts; rw [strip_strip]

theorem setLabel_bare (label : Str) : setLabel label = bare (lower (strip label)) := rfl

theorem soFar_field (env : Env) (s : State) (label : Str) (entry : Option Str) (hh : ¬ Hollow (.field (some label) entry))
    (s' : State) (h : readEntry env s (.field (some label) entry) = .ok s') :
    soFar s' = (if heard env.ext (.field (some label) entry) then facts env.readFloat (.field (some label) entry)
      else []).foldl (learn env) (soFar s) := by
  simp only [readEntry, setLabel_bare] at h
  have hheard : heard env.ext (.field (some label) entry) = ["maximumscore", "marks", "name", "syllabusarea", "author",
      "creator", "owner", "status", "layoutstatus"].any (·.toList = bare (lower (strip label))) := rfl
  rw [hheard]
  clear hheard
  have hfacts : ∀ e, entry = some e → facts env.readFloat (.field (some label) entry)
      = named env.readFloat (bare (lower (strip label))) e := by rintro e rfl; rfl
  have hhollow : ∀ e, entry = some e → bare (lower (strip label)) ∈ ["author".toList, "creator".toList, "owner".toList] →
      strip e ≠ [] := by rintro e rfl hm he; exact hh ⟨he, hm⟩
  clear hh
  revert h hfacts hhollow
  generalize bare (lower (strip label)) = l
  intro h hfacts hhollow
  cases entry with
  | none =>
    cases hk : fieldKind l with
    | some k => simp [hk] at h
    | none =>
      simp [hk] at h
      subst h
      rw [show facts env.readFloat (.field (some label) none) = [] from rfl, ite_self]
      rfl
  | some e =>
    have hf := hfacts e rfl
    have hho := hhollow e rfl
    clear hfacts hhollow
    rw [hf]
    have ok : ∀ k, fieldKind l = some k → s' = close env s k (strip e) := by
      intro k hk; simp [hk] at h; exact h.symm
    have no : fieldKind l = none → s' = s := by
      intro hk; simp [hk] at h; exact h.symm
    clear h hf
    unfold fieldKind at ok no
    have hs := strip_strip e
    by_cases h1 : l = "maximumscore".toList ∨ l = "marks".toList
    · rw [ok .maximum (by rw [if_pos h1]), close_maximum, strip_strip]
      rcases h1 with rfl | rfl
      · rw [← named_maximum env.readFloat]; simp
      · rw [← named_marks env.readFloat]; simp
    by_cases h2 : l = "name".toList
    · rw [ok .title (by rw [if_neg h1, if_pos h2]), close_title, named_strip_texts]
      subst h2
      rw [← named_name env.readFloat]; simp
    by_cases h3 : l = "syllabusarea".toList
    · rw [ok .topic (by rw [if_neg h1, if_neg h2, if_pos h3]), close_topic, named_strip_texts]
      subst h3
      rw [← named_area env.readFloat]; simp
    by_cases h4 : l = "author".toList ∨ l = "creator".toList ∨ l = "owner".toList
    · rw [ok (.contributor l) (by rw [if_neg h1, if_neg h2, if_neg h3, if_pos h4])]
      have hm : l ∈ ["author".toList, "creator".toList, "owner".toList] := by simpa using h4
      rw [close_contributor env s l _ (by rw [hs]; exact hho hm), named_strip_texts,
        ← named_people env.readFloat e l hm]
      rcases h4 with rfl | rfl | rfl <;> simp
    by_cases h5 : l = "itemtype".toList ∨ l = "item type".toList ∨ l = "question type".toList
    · rw [ok .itemType (by rw [if_neg h1, if_neg h2, if_neg h3, if_neg h4, if_pos h5])]
      rcases h5 with rfl | rfl | rfl <;> simp [close]
    by_cases h6 : l = "status".toList ∨ l = "layoutstatus".toList
    · rw [ok .status (by rw [if_neg h1, if_neg h2, if_neg h3, if_neg h4, if_neg h5, if_pos h6]), close_status,
        named_strip_texts]
      rcases h6 with rfl | rfl
      · rw [← named_status env.readFloat]; simp
      · rw [← named_layout env.readFloat]; simp
    rw [no (by rw [if_neg h1, if_neg h2, if_neg h3, if_neg h4, if_neg h5, if_neg h6])]
    have : (["maximumscore", "marks", "name", "syllabusarea", "author", "creator", "owner", "status",
        "layoutstatus"].any (·.toList = l)) = false := by
      simp only [-String.reduceToList, List.any_cons, List.any_nil, Bool.or_false,
        Bool.or_eq_false_iff, decide_eq_false_iff_not]
      exact ⟨fun e => h1 (.inl e.symm), fun e => h1 (.inr e.symm), fun e => h2 e.symm, fun e => h3 e.symm,
        fun e => h4 (.inl e.symm), fun e => h4 (.inr (.inl e.symm)), fun e => h4 (.inr (.inr e.symm)),
        fun e => h6 (.inl e.symm), fun e => h6 (.inr e.symm)⟩
    rw [this]; rfl

theorem soFar_entry (env : Env) (s : State) (e : Entry) (hh : ¬ Hollow e) (s' : State) (h : readEntry env s e = .ok s') :
    soFar s' = (if heard env.ext e then facts env.readFloat e else []).foldl (learn env) (soFar s) := by
  match e with
  | .element name data => exact soFar_element env s name data hh s' h
  | .field (some label) entry => exact soFar_field env s label entry hh s' h
  | .field none entry => injection h with h; subst h; rfl
  | .objectives text => injection h with h; subst h; exact soFar_topic env s text

theorem soFar_entries (env : Env) : ∀ (es : List Entry) (s s' : State), (∀ e ∈ es, ¬ Hollow e) →
    readEntries env s es = .ok s' →
    soFar s' = ((es.filter (heard env.ext)).flatMap (facts env.readFloat)).foldl (learn env) (soFar s)
  | [], s, s', _, h => by injection h with h; subst h; rfl
  | e :: es, s, s', hh, h => by
    unfold readEntries at h
    cases h1 : readEntry env s e with
    | error x => simp [h1] at h
    | ok s1 =>
      simp only [h1] at h
      rw [soFar_entries env es s1 s' (fun e he => hh e (by simp [he])) h,
        soFar_entry env s e (hh e (by simp)) s1 h1]
      cases hk : heard env.ext e <;> simp [hk]

theorem lastOf_cons {α : Type} (pick : Fact → Option α) (f : Fact) (fs : List Fact) :
    lastOf pick (f :: fs) = (lastOf pick fs <|> pick f) := by
  unfold lastOf
  cases h : pick f with
  | none => simp [h]
  | some a =>
    simp only [List.filterMap_cons, h, List.getLast?_cons]
    cases (List.filterMap pick fs).getLast? <;> rfl

/-- All that is learned, place by place. -/
theorem learned (env : Env) : ∀ (fs : List Fact) (h : Held), fs.foldl (learn env) h =
    { title := if (ownTitle env.itemTitle).isSome then h.title
        else ((lastOf title? fs).map fun t => { text := t, lang := env.lang }) <|> h.title
      descriptions := h.descriptions ++ (fs.filterMap (description? (ownTitle env.itemTitle).isSome)).map
        fun t => { text := t, lang := env.lang }
      keywords := h.keywords ++ (fs.filterMap keyword?).map fun t => { text := t, lang := env.lang }
      topics := h.topics ++ (fs.filterMap topic?).map fun t => { text := t, lang := env.lang }
      contexts := h.contexts ++ fs.filterMap context?
      difficulty := lastOf difficulty? fs <|> h.difficulty
      status := lastOf status? fs <|> h.status
      contributions := h.contributions ++
        if env.vobject then fs.filterMap (contribution? env.personCard env.orgCard) else []
      vendor := lastOf vendor? fs <|> h.vendor
      maximum := lastOf maximum? fs <|> h.maximum }
  | [], h => by
    cases h
    cases env.vobject <;> cases (ownTitle env.itemTitle).isSome <;> simp [lastOf]
  | f :: fs, h => by
    rw [List.foldl_cons, learned env fs]
    simp only [lastOf_cons, List.filterMap_cons]
    cases f <;> cases hv : env.vobject <;> cases ht : (ownTitle env.itemTitle).isSome <;>
      simp [learn, hv, ht, title?, description?, keyword?, topic?, context?, difficulty?, status?, vendor?, maximum?,
        contribution?]

/-- The educational metadata are not in the resource before the item is closed. -/
theorem close_educational (env : Env) (s : State) (k : Kind) (data : Str) :
    (close env s k data).lom.educational = s.lom.educational := by
  have hk : ∀ (ps : List Str) (s : State), (ps.foldl (closeKeyword env) s).lom.educational = s.lom.educational := by
    intro ps
    induction ps with
    | nil => intro s; rfl
    | cons p ps ih =>
      intro s
      rw [List.foldl_cons, ih]
      unfold closeKeyword
      split <;> rfl
  have ht : ∀ (f : Str → State), (∀ t, (f t).lom.educational = s.lom.educational) →
      (ifText data s f).lom.educational = s.lom.educational := by
    intro f hf; unfold ifText; split
    · rfl
    · exact hf _
  cases k with
  | maximum => unfold close; cases env.readFloat (strip data) <;> rfl
  | level =>
    show (closeLevel s data).lom.educational = _
    unfold closeLevel
    simp only
    split <;> rfl
  | keywords => exact hk _ s
  | domain => exact ht _ fun t => rfl
  | topic => exact ht _ fun t => rfl
  | description => exact ht _ fun t => rfl
  | title =>
    refine ht _ fun t => ?_
    unfold setTitle
    split <;> rfl
  | contributor role =>
    show (closeContributor env s role data).lom.educational = _
    unfold closeContributor
    split <;> rfl
  | organisation =>
    show (closeOrganisation env s data).lom.educational = _
    unfold closeOrganisation
    split <;> rfl
  | vendor => exact ht _ fun t => rfl
  | status => exact ht _ fun t => rfl
  | itemType => rfl

theorem entry_educational (env : Env) (s s' : State) (e : Entry) (h : readEntry env s e = .ok s') :
    s'.lom.educational = s.lom.educational := by
  match e with
  | .element name data =>
    unfold readEntry at h
    cases hk : elementKind env.ext name <;> simp [hk] at h <;> subst h
    · rfl
    · exact close_educational env s _ data
  | .field none entry => injection h with h; subst h; rfl
  | .field (some label) entry =>
    simp only [readEntry] at h
    cases hk : fieldKind (setLabel label) with
    | none => simp [hk] at h; subst h; rfl
    | some k =>
      cases entry with
      | none => simp [hk] at h
      | some x => simp [hk] at h; subst h; exact close_educational env s k _
  | .objectives text => injection h with h; subst h; rfl

theorem entries_educational (env : Env) : ∀ (es : List Entry) (s s' : State), readEntries env s es = .ok s' →
    s'.lom.educational = s.lom.educational
  | [], s, s', h => by injection h with h; subst h; rfl
  | e :: es, s, s', h => by
    unfold readEntries at h
    cases h1 : readEntry env s e with
    | error x => simp [h1] at h
    | ok s1 =>
      simp only [h1] at h
      rw [entries_educational env es s1 s' h, entry_educational env s s1 e h1]

/-- Closing the item moves the educational metadata to the resource and puts the item's own title there. -/
theorem held_close (env : Env) (s : State) (hs : s.lom.educational = []) (n : Nat) (ts : List Str) (fb : Bool) :
    held (closeItem env s n ts fb) = { soFar s with
      title := ((ownTitle env.itemTitle).map fun t => { text := t, lang := env.lang }) <|> (soFar s).title } := by
  rcases s with ⟨⟨g, l, e⟩, ed, q, m⟩
  dsimp only at hs
  subst hs
  unfold closeItem
  generalize "nonadaptive".toList = a
  generalize "none".toList = b
  rcases hi : env.itemTitle with _ | _ | ⟨c, t⟩ <;> rcases ed with _ | ed <;> rcases g with _ | g <;>
    simp [given?, held, soFar, ownTitle, onGeneral, general] <;> (cases ed.difficulty <;> rfl)

/-- **C79.**  What the metadata of the resource hold, for every list of metadata of an item that can be read: what the
pieces that are listened to say, each in its place and in order.  Titles, difficulty, status, vendor and maximum score
have one place: the last one stays.  The pieces without text that make an empty entry are excluded. -/
theorem item_metadata_partial (env : Env) (ident : Option Str) (es : List Entry) (n : Nat) (ts : List Str) (fb : Bool)
    (s : State) (hh : ∀ e ∈ es, ¬ Hollow e) (h : itemMeta env ident es n ts fb = .ok s) :
    held s = holds env ((es.filter (heard env.ext)).flatMap (facts env.readFloat)) := by
  unfold itemMeta at h
  cases h1 : readEntries env (start ident) es with
  | error x => simp [h1] at h
  | ok s1 =>
    simp only [h1] at h
    injection h with h
    subst h
    have h0 : soFar (start ident) = ⟨none, [], [], [], [], none, none, [], none, none⟩ := by cases ident <;> rfl
    rw [held_close env s1 (by rw [entries_educational env es _ s1 h1]; cases ident <;> rfl),
      soFar_entries env es _ s1 hh h1, h0, learned]
    unfold holds
    cases ownTitle env.itemTitle <;> simp

/-- **C79.**  Reading fails only at a field with a label that is listened to and without an entry. -/
theorem item_metadata_read (env : Env) (ident : Option Str) (n : Nat) (ts : List Str) (fb : Bool) (es : List Entry) :
    (∃ s, itemMeta env ident es n ts fb = .ok s) ↔
      ∀ label, .field (some label) none ∈ es → fieldKind (setLabel label) = none := by
  have key : ∀ (es : List Entry) (s : State), (∃ s', readEntries env s es = .ok s') ↔
      ∀ label, .field (some label) none ∈ es → fieldKind (setLabel label) = none := by
    intro es
    induction es with
    | nil => intro s; simp [readEntries]
    | cons e es ih =>
      intro s
      unfold readEntries
      match e with
      | .element name data =>
        have : ∃ s1, readEntry env s (.element name data) = .ok s1 := by
          cases hk : elementKind env.ext name <;> simp [readEntry, hk]
        obtain ⟨s1, h1⟩ := this
        simp only [h1, ih]
        simp
      | .field none entry =>
        simp only [readEntry, ih]
        simp
      | .objectives text =>
        simp only [readEntry, ih]
        simp
      | .field (some label) entry =>
        simp only [readEntry]
        cases hk : fieldKind (setLabel label) with
        | none =>
          simp only [ih]
          constructor
          · intro h l hl
            rcases List.mem_cons.1 hl with e | hl
            · injection e with e1 e2; injection e1 with e1; subst e1; exact hk
            · exact h l hl
          · exact fun h l hl => h l (by simp [hl])
        | some k =>
          cases entry with
          | none =>
            constructor
            · rintro ⟨s', h⟩; cases h
            · intro h
              have := h label (by simp)
              rw [hk] at this; cases this
          | some x =>
            simp only [ih]
            simp
  have := key es (start ident)
  rw [← this]
  unfold itemMeta
  cases readEntries env (start ident) es <;> simp

/-- An item whose metadata are read with all extensions, and whose numbers are not. -/
def metaEnv : Env where
  ext := true
  vobject := true
  lang := some "en".toList
  itemTitle := none
  readFloat := fun _ => none
  personCard := id
  orgCard := id

/-- Metadata of many kinds, two titles among them. -/
def metaSample : List Entry :=
  [.element "qmd_keywords".toList "algebra, groups ,".toList, .element "qmd_title".toList " First ".toList,
   .field (some "QMD_Name".toList) (some "Second".toList), .element "qmd_levelofdifficulty".toList "HE/FE".toList,
   .element "qmd_levelofdifficulty".toList "Easy".toList, .field (some "author".toList) (some "Ann,Ben".toList),
   .element "qmd_status".toList "final".toList, .objectives "Know groups".toList]

/-- The sample meets the hypotheses, and all of it is kept but the first title. -/
theorem metaSample_held : (∀ e ∈ metaSample, ¬ Hollow e) ∧
    ∃ s, itemMeta metaEnv (some "i1".toList) metaSample 1 ["choiceInteraction".toList] false = .ok s ∧
      (held s).keywords.map (·.text) = ["algebra".toList, "groups".toList] ∧
      (held s).title.map (·.text) = some "Second".toList ∧
      (held s).contexts = ["higher education".toList] ∧ (held s).difficulty = some "easy".toList ∧
      (held s).status = some "final".toList ∧
      (held s).contributions = [("author".toList, ["Ann".toList, "Ben".toList])] ∧
      (held s).topics.map (·.text) = ["Know groups".toList] := by
  refine ⟨?_, _, rfl, ?_⟩
  · intro e he
    simp only [-String.reduceToList, metaSample, List.mem_cons, List.not_mem_nil, or_false] at he
    rcases he with rfl | rfl | rfl | rfl | rfl | rfl | rfl | rfl <;> unfold Hollow <;> decide +kernel
  · decide +kernel

/-- **C79, refuted.**  A field may carry the label of a QTI element and still be dropped: a topic, here. -/
theorem field_topic_lost : ∃ s, itemMeta metaEnv none [.field (some "qmd_topic".toList) (some "Groups".toList)] 1 [] false = .ok s ∧
    (held s).topics = [] ∧
    (holds metaEnv (facts metaEnv.readFloat (.field (some "qmd_topic".toList) (some "Groups".toList)))).topics.map (·.text)
      = ["Groups".toList] :=
  ⟨_, rfl, rfl, by decide +kernel⟩

/-- **C79, refuted.**  Of two titles the first is nowhere in the metadata. -/
theorem first_title_lost : ∃ s, itemMeta metaEnv none
    [.element "qmd_title".toList "First".toList, .element "qmd_title".toList "Second".toList] 1 [] false = .ok s ∧
    (held s).title.map (·.text) = some "Second".toList ∧ (held s).descriptions = [] ∧ (held s).keywords = [] ∧
    (held s).topics = [] := by
  refine ⟨_, rfl, ?_⟩
  decide +kernel

/-- **C79, refuted.**  An empty author makes a contribution by nobody, an empty level an empty difficulty. -/
theorem hollow_entries : ∃ s, itemMeta metaEnv none
    [.element "qmd_author".toList [], .element "qmd_levelofdifficulty".toList " ".toList] 1 [] false = .ok s ∧
    (held s).contributions = [("author".toList, [])] ∧ (held s).difficulty = some [] := by
  refine ⟨_, rfl, ?_⟩
  decide +kernel

/-- **C79, refuted.**  A field without an entry ends the migration with an exception. -/
theorem missing_entry_fails :
    itemMeta metaEnv none [.field (some "author".toList) none] 1 [] false = .error .typeError := by rfl

/-! ## Terms of LOM -/

/-- What holds of the sources and values kept while the item is read. -/
def Terms (s : State) : Prop :=
  (∀ e, s.educational = some e → (∀ c ∈ e.context, Term lomContexts c) ∧
    ∀ d, e.difficulty = some d → Term lomDifficulties d) ∧
  (∀ l, s.lom.lifecycle = some l →
    (∀ v, l.status = some v → v.1.text = "LOMv1.0".toList → lower v.2.text ∈ lomStatuses) ∧
    ∀ c ∈ l.contribute, Term (lomRoles ++ ["creator".toList, "owner".toList]) c.role)

theorem terms_general {s s' : State} (h : Terms s) (he : s'.educational = s.educational)
    (hl : s'.lom.lifecycle = s.lom.lifecycle) : Terms s' := by
  unfold Terms; rw [he, hl]; exact h

theorem terms_educational {s : State} (h : Terms s) (f : Educational → Educational)
    (hf : ∀ e, ((∀ c ∈ e.context, Term lomContexts c) ∧ ∀ d, e.difficulty = some d → Term lomDifficulties d) →
      (∀ c ∈ (f e).context, Term lomContexts c) ∧ ∀ d, (f e).difficulty = some d → Term lomDifficulties d) :
    Terms (onEducational s f) := by
  refine ⟨?_, h.2⟩
  intro e he
  injection he with he
  subst he
  apply hf
  cases hs : s.educational with
  | none => exact ⟨by intro c hc; simp at hc, by intro d hd; simp at hd⟩
  | some e => exact h.1 e hs

theorem terms_lifecycle {s : State} (h : Terms s) (f : Lifecycle → Lifecycle)
    (hf : ∀ l, ((∀ v, l.status = some v → v.1.text = "LOMv1.0".toList → lower v.2.text ∈ lomStatuses) ∧
      ∀ c ∈ l.contribute, Term (lomRoles ++ ["creator".toList, "owner".toList]) c.role) →
      (∀ v, (f l).status = some v → v.1.text = "LOMv1.0".toList → lower v.2.text ∈ lomStatuses) ∧
      ∀ c ∈ (f l).contribute, Term (lomRoles ++ ["creator".toList, "owner".toList]) c.role) :
    Terms (onLifecycle s f) := by
  refine ⟨h.1, ?_⟩
  intro l hl
  injection hl with hl
  subst hl
  apply hf
  show _ ∧ _
  unfold lifecycle
  cases hs : s.lom.lifecycle with
  | none => exact ⟨by intro c hc; simp at hc, by intro d hd; simp at hd⟩
  | some e => exact h.2 e hs

theorem none_not_lom : "None".toList ≠ "LOMv1.0".toList := by decide +kernel
theorem qti_not_lom : "QTIv1".toList ≠ "LOMv1.0".toList := by decide +kernel

theorem terms_context {s : State} (h : Terms s) (t : Str) (b : Bool) (hb : b = true → t ∈ lomContexts) :
    Terms (addContext s t b) := by
  refine terms_educational h _ fun e he => ⟨?_, he.2⟩
  intro c hc
  rcases List.mem_append.1 hc with hc | hc
  · exact he.1 c hc
  · rw [List.mem_singleton.1 hc]
    intro hs
    cases b with
    | true => exact hb rfl
    | false => exact absurd hs none_not_lom

theorem terms_difficulty {s : State} (h : Terms s) (t : Str) (b : Bool) (hb : b = true → t ∈ lomDifficulties) :
    Terms (setDifficulty s t b) := by
  refine terms_educational h _ fun e he => ⟨he.1, ?_⟩
  intro d hd
  injection hd with hd
  subst hd
  intro hs
  cases b with
  | true => exact hb rfl
  | false => exact absurd hs none_not_lom

theorem terms_level {s : State} (h : Terms s) (data : Str) : Terms (closeLevel s data) := by
  unfold closeLevel levelMap
  simp only [-String.reduceToList]
  generalize lower (strip data) = d
  by_cases h1 : d = "pre-school".toList
  · rw [if_pos h1]; exact terms_context h _ _ (by intro e; cases e)
  by_cases h2 : d = "school".toList
  · rw [if_neg h1, if_pos h2]; exact terms_context h _ _ (by intro _; decide +kernel)
  by_cases h3 : d = "he/fe".toList
  · rw [if_neg h1, if_neg h2, if_pos h3]; exact terms_context h _ _ (by intro _; decide +kernel)
  by_cases h4 : d = "vocational".toList
  · rw [if_neg h1, if_neg h2, if_neg h3, if_pos h4]; exact terms_context h _ _ (by intro e; cases e)
  by_cases h5 : d = "professional development".toList
  · rw [if_neg h1, if_neg h2, if_neg h3, if_neg h4, if_pos h5]; exact terms_context h _ _ (by intro _; decide +kernel)
  rw [if_neg h1, if_neg h2, if_neg h3, if_neg h4, if_neg h5]
  refine terms_difficulty h _ _ fun hd => ?_
  have : difficulties = lomDifficulties := by decide +kernel
  rw [← this]
  simpa using hd

theorem terms_status {s : State} (h : Terms s) (v : Str) : Terms (setStatus s (statusSource v) v) := by
  refine terms_lifecycle h _ fun l hl => ⟨?_, hl.2⟩
  intro w hw hs
  injection hw with hw
  subst hw
  have hs : statusSource v = "LOMv1.0".toList := hs
  show lower v ∈ lomStatuses
  unfold statusSource at hs
  simp only [-String.reduceToList] at hs
  revert hs
  generalize lower v = d
  intro hs
  by_cases h1 : d = "draft".toList ∨ d = "final".toList ∨ d = "revised".toList ∨ d = "unavailable".toList
  · rcases h1 with rfl | rfl | rfl | rfl <;> decide +kernel
  · rw [if_neg h1] at hs
    by_cases h2 : d = "experimental".toList ∨ d = "normal".toList ∨ d = "retired".toList
    · rw [if_pos h2] at hs; exact absurd hs qti_not_lom
    · rw [if_neg h2] at hs; exact absurd hs none_not_lom

theorem terms_contributor {s : State} (h : Terms s) (c : Contribute)
    (hc : Term (lomRoles ++ ["creator".toList, "owner".toList]) c.role) : Terms (addContributor s c) := by
  refine terms_lifecycle h _ fun l hl => ⟨hl.1, ?_⟩
  intro d hd
  rcases List.mem_append.1 hd with hd | hd
  · exact hl.2 d hd
  · rw [List.mem_singleton.1 hd]; exact hc

theorem terms_close (env : Env) {s : State} (h : Terms s) (k : Kind) (data : Str) : Terms (close env s k data) := by
  have ht : ∀ (f : Str → State), (∀ t, Terms (f t)) → Terms (ifText data s f) := by
    intro f hf; unfold ifText; split
    · exact h
    · exact hf _
  cases k with
  | maximum =>
    unfold close
    cases env.readFloat (strip data)
    · exact h
    · exact terms_general h rfl rfl
  | level => exact terms_level h data
  | keywords =>
    show Terms ((split ',' data).foldl (closeKeyword env) s)
    generalize split ',' data = ps
    revert s
    induction ps with
    | nil => intro s h _; exact h
    | cons p ps ih =>
      intro s h _
      have h1 : Terms (closeKeyword env s p) := by
        unfold closeKeyword
        split
        · exact h
        · exact terms_general h rfl rfl
      refine ih h1 ?_
      intro f hf; unfold ifText; split
      · exact h1
      · exact hf _
  | domain => exact ht _ fun t => terms_general h rfl rfl
  | topic => exact ht _ fun t => terms_educational h _ fun e he => he
  | description => exact ht _ fun t => terms_general h rfl rfl
  | title =>
    refine ht _ fun t => ?_
    unfold setTitle
    split <;> exact terms_general h rfl rfl
  | contributor role =>
    show Terms (closeContributor env s role data)
    unfold closeContributor
    split
    · refine terms_contributor h _ ?_
      by_cases hr : role = "author".toList ∨ role = "creator".toList ∨ role = "owner".toList
      · intro _
        show role ∈ _
        rcases hr with rfl | rfl | rfl <;> decide +kernel
      · intro hs
        rw [if_neg hr] at hs
        exact absurd hs none_not_lom
    · exact h
  | organisation =>
    show Terms (closeOrganisation env s data)
    unfold closeOrganisation
    split
    · refine terms_contributor h _ fun _ => ?_
      show "unknown".toList ∈ _
      decide +kernel
    · exact h
  | vendor => exact ht _ fun t => terms_general h rfl rfl
  | status => exact ht (fun v => setStatus s (statusSource v) v) fun t => terms_status h t
  | itemType => exact h

theorem terms_entries (env : Env) : ∀ (es : List Entry) (s s' : State), Terms s → readEntries env s es = .ok s' → Terms s'
  | [], s, s', hs, h => by injection h with h; subst h; exact hs
  | e :: es, s, s', hs, h => by
    unfold readEntries at h
    cases h1 : readEntry env s e with
    | error x => simp [h1] at h
    | ok s1 =>
      simp only [h1] at h
      refine terms_entries env es s1 s' ?_ h
      match e with
      | .element name data =>
        cases hk : elementKind env.ext name <;> simp [readEntry, hk] at h1 <;> subst h1
        · exact hs
        · exact terms_close env hs _ data
      | .field none entry => injection h1 with h1; subst h1; exact hs
      | .field (some label) entry =>
        simp only [readEntry] at h1
        cases hk : fieldKind (setLabel label) with
        | none => simp [hk] at h1; subst h1; exact hs
        | some k =>
          cases entry with
          | none => simp [hk] at h1
          | some x => simp [hk] at h1; subst h1; exact terms_close env hs k _
      | .objectives text => injection h1 with h1; subst h1; exact terms_educational hs _ fun e he => he

/-- **C80.**  Whatever the metadata of an item, every context and difficulty said to be of LOM in the resource is a
term of LOM; a status is one up to the case of its letters; a role is one unless it is creator or owner. -/
theorem lom_terms_partial (env : Env) (ident : Option Str) (es : List Entry) (n : Nat) (ts : List Str) (fb : Bool)
    (s : State) (h : itemMeta env ident es n ts fb = .ok s) :
    (∀ e ∈ s.lom.educational, (∀ c ∈ e.context, Term lomContexts c) ∧ ∀ d ∈ e.difficulty, Term lomDifficulties d) ∧
    (∀ l ∈ s.lom.lifecycle, (∀ v ∈ l.status, v.1.text = "LOMv1.0".toList → lower v.2.text ∈ lomStatuses) ∧
      ∀ c ∈ l.contribute, Term (lomRoles ++ ["creator".toList, "owner".toList]) c.role) := by
  unfold itemMeta at h
  cases h1 : readEntries env (start ident) es with
  | error x => simp [h1] at h
  | ok s1 =>
    simp only [h1] at h
    injection h with h
    have ht : Terms s1 := terms_entries env es _ s1 (by
      constructor
      · intro e he; cases ident <;> cases he
      · intro e he; cases ident <;> cases he) h1
    have he : s1.lom.educational = [] := by rw [entries_educational env es _ s1 h1]; cases ident <;> rfl
    have e1 : s.lom.educational = s1.educational.toList := by
      subst h
      unfold closeItem
      simp only [-String.reduceToList]
      cases s1.educational <;> simp only [he] <;> split <;> (try simp only [onGeneral, he]) <;> rfl
    have e2 : s.lom.lifecycle = s1.lom.lifecycle := by
      subst h
      unfold closeItem
      simp only [-String.reduceToList]
      cases s1.educational <;> split <;> rfl
    rw [e1, e2]
    exact ⟨fun e he => ht.1 e (by simpa using he), fun l hl => ht.2 l hl⟩

/-- **C80, refuted.**  A creator is written under LOM, which has no such role, and so is a draft spelled `Draft`. -/
theorem lom_terms_refuted : ∃ s l c v, itemMeta metaEnv none
    [.field (some "creator".toList) (some "Ann".toList), .element "qmd_status".toList "Draft".toList] 1 [] false = .ok s ∧
    s.lom.lifecycle = some l ∧ c ∈ l.contribute ∧ ¬ Term lomRoles c.role ∧ l.status = some v ∧ ¬ Term lomStatuses v := by
  refine ⟨_, _, _, _, rfl, rfl, List.mem_singleton.2 rfl, ?_, rfl, ?_⟩
  · intro h
    have := h rfl
    revert this
    decide +kernel
  · intro h
    have := h (by decide +kernel)
    revert this
    decide +kernel

/-! ## What the item is like -/

theorem addTypes_spec : ∀ (xs ts : List Str), ts.Nodup → (addTypes ts xs).Nodup ∧
    ∀ x, x ∈ addTypes ts xs ↔ x ∈ ts ∨ x ∈ xs
  | [], ts, h => ⟨h, fun x => by simp [addTypes]⟩
  | y :: xs, ts, h => by
    have key : addTypes ts (y :: xs) = addTypes (if ts.contains y then ts else ts ++ [y]) xs := rfl
    rw [key]
    by_cases hy : y ∈ ts
    · rw [if_pos (by simpa using hy)]
      obtain ⟨h1, h2⟩ := addTypes_spec xs ts h
      refine ⟨h1, fun x => ?_⟩
      rw [h2]
      constructor
      · rintro (h | h)
        · exact .inl h
        · exact .inr (by simp [h])
      · rintro (h | h)
        · exact .inl h
        · rcases List.mem_cons.1 h with rfl | h
          · exact .inl hy
          · exact .inr h
    · rw [if_neg (by simpa using hy)]
      have hn : (ts ++ [y]).Nodup := by
        rw [List.nodup_append]
        exact ⟨h, by simp, by intro a ha b hb; rw [List.mem_singleton.1 hb]; exact fun e => hy (e ▸ ha)⟩
      obtain ⟨h1, h2⟩ := addTypes_spec xs _ hn
      refine ⟨h1, fun x => ?_⟩
      rw [h2]
      simp only [List.mem_append, List.mem_cons, List.not_mem_nil, or_false, or_assoc]

/-- What reading one piece leaves alone: identifiers, and all of the QTI metadata but the vendor. -/
def Kept (s s' : State) : Prop :=
  s'.lom.general.elim [] (·.identifier) = s.lom.general.elim [] (·.identifier) ∧
  s'.qtiMD.interactionTypes = s.qtiMD.interactionTypes

theorem Kept.trans {s t u : State} (h : Kept s t) (g : Kept t u) : Kept s u :=
  ⟨g.1.trans h.1, g.2.trans h.2⟩

theorem kept_general (s : State) (f : General → General) (hf : ∀ g, (f g).identifier = g.identifier) :
    Kept s (onGeneral s f) := by
  refine ⟨?_, rfl⟩
  show (f (general s)).identifier = _
  rw [hf]
  unfold general
  cases s.lom.general <;> rfl

theorem kept_close (env : Env) (s : State) (k : Kind) (data : Str) : Kept s (close env s k data) := by
  have ht : ∀ (f : Str → State), (∀ t, Kept s (f t)) → Kept s (ifText data s f) := by
    intro f hf; unfold ifText; split
    · exact ⟨rfl, rfl⟩
    · exact hf _
  cases k with
  | maximum => unfold close; cases env.readFloat (strip data) <;> exact ⟨rfl, rfl⟩
  | level =>
    show Kept s (closeLevel s data)
    unfold closeLevel
    simp only
    split <;> exact ⟨rfl, rfl⟩
  | keywords =>
    show Kept s ((split ',' data).foldl (closeKeyword env) s)
    generalize split ',' data = ps
    clear ht
    induction ps generalizing s with
    | nil => exact ⟨rfl, rfl⟩
    | cons p ps ih =>
      refine Kept.trans ?_ (ih (closeKeyword env s p))
      unfold closeKeyword
      split
      · exact ⟨rfl, rfl⟩
      · exact kept_general s _ fun g => rfl
  | domain => exact ht _ fun t => kept_general s _ fun g => rfl
  | topic => exact ht _ fun t => ⟨rfl, rfl⟩
  | description => exact ht _ fun t => kept_general s _ fun g => rfl
  | title =>
    refine ht _ fun t => ?_
    unfold setTitle
    split <;> exact kept_general s _ fun g => rfl
  | contributor role =>
    show Kept s (closeContributor env s role data)
    unfold closeContributor
    split <;> exact ⟨rfl, rfl⟩
  | organisation =>
    show Kept s (closeOrganisation env s data)
    unfold closeOrganisation
    split <;> exact ⟨rfl, rfl⟩
  | vendor => exact ht _ fun t => ⟨rfl, rfl⟩
  | status => exact ht _ fun t => ⟨rfl, rfl⟩
  | itemType => exact ⟨rfl, rfl⟩

theorem kept_entries (env : Env) : ∀ (es : List Entry) (s s' : State), readEntries env s es = .ok s' → Kept s s'
  | [], s, s', h => by injection h with h; subst h; exact ⟨rfl, rfl⟩
  | e :: es, s, s', h => by
    unfold readEntries at h
    cases h1 : readEntry env s e with
    | error x => simp [h1] at h
    | ok s1 =>
      simp only [h1] at h
      refine Kept.trans ?_ (kept_entries env es s1 s' h)
      match e with
      | .element name data =>
        cases hk : elementKind env.ext name <;> simp [readEntry, hk] at h1 <;> subst h1
        · exact ⟨rfl, rfl⟩
        · exact kept_close env s _ data
      | .field none entry => injection h1 with h1; subst h1; exact ⟨rfl, rfl⟩
      | .field (some label) entry =>
        simp only [readEntry] at h1
        cases hk : fieldKind (setLabel label) with
        | none => simp [hk] at h1; subst h1; exact ⟨rfl, rfl⟩
        | some k =>
          cases entry with
          | none => simp [hk] at h1
          | some x => simp [hk] at h1; subst h1; exact kept_close env s k _
      | .objectives text => injection h1 with h1; subst h1; exact ⟨rfl, rfl⟩

/-- **C81.**  Whatever its metadata, the resource of an item has the identifier of the item, and its QTI metadata say
what the item is like: not a template, composite just when there is more than one response, every type of interaction
in it once, feedback just when there is some. -/
theorem item_described (env : Env) (ident : Option Str) (es : List Entry) (n : Nat) (ts : List Str) (fb : Bool)
    (s : State) (h : itemMeta env ident es n ts fb = .ok s) :
    (s.lom.general.elim [] (·.identifier)).map (fun i => (i.catalog, i.entry)) = ident.toList.map (fun i => (none, some i)) ∧
    s.qtiMD.itemTemplate = some false ∧
    (s.qtiMD.composite = some true ↔ 2 ≤ n) ∧ s.qtiMD.composite.isSome ∧
    (∀ t, t ∈ s.qtiMD.interactionTypes ↔ t ∈ ts) ∧ s.qtiMD.interactionTypes.Nodup ∧
    s.qtiMD.feedbackType = some (if fb then "nonadaptive".toList else "none".toList) := by
  unfold itemMeta at h
  cases h1 : readEntries env (start ident) es with
  | error x => simp [h1] at h
  | ok s1 =>
    simp only [h1] at h
    injection h with h
    obtain ⟨k1, k2⟩ := kept_entries env es _ s1 h1
    have e0 : (start ident).qtiMD.interactionTypes = [] := by cases ident <;> rfl
    have e1 : s.lom.general.elim [] (·.identifier) = s1.lom.general.elim [] (·.identifier) := by
      subst h
      unfold closeItem
      simp only [-String.reduceToList]
      cases s1.educational <;> (split <;> (try (unfold onGeneral general)) <;> cases s1.lom.general <;> rfl)
    have e2 : s.qtiMD = { s1.qtiMD with
        itemTemplate := some false
        composite := some (decide (n > 1))
        interactionTypes := addTypes s1.qtiMD.interactionTypes ts
        feedbackType := some (if fb then "nonadaptive".toList else "none".toList) } := by
      subst h
      unfold closeItem
      simp only [-String.reduceToList]
      generalize "nonadaptive".toList = a
      generalize "none".toList = b
      cases s1.educational <;> (split <;> rfl)
    rw [k2, e0] at e2
    obtain ⟨t1, t2⟩ := addTypes_spec ts [] (by simp)
    refine ⟨?_, by rw [e2], ?_, by rw [e2]; rfl, ?_, by rw [e2]; exact t1, by rw [e2]⟩
    · rw [e1, k1]; cases ident <;> rfl
    · rw [e2]; simp; omega
    · intro t; rw [e2]; show t ∈ addTypes [] ts ↔ _; rw [t2]; simp

/-- Two responses, two interactions of one type, feedback. -/
theorem item_described_sample : ∃ s, itemMeta metaEnv (some "i1".toList) metaSample 2
    ["choiceInteraction".toList, "choiceInteraction".toList] true = .ok s ∧
    s.qtiMD.interactionTypes = ["choiceInteraction".toList] ∧ s.qtiMD.composite = some true := by
  refine ⟨_, rfl, ?_⟩
  decide +kernel

end Verif.Props
