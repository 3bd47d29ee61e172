import Verif.Props.CommandLine

/-!
# The inputs of the migration tool

C124: every XML file below the inputs is converted once, and nothing else.
C125: a file that cannot be converted does not spoil the others.
C126: the options of a conversion do not affect later ones.
C127: the comment of a file describes the item or the package.
-/

set_option linter.unusedVariables false
set_option linter.unusedSimpArgs false

namespace Verif.Props

open Verif Verif.Py Verif.CP Verif.Cli

variable {D W : Type}

/-! ## C124 -/

/-- `Below base n path name content`: there is a file called `name` with this path and content at or below `n`, which
is an entry of the directory `base`. -/
inductive Below : Str → Node D → Str → Str → D → Prop where
  | file (base name content) : Below base (.file name content) (pathJoin base name) name content
  | dir (base dirName entries entry path name content) : entry ∈ entries →
      Below (pathJoin base dirName) entry path name content → Below base (.dir dirName entries) path name content

/-- The name ends in `.xml`, in letters of either case. -/
def EndsXml (name : Str) : Prop := ".xml".toList <:+ lower name

/-- At or below `n` there is a name ending in `.xml` that cannot be opened. -/
inductive Unopenable : Node D → Prop where
  | missing (name) : EndsXml name → Unopenable (.missing name)
  | dir (dirName entries entry) : entry ∈ entries → Unopenable entry → Unopenable (.dir dirName entries)

instance (name : Str) : Decidable (EndsXml name) := by unfold EndsXml; infer_instance

mutual
/-- The files to convert at or below an entry of `base`, in the order of the listings, each directory where its name
is. -/
def xmlAt (base : Str) : Node D → List (Str × D)
  | .dir name entries => xmlIn (pathJoin base name) entries
  | .file name content => if EndsXml name then [(pathJoin base name, content)] else []
  | .missing _ => []

/-- The files to convert below the entries of `base`. -/
def xmlIn (base : Str) : List (Node D) → List (Str × D)
  | [] => []
  | n :: ns => xmlAt base n ++ xmlIn base ns
end

theorem isXml_iff (name : Str) : isXml name = true ↔ EndsXml name := by
  unfold isXml EndsXml
  rw [decide_eq_true_iff]
  constructor
  · intro h
    rw [← h]
    unfold lower
    rw [List.map_drop]
    exact List.drop_suffix _ _
  · intro h
    have := List.suffix_iff_eq_drop.mp h
    unfold lower at *
    rw [List.map_drop]
    rw [List.length_map] at this
    exact this.symm

mutual
theorem xmlAt_iff (path : Str) (content : D) : ∀ (n : Node D) (base : Str),
    (path, content) ∈ xmlAt base n ↔ ∃ name, Below base n path name content ∧ EndsXml name
  | .dir name entries, base => by
    rw [xmlAt, xmlIn_iff path content entries]
    constructor
    · rintro ⟨e, he, m, hb, hx⟩
      exact ⟨m, .dir _ _ _ _ _ _ _ he hb, hx⟩
    · rintro ⟨m, hb, hx⟩
      cases hb with
      | dir _ _ _ e _ _ _ he hb => exact ⟨e, he, m, hb, hx⟩
  | .file name c, base => by
    rw [xmlAt]
    constructor
    · intro h
      split at h
      · rw [List.mem_singleton] at h
        injection h with h1 h2
        subst h1 h2
        exact ⟨name, .file _ _ _, by assumption⟩
      · cases h
    · rintro ⟨m, hb, hx⟩
      cases hb with
      | file => rw [if_pos hx]; exact List.mem_singleton.mpr rfl
  | .missing name, base => by
    rw [xmlAt]
    constructor
    · intro h; cases h
    · rintro ⟨m, hb, hx⟩; cases hb

theorem xmlIn_iff (path : Str) (content : D) : ∀ (ns : List (Node D)) (base : Str),
    (path, content) ∈ xmlIn base ns ↔ ∃ n ∈ ns, ∃ name, Below base n path name content ∧ EndsXml name
  | [], base => by simp [xmlIn]
  | n :: ns, base => by
    rw [xmlIn, List.mem_append, xmlAt_iff path content n base, xmlIn_iff path content ns base]
    simp only [List.mem_cons, exists_eq_or_imp]
end

mutual
theorem processFile_eq (parse : Str → D → W → Except Err W) : ∀ (n : Node D) (base : Str) (w : W), ¬ Unopenable n →
    processFile parse base n w = (xmlAt base n).foldlM (fun w f => parse f.1 f.2 w) w
  | .dir name entries, base, w, h => by
    rw [processFile, xmlAt]
    exact processFiles_eq parse entries _ w (fun n hn hu => h (.dir _ _ _ hn hu))
  | .file name c, base, w, h => by
    rw [processFile, xmlAt]
    by_cases hx : EndsXml name
    · rw [if_pos ((isXml_iff name).mpr hx), if_pos hx]
      simp only [List.foldlM_cons, List.foldlM_nil]
      cases parse (pathJoin base name) c w <;> rfl
    · rw [if_neg (fun e => hx ((isXml_iff name).mp e)), if_neg hx]; rfl
  | .missing name, base, w, h => by
    rw [processFile, xmlAt]
    rw [if_neg (fun e => h (.missing _ ((isXml_iff name).mp e)))]; rfl

theorem processFiles_eq (parse : Str → D → W → Except Err W) : ∀ (ns : List (Node D)) (base : Str) (w : W),
    (∀ n ∈ ns, ¬ Unopenable n) →
    processFiles parse base ns w = (xmlIn base ns).foldlM (fun w f => parse f.1 f.2 w) w
  | [], base, w, h => by rw [processFiles, xmlIn]; rfl
  | n :: ns, base, w, h => by
    rw [processFiles, xmlIn, List.foldlM_append, processFile_eq parse n base w (h n List.mem_cons_self)]
    have ih := fun w => processFiles_eq parse ns base w (fun m hm => h m (List.mem_cons_of_mem _ hm))
    congr 1
    funext w
    exact ih w
end

/-- C124: the files that are parsed, in this order and nothing else, are those of a list in which a file is exactly if
it is at or below an input and its name ends in `.xml`.  What is missing: that all names can be opened is assumed
(`stops_refuted`), and a file is on the list twice if the inputs overlap (`twice_refuted`). -/
theorem inputs_partial (base : Str) (inputs : List (Node D)) (h : ∀ n ∈ inputs, ¬ Unopenable n) :
    (∀ path content, (path, content) ∈ xmlIn base inputs ↔
      ∃ n ∈ inputs, ∃ name, Below base n path name content ∧ EndsXml name) ∧
    ∀ (parse : Str → D → W → Except Err W) (w : W),
      processFiles parse base inputs w = (xmlIn base inputs).foldlM (fun w f => parse f.1 f.2 w) w :=
  ⟨fun path content => xmlIn_iff path content inputs base, fun parse w => processFiles_eq parse inputs base w h⟩

/-- The name of an entry of a directory. -/
def nodeName : Node D → Str
  | .file name _ => name
  | .dir name _ => name
  | .missing name => name

/-- Entries as `os.listdir` gives them at every level: names that are different, not empty and have no slash. -/
inductive ProperEntries : List (Node D) → Prop where
  | intro (ns) : (ns.map nodeName).Nodup → (∀ n ∈ ns, nodeName n ≠ [] ∧ '/' ∉ nodeName n) →
      (∀ dirName entries, Node.dir dirName entries ∈ ns → ProperEntries entries) → ProperEntries ns

/-- A directory path with the slash that goes between it and a name. -/
def withSlash (b : Str) : Str := if b = [] ∨ b.getLast? = some '/' then b else b ++ ['/']

theorem pathJoin_proper (b n : Str) (hn : '/' ∉ n) : pathJoin b n = withSlash b ++ n := by
  unfold pathJoin withSlash
  have h1 : n.head? ≠ some '/' := by
    intro e
    exact hn (List.mem_of_mem_head? e)
  rw [if_neg h1]
  split <;> simp

mutual
/-- Every file found below an entry has the path of the entry or one that goes on after a slash. -/
theorem xmlAt_path : ∀ (n : Node D) (base : Str) (f : Str × D), nodeName n ≠ [] → '/' ∉ nodeName n →
    (∀ dirName entries, n = .dir dirName entries → ProperEntries entries) → f ∈ xmlAt base n →
    ∃ rest, f.1 = withSlash base ++ nodeName n ++ rest ∧ (rest = [] ∨ rest.head? = some '/')
  | .dir name entries, base, f, hne, hn, hp, hf => by
    rw [xmlAt] at hf
    obtain ⟨e, he, rest, h1⟩ := xmlIn_path entries (pathJoin base name) f (hp name entries rfl) hf
    rw [pathJoin_proper base name hn] at h1
    refine ⟨'/' :: (nodeName e ++ rest), ?_, .inr rfl⟩
    rw [h1]
    have hlast : (withSlash base ++ name).getLast? ≠ some '/' := by
      intro hl
      rw [List.getLast?_append] at hl
      have : name.getLast? ≠ none := fun e => hne (List.getLast?_eq_none_iff.mp e)
      cases hg : name.getLast? with
      | none => exact this hg
      | some c =>
        rw [hg] at hl
        simp only [Option.some_or, Option.some.injEq] at hl
        subst hl
        exact hn (List.mem_of_getLast? hg)
    have hnil : withSlash base ++ name ≠ [] := by
      intro e; exact hne (List.append_eq_nil_iff.mp e).2
    rw [show withSlash (withSlash base ++ name) = withSlash base ++ name ++ ['/'] from by
      rw [withSlash.eq_def (withSlash base ++ name), if_neg (by rintro (h | h); exact hnil h; exact hlast h)]]
    simp [nodeName]
  | .file name c, base, f, hne, hn, hp, hf => by
    rw [xmlAt] at hf
    split at hf
    · rw [List.mem_singleton] at hf
      subst hf
      exact ⟨[], by simp [pathJoin_proper base name hn, nodeName], .inl rfl⟩
    · cases hf
  | .missing name, base, f, hne, hn, hp, hf => by
    rw [xmlAt] at hf; cases hf

theorem xmlIn_path : ∀ (ns : List (Node D)) (base : Str) (f : Str × D), ProperEntries ns → f ∈ xmlIn base ns →
    ∃ n ∈ ns, ∃ rest, f.1 = withSlash base ++ nodeName n ++ rest
  | [], base, f, hp, hf => by rw [xmlIn] at hf; cases hf
  | n :: ns, base, f, hp, hf => by
    rw [xmlIn, List.mem_append] at hf
    cases hp with
    | intro _ h1 h2 h3 =>
      rcases hf with hf | hf
      · obtain ⟨rest, h, _⟩ := xmlAt_path n base f (h2 n List.mem_cons_self).1 (h2 n List.mem_cons_self).2
          (fun d es e => h3 d es (e ▸ List.mem_cons_self)) hf
        exact ⟨n, List.mem_cons_self, rest, h⟩
      · obtain ⟨m, hm, rest, h⟩ := xmlIn_path ns base f (.intro _ (List.nodup_cons.mp h1).2
          (fun m hm => h2 m (List.mem_cons_of_mem _ hm)) (fun d es hd => h3 d es (List.mem_cons_of_mem _ hd))) hf
        exact ⟨m, List.mem_cons_of_mem _ hm, rest, h⟩
end

/-- The name after the directory is determined by the path. -/
theorem name_of_path {b a c r s : Str} (ha : '/' ∉ a) (hc : '/' ∉ c) (hr : r = [] ∨ r.head? = some '/')
    (hs : s = [] ∨ s.head? = some '/') (h : b ++ a ++ r = b ++ c ++ s) : a = c := by
  rw [List.append_assoc, List.append_assoc] at h
  have h := List.append_cancel_left h
  have key : ∀ (a r : Str), '/' ∉ a → (r = [] ∨ r.head? = some '/') → (a ++ r).takeWhile (· ≠ '/') = a := by
    intro a
    induction a with
    | nil =>
      rintro r _ (rfl | hr)
      · rfl
      · cases r with
        | nil => rfl
        | cons x xs => simp only [List.head?_cons, Option.some.injEq] at hr; subst hr; rfl
    | cons x xs ih =>
      intro r hx hr
      have hne : x ≠ '/' := fun e => hx (e ▸ List.mem_cons_self)
      rw [List.cons_append, List.takeWhile_cons]
      simp only [hne, ne_eq, not_false_eq_true, decide_true, if_true]
      rw [ih r (fun h => hx (List.mem_cons_of_mem _ h)) hr]
  rw [← key a r ha hr, ← key c s hc hs, h]

mutual
theorem xmlAt_nodup : ∀ (n : Node D) (base : Str),
    (∀ dirName entries, n = .dir dirName entries → ProperEntries entries) → ((xmlAt base n).map Prod.fst).Nodup
  | .dir name entries, base, hp => by
    rw [xmlAt]; exact xmlIn_nodup entries _ (hp name entries rfl)
  | .file name c, base, hp => by
    rw [xmlAt]; split <;> simp
  | .missing name, base, hp => by rw [xmlAt]; simp

theorem xmlIn_nodup : ∀ (ns : List (Node D)) (base : Str), ProperEntries ns → ((xmlIn base ns).map Prod.fst).Nodup
  | [], base, hp => by rw [xmlIn]; simp
  | n :: ns, base, hp => by
    rw [xmlIn, List.map_append, List.nodup_append]
    cases hp with
    | intro _ h1 h2 h3 =>
      have hp' : ProperEntries ns := .intro _ (List.nodup_cons.mp h1).2
        (fun m hm => h2 m (List.mem_cons_of_mem _ hm)) (fun d es hd => h3 d es (List.mem_cons_of_mem _ hd))
      refine ⟨xmlAt_nodup n base (fun d es e => h3 d es (e ▸ List.mem_cons_self)), xmlIn_nodup ns base hp', ?_⟩
      intro p hp q hq hpq
      obtain ⟨f, hf, rfl⟩ := List.mem_map.mp hp
      obtain ⟨g, hg, rfl⟩ := List.mem_map.mp hq
      obtain ⟨rest, e1, hr⟩ := xmlAt_path n base f (h2 n List.mem_cons_self).1 (h2 n List.mem_cons_self).2
        (fun d es e => h3 d es (e ▸ List.mem_cons_self)) hf
      have hex : ∃ m ∈ ns, ∃ rest', g.1 = withSlash base ++ nodeName m ++ rest' ∧
          (rest' = [] ∨ rest'.head? = some '/') := by
        have := g.2
        obtain ⟨m, hm, name, hb, hx⟩ := (xmlIn_iff g.1 g.2 ns base).mp hg
        have hin : g ∈ xmlAt base m := (xmlAt_iff g.1 g.2 m base).mpr ⟨name, hb, hx⟩
        obtain ⟨rest', e2, hr'⟩ := xmlAt_path m base g (h2 m (List.mem_cons_of_mem _ hm)).1
          (h2 m (List.mem_cons_of_mem _ hm)).2 (fun d es e => h3 d es (e ▸ List.mem_cons_of_mem _ hm)) hin
        exact ⟨m, hm, rest', e2, hr'⟩
      obtain ⟨m, hm, rest', e2, hr'⟩ := hex
      have hname := name_of_path (h2 n List.mem_cons_self).2 (h2 m (List.mem_cons_of_mem _ hm)).2 hr hr'
        (e1.symm.trans (hpq.trans e2))
      exact (List.nodup_cons.mp h1).1 (hname ▸ List.mem_map_of_mem hm)
end

/-- C124: no file is converted twice if there is one input, of any name, or if the inputs are different entries of the
current directory. -/
theorem once_partial (base : Str) (inputs : List (Node D))
    (h : ProperEntries inputs ∨ ∃ n, inputs = [n] ∧ ∀ dirName entries, n = .dir dirName entries → ProperEntries entries) :
    ((xmlIn base inputs).map Prod.fst).Nodup := by
  rcases h with h | ⟨n, rfl, h⟩
  · exact xmlIn_nodup inputs base h
  · rw [xmlIn, xmlIn, List.append_nil]; exact xmlAt_nodup n base h

/-- A directory with two items of the same name in different places and a file that is not converted. -/
def bank : Node Nat :=
  .dir "bank".toList [.file "q.xml".toList 1, .dir "old".toList [.file "Q.XML".toList 2, .file "q.xml".toList 3],
    .file "notes.txt".toList 4]

/-- C124 fails if inputs overlap: a file below a directory that is also given itself is converted twice. -/
theorem twice_refuted : ¬ ((xmlIn "/d".toList [bank, .file "bank/q.xml".toList 1]).map Prod.fst).Nodup := by
  decide +kernel

theorem inputs_hypotheses : (∀ n ∈ [bank], ¬ Unopenable n) ∧ ProperEntries [bank] ∧
    xmlIn "/d".toList [bank] =
      [("/d/bank/q.xml".toList, 1), ("/d/bank/old/Q.XML".toList, 2), ("/d/bank/old/q.xml".toList, 3)] := by
  refine ⟨?_, ?_, by decide +kernel⟩
  · intro n hn hu
    rw [List.mem_singleton] at hn
    subst hn
    unfold bank at hu
    cases hu with
    | dir _ _ e he hu =>
      simp only [List.mem_cons, List.not_mem_nil, or_false] at he
      rcases he with rfl | rfl | rfl
      · cases hu
      · cases hu with
        | dir _ _ e he hu =>
          simp only [List.mem_cons, List.not_mem_nil, or_false] at he
          rcases he with rfl | rfl <;> cases hu
      · cases hu
  · have inner : ProperEntries [Node.file "Q.XML".toList 2, .file "q.xml".toList 3] := by
      refine .intro _ (by decide) (by decide +kernel) ?_
      intro d es h
      simp at h
    refine .intro _ (by decide) (by decide +kernel) ?_
    intro d es h
    rw [List.mem_singleton] at h
    unfold bank at h
    injection h with h1 h2
    subst h2
    refine .intro _ (by decide) (by decide +kernel) ?_
    intro d es h
    simp only [List.mem_cons, List.not_mem_nil, or_false, reduceCtorEq, false_or, Node.dir.injEq] at h
    obtain ⟨_, rfl⟩ := h
    exact inner

/-! ## C125 -/

variable {Attrs : Type}

/-- The files of a list that are not well-formed. -/
def brokenOf (l : List (Str × Doc Attrs)) : List Str := (l.filter (fun f => f.2.broken)).map Prod.fst

/-- The path that a notice is about. -/
def noticePath : Notice → Str
  | .afterEnd p => p
  | .failed p => p

/-- C125: files that are not well-formed do not matter to the others: all files are read, the package is written, and
exactly the files that are not well-formed are reported.  The world at the end is what the element classes make of the
events of all files, one after the other.  What is missing: that no element class fails and that all names can be opened
is assumed (`stops_refuted`, `raises_refuted`). -/
theorem broken_partial (S : Sax.Sem W Attrs) (dump : Str → W × List Notice → Except Err (W × List Notice)) (cwd : Str)
    (opts : Opts) (inputs : List (Node (Doc Attrs))) (w : W) (h : ∀ n ∈ inputs, ¬ Unopenable n)
    (hrun : ∀ f ∈ xmlIn cwd inputs, ∀ w, ∃ s, Sax.run S f.2.events { world := w } = .ok s) (hout : opts.cpPath ≠ []) :
    ∃ w' notices, batch (parseDoc S) dump cwd opts inputs (w, []) = dump opts.cpPath (w', notices) ∧
      notices.map noticePath = brokenOf (xmlIn cwd inputs) ∧
      (xmlIn cwd inputs).foldlM
        (fun w f => (Sax.run S f.2.events { world := w }).map Sax.State.world) w = .ok w' := by
  have key : ∀ (l : List (Str × Doc Attrs)) (w : W) (ns : List Notice),
      (∀ f ∈ l, ∀ w, ∃ s, Sax.run S f.2.events { world := w } = .ok s) →
      ∃ w' notices, l.foldlM (fun w f => parseDoc S f.1 f.2 w) (w, ns) = .ok (w', ns ++ notices) ∧
        notices.map noticePath = brokenOf l ∧
        l.foldlM (fun w f => (Sax.run S f.2.events { world := w }).map Sax.State.world) w = .ok w' := by
    intro l
    induction l with
    | nil => intro w ns _; exact ⟨w, [], by simp; rfl, rfl, rfl⟩
    | cons f fs ih =>
      intro w ns hf
      obtain ⟨s, hs⟩ := hf f List.mem_cons_self w
      obtain ⟨w', no, h1, h2, h3⟩ := ih s.world
        (if f.2.broken then ns ++ [if s.gotRoot then .afterEnd f.1 else .failed f.1] else ns)
        (fun g hg => hf g (List.mem_cons_of_mem _ hg))
      have e1 : parseDoc S f.1 f.2 (w, ns) = .ok (s.world,
          if f.2.broken then ns ++ [if s.gotRoot then .afterEnd f.1 else .failed f.1] else ns) := by
        unfold parseDoc
        simp only [hs]
      rw [List.foldlM_cons, List.foldlM_cons, hs, e1]
      simp only [bind, Except.bind, Except.map]
      by_cases hb : f.2.broken = true
      · refine ⟨w', (if s.gotRoot then .afterEnd f.1 else .failed f.1) :: no, ?_, ?_, h3⟩
        · rw [h1]
          simp only [hb, if_true, List.append_assoc, List.singleton_append]
        · rw [List.map_cons, h2, brokenOf, brokenOf, List.filter_cons_of_pos (p := fun f : Str × Doc Attrs => f.2.broken) hb, List.map_cons]
          congr 1
          split <;> rfl
      · refine ⟨w', no, ?_, ?_, h3⟩
        · rw [h1]; simp only [hb, if_false, Bool.false_eq_true]
        · rw [h2, brokenOf, brokenOf, List.filter_cons_of_neg (p := fun f : Str × Doc Attrs => f.2.broken) hb]
  obtain ⟨w', notices, h1, h2, h3⟩ := key (xmlIn cwd inputs) w [] hrun
  refine ⟨w', notices, ?_, h2, h3⟩
  unfold batch
  rw [processFiles_eq _ inputs cwd _ h, h1]
  simp only [bind, Except.bind, List.nil_append, if_pos hout]

/-- C125: a notice says whether the root element had ended. -/
theorem notice_exact (S : Sax.Sem W Attrs) (path : Str) (doc : Doc Attrs) (w : W) (ns : List Notice) (s : Sax.State W)
    (h : Sax.run S doc.events { world := w } = .ok s) (hb : doc.broken = true) :
    parseDoc S path doc (w, ns) = .ok (s.world, ns ++ [if s.gotRoot then .afterEnd path else .failed path]) := by
  unfold parseDoc
  simp only [h, hb, if_true]

theorem processFiles_append (parse : Str → D → W → Except Err W) (base : Str) (as bs : List (Node D)) : ∀ w,
    processFiles parse base (as ++ bs) w = processFiles parse base as w >>= processFiles parse base bs := by
  induction as with
  | nil => intro w; rw [processFiles]; rfl
  | cons a as ih =>
    intro w
    rw [List.cons_append, processFiles, processFiles]
    cases processFile parse base a w with
    | error e => rfl
    | ok w' => exact ih w'

/-- C125 fails for an input that does not exist: whatever the other inputs are and wherever it is among them, the run is
aborted and the package is not written. -/
theorem stops_refuted (parse : Str → D → W → Except Err W) (dump : Str → W → Except Err W) (cwd : Str) (opts : Opts)
    (before after : List (Node D)) (name : Str) (hx : EndsXml name) (w : W) :
    ∃ e, batch parse dump cwd opts (before ++ .missing name :: after) w = .error e := by
  unfold batch
  rw [processFiles_append]
  cases processFiles parse cwd before w with
  | error e => exact ⟨e, rfl⟩
  | ok w' =>
    refine ⟨.osError, ?_⟩
    simp only [bind, Except.bind]
    rw [processFiles, processFile, if_pos ((isXml_iff name).mpr hx)]
    rfl

/-- C125 fails for a file at which an element class fails: nothing that was converted before it is written, and nothing
after it is converted. -/
theorem raises_refuted (S : Sax.Sem W Attrs) (dump : Str → W × List Notice → Except Err (W × List Notice)) (cwd : Str)
    (opts : Opts) (before after : List (Node (Doc Attrs))) (name : Str) (doc : Doc Attrs) (hx : EndsXml name) (w : W)
    (e : Err) (hr : ∀ w, Sax.run S doc.events { world := w } = .error e) :
    ∃ e, batch (parseDoc S) dump cwd opts (before ++ .file name doc :: after) (w, []) = .error e := by
  unfold batch
  rw [processFiles_append]
  cases processFiles (parseDoc S) cwd before (w, []) with
  | error e => exact ⟨e, rfl⟩
  | ok w' =>
    refine ⟨e, ?_⟩
    simp only [bind, Except.bind]
    rw [processFiles, processFile, if_pos ((isXml_iff name).mpr hx)]
    unfold parseDoc
    rw [hr]
    rfl

/-- C125 fails for the exit status: it does not tell whether the conversion succeeded. -/
theorem status_refuted (r : Except Err W) : exitStatus r = 1 := by cases r <;> rfl

/-- Element classes that count the elements they close; those of `<item>` fail if there is no root, as `QTIItem` does,
which looks for the parser of the root. -/
def counting : Sax.Sem Nat Unit where
  supported n := n = "questestinterop".toList ∨ n = "item".toList
  create w n _ parent := if n = "item".toList ∧ parent = none then .error .attributeError else .ok (w, false, w)
  createRaw w _ _ _ := .ok (w, w)
  addData w _ _ := .ok w
  close w _ := .ok (w + 1)

/-- A document with one item, a truncated one, one with something after the end, and one that is an item itself. -/
def docOne : Doc Unit :=
  { events := [.start "questestinterop".toList (), .start "item".toList (), .stop "item".toList,
      .stop "questestinterop".toList], broken := false }

@[inherit_doc docOne]
def docCut : Doc Unit :=
  { events := [.start "questestinterop".toList (), .start "item".toList (), .stop "item".toList], broken := true }

@[inherit_doc docOne]
def docItem : Doc Unit := { events := [.start "item".toList (), .stop "item".toList], broken := false }

theorem broken_hypotheses :
    xmlIn "/d".toList [.file "a.xml".toList docCut, .file "b.xml".toList docOne] =
      [("/d/a.xml".toList, docCut), ("/d/b.xml".toList, docOne)] ∧
    (∀ w, Sax.run counting docOne.events { world := w } = .ok { world := w + 2, gotRoot := true, cObject := some ⟨.other, w⟩ }) ∧
    (∀ w, ∃ s, Sax.run counting docCut.events { world := w } = .ok s ∧ s.world = w + 1 ∧ s.gotRoot = false) ∧
    (∀ w, Sax.run counting docItem.events { world := w } = .error .attributeError) ∧
    EndsXml "b.xml".toList := by
  refine ⟨by rfl, fun w => rfl, fun w => ⟨_, rfl, rfl, rfl⟩, fun w => rfl, by decide⟩

/-! ## C126 -/

/-- C126, exactly: in one process, a conversion recognises the extension elements if it or an earlier one was asked for
them. -/
theorem extensions_exact (table : List Str) (os : List Opts) (i : Nat) (t : List Str) (e : Str) (he : e ∈ extensions)
    (hn : e ∉ table) (h : (conversions table os)[i]? = some t) :
    e ∈ t ↔ ∃ j o, j ≤ i ∧ os[j]? = some o ∧ o.qmdExtensions = true := by
  have later : ∀ (os : List Opts) (table : List Str) (i : Nat) (t : List Str), e ∈ table →
      (conversions table os)[i]? = some t → e ∈ t := by
    intro os
    induction os with
    | nil => intro table i t hm h; simp [conversions] at h
    | cons o os ih =>
      intro table i t hm h
      have hm' : e ∈ newParser o table := by
        unfold newParser; split
        · exact List.mem_append_left _ hm
        · exact hm
      cases i with
      | zero => simp only [conversions, List.getElem?_cons_zero, Option.some.injEq] at h; exact h ▸ hm'
      | succ i => simp only [conversions, List.getElem?_cons_succ] at h; exact ih _ i t hm' h
  induction os generalizing table i with
  | nil => simp [conversions] at h
  | cons o os ih =>
    by_cases ho : o.qmdExtensions = true
    · have hm : e ∈ newParser o table := by
        unfold newParser; rw [if_pos ho]; exact List.mem_append_right _ he
      refine ⟨fun _ => ⟨0, o, Nat.zero_le _, rfl, ho⟩, fun _ => ?_⟩
      cases i with
      | zero => simp only [conversions, List.getElem?_cons_zero, Option.some.injEq] at h; exact h ▸ hm
      | succ i => simp only [conversions, List.getElem?_cons_succ] at h; exact later os _ i t hm h
    · have e0 : newParser o table = table := by unfold newParser; rw [if_neg ho]
      cases i with
      | zero =>
        simp only [conversions, List.getElem?_cons_zero, Option.some.injEq] at h
        rw [← h, e0]
        refine ⟨fun hm => absurd hm hn, ?_⟩
        rintro ⟨j, o', hj, h1, h2⟩
        obtain rfl : j = 0 := by omega
        simp only [List.getElem?_cons_zero, Option.some.injEq] at h1
        exact absurd (h1 ▸ h2) ho
      | succ i =>
        simp only [conversions, List.getElem?_cons_succ, e0] at h
        refine Iff.trans (ih table i hn h) ?_
        constructor
        · rintro ⟨j, o', hj, h1, h2⟩; exact ⟨j + 1, o', by omega, by simpa using h1, h2⟩
        · rintro ⟨j, o', hj, h1, h2⟩
          cases j with
          | zero =>
            simp only [List.getElem?_cons_zero, Option.some.injEq] at h1
            exact absurd (h1 ▸ h2) ho
          | succ j => exact ⟨j, o', by omega, by simpa using h1, h2⟩

/-- C126: a conversion uses the same table of elements as it would in a process of its own, provided that no earlier one
was asked for the extensions. -/
theorem separate_partial (table : List Str) (os : List Opts) (o : Opts) (h : ∀ p ∈ os, p.qmdExtensions = false) :
    (conversions table (os ++ [o]))[os.length]? = (conversions table [o])[0]? := by
  induction os with
  | nil => rfl
  | cons p os ih =>
    have e0 : newParser p table = table := by
      unfold newParser; rw [if_neg (by rw [h p List.mem_cons_self]; simp)]
    rw [List.cons_append, conversions, List.length_cons, List.getElem?_cons_succ, e0]
    exact ih (fun q hq => h q (List.mem_cons_of_mem _ hq))

/-- C126 fails: after a conversion with extensions, one without them still recognises them. -/
theorem separate_refuted (table : List Str) (hn : "qmd_title".toList ∉ table) :
    (∃ t, (conversions table [{ qmdExtensions := true }, {}])[1]? = some t ∧ "qmd_title".toList ∈ t) ∧
    (∃ t, (conversions table [{}])[0]? = some t ∧ "qmd_title".toList ∉ t) := by
  refine ⟨⟨table ++ extensions, rfl, List.mem_append_right _ (by decide)⟩, ⟨table, rfl, hn⟩⟩

theorem separate_hypotheses : "qmd_title".toList ∈ extensions ∧
    (conversions ["item".toList] [{}, { qmdExtensions := true }, {}])[0]? = some ["item".toList] := by
  decide +kernel

/-! ## C127 -/

/-- The comments of the root element itself. -/
def ownComments (parts : List Part) : List Text :=
  parts.filterMap fun | .comment t => some t | _ => none

/-- The items, with their own descriptions. -/
def itemsOf (parts : List Part) : List Descriptions :=
  parts.filterMap fun | .item d => some d | _ => none

/-- What a file should add to the package: descriptions of the package, and resources. -/
def addedBy (parts : List Part) : Descriptions × List Descriptions :=
  match itemsOf parts with
  | [d] => ([], [d ++ ownComments parts])
  | items => (ownComments parts, items)

theorem fold_parts (parts : List Part) : ∀ (r : Root) (p : Package),
    parts.foldl part (r, p) =
      ({ description := (ownComments parts).getLast?.or r.description,
         resources := r.resources + (itemsOf parts).length },
       { p with resources := p.resources ++ itemsOf parts }) := by
  induction parts with
  | nil => intro r p; simp [ownComments, itemsOf]
  | cons x xs ih =>
    intro r p
    rw [List.foldl_cons]
    cases x with
    | comment t =>
      show xs.foldl part ({ r with description := some t }, p) = _
      rw [ih]
      have e1 : ownComments (.comment t :: xs) = t :: ownComments xs := rfl
      have e2 : itemsOf (.comment t :: xs) = itemsOf xs := rfl
      rw [e1, e2, List.getLast?_cons]
      cases (ownComments xs).getLast? <;> rfl
    | otherComment t =>
      show xs.foldl part (r, p) = _
      rw [ih]; rfl
    | item d =>
      show xs.foldl part ({ r with resources := r.resources + 1 }, { p with resources := p.resources ++ [d] }) = _
      rw [ih]
      have e1 : ownComments (.item d :: xs) = ownComments xs := rfl
      have e2 : itemsOf (.item d :: xs) = d :: itemsOf xs := rfl
      rw [e1, e2, List.length_cons, List.append_assoc, List.singleton_append]
      simp only [Nat.add_assoc, Nat.add_comm 1]

/-- C127 for one file: with one item the comment is added to the descriptions of the item, otherwise to those of the
package; everything that was in the package stays as it was.  What is missing: it is assumed that there is at most one
comment (as the document type demands) and that the file is not cut off (`truncated_refuted`). -/
theorem comment_partial (p : Package) (parts : List Part) (h : (ownComments parts).length ≤ 1) :
    rootElement p parts true =
      { own := p.own ++ (addedBy parts).1, resources := p.resources ++ (addedBy parts).2 } := by
  unfold rootElement
  simp only [fold_parts, if_true]
  unfold closeRoot addedBy
  simp only [Option.or_none]
  match hc : ownComments parts, h with
  | [], _ =>
    simp only [List.getLast?_nil, List.append_nil]
    split
    · rename_i d hd; rw [hd]; simp
    · simp
  | [t], _ =>
    simp only [List.getLast?_singleton]
    match hi : itemsOf parts with
    | [] => simp
    | [d] => simp [describeLast]
    | d :: e :: es => simp
  | _ :: _ :: _, h => simp at h

/-- C127 for any number of files. -/
theorem comments_partial (files : List (List Part)) (h : ∀ f ∈ files, (ownComments f).length ≤ 1) : ∀ p : Package,
    rootElements p (files.map fun f => (f, true)) =
      { own := p.own ++ files.flatMap (fun f => (addedBy f).1),
        resources := p.resources ++ files.flatMap (fun f => (addedBy f).2) } := by
  induction files with
  | nil => intro p; simp [rootElements]
  | cons f fs ih =>
    intro p
    unfold rootElements at *
    rw [List.map_cons, List.foldl_cons, comment_partial p f (h f List.mem_cons_self),
      ih (fun g hg => h g (List.mem_cons_of_mem _ hg))]
    simp [List.flatMap_cons, List.append_assoc]

/-- C127 fails for files that are cut off: the items are in the package, the comment is not. -/
theorem truncated_refuted (p : Package) (t : Text) (d : Descriptions) :
    rootElement p [.comment t, .item d] false = { p with resources := p.resources ++ [d] } := rfl

/-- C127 fails for comments elsewhere, such as those of an item or of a section: they are lost. -/
theorem elsewhere_refuted (p : Package) (a b : List Part) (t : Text) (closed : Bool) :
    rootElement p (a ++ .otherComment t :: b) closed = rootElement p (a ++ b) closed := by
  unfold rootElement
  rw [List.foldl_append, List.foldl_cons, List.foldl_append]
  rfl

/-- A file with one item, one with two items, one with none. -/
theorem comment_hypotheses :
    rootElements { own := [("p".toList, none)] }
      [([.comment ("a".toList, some "en".toList), .item [("i".toList, none)]], true),
       ([.item [], .comment ("b".toList, none), .item []], true), ([.comment ("c".toList, none)], true)] =
      { own := [("p".toList, none), ("b".toList, none), ("c".toList, none)],
        resources := [[("i".toList, none), ("a".toList, some "en".toList)], [], []] } := by
  decide +kernel

end Verif.Props
