import Verif.Model.Atom

/-!
# Feeds and entries of Atom: properties
-/

namespace Verif.Props.Atom

open Verif Verif.Atom

/-- C358, positive part: an entry without content that is reset has an id, a new title and a new date
only, and they belong to the entry. -/
theorem atom_entry_reset (t u : Nat) (e : Entity) (hc : e.content = none) :
    ∃ e', entryReset t u e = some e' ∧
      entryChildren e' = e.atomId.toList ++ [⟨t, true⟩, ⟨u, true⟩] := by
  refine ⟨_, by unfold entryReset; rw [hc], ?_⟩
  simp [entryChildren, children, reset]

/-- C358, refuted: an entry with content cannot be reset. -/
theorem atom_entry_reset_refuted (t u : Nat) (e : Entity) : entryReset t u e = none ↔ e.content ≠ none := by
  unfold entryReset
  cases e.content <;> simp

/-- C359, refuted for all feeds: a feed that is reset keeps its entries and its date, and the date is
one of its children without being attached to it. -/
theorem atom_feed_reset_refuted (e : Entity) (u : Child) (hu : e.updated = some u) :
    (∀ c ∈ e.entries, c ∈ feedChildren (reset e)) ∧
    u.detach ∈ feedChildren (reset e) ∧ u.detach.attached = false := by
  refine ⟨?_, ?_, rfl⟩
  · intro c hc
    simp [feedChildren, reset, hc]
  · simp [feedChildren, children, reset, hu]

/-- C359, what a reset removes: everything but the id, the date, what belongs to sources, and the
entries. -/
theorem atom_feed_reset (e : Entity) :
    feedChildren (reset e) = e.atomId.toList ++ (e.updated.map Child.detach).toList ++
      e.generator.toList ++ e.icon.toList ++ e.logo.toList ++ e.subtitle.toList ++ e.entries := by
  simp [feedChildren, children, reset]

theorem strip_trimmed (s : Str) (h1 : ∀ c, s.head? = some c → Blti.isSpace c = false)
    (h2 : ∀ c, s.getLast? = some c → Blti.isSpace c = false) : Enumeration.strip s = s := by
  have key : ∀ t : Str, (∀ c, t.head? = some c → Blti.isSpace c = false) → t.dropWhile Blti.isSpace = t := by
    intro t ht
    cases t with
    | nil => rfl
    | cons c cs => rw [List.dropWhile_cons, ht c rfl]; rfl
  unfold Enumeration.strip
  rw [key s h1, key s.reverse (by rw [List.head?_reverse]; exact h2), List.reverse_reverse]

/-- C360: types of contents survive writing and reading: those of texts, and media types (which have
a slash and no white space at their ends). -/
theorem atom_content_type :
    (∀ v, 1 ≤ v → v ≤ 3 → ∃ s, encodeContentType (.text v) = some s ∧ decodeContentType s = .text v) ∧
    (∀ s : Str, '/' ∈ s → (∀ c, s.head? = some c → Blti.isSpace c = false) →
      (∀ c, s.getLast? = some c → Blti.isSpace c = false) →
      encodeContentType (.media s) = some s ∧ decodeContentType s = .media s) := by
  constructor
  · intro v h1 h2
    have : v = 1 ∨ v = 2 ∨ v = 3 := by omega
    rcases this with h | h | h <;> subst h
    · exact ⟨"text".toList, by decide +kernel, by decide +kernel⟩
    · exact ⟨"html".toList, by decide +kernel, by decide +kernel⟩
    · exact ⟨"xhtml".toList, by decide +kernel, by decide +kernel⟩
  · intro s hs h1 h2
    refine ⟨rfl, ?_⟩
    unfold decodeContentType Enumeration.decodeLower
    rw [strip_trimmed s h1 h2]
    have hslash : '/' ∈ Py.lower s := by
      unfold Py.lower
      exact List.mem_map.2 ⟨'/', hs, by decide⟩
    have hnone : Dict.get textType.decode (Py.lower s) = none := by
      have hne : ∀ k : Str, '/' ∉ k → ¬ k = Py.lower s := by
        intro k hk he
        exact hk (he ▸ hslash)
      have e1 := hne "text".toList (by decide)
      have e2 := hne "html".toList (by decide)
      have e3 := hne "xhtml".toList (by decide)
      simpa [textType, Dict.get] using And.intro e1 (And.intro e2 e3)
    unfold Enumeration.find
    rw [hnone]

/-- C361, refuted for all contents: the value of a content of text is never given. -/
theorem atom_content_value_refuted (v : Nat) (value : Str) : contentValue (.text v) value ≠ some (some value) := by
  intro h
  cases h

/-- A concrete entry with a link and a summary. -/
theorem atom_sample :
    let e : Entity := ⟨some ⟨0, true⟩, some ⟨1, true⟩, none, some ⟨2, true⟩, [⟨3, true⟩], [], [], [], [], none,
      none, none, some ⟨4, true⟩, none, none, none, none, []⟩
    (entryChildren e).map Child.id = [0, 1, 2, 3, 4] ∧
    (entryReset 5 6 e).map (fun e => (entryChildren e).map Child.id) = some [0, 5, 6] ∧
    decodeContentType " HTML ".toList = .text 2 ∧
    decodeContentType "image/png".toList = .media "image/png".toList := by
  decide +kernel

end Verif.Props.Atom
