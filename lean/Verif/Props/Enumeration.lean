import Verif.Model.Enumeration
import Verif.Props.Blti
import Verif.Lemmas.HttpOrder

/-!
# Enumerations: names and values
-/

namespace Verif.Props.Enumeration
open Verif Verif.Enumeration

/-- A declaration: each name once, each value once, and names are words. -/
structure Declared (decode : List (Str × Nat)) : Prop where
  names : (decode.map Prod.fst).Nodup
  values : (decode.map Prod.snd).Nodup
  words : ∀ p ∈ decode, Blti.Word p.1

/-! ## Dictionaries -/

theorem get_of_mem {κ β : Type} [DecidableEq κ] : ∀ {d : List (κ × β)}, (d.map Prod.fst).Nodup → ∀ {k : κ} {v : β}, (k, v) ∈ d →
    Dict.get d k = some v
  | p :: d, hn, k, v, h => by
    rw [Dict.get_cons]
    rw [List.map_cons, List.nodup_cons] at hn
    rcases List.mem_cons.1 h with rfl | h
    · simp
    · have : p.1 ≠ k := fun e => hn.1 (e ▸ List.mem_map_of_mem (f := Prod.fst) h)
      rw [if_neg this]
      exact get_of_mem hn.2 h

theorem fold_get : ∀ (l : List (Str × Nat)) (d : List (Nat × Str)) (v : Nat), (l.map Prod.snd).Nodup →
    Dict.get (l.foldl (fun d p => Dict.set d p.2 p.1) d) v =
      match l.find? (fun p => p.2 = v) with | some p => some p.1 | none => Dict.get d v
  | [], d, v, _ => rfl
  | p :: l, d, v, hn => by
    rw [List.map_cons, List.nodup_cons] at hn
    rw [List.foldl_cons, fold_get l _ v hn.2, List.find?_cons, Dict.get_set]
    by_cases hp : p.2 = v
    · have hnone : l.find? (fun q => q.2 = v) = none := by
        rw [List.find?_eq_none]
        intro q hq heq
        exact hn.1 (hp ▸ (by simpa using heq : q.2 = v) ▸ List.mem_map_of_mem (f := Prod.snd) hq)
      rw [hnone]
      simp [hp]
    · have : ¬ v = p.2 := fun e => hp e.symm
      simp [hp, this]

theorem reverse_get {decode : List (Str × Nat)} (hn : (decode.map Prod.snd).Nodup) {k : Str} {v : Nat} (h : (k, v) ∈ decode) :
    Dict.get (reverseOf decode) v = some k := by
  unfold reverseOf
  rw [fold_get _ _ _ hn]
  cases hf : decode.find? (fun p => p.2 = v) with
  | none =>
    rw [List.find?_eq_none] at hf
    exact absurd (by simp) (hf (k, v) h)
  | some q =>
    have hq := List.mem_of_find?_eq_some hf
    have hv : q.2 = v := by simpa using List.find?_some hf
    have : ∀ (l : List (Str × Nat)), (l.map Prod.snd).Nodup → ∀ a b, a ∈ l → b ∈ l → a.2 = b.2 → a = b := by
      intro l
      induction l with
      | nil => exact fun _ _ _ h => nomatch h
      | cons x l ih =>
        intro hn a b ha hb hab
        rw [List.map_cons, List.nodup_cons] at hn
        rcases List.mem_cons.1 ha with rfl | ha <;> rcases List.mem_cons.1 hb with rfl | hb
        · rfl
        · exact absurd (hab ▸ List.mem_map_of_mem (f := Prod.snd) hb) hn.1
        · next ha' => exact absurd (hab ▸ List.mem_map_of_mem (f := Prod.snd) ha') hn.1
        · exact ih hn.2 a b ha hb hab
    rw [this decode hn q (k, v) hq h hv]

theorem make_fields {decode : List (Str × Nat)} {def_ : Option Str} {e : Enum} (h : make decode def_ = .ok e) :
    e.decode = decode ∧ e.encode = reverseOf decode := by
  unfold make at h
  repeat' split at h
  all_goals cases h
  all_goals exact ⟨rfl, rfl⟩

theorem aliases_encode : ∀ (as : List (Str × Str)) {e e' : Enum}, addAliases e as = .ok e' →
    e'.encode = e.encode ∧ e'.default = e.default ∧
      ∀ k, (∀ a ∈ as, a.1 ≠ k) → Dict.get e'.decode k = Dict.get e.decode k
  | [], e, e', h => by cases h; exact ⟨rfl, rfl, fun _ _ => rfl⟩
  | (a, key) :: as, e, e', h => by
    unfold addAliases at h
    split at h
    · obtain ⟨h1, h2, h3⟩ := aliases_encode as h
      refine ⟨h1, h2, fun k hk => ?_⟩
      rw [h3 k fun b hb => hk b (List.mem_cons_of_mem _ hb), Dict.get_set, if_neg]
      exact fun e => hk (a, key) List.mem_cons_self e.symm
    · cases h

theorem lowerLoop_get : ∀ (es d : List (Str × Nat)) (k : Str) (v : Nat), Dict.get d k = some v → Dict.get (lowerLoop es d) k = some v
  | [], _, _, _, h => h
  | (k', v') :: es, d, k, v, h => by
    unfold lowerLoop
    apply lowerLoop_get es
    split
    · exact h
    · next hn =>
      rw [Dict.get_set]
      split
      · next he =>
        subst he
        exact absurd ((Dict.has_iff d _).2 ⟨v, h⟩) hn
      · exact h

/-! ## Names -/

theorem dropWhile_space {a : Str} (ha : ∀ c ∈ a, Blti.isSpace c = true) (s : Str) : (a ++ s).dropWhile Blti.isSpace = s.dropWhile Blti.isSpace := by
  induction a with
  | nil => rfl
  | cons c a ih =>
    rw [List.cons_append, List.dropWhile_cons_of_pos (ha c List.mem_cons_self)]
    exact ih fun c hc => ha c (List.mem_cons_of_mem _ hc)

theorem dropWhile_word {k : Str} (hk : Blti.Word k) (s : Str) : (k ++ s).dropWhile Blti.isSpace = k ++ s := by
  obtain ⟨hne, hw⟩ := hk
  cases k with
  | nil => exact absurd rfl hne
  | cons c k => rw [List.cons_append, List.dropWhile_cons_of_neg (by rw [hw c List.mem_cons_self]; simp)]

theorem strip_word {a k b : Str} (ha : ∀ c ∈ a, Blti.isSpace c = true) (hk : Blti.Word k) (hb : ∀ c ∈ b, Blti.isSpace c = true) :
    strip (a ++ k ++ b) = k := by
  unfold strip
  rw [List.append_assoc, dropWhile_space ha, dropWhile_word hk, List.reverse_append,
    dropWhile_space (fun c hc => hb c (List.mem_reverse.1 hc))]
  have : Blti.Word k.reverse := ⟨fun h => hk.1 (List.reverse_eq_nil_iff.1 h), fun c hc => hk.2 c (List.mem_reverse.1 hc)⟩
  have h := dropWhile_word this []
  rw [List.append_nil] at h
  rw [h, List.reverse_reverse]

/-- The enumeration that is declared, given aliases that are not names of it, and aliases in lower case. -/
def complete (decode : List (Str × Nat)) (def_ : Option Str) (as : List (Str × Str)) : Except Fail Enum :=
  match make decode def_ with
  | .error f => .error f
  | .ok e => match addAliases e as with
    | .error f => .error f
    | .ok e' => .ok (addLower e')

theorem complete_names {decode : List (Str × Nat)} (hd : Declared decode) {def_ : Option Str} {as : List (Str × Str)}
    (ha : ∀ a ∈ as, a.1 ∉ decode.map Prod.fst) {e : Enum} (h : complete decode def_ as = .ok e) {k : Str} {v : Nat}
    (hk : (k, v) ∈ decode) : Dict.get e.decode k = some v ∧ Dict.get e.encode v = some k := by
  unfold complete at h
  split at h
  · cases h
  · next e0 h0 =>
    split at h
    · cases h
    · next e1 h1 =>
      cases h
      obtain ⟨g1, g2⟩ := make_fields h0
      obtain ⟨a1, _, a3⟩ := aliases_encode as h1
      constructor
      · apply lowerLoop_get
        rw [a3, g1]
        · exact get_of_mem hd.names hk
        · intro a haa hak
          exact ha a haa (hak ▸ List.mem_map_of_mem (f := Prod.fst) hk)
      · change Dict.get e1.encode v = some k
        rw [a1, g2]
        exact reverse_get hd.values hk

/-- C341.  Every value is written as its name in the declaration, and read back from it, also with white space around it — whatever
aliases were added. -/
theorem enum_round_trip {decode : List (Str × Nat)} (hd : Declared decode) {def_ : Option Str} {as : List (Str × Str)}
    (ha : ∀ a ∈ as, a.1 ∉ decode.map Prod.fst) {e : Enum} (h : complete decode def_ as = .ok e) (k : Str) (v : Nat)
    (hk : (k, v) ∈ decode) :
    encodeValue e (some v) = some k ∧
    ∀ a b : Str, (∀ c ∈ a, Blti.isSpace c = true) → (∀ c ∈ b, Blti.isSpace c = true) → decodeValue e (a ++ k ++ b) = .ok v := by
  obtain ⟨h1, h2⟩ := complete_names hd ha h hk
  constructor
  · simp [encodeValue, h2]
  · intro a b hsa hsb
    unfold decodeValue find
    rw [strip_word hsa (hd.words _ hk) hsb, h1]

/-! ## Lower case -/

theorem lowerLoop_lower : ∀ (es d : List (Str × Nat)) (k : Str) (v : Nat),
    (∀ p ∈ es, ∀ w, Dict.get d (Py.lower p.1) = some w → w = p.2) →
    (∀ p ∈ es, ∀ q ∈ es, Py.lower p.1 = Py.lower q.1 → p.2 = q.2) →
    (Dict.get (lowerLoop es d) k = some v ↔ Dict.get d k = some v ∨ ∃ p ∈ es, Py.lower p.1 = k ∧ p.2 = v)
  | [], d, k, v, _, _ => by simp [lowerLoop]
  | p :: es, d, k, v, hd, hes => by
    unfold lowerLoop
    have hes' : ∀ p ∈ es, ∀ q ∈ es, Py.lower p.1 = Py.lower q.1 → p.2 = q.2 :=
      fun a ha b hb => hes a (List.mem_cons_of_mem _ ha) b (List.mem_cons_of_mem _ hb)
    split
    · next hhas =>
      obtain ⟨w, hw⟩ := (Dict.has_iff d _).1 hhas
      have hwv := hd p List.mem_cons_self w hw
      rw [lowerLoop_lower es d k v (fun q hq => hd q (List.mem_cons_of_mem _ hq)) hes']
      constructor
      · rintro (h | ⟨q, hq, h⟩)
        · exact .inl h
        · exact .inr ⟨q, List.mem_cons_of_mem _ hq, h⟩
      · rintro (h | ⟨q, hq, h1, h2⟩)
        · exact .inl h
        · rcases List.mem_cons.1 hq with rfl | hq
          · exact .inl (by rw [← h1, hw, hwv, h2])
          · exact .inr ⟨q, hq, h1, h2⟩
    · next hhas =>
      have hnone : Dict.get d (Py.lower p.1) = none := (Dict.not_has_iff d _).1 (by simpa using hhas)
      have hd' : ∀ q ∈ es, ∀ w, Dict.get (Dict.set d (Py.lower p.1) p.2) (Py.lower q.1) = some w → w = q.2 := by
        intro q hq w hw
        rw [Dict.get_set] at hw
        split at hw
        · next he =>
          cases hw
          exact hes p List.mem_cons_self q (List.mem_cons_of_mem _ hq) he.symm
        · exact hd q (List.mem_cons_of_mem _ hq) w hw
      rw [lowerLoop_lower es _ k v hd' hes', Dict.get_set]
      constructor
      · rintro (h | ⟨q, hq, h⟩)
        · split at h
          · next he => cases h; exact .inr ⟨p, List.mem_cons_self, he.symm, rfl⟩
          · exact .inl h
        · exact .inr ⟨q, List.mem_cons_of_mem _ hq, h⟩
      · rintro (h | ⟨q, hq, h1, h2⟩)
        · left
          rw [if_neg]
          · exact h
          · rintro rfl
            rw [hnone] at h
            cases h
        · rcases List.mem_cons.1 hq with rfl | hq
          · exact .inl (by rw [if_pos h1.symm, h2])
          · exact .inr ⟨q, hq, h1, h2⟩

/-- C342.  With aliases in lower case, a string is read as a value if and only if it is a name or alias of that value in some mixture
of cases — for enumerations in which names that differ only in case are of the same value. -/
theorem enum_lower (e : Enum)
    (hc : ∀ p ∈ e.decode, ∀ q ∈ e.decode, Py.lower p.1 = Py.lower q.1 → p.2 = q.2) (s : Str) (v : Nat) :
    decodeLower (addLower e) s = .ok v ↔ ∃ k, (k, v) ∈ e.decode ∧ Py.lower k = Py.lower (strip s) := by
  have hmain := lowerLoop_lower e.decode e.decode (Py.lower (strip s)) v
    (fun p hp w hw => hc _ (Dict.mem_of_get hw) p hp (Verif.Http.lower_idem p.1)) hc
  unfold decodeLower find
  constructor
  · intro h
    split at h
    · next w hw =>
      cases h
      rcases hmain.1 hw with h | ⟨p, hp, h1, h2⟩
      · exact ⟨_, Dict.mem_of_get h, Verif.Http.lower_idem _⟩
      · exact ⟨p.1, h2 ▸ hp, h1⟩
    · cases h
  · rintro ⟨k, hk, he⟩
    have := hmain.2 (.inr ⟨(k, v), hk, he, rfl⟩)
    change Dict.get (addLower e).decode _ = _ at this
    rw [this]

/-! ## Lists -/

theorem fields_join : ∀ (ss : List Str), (∀ s ∈ ss, Blti.Word s) → Blti.fields [] (Py.join ' ' ss) = ss
  | [], _ => rfl
  | [s], h => by
    have hw := h s List.mem_cons_self
    have h1 := Blti.fields_word [] s [] hw.2
    rw [List.append_nil, List.nil_append] at h1
    unfold Py.join
    rw [h1]
    cases s with
    | nil => exact absurd rfl hw.1
    | cons c s => simp [Verif.Blti.fields]
  | s :: q :: ss, h => by
    have hw := h s List.mem_cons_self
    have ih := fields_join (q :: ss) fun x hx => h x (List.mem_cons_of_mem _ hx)
    unfold Py.join
    rw [Blti.fields_word _ s [] hw.2, List.nil_append]
    cases s with
    | nil => exact absurd rfl hw.1
    | cons c s =>
      have hsp : Verif.Blti.isSpace ' ' = true := by decide
      simp [Verif.Blti.fields, hsp, ih]

/-- C343.  A list of values is written as the names with spaces between them, and read back as the same list. -/
theorem enum_list_round_trip {decode : List (Str × Nat)} (hd : Declared decode) {def_ : Option Str} {as : List (Str × Str)}
    (ha : ∀ a ∈ as, a.1 ∉ decode.map Prod.fst) {e : Enum} (h : complete decode def_ as = .ok e) (ps : List (Str × Nat))
    (hp : ∀ p ∈ ps, p ∈ decode) :
    encodeValueList e (ps.map Prod.snd) = .ok (Py.join ' ' (ps.map Prod.fst)) ∧
    decodeValueList (decodeValue e) (Py.join ' ' (ps.map Prod.fst)) = .ok (ps.map Prod.snd) := by
  constructor
  · have : ∀ ps : List (Str × Nat), (∀ p ∈ ps, p ∈ decode) → encodeAll e (ps.map Prod.snd) = .ok (ps.map Prod.fst) := by
      intro ps hp
      induction ps with
      | nil => rfl
      | cons p ps ih =>
        have h1 := (enum_round_trip hd ha h p.1 p.2 (hp p List.mem_cons_self)).1
        simp only [List.map_cons, encodeAll, ih fun q hq => hp q (List.mem_cons_of_mem _ hq), h1]
    unfold encodeValueList
    rw [this ps hp]
  · unfold decodeValueList
    rw [fields_join]
    · induction ps with
      | nil => rfl
      | cons p ps ih =>
        have h1 := (enum_round_trip hd ha h p.1 p.2 (hp p List.mem_cons_self)).2 [] [] (fun _ h => nomatch h) (fun _ h => nomatch h)
        simp only [List.nil_append, List.append_nil] at h1
        simp only [List.map_cons, decodeAll, ih fun q hq => hp q (List.mem_cons_of_mem _ hq), h1]
    · intro s hs
      obtain ⟨p, hpm, rfl⟩ := List.mem_map.1 hs
      exact hd.words p (hp p hpm)

/-! ## Dictionaries of values -/

/-- C344 is refuted: a dictionary of values that were read has at most one, whatever was read, and nothing at all cannot be read. -/
theorem enum_dict_refuted (decoder : Str → Except Fail Nat) (src : Str) :
    (∀ d, decodeValueDict decoder src = .ok d → d.length = 1) ∧
    (Blti.fields [] src = [] → decodeValueDict decoder src = .error .unbound) := by
  constructor
  · intro d h
    unfold decodeValueDict at h
    repeat' split at h
    all_goals cases h
    rfl
  · intro h
    unfold decodeValueDict
    rw [h]
    rfl

theorem insert_comm (a b : Nat) : ∀ l : List Nat, insertValue a (insertValue b l) = insertValue b (insertValue a l)
  | [] => by
    simp only [insertValue]
    by_cases h1 : a ≤ b <;> by_cases h2 : b ≤ a
    · have : a = b := by omega
      subst this; rfl
    · simp [h1, h2]
    · simp [h1, h2]
    · omega
  | x :: l => by
    have ih := insert_comm a b l
    simp only [insertValue]
    by_cases ha : a ≤ x <;> by_cases hb : b ≤ x
    · by_cases h1 : a ≤ b <;> by_cases h2 : b ≤ a
      · have : a = b := by omega
        subst this; rfl
      · simp [insertValue, ha, hb, h1, h2]
      · simp [insertValue, ha, hb, h1, h2]
      · omega
    · have h2 : ¬ b ≤ a := by omega
      simp [insertValue, ha, hb, h2]
    · have h1 : ¬ a ≤ b := by omega
      simp [insertValue, ha, hb, h1]
    · simp [insertValue, ha, hb, ih]

theorem sort_perm {k l : List Nat} (h : k.Perm l) : sort k = sort l := by
  induction h with
  | nil => rfl
  | cons a _ ih => simp only [sort, ih]
  | swap a b l => simp only [sort]; exact insert_comm b a _
  | trans _ _ ih1 ih2 => exact ih1.trans ih2

/-- C345.  Dictionaries with the same values are written as the same text, in whatever order they give them. -/
theorem enum_dict_order (e : Enum) (k l : List Nat) (h : k.Perm l) : encodeValueDict e k true = encodeValueDict e l true := by
  simp only [encodeValueDict, if_true, sort_perm h]

/-! ## Errors and defaults -/

/-- C346.  What is no name is a `ValueError`, as it is, in lower case and in upper case. -/
theorem enum_errors (e : Enum) (s : Str) :
    (∀ f, decodeValue e s = .error f → f = .value) ∧ (∀ f, decodeLower e s = .error f → f = .value) ∧
    (∀ f, decodeUpper e s = .error f → f = .value) := by
  have h : ∀ t f, find e t = .error f → f = .value := by
    intro t f hf
    unfold find at hf
    split at hf
    · cases hf
    · cases hf; rfl
  exact ⟨fun f => h _ f, fun f => h _ f, fun f => h _ f⟩

/-- C347 is refuted: white space is an `IndexError` for every enumeration when it is read as a title. -/
theorem enum_title_refuted (e : Enum) (s : Str) (hs : ∀ c ∈ s, Blti.isSpace c = true) : decodeTitle e s = .error .index := by
  have : strip s = [] := by
    unfold strip
    have := dropWhile_space hs []
    rw [List.append_nil] at this
    rw [this]
    rfl
  unfold decodeTitle
  rw [this]

/-- C348 is refuted: in an enumeration with a default, a number that is no value is written as the default, for every such number. -/
theorem enum_default_refuted {decode : List (Str × Nat)} (hd : Declared decode) {k : Str} {v : Nat} (hk : (k, v) ∈ decode) {e : Enum}
    (h : make decode (some k) = .ok e) (w : Nat) (hw : w ∉ decode.map Prod.snd) :
    encodeValue e (some w) = some k ∧ encodeValue e none = some k ∧ encodeValue e (some v) = some k := by
  have hget := get_of_mem hd.names hk
  have hne : k ≠ [] := (hd.words _ hk).1
  have he : e = ⟨decode, reverseOf decode, some v⟩ := by
    unfold make at h
    split at h
    · next h' => cases h'
    · next h' => cases h'; exact absurd rfl hne
    · next name _ h' =>
      cases h'
      rw [hget] at h
      cases h
      rfl
  subst he
  have hr := reverse_get hd.values hk
  have hnone : Dict.get (reverseOf decode) w = none := by
    unfold reverseOf
    rw [fold_get _ _ _ hd.values]
    have : decode.find? (fun p => p.2 = w) = none := by
      rw [List.find?_eq_none]
      intro p hp hpw
      exact hw ((by simpa using hpw : p.2 = w) ▸ List.mem_map_of_mem (f := Prod.snd) hp)
    rw [this]
    rfl
  simp [encodeValue, hnone, hr]

/-- The hypotheses can be met: two names, an alias, and names in lower case. -/
theorem enum_sample :
    Declared [("Ab".toList, 1), ("c".toList, 2)] ∧
    (complete [("Ab".toList, 1), ("c".toList, 2)] (some "c".toList) [("x".toList, "Ab".toList)]).toOption.map (fun e =>
      (encodeValue e (some 1), decodeLower e " AB".toList, decodeValue e "x ".toList, encodeValue e (some 7),
        decodeValueDict (decodeValue e) "Ab c".toList)) =
      some (some "Ab".toList, .ok 1, .ok 1, some "c".toList, .ok [(2, "c".toList)]) := by
  refine ⟨⟨by decide +kernel, by decide +kernel, ?_⟩, by rfl⟩
  intro p hp
  simp only [List.mem_cons, List.not_mem_nil, or_false] at hp
  rcases hp with rfl | rfl
  · exact ⟨by decide +kernel, by decide +kernel⟩
  · exact ⟨by decide +kernel, by decide +kernel⟩

end Verif.Props.Enumeration
