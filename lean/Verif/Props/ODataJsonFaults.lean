import Verif.Props.ODataJson

/-!
# What JSON does not preserve
-/

namespace Verif.Props.JS
open Verif.OData.Json Verif.Cal Verif.Spec

/-- **No value with an offset can be written**, and **none can be read**, whatever the text. -/
theorem offset_refuted {V : Type} (L : Lib V) : (∀ p zone, writeValue L .offset (some (.offset p zone)) = .error .attributeError) ∧
    ∀ j v, readValue L .offset j ≠ .ok (some v) :=
  ⟨fun _ _ => rfl, fun j v h => nomatch read_typed L .offset j v (fun h => nomatch h) h⟩

/-- The last half second of 1969. -/
def lastHalf : Moment := ⟨ymd 1969 12 31, 23, 59, 59, 500⟩

theorem lastHalf_proper : lastHalf.Proper := by
  refine ⟨?_, ?_⟩
  · unfold ValidDate lastHalf ymd yearOf
    decide +kernel
  · decide +kernel

/-- **Not all points in time are read back**: the last half second of 1969 is written, and refused. -/
theorem moment_refuted {V : Type} (L : Lib V) : ∃ p : Moment, p.Proper ∧ ∃ j, writeValue L .dateTime (some (.dateTime p)) = .ok j ∧
    readValue L .dateTime j = .error .valueError := by
  refine ⟨lastHalf, lastHalf_proper, _, rfl, ?_⟩
  have : ofTicks (ticks lastHalf) = .error .valueError := by rfl
  simp only [readValue, dateInner_text, pyInt_encode, bind, Except.bind, this]

/-- **The exceptions are exactly these**: a proper point in time is read back if and only if it is not in the last second of a minute
before 1970 with a fraction. -/
theorem moment_kept_iff (p : Moment) (h : p.Proper) : ofTicks (ticks p) = .ok p ↔ p.Kept := by
  refine ⟨fun hr => ?_, moment_round_trip p⟩
  refine ⟨h, ?_⟩
  by_cases hk : 719163 ≤ getAbsoluteDay p.date ∨ p.second ≠ 59 ∨ p.milli = 0
  · exact hk
  · exfalso
    have ht := ticks_proper h
    obtain ⟨_, h1, h2, h3, h4, h5, h6, h7, h8⟩ := h
    unfold ofTicks offsetTime at hr
    rw [show baseDay = 719163 from rfl] at ht
    rw [if_pos] at hr
    · cases hr
    · rcases tdiv_tmod (ticks p) with ⟨h0, e1, e2⟩ | ⟨h0, e1, e2⟩
      · omega
      · rw [e1, e2]; omega

/-- **Leap seconds are lost**: 23:59:60 is written like 23:59:59. -/
theorem leap_second_refuted (d : Date) : ticks ⟨d, 23, 59, 60, 0⟩ = ticks ⟨d, 23, 59, 59, 0⟩ := by
  unfold ticks
  simp only [and_self, if_true]
  rw [if_neg (by omega)]
  omega

/-- **A text that means no day of the calendar is read as the day after**: the last day before the year 1. -/
theorem day_zero_refuted {V : Type} (L : Lib V) : ∃ t p, readValue L .dateTime (.str (dateText t)) = .ok (some (.dateTime p)) ∧
    ticks p = t + 86400000 := by
  have h : ofTicks (-719163 * 86400000) = .ok ⟨origin, 0, 0, 0, 0⟩ := by rfl
  refine ⟨-719163 * 86400000, ⟨origin, 0, 0, 0, 0⟩, ?_, ?_⟩
  · simp only [readValue, dateInner_text, pyInt_encode, bind, Except.bind, h]
  · rfl

/-- **Strings may hold anything**: a number is stored for a string, and is not a value of the type. -/
theorem string_typed_refuted {V : Type} (L : Lib V) : ∃ j v, readValue L .string j = .ok (some v) ∧ ¬ HasType .string v :=
  ⟨.int 5, _, rfl, fun h => nomatch h⟩

/-- **Numbers with a fraction are accepted for integers**, and cut. -/
theorem fraction_refuted {V : Type} (L : Lib V) (t : IntTy) : readValue L (.int t) (.frac 1) = .ok (some (.int 1)) := by
  cases t <;> rfl

/-- **Numbers are accepted for Booleans.** -/
theorem number_boolean_refuted {V : Type} (L : Lib V) (n : Int) : readValue L .boolean (.int n) = .ok (some (.boolean (n ≠ 0))) := rfl

/-- **An object without a complex property is not accepted**: it fails with an error that is no fault of the client. -/
theorem complex_missing_refuted {V : Type} (L : Lib V) (k : Str) (fs : List (Str × Data V)) (l : List (Str × Js)) (h : lookup k l = none) :
    readEntity L [(k, .complex fs)] (.obj l) = .error .attributeError := by
  simp only [readEntity, readFields, find, h, clear, bind, Except.bind]

/-- **Null is not accepted for a complex property** with some property. -/
theorem complex_null_refuted {V : Type} (L : Lib V) (k x : Str) (d : Data V) (fs : List (Str × Data V)) :
    readEntity L [(k, .complex ((x, d) :: fs))] (.obj [(k, .null)]) = .error .typeError := by
  simp only [readEntity, readFields, find, lookup_cons_self, readData, bind, Except.bind, Except.map]

/-- **The link of a new entity to one existing entity is not read back**: a new entity, without values, is linked instead. -/
theorem single_link_refuted {V : Type} (L : Lib V) (href : Str) (ty : Ty) (k : Str) :
    readLinks L [(k, .simple ty none)] false (writeLinks [href]) = .ok [.new [(k, .simple ty none)]] := by
  simp only [readLinks, writeLinks, readAll, readLink, linkJs, List.map_cons, List.map_nil, Js.isStr, readFields, find, clear, bind, Except.bind,
    Except.map, List.any_cons, List.any_nil, Bool.or_false, Bool.false_eq_true, if_false]

/-- **No link to one existing entity is read back.** -/
theorem single_link_never {V : Type} (L : Lib V) (fresh : List (Str × Data V)) (hrefs : List Str) :
    ∀ bs, readLinks L fresh false (writeLinks hrefs) = .ok bs → ∀ h, Bound.existing h ∉ bs := by
  intro bs hb h hmem
  simp only [readLinks, Bool.false_eq_true, if_false, readAll, bind, Except.bind, writeLinks] at hb
  have hnew : ∀ (l : List Str) b, readLink L fresh (.arr (l.map linkJs)) = .ok b → ∃ fs, b = .new fs := by
    intro l b hl
    have key : (readFields L fresh (.arr (l.map linkJs))).map Bound.new = .ok b → ∃ fs, b = .new fs := by
      intro hx
      cases hf : readFields L fresh (.arr (l.map linkJs)) with
      | error e => rw [hf] at hx; cases hx
      | ok fs => rw [hf] at hx; cases hx; exact ⟨fs, rfl⟩
    match l, hl, key with
    | [], hl, key => exact key hl
    | [x], hl, key => exact key (by simpa [readLink, linkJs, Js.isStr] using hl)
    | x :: y :: l, hl, key => exact key hl
  cases hl : readLink L fresh (.arr (hrefs.map linkJs)) with
  | error e => rw [hl] at hb; cases hb
  | ok b =>
    rw [hl] at hb
    cases hb
    obtain ⟨fs, rfl⟩ := hnew hrefs b hl
    rcases List.mem_cons.1 hmem with hx | hx
    · cases hx
    · cases hx

/-- **What the server answers for a property is not what it reads**: sent back, it is accepted, and nothing is stored. -/
theorem property_refuted {V : Type} (L : Lib V) (version : Nat) (name : Str) (d d0 : Data V) (hn : name ≠ "d".toList) (j : Js)
    (h : writeProperty L version name d = .ok j) : readProperty L name d0 j = .ok d0 := by
  simp only [writeProperty, bind, Except.bind] at h
  cases hw : writeData L d with
  | error e => rw [hw] at h; cases h
  | ok x =>
    rw [hw] at h
    cases h
    simp only [readProperty, find, lookup, if_neg (Ne.symm hn), bind, Except.bind]

/-- **A body that has nothing to do with an entity is accepted, and empties it**: with simple properties none of which it has. -/
theorem foreign_body_refuted {V : Type} (L : Lib V) (fs : List (Str × Ty × Option (Val V))) (l : List (Str × Js))
    (h : ∀ f ∈ fs, lookup f.1 l = none) :
    readEntity L (fs.map fun f => (f.1, .simple f.2.1 f.2.2)) (.obj l) = .ok (fs.map fun f => (f.1, .simple f.2.1 none)) := by
  unfold readEntity
  induction fs with
  | nil => simp only [List.map_nil, readFields]
  | cons f fs ih =>
    have h1 := h f (List.mem_cons_self ..)
    simp only [List.map_cons, readFields, find, h1, clear, bind, Except.bind, ih fun g hg => h g (List.mem_cons_of_mem _ hg)]

/-! ## The hypotheses can be met -/

/-- An entity with a key, a nested complex value and a point in time before 1970 is written and read back. -/
def sample : List (Str × Data Unit) :=
  [(['I'], .simple (.int .int32) (some (.int 7))), (['N'], .simple .string none),
    (['C'], .complex [(['D'], .simple .dateTime (some (.dateTime ⟨ymd 1969 7 20, 20, 17, 40, 500⟩))),
      (['X'], .complex [(['B'], .simple .boolean (some (.boolean true)))])])]

theorem sample_sound : Sounds sample := by
  refine .cons (.value ⟨.int32 7 (by decide) (by decide), fun _ h => nomatch h⟩) (by decide) (.cons .null (by decide) (.cons (.complex
    (.cons (.value ⟨.dateTime _ ⟨?_, by decide +kernel⟩, fun p h => ?_⟩) (by decide) (.cons (.complex (.cons (.value ⟨.boolean true, fun _ h => nomatch h⟩) (by decide) .nil))
      (by decide) .nil))) (by decide) .nil))
  · unfold ValidDate ymd yearOf; decide +kernel
  · cases h
    refine ⟨⟨?_, by decide +kernel⟩, .inr (.inl (by decide))⟩
    unfold ValidDate ymd yearOf; decide +kernel

/-- A library that is faithful. -/
def unitLib : Lib Unit where
  b64 b := b.flatMap fun n => List.replicate n '1' ++ ['0']
  unb64 s := .ok (go s 0)
  write _ _ := []
  read _ _ := .ok ()
  show_ _ := []
where
  go : Str → Nat → List Nat
    | [], _ => []
    | c :: s, n => if c = '1' then go s (n + 1) else n :: go s 0

theorem unitLib_go : ∀ (n m : Nat) (s : Str), unitLib.go (List.replicate n '1' ++ '0' :: s) m = (m + n) :: unitLib.go s 0
  | 0, m, s => by simp [unitLib.go]
  | n + 1, m, s => by
    simp only [List.replicate_succ, List.cons_append, unitLib.go, if_true]
    rw [unitLib_go n (m + 1) s]
    congr 1
    omega

theorem unitLib_faithful : unitLib.Faithful := by
  refine ⟨fun b => ?_, fun _ _ => rfl⟩
  show Except.ok (unitLib.go (b.flatMap fun n => List.replicate n '1' ++ ['0']) 0) = .ok b
  congr 1
  induction b with
  | nil => rfl
  | cons n b ih =>
    simp only [List.flatMap_cons, List.append_assoc, List.cons_append, List.nil_append]
    rw [unitLib_go, ih, Nat.zero_add]

theorem shape_refl {V : Type} : ∀ d : Data V, SameShape d d
  | .simple .. => .simple
  | .complex fs => .complex (shapes_refl fs)
where
  shapes_refl : ∀ fs : List (Str × Data V), SameShapes fs fs
    | [] => .nil
    | (_, d) :: fs => .cons (shape_refl d) (shapes_refl fs)

/-- The entity is read back. -/
theorem sample_round_trip (meta_ : Js) (links : List (Str × Js)) :
    ∃ j, writeEntity unitLib meta_ (fun _ => true) links sample = .ok j ∧ readEntity unitLib sample j = .ok sample :=
  entity_round_trip unitLib unitLib_faithful meta_ links sample sample sample_sound (shape_refl.shapes_refl sample) (by decide)

end Verif.Props.JS
