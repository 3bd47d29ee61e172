import Verif.Spec.ODataJson
import Verif.Props.WeekTime
import Verif.Props.XsdText

/-!
# JSON preserves values and entities
-/

namespace Verif.Props.JS
open Verif.OData.Json Verif.Cal Verif.Spec

/-! ## Points in time -/

theorem tdiv_tmod (t : Int) : (0 ≤ t ∧ t.tdiv 1000 = t / 1000 ∧ t.tmod 1000 = t % 1000) ∨
    (t < 0 ∧ t.tdiv 1000 = -((-t) / 1000) ∧ t.tmod 1000 = -((-t) % 1000)) := by
  by_cases h : 0 ≤ t
  · exact .inl ⟨h, Int.tdiv_eq_ediv_of_nonneg h, Int.tmod_eq_emod_of_nonneg h⟩
  · refine .inr ⟨by omega, ?_, ?_⟩
    · have := Int.neg_tdiv (-t) 1000
      rw [Int.neg_neg] at this
      rw [this, Int.tdiv_eq_ediv_of_nonneg (by omega)]
    · have := Int.neg_tmod (-t) 1000
      rw [Int.neg_neg] at this
      rw [this, Int.tmod_eq_emod_of_nonneg (by omega)]

theorem ticks_proper {p : Moment} (h : p.Proper) :
    ticks p = ((getAbsoluteDay p.date - baseDay) * 86400 + (p.second + p.minute * 60 + p.hour * 3600)) * 1000 + p.milli := by
  obtain ⟨_, _, _, _, _, _, h7, _, _⟩ := h
  unfold ticks
  rw [if_neg (by omega)]
  omega

/-- **Points in time are read back**, unless they are in the last second of a minute before 1970 with a fraction. -/
theorem moment_round_trip (p : Moment) (h : p.Kept) : ofTicks (ticks p) = .ok p := by
  obtain ⟨hp, hk⟩ := h
  have ht := ticks_proper hp
  have hc := pFromAbsoluteDay_abs hp.1
  obtain ⟨_, h1, h2, h3, h4, h5, h6, h7, h8⟩ := hp
  unfold ofTicks offsetTime
  generalize hD : getAbsoluteDay p.date = A at *
  have hb : baseDay = 719163 := rfl
  rw [hb] at ht
  have hm : (ticks p).tdiv 1000 % 60 * 1000 + (ticks p).tmod 1000 = p.second * 1000 + p.milli ∧ (ticks p).tdiv 1000 / 60 = (A - 719163) * 1440 + p.minute + p.hour * 60 := by
    rcases tdiv_tmod (ticks p) with ⟨h0, e1, e2⟩ | ⟨h0, e1, e2⟩
    · rw [e1, e2]; omega
    · rw [e1, e2]; omega
  dsimp only
  rw [hm.1, hm.2, if_neg (by omega), hb]
  show ((pFromAbsoluteDay (719163 + ((A - 719163) * 1440 + p.minute + p.hour * 60) / 60 / 24) >>= _) : Except Err Moment) = _
  rw [show 719163 + ((A - 719163) * 1440 + p.minute + p.hour * 60) / 60 / 24 = A by omega, hc]
  show Except.ok (Moment.mk p.date _ _ _ _) = _
  rw [show ((A - 719163) * 1440 + p.minute + p.hour * 60) / 60 % 24 = p.hour by omega,
    show ((A - 719163) * 1440 + p.minute + p.hour * 60) % 60 = p.minute by omega,
    show (p.second * 1000 + p.milli) / 1000 = p.second by omega, show (p.second * 1000 + p.milli) % 1000 = p.milli by omega]

/-- **What is read from ticks is a point in time with these ticks**, but for the day before the first of the calendar. -/
theorem moment_read (t : Int) (p : Moment) (h : ofTicks t = .ok p) : p.Proper ∧ (¬ (-719163 * 86400000 ≤ t + 999 ∧ t < -719162 * 86400000) → ticks p = t) := by
  unfold ofTicks offsetTime at h
  by_cases hm : t.tdiv 1000 % 60 * 1000 + t.tmod 1000 < 0
  · rw [if_pos hm] at h; cases h
  rw [if_neg hm] at h
  have hm : 0 ≤ t.tdiv 1000 % 60 * 1000 + t.tmod 1000 := by omega
  simp only [bind, Except.bind] at h
  cases hd : pFromAbsoluteDay (baseDay + t.tdiv 1000 / 60 / 60 / 24) with
  | error e => rw [hd] at h; cases h
  | ok d =>
    rw [hd] at h
    injection h with h
    have hlt : t.tmod 1000 < 1000 := by rcases tdiv_tmod t with ⟨_, _, e⟩ | ⟨_, _, e⟩ <;> omega
    have hval : ValidDate d := by
      by_cases h0 : baseDay + t.tdiv 1000 / 60 / 60 / 24 = 0
      · rw [h0] at hd
        have hd : pCheck origin = .ok d := hd
        obtain ⟨h1, h2⟩ := pCheck_ok hd
        exact h1 ▸ h2
      · exact (pFromAbsoluteDay_ok h0 hd).1
    have hp : p.Proper := by
      rw [← h]
      refine ⟨hval, ?_, ?_, ?_, ?_, ?_, ?_, ?_, ?_⟩ <;> simp only <;> omega
    refine ⟨hp, fun hne => ?_⟩
    rw [ticks_proper hp, ← h]
    simp only
    have hb : baseDay = 719163 := rfl
    rw [hb] at hd ⊢
    have h0 : (719163 : Int) + t.tdiv 1000 / 60 / 60 / 24 ≠ 0 := by
      rcases tdiv_tmod t with ⟨_, e1, e2⟩ | ⟨_, e1, e2⟩
      · rw [e1]; omega
      · rw [e1]; omega
    rw [(pFromAbsoluteDay_ok h0 hd).2]
    rcases tdiv_tmod t with ⟨_, e1, e2⟩ | ⟨_, e1, e2⟩
    · rw [e1, e2] at *; omega
    · rw [e1, e2] at *; omega

theorem dateInner_text (t : Int) : dateInner (dateText t) = some (Xsd.encodeInteger t) := by
  unfold dateInner dateText
  have h1 : "/Date(".toList.length = 6 := by decide
  have h2 : ")/".toList.length = 2 := by decide
  generalize "/Date(".toList = a at *
  generalize ")/".toList = b at *
  have h3 : (a ++ Xsd.encodeInteger t ++ b).length = 6 + (Xsd.encodeInteger t).length + 2 := by
    simp only [List.length_append]; omega
  rw [if_pos]
  · rw [h3, List.append_assoc, ← h1, List.drop_left, h1, show 6 + (Xsd.encodeInteger t).length + 2 - 8 = (Xsd.encodeInteger t).length by omega,
      List.take_left]
  · constructor
    · rw [List.append_assoc, ← h1, List.take_left]
    · rw [h3, show 6 + (Xsd.encodeInteger t).length + 2 - 2 = (a ++ Xsd.encodeInteger t).length by simp only [List.length_append]; omega,
        List.drop_left]

theorem pyInt_encode (t : Int) : Xsd.pyInt (Xsd.encodeInteger t) = .ok t := by
  have h := integer_round_trip t
  unfold Xsd.decodeInteger at h
  cases hs : Xsd.scanInteger false (Xsd.encodeInteger t) with
  | error e => rw [hs] at h; cases h
  | ok u => rw [hs] at h; exact h

/-! ## Values -/

/-- **Simple values are read back.** -/
theorem value_round_trip {V : Type} (L : Lib V) (hL : L.Faithful) (ty : Ty) (v : Val V) (h : Keeps ty v) :
    ∃ j, writeValue L ty (some v) = .ok j ∧ readValue L ty j = .ok (some v) := by
  obtain ⟨ht, hk⟩ := h
  cases ht with
  | binary b => exact ⟨_, rfl, by simp only [readValue, hL.binary]; rfl⟩
  | boolean b => exact ⟨_, rfl, rfl⟩
  | byte n h1 h2 => exact ⟨_, rfl, by exact if_neg (fun hx => by simp only [IntTy.lo, IntTy.hi] at hx; omega)⟩
  | sbyte n h1 h2 => exact ⟨_, rfl, by exact if_neg (fun hx => by simp only [IntTy.lo, IntTy.hi] at hx; omega)⟩
  | int16 n h1 h2 => exact ⟨_, rfl, by exact if_neg (fun hx => by simp only [IntTy.lo, IntTy.hi] at hx; omega)⟩
  | int32 n h1 h2 => exact ⟨_, rfl, by exact if_neg (fun hx => by simp only [IntTy.lo, IntTy.hi] at hx; omega)⟩
  | dateTime p hp =>
    refine ⟨_, rfl, ?_⟩
    simp only [readValue, dateInner_text, pyInt_encode, bind, Except.bind, moment_round_trip p (hk p rfl)]
  | lit t v => exact ⟨_, rfl, by simp only [readValue, hL.literal]; rfl⟩
  | string s => exact ⟨_, rfl, rfl⟩

/-- **Null is read back**, whatever the type. -/
theorem null_round_trip {V : Type} (L : Lib V) (ty : Ty) : ∃ j, writeValue L ty none = .ok j ∧ readValue L ty j = .ok none :=
  ⟨_, rfl, by cases ty <;> rfl⟩

/-- **What is read belongs to the type of the property**, whatever was sent, unless the property is a string. -/
theorem read_typed {V : Type} (L : Lib V) (ty : Ty) (j : Js) (v : Val V) (hs : ty ≠ .string) (h : readValue L ty j = .ok (some v)) :
    HasType ty v := by
  cases ty with
  | binary =>
    cases j <;> simp only [readValue] at h <;> try cases h
    rename_i s
    cases hu : L.unb64 s with
    | error e => rw [hu] at h; cases h
    | ok b => rw [hu] at h; cases h; exact .binary b
  | boolean =>
    cases j <;> simp only [readValue] at h <;> cases h
    all_goals exact .boolean _
  | int t =>
    have key : ∀ n, t.lo ≤ n → n ≤ t.hi → HasType (V := V) (.int t) (.int n) := by
      intro n h1 h2
      cases t with
      | byte => exact .byte n h1 h2
      | sbyte => exact .sbyte n h1 h2
      | int16 => exact .int16 n h1 h2
      | int32 => exact .int32 n h1 h2
    have h0 : t.lo ≤ 0 ∧ 0 ≤ t.hi := by cases t <;> decide
    cases j with
    | int n =>
      simp only [readValue] at h
      split at h
      · cases h
      · cases h; exact key n (by omega) (by omega)
    | frac n =>
      simp only [readValue] at h
      split at h
      · cases h
      · cases h
        split <;> exact key _ (by omega) (by omega)
    | _ => simp only [readValue] at h; cases h
  | dateTime =>
    cases j with
    | str s =>
      simp only [readValue] at h
      split at h
      · rename_i x _
        simp only [bind, Except.bind] at h
        cases hx : Xsd.pyInt x with
        | error e => rw [hx] at h; cases h
        | ok t =>
          rw [hx] at h
          cases hp : ofTicks t with
          | error e => simp only [hp] at h; cases h
          | ok p => simp only [hp] at h; cases h; exact .dateTime p (moment_read t p hp).1
      · cases h
    | _ => simp only [readValue] at h; cases h
  | offset =>
    cases j with
    | str s =>
      simp only [readValue] at h
      split at h
      · rename_i x _
        simp only [bind, Except.bind] at h
        cases hx : Xsd.pyInt x with
        | error e => rw [hx] at h; cases h
        | ok t => rw [hx] at h; cases h
      · cases h
    | _ => simp only [readValue] at h; cases h
  | lit t =>
    cases j <;> simp only [readValue] at h <;> try cases h
    rename_i s
    cases hu : L.read t s with
    | error e => rw [hu] at h; cases h
    | ok b => rw [hu] at h; cases h; exact .lit t b
  | string => exact absurd rfl hs

/-! ## Entities -/

theorem lookup_cons_self (k : Str) (j : Js) (l : List (Str × Js)) : lookup k ((k, j) :: l) = some j := by simp [lookup]

theorem lookup_other {k x : Str} (j : Js) (l : List (Str × Js)) (h : x ≠ k) : lookup k ((x, j) :: l) = lookup k l := by simp [lookup, h]

theorem lookup_append {k : Str} {l m : List (Str × Js)} {j : Js} (h : lookup k l = some j) : lookup k (l ++ m) = some j := by
  induction l with
  | nil => cases h
  | cons f l ih =>
    obtain ⟨x, y⟩ := f
    simp only [lookup, List.cons_append] at h ⊢
    split at h <;> rename_i hx
    · rw [if_pos hx]; exact h
    · rw [if_neg hx]; exact ih h

theorem lookup_none {k : Str} {l : List (Str × Js)} (h : ∀ f ∈ l, f.1 ≠ k) : lookup k l = none := by
  induction l with
  | nil => rfl
  | cons f l ih =>
    obtain ⟨x, y⟩ := f
    rw [lookup_other y l (h _ (List.mem_cons_self ..))]
    exact ih fun g hg => h g (List.mem_cons_of_mem _ hg)

theorem fields_read_congr {V : Type} (L : Lib V) : ∀ (fs : List (Str × Data V)) (l m : List (Str × Js)), (∀ f ∈ fs, lookup f.1 l = lookup f.1 m) →
    readFields L fs (.obj l) = readFields L fs (.obj m)
  | [], _, _, _ => by simp only [readFields]
  | (k, d) :: fs, l, m, h => by
    have h1 := h _ (List.mem_cons_self ..)
    have h2 := fields_read_congr L fs l m fun f hf => h f (List.mem_cons_of_mem _ hf)
    simp only at h1
    simp only [readFields, find, h1, h2]

theorem shapes_names {V : Type} {fs gs : List (Str × Data V)} (h : SameShapes fs gs) : fs.map (·.1) = gs.map (·.1) := by
  induction gs generalizing fs with
  | nil => cases h; rfl
  | cons g gs ih => cases h with | cons _ h => simp only [List.map_cons, ih h]

theorem write_names {V : Type} (L : Lib V) : ∀ (fs : List (Str × Data V)) (r : List (Str × Js)), writeFields L fs = .ok r → r.map (·.1) = fs.map (·.1)
  | [], r, h => by simp only [writeFields] at h; cases h; rfl
  | (k, d) :: fs, r, h => by
    simp only [writeFields, bind, Except.bind] at h
    cases h1 : writeData L d with
    | error e => rw [h1] at h; cases h
    | ok j =>
      rw [h1] at h
      cases h2 : writeFields L fs with
      | error e => rw [h2] at h; cases h
      | ok r' =>
        rw [h2] at h
        cases h
        simp only [List.map_cons, write_names L fs r' h2]

mutual
theorem data_round_trip {V : Type} (L : Lib V) (hL : L.Faithful) : ∀ (d d0 : Data V), Sound d → SameShape d0 d →
    ∃ j, writeData L d = .ok j ∧ readData L d0 j = .ok d
  | .simple ty none, d0, _, hs => by
    cases hs with
    | simple =>
      obtain ⟨j, h1, h2⟩ := null_round_trip L ty
      exact ⟨j, by simp only [writeData, h1], by simp only [readData, h2]; rfl⟩
  | .simple ty (some v), d0, hv, hs => by
    cases hs with
    | simple =>
      cases hv with
      | value hv =>
        obtain ⟨j, h1, h2⟩ := value_round_trip L hL ty v hv
        exact ⟨j, by simp only [writeData, h1], by simp only [readData, h2]; rfl⟩
  | .complex fs, d0, hv, hs => by
    cases hs with
    | complex hs =>
      cases hv with
      | complex hv =>
        obtain ⟨r, h1, h2⟩ := fields_round_trip L hL fs _ hv hs
        exact ⟨.obj r, by simp only [writeData, h1]; rfl, by simp only [readData, h2]; rfl⟩

theorem fields_round_trip {V : Type} (L : Lib V) (hL : L.Faithful) : ∀ (fs gs : List (Str × Data V)), Sounds fs → SameShapes gs fs →
    ∃ r, writeFields L fs = .ok r ∧ readFields L gs (.obj r) = .ok fs
  | [], gs, _, hs => by
    cases hs
    exact ⟨[], by simp only [writeFields], by simp only [readFields]⟩
  | (k, d) :: fs, gs, hv, hs => by
    cases hs with
    | @cons _ e _ gs _ hd hg =>
      cases hv with
      | cons hv hk hvs =>
        obtain ⟨j, h1, h2⟩ := data_round_trip L hL d e hv hd
        obtain ⟨r, h3, h4⟩ := fields_round_trip L hL fs gs hvs hg
        refine ⟨(k, j) :: r, by simp only [writeFields, h1, h3]; rfl, ?_⟩
        have hne : ∀ f ∈ gs, lookup f.1 ((k, j) :: r) = lookup f.1 r := by
          intro f hf
          refine lookup_other j r fun hx => ?_
          have hm : f.1 ∈ fs.map (·.1) := by rw [← shapes_names hg]; exact List.mem_map_of_mem hf
          obtain ⟨g, hg1, hg2⟩ := List.mem_map.1 hm
          exact hk g hg1 (hg2.trans hx.symm)
        simp only [readFields, find, lookup_cons_self, bind, Except.bind, h2, fields_read_congr L gs _ _ hne, h4]
end

theorem filter_all {α : Type} (l : List α) : l.filter (fun _ => true) = l := by
  induction l with
  | nil => rfl
  | cons a l ih => simp only [List.filter_cons, if_true, ih]

/-- **Entities are read back**: whatever the properties held before, however complex values are nested, and whatever links follow. -/
theorem entity_round_trip {V : Type} (L : Lib V) (hL : L.Faithful) (meta_ : Js) (links : List (Str × Js)) (fs gs : List (Str × Data V))
    (hv : Sounds fs) (hs : SameShapes gs fs) (hm : ∀ f ∈ fs, f.1 ≠ "__metadata".toList) :
    ∃ j, writeEntity L meta_ (fun _ => true) links fs = .ok j ∧ readEntity L gs j = .ok fs := by
  obtain ⟨r, h1, h2⟩ := fields_round_trip L hL fs gs hv hs
  refine ⟨.obj (("__metadata".toList, meta_) :: (r ++ links)), by simp only [writeEntity, filter_all, h1]; rfl, ?_⟩
  unfold readEntity
  rw [← h2]
  refine fields_read_congr L gs _ _ fun f hf => ?_
  have hmem : f.1 ∈ fs.map (·.1) := by rw [← shapes_names hs]; exact List.mem_map_of_mem hf
  obtain ⟨g, hg1, hg2⟩ := List.mem_map.1 hmem
  rw [lookup_other _ _ (fun hx => hm g hg1 (hg2.trans hx.symm))]
  have : f.1 ∈ r.map (·.1) := by rw [write_names L fs r h1]; exact hmem
  cases hl : lookup f.1 r with
  | some j => exact lookup_append hl
  | none =>
    exfalso
    clear h1 h2 hmem hg1 hg2
    induction r with
    | nil => cases this
    | cons x r ih =>
      obtain ⟨k, j⟩ := x
      simp only [lookup] at hl
      split at hl
      · cases hl
      · rename_i hk
        rcases List.mem_cons.1 this with h | h
        · exact hk h.symm
        · exact ih h hl

/-- **Properties that an object does not have are set to null, the others are read from it**; nothing else happens to them. -/
theorem read_exact {V : Type} (L : Lib V) : ∀ (fs gs : List (Str × Data V)) (l : List (Str × Js)), readEntity L fs (.obj l) = .ok gs →
    gs.map (·.1) = fs.map (·.1) ∧ ∀ k d, (k, d) ∈ gs → (lookup k l = none → ∃ ty, d = .simple ty none) ∧
      ∀ j, lookup k l = some j → ∃ d0, (k, d0) ∈ fs ∧ readData L d0 j = .ok d
  | [], gs, l, h => by
    simp only [readEntity, readFields] at h
    cases h
    exact ⟨rfl, fun _ _ h => nomatch h⟩
  | (k, d) :: fs, gs, l, h => by
    have hform : readFields L ((k, d) :: fs) (.obj l) = ((match lookup k l with | some x => readData L d x | none => clear d) >>= fun d' =>
        readFields L fs (.obj l) >>= fun r => .ok ((k, d') :: r)) := by
      simp only [readFields, find, bind, Except.bind]
      cases lookup k l <;> rfl
    rw [readEntity, hform] at h
    simp only [bind, Except.bind] at h
    cases hd : (match lookup k l with | some x => readData L d x | none => clear d) with
    | error e => rw [hd] at h; cases h
    | ok d' =>
      rw [hd] at h
      simp only at h
      cases hr : readFields L fs (.obj l) with
      | error e => rw [hr] at h; cases h
      | ok r =>
        rw [hr] at h
        cases h
        obtain ⟨ih1, ih2⟩ := read_exact L fs r l hr
        refine ⟨by simp only [List.map_cons, ih1], fun x y hxy => ?_⟩
        rcases List.mem_cons.1 hxy with hxy | hxy
        · cases hxy
          cases hl : lookup k l with
          | none =>
            rw [hl] at hd
            refine ⟨fun _ => ?_, fun _ h => nomatch h⟩
            simp only at hd
            cases d with
            | simple ty v => simp only [clear] at hd; cases hd; exact ⟨ty, rfl⟩
            | complex gs => simp only [clear] at hd; cases hd
          | some j =>
            rw [hl] at hd
            exact ⟨fun h => (nomatch h), fun j' hj => by cases hj; exact ⟨d, List.mem_cons_self .., hd⟩⟩
        · obtain ⟨h1, h2⟩ := ih2 x y hxy
          exact ⟨h1, fun j hj => by
            obtain ⟨d0, h3, h4⟩ := h2 j hj
            exact ⟨d0, List.mem_cons_of_mem _ h3, h4⟩⟩

/-! ## Links and single properties -/

/-- **Links of a new entity to existing ones are read back**, if the navigation property has many targets. -/
theorem links_round_trip {V : Type} (L : Lib V) (fresh : List (Str × Data V)) (hrefs : List Str) :
    readLinks L fresh true (writeLinks hrefs) = .ok (hrefs.map .existing) := by
  simp only [readLinks, if_true, writeLinks]
  induction hrefs with
  | nil => rfl
  | cons h hs ih =>
    have h1 : readLink L fresh (linkJs h) = .ok (.existing h) := by
      simp only [readLink, linkJs, if_true, href, lookup_cons_self]; rfl
    simp only [List.map_cons, readAll, h1, bind, Except.bind, ih]

/-- **A request with a property stores it**, if it names the property. -/
theorem property_read {V : Type} (L : Lib V) (hL : L.Faithful) (name : Str) (d d0 : Data V) (hd : Sound d) (hs : SameShape d0 d) :
    ∃ j, writeData L d = .ok j ∧ readProperty L name d0 (.obj [(name, j)]) = .ok d := by
  obtain ⟨j, h1, h2⟩ := data_round_trip L hL d d0 hd hs
  exact ⟨j, h1, by simp only [readProperty, find, lookup_cons_self, bind, Except.bind, h2]⟩

end Verif.Props.JS
