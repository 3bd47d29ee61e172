import Verif.Props.QtiArith
import Verif.Props.QtiState

/-!
# Mappings and lookup tables
-/

namespace Verif.Props

open Verif Verif.Qti Verif.Spec

set_option linter.unusedVariables false

/-- `q` is `r` kept between the bounds. -/
def Clamped (lower upper : Option Rat) (r q : Rat) : Prop :=
  (∀ l, lower = some l → l ≤ q) ∧ (∀ u, upper = some u → q ≤ u) ∧
  (q = r ∨ (lower = some q ∧ r < q) ∨ (upper = some q ∧ q < r))

theorem clamp_ok (lower upper : Option Rat) (r : Rat)
    (h : ∀ l u, lower = some l → upper = some u → l ≤ u) : Clamped lower upper r (clamp lower upper r) := by
  unfold clamp Clamped
  cases lower with
  | none =>
    cases upper with
    | none => simp
    | some u =>
      dsimp only
      split <;> rename_i hc <;> refine ⟨by simp, ?_, ?_⟩
      · intro v hv; cases hv; grind
      · right; right; exact ⟨rfl, hc⟩
      · intro v hv; cases hv; grind
      · left; rfl
  | some l =>
    dsimp only
    split
    · rename_i hc
      refine ⟨?_, ?_, Or.inr (Or.inl ⟨rfl, hc⟩)⟩
      · intro v hv; cases hv; grind
      · intro u hu; exact h l u rfl hu
    · rename_i hc
      cases upper with
      | none =>
        refine ⟨?_, by simp, Or.inl rfl⟩
        intro v hv; cases hv; grind
      | some u =>
        dsimp only
        have := h l u rfl rfl
        split <;> rename_i hc' <;> refine ⟨?_, ?_, ?_⟩
        · intro v hv; cases hv; exact this
        · intro v hv; cases hv; grind
        · right; right; exact ⟨rfl, hc'⟩
        · intro v hv; cases hv; grind
        · intro v hv; cases hv; grind
        · left; rfl

/-! ## Mappings -/

/-- The score of a value under the entries: that of the entry for it, or the default. -/
def Scores (m : Mapping) (a : Atom) (q : Rat) : Prop :=
  (a, q) ∈ m.entries ∨ (q = m.default ∧ ∀ e ∈ m.entries, e.1 ≠ a)

theorem get_scores (m : Mapping) (a : Atom) : Scores m a (m.get a) := by
  unfold Mapping.get Scores
  cases h : m.entries.reverse.find? (fun e => e.1 = a) with
  | none =>
    right
    refine ⟨rfl, ?_⟩
    intro e he
    have := List.find?_eq_none.mp h e (by simpa using he)
    simpa using this
  | some e =>
    left
    have h1 := List.mem_of_find?_eq_some h
    have h2 := List.find?_some h
    simp at h1 h2
    rw [← h2]
    exact h1

theorem scores_unique (m : Mapping) (hk : (m.entries.map (·.1)).Nodup) (a : Atom) (q : Rat) (h : Scores m a q) :
    q = m.get a := by
  have h' := get_scores m a
  have uniq : ∀ l : List (Atom × Rat), (l.map (·.1)).Nodup → ∀ x y, (a, x) ∈ l → (a, y) ∈ l → x = y := by
    intro l
    induction l with
    | nil => intro _ x y hx; cases hx
    | cons e l ih =>
      intro hn x y hx hy
      rw [List.map_cons, List.nodup_cons] at hn
      have hno : ∀ z, (a, z) ∈ l → e.1 ≠ a := by
        rintro z hz rfl
        exact hn.1 (List.mem_map.mpr ⟨_, hz, rfl⟩)
      rcases List.mem_cons.mp hx with hx | hx
      · rcases List.mem_cons.mp hy with hy | hy
        · rw [← hy] at hx
          exact (Prod.mk.inj hx).2
        · exact absurd (by rw [← hx]) (hno y hy)
      · rcases List.mem_cons.mp hy with hy | hy
        · exact absurd (by rw [← hy]) (hno x hx)
        · exact ih hn.2 x y hx hy
  rcases h with h | ⟨h, hno⟩
  · rcases h' with h' | ⟨h', hno'⟩
    · exact uniq _ hk _ _ h h'
    · exact absurd rfl (hno' _ h)
  · rcases h' with h' | ⟨h', _⟩
    · exact absurd rfl (hno _ h')
    · rw [h, h']

theorem loop_eq (m : Mapping) : ∀ (src been : List Atom) (r : Rat),
    m.loop been r src = r + (((distinct src).filter (fun a => a ∉ been)).map m.get).foldr (· + ·) 0
  | [], been, r => by simp [Mapping.loop, distinct, Rat.add_zero]
  | v :: vs, been, r => by
    rw [Mapping.loop, distinct]
    by_cases hv : v ∈ been
    · rw [if_pos hv, loop_eq m vs been r, List.filter_cons_of_neg (by simp [hv]), List.filter_filter]
      congr 4
      funext a
      by_cases ha : a = v
      · subst ha; simp [hv]
      · simp [ha]
    · rw [if_neg hv, loop_eq m vs (v :: been) _, List.filter_cons_of_pos (by simp [hv]), List.filter_filter,
        List.map_cons, List.foldr_cons, ← Rat.add_assoc]
      congr 4
      funext a
      by_cases ha : a = v <;> simp [ha]

theorem distinct_distinct (l : List Atom) : distinct (distinct l) = distinct l := distinct_id (distinct_nodup l)

/-- The mapped value of a response: the sum of the scores of its distinct members, kept between the
bounds.  (If two entries have the same key, the last one counts.) -/
theorem mapping_total (m : Mapping) (hk : (m.entries.map (·.1)).Nodup)
    (hb : ∀ l u, m.lower = some l → m.upper = some u → l ≤ u) (v : Value) (hv : WellTyped v)
    (hc : v.card = some .single ∨ v.card = some .ordered ∨ v.card = some .multiple) (hn : v.isNull = false)
    (keys : List Atom) (hkeys : keys.Nodup) (hmem : ∀ a, a ∈ keys ↔ a ∈ members v)
    (score : Atom → Rat) (hs : ∀ a, Scores m a (score a)) :
    ∃ q, m.mapValue v = .ok (floatV (some q)) ∧
      Clamped m.lower m.upper ((keys.map score).foldr (· + ·) 0) q := by
  have hscore : score = m.get := funext fun a => scores_unique m hk a _ (hs a)
  subst hscore
  have hbt : v.bt ≠ none := by
    intro h
    have := null_members hv h
    cases hv with
    | unknown => cases hn
    | container _ => cases hn
    | null _ => cases hn
    | single _ => cases h
    | ordered _ => simp [members] at this; subst this; cases hn
    | multiple _ => simp [members] at this; subst this; cases hn
    | record _ => simp [Value.card] at hc
  have hsrc : ∃ src, mapSources v = .ok src ∧ ∀ a, a ∈ src ↔ a ∈ members v := by
    unfold mapSources
    rw [if_neg (by simp [hn])]
    cases hv with
    | unknown => cases hn
    | container _ => cases hn
    | null _ => cases hn
    | single _ => exact ⟨_, rfl, fun a => Iff.rfl⟩
    | ordered _ => exact ⟨_, rfl, fun a => Iff.rfl⟩
    | multiple _ => exact ⟨_, rfl, fun a => mem_distinct a _⟩
    | record _ => simp [Value.card] at hc
  obtain ⟨src, hsrc, hsm⟩ := hsrc
  refine ⟨clamp m.lower m.upper (m.loop [] 0 src), ?_, ?_⟩
  · unfold Mapping.mapValue
    rw [hsrc]
    simp only [bind, Except.bind]
    rw [if_neg (by simp [hn, hbt])]
    rfl
  · have hperm : (distinct src).Perm keys := by
      rw [List.perm_ext_iff_of_nodup (distinct_nodup src) hkeys]
      intro a
      rw [mem_distinct, hsm, hmem]
    have heq : m.loop [] 0 src = (keys.map m.get).foldr (· + ·) 0 := by
      rw [loop_eq, Rat.zero_add]
      have : (distinct src).filter (fun a => decide (a ∉ ([] : List Atom))) = distinct src :=
        List.filter_eq_self.mpr (by simp)
      rw [this]
      exact List.Perm.foldr_eq' (hperm.map _) (by intro x _ y _ z; grind) 0
    rw [heq]
    exact clamp_ok _ _ _ hb

/-- The mapped value of a NULL response is zero, whatever the bounds. -/
theorem mapping_null (m : Mapping) (v : Value) (h : v.isNull = true) : m.mapValue v = .ok (floatV (some 0)) := by
  unfold Mapping.mapValue mapSources
  rw [if_pos h]
  simp only [bind, Except.bind]
  rw [if_pos (Or.inl h)]
  rfl

/-- `mapResponse` gives the mapped value of the response. -/
theorem mapResponse_eval (st : State) (i : Str) (d : Decl) (m : Mapping) (v w : Value) (hv : st.get i = .ok v)
    (hd : Dict.get st.decls i = some d) (hk : d.kind = .response) (hm : d.mapping = some m)
    (hw : m.mapValue v = .ok w) : eval st (.leaf (.mapResponse i)) = .ok w := by
  have hg : st.getDecl i = .ok (some d) := by
    unfold State.getDecl Dict.has
    rw [get_eq.mp hv, hd]
    rfl
  rw [eval]
  simp only [evalLeaf, responseDecl, hg, hk, bind, Except.bind, if_true]
  simp only [pure, Except.pure, hm, hv, hw, declared]

/-- The hypotheses are met: two of three answers chosen, one of them twice. -/
example : (⟨some 0, some 2, -1, [(.str ['a'], 1), (.str ['b'], 3)]⟩ : Mapping).mapValue
    (.multiple (some .identifier) [.str ['a'], .str ['c'], .str ['a']]) = .ok (floatV (some 0)) := by
  decide +kernel

/-! ## Area mappings -/

/-- The first area that holds the point, counting from `k`. -/
inductive FirstArea (width height : Option Int) (x y : Int) : Nat → List AreaEntry → Option Nat → Prop where
  | none (k) : FirstArea width height x y k [] none
  | here {k e es} : Shapes.testPoint e.shape e.coords x y width height = .ok true →
      FirstArea width height x y k (e :: es) (some k)
  | later {k e es r} : Shapes.testPoint e.shape e.coords x y width height = .ok false →
      FirstArea width height x y (k + 1) es r → FirstArea width height x y k (e :: es) r

theorem hitArea_first {width height : Option Int} {x y : Int} : ∀ {es : List AreaEntry} {r : Option Nat} {k : Nat},
    FirstArea width height x y k es r → hitArea x y width height es = .ok (r.map (· - k)) ∧ ∀ i, r = some i → k ≤ i
  | [], r, k, h => by
    cases h
    exact ⟨rfl, by simp⟩
  | e :: es, r, k, h => by
    cases h with
    | here h =>
      refine ⟨?_, by intro i hi; cases hi; exact Nat.le_refl _⟩
      rw [hitArea, h]
      simp [bind, Except.bind, pure, Except.pure]
    | later h1 h2 =>
      obtain ⟨h3, h4⟩ := hitArea_first h2
      refine ⟨?_, fun i hi => by have := h4 i hi; omega⟩
      rw [hitArea, h1]
      simp only [bind, Except.bind, h3, pure, Except.pure]
      cases r with
      | none => rfl
      | some i =>
        have := h4 i rfl
        simp
        omega

/-- The points with the areas they hit. -/
inductive Hits (m : AreaMapping) (width height : Option Int) : List Atom → List (Option Nat) → Prop where
  | nil : Hits m width height [] []
  | cons {x y as hs h} : FirstArea width height x y 0 m.entries h → Hits m width height as hs →
      Hits m width height (.point x y :: as) (h :: hs)

/-- The value of the area at a position. -/
def areaValue (m : AreaMapping) (i : Nat) : Rat := ((m.entries[i]?).map (·.value)).getD 0

/-- Positions of areas, each once. -/
def distinctNat : List Nat → List Nat
  | [] => []
  | a :: as => a :: (distinctNat as).filter (fun b => b ≠ a)

theorem mem_distinctNat (a : Nat) : ∀ l : List Nat, a ∈ distinctNat l ↔ a ∈ l
  | [] => Iff.rfl
  | b :: l => by
    rw [distinctNat, List.mem_cons, List.mem_cons, List.mem_filter, mem_distinctNat a l]
    by_cases h : a = b <;> simp [h]

theorem distinctNat_nodup : ∀ l : List Nat, (distinctNat l).Nodup
  | [] => List.nodup_nil
  | b :: l => by
    rw [distinctNat, List.nodup_cons]
    refine ⟨?_, (distinctNat_nodup l).filter _⟩
    intro h
    have := (List.mem_filter.mp h).2
    simp at this

theorem areaLoop_eq (m : AreaMapping) (width height : Option Int) {as : List Atom} {hs : List (Option Nat)}
    (h : Hits m width height as hs) : ∀ (been : List Nat) (r : Rat),
    m.loop width height been r as = .ok (r + m.default * (hs.count none : Nat) +
      (((distinctNat (hs.filterMap id)).filter (fun i => i ∉ been)).map (areaValue m)).foldr (· + ·) 0) := by
  induction h with
  | nil => intro been r; simp [AreaMapping.loop, distinctNat, Rat.add_zero, Rat.mul_zero]
  | @cons x y as hs h hf _ ih =>
    intro been r
    obtain ⟨h1, h2⟩ := hitArea_first hf
    rw [AreaMapping.loop, h1]
    cases h with
    | none =>
      simp only [bind, Except.bind, Option.map]
      rw [ih been]
      congr 1
      have e1 : (none :: hs).filterMap (id : Option Nat → Option Nat) = hs.filterMap id := rfl
      have e2 : ((none :: hs).count (none : Option Nat) : Nat) = hs.count none + 1 := by simp
      rw [e1, e2]
      have : ((hs.count (none : Option Nat) + 1 : Nat) : Rat) = (hs.count none : Nat) + 1 := by
        simp
      rw [this]
      grind
    | some i =>
      simp only [bind, Except.bind, Option.map, Nat.sub_zero]
      have e1 : (some i :: hs).filterMap (id : Option Nat → Option Nat) = i :: hs.filterMap id := rfl
      have e2 : ((some i :: hs).count (none : Option Nat) : Nat) = hs.count none := by simp
      rw [e1, e2, distinctNat]
      by_cases hi : i ∈ been
      · rw [if_pos hi, ih been r, List.filter_cons_of_neg (by simp [hi]), List.filter_filter]
        congr 5
        funext a
        by_cases ha : a = i
        · subst ha; simp [hi]
        · simp [ha]
      · rw [if_neg hi, ih (i :: been), List.filter_cons_of_pos (by simp [hi]), List.filter_filter,
          List.map_cons, List.foldr_cons]
        have : (fun a => decide (a ∉ been) && decide (a ≠ i)) = fun a => decide (a ∉ i :: been) := by
          funext a
          by_cases ha : a = i <;> simp [ha]
        rw [this]
        congr 1
        show r + areaValue m i + _ + _ = _
        grind

/-- The mapped value of a response of points: the values of the areas hit, each counted once however many
points hit it, and the default for every point that hits none, kept between the bounds.  A point in several
areas hits the first. -/
theorem area_mapping_total (m : AreaMapping) (width height : Option Int)
    (hb : ∀ l u, m.lower = some l → m.upper = some u → l ≤ u) (v : Value) (pts : List Atom)
    (hv : v = .single (some .point) pts.head? ∧ pts.length = 1 ∨ v = .ordered (some .point) pts ∧ pts ≠ [] ∨
      v = .multiple (some .point) pts ∧ pts.Nodup ∧ pts ≠ [])
    (hs : List (Option Nat)) (hh : Hits m width height pts hs)
    (areas : List Nat) (hnd : areas.Nodup) (hareas : ∀ i, i ∈ areas ↔ some i ∈ hs) :
    ∃ q, m.mapValue width height v = .ok (floatV (some q)) ∧
      Clamped m.lower m.upper
        (m.default * (hs.count none : Nat) + (areas.map (areaValue m)).foldr (· + ·) 0) q := by
  have hsrc : mapSources v = .ok pts ∧ v.isNull = false ∧ v.bt = some .point := by
    rcases hv with ⟨rfl, hl⟩ | ⟨rfl, hl⟩ | ⟨rfl, hn, hl⟩
    · cases pts with
      | nil => simp at hl
      | cons a as =>
        cases as with
        | nil => exact ⟨rfl, rfl, rfl⟩
        | cons _ _ => simp at hl
    · cases pts with
      | nil => exact absurd rfl hl
      | cons a as => exact ⟨rfl, rfl, rfl⟩
    · cases pts with
      | nil => exact absurd rfl hl
      | cons a as =>
        refine ⟨?_, rfl, rfl⟩
        show Except.ok (distinct (a :: as)) = _
        rw [distinct_id hn]
  obtain ⟨h1, h2, h3⟩ := hsrc
  have hloop := areaLoop_eq m width height hh [] 0
  have heq : (((distinctNat (hs.filterMap id)).filter (fun i => decide (i ∉ ([] : List Nat)))).map (areaValue m)).foldr
      (· + ·) 0 = (areas.map (areaValue m)).foldr (· + ·) 0 := by
    have : (distinctNat (hs.filterMap id)).filter (fun i => decide (i ∉ ([] : List Nat))) = distinctNat (hs.filterMap id) :=
      List.filter_eq_self.mpr (by simp)
    rw [this]
    refine List.Perm.foldr_eq' (List.Perm.map _ ?_) (by intro x _ y _ z; grind) 0
    rw [List.perm_ext_iff_of_nodup (distinctNat_nodup _) hnd]
    intro i
    rw [mem_distinctNat, hareas, List.mem_filterMap]
    constructor
    · rintro ⟨o, ho, he⟩; cases he; exact ho
    · intro h; exact ⟨_, h, rfl⟩
  rw [heq, Rat.zero_add] at hloop
  refine ⟨_, ?_, clamp_ok m.lower m.upper _ hb⟩
  unfold AreaMapping.mapValue
  rw [h1]
  simp only [bind, Except.bind, h3]
  rw [if_neg (by simp)]
  rw [hloop]
  dsimp only
  rw [if_neg (by simp [h2])]
  rfl

/-! ## Lookup tables -/

/-- The entry an interpolation table selects: the first whose boundary is passed. -/
inductive Selected (q : Rat) : List (Rat × Bool × Option Atom) → Option (Option Atom) → Prop where
  | none : Selected q [] none
  | here {b incl t es} : b < q ∨ (incl = true ∧ b = q) → Selected q ((b, incl, t) :: es) (some t)
  | later {b incl t es r} : ¬ (b < q ∨ (incl = true ∧ b = q)) → Selected q es r → Selected q ((b, incl, t) :: es) r

theorem interpolate_selected (q : Rat) (default : Option Atom) : ∀ {es : List (Rat × Bool × Option Atom)} {r},
    Selected q es r → interpolate q default es = r.getD default
  | [], _, h => by cases h; rfl
  | (b, incl, t) :: es, r, h => by
    rw [interpolate]
    cases h with
    | here h => rw [if_pos h]; rfl
    | later h1 h2 => rw [if_neg h1]; exact interpolate_selected q default h2

/-- An interpolation table gives the target of the first entry whose source value is below the number, or
equal to it if the boundary is included; the default if there is none. -/
theorem interpolation_first_entry (t : InterpolationTable) (v : Value) (q : Rat) (hv : IsNumber v q)
    (r : Option (Option Atom)) (hr : Selected q t.entries r) (a : Atom) (ha : r.getD t.default = some a)
    (ht : HasType t.bt a) (hf : InRange a) :
    t.lookup v = .ok (.single (some t.bt) (some a)) := by
  have hi := interpolate_selected q t.default hr
  cases hv with
  | integer i =>
    simp only [InterpolationTable.lookup, Value.isNull, Value.rat?]
    simp [hi, ha, setSingle, fromAtom_same ht hf, bind, Except.bind]
  | float q =>
    simp only [InterpolationTable.lookup, Value.isNull, Value.rat?]
    simp [hi, ha, setSingle, fromAtom_same ht hf, bind, Except.bind]

/-- A match table whose source values are distinct gives the target of the entry for the number, or the
default. -/
theorem match_table_entry_partial (t : MatchTable) (i : Int) (hk : (t.entries.map (·.1)).Nodup) (o : Option Atom)
    (ho : (i, o) ∈ t.entries ∨ ((∀ e ∈ t.entries, e.1 ≠ i) ∧ o = t.default)) (a : Atom) (ha : o = some a)
    (ht : HasType t.bt a) (hf : InRange a) :
    t.lookup (.single (some .integer) (some (.int i))) = .ok (.single (some t.bt) (some a)) := by
  have hfind : (match t.entries.reverse.find? (fun e => e.1 = i) with
      | some e => e.2 | none => t.default) = o := by
    cases h : t.entries.reverse.find? (fun e => e.1 = i) with
    | none =>
      have hn := List.find?_eq_none.mp h
      rcases ho with ho | ⟨_, ho⟩
      · have := hn (i, o) (by simpa using ho)
        simp at this
      · exact ho.symm
    | some e =>
      have h1 := List.mem_of_find?_eq_some h
      have h2 := List.find?_some h
      simp at h1 h2
      rcases ho with ho | ⟨hno, _⟩
      · have uniq : ∀ l : List (Int × Option Atom), (l.map (·.1)).Nodup → e ∈ l → (i, o) ∈ l → e.2 = o := by
          intro l
          induction l with
          | nil => intro _ hx; cases hx
          | cons e' l ih =>
            intro hn hx hy
            rw [List.map_cons, List.nodup_cons] at hn
            rcases List.mem_cons.mp hx with hx | hx
            · rcases List.mem_cons.mp hy with hy | hy
              · rw [← hx] at hy; rw [← hy]
              · exact absurd (List.mem_map.mpr ⟨_, hy, by rw [← hx, h2]⟩) hn.1
            · rcases List.mem_cons.mp hy with hy | hy
              · exact absurd (List.mem_map.mpr ⟨_, hx, by rw [← hy, h2]⟩) hn.1
              · exact ih hn.2 hx hy
        exact uniq _ hk h1 ho
      · exact absurd h2 (hno e h1)
  unfold MatchTable.lookup
  rw [if_neg (by simp [Value.isNull])]
  dsimp only
  cases h : t.entries.reverse.find? (fun e => e.1 = i) with
  | none =>
    rw [h] at hfind
    dsimp only at hfind
    dsimp only
    rw [hfind, ha]
    simp only [setSingle, fromAtom_same ht hf, bind, Except.bind]
  | some e =>
    rw [h] at hfind
    dsimp only at hfind
    dsimp only
    rw [hfind, ha]
    simp only [setSingle, fromAtom_same ht hf, bind, Except.bind]

/-- With two entries for the same number a match table does not use the first, as documented, but the
last. -/
theorem match_table_uses_last :
    (⟨.integer, none, [(1, some (.int 10)), (1, some (.int 20))]⟩ : MatchTable).lookup
      (.single (some .integer) (some (.int 1))) = .ok (.single (some .integer) (some (.int 20))) := by
  decide +kernel

/-- The hypotheses are met. -/
example : Selected 3 [(5, true, some (.int 1)), (3, false, some (.int 2)), (1, true, some (.int 3))] (some (some (.int 3))) :=
  .later (by decide +kernel) (.later (by decide +kernel) (.here (Or.inl (by decide +kernel))))

end Verif.Props
