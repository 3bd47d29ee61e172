import Verif.Model.Py

/-! Python dictionaries as association lists (iteration order is not modelled here). -/

namespace Verif.Dict

variable {κ β : Type} [DecidableEq κ]

/-- `d.get(k)`. -/
def get (d : List (κ × β)) (k : κ) : Option β := (d.find? (fun p => p.1 = k)).map (·.2)

/-- `d[k]=v`. -/
def set (d : List (κ × β)) (k : κ) (v : β) : List (κ × β) := (k, v) :: d.filter (fun p => p.1 ≠ k)

/-- `del d[k]` (no error if absent; used where the key is present). -/
def del (d : List (κ × β)) (k : κ) : List (κ × β) := d.filter (fun p => p.1 ≠ k)

/-- `d.has_key(k)`. -/
def has (d : List (κ × β)) (k : κ) : Bool := (get d k).isSome

/-- `d.keys()`. -/
def keys (d : List (κ × β)) : List κ := d.map (·.1)

@[simp] theorem get_nil (k : κ) : get ([] : List (κ × β)) k = none := rfl

theorem get_cons (p : κ × β) (d : List (κ × β)) (k : κ) :
    get (p :: d) k = if p.1 = k then some p.2 else get d k := by
  unfold get
  rw [List.find?_cons]
  by_cases h : p.1 = k <;> simp [h]

theorem get_del (d : List (κ × β)) (k k' : κ) :
    get (del d k) k' = if k' = k then none else get d k' := by
  induction d with
  | nil => simp [del]
  | cons p d ih =>
    unfold del at ih ⊢
    by_cases hp : p.1 = k
    · rw [List.filter_cons_of_neg (by simp [hp]), ih, get_cons]
      by_cases hk : k' = k
      · simp [hk]
      · rw [if_neg (show ¬ p.1 = k' from fun e => hk (e.symm.trans hp))]
    · rw [List.filter_cons_of_pos (by simp [hp]), get_cons, ih, get_cons]
      by_cases hk : k' = k
      · simp [hk, hp]
      · simp [hk]

theorem get_set (d : List (κ × β)) (k k' : κ) (v : β) :
    get (set d k v) k' = if k' = k then some v else get d k' := by
  unfold set
  rw [get_cons]
  have := get_del d k k'
  unfold del at this
  rw [this]
  by_cases h : k' = k
  · simp [h]
  · simp [h, show ¬ k = k' from fun e => h e.symm]

theorem has_iff (d : List (κ × β)) (k : κ) : has d k = true ↔ ∃ v, get d k = some v := by
  unfold has; exact Option.isSome_iff_exists

theorem not_has_iff (d : List (κ × β)) (k : κ) : has d k = false ↔ get d k = none := by
  unfold has; cases get d k <;> simp

theorem mem_of_get {d : List (κ × β)} {k : κ} {v : β} (h : get d k = some v) : (k, v) ∈ d := by
  induction d with
  | nil => cases h
  | cons p d ih =>
    rw [get_cons] at h
    split at h
    · rename_i he
      injection h with h
      subst he h
      simp
    · exact List.mem_cons_of_mem _ (ih h)

theorem get_isSome_of_mem {d : List (κ × β)} {k : κ} (h : k ∈ keys d) : ∃ v, get d k = some v := by
  induction d with
  | nil => cases h
  | cons p d ih =>
    rw [get_cons]
    split
    · exact ⟨_, rfl⟩
    · rename_i hne
      unfold keys at h ih
      simp at h
      rcases h with h | ⟨v, h⟩
      · exact absurd h.symm hne
      · exact ih (by simp; exact ⟨v, h⟩)

end Verif.Dict
