/-!
Shared vocabulary of the model.

Text is a list of characters (we only model valid UTF-8 input).  Go maps keyed by strings are
association lists without duplicate keys; `AMap.set` mirrors `m[k] = v`, `AMap.del` mirrors
`delete(m, k)`, `AMap.get` mirrors `v, found := m[k]`.
-/
namespace Verif

/-- Modelling type for Go `string`/`[]byte` contents (valid UTF-8 only). -/
abbrev Text := List Char

/-- Go `map[string]V` as an association list. -/
abbrev AMap (β : Type) := List (String × β)

namespace AMap
variable {β : Type}

/-- Go `v, found := m[k]`. -/
def get : AMap β → String → Option β
  | [], _ => none
  | (k', v) :: m, k => if k' = k then some v else get m k

/-- Go `delete(m, k)`. -/
def del (m : AMap β) (k : String) : AMap β := m.filter (fun p => !decide (p.1 = k))

/-- Go `m[k] = v`. -/
def set (m : AMap β) (k : String) (v : β) : AMap β := (k, v) :: del m k

/-- Go `for k, v := range src { dst[k] = v }` for the iteration order given by the list `src`. -/
def setAll (dst src : AMap β) : AMap β := src.foldl (fun m p => set m p.1 p.2) dst

/-- Well-formedness of a map: no key occurs twice. -/
def WF (m : AMap β) : Prop := (m.map Prod.fst).Nodup

@[simp] theorem get_nil (k : String) : get ([] : AMap β) k = none := rfl

theorem get_cons (p : String × β) (m : AMap β) (k : String) :
    get (p :: m) k = if p.1 = k then some p.2 else get m k := by
  cases p; rfl

theorem del_cons (p : String × β) (m : AMap β) (k : String) :
    del (p :: m) k = if p.1 = k then del m k else p :: del m k := by
  unfold del; by_cases h : p.1 = k <;> simp [h]

@[simp] theorem get_del_self (m : AMap β) (k : String) : get (del m k) k = none := by
  induction m with
  | nil => rfl
  | cons p m ih =>
    rw [del_cons]
    split
    · exact ih
    · rename_i h; simp [get_cons, h, ih]

theorem get_del_ne (m : AMap β) {k k' : String} (h : k' ≠ k) : get (del m k) k' = get m k' := by
  induction m with
  | nil => rfl
  | cons p m ih =>
    rw [del_cons]
    split
    · rename_i h1
      have : p.1 ≠ k' := fun h2 => h (h2 ▸ h1)
      simp [get_cons, this, ih]
    · simp [get_cons, ih]

@[simp] theorem get_set_self (m : AMap β) (k : String) (v : β) : get (set m k v) k = some v := by
  simp [set, get_cons]

theorem get_set_ne (m : AMap β) {k k' : String} (v : β) (h : k' ≠ k) :
    get (set m k v) k' = get m k' := by
  have : k ≠ k' := fun e => h e.symm
  simp [set, get_cons, this, get_del_ne m h]

theorem get_set (m : AMap β) (k k' : String) (v : β) :
    get (set m k v) k' = if k' = k then some v else get m k' := by
  by_cases h : k' = k
  · subst h; simp
  · simp [h, get_set_ne m v h]

theorem get_del (m : AMap β) (k k' : String) :
    get (del m k) k' = if k' = k then none else get m k' := by
  by_cases h : k' = k
  · subst h; simp
  · simp [h, get_del_ne m h]

theorem get_eq_some_mem {m : AMap β} {k : String} {v : β} (h : get m k = some v) : (k, v) ∈ m := by
  induction m with
  | nil => simp at h
  | cons p m ih =>
    rw [get_cons] at h
    split at h
    · rename_i hk; injection h with h; subst h; subst hk; simp
    · exact List.mem_cons_of_mem _ (ih h)

theorem get_eq_some_iff {m : AMap β} (wf : WF m) {k : String} {v : β} :
    get m k = some v ↔ (k, v) ∈ m := by
  constructor
  · exact get_eq_some_mem
  · intro h
    induction m with
    | nil => simp at h
    | cons p m ih =>
      simp only [WF, List.map_cons, List.nodup_cons] at wf
      rw [get_cons]
      rcases List.mem_cons.1 h with h | h
      · subst h; simp
      · split
        · rename_i hk
          exact absurd (List.mem_map.2 ⟨(k, v), h, rfl⟩) (hk ▸ wf.1)
        · exact ih wf.2 h

theorem get_isSome_iff {m : AMap β} {k : String} : (get m k).isSome ↔ k ∈ m.map Prod.fst := by
  induction m with
  | nil => simp
  | cons p m ih =>
    rw [get_cons]
    split
    · rename_i h; simp [h]
    · rename_i h
      rw [ih]
      simp only [List.map_cons, List.mem_cons]
      constructor
      · exact Or.inr
      · rintro (h' | h')
        · exact absurd h'.symm h
        · exact h'

theorem get_eq_none_iff {m : AMap β} {k : String} : get m k = none ↔ k ∉ m.map Prod.fst := by
  rw [← get_isSome_iff]; cases get m k <;> simp

theorem WF_del {m : AMap β} (wf : WF m) (k : String) : WF (del m k) := by
  unfold WF del at *
  exact wf.sublist ((List.filter_sublist).map _)

theorem WF_set {m : AMap β} (wf : WF m) (k : String) (v : β) : WF (set m k v) := by
  unfold set
  show ((k, v) :: del m k).map Prod.fst |>.Nodup
  rw [List.map_cons, List.nodup_cons]
  exact ⟨by rw [← get_eq_none_iff]; simp, WF_del wf k⟩

theorem WF_setAll {m : AMap β} (wf : WF m) (src : AMap β) : WF (setAll m src) := by
  unfold setAll
  induction src generalizing m with
  | nil => simpa
  | cons p src ih => exact ih (WF_set wf _ _)

/-- A copied map agrees with the source where the source has a key, and with the destination
elsewhere, whatever the iteration order. -/
theorem get_setAll (dst : AMap β) {src : AMap β} (wf : WF src) (k : String) :
    get (setAll dst src) k = match get src k with
      | some v => some v
      | none => get dst k := by
  unfold setAll
  induction src generalizing dst with
  | nil => simp
  | cons p src ih =>
    simp only [WF, List.map_cons, List.nodup_cons] at wf
    rw [List.foldl_cons, ih _ wf.2, get_cons]
    by_cases h : p.1 = k
    · subst h
      have : get src p.1 = none := get_eq_none_iff.2 wf.1
      simp [this]
    · simp [h]
      cases get src k with
      | some v => rfl
      | none => exact get_set_ne _ _ (fun e => h e.symm)

theorem get_perm {m m' : AMap β} (wf : WF m) (h : m.Perm m') (k : String) : get m k = get m' k := by
  have wf' : WF m' := by unfold WF at *; exact (h.map _).nodup_iff.1 wf
  cases h1 : get m k with
  | some v => exact (((get_eq_some_iff wf').2 (h.mem_iff.1 ((get_eq_some_iff wf).1 h1)))).symm
  | none =>
    symm
    rw [get_eq_none_iff] at h1 ⊢
    intro h2
    exact h1 ((h.map Prod.fst).mem_iff.2 h2)

end AMap

/-- Join lines with single line feeds (no trailing one). -/
def joinLF : List Text → Text
  | [] => []
  | [l] => l
  | l :: l' :: ls => l ++ '\n' :: joinLF (l' :: ls)

end Verif
