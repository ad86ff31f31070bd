import Verif.Py.Dict
/-! Helper lemmas about dictionaries. -/
set_option autoImplicit false
namespace Verif.Dict
variable {κ : Type _} {ν : Type _} [DecidableEq κ]

@[simp] theorem get?_nil (k : κ) : get? ([] : Dict κ ν) k = none := rfl

theorem get?_set (d : Dict κ ν) (k k' : κ) (v : ν) : (d.set k v).get? k' = if k = k' then some v else d.get? k' := by
  induction d with
  | nil => simp [set, get?]
  | cons e r ih =>
    obtain ⟨k0, v0⟩ := e
    simp only [set]
    split
    · rename_i h; subst h; simp only [get?]; split <;> rfl
    · rename_i h
      simp only [get?, ih]
      by_cases h1 : k0 = k'
      · subst h1; simp [Ne.symm h]
      · simp [h1]

theorem get?_del (d : Dict κ ν) (k k' : κ) : (d.del k).get? k' = if k = k' then none else d.get? k' := by
  induction d with
  | nil => simp [del, get?]
  | cons e r ih =>
    obtain ⟨k0, v0⟩ := e
    unfold del at ih ⊢
    by_cases h : k0 = k
    · subst h
      simp only [List.filter_cons, decide_true, Bool.not_true, Bool.false_eq_true, if_false, ih, get?]
      split <;> rfl
    · simp only [List.filter_cons, h, decide_false, Bool.not_false, if_true, get?, ih]
      by_cases h1 : k0 = k'
      · subst h1; simp [Ne.symm h]
      · simp [h1]

theorem mem_keys_iff (d : Dict κ ν) (k : κ) : k ∈ d.keys ↔ (d.get? k).isSome := by
  induction d with
  | nil => simp [keys]
  | cons e r ih =>
    obtain ⟨k0, v0⟩ := e
    simp only [keys, List.map_cons, List.mem_cons, get?] at ih ⊢
    by_cases h : k0 = k
    · simp [h]
    · simp [h, Ne.symm h, ih]

theorem keys_set_mem (d : Dict κ ν) (k k' : κ) (v : ν) : k' ∈ (d.set k v).keys ↔ k' = k ∨ k' ∈ d.keys := by
  rw [mem_keys_iff, mem_keys_iff, get?_set]
  by_cases h : k = k'
  · simp [h]
  · simp [h, Ne.symm h]

theorem keys_set_nodup (d : Dict κ ν) (k : κ) (v : ν) (h : d.keys.Nodup) : (d.set k v).keys.Nodup := by
  induction d with
  | nil => simp [set, keys]
  | cons e r ih =>
    obtain ⟨k0, v0⟩ := e
    simp only [keys, List.map_cons, List.nodup_cons] at h
    simp only [set]
    split
    · simpa [keys] using h
    · rename_i hne
      simp only [keys, List.map_cons, List.nodup_cons]
      refine ⟨?_, ih h.2⟩
      intro hm
      rcases (keys_set_mem r k k0 v).1 hm with h' | h'
      · exact hne h'
      · exact h.1 h'

theorem keys_del_nodup (d : Dict κ ν) (k : κ) (h : d.keys.Nodup) : (d.del k).keys.Nodup := by
  unfold del keys at *
  induction d with
  | nil => simp
  | cons e r ih =>
    simp only [List.map_cons, List.nodup_cons] at h
    simp only [List.filter_cons]
    split
    · simp only [List.map_cons, List.nodup_cons]
      refine ⟨?_, ih h.2⟩
      intro hm
      apply h.1
      simp only [List.mem_map, List.mem_filter] at hm ⊢
      obtain ⟨a, ⟨ha, _⟩, he⟩ := hm
      exact ⟨a, ha, he⟩
    · exact ih h.2

theorem get?_eq_some_of_mem (d : Dict κ ν) (h : d.keys.Nodup) {k : κ} {v : ν} (hm : (k, v) ∈ d) : d.get? k = some v := by
  induction d with
  | nil => cases hm
  | cons e r ih =>
    obtain ⟨k0, v0⟩ := e
    simp only [keys, List.map_cons, List.nodup_cons] at h
    simp only [get?]
    simp only [List.mem_cons, Prod.mk.injEq] at hm
    rcases hm with ⟨rfl, rfl⟩ | hm
    · simp
    · split
      · rename_i heq; subst heq
        exact absurd (List.mem_map.2 ⟨_, hm, rfl⟩) h.1
      · exact ih h.2 hm

theorem mem_of_get? (d : Dict κ ν) {k : κ} {v : ν} (hm : d.get? k = some v) : (k, v) ∈ d := by
  induction d with
  | nil => simp at hm
  | cons e r ih =>
    obtain ⟨k0, v0⟩ := e
    simp only [get?] at hm
    split at hm
    · rename_i h; subst h; simp only [Option.some.injEq] at hm; subst hm; simp
    · simp [ih hm]

/-- Keys are distinct. -/
def WF (d : Dict κ ν) : Prop := d.keys.Nodup

end Verif.Dict
