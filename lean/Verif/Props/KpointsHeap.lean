import Verif.Model.KpointsHeap
import Verif.Props.KpointsEdit
/-! # C85: KPOINTS objects do not interfere -/
set_option autoImplicit false
namespace Verif.Kpoints
open Verif

/-- Specification: the objects are values of their own; a call on one object changes this object only, as the same call on a single object
does (`init`, `modify`, `deletePoint` of Model/Kpoints.lean). -/
def specCall (es : List Entries) : Call → List Entries
  | .fromText s => match init { s with dict := none } with
    | .ok e => es ++ [e]
    | _ => es
  | .fromNewDict e => match init { dict := some e } with
    | .ok e => es ++ [e]
    | _ => es
  | .modify o entry v n => match es[o]? with
    | some e => match modify e entry v n with
      | .ok e' => es.set o e'
      | _ => es
    | none => es
  | .deletePoint o n => match es[o]? with
    | some e => match deletePoint e n with
      | .ok e' => es.set o e'
      | _ => es
    | none => es
  | _ => es

/-- The call hands no dictionary or list to an object that anybody else has. -/
def Unshared : Call → Prop
  | .fromDict _ => False
  | .modifyRef _ _ _ _ => False
  | _ => True

/-- The lists a dictionary refers to. -/
def refs (d : Dict Str Ref) : List Nat := d.filterMap fun p => match p.2 with
  | .list a => some a
  | .atom _ => none

/-- No two objects share a dictionary or a list, and no dictionary refers to a list twice. -/
structure Separate (w : World) : Prop where
  objects : w.objects.Nodup
  bound : ∀ d ∈ w.objects, d < w.heap.dicts.length
  once : ∀ d ∈ w.objects, (refs (w.heap.dict d)).Nodup
  apart : ∀ d ∈ w.objects, ∀ d' ∈ w.objects, d ≠ d' → ∀ a, a ∈ refs (w.heap.dict d) → a ∉ refs (w.heap.dict d')
  lists : ∀ d ∈ w.objects, ∀ a ∈ refs (w.heap.dict d), a < w.heap.lists.length

theorem refs_cons_list (k : Str) (a : Nat) (d : Dict Str Ref) : refs ((k, .list a) :: d) = a :: refs d := rfl
theorem refs_cons_atom (k : Str) (a : Atom) (d : Dict Str Ref) : refs ((k, .atom a) :: d) = refs d := rfl

theorem refs_get? {d : Dict Str Ref} {k : Str} {a : Nat} (h : d.get? k = some (.list a)) : a ∈ refs d := by
  induction d with
  | nil => cases h
  | cons p t ih =>
    obtain ⟨k', r⟩ := p
    by_cases hk : k' = k
    · simp only [Dict.get?, hk, if_true, Option.some.injEq] at h
      subst h
      rw [refs_cons_list]; simp
    · simp only [Dict.get?, hk, if_false] at h
      cases r with
      | atom => rw [refs_cons_atom]; exact ih h
      | list b => rw [refs_cons_list]; simp [ih h]

theorem refs_set_mem {d : Dict Str Ref} {k : Str} {r : Ref} {x : Nat} (h : x ∈ refs (d.set k r)) : x ∈ refs d ∨ r = .list x := by
  induction d with
  | nil =>
    cases r with
    | atom => simp [Dict.set, refs] at h
    | list a => simp [Dict.set, refs] at h; exact Or.inr (by rw [h])
  | cons p t ih =>
    obtain ⟨k', r'⟩ := p
    by_cases hk : k' = k
    · simp only [Dict.set, hk, if_true] at h
      cases r with
      | atom =>
        rw [refs_cons_atom] at h
        left
        cases r' <;> simp [refs_cons_atom, refs_cons_list, h]
      | list a =>
        rw [refs_cons_list] at h
        rcases List.mem_cons.1 h with rfl | h
        · exact Or.inr rfl
        · left
          cases r' <;> simp [refs_cons_atom, refs_cons_list, h]
    · simp only [Dict.set, hk, if_false] at h
      cases r' with
      | atom => rw [refs_cons_atom] at h ⊢; exact ih h
      | list b =>
        rw [refs_cons_list] at h ⊢
        rcases List.mem_cons.1 h with rfl | h
        · simp
        · rcases ih h with h | h
          · simp [h]
          · exact Or.inr h

theorem refs_set_nodup {d : Dict Str Ref} {k : Str} {r : Ref} (h : (refs d).Nodup) (hr : ∀ x, r = .list x → x ∉ refs d) :
    (refs (d.set k r)).Nodup := by
  induction d with
  | nil => cases r <;> simp [Dict.set, refs]
  | cons p t ih =>
    obtain ⟨k', r'⟩ := p
    have ht : (refs t).Nodup := by
      cases r' with
      | atom => exact h
      | list b => rw [refs_cons_list] at h; exact (List.nodup_cons.1 h).2
    have hrt : ∀ x, r = .list x → x ∉ refs t := by
      intro x hx hm
      refine hr x hx ?_
      cases r' <;> simp [refs_cons_atom, refs_cons_list, hm]
    by_cases hk : k' = k
    · simp only [Dict.set, hk, if_true]
      cases r with
      | atom => exact ht
      | list a => rw [refs_cons_list]; exact List.nodup_cons.2 ⟨hrt a rfl, ht⟩
    · simp only [Dict.set, hk, if_false]
      cases r' with
      | atom => exact ih ht hrt
      | list b =>
        rw [refs_cons_list] at h ⊢
        refine List.nodup_cons.2 ⟨?_, ih ht hrt⟩
        intro hm
        rcases refs_set_mem hm with hm | hm
        · exact (List.nodup_cons.1 h).1 hm
        · exact hr b hm (by rw [refs_cons_list]; simp)

theorem nodup_get?_inj {l : List Nat} (h : l.Nodup) {i j x : Nat} (hi : l[i]? = some x) (hj : l[j]? = some x) : i = j := by
  obtain ⟨h1, h2⟩ := List.getElem?_eq_some_iff.1 hi
  obtain ⟨h3, h4⟩ := List.getElem?_eq_some_iff.1 hj
  exact (h.getElem_inj_iff (hi := h1) (hj := h3)).1 (h2.trans h4.symm)

/-- Looking through two memories alike. -/
theorem map_val_congr {h h' : Heap} {d : Dict Str Ref} (hl : ∀ a ∈ refs d, h'.lists[a]? = h.lists[a]?) :
    (d.map fun p => (p.1, h'.val p.2)) = d.map fun p => (p.1, h.val p.2) := by
  induction d with
  | nil => rfl
  | cons p t ih =>
    obtain ⟨k, r⟩ := p
    cases r with
    | atom a =>
      rw [refs_cons_atom] at hl
      rw [List.map_cons, List.map_cons, ih hl]; rfl
    | list a =>
      rw [refs_cons_list] at hl
      rw [List.map_cons, List.map_cons, ih (fun b hb => hl b (by simp [hb]))]
      simp only [Heap.val, hl a (by simp)]

/-- Changing one list changes exactly the entry that refers to it. -/
theorem map_val_set {h : Heap} {d : Dict Str Ref} {k : Str} {a : Nat} {l : List Elem} (hd : (refs d).Nodup) (hk : d.get? k = some (.list a))
    (ha : a < h.lists.length) :
    (d.map fun p => (p.1, ({ h with lists := h.lists.set a l } : Heap).val p.2)) =
      Dict.set (d.map fun p => (p.1, h.val p.2)) k (.list l) := by
  induction d with
  | nil => cases hk
  | cons p t ih =>
    obtain ⟨k', r⟩ := p
    by_cases hkk : k' = k
    · simp only [Dict.get?, hkk, if_true, Option.some.injEq] at hk
      subst hk
      rw [refs_cons_list] at hd
      rw [List.map_cons, List.map_cons]
      simp only [Dict.set, hkk, if_true]
      rw [map_val_congr (h := h)]
      · simp [Heap.val, ha]
      · intro b hb
        have : a ≠ b := fun he => (List.nodup_cons.1 hd).1 (he ▸ hb)
        simp [List.getElem?_set_ne this]
    · simp only [Dict.get?, hkk, if_false] at hk
      have hat := refs_get? hk
      rw [List.map_cons, List.map_cons]
      simp only [Dict.set, hkk, if_false]
      cases r with
      | atom x =>
        rw [ih hd hk]; rfl
      | list b =>
        rw [refs_cons_list] at hd
        have hb : a ≠ b := fun he => (List.nodup_cons.1 hd).1 (he ▸ hat)
        rw [ih (List.nodup_cons.1 hd).2 hk]
        simp [Heap.val, List.getElem?_set_ne hb]

theorem map_set_comm (h : Heap) (d : Dict Str Ref) (k : Str) (r : Ref) :
    ((d.set k r).map fun p => (p.1, h.val p.2)) = Dict.set (d.map fun p => (p.1, h.val p.2)) k (h.val r) := by
  induction d with
  | nil => rfl
  | cons p t ih =>
    by_cases hk : p.1 = k
    · simp [Dict.set, hk]
    · simp only [Dict.set, hk, if_false, List.map_cons, ih]

theorem get?_map_val (h : Heap) (d : Dict Str Ref) (k : Str) : Dict.get? (d.map fun p => (p.1, h.val p.2)) k = (d.get? k).map h.val := by
  induction d with
  | nil => rfl
  | cons p t ih =>
    by_cases hk : p.1 = k
    · simp [Dict.get?, hk]
    · simp only [Dict.get?, hk, if_false, List.map_cons]; exact ih

/-! ### new values -/

theorem alloc_val (h : Heap) (v : Val) : (h.alloc v).1.val (h.alloc v).2 = v := by
  cases v with
  | atom => rfl
  | list l => simp [Heap.alloc, Heap.val]

theorem alloc_dicts (h : Heap) (v : Val) : (h.alloc v).1.dicts = h.dicts := by cases v <;> rfl

theorem alloc_prefix (h : Heap) (v : Val) : h.lists <+: (h.alloc v).1.lists := by
  cases v with
  | atom => exact List.prefix_refl _
  | list l => exact List.prefix_append _ _

theorem alloc_new (h : Heap) (v : Val) : ∀ a, (h.alloc v).2 = .list a → h.lists.length ≤ a ∧ a < (h.alloc v).1.lists.length := by
  cases v with
  | atom => intro a ha; cases ha
  | list l =>
    intro a ha
    cases ha
    simp [Heap.alloc]

theorem prefix_get? {α} {l m : List α} (h : l <+: m) {i : Nat} (hi : i < l.length) : m[i]? = l[i]? := by
  obtain ⟨t, rfl⟩ := h
  rw [List.getElem?_append_left hi]

theorem allocAll_spec (h : Heap) (e : Entries) :
    (h.allocAll e).1.dicts = h.dicts ∧ h.lists <+: (h.allocAll e).1.lists ∧ (refs (h.allocAll e).2).Nodup ∧
      (∀ a ∈ refs (h.allocAll e).2, h.lists.length ≤ a ∧ a < (h.allocAll e).1.lists.length) ∧
      ((h.allocAll e).2.map fun p => (p.1, (h.allocAll e).1.val p.2)) = e := by
  induction e generalizing h with
  | nil => exact ⟨rfl, List.prefix_refl _, List.nodup_nil, by simp [Heap.allocAll, refs], rfl⟩
  | cons p t ih =>
    obtain ⟨k, v⟩ := p
    obtain ⟨i1, i2, i3, i4, i5⟩ := ih (h.alloc v).1
    have hp := (alloc_prefix h v).trans i2
    refine ⟨i1.trans (alloc_dicts h v), hp, ?_, ?_, ?_⟩
    · show (refs ((k, (h.alloc v).2) :: ((h.alloc v).1.allocAll t).2)).Nodup
      cases hv : (h.alloc v).2 with
      | atom => exact i3
      | list a =>
        rw [refs_cons_list]
        refine List.nodup_cons.2 ⟨fun hm => ?_, i3⟩
        have h1 := (i4 a hm).1
        have h2 := (alloc_new h v a hv).2
        omega
    · intro a ha
      have ha' : a ∈ refs ((k, (h.alloc v).2) :: ((h.alloc v).1.allocAll t).2) := ha
      have hrest : ∀ a ∈ refs ((h.alloc v).1.allocAll t).2, h.lists.length ≤ a ∧ a < ((h.alloc v).1.allocAll t).1.lists.length :=
        fun a ha => ⟨(alloc_prefix h v).length_le.trans (i4 a ha).1, (i4 a ha).2⟩
      cases hv : (h.alloc v).2 with
      | atom => rw [hv, refs_cons_atom] at ha'; exact hrest a ha'
      | list b =>
        rw [hv, refs_cons_list] at ha'
        rcases List.mem_cons.1 ha' with rfl | ha'
        · have := alloc_new h v a hv
          exact ⟨this.1, lt_of_lt_of_le this.2 i2.length_le⟩
        · exact hrest a ha'
    · show (List.map _ ((k, (h.alloc v).2) :: ((h.alloc v).1.allocAll t).2)) = _
      rw [List.map_cons]
      have h1 : (h.allocAll ((k, v) :: t)).1 = ((h.alloc v).1.allocAll t).1 := rfl
      rw [h1, i5]
      have h2 : ((h.alloc v).1.allocAll t).1.val (h.alloc v).2 = v := by
        conv_rhs => rw [← alloc_val h v]
        cases hv : (h.alloc v).2 with
        | atom => rfl
        | list a => simp only [Heap.val, prefix_get? i2 (alloc_new h v a hv).2]
      rw [h2]

/-! ### one call -/

theorem newDict_step {w : World} (hw : Separate w) (e : Entries) :
    Separate ⟨(w.heap.newDict e).1, w.objects ++ [(w.heap.newDict e).2]⟩ ∧
      World.views ⟨(w.heap.newDict e).1, w.objects ++ [(w.heap.newDict e).2]⟩ = w.views ++ [e] ∧
      Separate ⟨(w.heap.newDict e).1, w.objects⟩ ∧ World.views ⟨(w.heap.newDict e).1, w.objects⟩ = w.views := by
  obtain ⟨h1, h2, h3, h4, h5⟩ := allocAll_spec w.heap e
  have haddr : (w.heap.newDict e).2 = w.heap.dicts.length := by show (w.heap.allocAll e).1.dicts.length = _; rw [h1]
  have hdicts : (w.heap.newDict e).1.dicts = w.heap.dicts ++ [(w.heap.allocAll e).2] := by
    show (w.heap.allocAll e).1.dicts ++ [_] = _; rw [h1]
  have hlists : (w.heap.newDict e).1.lists = (w.heap.allocAll e).1.lists := rfl
  have hold : ∀ d, d < w.heap.dicts.length → (w.heap.newDict e).1.dict d = w.heap.dict d := by
    intro d hd
    unfold Heap.dict
    rw [hdicts, List.getElem?_append_left hd]
  have hnew : (w.heap.newDict e).1.dict w.heap.dicts.length = (w.heap.allocAll e).2 := by
    unfold Heap.dict
    rw [hdicts]; simp
  have hne : ∀ d ∈ w.objects, d ≠ w.heap.dicts.length := fun d hd he => by have := hw.bound d hd; omega
  have hview : ∀ d ∈ w.objects, (w.heap.newDict e).1.entries d = w.heap.entries d := by
    intro d hd
    unfold Heap.entries
    rw [hold d (hw.bound d hd)]
    refine map_val_congr ?_
    intro a ha
    rw [hlists]
    exact prefix_get? h2 (hw.lists d hd a ha)
  have hsep : Separate ⟨(w.heap.newDict e).1, w.objects⟩ := by
    refine ⟨hw.objects, ?_, ?_, ?_, ?_⟩
    · intro d hd
      have := hw.bound d hd
      show d < (w.heap.newDict e).1.dicts.length
      rw [hdicts]; simp; omega
    · intro d hd; show (refs ((w.heap.newDict e).1.dict d)).Nodup; rw [hold d (hw.bound d hd)]; exact hw.once d hd
    · intro d hd d' hd' hdd a
      show a ∈ refs ((w.heap.newDict e).1.dict d) → a ∉ refs ((w.heap.newDict e).1.dict d')
      rw [hold d (hw.bound d hd), hold d' (hw.bound d' hd')]; exact hw.apart d hd d' hd' hdd a
    · intro d hd a
      show a ∈ refs ((w.heap.newDict e).1.dict d) → a < (w.heap.newDict e).1.lists.length
      rw [hold d (hw.bound d hd), hlists]
      intro ha
      exact lt_of_lt_of_le (hw.lists d hd a ha) h2.length_le
  refine ⟨?_, ?_, hsep, ?_⟩
  · rw [haddr]
    refine ⟨?_, ?_, ?_, ?_, ?_⟩
    · show (w.objects ++ [w.heap.dicts.length]).Nodup
      rw [List.nodup_append]
      refine ⟨hw.objects, by simp, ?_⟩
      intro a ha b hb
      rw [List.mem_singleton] at hb
      rw [hb]; exact hne a ha
    · intro d hd
      rcases List.mem_append.1 hd with hd | hd
      · exact hsep.bound d hd
      · rw [List.mem_singleton.1 hd]
        show _ < (w.heap.newDict e).1.dicts.length
        rw [hdicts]; simp
    · intro d hd
      rcases List.mem_append.1 hd with hd | hd
      · exact hsep.once d hd
      · rw [List.mem_singleton.1 hd]
        show (refs ((w.heap.newDict e).1.dict _)).Nodup
        rw [hnew]; exact h3
    · intro d hd d' hd' hdd a ha ha'
      change a ∈ refs ((w.heap.newDict e).1.dict d) at ha
      change a ∈ refs ((w.heap.newDict e).1.dict d') at ha'
      rcases List.mem_append.1 hd with hd | hd <;> rcases List.mem_append.1 hd' with hd' | hd'
      · exact hsep.apart d hd d' hd' hdd a ha ha'
      · rw [List.mem_singleton.1 hd', hnew] at ha'
        rw [hold d (hw.bound d hd)] at ha
        have := hw.lists d hd a ha
        have := (h4 a ha').1
        omega
      · rw [List.mem_singleton.1 hd, hnew] at ha
        rw [hold d' (hw.bound d' hd')] at ha'
        have := hw.lists d' hd' a ha'
        have := (h4 a ha).1
        omega
      · exact hdd ((List.mem_singleton.1 hd).trans (List.mem_singleton.1 hd').symm)
    · intro d hd a ha
      rcases List.mem_append.1 hd with hd | hd
      · exact hsep.lists d hd a ha
      · rw [List.mem_singleton.1 hd] at ha
        change a ∈ refs ((w.heap.newDict e).1.dict _) at ha
        rw [hnew] at ha
        exact (h4 a ha).2
  · unfold World.views
    rw [List.map_append, List.map_singleton, haddr]
    congr 1
    · exact List.map_congr_left hview
    · congr 1
      show ((w.heap.newDict e).1.dict _).map _ = e
      rw [hnew]
      exact h5
  · exact List.map_congr_left hview

/-- Reserving room for a new value changes nothing. -/
theorem alloc_frame {w : World} (hw : Separate w) (v : Val) :
    Separate ⟨(w.heap.alloc v).1, w.objects⟩ ∧ ∀ d ∈ w.objects, (w.heap.alloc v).1.entries d = w.heap.entries d := by
  have hdict : ∀ d, (w.heap.alloc v).1.dict d = w.heap.dict d := by
    intro d; unfold Heap.dict; rw [alloc_dicts]
  refine ⟨⟨hw.objects, ?_, ?_, ?_, ?_⟩, ?_⟩
  · intro d hd; show d < (w.heap.alloc v).1.dicts.length; rw [alloc_dicts]; exact hw.bound d hd
  · intro d hd; show (refs ((w.heap.alloc v).1.dict d)).Nodup; rw [hdict]; exact hw.once d hd
  · intro d hd d' hd' hdd a
    show a ∈ refs ((w.heap.alloc v).1.dict d) → a ∉ refs ((w.heap.alloc v).1.dict d')
    rw [hdict, hdict]; exact hw.apart d hd d' hd' hdd a
  · intro d hd a
    show a ∈ refs ((w.heap.alloc v).1.dict d) → a < (w.heap.alloc v).1.lists.length
    rw [hdict]
    intro ha
    exact lt_of_lt_of_le (hw.lists d hd a ha) (alloc_prefix _ _).length_le
  · intro d hd
    unfold Heap.entries
    rw [hdict]
    exact map_val_congr fun a ha => prefix_get? (alloc_prefix _ _) (hw.lists d hd a ha)

/-- Changing a list of one object in place. -/
theorem setList_step {w : World} (hw : Separate w) {o d : Nat} (ho : w.objects[o]? = some d) {k : Str} {a : Nat}
    (hk : (w.heap.dict d).get? k = some (.list a)) (l : List Elem) :
    Separate ⟨{ w.heap with lists := w.heap.lists.set a l }, w.objects⟩ ∧
      World.views ⟨{ w.heap with lists := w.heap.lists.set a l }, w.objects⟩ =
        w.views.set o ((w.heap.entries d).set k (.list l)) := by
  have hd : d ∈ w.objects := List.mem_of_getElem? ho
  have ha := refs_get? hk
  have hlt := hw.lists d hd a ha
  refine ⟨⟨hw.objects, hw.bound, hw.once, hw.apart, ?_⟩, ?_⟩
  · intro d' hd' b hb
    show b < (w.heap.lists.set a l).length
    rw [List.length_set]
    exact hw.lists d' hd' b hb
  · have hothers : ∀ d' ∈ w.objects, d' ≠ d →
        ({ w.heap with lists := w.heap.lists.set a l } : Heap).entries d' = w.heap.entries d' := by
      intro d' hd' hne
      refine map_val_congr (h := w.heap) (h' := { w.heap with lists := w.heap.lists.set a l }) ?_
      intro b hb
      have : a ≠ b := fun he => hw.apart d hd d' hd' (Ne.symm hne) a ha (he ▸ hb)
      show (w.heap.lists.set a l)[b]? = _
      rw [List.getElem?_set_ne this]
    have hself : ({ w.heap with lists := w.heap.lists.set a l } : Heap).entries d = (w.heap.entries d).set k (.list l) :=
      map_val_set (hw.once d hd) hk hlt
    refine List.ext_getElem? fun i => ?_
    unfold World.views
    rw [List.getElem?_map, List.getElem?_set]
    by_cases hi : o = i
    · subst hi
      have hol : o < w.objects.length := (List.getElem?_eq_some_iff.1 ho).1
      rw [ho, if_pos rfl, List.length_map, if_pos hol]
      exact congrArg some hself
    · rw [if_neg hi, List.getElem?_map]
      cases hx : w.objects[i]? with
      | none => rfl
      | some d' =>
        have hd' : d' ∈ w.objects := List.mem_of_getElem? hx
        have : d' ≠ d := by
          rintro rfl
          have h1 := (List.getElem?_eq_some_iff.1 ho).1
          exact hi (nodup_get?_inj hw.objects ho hx)
        exact congrArg some (hothers d' hd' this)

/-- Storing a new value in the dictionary of one object. -/
theorem setDict_step {w : World} (hw : Separate w) {o d : Nat} (ho : w.objects[o]? = some d) (k : Str) (r : Ref)
    (hr : ∀ a, r = .list a → a < w.heap.lists.length ∧ ∀ d' ∈ w.objects, a ∉ refs (w.heap.dict d')) :
    Separate ⟨{ w.heap with dicts := w.heap.dicts.set d ((w.heap.dict d).set k r) }, w.objects⟩ ∧
      World.views ⟨{ w.heap with dicts := w.heap.dicts.set d ((w.heap.dict d).set k r) }, w.objects⟩ =
        w.views.set o ((w.heap.entries d).set k (w.heap.val r)) := by
  have hd : d ∈ w.objects := List.mem_of_getElem? ho
  have hdl := hw.bound d hd
  generalize hh : ({ w.heap with dicts := w.heap.dicts.set d ((w.heap.dict d).set k r) } : Heap) = h'
  have hdicts : h'.dicts = w.heap.dicts.set d ((w.heap.dict d).set k r) := by rw [← hh]
  have hlists : h'.lists = w.heap.lists := by rw [← hh]
  have hself : h'.dict d = (w.heap.dict d).set k r := by
    show (h'.dicts[d]?).getD [] = _
    rw [hdicts, List.getElem?_set_self hdl]; rfl
  have hoth : ∀ d', d' ≠ d → h'.dict d' = w.heap.dict d' := by
    intro d' hne
    unfold Heap.dict; rw [hdicts, List.getElem?_set_ne (Ne.symm hne)]
  have hval : h'.val = w.heap.val := by
    funext x; cases x with
    | atom => rfl
    | list a => simp only [Heap.val, hlists]
  refine ⟨⟨hw.objects, ?_, ?_, ?_, ?_⟩, ?_⟩
  · intro d' hd'
    show d' < h'.dicts.length
    rw [hdicts, List.length_set]; exact hw.bound d' hd'
  · intro d' hd'
    show (refs (h'.dict d')).Nodup
    by_cases hne : d' = d
    · subst hne
      rw [hself]
      exact refs_set_nodup (hw.once _ hd) (fun x hx => (hr x hx).2 _ hd)
    · rw [hoth d' hne]; exact hw.once d' hd'
  · intro d1 hd1 d2 hd2 hdd a
    show a ∈ refs (h'.dict d1) → a ∉ refs (h'.dict d2)
    intro ha hb
    by_cases h1 : d1 = d
    · subst h1
      rw [hself] at ha
      rw [hoth d2 (Ne.symm hdd)] at hb
      rcases refs_set_mem ha with ha | ha
      · exact hw.apart d1 hd1 d2 hd2 hdd a ha hb
      · exact (hr a ha).2 d2 hd2 hb
    · rw [hoth d1 h1] at ha
      by_cases h2 : d2 = d
      · subst h2
        rw [hself] at hb
        rcases refs_set_mem hb with hb | hb
        · exact hw.apart d1 hd1 d2 hd2 hdd a ha hb
        · exact (hr a hb).2 d1 hd1 ha
      · rw [hoth d2 h2] at hb
        exact hw.apart d1 hd1 d2 hd2 hdd a ha hb
  · intro d' hd' a
    show a ∈ refs (h'.dict d') → a < h'.lists.length
    rw [hlists]
    by_cases hne : d' = d
    · subst hne
      rw [hself]
      intro ha
      rcases refs_set_mem ha with ha | ha
      · exact hw.lists d' hd' a ha
      · exact (hr a ha).1
    · rw [hoth d' hne]; exact hw.lists d' hd' a
  · have hes : h'.entries d = (w.heap.entries d).set k (w.heap.val r) := by
      unfold Heap.entries
      rw [hself, hval, map_set_comm]
    have heo : ∀ d', d' ≠ d → h'.entries d' = w.heap.entries d' := by
      intro d' hne
      unfold Heap.entries
      rw [hoth d' hne, hval]
    refine List.ext_getElem? fun i => ?_
    unfold World.views
    rw [List.getElem?_map, List.getElem?_set]
    by_cases hi : o = i
    · subst hi
      have hol : o < w.objects.length := (List.getElem?_eq_some_iff.1 ho).1
      rw [ho, if_pos rfl, List.length_map, if_pos hol]
      exact congrArg some hes
    · rw [if_neg hi, List.getElem?_map]
      cases hx : w.objects[i]? with
      | none => rfl
      | some d' =>
        have : d' ≠ d := by
          rintro rfl
          have h1 := (List.getElem?_eq_some_iff.1 ho).1
          exact hi (nodup_get?_inj hw.objects ho hx)
        exact congrArg some (heo d' this)

/-- `delete_point` in memory and on values. -/
theorem deletePointH_ok (h : Heap) (d : Nat) (n : Int) :
    (∃ a l, (h.dict d).get? c!"points" = some (.list a) ∧ deletePointH h d n = .ok { h with lists := h.lists.set a l } ∧
      deletePoint (h.entries d) n = .ok ((h.entries d).set c!"points" (.list l))) ∨
    ((∀ h', deletePointH h d n ≠ .ok h') ∧ ∀ e', deletePoint (h.entries d) n ≠ .ok e') := by
  have hg : (h.entries d).get? c!"points" = ((h.dict d).get? c!"points").map h.val := get?_map_val h _ _
  unfold deletePointH deletePoint
  cases checkPoints (h.entries d) .none with
  | exit => exact Or.inr ⟨fun _ hc => (by cases hc), fun _ hc => (by cases hc)⟩
  | raise => exact Or.inr ⟨fun _ hc => (by cases hc), fun _ hc => (by cases hc)⟩
  | ok u =>
    cases checkPointNumber (h.entries d) n with
    | exit => exact Or.inr ⟨fun _ hc => (by cases hc), fun _ hc => (by cases hc)⟩
    | raise => exact Or.inr ⟨fun _ hc => (by cases hc), fun _ hc => (by cases hc)⟩
    | ok u' =>
      simp only [Res.ok_bind, lookup, hg]
      cases hp : (h.dict d).get? c!"points" with
      | none => exact Or.inr ⟨fun _ hc => (by cases hc), fun _ hc => (by cases hc)⟩
      | some r =>
        cases r with
        | atom a => exact Or.inr ⟨fun _ hc => (by cases hc), fun _ hc => (by cases hc)⟩
        | list a =>
          simp only [Option.map_some, Heap.val, Res.ok_bind]
          cases hi : pyIndex n (h.lists[a]?.getD []).length with
          | none => exact Or.inr ⟨fun _ hc => (by cases hc), fun _ hc => (by cases hc)⟩
          | some i => exact Or.inl ⟨a, (h.lists[a]?.getD []).eraseIdx i, rfl, rfl, rfl⟩

/-- `modify` in memory and on values. -/
theorem modifyH_ok (h : Heap) (d : Nat) (entry : Str) (r : Ref) (pn : Option Int) :
    (∃ a l, (h.dict d).get? c!"points" = some (.list a) ∧ modifyH h d entry r pn = .ok { h with lists := h.lists.set a l } ∧
      modify (h.entries d) entry (h.val r) pn = .ok ((h.entries d).set c!"points" (.list l))) ∨
    (modifyH h d entry r pn = .ok { h with dicts := h.dicts.set d ((h.dict d).set entry r) } ∧
      modify (h.entries d) entry (h.val r) pn = .ok ((h.entries d).set entry (h.val r))) ∨
    ((∀ h', modifyH h d entry r pn ≠ .ok h') ∧ ∀ e', modify (h.entries d) entry (h.val r) pn ≠ .ok e') := by
  have hg : (h.entries d).get? c!"points" = ((h.dict d).get? c!"points").map h.val := get?_map_val h _ _
  unfold modifyH modify
  cases checkAllowed entry with
  | exit => exact Or.inr (Or.inr ⟨fun _ hc => (by cases hc), fun _ hc => (by cases hc)⟩)
  | raise => exact Or.inr (Or.inr ⟨fun _ hc => (by cases hc), fun _ hc => (by cases hc)⟩)
  | ok u =>
    cases checkDict (h.entries d) with
    | exit => exact Or.inr (Or.inr ⟨fun _ hc => (by cases hc), fun _ hc => (by cases hc)⟩)
    | raise => exact Or.inr (Or.inr ⟨fun _ hc => (by cases hc), fun _ hc => (by cases hc)⟩)
    | ok u' =>
      cases pn with
      | none =>
        simp only [Res.ok_bind]
        cases checkEntry (h.entries d) entry (h.val r) with
        | exit => exact Or.inr (Or.inr ⟨fun _ hc => (by cases hc), fun _ hc => (by cases hc)⟩)
        | raise => exact Or.inr (Or.inr ⟨fun _ hc => (by cases hc), fun _ hc => (by cases hc)⟩)
        | ok u'' => exact Or.inr (Or.inl ⟨rfl, rfl⟩)
      | some n =>
        simp only [Res.ok_bind]
        cases checkPoint (h.entries d) (h.val r) with
        | exit => exact Or.inr (Or.inr ⟨fun _ hc => (by cases hc), fun _ hc => (by cases hc)⟩)
        | raise => exact Or.inr (Or.inr ⟨fun _ hc => (by cases hc), fun _ hc => (by cases hc)⟩)
        | ok v =>
          cases checkPointNumber (h.entries d) n with
          | exit => exact Or.inr (Or.inr ⟨fun _ hc => (by cases hc), fun _ hc => (by cases hc)⟩)
          | raise => exact Or.inr (Or.inr ⟨fun _ hc => (by cases hc), fun _ hc => (by cases hc)⟩)
          | ok v' =>
            simp only [Res.ok_bind, lookup, hg]
            cases hp : (h.dict d).get? c!"points" with
            | none => exact Or.inr (Or.inr ⟨fun _ hc => (by cases hc), fun _ hc => (by cases hc)⟩)
            | some r' =>
              cases r' with
              | atom a => exact Or.inr (Or.inr ⟨fun _ hc => (by cases hc), fun _ hc => (by cases hc)⟩)
              | list a =>
                have hv : h.val (.list a) = .list (h.lists[a]?.getD []) := rfl
                simp only [Option.map_some, hv, Res.ok_bind]
                cases hi : pyIndex n (h.lists[a]?.getD []).length with
                | none => exact Or.inr (Or.inr ⟨fun _ hc => (by cases hc), fun _ hc => (by cases hc)⟩)
                | some i => exact Or.inl ⟨a, (h.lists[a]?.getD []).set i (elemOf (h.val r)), rfl, rfl, rfl⟩

theorem views_get {w : World} {o : Nat} : w.views[o]? = (w.objects[o]?).map w.heap.entries := by
  unfold World.views; rw [List.getElem?_map]

theorem step_spec {w : World} (hw : Separate w) (c : Call) (hc : Unshared c) :
    Separate (w.step c) ∧ (w.step c).views = specCall w.views c := by
  cases c with
  | fromText s =>
    simp only [World.step, specCall]
    cases hi : init { s with dict := none } with
    | ok e => exact ⟨(newDict_step hw e).1, (newDict_step hw e).2.1⟩
    | exit => exact ⟨hw, rfl⟩
    | raise => exact ⟨hw, rfl⟩
  | fromNewDict e =>
    simp only [World.step, specCall]
    cases hi : init { dict := some e } with
    | ok e => exact ⟨(newDict_step hw e).1, (newDict_step hw e).2.1⟩
    | exit => exact ⟨hw, rfl⟩
    | raise => exact ⟨hw, rfl⟩
  | makeDict e => exact ⟨(newDict_step hw e).2.2.1, (newDict_step hw e).2.2.2⟩
  | fromDict => exact absurd hc (by simp [Unshared])
  | modifyRef => exact absurd hc (by simp [Unshared])
  | deletePoint o n =>
    simp only [World.step, specCall, views_get]
    cases ho : w.objects[o]? with
    | none => exact ⟨hw, rfl⟩
    | some d =>
      simp only [Option.map_some]
      rcases deletePointH_ok w.heap d n with ⟨a, l, h1, h2, h3⟩ | ⟨h1, h2⟩
      · rw [h2, h3]
        exact setList_step hw ho h1 l
      · cases hx : deletePointH w.heap d n with
        | ok x => exact absurd hx (h1 x)
        | exit =>
          cases hy : deletePoint (w.heap.entries d) n with
          | ok y => exact absurd hy (h2 y)
          | exit => exact ⟨hw, rfl⟩
          | raise => exact ⟨hw, rfl⟩
        | raise =>
          cases hy : deletePoint (w.heap.entries d) n with
          | ok y => exact absurd hy (h2 y)
          | exit => exact ⟨hw, rfl⟩
          | raise => exact ⟨hw, rfl⟩
  | modify o entry v n =>
    simp only [World.step, specCall, views_get]
    cases ho : w.objects[o]? with
    | none => exact ⟨hw, rfl⟩
    | some d =>
      simp only [Option.map_some]
      obtain ⟨hw1, hv1⟩ := alloc_frame hw v
      have hd : d ∈ w.objects := List.mem_of_getElem? ho
      have hviews : World.views ⟨(w.heap.alloc v).1, w.objects⟩ = w.views := List.map_congr_left hv1
      have key := modifyH_ok (w.heap.alloc v).1 d entry (w.heap.alloc v).2 n
      rw [alloc_val, hv1 d hd] at key
      rcases key with ⟨a, l, h1, h2, h3⟩ | ⟨h2, h3⟩ | ⟨h1, h2⟩
      · rw [h2, h3]
        have := setList_step hw1 ho h1 l
        rw [hviews] at this
        simp only [hv1 d hd] at this
        exact this
      · rw [h2, h3]
        have := setDict_step hw1 ho entry (w.heap.alloc v).2 (by
          intro a ha
          refine ⟨(alloc_new _ _ a ha).2, ?_⟩
          intro d' hd' hm
          have hm' : a ∈ refs (w.heap.dict d') := by
            have : (w.heap.alloc v).1.dict d' = w.heap.dict d' := by unfold Heap.dict; rw [alloc_dicts]
            rw [← this]; exact hm
          have := hw.lists d' hd' a hm'
          have := (alloc_new _ _ a ha).1
          omega)
        rw [hviews] at this
        simp only [hv1 d hd, alloc_val] at this
        exact this
      · cases hx : modifyH (w.heap.alloc v).1 d entry (w.heap.alloc v).2 n with
        | ok x => exact absurd hx (h1 x)
        | exit =>
          cases hy : modify (w.heap.entries d) entry v n with
          | ok y => exact absurd hy (h2 y)
          | exit => exact ⟨hw, rfl⟩
          | raise => exact ⟨hw, rfl⟩
        | raise =>
          cases hy : modify (w.heap.entries d) entry v n with
          | ok y => exact absurd hy (h2 y)
          | exit => exact ⟨hw, rfl⟩
          | raise => exact ⟨hw, rfl⟩

/-- C85, partial: in every program that makes its objects from texts or from dictionaries made for them, and gives them values made for
the call, the objects are independent: each holds what the calls on it alone make of it.  Missing: dictionaries and lists given to
several objects, for which the claim is false (`C85_violation_dict`, `C85_violation_list`). -/
theorem C85_independent_partial (calls : List Call) (h : ∀ c ∈ calls, Unshared c) :
    (World.run {} calls).views = calls.foldl specCall [] := by
  have key : ∀ (cs : List Call) (w : World), Separate w → (∀ c ∈ cs, Unshared c) → (w.run cs).views = cs.foldl specCall w.views := by
    intro cs
    induction cs with
    | nil => intro w _ _; rfl
    | cons c cs ih =>
      intro w hw hc
      obtain ⟨h1, h2⟩ := step_spec hw c (hc c (by simp))
      show ((w.step c).run cs).views = _
      rw [ih (w.step c) h1 (fun x hx => hc x (by simp [hx])), h2]; rfl
  exact key calls {} ⟨List.nodup_nil, by simp, by simp, by simp, by simp⟩ h

/-- C85 is false for a dictionary given to two objects: for every valid dictionary with a point, deleting the first point of the first object
deletes the first point of the second object as well, and of the dictionary of the caller. -/
theorem C85_violation_dict (e : Entries) (p : Elem) (ps : List Elem) (hv : validate e = .ok ())
    (hp : e.get? c!"points" = some (.list (p :: ps))) :
    (World.run {} [.makeDict e, .fromDict 0, .fromDict 0]).views = [e, e] ∧
    (World.run {} [.makeDict e, .fromDict 0, .fromDict 0, .deletePoint 0 0]).views =
      [e.set c!"points" (.list ps), e.set c!"points" (.list ps)] ∧
    (World.run {} [.makeDict e, .fromDict 0, .fromDict 0, .deletePoint 0 0]).heap.entries 0 = e.set c!"points" (.list ps) := by
  have hsep : Separate {} := ⟨List.nodup_nil, by simp, by simp, by simp, by simp⟩
  obtain ⟨n1, n2, -, -⟩ := newDict_step hsep e
  have haddr : (Heap.newDict {} e).2 = 0 := by
    show (Heap.allocAll {} e).1.dicts.length = 0
    rw [(allocAll_spec {} e).1]; rfl
  change Separate ⟨(Heap.newDict {} e).1, [] ++ [(Heap.newDict {} e).2]⟩ at n1
  change World.views ⟨(Heap.newDict {} e).1, [] ++ [(Heap.newDict {} e).2]⟩ = [] ++ [e] at n2
  rw [haddr] at n1 n2
  generalize hh : (Heap.newDict {} e).1 = h at n1 n2
  have he : h.entries 0 = e := by simpa [World.views] using n2
  have hinit : init { dict := some e } = .ok e := by simp [init, guards, load, hv]
  have hrun : World.run {} [.makeDict e, .fromDict 0, .fromDict 0] = ⟨h, [0, 0]⟩ := by
    simp only [World.run, List.foldl_cons, List.foldl_nil, World.step]
    simp only [hh, he, hinit, List.nil_append, List.cons_append]
  have hpn : checkPointNumber e 0 = .ok () := by
    unfold checkPointNumber lookup
    rw [hp]
    simp
  have hcp : checkPoints e .none = .ok () := ((validate_ok_iff e).1 hv).2.2.1
  have hdel : deletePoint e 0 = .ok (e.set c!"points" (.list ps)) := by
    unfold deletePoint lookup
    rw [hcp, hpn, hp]
    simp [pyIndex]
  refine ⟨by rw [hrun]; simp [World.views, he], ?_⟩
  have hrun2 : World.run {} [.makeDict e, .fromDict 0, .fromDict 0, .deletePoint 0 0] = World.step ⟨h, [0, 0]⟩ (.deletePoint 0 0) := by
    rw [← hrun]; rfl
  rcases deletePointH_ok h 0 0 with ⟨a, l, h1, h2, h3⟩ | ⟨h1, h2⟩
  · rw [he, hdel] at h3
    have hl : e.set c!"points" (.list ps) = e.set c!"points" (.list l) := Res.ok.inj h3
    have hent := (setList_step n1 (o := 0) rfl h1 l).2
    have hent' : ({ h with lists := h.lists.set a l } : Heap).entries 0 = e.set c!"points" (.list ps) := by
      rw [hl, ← he]
      simpa [World.views, he] using hent
    have hst : World.step ⟨h, [0, 0]⟩ (.deletePoint 0 0) = ⟨{ h with lists := h.lists.set a l }, [0, 0]⟩ := by
      simp only [World.step, List.getElem?_cons_zero, h2]
    rw [hrun2, hst]
    exact ⟨by simp only [World.views, List.map_cons, List.map_nil, hent'], hent'⟩
  · rw [he] at h2
    exact absurd hdel (h2 _)

/-- C85 is false for a list given to two objects: deleting the first point of the first object deletes the first point of the second. -/
theorem C85_violation_list :
    let text : Call := .fromText { string := some c!"x\n 2\nDirect\n0 0 0 1\n0.5 0 0 1\n" }
    let p : Elem := .atom (.point ⟨[0, 0, 0], some 1, true⟩)
    let q : Elem := .atom (.point ⟨[1, 1, 1], some 1, true⟩)
    let before : List Call := [.makeDict [(c!"mine", .list [p, q])], text, text, .modifyRef 0 c!"points" 0 none, .modifyRef 1 c!"points" 0 none]
    (World.run {} before).views.map (fun e => e.get? c!"points") = [some (.list [p, q]), some (.list [p, q])] ∧
    (World.run {} (before ++ [.deletePoint 0 0])).views.map (fun e => e.get? c!"points") = [some (.list [q]), some (.list [q])] := by
  decide +kernel

/-- A program for `C85_independent_partial`: two objects with the same text, of which one loses its first point and gets another last one. -/
example : let calls : List Call := [.fromText { string := some c!"x\n 2\nDirect\n0 0 0 1\n0.5 0 0 1\n" },
      .fromText { string := some c!"x\n 2\nDirect\n0 0 0 1\n0.5 0 0 1\n" }, .deletePoint 0 0,
      .modify 0 c!"points" (.atom (.point ⟨[1, 1, 1], some 1, true⟩)) (some (-1))]
    (∀ c ∈ calls, Unshared c) ∧
    (World.run {} calls).views.map (fun e => e.get? c!"points") =
      [some (.list [.atom (.point ⟨[1, 1, 1], some 1, true⟩)]),
        some (.list [.atom (.point ⟨[0, 0, 0], some 1, true⟩), .atom (.point ⟨[1/2, 0, 0], some 1, true⟩)])] := by
  refine ⟨?_, by decide +kernel⟩
  intro c hc
  simp only [List.mem_cons, List.not_mem_nil, or_false] at hc
  rcases hc with rfl | rfl | rfl | rfl <;> trivial

/-- A dictionary for `C85_violation_dict`. -/
example : ∃ e p ps, init { string := some c!"x\n 2\nDirect\n0 0 0 1\n0.5 0 0 1\n" } = .ok e ∧ validate e = .ok () ∧
    e.get? c!"points" = some (.list (p :: ps)) := by
  have h1 : (Res.bind (init { string := some c!"x\n 2\nDirect\n0 0 0 1\n0.5 0 0 1\n" }) validate) = .ok () := by decide +kernel
  have h2 : (Res.bind (init { string := some c!"x\n 2\nDirect\n0 0 0 1\n0.5 0 0 1\n" }) fun e => .ok (e.get? c!"points")) =
    .ok (some (.list [.atom (.point ⟨[0, 0, 0], some 1, true⟩), .atom (.point ⟨[1/2, 0, 0], some 1, true⟩)])) := by decide +kernel
  cases h : init { string := some c!"x\n 2\nDirect\n0 0 0 1\n0.5 0 0 1\n" } with
  | ok e =>
    rw [h] at h1 h2
    exact ⟨e, _, _, rfl, h1, Res.ok.inj h2⟩
  | exit => rw [h] at h1; cases h1
  | raise => rw [h] at h1; cases h1

end Verif.Kpoints
