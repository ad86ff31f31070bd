import Verif.Model.PoscarHeap
import Verif.Props.PoscarEdit
/-! # C86: POSCAR objects do not interfere -/
set_option autoImplicit false
namespace Verif.Poscar
open Verif Verif.Lattice
open Verif.Kpoints (pyIndex)

/-- Specification: the objects are values of their own; a call on one object changes this object only, as the same call on a single object
does (`init`, `modify`, `modifySite`, `deleteSite` of Model/Poscar.lean). -/
def specCall (es : List Entries) : Call → List Entries
  | .fromText s => match init { s with dict := none } with
    | .ok e => es ++ [e]
    | _ => es
  | .fromNewDict e => match init { dict := some e } with
    | .ok e => es ++ [e]
    | _ => es
  | .modify o entry v => match es[o]? with
    | some e => match modify e entry v with
      | .ok e' => es.set o e'
      | _ => es
    | none => es
  | .modifySite o entry v n => match es[o]? with
    | some e => match modifySite e entry v n with
      | .ok e' => es.set o e'
      | _ => es
    | none => es
  | .deleteSite o n => match es[o]? with
    | some e => match deleteSite e n with
      | .ok e' => es.set o e'
      | _ => es
    | none => es
  | _ => es

/-- The call hands no dictionary, list or `Site` to an object that anybody else has. -/
def Unshared : Call → Prop
  | .fromDict _ => False
  | .modifyRef _ _ _ => False
  | _ => True

/-- The lists a dictionary refers to. -/
def refs (d : Dict Str PRef) : List Nat := d.filterMap fun p => match p.2 with
  | .list a => some a
  | .imm _ => none

/-- No two objects share a dictionary or a list, and no dictionary refers to a list twice. -/
theorem refs_cons_list (k : Str) (a : Nat) (d : Dict Str PRef) : refs ((k, .list a) :: d) = a :: refs d := rfl
theorem refs_cons_imm (k : Str) (a : Imm) (d : Dict Str PRef) : refs ((k, .imm a) :: d) = refs d := rfl

theorem refs_get? {d : Dict Str PRef} {k : Str} {a : Nat} (h : d.get? k = some (.list a)) : a ∈ refs d := by
  induction d with
  | nil => cases h
  | cons p t ih =>
    obtain ⟨k', r⟩ := p
    by_cases hk : k' = k
    · simp only [Dict.get?, hk, if_true, Option.some.injEq] at h
      subst h
      rw [refs_cons_list]; simp
    · simp only [Dict.get?, hk, if_false] at h
      cases r with
      | imm => rw [refs_cons_imm]; exact ih h
      | list b => rw [refs_cons_list]; simp [ih h]

theorem refs_set_mem {d : Dict Str PRef} {k : Str} {r : PRef} {x : Nat} (h : x ∈ refs (d.set k r)) : x ∈ refs d ∨ r = .list x := by
  induction d with
  | nil =>
    cases r with
    | imm => simp [Dict.set, refs] at h
    | list a => simp [Dict.set, refs] at h; exact Or.inr (by rw [h])
  | cons p t ih =>
    obtain ⟨k', r'⟩ := p
    by_cases hk : k' = k
    · simp only [Dict.set, hk, if_true] at h
      cases r with
      | imm =>
        rw [refs_cons_imm] at h
        left
        cases r' <;> simp [refs_cons_imm, refs_cons_list, h]
      | list a =>
        rw [refs_cons_list] at h
        rcases List.mem_cons.1 h with rfl | h
        · exact Or.inr rfl
        · left
          cases r' <;> simp [refs_cons_imm, refs_cons_list, h]
    · simp only [Dict.set, hk, if_false] at h
      cases r' with
      | imm => rw [refs_cons_imm] at h ⊢; exact ih h
      | list b =>
        rw [refs_cons_list] at h ⊢
        rcases List.mem_cons.1 h with rfl | h
        · simp
        · rcases ih h with h | h
          · simp [h]
          · exact Or.inr h

theorem refs_set_nodup {d : Dict Str PRef} {k : Str} {r : PRef} (h : (refs d).Nodup) (hr : ∀ x, r = .list x → x ∉ refs d) :
    (refs (d.set k r)).Nodup := by
  induction d with
  | nil => cases r <;> simp [Dict.set, refs]
  | cons p t ih =>
    obtain ⟨k', r'⟩ := p
    have ht : (refs t).Nodup := by
      cases r' with
      | imm => exact h
      | list b => rw [refs_cons_list] at h; exact (List.nodup_cons.1 h).2
    have hrt : ∀ x, r = .list x → x ∉ refs t := by
      intro x hx hm
      refine hr x hx ?_
      cases r' <;> simp [refs_cons_imm, refs_cons_list, hm]
    by_cases hk : k' = k
    · simp only [Dict.set, hk, if_true]
      cases r with
      | imm => exact ht
      | list a => rw [refs_cons_list]; exact List.nodup_cons.2 ⟨hrt a rfl, ht⟩
    · simp only [Dict.set, hk, if_false]
      cases r' with
      | imm => exact ih ht hrt
      | list b =>
        rw [refs_cons_list] at h ⊢
        refine List.nodup_cons.2 ⟨?_, ih ht hrt⟩
        intro hm
        rcases refs_set_mem hm with hm | hm
        · exact (List.nodup_cons.1 h).1 hm
        · exact hr b hm (by rw [refs_cons_list]; simp)

theorem nodup_get?_inj {l : List Nat} (h : l.Nodup) {i j x : Nat} (hi : l[i]? = some x) (hj : l[j]? = some x) : i = j := by
  obtain ⟨h1, h2⟩ := List.getElem?_eq_some_iff.1 hi
  obtain ⟨h3, h4⟩ := List.getElem?_eq_some_iff.1 hj
  exact (h.getElem_inj_iff (hi := h1) (hj := h3)).1 (h2.trans h4.symm)

/-- The `Site` objects a list refers to. -/
def siteRefs (l : List ERef) : List Nat := l.filterMap fun r => match r with
  | .site i => some i
  | _ => none

theorem siteRefs_cons_site (i : Nat) (l : List ERef) : siteRefs (.site i :: l) = i :: siteRefs l := rfl
theorem siteRefs_cons_dict (d : SiteDict) (l : List ERef) : siteRefs (.dict d :: l) = siteRefs l := rfl
theorem siteRefs_cons_other (l : List ERef) : siteRefs (.other :: l) = siteRefs l := rfl

theorem siteRefs_mem {l : List ERef} {i : Nat} : i ∈ siteRefs l ↔ .site i ∈ l := by
  unfold siteRefs
  rw [List.mem_filterMap]
  constructor
  · rintro ⟨r, hr, h⟩
    cases r with
    | site j => simp only [Option.some.injEq] at h; subst h; exact hr
    | dict => cases h
    | other => cases h
  · intro h; exact ⟨_, h, rfl⟩

/-- No two objects share a dictionary or a list, no dictionary refers to a list twice, and nothing refers to unused memory. -/
structure Separate (w : World) : Prop where
  objects : w.objects.Nodup
  bound : ∀ d ∈ w.objects, d < w.heap.dicts.length
  once : ∀ d ∈ w.objects, (refs (w.heap.dict d)).Nodup
  apart : ∀ d ∈ w.objects, ∀ d' ∈ w.objects, d ≠ d' → ∀ a, a ∈ refs (w.heap.dict d) → a ∉ refs (w.heap.dict d')
  lists : ∀ d ∈ w.objects, ∀ a ∈ refs (w.heap.dict d), a < w.heap.lists.length
  sites : ∀ d ∈ w.objects, ∀ a ∈ refs (w.heap.dict d), ∀ i ∈ siteRefs (w.heap.list a), i < w.heap.sites.length

/-! ### looking through references -/

theorem elem_congr {h h' : Heap} {l : List ERef} (hs : ∀ i ∈ siteRefs l, h'.sites[i]? = h.sites[i]?) : l.map h'.elem = l.map h.elem := by
  refine List.map_congr_left fun r hr => ?_
  cases r with
  | site i => simp only [Heap.elem, hs i (siteRefs_mem.2 hr)]
  | dict => rfl
  | other => rfl

/-- Looking through two memories alike. -/
theorem map_val_congr {h h' : Heap} {d : Dict Str PRef} (hl : ∀ a ∈ refs d, h'.val (.list a) = h.val (.list a)) :
    (d.map fun p => (p.1, h'.val p.2)) = d.map fun p => (p.1, h.val p.2) := by
  induction d with
  | nil => rfl
  | cons p t ih =>
    obtain ⟨k, r⟩ := p
    cases r with
    | imm a =>
      rw [refs_cons_imm] at hl
      rw [List.map_cons, List.map_cons, ih hl]; rfl
    | list a =>
      rw [refs_cons_list] at hl
      rw [List.map_cons, List.map_cons, ih (fun b hb => hl b (by simp [hb])), hl a (by simp)]

/-- Changing one list changes exactly the entry that refers to it. -/
theorem map_val_change {h h' : Heap} {d : Dict Str PRef} {k : Str} {a : Nat} (hd : (refs d).Nodup) (hk : d.get? k = some (.list a))
    (hl : ∀ b ∈ refs d, b ≠ a → h'.val (.list b) = h.val (.list b)) :
    (d.map fun p => (p.1, h'.val p.2)) = Dict.set (d.map fun p => (p.1, h.val p.2)) k (h'.val (.list a)) := by
  induction d with
  | nil => cases hk
  | cons p t ih =>
    obtain ⟨k', r⟩ := p
    by_cases hkk : k' = k
    · simp only [Dict.get?, hkk, if_true, Option.some.injEq] at hk
      subst hk
      rw [refs_cons_list] at hd hl
      rw [List.map_cons, List.map_cons]
      simp only [Dict.set, hkk, if_true]
      rw [map_val_congr (h := h)]
      intro b hb
      exact hl b (by simp [hb]) (fun he => (List.nodup_cons.1 hd).1 (he ▸ hb))
    · simp only [Dict.get?, hkk, if_false] at hk
      have hat := refs_get? hk
      rw [List.map_cons, List.map_cons]
      simp only [Dict.set, hkk, if_false]
      cases r with
      | imm x =>
        rw [refs_cons_imm] at hl hd
        rw [ih hd hk hl]; rfl
      | list b =>
        rw [refs_cons_list] at hd hl
        have hb : b ≠ a := fun he => (List.nodup_cons.1 hd).1 (he ▸ hat)
        rw [ih (List.nodup_cons.1 hd).2 hk (fun c hc => hl c (by simp [hc])), hl b (by simp) hb]

theorem map_set_comm (h : Heap) (d : Dict Str PRef) (k : Str) (r : PRef) :
    ((d.set k r).map fun p => (p.1, h.val p.2)) = Dict.set (d.map fun p => (p.1, h.val p.2)) k (h.val r) := by
  induction d with
  | nil => rfl
  | cons p t ih =>
    by_cases hk : p.1 = k
    · simp [Dict.set, hk]
    · simp only [Dict.set, hk, if_false, List.map_cons, ih]

theorem get?_map_val (h : Heap) (d : Dict Str PRef) (k : Str) : Dict.get? (d.map fun p => (p.1, h.val p.2)) k = (d.get? k).map h.val := by
  induction d with
  | nil => rfl
  | cons p t ih =>
    by_cases hk : p.1 = k
    · simp [Dict.get?, hk]
    · simp only [Dict.get?, hk, if_false, List.map_cons]; exact ih

/-! ### more memory -/

/-- The second memory has everything the first has, unchanged. -/
structure Ext (h h' : Heap) : Prop where
  sites : h.sites <+: h'.sites
  lists : h.lists <+: h'.lists
  dicts : h.dicts <+: h'.dicts

theorem Ext.refl (h : Heap) : Ext h h := ⟨List.prefix_refl _, List.prefix_refl _, List.prefix_refl _⟩

theorem Ext.trans {h h' h'' : Heap} (a : Ext h h') (b : Ext h' h'') : Ext h h'' :=
  ⟨a.sites.trans b.sites, a.lists.trans b.lists, a.dicts.trans b.dicts⟩

theorem prefix_get? {α} {l m : List α} (h : l <+: m) {i : Nat} (hi : i < l.length) : m[i]? = l[i]? := by
  obtain ⟨t, rfl⟩ := h
  rw [List.getElem?_append_left hi]

theorem Ext.list {h h' : Heap} (x : Ext h h') {a : Nat} (ha : a < h.lists.length) : h'.list a = h.list a := by
  unfold Heap.list; rw [prefix_get? x.lists ha]

theorem Ext.dict {h h' : Heap} (x : Ext h h') {d : Nat} (hd : d < h.dicts.length) : h'.dict d = h.dict d := by
  unfold Heap.dict; rw [prefix_get? x.dicts hd]

theorem Ext.map_elem {h h' : Heap} (x : Ext h h') {l : List ERef} (hl : ∀ i ∈ siteRefs l, i < h.sites.length) : l.map h'.elem = l.map h.elem :=
  elem_congr fun i hi => prefix_get? x.sites (hl i hi)

theorem Ext.val {h h' : Heap} (x : Ext h h') {a : Nat} (ha : a < h.lists.length) (hs : ∀ i ∈ siteRefs (h.list a), i < h.sites.length) :
    h'.val (.list a) = h.val (.list a) := by
  simp only [Heap.val, x.list ha, x.map_elem hs]

/-- New memory does not disturb the objects. -/
theorem ext_frame {h h' : Heap} {os : List Nat} (hw : Separate ⟨h, os⟩) (x : Ext h h') :
    Separate ⟨h', os⟩ ∧ ∀ d ∈ os, h'.entries d = h.entries d := by
  have hdict : ∀ d ∈ os, h'.dict d = h.dict d := fun d hd => x.dict (hw.bound d hd)
  have hlist : ∀ d ∈ os, ∀ a ∈ refs (h.dict d), h'.list a = h.list a := fun d hd a ha => x.list (hw.lists d hd a ha)
  refine ⟨⟨hw.objects, ?_, ?_, ?_, ?_, ?_⟩, ?_⟩
  · intro d hd; exact lt_of_lt_of_le (hw.bound d hd) x.dicts.length_le
  · intro d hd; show (refs (h'.dict d)).Nodup; rw [hdict d hd]; exact hw.once d hd
  · intro d hd d' hd' hdd a
    show a ∈ refs (h'.dict d) → a ∉ refs (h'.dict d')
    rw [hdict d hd, hdict d' hd']; exact hw.apart d hd d' hd' hdd a
  · intro d hd a
    show a ∈ refs (h'.dict d) → a < h'.lists.length
    rw [hdict d hd]
    intro ha; exact lt_of_lt_of_le (hw.lists d hd a ha) x.lists.length_le
  · intro d hd a
    show a ∈ refs (h'.dict d) → ∀ i ∈ siteRefs (h'.list a), i < h'.sites.length
    rw [hdict d hd]
    intro ha
    rw [hlist d hd a ha]
    intro i hi; exact lt_of_lt_of_le (hw.sites d hd a ha i hi) x.sites.length_le
  · intro d hd
    show (h'.dict d).map _ = (h.dict d).map _
    rw [hdict d hd]
    exact map_val_congr fun a ha => x.val (hw.lists d hd a ha) (hw.sites d hd a ha)

/-! ### new objects -/

theorem allocElem_spec (h : Heap) (x : Elem) : Ext h (h.allocElem x).1 ∧ (h.allocElem x).1.lists = h.lists ∧ (h.allocElem x).1.dicts = h.dicts ∧
    (h.allocElem x).1.elem (h.allocElem x).2 = x ∧
    (∀ i, (h.allocElem x).2 = .site i → h.sites.length ≤ i ∧ i < (h.allocElem x).1.sites.length) := by
  cases x with
  | site s =>
    refine ⟨⟨List.prefix_append _ _, List.prefix_refl _, List.prefix_refl _⟩, rfl, rfl, ?_, ?_⟩
    · simp [Heap.allocElem, Heap.elem]
    · intro i hi
      have : h.sites.length = i := by simpa [Heap.allocElem] using hi
      subst this
      simp [Heap.allocElem]
  | dict d => exact ⟨Ext.refl h, rfl, rfl, rfl, fun i hi => by cases hi⟩
  | other => exact ⟨Ext.refl h, rfl, rfl, rfl, fun i hi => by cases hi⟩

theorem allocElems_spec (h : Heap) (l : List Elem) : Ext h (h.allocElems l).1 ∧ (h.allocElems l).1.lists = h.lists ∧
    (h.allocElems l).1.dicts = h.dicts ∧ (h.allocElems l).2.map (h.allocElems l).1.elem = l ∧ (siteRefs (h.allocElems l).2).Nodup ∧
    ∀ i ∈ siteRefs (h.allocElems l).2, h.sites.length ≤ i ∧ i < (h.allocElems l).1.sites.length := by
  induction l generalizing h with
  | nil => exact ⟨Ext.refl h, rfl, rfl, rfl, List.nodup_nil, by simp [Heap.allocElems, siteRefs]⟩
  | cons x xs ih =>
    obtain ⟨a1, a2, a3, a4, a5⟩ := allocElem_spec h x
    obtain ⟨i1, i2, i3, i4, i5, i6⟩ := ih (h.allocElem x).1
    have hrest : ∀ i ∈ siteRefs ((h.allocElem x).1.allocElems xs).2, h.sites.length ≤ i ∧ i < ((h.allocElem x).1.allocElems xs).1.sites.length :=
      fun i hi => ⟨a1.sites.length_le.trans (i6 i hi).1, (i6 i hi).2⟩
    refine ⟨a1.trans i1, i2.trans a2, i3.trans a3, ?_, ?_, ?_⟩
    · show ((h.allocElem x).2 :: ((h.allocElem x).1.allocElems xs).2).map ((h.allocElem x).1.allocElems xs).1.elem = x :: xs
      rw [List.map_cons, i4]
      congr 1
      conv_rhs => rw [← a4]
      cases hr : (h.allocElem x).2 with
      | site i => simp only [Heap.elem, prefix_get? i1.sites (a5 i hr).2]
      | dict => rfl
      | other => rfl
    · show (siteRefs ((h.allocElem x).2 :: ((h.allocElem x).1.allocElems xs).2)).Nodup
      cases hr : (h.allocElem x).2 with
      | site i =>
        rw [siteRefs_cons_site]
        refine List.nodup_cons.2 ⟨fun hm => ?_, i5⟩
        have := (i6 i hm).1
        have := (a5 i hr).2
        omega
      | dict => exact i5
      | other => exact i5
    · intro i hi
      have hi' : i ∈ siteRefs ((h.allocElem x).2 :: ((h.allocElem x).1.allocElems xs).2) := hi
      show _ ∧ i < ((h.allocElem x).1.allocElems xs).1.sites.length
      cases hr : (h.allocElem x).2 with
      | site j =>
        rw [hr, siteRefs_cons_site] at hi'
        rcases List.mem_cons.1 hi' with rfl | hi'
        · exact ⟨(a5 i hr).1, lt_of_lt_of_le (a5 i hr).2 i1.sites.length_le⟩
        · exact hrest i hi'
      | dict => rw [hr, siteRefs_cons_dict] at hi'; exact hrest i hi'
      | other => rw [hr, siteRefs_cons_other] at hi'; exact hrest i hi'

/-- What is new about a value. -/
structure Fresh (h h' : Heap) (a : Nat) : Prop where
  low : h.lists.length ≤ a
  high : a < h'.lists.length
  nodup : (siteRefs (h'.list a)).Nodup
  sites : ∀ i ∈ siteRefs (h'.list a), h.sites.length ≤ i ∧ i < h'.sites.length

theorem Fresh.ext {h h' h'' : Heap} {a : Nat} (f : Fresh h h' a) (x : Ext h' h'') : Fresh h h'' a := by
  refine ⟨f.low, lt_of_lt_of_le f.high x.lists.length_le, ?_, ?_⟩
  · rw [x.list f.high]; exact f.nodup
  · rw [x.list f.high]; intro i hi; exact ⟨(f.sites i hi).1, lt_of_lt_of_le (f.sites i hi).2 x.sites.length_le⟩

theorem Fresh.low_ext {h0 h h' : Heap} {a : Nat} (f : Fresh h h' a) (x : Ext h0 h) : Fresh h0 h' a :=
  ⟨x.lists.length_le.trans f.low, f.high, f.nodup, fun i hi => ⟨x.sites.length_le.trans (f.sites i hi).1, (f.sites i hi).2⟩⟩

theorem alloc_spec (h : Heap) (v : Val) : Ext h (h.alloc v).1 ∧ (h.alloc v).1.dicts = h.dicts ∧ (h.alloc v).1.val (h.alloc v).2 = v ∧
    ∀ a, (h.alloc v).2 = .list a → Fresh h (h.alloc v).1 a := by
  cases v with
  | none => exact ⟨Ext.refl h, rfl, rfl, fun a ha => by cases ha⟩
  | str => exact ⟨Ext.refl h, rfl, rfl, fun a ha => by cases ha⟩
  | cell => exact ⟨Ext.refl h, rfl, rfl, fun a ha => by cases ha⟩
  | other => exact ⟨Ext.refl h, rfl, rfl, fun a ha => by cases ha⟩
  | sites l =>
    obtain ⟨a1, a2, a3, a4, a5, a6⟩ := allocElems_spec h l
    have hl : (h.alloc (.sites l)).1.list (h.allocElems l).1.lists.length = (h.allocElems l).2 := by
      simp [Heap.alloc, Heap.list]
    have hel : (h.alloc (.sites l)).1.elem = (h.allocElems l).1.elem := by
      funext r; cases r <;> rfl
    refine ⟨⟨a1.sites, a1.lists.trans (List.prefix_append _ _), a1.dicts⟩, a3, ?_, ?_⟩
    · show Val.sites (((h.alloc (.sites l)).1.list (h.allocElems l).1.lists.length).map (h.alloc (.sites l)).1.elem) = _
      rw [hl, hel, a4]
    · intro a ha
      have ha' : (h.allocElems l).1.lists.length = a := by simpa [Heap.alloc] using ha
      subst ha'
      refine ⟨by rw [a2], by simp [Heap.alloc], by rw [hl]; exact a5, by rw [hl]; exact a6⟩

/-- The lists of a new dictionary: new, different and with different sites. -/
theorem allocAll_spec (h : Heap) (e : Entries) :
    Ext h (h.allocAll e).1 ∧ (h.allocAll e).1.dicts = h.dicts ∧ (refs (h.allocAll e).2).Nodup ∧
      (∀ a ∈ refs (h.allocAll e).2, Fresh h (h.allocAll e).1 a) ∧
      (∀ a ∈ refs (h.allocAll e).2, ∀ b ∈ refs (h.allocAll e).2, a ≠ b →
        ∀ i ∈ siteRefs ((h.allocAll e).1.list a), i ∉ siteRefs ((h.allocAll e).1.list b)) ∧
      ((h.allocAll e).2.map fun p => (p.1, (h.allocAll e).1.val p.2)) = e := by
  induction e generalizing h with
  | nil => exact ⟨Ext.refl h, rfl, List.nodup_nil, by simp [Heap.allocAll, refs], by simp [Heap.allocAll, refs], rfl⟩
  | cons p t ih =>
    obtain ⟨k, v⟩ := p
    obtain ⟨a1, a2, a3, a4⟩ := alloc_spec h v
    obtain ⟨i1, i2, i3, i4, i5, i6⟩ := ih (h.alloc v).1
    have e1 : (h.allocAll ((k, v) :: t)).1 = ((h.alloc v).1.allocAll t).1 := rfl
    have e2 : (h.allocAll ((k, v) :: t)).2 = (k, (h.alloc v).2) :: ((h.alloc v).1.allocAll t).2 := rfl
    rw [e1, e2]
    have hval : ((h.alloc v).1.allocAll t).1.val (h.alloc v).2 = v := by
      conv_rhs => rw [← a3]
      cases hv : (h.alloc v).2 with
      | imm => rfl
      | list a => exact i1.val (a4 a hv).high (fun i hi => ((a4 a hv).sites i hi).2)
    refine ⟨a1.trans i1, i2.trans a2, ?_, ?_, ?_, ?_⟩
    · cases hv : (h.alloc v).2 with
      | imm => exact i3
      | list a =>
        rw [refs_cons_list]
        refine List.nodup_cons.2 ⟨fun hm => ?_, i3⟩
        have h1 := (i4 a hm).low
        have h2 := (a4 a hv).high
        omega
    · intro a ha
      cases hv : (h.alloc v).2 with
      | imm => rw [hv, refs_cons_imm] at ha; exact (i4 a ha).low_ext a1
      | list b =>
        rw [hv, refs_cons_list] at ha
        rcases List.mem_cons.1 ha with hb | hb
        · rw [hb]; exact (a4 b hv).ext i1
        · exact (i4 a hb).low_ext a1
    · cases hv : (h.alloc v).2 with
      | imm => rw [refs_cons_imm]; exact i5
      | list c =>
        rw [refs_cons_list]
        have fc := a4 c hv
        have hc : ((h.alloc v).1.allocAll t).1.list c = (h.alloc v).1.list c := i1.list fc.high
        intro a ha b hb hab i hi hj
        rcases List.mem_cons.1 ha with ha' | ha' <;> rcases List.mem_cons.1 hb with hb' | hb'
        · exact hab (ha'.trans hb'.symm)
        · rw [ha', hc] at hi
          have := (fc.sites i hi).2
          have := ((i4 b hb').sites i hj).1
          omega
        · rw [hb', hc] at hj
          have := (fc.sites i hj).2
          have := ((i4 a ha').sites i hi).1
          omega
        · exact i5 a ha' b hb' hab i hi hj
    · rw [List.map_cons, i6, hval]

/-- A dictionary nothing else refers to. -/
structure NewDict (h h' : Heap) (d : Nat) : Prop where
  ext : Ext h h'
  low : h.dicts.length ≤ d
  high : d < h'.dicts.length
  once : (refs (h'.dict d)).Nodup
  fresh : ∀ a ∈ refs (h'.dict d), Fresh h h' a
  apart : ∀ a ∈ refs (h'.dict d), ∀ b ∈ refs (h'.dict d), a ≠ b → ∀ i ∈ siteRefs (h'.list a), i ∉ siteRefs (h'.list b)

theorem newDict_spec (h : Heap) (e : Entries) : NewDict h (h.newDict e).1 (h.newDict e).2 ∧ (h.newDict e).1.entries (h.newDict e).2 = e := by
  obtain ⟨a1, a2, a3, a4, a5, a6⟩ := allocAll_spec h e
  have hd : (h.newDict e).1.dict (h.newDict e).2 = (h.allocAll e).2 := by
    show (((h.allocAll e).1.dicts ++ [(h.allocAll e).2])[(h.allocAll e).1.dicts.length]?).getD [] = _
    simp
  have hval : (h.newDict e).1.val = (h.allocAll e).1.val := by
    have hel : (h.newDict e).1.elem = (h.allocAll e).1.elem := by funext r; cases r <;> rfl
    funext r
    cases r with
    | imm => rfl
    | list a => simp only [Heap.val, hel]; rfl
  refine ⟨⟨⟨a1.sites, a1.lists, a1.dicts.trans (List.prefix_append _ _)⟩, ?_, ?_, ?_, ?_, ?_⟩, ?_⟩
  · exact a1.dicts.length_le
  · show (h.allocAll e).1.dicts.length < ((h.allocAll e).1.dicts ++ [_]).length
    simp
  · rw [hd]; exact a3
  · rw [hd]; intro a ha
    obtain ⟨f1, f2, f3, f4⟩ := a4 a ha
    exact ⟨f1, f2, f3, f4⟩
  · rw [hd]; exact a5
  · show ((h.newDict e).1.dict (h.newDict e).2).map _ = e
    rw [hd, hval]; exact a6

/-- A new object beside the old ones. -/
theorem add_object {w : World} (hw : Separate w) {h' : Heap} {d : Nat} (nd : NewDict w.heap h' d) :
    Separate ⟨h', w.objects ++ [d]⟩ ∧ World.views ⟨h', w.objects ++ [d]⟩ = w.views ++ [h'.entries d] := by
  obtain ⟨hs, hv⟩ := ext_frame (os := w.objects) hw nd.ext
  have hdict : ∀ d' ∈ w.objects, h'.dict d' = w.heap.dict d' := fun d' hd' => nd.ext.dict (hw.bound d' hd')
  refine ⟨⟨?_, ?_, ?_, ?_, ?_, ?_⟩, ?_⟩
  · show (w.objects ++ [d]).Nodup
    rw [List.nodup_append]
    refine ⟨hw.objects, by simp, ?_⟩
    intro a ha b hb he
    rw [List.mem_singleton] at hb
    have := hw.bound a ha
    have := nd.low
    omega
  · intro x hx
    rcases List.mem_append.1 hx with hx | hx
    · exact hs.bound x hx
    · rw [List.mem_singleton.1 hx]; exact nd.high
  · intro x hx
    rcases List.mem_append.1 hx with hx | hx
    · exact hs.once x hx
    · rw [List.mem_singleton.1 hx]; exact nd.once
  · intro x hx y hy hxy a ha hb
    rcases List.mem_append.1 hx with hx' | hx' <;> rcases List.mem_append.1 hy with hy' | hy'
    · exact hs.apart x hx' y hy' hxy a ha hb
    · rw [List.mem_singleton.1 hy'] at hb
      have h1 := (nd.fresh a hb).low
      change a ∈ refs (h'.dict x) at ha
      rw [hdict x hx'] at ha
      have := hw.lists x hx' a ha
      omega
    · rw [List.mem_singleton.1 hx'] at ha
      have h1 := (nd.fresh a ha).low
      change a ∈ refs (h'.dict y) at hb
      rw [hdict y hy'] at hb
      have := hw.lists y hy' a hb
      omega
    · exact hxy ((List.mem_singleton.1 hx').trans (List.mem_singleton.1 hy').symm)
  · intro x hx a ha
    rcases List.mem_append.1 hx with hx' | hx'
    · exact hs.lists x hx' a ha
    · rw [List.mem_singleton.1 hx'] at ha; exact (nd.fresh a ha).high
  · intro x hx a ha i hi
    rcases List.mem_append.1 hx with hx' | hx'
    · exact hs.sites x hx' a ha i hi
    · rw [List.mem_singleton.1 hx'] at ha; exact ((nd.fresh a ha).sites i hi).2
  · unfold World.views
    rw [List.map_append, List.map_singleton]
    congr 1
    exact List.map_congr_left hv

/-! ### `_from_dict` in place -/

/-- One element. -/
theorem convertRef_spec (c : Option Cell) (h : Heap) (r : ERef) (hb : ∀ i, r = .site i → i < h.sites.length) :
    (convertRef c h r).1.lists = h.lists ∧ (convertRef c h r).1.dicts = h.dicts ∧ (convertRef c h r).1.sites.length = h.sites.length ∧
    (∀ i, r ≠ .site i → (convertRef c h r).1.sites[i]? = h.sites[i]?) ∧
    ((∃ x, convertElem c (h.elem r) = .ok x ∧ (convertRef c h r).2 = .ok () ∧ (convertRef c h r).1.elem r = x) ∨
      ((∀ x, convertElem c (h.elem r) ≠ .ok x) ∧ (convertRef c h r).2 ≠ .ok ())) := by
  cases r with
  | dict d =>
    have h0 : convertElem c (h.elem (.dict d)) = convertElem c (.dict d) := rfl
    cases hc : convertElem c (.dict d) with
    | ok x =>
      have hx : x = .dict d := by
        simp only [convertElem] at hc
        split at hc
        · exact (Res.ok.inj hc).symm
        · obtain ⟨p, -, hc⟩ := Res.bind_eq_ok.1 hc
          split at hc
          · obtain ⟨q, -, hc⟩ := Res.bind_eq_ok.1 hc
            exact (Res.ok.inj hc).symm
          · exact (Res.ok.inj hc).symm
      subst hx
      have he : convertRef c h (.dict d) = (h, .ok ()) := by unfold convertRef; rw [h0, hc]
      rw [he]
      exact ⟨rfl, rfl, rfl, fun _ _ => rfl, Or.inl ⟨.dict d, by rw [h0, hc], rfl, rfl⟩⟩
    | exit n =>
      have he : convertRef c h (.dict d) = (h, .exit n) := by unfold convertRef; rw [h0, hc]
      rw [he, h0, hc]
      exact ⟨rfl, rfl, rfl, fun _ _ => rfl, Or.inr ⟨fun _ hx => (by cases hx), fun hx => (by cases hx)⟩⟩
    | raise n =>
      have he : convertRef c h (.dict d) = (h, .raise n) := by unfold convertRef; rw [h0, hc]
      rw [he, h0, hc]
      exact ⟨rfl, rfl, rfl, fun _ _ => rfl, Or.inr ⟨fun _ hx => (by cases hx), fun hx => (by cases hx)⟩⟩
  | other =>
    have he : convertRef c h .other = (h, .raise .typeError) := rfl
    rw [he]
    exact ⟨rfl, rfl, rfl, fun _ _ => rfl, Or.inr ⟨fun _ hx => (by cases hx), fun hx => (by cases hx)⟩⟩
  | site i =>
    have hi := hb i rfl
    have h0 : h.elem (.site i) = .site h.sites[i] := by simp [Heap.elem, hi]
    cases hc : convertElem c (.site h.sites[i]) with
    | ok x =>
      have hx : ∃ s, x = .site s := by
        simp only [convertElem] at hc
        split at hc
        · exact ⟨_, (Res.ok.inj hc).symm⟩
        · obtain ⟨p, -, hc⟩ := Res.bind_eq_ok.1 hc
          split at hc
          · obtain ⟨q, -, hc⟩ := Res.bind_eq_ok.1 hc
            exact ⟨_, (Res.ok.inj hc).symm⟩
          · exact ⟨_, (Res.ok.inj hc).symm⟩
      obtain ⟨s, rfl⟩ := hx
      have he : convertRef c h (.site i) = ({ h with sites := h.sites.set i s }, .ok ()) := by unfold convertRef; rw [h0, hc]
      rw [he, h0, hc]
      refine ⟨rfl, rfl, by simp, ?_, Or.inl ⟨_, rfl, rfl, ?_⟩⟩
      · intro j hj
        have : i ≠ j := fun he => hj (by rw [he])
        exact List.getElem?_set_ne this
      · simp [Heap.elem, hi]
    | exit n =>
      have he : convertRef c h (.site i) = (h, .exit n) := by unfold convertRef; rw [h0, hc]
      rw [he, h0, hc]
      exact ⟨rfl, rfl, rfl, fun _ _ => rfl, Or.inr ⟨fun _ hx => (by cases hx), fun hx => (by cases hx)⟩⟩
    | raise n =>
      have he : convertRef c h (.site i) = (h, .raise n) := by unfold convertRef; rw [h0, hc]
      rw [he, h0, hc]
      exact ⟨rfl, rfl, rfl, fun _ _ => rfl, Or.inr ⟨fun _ hx => (by cases hx), fun hx => (by cases hx)⟩⟩

/-- The loop on different sites. -/
theorem convertRefs_spec (c : Option Cell) (h : Heap) (rs : List ERef) (hn : (siteRefs rs).Nodup)
    (hb : ∀ i ∈ siteRefs rs, i < h.sites.length) :
    (convertRefs c h rs).1.lists = h.lists ∧ (convertRefs c h rs).1.dicts = h.dicts ∧
    (convertRefs c h rs).1.sites.length = h.sites.length ∧
    (∀ i, i ∉ siteRefs rs → (convertRefs c h rs).1.sites[i]? = h.sites[i]?) ∧
    ((∃ l, Res.mapM' (convertElem c) (rs.map h.elem) = .ok l ∧ (convertRefs c h rs).2 = .ok () ∧ rs.map (convertRefs c h rs).1.elem = l) ∨
      ((∀ l, Res.mapM' (convertElem c) (rs.map h.elem) ≠ .ok l) ∧ (convertRefs c h rs).2 ≠ .ok ())) := by
  induction rs generalizing h with
  | nil => exact ⟨rfl, rfl, rfl, fun _ _ => rfl, Or.inl ⟨[], rfl, rfl, rfl⟩⟩
  | cons r rs ih =>
    have hnr : (siteRefs rs).Nodup ∧ ∀ i, r = .site i → i ∉ siteRefs rs := by
      cases r with
      | site i =>
        rw [siteRefs_cons_site] at hn
        exact ⟨(List.nodup_cons.1 hn).2, fun j hj => by cases hj; exact (List.nodup_cons.1 hn).1⟩
      | dict => exact ⟨hn, fun j hj => by cases hj⟩
      | other => exact ⟨hn, fun j hj => by cases hj⟩
    have hsub : ∀ i, i ∈ siteRefs rs → i ∈ siteRefs (r :: rs) := fun i hi => siteRefs_mem.2 (List.mem_cons_of_mem _ (siteRefs_mem.1 hi))
    obtain ⟨f1, f2, f3, f4, f5⟩ := convertRef_spec c h r (fun i hi => hb i (siteRefs_mem.2 (by rw [hi]; simp)))
    obtain ⟨i1, i2, i3, i4, i5⟩ := ih (convertRef c h r).1 hnr.1 (fun i hi => by rw [f3]; exact hb i (hsub i hi))
    have hsame : rs.map (convertRef c h r).1.elem = rs.map h.elem := by
      refine elem_congr fun i hi => f4 i ?_
      intro hr; exact hnr.2 i hr hi
    rw [hsame] at i5
    have hnot : ∀ i, i ∉ siteRefs (r :: rs) → r ≠ .site i ∧ i ∉ siteRefs rs := by
      intro i hi
      exact ⟨fun hr => hi (siteRefs_mem.2 (by rw [hr]; simp)), fun hm => hi (hsub i hm)⟩
    rcases f5 with ⟨x, x1, x2, x3⟩ | ⟨x1, x2⟩
    · have he : convertRefs c h (r :: rs) = convertRefs c (convertRef c h r).1 rs := by
        conv_lhs => unfold convertRefs
        cases hcr : convertRef c h r with
        | mk a b =>
          rw [hcr] at x2
          have : b = .ok () := x2
          subst this
          rfl
      rw [he]
      refine ⟨i1.trans f1, i2.trans f2, i3.trans f3, ?_, ?_⟩
      · intro i hi
        rw [i4 i (hnot i hi).2, f4 i (hnot i hi).1]
      · rcases i5 with ⟨l, l1, l2, l3⟩ | ⟨l1, l2⟩
        · left
          refine ⟨x :: l, ?_, l2, ?_⟩
          · rw [List.map_cons]; unfold Res.mapM'; rw [x1, l1]
          · rw [List.map_cons, l3]
            congr 1
            rw [← x3]
            cases r with
            | site i =>
              simp only [Heap.elem, i4 i (hnr.2 i rfl)]
            | dict => rfl
            | other => rfl
        · right
          refine ⟨?_, l2⟩
          intro l hl
          rw [List.map_cons] at hl
          unfold Res.mapM' at hl
          rw [x1] at hl
          cases hm : Res.mapM' (convertElem c) (rs.map h.elem) with
          | ok y => exact l1 y hm
          | exit => rw [hm] at hl; cases hl
          | raise => rw [hm] at hl; cases hl
    · have he : (convertRefs c h (r :: rs)).1 = (convertRef c h r).1 ∧ (convertRefs c h (r :: rs)).2 ≠ .ok () := by
        rw [show convertRefs c h (r :: rs) = _ from by conv_lhs => unfold convertRefs]
        cases hcr : convertRef c h r with
        | mk a b =>
          rw [hcr] at x2
          cases b with
          | ok u => exact absurd rfl x2
          | exit => exact ⟨rfl, fun hx => by cases hx⟩
          | raise => exact ⟨rfl, fun hx => by cases hx⟩
      rw [he.1]
      refine ⟨f1, f2, f3, fun i hi => f4 i (hnot i hi).1, Or.inr ⟨?_, he.2⟩⟩
      intro l hl
      rw [List.map_cons] at hl
      unfold Res.mapM' at hl
      cases hm : convertElem c (h.elem r) with
      | ok y => exact x1 y hm
      | exit => rw [hm] at hl; cases hl
      | raise => rw [hm] at hl; cases hl

theorem construct_spec {h0 h : Heap} {d : Nat} (nd : NewDict h0 h d) :
    (∃ e', fromDict (h.entries d) = .ok e' ∧ (fromDictH h d).2 = .ok () ∧ (fromDictH h d).1.entries d = e' ∧ NewDict h0 (fromDictH h d).1 d) ∨
    ((∀ e', fromDict (h.entries d) ≠ .ok e') ∧ (fromDictH h d).2 ≠ .ok () ∧ Ext h0 (fromDictH h d).1) := by
  have hg : (h.entries d).get? c!"sites" = ((h.dict d).get? c!"sites").map h.val := get?_map_val h _ _
  unfold fromDictH fromDict lookup
  rw [hg]
  cases hk : (h.dict d).get? c!"sites" with
  | none => exact Or.inr ⟨fun _ hx => (by cases hx), fun hx => (by cases hx), nd.ext⟩
  | some r =>
    cases r with
    | imm v =>
      cases v with
      | none => exact Or.inr ⟨fun _ hx => (by cases hx), fun hx => (by cases hx), nd.ext⟩
      | cell => exact Or.inr ⟨fun _ hx => (by cases hx), fun hx => (by cases hx), nd.ext⟩
      | other => exact Or.inr ⟨fun _ hx => (by cases hx), fun hx => (by cases hx), nd.ext⟩
      | str s =>
        cases s with
        | nil => exact Or.inl ⟨_, rfl, rfl, rfl, nd⟩
        | cons => exact Or.inr ⟨fun _ hx => (by cases hx), fun hx => (by cases hx), nd.ext⟩
    | list a =>
      have ha := refs_get? hk
      have fa := nd.fresh a ha
      obtain ⟨f1, f2, f3, f4, f5⟩ := convertRefs_spec (cellOf (h.entries d)) h (h.list a) fa.nodup (fun i hi => (fa.sites i hi).2)
      simp only [Option.map_some, Heap.val, Res.ok_bind]
      generalize convertRefs (cellOf (h.entries d)) h (h.list a) = q at f1 f2 f3 f4 f5
      have hlist : ∀ b, q.1.list b = h.list b := fun b => by unfold Heap.list; rw [f1]
      have hdict : q.1.dict d = h.dict d := by unfold Heap.dict; rw [f2]
      have hext : Ext h0 q.1 := by
        refine ⟨?_, by rw [f1]; exact nd.ext.lists, by rw [f2]; exact nd.ext.dicts⟩
        rw [List.prefix_iff_getElem?]
        intro i hi
        have hne : i ∉ siteRefs (h.list a) := fun hm => by have := (fa.sites i hm).1; omega
        rw [f4 i hne, prefix_get? nd.ext.sites hi]
        exact List.getElem?_eq_getElem hi
      rcases f5 with ⟨l, l1, l2, l3⟩ | ⟨l1, l2⟩
      · left
        refine ⟨(h.entries d).set c!"sites" (.sites l), by rw [l1]; rfl, l2, ?_, ⟨hext, nd.low, by rw [f2]; exact nd.high, ?_, ?_, ?_⟩⟩
        · show (q.1.dict d).map _ = _
          rw [hdict, map_val_change (h := h) nd.once hk]
          · show Dict.set _ _ (Val.sites ((q.1.list a).map q.1.elem)) = _
            rw [hlist, l3]; rfl
          · intro b hb hne
            show Val.sites _ = Val.sites _
            rw [hlist]
            congr 1
            refine elem_congr fun i hi => f4 i ?_
            exact nd.apart b hb a ha hne i hi
        · rw [hdict]; exact nd.once
        · rw [hdict]; intro b hb
          have fb := nd.fresh b hb
          exact ⟨fb.low, by rw [f1]; exact fb.high, by rw [hlist]; exact fb.nodup, by rw [hlist, f3]; exact fb.sites⟩
        · rw [hdict]; intro x hx y hy
          rw [hlist, hlist]; exact nd.apart x hx y hy
      · right
        refine ⟨?_, l2, hext⟩
        intro e' he
        obtain ⟨l, hl, -⟩ := Res.bind_eq_ok.1 he
        exact l1 l hl

/-- Changing a list of one object in place. -/
theorem setList_step {w : World} (hw : Separate w) {o d : Nat} (ho : w.objects[o]? = some d) {k : Str} {a : Nat}
    (hk : (w.heap.dict d).get? k = some (.list a)) (l : List ERef) (hl : ∀ i ∈ siteRefs l, i < w.heap.sites.length) :
    Separate ⟨{ w.heap with lists := w.heap.lists.set a l }, w.objects⟩ ∧
      World.views ⟨{ w.heap with lists := w.heap.lists.set a l }, w.objects⟩ =
        w.views.set o ((w.heap.entries d).set k (.sites (l.map w.heap.elem))) := by
  have hd : d ∈ w.objects := List.mem_of_getElem? ho
  have ha := refs_get? hk
  have hlt := hw.lists d hd a ha
  generalize hh : ({ w.heap with lists := w.heap.lists.set a l } : Heap) = h'
  have hlists : h'.lists = w.heap.lists.set a l := by rw [← hh]
  have hdicts : h'.dicts = w.heap.dicts := by rw [← hh]
  have hsites : h'.sites = w.heap.sites := by rw [← hh]
  have hself : h'.list a = l := by
    show (h'.lists[a]?).getD [] = _
    rw [hlists, List.getElem?_set_self hlt]; rfl
  have hoth : ∀ b, b ≠ a → h'.list b = w.heap.list b := by
    intro b hb
    unfold Heap.list; rw [hlists, List.getElem?_set_ne (Ne.symm hb)]
  have hdict : ∀ x, h'.dict x = w.heap.dict x := fun x => by unfold Heap.dict; rw [hdicts]
  have hel : h'.elem = w.heap.elem := by funext r; cases r <;> simp [Heap.elem, hsites]
  have hval : ∀ b, b ≠ a → h'.val (.list b) = w.heap.val (.list b) := by
    intro b hb; simp only [Heap.val, hoth b hb, hel]
  refine ⟨⟨hw.objects, ?_, ?_, ?_, ?_, ?_⟩, ?_⟩
  · intro x hx; show x < h'.dicts.length; rw [hdicts]; exact hw.bound x hx
  · intro x hx; show (refs (h'.dict x)).Nodup; rw [hdict]; exact hw.once x hx
  · intro x hx y hy hxy b
    show b ∈ refs (h'.dict x) → b ∉ refs (h'.dict y)
    rw [hdict, hdict]; exact hw.apart x hx y hy hxy b
  · intro x hx b
    show b ∈ refs (h'.dict x) → b < h'.lists.length
    rw [hdict, hlists, List.length_set]; exact hw.lists x hx b
  · intro x hx b
    show b ∈ refs (h'.dict x) → ∀ i ∈ siteRefs (h'.list b), i < h'.sites.length
    rw [hdict, hsites]
    intro hb
    by_cases hba : b = a
    · rw [hba, hself]; exact hl
    · rw [hoth b hba]; exact hw.sites x hx b hb
  · have hothers : ∀ d' ∈ w.objects, d' ≠ d → h'.entries d' = w.heap.entries d' := by
      intro d' hd' hne
      show (h'.dict d').map _ = _
      rw [hdict]
      refine map_val_congr ?_
      intro b hb
      exact hval b (fun he => hw.apart d hd d' hd' (Ne.symm hne) a ha (he ▸ hb))
    have hselfe : h'.entries d = (w.heap.entries d).set k (.sites (l.map w.heap.elem)) := by
      show (h'.dict d).map _ = _
      rw [hdict, map_val_change (h := w.heap) (hw.once d hd) hk (fun b _ hne => hval b hne)]
      simp only [Heap.val, hself, hel]; rfl
    refine List.ext_getElem? fun i => ?_
    unfold World.views
    rw [List.getElem?_map, List.getElem?_set]
    by_cases hi : o = i
    · subst hi
      have hol : o < w.objects.length := (List.getElem?_eq_some_iff.1 ho).1
      rw [ho, if_pos rfl, List.length_map, if_pos hol]
      exact congrArg some hselfe
    · rw [if_neg hi, List.getElem?_map]
      cases hx : w.objects[i]? with
      | none => rfl
      | some d' =>
        have hd' : d' ∈ w.objects := List.mem_of_getElem? hx
        have : d' ≠ d := by
          rintro rfl
          exact hi (nodup_get?_inj hw.objects ho hx)
        exact congrArg some (hothers d' hd' this)

/-- Storing a reference in the dictionary of one object. -/
theorem setDict_step {w : World} (hw : Separate w) {o d : Nat} (ho : w.objects[o]? = some d) (k : Str) (r : PRef)
    (hr : ∀ a, r = .list a → (a < w.heap.lists.length ∧ ∀ i ∈ siteRefs (w.heap.list a), i < w.heap.sites.length) ∧
      ∀ d' ∈ w.objects, a ∉ refs (w.heap.dict d')) :
    Separate ⟨{ w.heap with dicts := w.heap.dicts.set d ((w.heap.dict d).set k r) }, w.objects⟩ ∧
      World.views ⟨{ w.heap with dicts := w.heap.dicts.set d ((w.heap.dict d).set k r) }, w.objects⟩ =
        w.views.set o ((w.heap.entries d).set k (w.heap.val r)) := by
  have hd : d ∈ w.objects := List.mem_of_getElem? ho
  have hdl := hw.bound d hd
  generalize hh : ({ w.heap with dicts := w.heap.dicts.set d ((w.heap.dict d).set k r) } : Heap) = h'
  have hdicts : h'.dicts = w.heap.dicts.set d ((w.heap.dict d).set k r) := by rw [← hh]
  have hlists : h'.lists = w.heap.lists := by rw [← hh]
  have hsites : h'.sites = w.heap.sites := by rw [← hh]
  have hlist : ∀ a, h'.list a = w.heap.list a := fun a => by unfold Heap.list; rw [hlists]
  have hel : h'.elem = w.heap.elem := by funext r; cases r <;> simp [Heap.elem, hsites]
  have hself : h'.dict d = (w.heap.dict d).set k r := by
    show (h'.dicts[d]?).getD [] = _
    rw [hdicts, List.getElem?_set_self hdl]; rfl
  have hoth : ∀ d', d' ≠ d → h'.dict d' = w.heap.dict d' := by
    intro d' hne
    unfold Heap.dict; rw [hdicts, List.getElem?_set_ne (Ne.symm hne)]
  have hval : h'.val = w.heap.val := by
    funext x; cases x with
    | imm => rfl
    | list a => simp only [Heap.val, hlist, hel]
  refine ⟨⟨hw.objects, ?_, ?_, ?_, ?_, ?_⟩, ?_⟩
  · intro d' hd'
    show d' < h'.dicts.length
    rw [hdicts, List.length_set]; exact hw.bound d' hd'
  · intro d' hd'
    show (refs (h'.dict d')).Nodup
    by_cases hne : d' = d
    · subst hne
      rw [hself]
      exact refs_set_nodup (hw.once _ hd) (fun x hx => (hr x hx).2 _ hd)
    · rw [hoth d' hne]; exact hw.once d' hd'
  · intro d1 hd1 d2 hd2 hdd a
    show a ∈ refs (h'.dict d1) → a ∉ refs (h'.dict d2)
    intro ha hb
    by_cases h1 : d1 = d
    · subst h1
      rw [hself] at ha
      rw [hoth d2 (Ne.symm hdd)] at hb
      rcases refs_set_mem ha with ha | ha
      · exact hw.apart d1 hd1 d2 hd2 hdd a ha hb
      · exact (hr a ha).2 d2 hd2 hb
    · rw [hoth d1 h1] at ha
      by_cases h2 : d2 = d
      · subst h2
        rw [hself] at hb
        rcases refs_set_mem hb with hb | hb
        · exact hw.apart d1 hd1 d2 hd2 hdd a ha hb
        · exact (hr a hb).2 d1 hd1 ha
      · rw [hoth d2 h2] at hb
        exact hw.apart d1 hd1 d2 hd2 hdd a ha hb
  · intro d' hd' a
    show a ∈ refs (h'.dict d') → a < h'.lists.length
    rw [hlists]
    by_cases hne : d' = d
    · subst hne
      rw [hself]
      intro ha
      rcases refs_set_mem ha with ha | ha
      · exact hw.lists d' hd' a ha
      · exact (hr a ha).1.1
    · rw [hoth d' hne]; exact hw.lists d' hd' a
  · intro d' hd' a
    show a ∈ refs (h'.dict d') → ∀ i ∈ siteRefs (h'.list a), i < h'.sites.length
    rw [hlist, hsites]
    by_cases hne : d' = d
    · subst hne
      rw [hself]
      intro ha
      rcases refs_set_mem ha with ha | ha
      · exact hw.sites d' hd' a ha
      · exact (hr a ha).1.2
    · rw [hoth d' hne]; exact hw.sites d' hd' a
  · have hes : h'.entries d = (w.heap.entries d).set k (w.heap.val r) := by
      unfold Heap.entries
      rw [hself, hval, map_set_comm]
    have heo : ∀ d', d' ≠ d → h'.entries d' = w.heap.entries d' := by
      intro d' hne
      unfold Heap.entries
      rw [hoth d' hne, hval]
    refine List.ext_getElem? fun i => ?_
    unfold World.views
    rw [List.getElem?_map, List.getElem?_set]
    by_cases hi : o = i
    · subst hi
      have hol : o < w.objects.length := (List.getElem?_eq_some_iff.1 ho).1
      rw [ho, if_pos rfl, List.length_map, if_pos hol]
      exact congrArg some hes
    · rw [if_neg hi, List.getElem?_map]
      cases hx : w.objects[i]? with
      | none => rfl
      | some d' =>
        have : d' ≠ d := by
          rintro rfl
          have h1 := (List.getElem?_eq_some_iff.1 ho).1
          exact hi (nodup_get?_inj hw.objects ho hx)
        exact congrArg some (heo d' this)


/-! ### the calls -/

/-- `delete_site` in memory and on values. -/
theorem deleteSiteH_ok (h : Heap) (d : Nat) (n : Int) :
    (∃ a l, (h.dict d).get? c!"sites" = some (.list a) ∧ deleteSiteH h d n = .ok { h with lists := h.lists.set a l } ∧
      (∀ r ∈ l, r ∈ h.list a) ∧ deleteSite (h.entries d) n = .ok ((h.entries d).set c!"sites" (.sites (l.map h.elem)))) ∨
    ((∀ h', deleteSiteH h d n ≠ .ok h') ∧ ∀ e', deleteSite (h.entries d) n ≠ .ok e') := by
  have hg : (h.entries d).get? c!"sites" = ((h.dict d).get? c!"sites").map h.val := get?_map_val h _ _
  unfold deleteSiteH deleteSite
  cases checkSites (h.entries d) .none with
  | exit => exact Or.inr ⟨fun _ hc => (by cases hc), fun _ hc => (by cases hc)⟩
  | raise => exact Or.inr ⟨fun _ hc => (by cases hc), fun _ hc => (by cases hc)⟩
  | ok u =>
    cases checkSiteNumber (h.entries d) n with
    | exit => exact Or.inr ⟨fun _ hc => (by cases hc), fun _ hc => (by cases hc)⟩
    | raise => exact Or.inr ⟨fun _ hc => (by cases hc), fun _ hc => (by cases hc)⟩
    | ok u' =>
      simp only [Res.ok_bind, lookup, hg]
      cases hp : (h.dict d).get? c!"sites" with
      | none => exact Or.inr ⟨fun _ hc => (by cases hc), fun _ hc => (by cases hc)⟩
      | some r =>
        cases r with
        | imm a => cases a <;> exact Or.inr ⟨fun _ hc => (by cases hc), fun _ hc => (by cases hc)⟩
        | list a =>
          simp only [Option.map_some, Heap.val, Res.ok_bind, List.length_map]
          cases hi : pyIndex n (h.list a).length with
          | none => exact Or.inr ⟨fun _ hc => (by cases hc), fun _ hc => (by cases hc)⟩
          | some i =>
            refine Or.inl ⟨a, (h.list a).eraseIdx i, rfl, rfl, fun r hr => List.mem_of_mem_eraseIdx hr, ?_⟩
            simp only [List.eraseIdx_map]

/-- `modify(entry, value, site_number)` in memory and on values. -/
theorem modifySiteH_ok (h : Heap) (d : Nat) (entry : Str) (v : Option ERef) (n : Int) :
    (∃ a l, (h.dict d).get? c!"sites" = some (.list a) ∧ modifySiteH h d entry v n = .ok { h with lists := h.lists.set a l } ∧
      (∀ r ∈ l, r ∈ h.list a ∨ r = v.getD .other) ∧
      modifySite (h.entries d) entry (v.map h.elem) n = .ok ((h.entries d).set c!"sites" (.sites (l.map h.elem)))) ∨
    ((∀ h', modifySiteH h d entry v n ≠ .ok h') ∧ ∀ e', modifySite (h.entries d) entry (v.map h.elem) n ≠ .ok e') := by
  have hg : (h.entries d).get? c!"sites" = ((h.dict d).get? c!"sites").map h.val := get?_map_val h _ _
  have hv : (v.map h.elem).getD .other = h.elem (v.getD .other) := by cases v <;> rfl
  unfold modifySiteH modifySite
  cases checkAllowed entry with
  | exit => exact Or.inr ⟨fun _ hc => (by cases hc), fun _ hc => (by cases hc)⟩
  | raise => exact Or.inr ⟨fun _ hc => (by cases hc), fun _ hc => (by cases hc)⟩
  | ok u =>
  cases checkSite (h.entries d) (v.map h.elem) with
  | exit => exact Or.inr ⟨fun _ hc => (by cases hc), fun _ hc => (by cases hc)⟩
  | raise => exact Or.inr ⟨fun _ hc => (by cases hc), fun _ hc => (by cases hc)⟩
  | ok u1 =>
  cases checkSiteNumber (h.entries d) n with
  | exit => exact Or.inr ⟨fun _ hc => (by cases hc), fun _ hc => (by cases hc)⟩
  | raise => exact Or.inr ⟨fun _ hc => (by cases hc), fun _ hc => (by cases hc)⟩
  | ok u' =>
  simp only [Res.ok_bind, lookup, hg]
  cases hp : (h.dict d).get? c!"sites" with
  | none => exact Or.inr ⟨fun _ hc => (by cases hc), fun _ hc => (by cases hc)⟩
  | some r =>
    cases r with
    | imm a => cases a <;> exact Or.inr ⟨fun _ hc => (by cases hc), fun _ hc => (by cases hc)⟩
    | list a =>
      simp only [Option.map_some, Heap.val, Res.ok_bind, List.length_map]
      cases hi : pyIndex n (h.list a).length with
      | none => exact Or.inr ⟨fun _ hc => (by cases hc), fun _ hc => (by cases hc)⟩
      | some i =>
        refine Or.inl ⟨a, (h.list a).set i (v.getD .other), rfl, rfl, fun r hr => List.mem_or_eq_of_mem_set hr, ?_⟩
        simp only [hv, List.map_set]

/-- `modify(entry, value)` in memory and on values. -/
theorem modifyH_ok (h : Heap) (d : Nat) (entry : Str) (r : PRef) :
    (modifyH h d entry r = .ok { h with dicts := h.dicts.set d ((h.dict d).set entry r) } ∧
      modify (h.entries d) entry (h.val r) = .ok ((h.entries d).set entry (h.val r))) ∨
    ((∀ h', modifyH h d entry r ≠ .ok h') ∧ ∀ e', modify (h.entries d) entry (h.val r) ≠ .ok e') := by
  unfold modifyH modify
  cases checkAllowed entry with
  | exit => exact Or.inr ⟨fun _ hc => (by cases hc), fun _ hc => (by cases hc)⟩
  | raise => exact Or.inr ⟨fun _ hc => (by cases hc), fun _ hc => (by cases hc)⟩
  | ok u =>
    cases checkEntry (h.entries d) entry (h.val r) with
    | exit => exact Or.inr ⟨fun _ hc => (by cases hc), fun _ hc => (by cases hc)⟩
    | raise => exact Or.inr ⟨fun _ hc => (by cases hc), fun _ hc => (by cases hc)⟩
    | ok u' => exact Or.inl ⟨rfl, rfl⟩

theorem views_get {w : World} {o : Nat} : w.views[o]? = (w.objects[o]?).map w.heap.entries := by
  unfold World.views; rw [List.getElem?_map]

/-- A call on an object, specified. -/
def specOn (es : List Entries) (o : Nat) (f : Entries → Res Entries) : List Entries :=
  match es[o]? with
  | some e => match f e with
    | .ok e' => es.set o e'
    | _ => es
  | none => es

/-- A call on an object that may have reserved new memory before. -/
theorem call_spec {w : World} (hw : Separate w) {h : Heap} (x : Ext w.heap h) (o : Nat) (f : Nat → Res Heap) (g : Entries → Res Entries)
    (hf : ∀ d, w.objects[o]? = some d →
      (∃ h' e', f d = .ok h' ∧ g (h.entries d) = .ok e' ∧ Separate ⟨h', w.objects⟩ ∧
        World.views ⟨h', w.objects⟩ = (World.views ⟨h, w.objects⟩).set o e') ∨
      ((∀ h', f d ≠ .ok h') ∧ ∀ e', g (h.entries d) ≠ .ok e')) :
    Separate (w.call o f) ∧ (w.call o f).views = specOn w.views o g := by
  obtain ⟨-, hv⟩ := ext_frame (os := w.objects) hw x
  have hviews : World.views ⟨h, w.objects⟩ = w.views := List.map_congr_left hv
  unfold World.call specOn
  rw [views_get]
  cases ho : w.objects[o]? with
  | none => exact ⟨hw, rfl⟩
  | some d =>
    have he : h.entries d = w.heap.entries d := hv d (List.mem_of_getElem? ho)
    simp only [Option.map_some]
    rcases hf d ho with ⟨h', e', h1, h2, h3, h4⟩ | ⟨h1, h2⟩
    · rw [he] at h2
      rw [h1, h2]
      exact ⟨h3, by rw [← hviews]; exact h4⟩
    · rw [he] at h2
      cases hx : f d with
      | ok y => exact absurd hx (h1 y)
      | exit =>
        cases hy : g (w.heap.entries d) with
        | ok y => exact absurd hy (h2 y)
        | exit => exact ⟨hw, rfl⟩
        | raise => exact ⟨hw, rfl⟩
      | raise =>
        cases hy : g (w.heap.entries d) with
        | ok y => exact absurd hy (h2 y)
        | exit => exact ⟨hw, rfl⟩
        | raise => exact ⟨hw, rfl⟩

theorem step_spec {w : World} (hw : Separate w) (c : Call) (hc : Unshared c) :
    Separate (w.step c) ∧ (w.step c).views = specCall w.views c := by
  cases c with
  | fromText s =>
    simp only [World.step, specCall]
    cases hi : init { s with dict := none } with
    | ok e =>
      obtain ⟨nd, he⟩ := newDict_spec w.heap e
      have := add_object hw nd
      rw [he] at this
      exact this
    | exit => exact ⟨hw, rfl⟩
    | raise => exact ⟨hw, rfl⟩
  | fromNewDict e =>
    obtain ⟨nd, he⟩ := newDict_spec w.heap e
    have hcs := construct_spec nd
    rw [he] at hcs
    have hinit : init { dict := some e } = fromDict e >>= fun e => validate e >>= fun _ => .ok e := by
      simp [init, guards, load]
    simp only [World.step, specCall, World.construct, Poscar.construct, hinit]
    cases hq : fromDictH (w.heap.newDict e).1 (w.heap.newDict e).2 with
    | mk h r =>
      rw [hq] at hcs
      rcases hcs with ⟨e', h1, h2, h3, h4⟩ | ⟨h1, h2, h3⟩
      · have : r = .ok () := h2
        subst this
        change h.entries _ = e' at h3
        simp only [h1, Res.ok_bind]
        rw [h3]
        have hadd := add_object hw h4
        change Separate ⟨h, _⟩ ∧ World.views ⟨h, _⟩ = _ ++ [h.entries _] at hadd
        rw [h3] at hadd
        obtain ⟨f1, f2⟩ := ext_frame (os := w.objects) hw h4.ext
        cases validate e' with
        | ok u => exact hadd
        | exit => exact ⟨f1, List.map_congr_left f2⟩
        | raise => exact ⟨f1, List.map_congr_left f2⟩
      · obtain ⟨f1, f2⟩ := ext_frame (os := w.objects) hw h3
        have hno : (match (fromDict e >>= fun e => validate e >>= fun _ => Res.ok e) with
            | .ok e => w.views ++ [e]
            | _ => w.views) = w.views := by
          cases hx : fromDict e with
          | ok y => exact absurd hx (h1 y)
          | exit => rfl
          | raise => rfl
        rw [hno]
        cases r with
        | ok u => exact absurd rfl h2
        | exit => exact ⟨f1, List.map_congr_left f2⟩
        | raise => exact ⟨f1, List.map_congr_left f2⟩
  | makeDict e =>
    obtain ⟨nd, -⟩ := newDict_spec w.heap e
    obtain ⟨f1, f2⟩ := ext_frame (os := w.objects) hw nd.ext
    exact ⟨f1, List.map_congr_left f2⟩
  | makeDictOf e =>
    have x : Ext w.heap { w.heap with dicts := w.heap.dicts ++ [e] } :=
      ⟨List.prefix_refl _, List.prefix_refl _, List.prefix_append _ _⟩
    obtain ⟨f1, f2⟩ := ext_frame (os := w.objects) hw x
    exact ⟨f1, List.map_congr_left f2⟩
  | fromDict => exact absurd hc (by simp [Unshared])
  | modifyRef => exact absurd hc (by simp [Unshared])
  | deleteSite o n =>
    refine call_spec hw (Ext.refl _) o _ (fun e => deleteSite e n) ?_
    intro d ho
    rcases deleteSiteH_ok w.heap d n with ⟨a, l, h1, h2, h3, h4⟩ | h
    · have hd : d ∈ w.objects := List.mem_of_getElem? ho
      have := setList_step hw ho h1 l (fun i hi => hw.sites d hd a (refs_get? h1) i (siteRefs_mem.2 (h3 _ (siteRefs_mem.1 hi))))
      exact Or.inl ⟨_, _, h2, h4, this.1, this.2⟩
    · exact Or.inr h
  | modifySite o entry v n =>
    cases v with
    | none =>
      refine call_spec hw (Ext.refl _) o _ (fun e => modifySite e entry none n) ?_
      intro d ho
      rcases modifySiteH_ok w.heap d entry none n with ⟨a, l, h1, h2, h3, h4⟩ | h
      · have hd : d ∈ w.objects := List.mem_of_getElem? ho
        have := setList_step hw ho h1 l (fun i hi => by
          rcases h3 _ (siteRefs_mem.1 hi) with hm | hm
          · exact hw.sites d hd a (refs_get? h1) i (siteRefs_mem.2 hm)
          · cases hm)
        exact Or.inl ⟨_, _, h2, h4, this.1, this.2⟩
      · exact Or.inr h
    | some y =>
      obtain ⟨x1, x2, x3, x4, x5⟩ := allocElem_spec w.heap y
      have hw1 := (ext_frame (os := w.objects) hw x1).1
      refine call_spec hw x1 o _ (fun e => modifySite e entry (some y) n) ?_
      intro d ho
      have key := modifySiteH_ok (w.heap.allocElem y).1 d entry (some (w.heap.allocElem y).2) n
      rw [Option.map_some, x4] at key
      rcases key with ⟨a, l, h1, h2, h3, h4⟩ | h
      · have hd : d ∈ w.objects := List.mem_of_getElem? ho
        have := setList_step hw1 ho h1 l (fun i hi => by
          rcases h3 _ (siteRefs_mem.1 hi) with hm | hm
          · exact hw1.sites d hd a (refs_get? h1) i (siteRefs_mem.2 hm)
          · exact (x5 i hm.symm).2)
        exact Or.inl ⟨_, _, h2, h4, this.1, this.2⟩
      · exact Or.inr h
  | modify o entry v =>
    obtain ⟨x1, x2, x3, x4⟩ := alloc_spec w.heap v
    have hw1 := (ext_frame (os := w.objects) hw x1).1
    refine call_spec hw x1 o _ (fun e => modify e entry v) ?_
    intro d ho
    have key := modifyH_ok (w.heap.alloc v).1 d entry (w.heap.alloc v).2
    rw [x3] at key
    rcases key with ⟨h1, h2⟩ | h
    · have := setDict_step hw1 ho entry (w.heap.alloc v).2 (by
        intro a ha
        have fr := x4 a ha
        refine ⟨⟨fr.high, fun i hi => (fr.sites i hi).2⟩, ?_⟩
        intro d' hd' hm
        have hm' : a ∈ refs (w.heap.dict d') := by rw [← x1.dict (hw.bound d' hd')]; exact hm
        have := hw.lists d' hd' a hm'
        have := fr.low
        omega)
      refine Or.inl ⟨_, _, h1, h2, this.1, ?_⟩
      have h2 := this.2
      simp only [x3] at h2
      exact h2
    · exact Or.inr h

/-- C86, partial: in every program that makes its objects from texts or from dictionaries and `Site` objects made for them, and gives them
values made for the call, the objects are independent: each holds what the calls on it alone make of it.  Missing: dictionaries, lists and
`Site` objects given to several objects, for which the claim is false (`C86_violation_cells`, `C86_violation_dict`). -/
theorem C86_independent_partial (calls : List Call) (h : ∀ c ∈ calls, Unshared c) :
    (World.run {} calls).views = calls.foldl specCall [] := by
  have key : ∀ (cs : List Call) (w : World), Separate w → (∀ c ∈ cs, Unshared c) → (w.run cs).views = cs.foldl specCall w.views := by
    intro cs
    induction cs with
    | nil => intro w _ _; rfl
    | cons c cs ih =>
      intro w hw hc
      obtain ⟨h1, h2⟩ := step_spec hw c (hc c (by simp))
      show ((w.step c).run cs).views = _
      rw [ih (w.step c) h1 (fun x hx => hc x (by simp [hx])), h2]; rfl
  exact key calls {} ⟨List.nodup_nil, by simp, by simp, by simp, by simp, by simp⟩ h

/-- The dictionary of a structure. -/
def dictOf (cm : Str) (c : Cell) (ss : List Elem) : Entries :=
  [(c!"comment", .str cm), (c!"unitcell", .cell (some c)), (c!"sites", .sites ss)]

/-- C86 is false for `Site` objects given to two objects: the first construction converts a cartesian `Site` for its own cell, the second
one takes the result for direct coordinates in its own cell.  So the second object does not hold the given point, but the point that has
in its cell the same direct coordinates as the given one has in the first cell; and the `Site` of the caller has changed. -/
theorem C86_violation_cells (cm : Str) (a b : Cell) (s : Site) (hs : s.direct = false) (ha : a.toMatrix.det ≠ 0) :
    ∃ s', s'.direct = true ∧ dirToCart s'.position a = s.position ∧
      (World.run {} [.makeDict (dictOf cm a [.site s]),
          .makeDictOf [(c!"comment", .imm (.str cm)), (c!"unitcell", .imm (.cell (some b))), (c!"sites", .list 0)],
          .fromDict 0, .fromDict 1]).views = [dictOf cm a [.site s'], dictOf cm b [.site s']] := by
  obtain ⟨s', h1, h2⟩ := convertElem_ok ha s
  refine ⟨s', h2.direct, ?_, ?_⟩
  · have := h2.position
    rw [hs] at this
    simpa using this
  · have hd' : convertElem (some b) (.site s') = .ok (.site s') := by
      simp only [convertElem, h2.direct, if_true]
    simp [World.run, World.step, World.construct, Poscar.construct, dictOf, Heap.newDict, Heap.allocAll, Heap.alloc, Heap.allocElems,
      Heap.allocElem, fromDictH, Heap.dict, Dict.get?, convertRefs, convertRef, Heap.list, Heap.elem, cellOf, Heap.entries, Heap.val,
      Imm.toVal, h1, hd', validate, checkComment, checkCell, checkSites, argOr, lookup, World.views]

/-- Such a case: the point (1, 1, 1) becomes the point (2, 2, 2). -/
example : let s : Site := ⟨c!"si", ⟨1, 1, 1⟩, (true, true, true), none, none, false⟩
    let a : Cell := ⟨⟨1, 0, 0⟩, ⟨0, 1, 0⟩, ⟨0, 0, 1⟩⟩
    let b : Cell := ⟨⟨2, 0, 0⟩, ⟨0, 2, 0⟩, ⟨0, 0, 2⟩⟩
    a.toMatrix.det ≠ 0 ∧ dirToCart (⟨1, 1, 1⟩ : Vec) a = s.position ∧ dirToCart (⟨1, 1, 1⟩ : Vec) b = ⟨2, 2, 2⟩ := by
  refine ⟨?_, by decide +kernel, by decide +kernel⟩
  simp [M3.toMatrix, Matrix.det_fin_three]

/-- Constructing once more from a new dictionary whose sites are direct. -/
theorem construct_direct {h : Heap} {d : Nat} {cm : Str} {c : Cell} {l : List Site} (nd : NewDict {} h d)
    (he : h.entries d = dictOf cm c (l.map .site)) (hs : ∀ x ∈ l, x.direct = true) :
    ∃ h', Poscar.construct h d = (h', .ok ()) ∧ NewDict {} h' d ∧ h'.entries d = dictOf cm c (l.map .site) := by
  have hm : Res.mapM' (convertElem (some c)) (l.map .site) = .ok (l.map Elem.site) := by
    rw [Res.mapM'_eq_ok]
    apply List.forall₂_same.2
    intro x hx
    obtain ⟨y, hy, rfl⟩ := List.mem_map.1 hx
    simp only [convertElem, hs y hy, if_true]
  have hfd : fromDict (dictOf cm c (l.map .site)) = .ok (dictOf cm c (l.map .site)) := by
    have hc : cellOf (dictOf cm c (l.map .site)) = some c := by simp [cellOf, dictOf, Dict.get?]
    have hl : lookup (dictOf cm c (l.map .site)) c!"sites" = .ok (.sites (l.map .site)) := by simp [lookup, dictOf, Dict.get?]
    unfold fromDict
    rw [hl, Res.ok_bind, hc]
    simp only [hm, Res.ok_bind]
    simp [dictOf, Dict.set]
  rcases construct_spec nd with ⟨e', h1, h2, h3, h4⟩ | ⟨h1, -, -⟩
  · rw [he, hfd] at h1
    have h1 := Res.ok.inj h1
    refine ⟨(fromDictH h d).1, ?_, h4, by rw [h3, ← h1]⟩
    have hv : validate ((fromDictH h d).1.entries d) = .ok () := by
      rw [h3, ← h1]
      simp [validate, checkComment, checkCell, checkSites, argOr, lookup, dictOf, Dict.get?]
    unfold Poscar.construct
    cases hq : fromDictH h d with
    | mk a b =>
      rw [hq] at h2 hv
      have : b = .ok () := h2
      subst this
      simp only at hv ⊢
      rw [hv]
  · rw [he] at h1; exact absurd hfd (h1 _)

/-- C86 is false for a dictionary given to two objects: deleting the first site of the first object deletes the first site of the second
object as well, and of the dictionary of the caller. -/
theorem C86_violation_dict (cm : Str) (c : Cell) (s : Site) (ss : List Site) (hs : ∀ x ∈ s :: ss, x.direct = true) :
    (World.run {} [.makeDict (dictOf cm c ((s :: ss).map .site)), .fromDict 0, .fromDict 0]).views =
      [dictOf cm c ((s :: ss).map .site), dictOf cm c ((s :: ss).map .site)] ∧
    (World.run {} [.makeDict (dictOf cm c ((s :: ss).map .site)), .fromDict 0, .fromDict 0, .deleteSite 0 0]).views =
      [dictOf cm c (ss.map .site), dictOf cm c (ss.map .site)] ∧
    (World.run {} [.makeDict (dictOf cm c ((s :: ss).map .site)), .fromDict 0, .fromDict 0, .deleteSite 0 0]).heap.entries 0 =
      dictOf cm c (ss.map .site) := by
  obtain ⟨nd, he⟩ := newDict_spec {} (dictOf cm c ((s :: ss).map .site))
  have haddr : (Heap.newDict {} (dictOf cm c ((s :: ss).map .site))).2 = 0 := by
    show (Heap.allocAll {} _).1.dicts.length = 0
    rw [(allocAll_spec {} _).2.1]; rfl
  rw [haddr] at nd he
  generalize hh : (Heap.newDict {} (dictOf cm c ((s :: ss).map .site))).1 = h at nd he
  obtain ⟨h1, c1, nd1, he1⟩ := construct_direct nd he hs
  obtain ⟨h2, c2, nd2, he2⟩ := construct_direct nd1 he1 hs
  have hrun : World.run {} [.makeDict (dictOf cm c ((s :: ss).map .site)), .fromDict 0, .fromDict 0] = ⟨h2, [0, 0]⟩ := by
    simp only [World.run, List.foldl_cons, List.foldl_nil, World.step]
    simp only [hh, World.construct, c1, c2, List.nil_append, List.cons_append]
  refine ⟨by rw [hrun]; simp only [World.views, List.map_cons, List.map_nil, he2], ?_⟩
  have hrun2 : World.run {} [.makeDict (dictOf cm c ((s :: ss).map .site)), .fromDict 0, .fromDict 0, .deleteSite 0 0] =
      World.step ⟨h2, [0, 0]⟩ (.deleteSite 0 0) := by
    rw [← hrun]
    simp only [World.run, List.foldl_cons, List.foldl_nil]
  have hsep : Separate {} := ⟨List.nodup_nil, by simp, by simp, by simp, by simp, by simp⟩
  have hone : Separate ⟨h2, [0]⟩ := (add_object hsep nd2).1
  have hdel : deleteSite (dictOf cm c ((s :: ss).map .site)) 0 = .ok (dictOf cm c (ss.map .site)) := by
    have hn : ¬ ((0 : Int) > (((s :: ss).map Elem.site).length : Int) - 1) := by simp
    have hp : pyIndex 0 ((s :: ss).map Elem.site).length = some 0 := by simp [pyIndex]
    have hl : lookup (dictOf cm c ((s :: ss).map .site)) c!"sites" = .ok (.sites ((s :: ss).map .site)) := by
      simp [lookup, dictOf, Dict.get?]
    unfold deleteSite checkSites checkSiteNumber argOr
    rw [if_pos rfl, hl]
    simp only [Res.ok_bind, if_neg hn, hp]
    simp [dictOf, Dict.set]
  rcases deleteSiteH_ok h2 0 0 with ⟨a, l, d1, d2, d4, d3⟩ | ⟨-, d2⟩
  · rw [he2, hdel] at d3
    have hset := (Res.ok.inj d3)
    have hstep := (setList_step hone (o := 0) (d := 0) rfl d1 l (fun i hi =>
      hone.sites 0 (by simp) a (refs_get? d1) i (siteRefs_mem.2 (d4 _ (siteRefs_mem.1 hi))))).2
    have hent : ({ h2 with lists := h2.lists.set a l } : Heap).entries 0 = dictOf cm c (ss.map .site) := by
      simp only [World.views, List.map_cons, List.map_nil, List.set_cons_zero, List.cons.injEq, and_true] at hstep
      rw [hstep, he2, hset]
    have hst : World.step ⟨h2, [0, 0]⟩ (.deleteSite 0 0) = ⟨{ h2 with lists := h2.lists.set a l }, [0, 0]⟩ := by
      simp only [World.step, World.call, List.getElem?_cons_zero, d2]
    rw [hrun2, hst]
    exact ⟨by simp only [World.views, List.map_cons, List.map_nil, hent], hent⟩
  · rw [he2] at d2
    exact absurd hdel (d2 _)

/-- A program for `C86_independent_partial`: two objects from the same text, of which one loses its first site and gets a new cell, and one
from a dictionary with a cartesian `Site`. -/
example : let text : Call := .fromText { string := some c!"x\n1.0\n1 0 0\n0 1 0\n0 0 1\nSi\n2\nDirect\n0 0 0\n0.5 0.5 0.5\n" }
    let s (x : Rat) (d : Bool) : Elem := .site ⟨c!"si", ⟨x, x, x⟩, (true, true, true), none, none, d⟩
    let cell (x : Rat) : Cell := ⟨⟨x, 0, 0⟩, ⟨0, x, 0⟩, ⟨0, 0, x⟩⟩
    let calls : List Call := [text, text, .deleteSite 0 0, .modify 0 c!"unitcell" (.cell (some (cell 2))),
      .fromNewDict (dictOf c!"y" (cell 2) [s 1 false])]
    (∀ c ∈ calls, Unshared c) ∧
    (World.run {} calls).views = [dictOf c!"x" (cell 2) [s (1/2) true], dictOf c!"x" (cell 1) [s 0 true, s (1/2) true],
      dictOf c!"y" (cell 2) [s (1/2) true]] := by
  refine ⟨?_, by decide +kernel⟩
  intro c hc
  simp only [List.mem_cons, List.not_mem_nil, or_false] at hc
  rcases hc with rfl | rfl | rfl | rfl | rfl <;> trivial

end Verif.Poscar
