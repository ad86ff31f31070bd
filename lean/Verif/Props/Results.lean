import Verif.Model.Results
import Verif.Lemmas.Dict
/-! # C109: what the getters of the read-only parsers return -/
set_option autoImplicit false
namespace Verif.Results
open Verif

mutual
/-- The value reads as `d`: the caller sees these keys, in this order, with these values. -/
def Shows (h : Heap) (r : Ref) : Data → Prop
  | .leaf l => r = .leaf l
  | .node items => ∃ a c, r = .addr a ∧ h[a]? = some c ∧ ShowsItems h c items
/-- The same for the items. -/
def ShowsItems (h : Heap) (c : Cell) : List (Key × Data) → Prop
  | [] => c = []
  | (k, d) :: rest => ∃ r c', c = (k, r) :: c' ∧ Shows h r d ∧ ShowsItems h c' rest
end

/-- `x = o.field` delivers this. -/
def Returns (w : World) (o : Nat) (field : Str) (r : Ref) : Prop := ∃ fs, w.objects[o]? = some fs ∧ fs.lookup field = some r

/-- Nothing is changed through a variable taken from object `o`. -/
def Respects (o : Nat) : World → List Call → Prop
  | _, [] => True
  | w, c :: l => (∀ x k v, c = .setItem x k v → ∀ p, w.vars[x]? = some p → p.1 ≠ o) ∧ Respects o (w.step c) l

/-! ### regions -/

/-- `S` is closed: what a cell of `S` refers to is in `S`. -/
def Closed (h : Heap) (S : Nat → Prop) : Prop := ∀ a c, S a → h[a]? = some c → ∀ k b, (k, Ref.addr b) ∈ c → S b

/-- A reference into `S`. -/
def Into (S : Nat → Prop) (r : Ref) : Prop := ∀ b, r = .addr b → S b

mutual
theorem shows_congr {h h' : Heap} {S : Nat → Prop} (hc : Closed h S) (he : ∀ a, S a → h'[a]? = h[a]?) :
    ∀ (d : Data) (r : Ref), Into S r → (Shows h' r d ↔ Shows h r d)
  | .leaf l, r, _ => Iff.rfl
  | .node items, r, hr => by
    simp only [Shows]
    constructor
    · rintro ⟨a, c, rfl, h1, h2⟩
      have ha := hr a rfl
      rw [he a ha] at h1
      exact ⟨a, c, rfl, h1, (showsItems_congr hc he items c fun k b hb => hc a c ha h1 k b hb).1 h2⟩
    · rintro ⟨a, c, rfl, h1, h2⟩
      have ha := hr a rfl
      exact ⟨a, c, rfl, (he a ha).trans h1, (showsItems_congr hc he items c fun k b hb => hc a c ha h1 k b hb).2 h2⟩
theorem showsItems_congr {h h' : Heap} {S : Nat → Prop} (hc : Closed h S) (he : ∀ a, S a → h'[a]? = h[a]?) :
    ∀ (items : List (Key × Data)) (c : Cell), (∀ k b, (k, Ref.addr b) ∈ c → S b) → (ShowsItems h' c items ↔ ShowsItems h c items)
  | [], c, _ => Iff.rfl
  | (k, d) :: rest, c, hr => by
    simp only [ShowsItems]
    constructor
    · rintro ⟨r, c', rfl, h1, h2⟩
      exact ⟨r, c', rfl, (shows_congr hc he d r fun b hb => hr k b (by simp [hb])).1 h1,
        (showsItems_congr hc he rest c' fun k b hb => hr k b (by simp [hb])).1 h2⟩
    · rintro ⟨r, c', rfl, h1, h2⟩
      exact ⟨r, c', rfl, (shows_congr hc he d r fun b hb => hr k b (by simp [hb])).2 h1,
        (showsItems_congr hc he rest c' fun k b hb => hr k b (by simp [hb])).2 h2⟩
end

/-- Every reference in the cells from `n` on stays between `n` and the end. -/
def Above (n : Nat) (h : Heap) : Prop := ∀ a c, n ≤ a → h[a]? = some c → ∀ k b, (k, Ref.addr b) ∈ c → n ≤ b ∧ b < h.length

theorem Above.into {n : Nat} {h : Heap} (ha : Above n h) : Closed h fun a => n ≤ a ∧ a < h.length :=
  fun a c hS hc k b hb => ha a c hS.1 hc k b hb

theorem Above.append {n : Nat} {h : Heap} (ha : Above n h) (c : Cell) (hc : ∀ k b, (k, Ref.addr b) ∈ c → n ≤ b ∧ b < h.length) : Above n (h ++ [c]) := by
  intro a c' hn h1 k b hb
  rw [List.length_append]
  rw [List.getElem?_append] at h1
  split at h1
  · have := ha a c' hn h1 k b hb; exact ⟨this.1, by omega⟩
  · rename_i hlt
    have h0 : a - h.length = 0 := by
      by_contra hne
      rw [List.getElem?_eq_none (by simp; omega)] at h1
      cases h1
    rw [h0] at h1
    cases h1
    have := hc k b hb; exact ⟨this.1, by omega⟩

mutual
/-- Building a value adds cells at the end only; they refer to each other only; the value reads as what was built. -/
theorem alloc_spec (n : Nat) : ∀ (d : Data) (h : Heap), n ≤ h.length → Above n h →
    (∃ t, (alloc h d).1 = h ++ t) ∧ Above n (alloc h d).1 ∧
    Into (fun b => n ≤ b ∧ b < (alloc h d).1.length) (alloc h d).2 ∧ Shows (alloc h d).1 (alloc h d).2 d
  | .leaf l, h, _, ha => ⟨⟨[], by simp [alloc]⟩, ha, (fun b hb => by simp [alloc] at hb), by simp [alloc, Shows]⟩
  | .node items, h, hn, ha => by
    obtain ⟨⟨t, ht⟩, h2, h3, h4⟩ := allocItems_spec n items h hn ha
    simp only [alloc]
    have h5 : Above n ((allocItems h items).1 ++ [(allocItems h items).2]) := h2.append _ h3
    refine ⟨⟨t ++ [(allocItems h items).2], by rw [ht]; simp⟩, h5, ?_, ?_⟩
    · intro b hb
      cases hb
      refine ⟨?_, by simp⟩
      rw [ht]; simp; omega
    · simp only [Shows]
      refine ⟨_, (allocItems h items).2, rfl, by simp, ?_⟩
      refine (showsItems_congr h2.into ?_ items _ h3).2 h4
      intro a hS
      rw [List.getElem?_append_left hS.2]
theorem allocItems_spec (n : Nat) : ∀ (items : List (Key × Data)) (h : Heap), n ≤ h.length → Above n h →
    (∃ t, (allocItems h items).1 = h ++ t) ∧ Above n (allocItems h items).1 ∧
    (∀ k b, (k, Ref.addr b) ∈ (allocItems h items).2 → n ≤ b ∧ b < (allocItems h items).1.length) ∧
    ShowsItems (allocItems h items).1 (allocItems h items).2 items
  | [], h, _, ha => ⟨⟨[], by simp [allocItems]⟩, ha, (fun k b hb => by simp [allocItems] at hb), by simp [allocItems, ShowsItems]⟩
  | (k, d) :: rest, h, hn, ha => by
    obtain ⟨⟨t, ht⟩, h2, h3, h4⟩ := alloc_spec n d h hn ha
    have hn' : n ≤ (alloc h d).1.length := by rw [ht]; simp; omega
    obtain ⟨⟨t', ht'⟩, g2, g3, g4⟩ := allocItems_spec n rest (alloc h d).1 hn' h2
    simp only [allocItems]
    refine ⟨⟨t ++ t', by rw [ht', ht]; simp⟩, g2, ?_, ?_⟩
    · intro k' b hb
      rcases List.mem_cons.1 hb with hb | hb
      · have e := (Prod.mk.inj hb).2.symm
        have := h3 b e
        refine ⟨this.1, ?_⟩
        rw [ht', List.length_append]; omega
      · exact g3 k' b hb
    · simp only [ShowsItems]
      refine ⟨_, _, rfl, ?_, g4⟩
      refine (shows_congr h2.into ?_ d _ h3).2 h4
      intro a hS
      rw [ht', List.getElem?_append_left hS.2]
end

theorem allocFields_spec (n : Nat) : ∀ (fs : List (Str × Data)) (h : Heap), n ≤ h.length → Above n h →
    (∃ t, (allocFields h fs).1 = h ++ t) ∧ Above n (allocFields h fs).1 ∧
    (∀ f b, (f, Ref.addr b) ∈ (allocFields h fs).2 → n ≤ b ∧ b < (allocFields h fs).1.length) ∧
    (∀ f d, fs.lookup f = some d → ∃ r, (allocFields h fs).2.lookup f = some r ∧ Shows (allocFields h fs).1 r d)
  | [], h, _, ha => ⟨⟨[], by simp [allocFields]⟩, ha, fun k b hb => by simp [allocFields] at hb, fun f d hd => by simp at hd⟩
  | (k, d) :: rest, h, hn, ha => by
    obtain ⟨⟨t, ht⟩, h2, h3, h4⟩ := alloc_spec n d h hn ha
    have hn' : n ≤ (alloc h d).1.length := by rw [ht]; simp; omega
    obtain ⟨⟨t', ht'⟩, g2, g3, g4⟩ := allocFields_spec n rest (alloc h d).1 hn' h2
    simp only [allocFields]
    refine ⟨⟨t ++ t', by rw [ht', ht]; simp⟩, g2, ?_, ?_⟩
    · intro k' b hb
      rcases List.mem_cons.1 hb with hb | hb
      · have e := (Prod.mk.inj hb).2.symm
        have := h3 b e
        refine ⟨this.1, ?_⟩
        rw [ht', List.length_append]; omega
      · exact g3 k' b hb
    · intro f d' hf
      rw [List.lookup_cons] at hf ⊢
      by_cases hk : f == k
      · simp only [hk] at hf ⊢
        cases hf
        refine ⟨_, rfl, ?_⟩
        refine (shows_congr h2.into ?_ d _ h3).2 h4
        intro a hS
        rw [ht', List.getElem?_append_left hS.2]
      · simp only [Bool.not_eq_true] at hk
        simp only [hk] at hf ⊢
        exact g4 f d' hf

/-! ### the invariant -/

/-- Every address belongs to one object; nothing of an object refers to another one. -/
structure Separate (w : World) (own : Nat → Nat) : Prop where
  cells : ∀ a c, w.heap[a]? = some c → ∀ k b, (k, Ref.addr b) ∈ c → b < w.heap.length ∧ own b = own a
  objects : ∀ (o : Nat) fs, w.objects[o]? = some fs → ∀ f b, (f, Ref.addr b) ∈ fs → b < w.heap.length ∧ own b = o
  vars : ∀ o b, (o, Ref.addr b) ∈ w.vars → b < w.heap.length ∧ own b = o

theorem lookup_mem {α β} [BEq α] [LawfulBEq α] {l : List (α × β)} {a : α} {b : β} (h : l.lookup a = some b) : (a, b) ∈ l := by
  induction l with
  | nil => simp at h
  | cons p l ih =>
    obtain ⟨x, y⟩ := p
    rw [List.lookup_cons] at h
    by_cases hx : a == x
    · simp only [hx] at h
      cases h
      simp [eq_of_beq hx]
    · simp only [Bool.not_eq_true] at hx
      simp only [hx] at h
      exact List.mem_cons_of_mem _ (ih h)

theorem replace_addr {c : Cell} {k : Key} {v : Leaf} {k' : Key} {b : Nat} (h : (k', Ref.addr b) ∈ Cell.replace c k (.leaf v)) : (k', Ref.addr b) ∈ c := by
  obtain ⟨p, hp, e⟩ := List.mem_map.1 h
  by_cases hk : p.1 = k
  · rw [if_pos hk] at e; cases e
  · rw [if_neg hk] at e; exact e ▸ hp

theorem Separate.step {w : World} {own : Nat → Nat} (hs : Separate w own) (c : Call) :
    ∃ own', Separate (w.step c) own' ∧ ∀ a, a < w.heap.length → own' a = own a := by
  cases c with
  | make fs =>
    obtain ⟨⟨t, ht⟩, h2, h3, -⟩ := allocFields_spec w.heap.length fs w.heap (Nat.le_refl _)
      (fun a c hn hc => by rw [List.getElem?_eq_none hn] at hc; cases hc)
    refine ⟨fun a => if a < w.heap.length then own a else w.objects.length, ⟨?_, ?_, ?_⟩, fun a ha => if_pos ha⟩
    · intro a c hc k b hb
      simp only [World.step] at hc ⊢
      by_cases ha : a < w.heap.length
      · have hc' : w.heap[a]? = some c := by rw [ht, List.getElem?_append_left ha] at hc; exact hc
        obtain ⟨h1, h4⟩ := hs.cells a c hc' k b hb
        refine ⟨by rw [ht, List.length_append]; omega, ?_⟩
        rw [if_pos h1, if_pos ha, h4]
      · obtain ⟨h1, h4⟩ := h2 a c (by omega) hc k b hb
        exact ⟨h4, by rw [if_neg (by omega), if_neg ha]⟩
    · intro o fs' ho f b hb
      simp only [World.step] at ho ⊢
      rw [List.getElem?_append] at ho
      split at ho
      · obtain ⟨h1, h4⟩ := hs.objects o fs' ho f b hb
        exact ⟨by rw [ht, List.length_append]; omega, by rw [if_pos h1, h4]⟩
      · rename_i hlt
        have h0 : o - w.objects.length = 0 := by
          by_contra hne
          rw [List.getElem?_eq_none (by simp; omega)] at ho
          cases ho
        rw [h0] at ho
        cases ho
        obtain ⟨h1, h4⟩ := h3 f b hb
        exact ⟨h4, by rw [if_neg (by omega)]; omega⟩
    · intro o b hb
      obtain ⟨h1, h4⟩ := hs.vars o b hb
      exact ⟨by simp only [World.step]; rw [ht, List.length_append]; omega, by rw [if_pos h1, h4]⟩
  | get o f =>
    refine ⟨own, ?_, fun _ _ => rfl⟩
    simp only [World.step]
    split
    · rename_i r hr
      refine ⟨hs.cells, hs.objects, ?_⟩
      intro o' b hb
      rcases List.mem_append.1 hb with hb | hb
      · exact hs.vars o' b hb
      · simp only [List.mem_singleton] at hb
        cases hb
        obtain ⟨fs, h1, h2⟩ := Option.bind_eq_some_iff.1 hr
        exact hs.objects o fs h1 f b (lookup_mem h2)
    · exact hs
  | item x k =>
    refine ⟨own, ?_, fun _ _ => rfl⟩
    simp only [World.step]
    split
    · rename_i o a hx
      split
      · rename_i r hr
        refine ⟨hs.cells, hs.objects, ?_⟩
        intro o' b hb
        rcases List.mem_append.1 hb with hb | hb
        · exact hs.vars o' b hb
        · simp only [List.mem_singleton] at hb
          cases hb
          obtain ⟨c, h1, h2⟩ := Option.bind_eq_some_iff.1 hr
          obtain ⟨h3, h4⟩ := hs.cells a c h1 k b (lookup_mem h2)
          exact ⟨h3, h4.trans (hs.vars o a (List.mem_of_getElem? hx)).2⟩
      · exact hs
    · exact hs
  | setItem x k v =>
    refine ⟨own, ?_, fun _ _ => rfl⟩
    simp only [World.step]
    split
    · rename_i o a hx
      refine ⟨?_, ?_, ?_⟩
      · intro a' c hc k' b hb
        simp only [List.length_modify]
        rw [List.getElem?_modify] at hc
        cases hg : w.heap[a']? with
        | none => rw [hg] at hc; cases hc
        | some c0 =>
          rw [hg] at hc
          by_cases ha : a = a'
          · simp only [ha, if_true, Option.map_eq_map, Option.map_some, Option.some.injEq] at hc
            exact hs.cells a' c0 hg k' b (replace_addr (hc ▸ hb))
          · simp only [ha, if_false, Option.map_eq_map, Option.map_some, id, Option.some.injEq] at hc
            exact hs.cells a' c0 hg k' b (hc ▸ hb)
      · intro o' fs ho f b hb
        simp only [List.length_modify]
        exact hs.objects o' fs ho f b hb
      · intro o' b hb
        simp only [List.length_modify]
        exact hs.vars o' b hb
    · exact hs

theorem run_separate (l : List Call) (w : World) (own : Nat → Nat) (hs : Separate w own) : ∃ own', Separate (w.run l) own' := by
  induction l generalizing w own with
  | nil => exact ⟨own, hs⟩
  | cons c l ih =>
    obtain ⟨own', h1, -⟩ := hs.step c
    exact ih _ own' h1

theorem Separate.empty : Separate {} fun _ => 0 :=
  ⟨fun a c h => by simp at h, fun o fs h => by simp at h, fun o b h => by simp at h⟩

/-- What belongs to an object is not changed by a call that changes nothing through its variables. -/
theorem step_keeps {w : World} {own : Nat → Nat} (hs : Separate w own) (c : Call) (o : Nat)
    (hc : ∀ x k v, c = .setItem x k v → ∀ p, w.vars[x]? = some p → p.1 ≠ o) (a : Nat) (ha : a < w.heap.length) (ho : own a = o) :
    (w.step c).heap[a]? = w.heap[a]? := by
  cases c with
  | make fs =>
    obtain ⟨⟨t, ht⟩, -⟩ := allocFields_spec w.heap.length fs w.heap (Nat.le_refl _)
      (fun a c hn hc => by rw [List.getElem?_eq_none hn] at hc; cases hc)
    simp only [World.step]
    rw [ht, List.getElem?_append_left ha]
  | get o' f => simp only [World.step]; split <;> rfl
  | item x k =>
    simp only [World.step]
    split
    · split <;> rfl
    · rfl
  | setItem x k v =>
    simp only [World.step]
    split
    · rename_i o' b hx
      have hne : o' ≠ o := hc x k v rfl _ hx
      have := (hs.vars o' b (List.mem_of_getElem? hx)).2
      have hab : ¬ b = a := by rintro rfl; exact hne (this.symm.trans ho)
      simp only [List.getElem?_modify, if_neg hab]
      cases w.heap[a]? <;> rfl
    · rfl

theorem step_objects (w : World) (c : Call) (o : Nat) (ho : o < w.objects.length) : (w.step c).objects[o]? = w.objects[o]? := by
  cases c with
  | make fs => simp only [World.step]; rw [List.getElem?_append_left ho]
  | get o' f => simp only [World.step]; split <;> rfl
  | item x k =>
    simp only [World.step]
    split
    · split <;> rfl
    · rfl
  | setItem x k v => simp only [World.step]; split <;> rfl

theorem step_len (w : World) (c : Call) : w.heap.length ≤ (w.step c).heap.length ∧ w.objects.length ≤ (w.step c).objects.length := by
  cases c with
  | make fs =>
    obtain ⟨⟨t, ht⟩, -⟩ := allocFields_spec w.heap.length fs w.heap (Nat.le_refl _)
      (fun a c hn hc => by rw [List.getElem?_eq_none hn] at hc; cases hc)
    simp only [World.step]
    rw [ht]
    simp
  | get o' f => simp only [World.step]; split <;> exact ⟨Nat.le_refl _, Nat.le_refl _⟩
  | item x k =>
    simp only [World.step]
    split
    · split <;> exact ⟨Nat.le_refl _, Nat.le_refl _⟩
    · exact ⟨Nat.le_refl _, Nat.le_refl _⟩
  | setItem x k v => simp only [World.step]; split <;> simp

theorem run_keeps (l : List Call) (w : World) (own : Nat → Nat) (hs : Separate w own) (o : Nat) (ho : o < w.objects.length)
    (hr : Respects o w l) (f : Str) (r : Ref) (d : Data) (hf : Returns w o f r) (hd : Shows w.heap r d) :
    Returns (w.run l) o f r ∧ Shows (w.run l).heap r d := by
  induction l generalizing w own with
  | nil => exact ⟨hf, hd⟩
  | cons c l ih =>
    obtain ⟨own', h1, h2⟩ := hs.step c
    refine ih (w.step c) own' h1 (Nat.lt_of_lt_of_le ho (step_len w c).2) hr.2 ?_ ?_
    · obtain ⟨fs, h3, h4⟩ := hf
      exact ⟨fs, (step_objects w c o ho).trans h3, h4⟩
    · have hcl : Closed w.heap fun a => a < w.heap.length ∧ own a = o := by
        intro a c' hS hc k b hb
        obtain ⟨h5, h6⟩ := hs.cells a c' hc k b hb
        exact ⟨h5, h6.trans hS.2⟩
      refine (shows_congr hcl ?_ d r ?_).2 hd
      · intro a hS
        exact step_keeps hs c o hr.1 a hS.1 hS.2
      · intro b hb
        obtain ⟨fs, h3, h4⟩ := hf
        subst hb
        exact hs.objects o fs h3 f b (lookup_mem h4)

/-- C109: whatever a program does with any number of parser objects, every getter of an object returns what was parsed, always the same Python object, as
long as the program changes nothing in place through values taken from this object. Changes through values of other objects never matter. Missing: changes in place, which are seen by later calls (`C109_violation`). -/
theorem C109_results_partial (pre post : List Call) (fields : List (Str × Data)) (f : Str) (d : Data) (hf : fields.lookup f = some d) :
    let w := World.run {} (pre ++ [.make fields])
    let o := (World.run {} pre).objects.length
    Respects o w post → ∃ r, Returns w o f r ∧ Returns (w.run post) o f r ∧ Shows (w.run post).heap r d := by
  intro w o hr
  have e : w = (World.run {} pre).step (.make fields) := List.foldl_append
  obtain ⟨own, hs⟩ := run_separate pre {} _ Separate.empty
  obtain ⟨own', hs', -⟩ := hs.step (.make fields)
  obtain ⟨-, -, -, h4⟩ := allocFields_spec (World.run {} pre).heap.length fields (World.run {} pre).heap (Nat.le_refl _)
    (fun a c hn hc => by rw [List.getElem?_eq_none hn] at hc; cases hc)
  obtain ⟨r, h5, h6⟩ := h4 f d hf
  have hret : Returns w o f r := by
    refine ⟨(allocFields (World.run {} pre).heap fields).2, ?_, h5⟩
    rw [e]
    simp only [World.step]
    rw [List.getElem?_append_right (Nat.le_refl _)]
    simp [o]
  have hlen : o < w.objects.length := by rw [e]; simp [World.step, o]
  rw [← e] at hs'
  have hsh : Shows w.heap r d := by rw [e]; exact h6
  exact ⟨r, hret, run_keeps post w own' hs' o hlen hr f r d hret hsh⟩

/-- C109: numbers, texts and truth values a getter returns stay as they were parsed, whatever the program does, changes included. -/
theorem C109_immutable (pre post : List Call) (fields : List (Str × Data)) (f : Str) (l : Leaf) (hf : fields.lookup f = some (.leaf l)) :
    Returns (World.run {} (pre ++ .make fields :: post)) (World.run {} pre).objects.length f (.leaf l) := by
  have e : World.run {} (pre ++ .make fields :: post) = ((World.run {} pre).step (.make fields)).run post := by
    unfold World.run; rw [List.foldl_append]; rfl
  rw [e]
  obtain ⟨-, -, -, h4⟩ := allocFields_spec (World.run {} pre).heap.length fields (World.run {} pre).heap (Nat.le_refl _)
    (fun a c hn hc => by rw [List.getElem?_eq_none hn] at hc; cases hc)
  obtain ⟨r, h5, h6⟩ := h4 f (.leaf l) hf
  simp only [Shows] at h6
  subst h6
  have h0 : Returns ((World.run {} pre).step (.make fields)) (World.run {} pre).objects.length f (.leaf l) := by
    refine ⟨(allocFields (World.run {} pre).heap fields).2, ?_, h5⟩
    simp only [World.step]
    rw [List.getElem?_append_right (Nat.le_refl _)]
    simp
  have hlen : (World.run {} pre).objects.length < ((World.run {} pre).step (.make fields)).objects.length := by simp [World.step]
  clear e h4 h5 hf
  generalize (World.run {} pre).step (.make fields) = w at h0 hlen
  generalize (World.run {} pre).objects.length = o at h0 hlen
  induction post generalizing w with
  | nil => exact h0
  | cons c post ih =>
    refine ih (w.step c) ?_ (Nat.lt_of_lt_of_le hlen (step_len w c).2)
    obtain ⟨fs, h1, h2⟩ := h0
    exact ⟨fs, (step_objects w c o hlen).trans h1, h2⟩

/-! ### a change in place is seen by later calls of the getter -/

/-- What is contained in a dictionary was built before it. -/
def Down (h : Heap) : Prop := ∀ a c, h[a]? = some c → ∀ k b, (k, Ref.addr b) ∈ c → b < a

theorem Down.above {h : Heap} (hd : Down h) : Above 0 h := by
  intro a c _ hc k b hb
  have := hd a c hc k b hb
  have := (List.getElem?_eq_some_iff.1 hc).1
  omega

theorem Down.append {h : Heap} (hd : Down h) (c : Cell) (hc : ∀ k b, (k, Ref.addr b) ∈ c → b < h.length) : Down (h ++ [c]) := by
  intro a c' h1 k b hb
  rw [List.getElem?_append] at h1
  split at h1
  · exact hd a c' h1 k b hb
  · rename_i hlt
    have h0 : a - h.length = 0 := by
      by_contra hne
      rw [List.getElem?_eq_none (by simp; omega)] at h1
      cases h1
    rw [h0] at h1
    cases h1
    have := hc k b hb; omega

mutual
theorem alloc_down : ∀ (d : Data) (h : Heap), Down h → Down (alloc h d).1
  | .leaf l, h, hd => hd
  | .node items, h, hd => by
    simp only [alloc]
    refine (allocItems_down items h hd).append _ fun k b hb => ?_
    exact ((allocItems_spec 0 items h (Nat.zero_le _) hd.above).2.2.1 k b hb).2
theorem allocItems_down : ∀ (items : List (Key × Data)) (h : Heap), Down h → Down (allocItems h items).1
  | [], h, hd => hd
  | (k, d) :: rest, h, hd => by
    simp only [allocItems]
    exact allocItems_down rest _ (alloc_down d h hd)
end

theorem allocFields_down : ∀ (fs : List (Str × Data)) (h : Heap), Down h → Down (allocFields h fs).1
  | [], h, hd => hd
  | (k, d) :: rest, h, hd => by
    simp only [allocFields]
    exact allocFields_down rest _ (alloc_down d h hd)

theorem step_down (w : World) (hd : Down w.heap) (c : Call) : Down (w.step c).heap := by
  cases c with
  | make fs => exact allocFields_down fs _ hd
  | get o' f => simp only [World.step]; split <;> exact hd
  | item x k =>
    simp only [World.step]
    split
    · split <;> exact hd
    · exact hd
  | setItem x k v =>
    simp only [World.step]
    split
    · rename_i o' b' hx
      intro a c' h1 k' b hb
      simp only [List.getElem?_modify] at h1
      cases hc : w.heap[a]? with
      | none => rw [hc] at h1; cases h1
      | some c =>
        rw [hc] at h1
        simp only [Option.map_eq_map, Option.map_some] at h1
        by_cases hab : b' = a
        · rw [if_pos hab] at h1
          cases h1
          obtain ⟨⟨k2, r2⟩, hq, h2⟩ := List.mem_map.1 hb
          split at h2
          · cases h2
          · cases h2; exact hd a c hc k' b hq
        · rw [if_neg hab] at h1
          cases h1
          exact hd a _ hc k' b hb
    · exact hd

theorem run_down (l : List Call) (w : World) (hd : Down w.heap) : Down (w.run l).heap := by
  induction l generalizing w with
  | nil => exact hd
  | cons c l ih => exact ih _ (step_down w hd c)

/-- The same value with one item replaced. -/
def withItem (items : List (Key × Data)) (k : Key) (v : Leaf) : Data := .node (items.map fun p => if p.1 = k then (k, .leaf v) else p)

theorem showsItems_replace {h : Heap} (k : Key) (v : Leaf) : ∀ (items : List (Key × Data)) (c : Cell), ShowsItems h c items →
    ShowsItems h (Cell.replace c k (.leaf v)) (items.map fun p => if p.1 = k then (k, .leaf v) else p)
  | [], c, hs => by simp only [ShowsItems] at hs; subst hs; simp [Cell.replace, ShowsItems]
  | (k', d) :: rest, c, hs => by
    simp only [ShowsItems] at hs
    obtain ⟨r, c', rfl, h1, h2⟩ := hs
    have ih := showsItems_replace k v rest c' h2
    simp only [Cell.replace, List.map_cons] at ih ⊢
    by_cases hk : k' = k
    · simp only [if_pos hk, ShowsItems]
      exact ⟨_, _, rfl, rfl, ih⟩
    · simp only [if_neg hk, ShowsItems]
      exact ⟨_, _, rfl, h1, ih⟩

mutual
/-- A value reads in one way only. -/
theorem shows_unique {h : Heap} : ∀ (d d' : Data) (r : Ref), Shows h r d → Shows h r d' → d = d'
  | .leaf l, .leaf l', r, h1, h2 => by simp only [Shows] at h1 h2; rw [h1] at h2; cases h2; rfl
  | .leaf l, .node items', r, h1, h2 => by simp only [Shows] at h1 h2; obtain ⟨a, c, e, -⟩ := h2; rw [h1] at e; cases e
  | .node items, .leaf l', r, h1, h2 => by simp only [Shows] at h1 h2; obtain ⟨a, c, e, -⟩ := h1; rw [h2] at e; cases e
  | .node items, .node items', r, h1, h2 => by
    simp only [Shows] at h1 h2
    obtain ⟨a, c, rfl, h3, h4⟩ := h1
    obtain ⟨a', c', e, h5, h6⟩ := h2
    cases e
    rw [h3] at h5
    cases h5
    rw [showsItems_unique items items' c h4 h6]
theorem showsItems_unique {h : Heap} : ∀ (d d' : List (Key × Data)) (c : Cell), ShowsItems h c d → ShowsItems h c d' → d = d'
  | [], [], c, h1, h2 => rfl
  | [], (k, d) :: rest, c, h1, h2 => by simp only [ShowsItems] at h1 h2; obtain ⟨r, c', e, -⟩ := h2; rw [h1] at e; cases e
  | (k, d) :: rest, [], c, h1, h2 => by simp only [ShowsItems] at h1 h2; obtain ⟨r, c', e, -⟩ := h1; rw [h2] at e; cases e
  | (k, d) :: rest, (k', d') :: rest', c, h1, h2 => by
    simp only [ShowsItems] at h1 h2
    obtain ⟨r, c1, rfl, h3, h4⟩ := h1
    obtain ⟨r', c2, e, h5, h6⟩ := h2
    cases e
    rw [shows_unique d d' r h3 h5, showsItems_unique rest rest' c1 h4 h6]
end

/-- C109: a change in place of a result (`x = o.get_...(); x[k] = v`) is a change of the object: from then on the getter returns the changed value, and
no longer what was parsed. -/
theorem C109_violation (pre : List Call) (fields : List (Str × Data)) (f : Str) (items : List (Key × Data)) (hf : fields.lookup f = some (.node items))
    (k : Key) (old : Data) (hk : (k, old) ∈ items) (v : Leaf) (hv : old ≠ .leaf v) :
    let o := (World.run {} pre).objects.length
    let x := (World.run {} pre).vars.length
    let w := World.run {} (pre ++ [.make fields, .get o f, .setItem x k v])
    ∃ r, Returns w o f r ∧ Shows w.heap r (withItem items k v) ∧ ¬ Shows w.heap r (.node items) := by
  intro o x w
  set w0 := World.run {} pre with hw0
  have hdown : Down w0.heap := run_down pre {} (by intro a c h1; simp at h1)
  have e : w = ((w0.step (.make fields)).step (.get o f)).step (.setItem x k v) := by
    simp only [w, World.run, List.foldl_append, List.foldl_cons, List.foldl_nil, hw0]
  obtain ⟨-, -, -, h4⟩ := allocFields_spec w0.heap.length fields w0.heap (Nat.le_refl _)
    (fun a c hn hc => by rw [List.getElem?_eq_none hn] at hc; cases hc)
  have hd1 := allocFields_down fields _ hdown
  obtain ⟨r, h5, h6⟩ := h4 f _ hf
  simp only [Shows] at h6
  obtain ⟨a, c, rfl, h7, h8⟩ := h6
  have e1 : ((w0.objects ++ [(allocFields w0.heap fields).2])[o]?) = some (allocFields w0.heap fields).2 := by
    rw [List.getElem?_append_right (Nat.le_refl _)]; simp [o]
  have e2 : ((w0.vars ++ [(o, Ref.addr a)])[x]?) = some (o, Ref.addr a) := by
    rw [List.getElem?_append_right (Nat.le_refl _)]; simp [x]
  have e3 : w = { heap := (allocFields w0.heap fields).1.modify a fun c => Cell.replace c k (.leaf v),
                  objects := w0.objects ++ [(allocFields w0.heap fields).2], vars := w0.vars ++ [(o, Ref.addr a)] } := by
    rw [e]
    simp only [World.step, e1, Option.bind_some, h5, e2]
  have hshow : Shows w.heap (.addr a) (withItem items k v) := by
    rw [e3]
    simp only [withItem, Shows]
    refine ⟨a, Cell.replace c k (.leaf v), rfl, by simp [List.getElem?_modify, h7], ?_⟩
    have h9 := showsItems_replace k v items c h8
    refine (showsItems_congr (S := fun b => b < a) (h := (allocFields w0.heap fields).1) ?_ ?_ _ _ ?_).2 h9
    · intro a' c' hS hc k' b hb
      exact Nat.lt_trans (hd1 a' c' hc k' b hb) hS
    · intro a' hS
      have : ¬ a = a' := by omega
      simp only [List.getElem?_modify, if_neg this]
      cases (allocFields w0.heap fields).1[a']? <;> rfl
    · intro k' b hb
      obtain ⟨⟨k2, r2⟩, hq, h2⟩ := List.mem_map.1 hb
      split at h2
      · cases h2
      · cases h2; exact hd1 a c h7 k' b hq
  refine ⟨.addr a, ?_, hshow, ?_⟩
  · rw [e3]; exact ⟨_, e1, h5⟩
  · intro hsame
    have h9 := shows_unique _ _ _ hshow hsame
    simp only [withItem, Data.node.injEq] at h9
    obtain ⟨i, hi, hi2⟩ := List.getElem_of_mem hk
    have h10 : (items.map fun p => if p.1 = k then (k, Data.leaf v) else p)[i]? = items[i]? := by rw [h9]
    rw [List.getElem?_map, List.getElem?_eq_getElem hi, hi2] at h10
    simp at h10
    exact hv h10.symm

/-- Two objects; a change through the first leaves the second alone. -/
example : ∃ r, Returns (World.run {} [.make [(c!"dos", listOf numOf [1, 2])], .make [(c!"dos", listOf numOf [1, 2])], .get 0 c!"dos",
      .setItem 0 (.index 0) (.num 5)]) 1 c!"dos" r ∧
    Shows (World.run {} [.make [(c!"dos", listOf numOf [1, 2])], .make [(c!"dos", listOf numOf [1, 2])], .get 0 c!"dos",
      .setItem 0 (.index 0) (.num 5)]).heap r (listOf numOf [1, 2]) := by
  obtain ⟨r, -, h1, h2⟩ := C109_results_partial [.make [(c!"dos", listOf numOf [1, 2])]]
    [.get 0 c!"dos", .setItem 0 (.index 0) (.num 5)] [(c!"dos", listOf numOf [1, 2])] c!"dos" (listOf numOf [1, 2]) rfl ⟨(by
      intro x k v h; cases h), (by
      intro x k v h p hp
      cases h
      have : p = (0, .addr 0) := by
        have e : (World.step (World.run {} ([.make [(c!"dos", listOf numOf [1, 2])]] ++ [.make [(c!"dos", listOf numOf [1, 2])]])) (.get 0 c!"dos")).vars
          = [(0, .addr 0)] := by decide +kernel
        rw [e] at hp
        simpa using hp.symm
      rw [this]; decide +kernel), trivial⟩
  exact ⟨r, h1, h2⟩

/-- A charge density of one plane with one row of two numbers; the first program changes nothing, the second takes the magnetization only. -/
example (d : Chgcar.Data) (h : d.magnetization = .components [] [] []) (post : List Call)
    (hr : Respects 0 (World.run {} ([] ++ [.make (chgcarFields d)])) post) :
    ∃ r, Returns ((World.run {} ([] ++ [.make (chgcarFields d)])).run post) 0 c!"magnetization_density" r ∧
      Shows ((World.run {} ([] ++ [.make (chgcarFields d)])).run post).heap r
        (dictOf (listOf (listOf (listOf numOf))) [(c!"x", []), (c!"y", []), (c!"z", [])]) := by
  obtain ⟨r, -, h1, h2⟩ := C109_results_partial [] post (chgcarFields d) c!"magnetization_density" _ (by rw [chgcarFields, h]; rfl) hr
  exact ⟨r, h1, h2⟩

/-- The change of one number is seen. -/
example : ∃ r, Returns (World.run {} [.make [(c!"dos", listOf numOf [1, 2])], .get 0 c!"dos", .setItem 0 (.index 0) (.num 5)]) 0 c!"dos" r ∧
    ¬ Shows (World.run {} [.make [(c!"dos", listOf numOf [1, 2])], .get 0 c!"dos", .setItem 0 (.index 0) (.num 5)]).heap r (listOf numOf [1, 2]) := by
  obtain ⟨r, h1, -, h2⟩ := C109_violation [] [(c!"dos", listOf numOf [1, 2])] c!"dos" [(.index 0, numOf 1), (.index 1, numOf 2)] rfl (.index 0) (numOf 1)
    (by simp) (.num 5) (by intro h; simp [numOf] at h)
  exact ⟨r, h1, h2⟩

end Verif.Results
