import Verif.Props.EventOnce
import Verif.Props.VasprunSteps
/-! # C53: unit cell, positions, forces and stress of the ionic steps -/
set_option autoImplicit false
namespace Verif.VasprunEvent
open Verif Verif.Utils Verif.Xml Verif.Vasprun

/-- A fold followed through a projection. -/
theorem foldlM'_trace {α σ β γ : Type} {f : σ → α → Res σ} {π : σ → β} {g : β → γ → Res β} {sets : α → List γ} {I : σ → Prop} {l : List α}
    (hI : ∀ a s s', f s a = .ok s' → I s → I s')
    (h : ∀ a ∈ l, ∀ s s', I s → f s a = .ok s' → Res.foldlM' g (π s) (sets a) = .ok (π s')) {s s' : σ} (hs : I s) (hf : Res.foldlM' f s l = .ok s') :
    Res.foldlM' g (π s) (l.flatMap sets) = .ok (π s') ∧ I s' := by
  induction l generalizing s with
  | nil => injection hf with hf; subst hf; exact ⟨rfl, hs⟩
  | cons a as ih =>
    rw [foldlM'_cons] at hf
    obtain ⟨s1, h1, h2⟩ := Res.bind_eq_ok.1 hf
    obtain ⟨i1, i2⟩ := ih (fun b hb => h b (List.mem_cons_of_mem _ hb)) (hI a s s1 h1 hs) h2
    refine ⟨?_, i2⟩
    rw [List.flatMap_cons, foldlM'_append, h a (List.mem_cons_self ..) s s1 hs h1, Res.ok_bind, i1]

/-- The table of an element is stored for a step. -/
def addSet (k : Nat) (d : Dict Nat Table) (s : Node) : Res (Dict Nat Table) := convert2D s.children 3 >>= fun x => .ok (d.set k x)

theorem storeAcc_num {a : Acc} {o : Out} (h : storeAcc a = .ok o) : o.num = a.o.num + 1 := by
  unfold storeAcc at h
  obtain ⟨x, _, h⟩ := Res.bind_eq_ok.1 h
  obtain ⟨y, _, h⟩ := Res.bind_eq_ok.1 h
  obtain ⟨z, _, h⟩ := Res.bind_eq_ok.1 h
  split at h
  · cases h
  · injection h with h; rw [← h]

/-- What the parts of an ionic step store in a dictionary. -/
def Stores (kb : Bool) (π : Out → Dict Nat Table) (sets : Node → List Node) : Prop :=
  ∀ (n : Node) (a a' : Acc), calcChild kb a n = .ok a' → Res.foldlM' (addSet a.o.num) (π a.o) (sets n) = .ok (π a'.o)

theorem calcAll_stores {kb : Bool} {π : Out → Dict Nat Table} (hπ : Plain π) {sets : Node → List Node} (hS : Stores kb π sets) {o o' : Out} {c : Node}
    (h : calcAll kb o c = .ok o') :
    Res.foldlM' (addSet o.num) (π o) (c.children.flatMap sets) = .ok (π o') ∧ o'.num = o.num + 1 := by
  unfold calcAll at h
  obtain ⟨a, h1, h2⟩ := Res.bind_eq_ok.1 h
  obtain ⟨i1, i2⟩ := foldlM'_trace (π := fun a : Acc => π a.o) (g := addSet o.num) (sets := sets) (I := fun a : Acc => a.o.num = o.num)
    (fun n s s' hs hn => (calcChild_frame hs).num.trans hn) (fun n _ s s' hn hs => by have := hS n s s' hs; rw [hn] at this; exact this)
    (s := startAcc o) rfl h1
  rw [hπ.start] at i1
  exact ⟨by rw [i1, hπ.store h2], by rw [storeAcc_num h2, i2]⟩

theorem number_append_set {α : Type} (i : Nat) (xs : List α) (x : α) : (number i xs).set (i + xs.length) x = number i (xs ++ [x]) := by
  induction xs generalizing i with
  | nil => rfl
  | cons y ys ih =>
    rw [List.cons_append, number, number, Dict.set, if_neg (by simp)]
    have : i + (y :: ys).length = (i + 1) + ys.length := by rw [List.length_cons]; omega
    rw [this, ih]

/-- One element for each ionic step. -/
theorem calcs_stores {kb : Bool} {π : Out → Dict Nat Table} (hπ : Plain π) {sets : Node → List Node} (hS : Stores kb π sets) {cs : List Node} {o o' : Out}
    (h : Res.foldlM' (calcAll kb) o cs = .ok o') (h1 : ∀ c ∈ cs, (c.children.flatMap sets).length = 1) {xs : List Table} (hx : π o = number 1 xs)
    (hn : o.num = 1 + xs.length) :
    ∃ ys, π o' = number 1 (xs ++ ys) ∧ List.Forall₂ (fun s y => convert2D s.children 3 = .ok y) (cs.flatMap fun c => c.children.flatMap sets) ys := by
  induction cs generalizing o xs with
  | nil => injection h with h; subst h; exact ⟨[], by rw [List.append_nil, hx], .nil⟩
  | cons c cs ih =>
    rw [foldlM'_cons] at h
    obtain ⟨o1, g1, g2⟩ := Res.bind_eq_ok.1 h
    obtain ⟨k1, k2⟩ := calcAll_stores hπ hS g1
    rcases at_most_one (Nat.le_of_eq (h1 c (List.mem_cons_self ..))) with h0 | ⟨s, hs⟩
    · have := h1 c (List.mem_cons_self ..)
      rw [h0] at this; cases this
    rw [hs, foldlM'_cons] at k1
    obtain ⟨d, j1, j2⟩ := Res.bind_eq_ok.1 k1
    injection j2 with j2
    unfold addSet at j1
    obtain ⟨x, j3, j1⟩ := Res.bind_eq_ok.1 j1
    injection j1 with j1
    rw [hn, hx, number_append_set, j2] at j1
    obtain ⟨ys, i1, i2⟩ := ih g2 (fun c hc => h1 c (List.mem_cons_of_mem _ hc)) j1.symm (by rw [k2, hn, List.length_append]; rfl)
    refine ⟨x :: ys, by rw [i1, List.append_assoc]; rfl, ?_⟩
    rw [List.flatMap_cons, hs]
    exact .cons j3 i2

/-- No element in any ionic step. -/
theorem calcs_stores_none {kb : Bool} {π : Out → Dict Nat Table} (hπ : Plain π) {sets : Node → List Node} (hS : Stores kb π sets) {cs : List Node} {o o' : Out}
    (h : Res.foldlM' (calcAll kb) o cs = .ok o') (h1 : (cs.flatMap fun c => c.children.flatMap sets) = []) : π o' = π o := by
  induction cs generalizing o with
  | nil => injection h with h; subst h; rfl
  | cons c cs ih =>
    rw [foldlM'_cons] at h
    obtain ⟨o1, g1, g2⟩ := Res.bind_eq_ok.1 h
    obtain ⟨k1, k2⟩ := calcAll_stores hπ hS g1
    rw [List.flatMap_cons] at h1
    obtain ⟨e1, e2⟩ := List.append_eq_nil_iff.1 h1
    rw [e1] at k1
    injection k1 with k1
    rw [ih g2 e2, k1]

/-! ### the four quantities -/

theorem stores_force (kb : Bool) : Stores kb (fun o => o.force) fun n => if isForces n then [n] else [] := by
  intro n a a' h
  show Res.foldlM' (addSet a.o.num) a.o.force (if isForces n then [n] else []) = .ok a'.o.force
  by_cases hk : isForces n = true
  · rw [calcChild_forces hk] at h
    obtain ⟨x, h1, h⟩ := Res.bind_eq_ok.1 h
    injection h with h; subst h
    rw [if_pos hk, foldlM'_cons, addSet, h1]; rfl
  · rw [if_neg hk]
    exact congrArg Res.ok ((calcChild_frame h).force (by simpa using hk)).symm

theorem stores_stress (kb : Bool) : Stores kb (fun o => o.stress) fun n => if isStress n then [n] else [] := by
  intro n a a' h
  show Res.foldlM' (addSet a.o.num) a.o.stress (if isStress n then [n] else []) = .ok a'.o.stress
  by_cases hk : isStress n = true
  · rw [calcChild_stress hk] at h
    obtain ⟨x, h1, h⟩ := Res.bind_eq_ok.1 h
    injection h with h; subst h
    rw [if_pos hk, foldlM'_cons, addSet, h1]; rfl
  · rw [if_neg hk]
    exact congrArg Res.ok ((calcChild_frame h).stress (by simpa using hk)).symm

/-- The tables with this name in an element of a structure. -/
def tablesIn (v : Str) (m : Node) : List Node :=
  if m.tag = c!"crystal" then m.children.filter (tn c!"varray" v).selects else if (tn c!"varray" v).selects m then [m] else []

/-- The tables with this name in a part of an ionic step, in reading order. -/
def structSets (v : Str) (n : Node) : List Node := if isStruct n then n.children.flatMap (tablesIn v) else []

theorem tableChild_cell {a a' : Acc} {n : Node} (h : tableChild a n = .ok a') :
    Res.foldlM' (addSet a.o.num) a.o.cell (if (tn c!"varray" c!"basis").selects n then [n] else []) = .ok a'.o.cell ∧
    Res.foldlM' (addSet a.o.num) a.o.pos (if (tn c!"varray" c!"positions").selects n then [n] else []) = .ok a'.o.pos ∧ a'.o.num = a.o.num := by
  unfold tableChild at h
  by_cases h1 : (tn c!"varray" c!"basis").selects n = true
  · rw [if_pos h1] at h
    obtain ⟨x, h2, h⟩ := Res.bind_eq_ok.1 h
    injection h with h; subst h
    rw [if_pos h1, tn_ne h1 (by decide), if_neg (by simp), foldlM'_cons, addSet, h2]
    exact ⟨rfl, rfl, rfl⟩
  rw [if_neg h1] at h
  rw [if_neg h1]
  by_cases h1 : (tn c!"varray" c!"positions").selects n = true
  · rw [if_pos h1] at h
    obtain ⟨x, h2, h⟩ := Res.bind_eq_ok.1 h
    injection h with h; subst h
    rw [if_pos h1, foldlM'_cons, addSet, h2]
    exact ⟨rfl, rfl, rfl⟩
  rw [if_neg h1] at h
  injection h with h; subst h
  rw [if_neg h1]
  exact ⟨rfl, rfl, rfl⟩

theorem flatMap_if {α : Type} (k : α → Bool) (l : List α) : (l.flatMap fun a => if k a then [a] else []) = l.filter k := by
  rw [← flatMap_filter k (fun a => [a]) l]
  exact List.flatMap_singleton' _

theorem structChild_cell {a a' : Acc} {n : Node} (h : structChild a n = .ok a') :
    Res.foldlM' (addSet a.o.num) a.o.cell (tablesIn c!"basis" n) = .ok a'.o.cell ∧
    Res.foldlM' (addSet a.o.num) a.o.pos (tablesIn c!"positions" n) = .ok a'.o.pos ∧ a'.o.num = a.o.num := by
  unfold structChild at h
  unfold tablesIn
  by_cases h1 : n.tag = c!"crystal"
  · rw [if_pos h1] at h
    simp only [if_pos h1]
    have hI : ∀ (n : Node) (s s' : Acc), tableChild s n = .ok s' → s.o.num = a.o.num → s'.o.num = a.o.num := fun n s s' hs hn => (tableChild_cell hs).2.2.trans hn
    obtain ⟨i1, i2⟩ := foldlM'_trace (π := fun a : Acc => a.o.cell) (g := addSet a.o.num) (I := fun s : Acc => s.o.num = a.o.num) hI
      (fun n _ s s' hn hs => by have := (tableChild_cell hs).1; rw [hn] at this; exact this) rfl h
    obtain ⟨j1, _⟩ := foldlM'_trace (π := fun a : Acc => a.o.pos) (g := addSet a.o.num) (I := fun s : Acc => s.o.num = a.o.num) hI
      (fun n _ s s' hn hs => by have := (tableChild_cell hs).2.1; rw [hn] at this; exact this) rfl h
    rw [flatMap_if] at i1 j1
    exact ⟨i1, j1, i2⟩
  · rw [if_neg h1] at h
    simp only [if_neg h1]
    exact tableChild_cell h

theorem stores_struct (kb : Bool) : Stores kb (fun o => o.cell) (structSets c!"basis") ∧ Stores kb (fun o => o.pos) (structSets c!"positions") := by
  have key : ∀ (n : Node) (a a' : Acc), calcChild kb a n = .ok a' →
      Res.foldlM' (addSet a.o.num) a.o.cell (structSets c!"basis" n) = .ok a'.o.cell ∧
      Res.foldlM' (addSet a.o.num) a.o.pos (structSets c!"positions" n) = .ok a'.o.pos := by
    intro n a a' h
    unfold structSets
    by_cases hk : isStruct n = true
    · rw [calcChild_struct hk] at h
      rw [if_pos hk, if_pos hk]
      have hI : ∀ (n : Node) (s s' : Acc), structChild s n = .ok s' → s.o.num = a.o.num → s'.o.num = a.o.num := fun n s s' hs hn => (structChild_cell hs).2.2.trans hn
      obtain ⟨i1, i2⟩ := foldlM'_trace (π := fun a : Acc => a.o.cell) (g := addSet a.o.num) (I := fun s : Acc => s.o.num = a.o.num) hI
        (fun n _ s s' hn hs => by have := (structChild_cell hs).1; rw [hn] at this; exact this) rfl h
      obtain ⟨j1, _⟩ := foldlM'_trace (π := fun a : Acc => a.o.pos) (g := addSet a.o.num) (I := fun s : Acc => s.o.num = a.o.num) hI
        (fun n _ s s' hn hs => by have := (structChild_cell hs).2.1; rw [hn] at this; exact this) rfl h
      exact ⟨i1, j1⟩
    · rw [if_neg hk, if_neg hk]
      obtain ⟨f1, f2⟩ := (calcChild_frame h).cell (by simpa using hk)
      exact ⟨congrArg Res.ok f1.symm, congrArg Res.ok f2.symm⟩
  exact ⟨fun n a a' h => (key n a a' h).1, fun n a a' h => (key n a a' h).2⟩

/-! ### both parsers -/

/-- The dictionary of the event driven parser as the getters see it. -/
def eventSteps (q : Option (Dict Nat Table)) : Option Steps := q.map fun d => d.map fun p => (p.1, some p.2)

theorem number_map {α β : Type} (f : α → β) (i : Nat) (xs : List α) : (number i xs).map (fun p => (p.1, f p.2)) = number i (xs.map f) := by
  induction xs generalizing i with
  | nil => rfl
  | cons x xs ih => rw [number, List.map_cons, ih]; rfl

/-- What is printed for the steps, by number. -/
theorem eventSteps_ok {sets : List Node} {n m : Nat} (hp : PerStep sets n m) (hv : ∀ s ∈ sets, VRows s) (hn : 0 < n) {xs : List Table}
    (h : List.Forall₂ (fun s y => convert2D s.children 3 = .ok y) sets xs) :
    Returns sets 0 (getSteps (eventSteps (orNoneDict (number 1 xs))) c!"initial") ∧
    Returns sets (n - 1) (getSteps (eventSteps (orNoneDict (number 1 xs))) c!"last") ∧
    ∃ all, getSteps (eventSteps (orNoneDict (number 1 xs))) c!"all" = .ok (.all all) ∧
      (∀ k, k < n → ∃ x, StepTable sets k x ∧ all.get? (k + 1) = some (some x)) ∧ ∀ j, all.get? j ≠ none → 1 ≤ j ∧ j ≤ n := by
  have hl : xs.length = n := h.length_eq.symm.trans hp.1
  have hst : ∀ k, (hk : k < n) → StepTable sets k (xs[k]'(by omega)) := by
    intro k hk
    obtain ⟨x, hx, hc⟩ := hp.rows hk
    have hks : k < sets.length := by rw [hp.1]; exact hk
    rw [flatMap_block (fun s hs => (hp.2 s hs).1) hks] at hc
    have h2 := List.forall₂_iff_get.1 h |>.2 k hks (by omega)
    simp only [List.get_eq_getElem] at h2
    have h3 : vIn sets[k] = sets[k].children := by
      rw [← (hv _ (List.getElem_mem hks)).filter]
      unfold vIn
      refine List.filter_congr fun x _ => ?_
      unfold Step.selects t
      simp
    rw [h3, h2] at hc
    injection hc with hc
    rw [hc]; exact hx
  have hw : eventSteps (orNoneDict (number 1 xs)) = some (number 1 (xs.map some)) := by
    unfold eventSteps orNoneDict
    cases xs with
    | nil => simp only [List.length_nil] at hl; omega
    | cons x xs => rw [if_neg (by simp [number])]; exact congrArg some (number_map some 1 _)
  rw [hw]
  have hg : ∀ k, (hk : k < n) → (number 1 (xs.map some)).get? (k + 1) = some (some (xs[k]'(by omega))) := by
    intro k hk
    rw [Nat.add_comm, number_get, List.getElem?_map, List.getElem?_eq_getElem (by omega)]; rfl
  have ok : ∀ s ∈ known, checkStatus s = .ok () := fun s hs => if_pos hs
  refine ⟨⟨_, hst 0 hn, ?_⟩, ⟨_, hst (n - 1) (by omega), ?_⟩, _, ?_, fun k hk => ⟨_, hst k hk, hg k hk⟩, fun j hj => ?_⟩
  · unfold getSteps
    simp only
    rw [ok _ (by simp [known]), Res.ok_bind, if_pos trivial]
    unfold item
    rw [hg 0 hn]; rfl
  · unfold getSteps
    simp only
    rw [ok _ (by simp [known]), Res.ok_bind, if_neg (by decide), if_pos trivial]
    have : maxKey (number 1 (xs.map some)) = .ok (n - 1 + 1) := by
      cases xs with
      | nil => simp only [List.length_nil] at hl; omega
      | cons x xs =>
        rw [List.map_cons, maxKey_number, List.length_map, ← hl, List.length_cons]
        congr 1; omega
    rw [this, Res.ok_bind]
    unfold item
    rw [hg (n - 1) (by omega)]; rfl
  · unfold getSteps
    simp only
    rw [ok _ (by simp [known]), Res.ok_bind, if_neg (by decide), if_neg (by decide)]
  · have h1 : 1 ≤ j := by
      by_cases h0 : j < 1
      · exact absurd (number_get_none 1 j _ h0) hj
      · omega
    refine ⟨h1, ?_⟩
    obtain ⟨k, rfl⟩ := Nat.exists_eq_add_of_le h1
    rw [number_get] at hj
    have := List.getElem?_eq_none_iff.not.1 hj
    rw [List.length_map] at this
    omega

/-- Both parsers give the same first and last, and, for more than one step, the same for each step. -/
def SameSteps (n : Nat) (e : Option (Dict Nat Table)) (d : Option Steps) : Prop :=
  getSteps (eventSteps e) c!"initial" = getSteps d c!"initial" ∧ getSteps (eventSteps e) c!"last" = getSteps d c!"last" ∧
  ∃ x y, getSteps (eventSteps e) c!"all" = .ok (.all x) ∧ getSteps d c!"all" = .ok (.all y) ∧
    ∀ j, (j ≤ n ∨ 2 ≤ n) → Dict.get? x j = Dict.get? y j

theorem sameSteps {sets : List Node} {n m : Nat} (hp : PerStep sets n m) (hv : ∀ s ∈ sets, VRows s) (hn : 0 < n) {xs : List Table}
    (h : List.Forall₂ (fun s y => convert2D s.children 3 = .ok y) sets xs) {d : Option Steps} (hd : StepsOf sets n d) :
    SameSteps n (orNoneDict (number 1 xs)) d := by
  obtain ⟨⟨x1, s1, g1⟩, ⟨x2, s2, g2⟩, all, g3, g4, g5⟩ := eventSteps_ok hp hv hn h
  obtain ⟨⟨y1, t1, i1⟩, ⟨y2, t2, i2⟩, all', i3, i4, i5, i6⟩ := hd
  refine ⟨?_, ?_, all, all', g3, i3, fun j hj => ?_⟩
  · rw [g1, i1, stepTable_unique s1 t1]
  · rw [g2, i2, stepTable_unique s2 t2]
  · by_cases h1 : 1 ≤ j ∧ j ≤ n
    · obtain ⟨k, rfl⟩ := Nat.exists_eq_add_of_le h1.1
      rw [Nat.add_comm]
      obtain ⟨x, a1, a2⟩ := g4 k (by omega)
      obtain ⟨y, b1, b2⟩ := i4 k (by omega)
      rw [a2, b2, stepTable_unique a1 b1]
    · have e1 : all.get? j = none := by
        by_contra hc
        exact h1 (g5 j hc)
      have e2 : all'.get? j = none := by
        by_contra hc
        obtain ⟨q1, q2⟩ := i5 j hc
        rcases q2 with q2 | ⟨q2, q3⟩
        · exact h1 ⟨q1, q2⟩
        · omega
      rw [e1, e2]

/-- The elements at a path in an ionic step. -/
def inStep (c : Node) (path : List Step) : List Node := findRel c path

/-- Each ionic step has one unit cell (in the crystal of a structure) and positions (in a structure, outside the crystal); forces and stress are in
all ionic steps or in none. -/
structure OneEach (root : Node) : Prop where
  cell : ∀ c ∈ calculations root, (inStep c [t c!"structure", t c!"crystal", tn c!"varray" c!"basis"]).length = 1 ∧
    inStep c [t c!"structure", tn c!"varray" c!"basis"] = []
  positions : ∀ c ∈ calculations root, (inStep c [t c!"structure", tn c!"varray" c!"positions"]).length = 1 ∧
    inStep c [t c!"structure", t c!"crystal", tn c!"varray" c!"positions"] = []
  forces : forceSets root = [] ∨ ∀ c ∈ calculations root, (inStep c [tn c!"varray" c!"forces"]).length = 1
  stress : stressSets root = [] ∨ ∀ c ∈ calculations root, (inStep c [tn c!"varray" c!"stress"]).length = 1

theorem findAny_calcs (root : Node) (s : Step) (ss : List Step) :
    findAny root (t c!"calculation") (s :: ss) = (calculations root).flatMap fun c => findRel c (s :: ss) := by
  unfold findAny
  rw [follow_linear]
  rfl

theorem filter_struct (l : List Node) : l.filter (t c!"structure").selects = l.filter isStruct := by
  refine List.filter_congr fun x _ => ?_
  unfold isStruct Step.selects t
  simp

theorem findRel_one (n : Node) (s : Step) : findRel n [s] = n.children.filter s.selects := by
  rw [findRel_cons]
  exact List.flatMap_singleton' _

theorem crystal_not_varray {v : Str} {m : Node} (h : m.tag = c!"crystal") : (tn c!"varray" v).selects m = false :=
  sel_tag h (by decide)

/-- If all tables with a name are in the crystal. -/
theorem structSets_crystal {v : Str} {c : Node} (h : inStep c [t c!"structure", tn c!"varray" v] = []) :
    c.children.flatMap (structSets v) = inStep c [t c!"structure", t c!"crystal", tn c!"varray" v] := by
  unfold inStep at h ⊢
  rw [findRel_cons, filter_struct, flatMap_filter] at h
  rw [findRel_cons, filter_struct, flatMap_filter]
  unfold structSets
  refine List.flatMap_congr fun n hn => ?_
  by_cases hk : isStruct n = true
  · rw [if_pos hk, if_pos hk, findRel_cons']
    refine List.flatMap_congr fun m hm => ?_
    unfold tablesIn
    by_cases hc : m.tag = c!"crystal"
    · rw [if_pos hc, if_pos (selects_t.2 hc), findRel_one]
    · have h0 := List.flatMap_eq_nil_iff.1 h n hn
      rw [if_pos hk, findRel_one] at h0
      rw [if_neg hc, if_neg (fun h => hc (selects_t.1 h)), if_neg]
      exact fun hs => by
        have : m ∈ n.children.filter (tn c!"varray" v).selects := List.mem_filter.2 ⟨hm, hs⟩
        rw [h0] at this; cases this
  · rw [if_neg hk, if_neg hk]

/-- If all tables with a name are outside the crystal. -/
theorem structSets_outside {v : Str} {c : Node} (h : inStep c [t c!"structure", t c!"crystal", tn c!"varray" v] = []) :
    c.children.flatMap (structSets v) = inStep c [t c!"structure", tn c!"varray" v] := by
  unfold inStep at h ⊢
  rw [findRel_cons, filter_struct, flatMap_filter] at h
  rw [findRel_cons, filter_struct, flatMap_filter]
  unfold structSets
  refine List.flatMap_congr fun n hn => ?_
  by_cases hk : isStruct n = true
  · rw [if_pos hk, if_pos hk, findRel_cons']
    refine List.flatMap_congr fun m hm => ?_
    unfold tablesIn
    by_cases hc : m.tag = c!"crystal"
    · have h0 := List.flatMap_eq_nil_iff.1 h n hn
      rw [if_pos hk, findRel_cons'] at h0
      have h0 := List.flatMap_eq_nil_iff.1 h0 m hm
      rw [if_pos (selects_t.2 hc), findRel_one] at h0
      rw [if_pos hc, crystal_not_varray hc, if_neg (by simp), h0]
    · rw [if_neg hc]; rfl
  · rw [if_neg hk, if_neg hk]

/-- The rows of a table the event driven parser reads. -/
theorem struct_rows {v : Str} (hv : v = c!"basis" ∨ v = c!"positions") {n s : Node} (hp : CalcPart n) (hs : s ∈ structSets v n) : VRows s := by
  unfold structSets at hs
  by_cases hk : isStruct n = true
  · rw [if_pos hk] at hs
    have ht := of_decide_eq_true hk
    have hS : StructureOk n := by
      cases hp with
      | struct h => exact h
      | forces h => exact absurd (h.symm.trans ht) (by decide)
      | stress h => exact absurd (h.symm.trans ht) (by decide)
      | scstep h => exact absurd (h.1.symm.trans ht) (by decide)
      | energy h => exact absurd (h.1.symm.trans ht) (by decide)
      | eigenvalues h => exact absurd (h.1.symm.trans ht) (by decide)
      | @special w _ _ _ h => cases w <;> exact absurd (h.tag.symm.trans ht) (by decide)
      | dos h => exact absurd (h.1.symm.trans ht) (by decide)
      | dosS h => exact absurd (h.1.symm.trans ht) (by decide)
      | born h => exact absurd (h.1.symm.trans ht) (by decide)
      | diel h => exact absurd (h.1.symm.trans ht) (by decide)
      | projected h => exact absurd (h.tag.symm.trans ht) (by decide)
      | dynmat h => exact absurd (h.1.symm.trans ht) (by decide)
      | quiet h => exact absurd ht (quiet_not h).ne.2.2.2.2.2.2.2.1
    have key : ∀ m : Node, StructPart m → (tn c!"varray" v).selects m = true → VRows m := by
      intro m hm hsel
      rcases hm with hm | hm
      · exact hm.2.2
      · refine absurd ?_ (hm m (List.mem_cons_self ..)).2
        obtain ⟨g1, g2⟩ := selects_tn.1 hsel
        rcases hv with rfl | rfl
        · exact ⟨g1, .inl g2⟩
        · exact ⟨g1, .inr g2⟩
    obtain ⟨m, hm, hs⟩ := List.mem_flatMap.1 hs
    unfold tablesIn at hs
    by_cases hc : m.tag = c!"crystal"
    · rw [if_pos hc] at hs
      obtain ⟨h1, h2⟩ := List.mem_filter.1 hs
      rcases hS.2 m hm with h3 | h3
      · exact key s (h3.2 s h1) h2
      · rcases h3 with h3 | h3
        · exact absurd (h3.1.symm.trans hc) (by decide)
        · exact absurd (by
            obtain ⟨g1, g2⟩ := selects_tn.1 h2
            rcases hv with rfl | rfl
            · exact ⟨g1, .inl g2⟩
            · exact ⟨g1, .inr g2⟩) (h3 s (List.mem_cons_of_mem _ (mem_below h1))).2
    · rw [if_neg hc] at hs
      by_cases hsel : (tn c!"varray" v).selects m = true
      · rw [if_pos hsel] at hs
        obtain rfl := List.mem_singleton.1 hs
        rcases hS.2 s hm with h3 | h3
        · exact absurd h3.1 hc
        · exact key s h3 hsel
      · rw [if_neg hsel] at hs; cases hs
  · rw [if_neg hk] at hs; cases hs

theorem table_rows {v : Str} (hv : v = c!"forces" ∨ v = c!"stress") {n : Node} (hp : CalcPart n) (hs : (tn c!"varray" v).selects n = true) : VRows n := by
  obtain ⟨ht, hn⟩ := selects_tn.1 hs
  cases hp with
  | struct h => exact absurd (h.1.symm.trans ht) (by decide)
  | forces _ _ h => exact h
  | stress _ _ h => exact h
  | scstep h => exact absurd (h.1.symm.trans ht) (by decide)
  | energy h => exact absurd (h.1.symm.trans ht) (by decide)
  | eigenvalues h => exact absurd (h.1.symm.trans ht) (by decide)
  | @special w _ _ _ h => cases w <;> exact absurd (h.tag.symm.trans ht) (by decide)
  | dos h => exact absurd (h.1.symm.trans ht) (by decide)
  | dosS h => exact absurd (h.1.symm.trans ht) (by decide)
  | born h => exact absurd (h.1.symm.trans ht) (by decide)
  | diel h => exact absurd (h.1.symm.trans ht) (by decide)
  | projected h => exact absurd (h.tag.symm.trans ht) (by decide)
  | dynmat h => exact absurd (h.1.symm.trans ht) (by decide)
  | quiet h =>
    obtain ⟨w, g1, g2, g3⟩ := (quiet_not h).2.2 ht
    rw [hn] at g1
    injection g1 with g1
    rcases hv with rfl | rfl
    · exact absurd g1.symm g2
    · exact absurd g1.symm g3

/-- **C53**, step by step quantities of the default extraction, for any number of ionic steps and atoms but the case of one atom and two steps
(where the regular parser fails C49): the getters return the same first and last, and the same for each step; for a single step the regular
parser has a second entry. A quantity that is in no step is missing for both. -/
theorem C53_steps_partial {kb : Bool} {root : Node} {head body : List Node} {g q a arr k l w : Node} (h : Doc root head body g q a arr k l w)
    {e : EData} {d : Data} (he : parsee root kb = .ok e) (hd : parsew root kb true = .ok d) (h1 : OneEach root) (sp : List Nat)
    (hsp : d.species = some sp) (ha : 0 < sp.length) (n : Nat) (hn : 0 < n) (hs : (structures root).length = n) (hcell : PerStep (cellSets root) n 3)
    (hpos : PerStep (positionSets root) n sp.length) (hforce : forceSets root = [] ∨ PerStep (forceSets root) n sp.length)
    (hstress : stressSets root = [] ∨ PerStep (stressSets root) n 3) (hex : ¬ (sp.length = 1 ∧ n = 2)) :
    SameSteps n e.unitcell d.unitcell ∧ SameSteps n e.positions d.positions ∧
    (if forceSets root = [] then e.forces = none ∧ Absent d.forces else SameSteps n e.forces d.forces) ∧
    (if stressSets root = [] then e.stress = none ∧ Absent d.stress else SameSteps n e.stress d.stress) := by
  obtain ⟨s1, s2, s3, s4⟩ := C49_steps_partial root kb d hd sp hsp ha n hn hs hcell hpos hforce hstress hex
  obtain ⟨o, o', b⟩ := both h he hd
  have hparts : ∀ c ∈ calculations root, ∀ x ∈ c.children, CalcPart x := fun c hc x hx => doc_parts h x (List.mem_flatMap.2 ⟨c, hc, hx⟩)
  have hnum : o.num = 1 := b.init (fun o => o.num) (fun _ => rfl)
  have e1 : e.unitcell = orNoneDict o'.cell := by rw [b.finish]; rfl
  have e2 : e.positions = orNoneDict o'.pos := by rw [b.finish]; rfl
  have e3 : e.forces = orNoneDict o'.force := by rw [b.finish]; rfl
  have e4 : e.stress = orNoneDict o'.stress := by rw [b.finish]; rfl
  rw [e1, e2, e3, e4]
  -- one element in each step
  have key : ∀ {π : Out → Dict Nat Table} {sets : Node → List Node} {ss : List Node} {m : Nat} {x : Option Steps}, Plain π → (∀ o, π (noHead o) = π o) →
      π {} = [] → Stores kb π sets → (∀ c ∈ calculations root, (c.children.flatMap sets).length = 1) →
      ((calculations root).flatMap fun c => c.children.flatMap sets) = ss → (∀ c ∈ calculations root, ∀ x ∈ c.children, ∀ s ∈ sets x, VRows s) →
      PerStep ss n m → StepsOf ss n x → SameSteps n (orNoneDict (π o')) x := by
    intro π sets ss m x hπ hh h0 hS hl hss hv hp hx
    obtain ⟨ys, i1, i2⟩ := calcs_stores hπ hS b.run hl (xs := []) ((b.init π hh).trans h0) hnum
    rw [hss] at i2
    rw [i1]
    refine sameSteps hp ?_ hn i2 hx
    intro s hs
    rw [← hss] at hs
    obtain ⟨c, hc, hs⟩ := List.mem_flatMap.1 hs
    obtain ⟨x, hx, hs⟩ := List.mem_flatMap.1 hs
    exact hv c hc x hx s hs
  have key0 : ∀ {π : Out → Dict Nat Table} {sets : Node → List Node}, Plain π → (∀ o, π (noHead o) = π o) →
      π {} = [] → Stores kb π sets → ((calculations root).flatMap fun c => c.children.flatMap sets) = [] → orNoneDict (π o') = none := by
    intro π sets hπ hh h0 hS hss
    rw [calcs_stores_none hπ hS b.run hss, b.init π hh, h0]; rfl
  have hsel : ∀ v, ((calculations root).flatMap fun c => c.children.flatMap fun n => if (tn c!"varray" v).selects n then [n] else []) =
      findAny root (t c!"calculation") [tn c!"varray" v] := by
    intro v
    rw [findAny_calcs]
    refine List.flatMap_congr fun c hc => ?_
    rw [findRel_one, flatMap_if]
  refine ⟨?_, ?_, ?_, ?_⟩
  · refine key (π := fun o => o.cell) (fun _ _ _ => rfl) (fun _ => rfl) rfl (stores_struct kb).1
      (fun c hc => by rw [structSets_crystal (h1.cell c hc).2]; exact (h1.cell c hc).1) ?_ (fun c hc x hx s hs => struct_rows (.inl rfl) (hparts c hc x hx) hs) hcell s1
    unfold cellSets
    rw [findAny_calcs]
    exact List.flatMap_congr fun c hc => structSets_crystal (h1.cell c hc).2
  · refine key (π := fun o => o.pos) (fun _ _ _ => rfl) (fun _ => rfl) rfl (stores_struct kb).2
      (fun c hc => by rw [structSets_outside (h1.positions c hc).2]; exact (h1.positions c hc).1) ?_ (fun c hc x hx s hs => struct_rows (.inr rfl) (hparts c hc x hx) hs) hpos s2
    unfold positionSets
    rw [findAny_calcs]
    exact List.flatMap_congr fun c hc => structSets_outside (h1.positions c hc).2
  · by_cases hc : forceSets root = []
    · rw [if_pos hc] at s3 ⊢
      exact ⟨key0 (π := fun o => o.force) (fun _ _ _ => rfl) (fun _ => rfl) rfl (stores_force kb) ((hsel c!"forces").trans hc), s3⟩
    · rw [if_neg hc] at s3 ⊢
      refine key (π := fun o => o.force) (fun _ _ _ => rfl) (fun _ => rfl) rfl (stores_force kb) ?_ (hsel c!"forces") ?_ (hforce.resolve_left hc) s3
      · intro c hc'
        have := h1.forces.resolve_left hc c hc'
        unfold inStep at this
        rw [findRel_one] at this
        rw [flatMap_if]
        exact this
      · intro c hc' x hx s hs
        by_cases hk : isForces x = true
        · rw [if_pos hk] at hs
          obtain rfl := List.mem_singleton.1 hs
          exact table_rows (.inl rfl) (hparts c hc' s hx) hk
        · rw [if_neg hk] at hs; cases hs
  · by_cases hc : stressSets root = []
    · rw [if_pos hc] at s4 ⊢
      exact ⟨key0 (π := fun o => o.stress) (fun _ _ _ => rfl) (fun _ => rfl) rfl (stores_stress kb) ((hsel c!"stress").trans hc), s4⟩
    · rw [if_neg hc] at s4 ⊢
      refine key (π := fun o => o.stress) (fun _ _ _ => rfl) (fun _ => rfl) rfl (stores_stress kb) ?_ (hsel c!"stress") ?_ (hstress.resolve_left hc) s4
      · intro c hc'
        have := h1.stress.resolve_left hc c hc'
        unfold inStep at this
        rw [findRel_one] at this
        rw [flatMap_if]
        exact this
      · intro c hc' x hx s hs
        by_cases hk : isStress x = true
        · rw [if_pos hk] at hs
          obtain rfl := List.mem_singleton.1 hs
          exact table_rows (.inr rfl) (hparts c hc' s hx) hk
        · rw [if_neg hk] at hs; cases hs

end Verif.VasprunEvent
