import Verif.Props.VasprunEnergies
/-! # vasprun.xml: unit cell, positions, forces and stress of the ionic steps (C49) -/
set_option autoImplicit false
namespace Verif.Vasprun
open Verif Verif.Utils Verif.Xml
open Verif.Kpoints (idx toFloat toInt)

/-! ### specification -/

/-- The `v` elements directly in an element. -/
def vIn (s : Node) : List Node := s.children.filter fun n => decide (n.tag = c!"v")

/-- One element for each of `n` steps, with `m` rows of three numbers. -/
def PerStep (sets : List Node) (n m : Nat) : Prop := sets.length = n ∧ ∀ s ∈ sets, (vIn s).length = m ∧ AllPrint 3 (vIn s)

/-- The numbers printed for step `k` (counted from zero). -/
def StepTable (sets : List Node) (k : Nat) (x : Table) : Prop := ∃ s, sets[k]? = some s ∧ List.Forall₂ Prints (vIn s) x

/-- The structures of the ionic steps. -/
def structures (root : Node) : List Node := findAny root (t c!"calculation") [t c!"structure"]
/-- The elements with the unit cells of the ionic steps. -/
def cellSets (root : Node) : List Node := findAny root (t c!"calculation") [t c!"structure", t c!"crystal", tn c!"varray" c!"basis"]
/-- The elements with the positions of the ionic steps. -/
def positionSets (root : Node) : List Node := findAny root (t c!"calculation") [t c!"structure", tn c!"varray" c!"positions"]
/-- The elements with the forces of the ionic steps. -/
def forceSets (root : Node) : List Node := findAny root (t c!"calculation") [tn c!"varray" c!"forces"]
/-- The elements with the stress of the ionic steps. -/
def stressSets (root : Node) : List Node := findAny root (t c!"calculation") [tn c!"varray" c!"stress"]

/-- A getter returns what is printed for step `k`. -/
def Returns (sets : List Node) (k : Nat) (r : Res (Got (Option Table))) : Prop := ∃ x, StepTable sets k x ∧ r = .ok (.one (some x))

/-- `get_..('initial' | 'last' | 'all')` are the first, the last and all of `n` steps; for a single step there is a second entry, which is the same. -/
def StepsOf (sets : List Node) (n : Nat) (q : Option Steps) : Prop :=
  Returns sets 0 (getSteps q c!"initial") ∧ Returns sets (n - 1) (getSteps q c!"last") ∧
  ∃ all, getSteps q c!"all" = .ok (.all all) ∧ (∀ k, k < n → ∃ x, StepTable sets k x ∧ all.get? (k + 1) = some (some x)) ∧
    (∀ j, all.get? j ≠ none → 1 ≤ j ∧ (j ≤ n ∨ n = 1 ∧ j = 2)) ∧ (n = 1 → all.get? 2 = all.get? 1)

/-- The getters for a quantity that is not in the document. -/
def Absent (q : Option Steps) : Prop := getSteps q c!"initial" = .ok (.one none) ∧ getSteps q c!"last" = .ok (.one none)

/-! ### proofs -/

theorem flatMap_block {α β : Type} {f : α → List β} {m : Nat} {l : List α} (h : ∀ a ∈ l, (f a).length = m) {k : Nat} (hk : k < l.length) :
    ((l.flatMap f).drop (k * m)).take m = f l[k] := by
  induction l generalizing k with
  | nil => simp at hk
  | cons a as ih =>
    have ha := h a (List.mem_cons_self ..)
    rw [List.flatMap_cons]
    cases k with
    | zero => simp [← ha]
    | succ k =>
      have e : (k + 1) * m = (f a).length + k * m := by rw [ha, Nat.add_mul]; omega
      rw [e, List.drop_append, List.drop_eq_nil_of_le (by omega), List.nil_append, Nat.add_sub_cancel_left]
      simp only [List.getElem_cons_succ]
      exact ih (fun a h' => h a (List.mem_cons_of_mem _ h')) (by simpa using hk)

theorem follow_v (sets : List Node) : follow [t c!"v"] sets = sets.flatMap vIn := by
  simp only [follow, selects_tag]; rfl

theorem forall2_drop {α β : Type} {R : α → β → Prop} {l : List α} {r : List β} (h : List.Forall₂ R l r) (n : Nat) : List.Forall₂ R (l.drop n) (r.drop n) := by
  induction h generalizing n with
  | nil => simp
  | cons h1 h2 ih => cases n with
    | zero => exact .cons h1 h2
    | succ n => exact ih n

theorem forall2_take {α β : Type} {R : α → β → Prop} {l : List α} {r : List β} (h : List.Forall₂ R l r) (n : Nat) : List.Forall₂ R (l.take n) (r.take n) := by
  induction h generalizing n with
  | nil => simp
  | cons h1 h2 ih => cases n with
    | zero => exact .nil
    | succ n => exact .cons h1 (ih n)

theorem PerStep.length {sets : List Node} {n m : Nat} (h : PerStep sets n m) : (sets.flatMap vIn).length = n * m := by
  rw [flatMap_length fun s hs => (h.2 s hs).1, h.1]

theorem PerStep.allPrint {sets : List Node} {n m : Nat} (h : PerStep sets n m) : AllPrint 3 (sets.flatMap vIn) := by
  intro e he
  obtain ⟨s, hs, he⟩ := List.mem_flatMap.1 he
  exact (h.2 s hs).2 e he

/-- The rows of step `k` are converted to what is printed there. -/
theorem PerStep.rows {sets : List Node} {n m : Nat} (h : PerStep sets n m) {k : Nat} (hk : k < n) :
    ∃ x, StepTable sets k x ∧ convert2D (((sets.flatMap vIn).drop (k * m)).take m) 3 = .ok x := by
  have hk' : k < sets.length := by rw [h.1]; exact hk
  rw [flatMap_block (fun s hs => (h.2 s hs).1) hk']
  obtain ⟨rows, hr⟩ := AllPrint.rows (h.2 _ (List.getElem_mem hk')).2
  exact ⟨rows, ⟨_, List.getElem?_eq_getElem hk', hr.imp fun _ _ h => h.1⟩, convert2D_rows hr⟩

theorem stepTable_unique {sets : List Node} {k : Nat} {x y : Table} (h : StepTable sets k x) (h' : StepTable sets k y) : x = y := by
  obtain ⟨s, hs, h⟩ := h
  obtain ⟨s', hs', h'⟩ := h'
  rw [hs] at hs'; injection hs' with hs'; subst hs'
  clear hs
  generalize vIn s = l at h h'
  induction h generalizing y with
  | nil => cases h'; rfl
  | cons h1 _ ih => cases h' with
    | cons h2 h3 => rw [h1.unique h2, ih h3]

theorem lastRows_eq {sets : List Node} {n m : Nat} (h : PerStep sets n m) (hm : 0 < m) (hn : 0 < n) :
    lastRows m (sets.flatMap vIn) = ((sets.flatMap vIn).drop ((n - 1) * m)).take m := by
  unfold lastRows
  rw [if_neg (by omega), h.length]
  have : n * m - m = (n - 1) * m := by rw [Nat.sub_mul, Nat.one_mul]
  rw [this, List.take_of_length_le]
  rw [List.length_drop, h.length, ← this]
  have : m ≤ n * m := Nat.le_mul_of_pos_left m hn
  omega

theorem furtherSteps_ok {sets : List Node} {n m : Nat} (h : PerStep sets n m) (l : List Nat) (hl : ∀ i ∈ l, i < n) (d : Steps) :
    ∃ r, furtherSteps m (sets.flatMap vIn) l d = .ok r ∧ (∀ i ∈ l, ∃ x, StepTable sets i x ∧ r.get? (i + 1) = some (some x)) ∧
      ∀ j, (∀ i ∈ l, j ≠ i + 1) → r.get? j = d.get? j := by
  induction l generalizing d with
  | nil => exact ⟨d, rfl, fun i hi => (by cases hi), fun _ _ => rfl⟩
  | cons i l ih =>
    obtain ⟨x, hx, hc⟩ := h.rows (hl i (List.mem_cons_self ..))
    obtain ⟨r, h1, h2, h3⟩ := ih (fun i hi => hl i (List.mem_cons_of_mem _ hi)) (d.set (i + 1) (some x))
    refine ⟨r, by rw [furtherSteps, hc, Res.ok_bind, h1], fun k hk => ?_, fun j hj => ?_⟩
    · by_cases hin : k ∈ l
      · exact h2 k hin
      · have : k = i := (List.mem_cons.1 hk).resolve_right hin
        subst this
        refine ⟨x, hx, ?_⟩
        rw [h3 (k + 1) fun i hi e => hin (by rwa [show k = i by omega]), Dict.get?_set, if_pos rfl]
    · rw [h3 j fun i hi => hj i (List.mem_cons_of_mem _ hi), Dict.get?_set, if_neg fun e => hj i (List.mem_cons_self ..) e.symm]

/-- What is stored for a quantity of `n` steps. -/
def Stored (sets : List Node) (n : Nat) (r : Steps) : Prop :=
  (∀ k, k < n → ∃ x, StepTable sets k x ∧ r.get? (k + 1) = some (some x)) ∧ (n = 1 → r.get? 2 = r.get? 1) ∧
    ∀ j, r.get? j ≠ none → 1 ≤ j ∧ (j ≤ n ∨ n = 1 ∧ j = 2)

theorem sameIfMissing_id {d : Steps} {x : Table} (h : d.get? 2 = some (some x)) : sameIfMissing d = d := by unfold sameIfMissing; rw [h]

theorem sameIfMissing_get {d : Steps} (h : d.get? 2 = some none) (j : Nat) : (sameIfMissing d).get? j = if j = 2 then some (d.get? 1).join else d.get? j := by
  unfold sameIfMissing; rw [h]
  simp only
  rw [Dict.get?_set]
  by_cases hj : j = 2
  · rw [if_pos hj, if_pos hj.symm]
  · rw [if_neg hj, if_neg fun e => hj e.symm]

theorem allSteps_ok {sets : List Node} {n m : Nat} {more : Bool} (h : PerStep sets n m) (hm : 0 < m) (hn : 0 < n) (hmore : more = true ∨ n ≤ 2)
    (hone : n = 2 → more = false → 3 < n * m) : ∃ r, allSteps m n more (sets.flatMap vIn) = .ok r ∧ Stored sets n r := by
  have hne : sets.flatMap vIn ≠ [] := by
    intro e
    have := h.length
    rw [e] at this
    have := Nat.mul_pos hn hm
    simp at *; omega
  obtain ⟨x0, hx0, hc0⟩ := h.rows hn
  rw [Nat.zero_mul, List.drop_zero] at hc0
  obtain ⟨xl, hxl, hcl⟩ := h.rows (show n - 1 < n by omega)
  rw [← lastRows_eq h hm hn] at hcl
  have hopt : opt (fun e => convert2D (e.take m) 3) (sets.flatMap vIn) = .ok (some x0) := by
    unfold opt
    generalize sets.flatMap vIn = l at hne hc0
    cases l with
    | nil => exact absurd rfl hne
    | cons a as => simp only; rw [hc0]; rfl
  unfold allSteps
  rw [hopt, Res.ok_bind]
  have hb : ∃ b, (if (sets.flatMap vIn).length > 3 then convert2D (lastRows m (sets.flatMap vIn)) 3 >>= fun x => .ok (some x) else .ok none) = .ok b ∧
      (b = some xl ∨ b = none ∧ ¬ 3 < n * m) := by
    rw [h.length]
    by_cases hgt : n * m > 3
    · rw [if_pos hgt, hcl]; exact ⟨some xl, rfl, .inl rfl⟩
    · rw [if_neg hgt]; exact ⟨none, rfl, .inr ⟨rfl, hgt⟩⟩
  obtain ⟨b, hb, hbv⟩ := hb
  rw [hb, Res.ok_bind]
  by_cases hgo : more = true
  · rw [if_pos (by simpa [hgo] using hne)]
    obtain ⟨r, g1, g2, g3⟩ := furtherSteps_ok h ((List.range n).drop 1) (fun i hi => List.mem_range.1 (List.mem_of_mem_drop hi)) [(1, some x0), (2, b)]
    have hmem : ∀ i, i ∈ (List.range n).drop 1 ↔ 1 ≤ i ∧ i < n := by
      intro i
      rw [List.range_eq_range', List.drop_range']
      simp only [List.mem_range'_1]; omega
    rw [g1, Res.ok_bind]
    refine ⟨_, rfl, ?_⟩
    have r1 : r.get? 1 = some (some x0) := by
      rw [g3 1 fun i hi => by have := (hmem i).1 hi; omega]; rfl
    by_cases hn1 : n = 1
    · have r2 : r.get? 2 = some b := by
        rw [g3 2 fun i hi => by have := (hmem i).1 hi; omega]; rfl
      have hx : xl = x0 := by subst hn1; exact stepTable_unique hxl hx0
      have rj : ∀ j, r.get? j ≠ none → j = 1 ∨ j = 2 := by
        intro j hj
        rw [g3 j fun i hi => by have := (hmem i).1 hi; omega] at hj
        simp only [Dict.get?] at hj
        by_cases h1 : 1 = j
        · exact .inl h1.symm
        · by_cases h2 : 2 = j
          · exact .inr h2.symm
          · simp [h1, h2] at hj
      rcases hbv with rfl | ⟨rfl, _⟩
      · rw [sameIfMissing_id r2]
        refine ⟨fun k hk => ?_, fun _ => by rw [r1, r2, hx], fun j hj => by rcases rj j hj with rfl | rfl <;> omega⟩
        have : k = 0 := by omega
        subst this; exact ⟨x0, hx0, r1⟩
      · refine ⟨fun k hk => ?_, fun _ => ?_, fun j hj => ?_⟩
        · have : k = 0 := by omega
          subst this
          exact ⟨x0, hx0, by rw [sameIfMissing_get r2, if_neg (by omega), r1]⟩
        · rw [sameIfMissing_get r2, sameIfMissing_get r2, if_pos rfl, if_neg (by omega), r1]; rfl
        · rw [sameIfMissing_get r2] at hj
          split at hj
          · omega
          · rcases rj j hj with rfl | rfl <;> omega
    · have r2 := g2 1 ((hmem 1).2 ⟨by omega, by omega⟩)
      obtain ⟨x1, hx1, r2⟩ := r2
      rw [sameIfMissing_id r2]
      refine ⟨fun k hk => ?_, fun h => absurd h hn1, fun j hj => ?_⟩
      · by_cases hk0 : k = 0
        · subst hk0; exact ⟨x0, hx0, r1⟩
        · exact g2 k ((hmem k).2 ⟨by omega, hk⟩)
      · by_cases hj' : ∀ i ∈ (List.range n).drop 1, j ≠ i + 1
        · rw [g3 j hj'] at hj
          simp only [Dict.get?] at hj
          by_cases h1 : 1 = j
          · omega
          · by_cases h2 : 2 = j
            · omega
            · simp [h1, h2] at hj
        · push Not at hj'
          obtain ⟨i, hi, rfl⟩ := hj'
          have := (hmem i).1 hi
          omega
  · have hf : more = false := by simpa using hgo
    rw [if_neg (by simp [hf]), Res.ok_bind]
    refine ⟨_, rfl, ?_⟩
    have hn2 : n ≤ 2 := hmore.resolve_left hgo
    have rj : ∀ (b : Option Table) j, Dict.get? ([(1, some x0), (2, b)] : Steps) j ≠ none → j = 1 ∨ j = 2 := by
      intro b j hj
      simp only [Dict.get?] at hj
      by_cases h1 : 1 = j
      · exact .inl h1.symm
      · by_cases h2 : 2 = j
        · exact .inr h2.symm
        · simp [h1, h2] at hj
    rcases hbv with rfl | ⟨rfl, hle⟩
    · rw [sameIfMissing_id (x := xl) rfl]
      refine ⟨fun k hk => ?_, fun h1 => ?_, fun j hj => ?_⟩
      · by_cases hk0 : k = 0
        · subst hk0; exact ⟨x0, hx0, rfl⟩
        · have e1 : k = 1 := by omega
          have e2 : n - 1 = 1 := by omega
          subst e1; rw [e2] at hxl
          exact ⟨xl, hxl, rfl⟩
      · subst h1
        rw [stepTable_unique hxl hx0]; rfl
      · rcases rj _ j hj with rfl | rfl <;> omega
    · have hn1 : n = 1 := by
        by_contra hc
        exact hle (hone (by omega) hf)
      subst hn1
      have r2 : Dict.get? ([(1, some x0), (2, none)] : Steps) 2 = some none := rfl
      refine ⟨fun k hk => ?_, fun _ => ?_, fun j hj => ?_⟩
      · have : k = 0 := by omega
        subst this
        exact ⟨x0, hx0, by rw [sameIfMissing_get r2, if_neg (by omega)]; rfl⟩
      · rw [sameIfMissing_get r2, sameIfMissing_get r2, if_pos rfl, if_neg (by omega)]; rfl
      · rw [sameIfMissing_get r2] at hj
        split at hj
        · omega
        · rcases rj _ j hj with rfl | rfl <;> omega

theorem foldl_max_le (l : List Nat) (a : Nat) : a ≤ l.foldl max a ∧ (∀ x ∈ l, x ≤ l.foldl max a) ∧ (l.foldl max a = a ∨ l.foldl max a ∈ l) := by
  induction l generalizing a with
  | nil => exact ⟨Nat.le_refl _, fun x h => (by cases h), .inl rfl⟩
  | cons b l ih =>
    rw [List.foldl_cons]
    obtain ⟨h1, h2, h3⟩ := ih (max a b)
    refine ⟨by omega, fun x hx => ?_, ?_⟩
    · rcases List.mem_cons.1 hx with rfl | hx
      · omega
      · exact h2 x hx
    · rcases h3 with h3 | h3
      · rcases Nat.le_total a b with hab | hab
        · right; rw [h3, Nat.max_eq_right hab]; exact List.mem_cons_self ..
        · left; rw [h3, Nat.max_eq_left hab]
      · right; exact List.mem_cons_of_mem _ h3

theorem maxKey_eq {α : Type} {d : Dict Nat α} {k : Nat} (h1 : d.get? k ≠ none) (h2 : ∀ j, d.get? j ≠ none → j ≤ k) : maxKey d = .ok k := by
  have hk : k ∈ d.keys := (Dict.mem_keys_iff d k).2 (Option.isSome_iff_ne_none.2 h1)
  have hle : ∀ j ∈ d.keys, j ≤ k := fun j hj => h2 j (Option.isSome_iff_ne_none.1 ((Dict.mem_keys_iff d j).1 hj))
  unfold maxKey
  cases hd : d.keys with
  | nil => rw [hd] at hk; cases hk
  | cons a as =>
    simp only
    obtain ⟨g1, g2, g3⟩ := foldl_max_le as a
    rw [hd] at hk hle
    have u1 : as.foldl max a ≤ k := by
      rcases g3 with g3 | g3
      · rw [g3]; exact hle a (List.mem_cons_self ..)
      · exact hle _ (List.mem_cons_of_mem _ g3)
    have u2 : k ≤ as.foldl max a := by
      rcases List.mem_cons.1 hk with rfl | hk
      · exact g1
      · exact g2 k hk
    rw [Nat.le_antisymm u1 u2]

theorem Stored.steps {sets : List Node} {n : Nat} {r : Steps} (h : Stored sets n r) (hn : 0 < n) : StepsOf sets n (some r) := by
  obtain ⟨h1, h2, h3⟩ := h
  have ok : ∀ s ∈ known, checkStatus s = .ok () := fun s hs => if_pos hs
  obtain ⟨x0, hx0, g0⟩ := h1 0 hn
  obtain ⟨xl, hxl, gl⟩ := h1 (n - 1) (by omega)
  have hl : n - 1 + 1 = n := by omega
  rw [hl] at gl
  refine ⟨⟨x0, hx0, ?_⟩, ⟨xl, hxl, ?_⟩, r, ?_, h1, h3, h2⟩
  · unfold getSteps
    simp only
    rw [ok _ (by simp [known]), Res.ok_bind, if_pos trivial]
    unfold item; rw [g0]; rfl
  · unfold getSteps
    simp only
    rw [ok _ (by simp [known]), Res.ok_bind, if_neg (by decide), if_pos trivial]
    by_cases hn1 : n = 1
    · have e2 := h2 hn1
      subst hn1
      rw [maxKey_eq (k := 2) (by rw [e2, gl]; simp) fun j hj => by have := h3 j hj; omega, Res.ok_bind]
      unfold item; rw [e2, gl]; rfl
    · rw [maxKey_eq (k := n) (by rw [gl]; simp) fun j hj => by have := h3 j hj; omega, Res.ok_bind]
      unfold item; rw [gl]; rfl
  · unfold getSteps
    simp only
    rw [ok _ (by simp [known]), Res.ok_bind, if_neg (by decide), if_neg (by decide)]

theorem allSteps_absent (m n : Nat) (more : Bool) : allSteps m n more [] = .ok [(1, none), (2, none)] := by
  unfold allSteps
  simp only [opt_nil, Res.ok_bind, List.length_nil, List.isEmpty_nil, Bool.not_true, Bool.and_false, Bool.false_eq_true, if_false]
  rw [if_neg (by omega)]
  rfl

theorem absent_ok : Absent (some [(1, none), (2, none)]) := ⟨rfl, rfl⟩

/-- **C49**, all steps extracted (the default), for any number of steps and atoms but the one of the next theorem: in an accepted document
with a cell and positions in each of `n` structures, the four getters return the first, last and all of what is printed. Missing: one atom with two steps, for which the claim is false (`C49_violation_*`). -/
theorem C49_steps_partial (root : Node) (kbb : Bool) (d : Data) (h : parsew root kbb true = .ok d) (sp : List Nat) (hsp : d.species = some sp)
    (ha : 0 < sp.length) (n : Nat) (hn : 0 < n) (hs : (structures root).length = n) (hcell : PerStep (cellSets root) n 3)
    (hpos : PerStep (positionSets root) n sp.length) (hforce : forceSets root = [] ∨ PerStep (forceSets root) n sp.length)
    (hstress : stressSets root = [] ∨ PerStep (stressSets root) n 3) (hex : ¬ (sp.length = 1 ∧ n = 2)) :
    StepsOf (cellSets root) n d.unitcell ∧ StepsOf (positionSets root) n d.positions ∧
    (if forceSets root = [] then Absent d.forces else StepsOf (forceSets root) n d.forces) ∧
    (if stressSets root = [] then Absent d.stress else StepsOf (stressSets root) n d.stress) := by
  have hu := (parts h).upfs
  rw [hsp] at hu
  unfold fetchUpfs at hu
  simp only [Bool.not_true, Bool.false_eq_true, if_false] at hu
  have e1 : stepRows root [t c!"structure", t c!"crystal", tn c!"varray" c!"basis", t c!"v"] = (cellSets root).flatMap vIn := by
    rw [← follow_v, cellSets, ← findAny_append]; rfl
  have e2 : stepRows root [t c!"structure", tn c!"varray" c!"positions", t c!"v"] = (positionSets root).flatMap vIn := by
    rw [← follow_v, positionSets, ← findAny_append]; rfl
  have e3 : stepRows root [tn c!"varray" c!"forces", t c!"v"] = (forceSets root).flatMap vIn := by
    rw [← follow_v, forceSets, ← findAny_append]; rfl
  have e4 : stepRows root [tn c!"varray" c!"stress", t c!"v"] = (stressSets root).flatMap vIn := by
    rw [← follow_v, stressSets, ← findAny_append]; rfl
  have e5 : (stepRows root [t c!"structure"]).length = n := hs
  rw [e1, e2, e3, e4, e5, if_neg (by omega)] at hu
  generalize hmore : decide (max ((stressSets root).flatMap vIn).length (max ((forceSets root).flatMap vIn).length
    (max ((cellSets root).flatMap vIn).length ((positionSets root).flatMap vIn).length)) > 6) = more at hu
  have hmn : more = true ∨ n ≤ 2 := by
    by_cases hc : n ≤ 2
    · exact .inr hc
    · left
      rw [← hmore, decide_eq_true_eq, hcell.length]; omega
  have hone : n = 2 → more = false → 3 < n * sp.length := by
    intro h2 _; subst h2
    have : sp.length ≠ 1 := fun e => hex ⟨e, rfl⟩
    omega
  have hone3 : n = 2 → more = false → 3 < n * 3 := by intro h2 _; omega
  obtain ⟨rc, c1, c2⟩ := allSteps_ok hcell (by omega) hn hmn hone3
  obtain ⟨rp, p1, p2⟩ := allSteps_ok hpos ha hn hmn hone
  rw [c1, Res.ok_bind, p1, Res.ok_bind] at hu
  obtain ⟨rf, f1, hu⟩ := Res.bind_eq_ok.1 hu
  obtain ⟨rs, s1, hu⟩ := Res.bind_eq_ok.1 hu
  injection hu with hu
  simp only [Prod.mk.injEq] at hu
  obtain ⟨u1, u2, u3, u4⟩ := hu
  rw [← u1, ← u2, ← u3, ← u4]
  refine ⟨c2.steps hn, p2.steps hn, ?_, ?_⟩
  · by_cases hf : forceSets root = []
    · rw [if_pos hf]
      rw [hf, List.flatMap_nil, allSteps_absent] at f1
      injection f1 with f1; rw [← f1]; exact absent_ok
    · rw [if_neg hf]
      obtain ⟨r, g1, g2⟩ := allSteps_ok (hforce.resolve_left hf) ha hn hmn hone
      rw [g1] at f1; injection f1 with f1; rw [← f1]; exact g2.steps hn
  · by_cases hf : stressSets root = []
    · rw [if_pos hf]
      rw [hf, List.flatMap_nil, allSteps_absent] at s1
      injection s1 with s1; rw [← s1]; exact absent_ok
    · rw [if_neg hf]
      obtain ⟨r, g1, g2⟩ := allSteps_ok (hstress.resolve_left hf) (by omega) hn hmn hone3
      rw [g1] at s1; injection s1 with s1; rw [← s1]; exact g2.steps hn

/-! ### only the first and the last -/

/-- What is printed in the `v` elements, `None` if there are none. -/
def TableOf (es : List Node) (x : Option Table) : Prop := (es = [] ∧ x = none) ∨ (es ≠ [] ∧ ∃ rows, x = some rows ∧ List.Forall₂ Prints es rows)

/-- The `v` elements of the cell or the positions in a structure with this name. -/
def structureRows (root : Node) (name : Str) (ss : List Step) : List Node := findAny root (tn c!"structure" name) (ss ++ [t c!"v"])

theorem opt_table {es : List Node} (h : AllPrint 3 es) : ∃ x, opt (fun e => convert2D e 3) es = .ok x ∧ TableOf es x := by
  obtain ⟨rows, hr⟩ := h.rows
  cases es with
  | nil => exact ⟨none, rfl, .inl ⟨rfl, rfl⟩⟩
  | cons a as =>
    refine ⟨some rows, ?_, .inr ⟨by simp, rows, rfl, hr.imp fun _ _ h => h.1⟩⟩
    unfold opt; simp only; rw [convert2D_rows hr]; rfl

/-- The getters for two tables, where a missing second one is replaced by the first. -/
def TwoOf (first last : List Node) (q : Option Steps) : Prop :=
  ∃ a b, TableOf first a ∧ TableOf last b ∧ getSteps q c!"initial" = .ok (.one a) ∧ getSteps q c!"last" = .ok (.one (if last = [] then a else b))

theorem tableOf_none {es : List Node} {x : Option Table} (h : TableOf es x) : es = [] ↔ x = none := by
  rcases h with ⟨h1, h2⟩ | ⟨h1, rows, h2, _⟩
  · simp [h1, h2]
  · simp [h1, h2]

theorem initialFinal_ok {first last : List Node} (h1 : AllPrint 3 first) (h2 : AllPrint 3 last) :
    ∃ r, initialFinal first last = .ok r ∧ TwoOf first last (some r) := by
  obtain ⟨a, ha, hta⟩ := opt_table h1
  obtain ⟨b, hb, htb⟩ := opt_table h2
  unfold initialFinal
  rw [hb, Res.ok_bind, ha, Res.ok_bind]
  refine ⟨_, rfl, a, b, hta, htb, ?_, ?_⟩
  · cases b <;> rfl
  · cases b with
    | none => rw [if_pos ((tableOf_none htb).2 rfl)]; rfl
    | some b => rw [if_neg fun e => (by have := (tableOf_none htb).1 e; cases this)]; rfl

theorem firstLast_ok {sets : List Node} {n m : Nat} (h : PerStep sets n m) (hm : 0 < m) (hn : 0 < n) :
    ∃ r, firstLast m (sets.flatMap vIn) = .ok r ∧ Returns sets 0 (getSteps (some r) c!"initial") ∧ Returns sets (n - 1) (getSteps (some r) c!"last") := by
  have hne : sets.flatMap vIn ≠ [] := by
    intro e
    have := h.length
    rw [e] at this
    have := Nat.mul_pos hn hm
    simp at *; omega
  obtain ⟨x0, hx0, hc0⟩ := h.rows hn
  rw [Nat.zero_mul, List.drop_zero] at hc0
  obtain ⟨xl, hxl, hcl⟩ := h.rows (show n - 1 < n by omega)
  rw [← lastRows_eq h hm hn] at hcl
  unfold firstLast opt
  generalize sets.flatMap vIn = l at hne hc0 hcl
  cases l with
  | nil => exact absurd rfl hne
  | cons a as =>
    simp only [hc0, hcl, Res.ok_bind]
    exact ⟨_, rfl, ⟨x0, hx0, rfl⟩, xl, hxl, rfl⟩

/-- **C49** if only the first and last step are extracted: cell and positions are those of the initial and final structures (the
initial ones if there is no final one), forces and stress those of the first and last step. -/
theorem C49_first_last (root : Node) (kbb : Bool) (d : Data) (h : parsew root kbb false = .ok d) (sp : List Nat) (hsp : d.species = some sp)
    (ha : 0 < sp.length) (n : Nat) (hn : 0 < n)
    (hp : ∀ name, AllPrint 3 (structureRows root name [t c!"crystal", tn c!"varray" c!"basis"]) ∧
      AllPrint 3 (structureRows root name [tn c!"varray" c!"positions"]))
    (hforce : PerStep (forceSets root) n sp.length) (hstress : PerStep (stressSets root) n 3) :
    TwoOf (structureRows root c!"initialpos" [t c!"crystal", tn c!"varray" c!"basis"]) (structureRows root c!"finalpos" [t c!"crystal", tn c!"varray" c!"basis"])
      d.unitcell ∧
    TwoOf (structureRows root c!"initialpos" [tn c!"varray" c!"positions"]) (structureRows root c!"finalpos" [tn c!"varray" c!"positions"]) d.positions ∧
    Returns (forceSets root) 0 (getSteps d.forces c!"initial") ∧ Returns (forceSets root) (n - 1) (getSteps d.forces c!"last") ∧
    Returns (stressSets root) 0 (getSteps d.stress c!"initial") ∧ Returns (stressSets root) (n - 1) (getSteps d.stress c!"last") := by
  have hu := (parts h).upfs
  rw [hsp] at hu
  unfold fetchUpfs at hu
  simp only [Bool.not_false, if_true] at hu
  have e3 : stepRows root [tn c!"varray" c!"forces", t c!"v"] = (forceSets root).flatMap vIn := by
    rw [← follow_v, forceSets, ← findAny_append]; rfl
  have e4 : stepRows root [tn c!"varray" c!"stress", t c!"v"] = (stressSets root).flatMap vIn := by
    rw [← follow_v, stressSets, ← findAny_append]; rfl
  rw [e3, e4] at hu
  obtain ⟨rc, c1, c2⟩ := initialFinal_ok (hp c!"initialpos").1 (hp c!"finalpos").1
  obtain ⟨rp, p1, p2⟩ := initialFinal_ok (hp c!"initialpos").2 (hp c!"finalpos").2
  obtain ⟨rs, s1, s2, s3⟩ := firstLast_ok hstress (by omega) hn
  obtain ⟨rf, f1, f2, f3⟩ := firstLast_ok hforce ha hn
  change (initialFinal (structureRows root c!"initialpos" [t c!"crystal", tn c!"varray" c!"basis"])
      (structureRows root c!"finalpos" [t c!"crystal", tn c!"varray" c!"basis"]) >>= fun c =>
    initialFinal (structureRows root c!"initialpos" [tn c!"varray" c!"positions"]) (structureRows root c!"finalpos" [tn c!"varray" c!"positions"]) >>= fun p =>
    firstLast 3 ((stressSets root).flatMap vIn) >>= fun s => firstLast sp.length ((forceSets root).flatMap vIn) >>= fun f =>
      Res.ok (some c, some p, some f, some s)) = _ at hu
  rw [c1, Res.ok_bind, p1, Res.ok_bind, s1, Res.ok_bind, f1, Res.ok_bind] at hu
  injection hu with hu
  simp only [Prod.mk.injEq] at hu
  obtain ⟨u1, u2, u3, u4⟩ := hu
  rw [← u1, ← u2, ← u3, ← u4]
  exact ⟨c2, p2, f2, f3, s2, s3⟩

/-! ### examples -/

/-- Three rows of three numbers. -/
def rows3 (a b c : Str) : List Node := [leaf c!"v" a, leaf c!"v" b, leaf c!"v" c]
/-- An ionic step: structure, forces and stress; `x` is printed as the length of the cell and for all atoms. -/
def sampleStep (na : Nat) (x : Str) : Node := box c!"calculation" [
  box c!"structure" [box c!"crystal" [named c!"varray" c!"basis" (rows3 (x ++ c!" 0 0") (c!"0 " ++ x ++ c!" 0") (c!"0 0 " ++ x))],
    named c!"varray" c!"positions" (List.replicate na (leaf c!"v" (c!" 0.5 0.5 " ++ x)))],
  named c!"varray" c!"forces" (List.replicate na (leaf c!"v" (c!" 0.25 0.5 " ++ x))), named c!"varray" c!"stress" (rows3 c!"1 0 0" c!"0 1 0" c!"0 0 1")]
/-- Atoms. -/
def atomList (na : Nat) : Node :=
  box c!"atominfo" [named c!"array" c!"atoms" [box c!"set" (List.replicate na (box c!"rc" [leaf c!"c" c!"Si ", leaf c!"c" c!"   1"]))]]
/-- A document of three steps with two atoms. -/
def stepsDoc : Node := box c!"modeling" [atomList 2, sampleStep 2 c!"3.0", sampleStep 2 c!"3.5", sampleStep 2 c!"4.0"]

/-- A check of `PerStep`. -/
theorem perStep_of {sets : List Node} {n m : Nat} (h : (decide (sets.length = n) && sets.all fun s => decide ((vIn s).length = m) && numbers 3 (vIn s)) = true) :
    PerStep sets n m := by
  simp only [Bool.and_eq_true, decide_eq_true_eq, List.all_eq_true] at h
  exact ⟨h.1, fun s hs => ⟨(h.2 s hs).1, allPrint_of (h.2 s hs).2⟩⟩

example : ∃ d, parsew stepsDoc false true = .ok d ∧ d.species = some [14, 14] ∧ (structures stepsDoc).length = 3 ∧ PerStep (cellSets stepsDoc) 3 3 ∧
    PerStep (positionSets stepsDoc) 3 2 ∧ PerStep (forceSets stepsDoc) 3 2 ∧ PerStep (stressSets stepsDoc) 3 3 ∧
    getSteps d.positions c!"last" = .ok (.one (some [[1/2, 1/2, 4], [1/2, 1/2, 4]])) ∧
    getSteps d.forces c!"all" = .ok (.all [(1, some [[1/4, 1/2, 3], [1/4, 1/2, 3]]), (2, some [[1/4, 1/2, 7/2], [1/4, 1/2, 7/2]]),
      (3, some [[1/4, 1/2, 4], [1/4, 1/2, 4]])]) :=
  ⟨_, rfl, by decide +kernel, rfl, perStep_of (by decide +kernel), perStep_of (by decide +kernel), perStep_of (by decide +kernel),
    perStep_of (by decide +kernel), by decide +kernel, by decide +kernel⟩

/-- The hypotheses about the named structures. -/
example : ∃ d, parsew (box c!"modeling" [atomList 1, named c!"structure" c!"initialpos" [box c!"crystal" [named c!"varray" c!"basis" (rows3 c!"2 0 0" c!"0 2 0" c!"0 0 2")]],
      sampleStep 1 c!"3.0", sampleStep 1 c!"3.5"]) false false = .ok d ∧
    getSteps d.unitcell c!"last" = .ok (.one (some [[2, 0, 0], [0, 2, 0], [0, 0, 2]])) ∧
    getSteps d.forces c!"last" = .ok (.one (some [[1/4, 1/2, 7/2]])) := ⟨_, rfl, by decide +kernel, by decide +kernel⟩

/-- C49 is false for one atom and two steps: the positions and forces of the last step are replaced by those of the first. -/
theorem C49_violation_one_atom : ∃ d, parsew (box c!"modeling" [atomList 1, sampleStep 1 c!"3.0", sampleStep 1 c!"3.5"]) false true = .ok d ∧
    getSteps d.positions c!"last" = .ok (.one (some [[1/2, 1/2, 3]])) ∧ getSteps d.forces c!"last" = .ok (.one (some [[1/4, 1/2, 3]])) ∧
    getSteps d.unitcell c!"last" = .ok (.one (some [[7/2, 0, 0], [0, 7/2, 0], [0, 0, 7/2]])) := ⟨_, rfl, by decide +kernel, by decide +kernel, by decide +kernel⟩

/-- C49 is false for a single step: all steps are two steps. -/
theorem C49_violation_single : ∃ d, parsew (box c!"modeling" [atomList 1, sampleStep 1 c!"3.0"]) false true = .ok d ∧
    getSteps d.positions c!"all" = .ok (.all [(1, some [[1/2, 1/2, 3]]), (2, some [[1/2, 1/2, 3]])]) := ⟨_, rfl, by decide +kernel⟩

/-- C49 in general for one atom and two steps, where the forces of both steps are stored as those of the first. -/
theorem C49_one_atom (sets : List Node) (h : PerStep sets 2 1) : ∃ r, allSteps 1 2 false (sets.flatMap vIn) = .ok r ∧
    Returns sets 0 (getSteps (some r) c!"initial") ∧ Returns sets 0 (getSteps (some r) c!"last") := by
  obtain ⟨x0, hx0, hc0⟩ := h.rows (show 0 < 2 by omega)
  rw [Nat.zero_mul, List.drop_zero] at hc0
  have hl := h.length
  unfold allSteps opt
  generalize sets.flatMap vIn = l at hc0 hl
  cases l with
  | nil => simp at hl
  | cons a as =>
    simp only [hc0, Res.ok_bind]
    rw [if_neg (by omega)]
    exact ⟨_, rfl, ⟨x0, hx0, rfl⟩, x0, hx0, rfl⟩

end Verif.Vasprun
