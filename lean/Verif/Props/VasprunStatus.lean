import Verif.Props.VasprunSteps
import Verif.Props.VasprunFile
/-! # Exactly which ionic step the getters of vasprun.xml show (C140, the exact form of C49 and C56) -/
set_option autoImplicit false
namespace Verif.Vasprun
open Verif Verif.Utils Verif.Xml

/-- Specification: the ionic step (counted from zero) shown as entry `k` (counted from zero), for a quantity of `rows` rows in each of `n`
steps. The only step shown twice is that of a calculation of one step, or the first of two if the quantity has one row. -/
def shown (rows n k : Nat) : Nat := if n = 1 ∨ (rows = 1 ∧ n = 2) then 0 else k

/-- Specification of the getter of a quantity printed in `n` steps: there are `max n 2` entries, numbered from one; `initial` is the first and
`last` the last of them, `all` has all and no others; every other word exits 507. -/
def Shows (sets : List Node) (rows n : Nat) (q : Option Steps) : Prop :=
  ∃ table : Nat → Table, (∀ k, k < max n 2 → StepTable sets (shown rows n k) (table k)) ∧
    getSteps q c!"initial" = .ok (.one (some (table 0))) ∧ getSteps q c!"last" = .ok (.one (some (table (max n 2 - 1)))) ∧
    (∃ all, getSteps q c!"all" = .ok (.all all) ∧ ∀ j, all.get? j = if 1 ≤ j ∧ j ≤ max n 2 then some (some (table (j - 1))) else none) ∧
    ∀ status, status ≠ c!"initial" → status ≠ c!"last" → status ≠ c!"all" → getSteps q status = .exit 507

/-- Specification of the getter of a quantity that is not printed: `None` for the first and last step, two times `None` for all. -/
def ShowsNone (q : Option Steps) : Prop :=
  getSteps q c!"initial" = .ok (.one none) ∧ getSteps q c!"last" = .ok (.one none) ∧
    getSteps q c!"all" = .ok (.all [(1, none), (2, none)]) ∧
    ∀ status, status ≠ c!"initial" → status ≠ c!"last" → status ≠ c!"all" → getSteps q status = .exit 507

theorem other_status (r : Steps) (status : Str) (h1 : status ≠ c!"initial") (h2 : status ≠ c!"last") (h3 : status ≠ c!"all") :
    getSteps (some r) status = .exit 507 := by
  unfold getSteps checkStatus
  simp only
  rw [if_neg (by simp [h1, h2, h3])]
  rfl

theorem shows_of_table {sets : List Node} {rows n : Nat} {r : Steps} (table : Nat → Table)
    (ht : ∀ k, k < max n 2 → StepTable sets (shown rows n k) (table k))
    (hr : ∀ j, r.get? j = if 1 ≤ j ∧ j ≤ max n 2 then some (some (table (j - 1))) else none) : Shows sets rows n (some r) := by
  have ok : ∀ s ∈ known, checkStatus s = .ok () := fun s hs => if_pos hs
  have hm : 2 ≤ max n 2 := Nat.le_max_right _ _
  unfold Shows
  generalize max n 2 = m at *
  refine ⟨table, ht, ?_, ?_, ⟨r, ?_, hr⟩, other_status r⟩
  · unfold getSteps
    simp only
    rw [ok _ (by simp [known]), Res.ok_bind, if_pos trivial]
    unfold item; rw [hr, if_pos (by omega)]; rfl
  · unfold getSteps
    simp only
    rw [ok _ (by simp [known]), Res.ok_bind, if_neg (by decide), if_pos trivial]
    rw [maxKey_eq (k := m) (by rw [hr, if_pos (by omega)]; simp) fun j hj => by
      rw [hr] at hj
      by_contra hc
      rw [if_neg (by omega)] at hj
      exact hj rfl]
    rw [Res.ok_bind]
    unfold item; rw [hr, if_pos (by omega)]; rfl
  · unfold getSteps
    simp only
    rw [ok _ (by simp [known]), Res.ok_bind, if_neg (by decide), if_neg (by decide)]

/-- Everything stored for one quantity, in all cases. -/
theorem allSteps_shows {sets : List Node} {n m : Nat} {more : Bool} (h : PerStep sets n m) (hm : 0 < m) (hn : 0 < n) (hmore : more = true ∨ n ≤ 2)
    (hone : n = 2 → m = 1 → more = false) (hbig : n = 2 → more = false → m = 1 ∨ 3 < n * m) :
    ∃ r, allSteps m n more (sets.flatMap vIn) = .ok r ∧ Shows sets m n (some r) := by
  by_cases hex : m = 1 ∧ n = 2
  · obtain ⟨rfl, rfl⟩ := hex
    have := hone rfl rfl
    subst this
    obtain ⟨x0, hx0, hc0⟩ := h.rows (show 0 < 2 by omega)
    rw [Nat.zero_mul, List.drop_zero] at hc0
    have hl := h.length
    have hr : allSteps 1 2 false (sets.flatMap vIn) = .ok [(1, some x0), (2, some x0)] := by
      unfold allSteps opt
      generalize sets.flatMap vIn = l at hc0 hl
      cases l with
      | nil => simp at hl
      | cons a as =>
        simp only [hc0, Res.ok_bind]
        rw [if_neg (by omega)]
        rfl
    refine ⟨_, hr, shows_of_table (fun _ => x0) (fun k _ => by simpa [shown] using hx0) ?_⟩
    intro j
    simp only [Dict.get?]
    by_cases h1 : 1 = j
    · subst h1; simp
    · by_cases h2 : 2 = j
      · subst h2; simp
      · simp only [h1, h2, if_false]
        rw [if_neg (by simp; omega)]
  · obtain ⟨r, h1, h2, h3, h4⟩ := allSteps_ok h hm hn hmore (fun a b => by
      rcases hbig a b with h | h
      · exact absurd ⟨h, a⟩ hex
      · exact h)
    refine ⟨r, h1, ?_⟩
    -- the table of every step
    have hall : ∀ k, ∃ x, k < n → StepTable sets k x ∧ r.get? (k + 1) = some (some x) := by
      intro k
      by_cases hk : k < n
      · obtain ⟨x, hx⟩ := h2 k hk; exact ⟨x, fun _ => hx⟩
      · exact ⟨[], fun h => absurd h hk⟩
    obtain ⟨T, hT⟩ := Classical.axiomOfChoice hall
    have hs : ∀ k, shown m n k = if n = 1 then 0 else k := by
      intro k
      unfold shown
      by_cases h' : n = 1
      · simp [h']
      · rw [if_neg h', if_neg]; rintro (h | h)
        · exact h' h
        · exact hex h
    refine shows_of_table (fun k => T (if n = 1 then 0 else k)) ?_ ?_
    · intro k hk
      rw [hs]
      refine (hT _ ?_).1
      split <;> omega
    · intro j
      by_cases hj : 1 ≤ j ∧ j ≤ max n 2
      · rw [if_pos hj]
        by_cases h' : n = 1
        · simp only [h', if_true]
          have hj' : j = 1 ∨ j = 2 := by subst h'; omega
          rcases hj' with rfl | rfl
          · exact (hT 0 hn).2
          · rw [h3 h']; exact (hT 0 hn).2
        · simp only [h', if_false]
          have := (hT (j - 1) (by omega)).2
          rwa [show j - 1 + 1 = j by omega] at this
      · rw [if_neg hj]
        by_contra hc
        have := h4 j hc
        omega

/-- **C140**, all steps extracted (the default), for every number of steps and atoms: in an accepted document with a cell and positions in each of
`n` structures, every getter shows exactly what `Shows` says, and one of a quantity that is not printed what `ShowsNone` says. -/
theorem C140_steps (root : Node) (kbb : Bool) (d : Data) (h : parsew root kbb true = .ok d) (sp : List Nat) (hsp : d.species = some sp)
    (ha : 0 < sp.length) (n : Nat) (hn : 0 < n) (hs : (structures root).length = n) (hcell : PerStep (cellSets root) n 3)
    (hpos : PerStep (positionSets root) n sp.length) (hforce : forceSets root = [] ∨ PerStep (forceSets root) n sp.length)
    (hstress : stressSets root = [] ∨ PerStep (stressSets root) n 3) :
    Shows (cellSets root) 3 n d.unitcell ∧ Shows (positionSets root) sp.length n d.positions ∧
    (if forceSets root = [] then ShowsNone d.forces else Shows (forceSets root) sp.length n d.forces) ∧
    (if stressSets root = [] then ShowsNone d.stress else Shows (stressSets root) 3 n d.stress) := by
  have hu := (parts h).upfs
  rw [hsp] at hu
  unfold fetchUpfs at hu
  simp only [Bool.not_true, Bool.false_eq_true, if_false] at hu
  have e1 : stepRows root [t c!"structure", t c!"crystal", tn c!"varray" c!"basis", t c!"v"] = (cellSets root).flatMap vIn := by
    rw [← follow_v, cellSets, ← findAny_append]; rfl
  have e2 : stepRows root [t c!"structure", tn c!"varray" c!"positions", t c!"v"] = (positionSets root).flatMap vIn := by
    rw [← follow_v, positionSets, ← findAny_append]; rfl
  have e3 : stepRows root [tn c!"varray" c!"forces", t c!"v"] = (forceSets root).flatMap vIn := by
    rw [← follow_v, forceSets, ← findAny_append]; rfl
  have e4 : stepRows root [tn c!"varray" c!"stress", t c!"v"] = (stressSets root).flatMap vIn := by
    rw [← follow_v, stressSets, ← findAny_append]; rfl
  have e5 : (stepRows root [t c!"structure"]).length = n := hs
  rw [e1, e2, e3, e4, e5, if_neg (by omega)] at hu
  generalize hmore : decide (max ((stressSets root).flatMap vIn).length (max ((forceSets root).flatMap vIn).length
    (max ((cellSets root).flatMap vIn).length ((positionSets root).flatMap vIn).length)) > 6) = more at hu
  have hmn : more = true ∨ n ≤ 2 := by
    by_cases hc : n ≤ 2
    · exact .inr hc
    · left
      rw [← hmore, decide_eq_true_eq, hcell.length]; omega
  have hsl : ((stressSets root).flatMap vIn).length ≤ n * 3 := by
    rcases hstress with h | h
    · simp [h]
    · rw [h.length]
  have hfl : ((forceSets root).flatMap vIn).length ≤ n * sp.length := by
    rcases hforce with h | h
    · simp [h]
    · rw [h.length]
  have hone : n = 2 → sp.length = 1 → more = false := by
    intro h2 h1
    rw [← hmore, decide_eq_false_iff_not, hcell.length, hpos.length]
    rw [h2, h1] at hfl
    rw [h2] at hsl
    rw [h2, h1]
    omega
  have hone3 : n = 2 → 3 = 1 → more = false := by intro _ h; cases h
  have hbig : n = 2 → more = false → sp.length = 1 ∨ 3 < n * sp.length := by
    intro h2 _; subst h2
    by_cases h1 : sp.length = 1
    · exact .inl h1
    · right; omega
  have hbig3 : n = 2 → more = false → 3 = 1 ∨ 3 < n * 3 := by intro h2 _; right; omega
  obtain ⟨rc, c1, c2⟩ := allSteps_shows hcell (by omega) hn hmn hone3 hbig3
  obtain ⟨rp, p1, p2⟩ := allSteps_shows hpos ha hn hmn hone hbig
  rw [c1, Res.ok_bind, p1, Res.ok_bind] at hu
  obtain ⟨rf, f1, hu⟩ := Res.bind_eq_ok.1 hu
  obtain ⟨rs, s1, hu⟩ := Res.bind_eq_ok.1 hu
  injection hu with hu
  simp only [Prod.mk.injEq] at hu
  obtain ⟨u1, u2, u3, u4⟩ := hu
  rw [← u1, ← u2, ← u3, ← u4]
  have hnone : ShowsNone (some [(1, none), (2, none)]) := ⟨rfl, rfl, rfl, other_status _⟩
  refine ⟨c2, p2, ?_, ?_⟩
  · by_cases hf : forceSets root = []
    · rw [if_pos hf]
      rw [hf, List.flatMap_nil, allSteps_absent] at f1
      injection f1 with f1; rw [← f1]; exact hnone
    · rw [if_neg hf]
      obtain ⟨r, g1, g2⟩ := allSteps_shows (hforce.resolve_left hf) ha hn hmn hone hbig
      rw [g1] at f1; injection f1 with f1; rw [← f1]; exact g2
  · by_cases hf : stressSets root = []
    · rw [if_pos hf]
      rw [hf, List.flatMap_nil, allSteps_absent] at s1
      injection s1 with s1; rw [← s1]; exact hnone
    · rw [if_neg hf]
      obtain ⟨r, g1, g2⟩ := allSteps_shows (hstress.resolve_left hf) (by omega) hn hmn hone3 hbig3
      rw [g1] at s1; injection s1 with s1; rw [← s1]; exact g2

/-- **C140**, no steps: a document without atoms, or without a structure in any step if all steps are extracted, gives `None` from every
getter, whatever the word; and in all other accepted documents every unknown word exits 507. -/
theorem C140_status (root : Node) (kbb all : Bool) (d : Data) (h : parsew root kbb all = .ok d) (status : Str)
    (h1 : status ≠ c!"initial") (h2 : status ≠ c!"last") (h3 : status ≠ c!"all") :
    ∀ q ∈ [d.unitcell, d.positions, d.forces, d.stress],
      getSteps q status = if d.species = none ∨ (all = true ∧ structures root = []) then .ok .nothing else .exit 507 := by
  have hu := (parts h).upfs
  cases hsp : d.species with
  | none =>
    rw [hsp] at hu
    unfold fetchUpfs at hu
    simp only at hu
    injection hu with hu
    simp only [Prod.mk.injEq] at hu
    obtain ⟨u1, u2, u3, u4⟩ := hu
    rw [← u1, ← u2, ← u3, ← u4]
    intro q hq
    simp only [List.mem_cons, List.not_mem_nil, or_false, or_self] at hq
    subst hq
    simp [getSteps]
  | some sp =>
    rw [hsp] at hu
    unfold fetchUpfs at hu
    simp only at hu
    have some4 : ∀ a b c e : Steps, (some a, some b, some c, some e) = (d.unitcell, d.positions, d.forces, d.stress) →
        ∀ q ∈ [d.unitcell, d.positions, d.forces, d.stress], getSteps q status = .exit 507 := by
      intro a b c e he q hq
      simp only [Prod.mk.injEq] at he
      obtain ⟨u1, u2, u3, u4⟩ := he
      rw [← u1, ← u2, ← u3, ← u4] at hq
      simp only [List.mem_cons, List.not_mem_nil, or_false] at hq
      rcases hq with rfl | rfl | rfl | rfl <;> exact other_status _ status h1 h2 h3
    cases all with
    | false =>
      simp only [Bool.not_false, if_true] at hu
      obtain ⟨c, _, hu⟩ := Res.bind_eq_ok.1 hu
      obtain ⟨p, _, hu⟩ := Res.bind_eq_ok.1 hu
      obtain ⟨s, _, hu⟩ := Res.bind_eq_ok.1 hu
      obtain ⟨f, _, hu⟩ := Res.bind_eq_ok.1 hu
      injection hu with hu
      intro q hq
      rw [if_neg (by simp)]
      exact some4 _ _ _ _ hu q hq
    | true =>
      simp only [Bool.not_true, Bool.false_eq_true, if_false] at hu
      by_cases hn : structures root = []
      · have e5 : (stepRows root [t c!"structure"]).length = 0 := by
          show (structures root).length = 0
          rw [hn]; rfl
        rw [if_pos e5] at hu
        injection hu with hu
        simp only [Prod.mk.injEq] at hu
        obtain ⟨u1, u2, u3, u4⟩ := hu
        rw [← u1, ← u2, ← u3, ← u4]
        intro q hq
        simp only [List.mem_cons, List.not_mem_nil, or_false, or_self] at hq
        subst hq
        simp [getSteps, hn]
      · have e5 : (stepRows root [t c!"structure"]).length ≠ 0 := by
          show (structures root).length ≠ 0
          simpa using hn
        rw [if_neg e5] at hu
        obtain ⟨c, _, hu⟩ := Res.bind_eq_ok.1 hu
        obtain ⟨p, _, hu⟩ := Res.bind_eq_ok.1 hu
        obtain ⟨s, _, hu⟩ := Res.bind_eq_ok.1 hu
        obtain ⟨f, _, hu⟩ := Res.bind_eq_ok.1 hu
        injection hu with hu
        intro q hq
        rw [if_neg (by simp [hn])]
        exact some4 _ _ _ _ hu q hq

/-- The hypotheses hold for one atom and two steps, and for one step. -/
example : ∃ d, parsew (box c!"modeling" [atomList 1, sampleStep 1 c!"3.0", sampleStep 1 c!"3.5"]) false true = .ok d ∧ d.species = some [14] ∧
    (structures (box c!"modeling" [atomList 1, sampleStep 1 c!"3.0", sampleStep 1 c!"3.5"])).length = 2 ∧
    PerStep (cellSets (box c!"modeling" [atomList 1, sampleStep 1 c!"3.0", sampleStep 1 c!"3.5"])) 2 3 ∧
    PerStep (positionSets (box c!"modeling" [atomList 1, sampleStep 1 c!"3.0", sampleStep 1 c!"3.5"])) 2 1 :=
  ⟨_, rfl, by decide +kernel, rfl, perStep_of (by decide +kernel), perStep_of (by decide +kernel)⟩

example : ∃ d, parsew (box c!"modeling" [atomList 1, sampleStep 1 c!"3.0"]) false true = .ok d ∧ d.species = some [14] ∧
    (structures (box c!"modeling" [atomList 1, sampleStep 1 c!"3.0"])).length = 1 ∧
    PerStep (cellSets (box c!"modeling" [atomList 1, sampleStep 1 c!"3.0"])) 1 3 ∧
    PerStep (positionSets (box c!"modeling" [atomList 1, sampleStep 1 c!"3.0"])) 1 1 :=
  ⟨_, rfl, by decide +kernel, rfl, perStep_of (by decide +kernel), perStep_of (by decide +kernel)⟩

end Verif.Vasprun
