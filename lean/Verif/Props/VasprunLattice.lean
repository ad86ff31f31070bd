import Verif.Props.VasprunStatus
import Verif.Props.VasprunApi
/-! # Exactly which steps `get_lattice` puts together (C144, the exact form of C79) -/
set_option autoImplicit false
namespace Verif.VasprunApi
open Verif Verif.Utils Verif.Xml Verif.Vasprun

/-- Specification of the lattice: `u k` and `p k` are the unit cell and the positions shown as entry `k`; `initial` is the first and `last` the last of the
`max n 2` entries, `all` has all of them and no others, and every other word exits 507. The species are always the same. -/
def LatticeOf (o : Obj) (sp : List Nat) (n : Nat) (u p : Nat → Table) : Prop :=
  getLattice o c!"initial" = .ok ⟨.one (some (u 0)), .one (some (p 0)), some sp⟩ ∧
  getLattice o c!"last" = .ok ⟨.one (some (u (max n 2 - 1))), .one (some (p (max n 2 - 1))), some sp⟩ ∧
  (∃ us ps, getLattice o c!"all" = .ok ⟨.all us, .all ps, some sp⟩ ∧
    (∀ j, us.get? j = if 1 ≤ j ∧ j ≤ max n 2 then some (some (u (j - 1))) else none) ∧
    (∀ j, ps.get? j = if 1 ≤ j ∧ j ≤ max n 2 then some (some (p (j - 1))) else none)) ∧
  ∀ status, status ≠ c!"initial" → status ≠ c!"last" → status ≠ c!"all" → getLattice o status = .exit 507

/-- **C144**, all steps extracted, for every number of steps and atoms: the unit cell of entry `k` is that of step `k` (of step 0 if there is only one), the
positions are those of the same step except with one atom and two steps, where they are those of the first step in both entries. -/
theorem C144_lattice (root : Node) (kb tr : Bool) (d : Data) (h : parsew root kb true = .ok d) (sp : List Nat) (hsp : d.species = some sp)
    (ha : 0 < sp.length) (n : Nat) (hn : 0 < n) (hs : (structures root).length = n) (hcell : PerStep (cellSets root) n 3)
    (hpos : PerStep (positionSets root) n sp.length) (hforce : forceSets root = [] ∨ PerStep (forceSets root) n sp.length)
    (hstress : stressSets root = [] ∨ PerStep (stressSets root) n 3) :
    ∃ u p, LatticeOf ⟨tr, .whole d⟩ sp n u p ∧ ∀ k, k < max n 2 →
      StepTable (cellSets root) (if n = 1 then 0 else k) (u k) ∧
      StepTable (positionSets root) (if n = 1 ∨ (sp.length = 1 ∧ n = 2) then 0 else k) (p k) := by
  obtain ⟨⟨u, hu, u1, u2, ⟨us, u3, u4⟩, u5⟩, ⟨p, hp, p1, p2, ⟨ps, p3, p4⟩, p5⟩, _⟩ :=
    C140_steps root kb d h sp hsp ha n hn hs hcell hpos hforce hstress
  refine ⟨u, p, ⟨?_, ?_, ⟨us, ps, ?_, u4, p4⟩, ?_⟩, fun k hk => ⟨?_, hp k hk⟩⟩
  · unfold getLattice getUnitcell getPositions getSpecies
    simp only [u1, p1, Res.ok_bind, hsp]
  · unfold getLattice getUnitcell getPositions getSpecies
    simp only [u2, p2, Res.ok_bind, hsp]
  · unfold getLattice getUnitcell getPositions getSpecies
    simp only [u3, p3, Res.ok_bind, hsp]
  · intro status h1 h2 h3
    unfold getLattice getUnitcell
    simp only [u5 status h1 h2 h3]
    rfl
  · have := hu k hk
    unfold shown at this
    have e : (if n = 1 ∨ (3 = 1 ∧ n = 2) then 0 else k) = if n = 1 then 0 else k := by simp
    rwa [e] at this

/-- About the steps named in `C144_lattice`: unit cell and positions of an entry belong to the same step for all entries if and only if there are not two steps of one atom. -/
theorem sameStep_iff (sp : List Nat) (n : Nat) :
    (∀ k, k < max n 2 → (if n = 1 then 0 else k) = (if n = 1 ∨ (sp.length = 1 ∧ n = 2) then 0 else k)) ↔ ¬ (sp.length = 1 ∧ n = 2) := by
  constructor
  · rintro h ⟨h1, rfl⟩
    have := h 1 (by omega)
    simp [h1] at this
  · intro h k _
    by_cases hn : n = 1
    · simp [hn]
    · rw [if_neg hn, if_neg]
      rintro (g | g)
      · exact hn g
      · exact h g

/-- **C144**, unknown words: `None` for cell and positions without atoms or, with all steps extracted, without structures; exit 507 otherwise. -/
theorem C144_status (root : Node) (kb all tr : Bool) (d : Data) (h : parsew root kb all = .ok d) (status : Str)
    (h1 : status ≠ c!"initial") (h2 : status ≠ c!"last") (h3 : status ≠ c!"all") :
    getLattice ⟨tr, .whole d⟩ status =
      if d.species = none ∨ (all = true ∧ structures root = []) then .ok ⟨.nothing, .nothing, d.species⟩ else .exit 507 := by
  have key := C140_status root kb all d h status h1 h2 h3
  have ku := key d.unitcell (by simp)
  have kp := key d.positions (by simp)
  unfold getLattice getUnitcell getPositions getSpecies
  simp only [ku, kp]
  split <;> rfl

/-- One atom and two steps: the last lattice has the cell of the second step and the positions of the first. -/
example : ∃ d, parsew (box c!"modeling" [atomList 1, sampleStep 1 c!"3.0", sampleStep 1 c!"3.5"]) false true = .ok d ∧ d.species = some [14] ∧
    getLattice ⟨false, .whole d⟩ c!"last" = .ok ⟨.one (some [[7/2, 0, 0], [0, 7/2, 0], [0, 0, 7/2]]), .one (some [[1/2, 1/2, 3]]), some [14]⟩ := by
  refine ⟨_, rfl, by decide +kernel, by decide +kernel⟩

end Verif.VasprunApi
