import Verif.Props.EventExample
/-! # C53: documents on which the two parsers differ -/
set_option autoImplicit false
namespace Verif.VasprunEvent
open Verif Verif.Utils Verif.Xml Verif.Vasprun

/-- The document with other ionic steps. -/
def exWith (calcs : List Node) : Node := box c!"modeling" (exHead ++ calcs)

theorem okAnd {α : Type} {p : α → Prop} [DecidablePred p] {r : Res α} (h : (match r with | .ok x => decide (p x) | _ => false) = true) : ∃ x, r = .ok x ∧ p x := by
  cases r with
  | ok x => exact ⟨x, rfl, of_decide_eq_true h⟩
  | exit c => cases h
  | raise x => cases h

/-- A single ionic step: the regular parser stores it twice, as step 1 and step 2, the event driven one once. -/
theorem C53_violation_single : (∃ e, parsee (exWith [exStep1]) false = .ok e ∧ e.forces = some [(1, [[1, 2, 3], [4, 5, 6]])]) ∧
    ∃ d, parsew (exWith [exStep1]) false true = .ok d ∧ getSteps d.forces c!"all" = .ok (.all [(1, some [[1, 2, 3], [4, 5, 6]]), (2, some [[1, 2, 3], [4, 5, 6]])]) :=
  ⟨okAnd (by decide +kernel), okAnd (by decide +kernel)⟩

/-- Nothing about the dielectric functions: the regular parser stores a dictionary of `None`, the event driven one `None`. -/
theorem C53_violation_dielectrics : (∃ e, parsee (exWith []) false = .ok e ∧ e.dielectrics = none) ∧
    ∃ d, parsew (exWith []) false true = .ok d ∧ d.dielectrics = some ⟨none, none, none, none, none⟩ :=
  ⟨okAnd (by decide +kernel), okAnd (by decide +kernel)⟩

/-- An ionic step with the dielectric tensor. -/
def exEpsilon : Node := box c!"calculation" [named c!"varray" c!"epsilon" (rows3 c!"1 0 0" c!"0 1 0" c!"0 0 1")]

/-- The dielectric tensor is not read by the event driven parser. -/
theorem C53_violation_epsilon : (∃ e, parsee (exWith [exEpsilon]) false = .ok e ∧ e.dielectrics = none) ∧
    ∃ d, parsew (exWith [exEpsilon]) false true = .ok d ∧ d.dielectrics = some ⟨none, none, none, some [[1, 0, 0], [0, 1, 0], [0, 0, 1]], none⟩ :=
  ⟨okAnd (by decide +kernel), okAnd (by decide +kernel)⟩

/-- A total density of states at one energy. -/
def exTotal : Node := box c!"total" [box c!"array" [box c!"set" [commented c!"set" c!"spin 1" [leaf c!"r" c!" 1.0 0.5 0.25 "]]]]

/-- Two densities of states: the regular parser takes the rows of both together, the event driven one keeps the last. -/
theorem C53_violation_two_dos :
    (∃ e, parsee (exWith (List.replicate 2 (box c!"calculation" [box c!"dos" [exTotal]]))) false = .ok e ∧
      (e.dos.bind fun x => x.total.bind fun y => y.energy) = some [1]) ∧
    ∃ d, parsew (exWith (List.replicate 2 (box c!"calculation" [box c!"dos" [exTotal]]))) false true = .ok d ∧ d.dos.map (fun x => x.energy) = some [1, 1] :=
  ⟨okAnd (by decide +kernel), okAnd (by decide +kernel)⟩

/-- Only an interpolated density of states: the regular parser returns it as the density of states too. -/
theorem C53_violation_interpolated_dos :
    (∃ e, parsee (exWith [box c!"calculation" [commented c!"dos" c!"interpolated" [exTotal]]]) false = .ok e ∧ e.dos.isSome = false ∧ e.dosSpecific.isSome = true) ∧
    ∃ d, parsew (exWith [box c!"calculation" [commented c!"dos" c!"interpolated" [exTotal]]]) false true = .ok d ∧
      d.dos.map (fun x => x.energy) = some [1] ∧ d.dosSpecific.isSome = true :=
  ⟨okAnd (by decide +kernel), okAnd (by decide +kernel)⟩

/-- Eigenvalues given only with the projections: the event driven parser returns them, the regular one does not. -/
theorem C53_violation_projected :
    (∃ e, parsee (exWith [box c!"calculation" [exProjected]]) true = .ok e ∧ e.eigenvalues = some (.total [[-1, 5/2], [-3/2, 7/2]])) ∧
    ∃ d, parsew (exWith [box c!"calculation" [exProjected]]) true true = .ok d ∧ d.eigenvalues = none :=
  ⟨okAnd (by decide +kernel), okAnd (by decide +kernel)⟩

/-- An ionic step with two Fermi energies. -/
def exFermi : Node := box c!"calculation" [box c!"dos" [item' c!"i" c!"efermi" c!" 1.0 ", item' c!"i" c!"efermi" c!" 2.0 ", exTotal]]

/-- Two Fermi energies in a density of states: the event driven parser stops the program with status 500, the regular one takes the first. -/
theorem C53_violation_fermi : parsee (exWith [exFermi]) false = .exit 500 ∧
    ∃ d, parsew (exWith [exFermi]) false true = .ok d ∧ d.dos.map (fun x => x.fermi) = some (some 1) :=
  ⟨by decide +kernel, okAnd (by decide +kernel)⟩

/-- A document with `NBANDS` in another place. -/
def exMisplaced : Node := box c!"modeling" [exGenerator, exKpoints, box c!"parameters" [named c!"separator" c!"general" [item' c!"i" c!"NBANDS" c!" 7 "]], exAtoms]

/-- An element named like a parameter in another place: the event driven parser takes it, the regular one does not. -/
theorem C53_violation_parameter : (∃ e, parsee exMisplaced false = .ok e ∧ e.params.nbands = some 7) ∧
    ∃ d, parsew exMisplaced false true = .ok d ∧ d.params.nbands = none :=
  ⟨okAnd (by decide +kernel), okAnd (by decide +kernel)⟩

/-- A table without name in an ionic step: an uncaught `KeyError` with the event driven parser; the regular one does not look at it. -/
theorem C53_violation_unnamed : parsee (exWith [box c!"calculation" [box c!"varray" []]]) false = .raise .keyError ∧
    ∃ d, parsew (exWith [box c!"calculation" [box c!"varray" []]]) false true = .ok d ∧ d.species = some [14, 6] :=
  ⟨by decide +kernel, okAnd (by decide +kernel)⟩

/-- The density of states in front of the atoms: the event driven parser stops the program with status 501. -/
theorem C53_violation_order : parsee (box c!"modeling" [box c!"calculation" [exDos], exAtoms]) false = .exit 501 ∧
    ∃ d, parsew (box c!"modeling" [box c!"calculation" [exDos], exAtoms]) false true = .ok d ∧ d.dos.isSome = true :=
  ⟨by decide +kernel, okAnd (by decide +kernel)⟩

end Verif.VasprunEvent
