import Verif.Props.EventDosAgree
/-! # C53: a document that meets the hypotheses -/
set_option autoImplicit false
namespace Verif.VasprunEvent
open Verif Verif.Utils Verif.Xml Verif.Vasprun

/-! ### deciding the layout -/

instance (m : Node) : Decidable (Still m) := by unfold Still; infer_instance
instance (n : Node) : Decidable (Filler n) := by unfold Filler; infer_instance
instance (m : Node) : Decidable (Quiet m) := by
  have : Decidable (∃ v, name m = some v ∧ v ≠ c!"forces" ∧ v ≠ c!"stress") :=
    decidable_of_iff ((match name m with | none => false | some v => decide (v ≠ c!"forces") && decide (v ≠ c!"stress")) = true) (by
      cases h : name m with
      | none => simp
      | some v => simp)
  unfold Quiet; infer_instance
instance (m : Node) : Decidable (QuietTree m) := by unfold QuietTree; infer_instance
instance (m : Node) : Decidable (Untold m) := by unfold Untold; infer_instance
instance (m : Node) : Decidable (VRows m) := by unfold VRows; infer_instance
instance (m : Node) : Decidable (StructPart m) := by unfold StructPart; infer_instance
instance (m : Node) : Decidable (StructureOk m) := by unfold StructureOk; infer_instance
instance (m : Node) : Decidable (ScQuiet m) := by unfold ScQuiet; infer_instance
instance (m : Node) : Decidable (Item m) := by
  have : Decidable (∃ v, name m = some v) := decidable_of_iff ((name m).isSome = true) (Option.isSome_iff_exists)
  unfold Item; infer_instance
instance (m : Node) : Decidable (ScstepOk m) := by unfold ScstepOk; infer_instance
instance (m : Node) : Decidable (EnergyOk m) := by unfold EnergyOk; infer_instance
instance (s1 s2 : Str) (m : Node) : Decidable (NoSpin s1 s2 m) := by unfold NoSpin; infer_instance
instance decRows (s1 s2 : Str) : ∀ (k : Nat) (m : Node), Decidable (RowsOk s1 s2 k m)
  | 0, m => by unfold RowsOk; infer_instance
  | k + 1, m => by
    have := decRows s1 s2 k
    unfold RowsOk; infer_instance
instance decSpins (s1 s2 : Str) (k : Nat) : ∀ (w : Nat) (m : Node), Decidable (SpinsOk s1 s2 k w m)
  | 0, m => by unfold SpinsOk; infer_instance
  | w + 1, m => by
    have := decSpins s1 s2 k w
    unfold SpinsOk; infer_instance
instance (n : Node) : Decidable (Description n) := by unfold Description; infer_instance
instance (s1 s2 : Str) (w k : Nat) (n : Node) : Decidable (ArrayOk s1 s2 w k n) := by unfold ArrayOk; infer_instance
instance (s1 s2 : Str) (w k : Nat) (n : Node) : Decidable (TableOk s1 s2 w k n) := by unfold TableOk; infer_instance
instance (n : Node) : Decidable (EigenvaluesOk n) := by unfold EigenvaluesOk; infer_instance
instance (n : Node) : Decidable (DosPartOk n) := by unfold DosPartOk; infer_instance
instance (n : Node) : Decidable (DosOk n) := by unfold DosOk; infer_instance
instance (n : Node) : Decidable (DynQuiet n) := by unfold DynQuiet; infer_instance
instance (n : Node) : Decidable (DynPart n) := by unfold DynPart; infer_instance
instance (n : Node) : Decidable (DynmatOk n) := by unfold DynmatOk; infer_instance
instance (n : Node) : Decidable (SpQuiet n) := by unfold SpQuiet; infer_instance
instance (n : Node) : Decidable (SpPart n) := by unfold SpPart; infer_instance

/-! ### the document -/

/-- The program. -/
def exGenerator : Node := box c!"generator" [item' c!"i" c!"program" c!"vasp ", item' c!"i" c!"version" c!"5.4.4.18Apr17 "]
/-- The input, which is not read. -/
def exIncar : Node := box c!"incar" [item' c!"i" c!"SYSTEM" c!"something else"]
/-- The k-points. -/
def exPoints : Node := named c!"varray" c!"kpointlist" [leaf c!"v" c!" 0.0 0.0 0.0 ", leaf c!"v" c!" 0.5 0.0 0.0 "]
/-- Their weights. -/
def exWeights : Node := named c!"varray" c!"weights" [leaf c!"v" c!" 0.25 ", leaf c!"v" c!" 0.75 "]
/-- The k-points section. -/
def exKpoints : Node := box c!"kpoints" [.node c!"generation" [(c!"param", c!"Gamma")] none [item' c!"v" c!"divisions" c!" 2 1 1 "], exPoints, exWeights]
/-- The parameters. -/
def exParameters : Node := box c!"parameters" [named c!"separator" c!"general" [item' c!"i" c!"SYSTEM" c!" silicon"],
  named c!"separator" c!"electronic" [item' c!"i" c!"NBANDS" c!" 2 ", item' c!"i" c!"NELECT" c!" 8.0 ",
    named c!"separator" c!"electronic smearing" [item' c!"i" c!"ISMEAR" c!" 0 ", item' c!"i" c!"SIGMA" c!" 0.125 "],
    named c!"separator" c!"electronic spin" [item' c!"i" c!"ISPIN" c!" 1 "],
    named c!"separator" c!"electronic convergence" [item' c!"i" c!"NELM" c!" 60 "]],
  named c!"separator" c!"ionic" [item' c!"i" c!"NSW" c!" 2 "], named c!"separator" c!"symmetry" [item' c!"i" c!"SYMPREC" c!" 0.5 "]]
/-- The array of atoms. -/
def exArray : Node := named c!"array" c!"atoms" [leaf c!"dimension" c!"ion", leaf c!"field" c!"element", box c!"set" [
  box c!"rc" [leaf c!"c" c!"Si ", leaf c!"c" c!"   1"], box c!"rc" [leaf c!"c" c!"C  ", leaf c!"c" c!"   2"]]]
/-- The atoms. -/
def exAtoms : Node := box c!"atominfo" [leaf c!"atoms" c!"       2 ", leaf c!"types" c!"       2 ", exArray,
  named c!"array" c!"atomtypes" [leaf c!"dimension" c!"type", box c!"set" [box c!"rc" [leaf c!"c" c!"   1", leaf c!"c" c!"Si"], box c!"rc" [leaf c!"c" c!"   1", leaf c!"c" c!"C "]]]]
/-- A structure. -/
def exStructure (x : Str) : Node := box c!"structure" [
  box c!"crystal" [named c!"varray" c!"basis" (rows3 (x ++ c!" 0 0") (c!"0 " ++ x ++ c!" 0") (c!"0 0 " ++ x)), item' c!"i" c!"volume" c!" 27.0 ",
    named c!"varray" c!"rec_basis" (rows3 c!"1 0 0" c!"0 1 0" c!"0 0 1")],
  named c!"varray" c!"positions" [leaf c!"v" (c!" 0.5 0.5 " ++ x), leaf c!"v" (c!" 0.0 0.5 " ++ x)]]
/-- An electronic step. -/
def exScstep (x : Str) : Node := box c!"scstep" [item' c!"time" c!"total" c!" 1.0 2.0 ", box c!"energy" [item' c!"i" c!"alphaZ" c!" 9.0 ",
  item' c!"i" c!"e_fr_energy" (x ++ c!".5"), item' c!"i" c!"e_wo_entrp" (x ++ c!".25"), item' c!"i" c!"e_0_energy" (x ++ c!".75")]]
/-- The rows of a table of eigenvalues. -/
def exTable : Node := box c!"array" [leaf c!"dimension" c!"band", leaf c!"field" c!"eigene", box c!"set" [commented c!"set" c!"spin 1"
  [commented c!"set" c!"kpoint 1" [leaf c!"r" c!" -1.0 1.0 ", leaf c!"r" c!" 2.5 0.0 "],
   commented c!"set" c!"kpoint 2" [leaf c!"r" c!" -1.5 1.0 ", leaf c!"r" c!" 3.5 0.25 "]]]]
/-- The eigenvalues. -/
def exEigen : Node := box c!"eigenvalues" [exTable]
/-- Special k-points. -/
def exSpecial : Node := box c!"kpoints" [box c!"generation" [], named c!"varray" c!"kpointlist" [leaf c!"v" c!" 0.25 0.0 0.0 ", leaf c!"v" c!" 0.25 0.25 0.0 "],
  named c!"varray" c!"weights" [leaf c!"v" c!" 0.5 ", leaf c!"v" c!" 0.5 "]]
/-- Interpolated eigenvalues. -/
def exInterpolated : Node := commented c!"eigenvalues" c!"interpolated" [exSpecial, exEigen]
/-- The array of projections. -/
def exProjArray : Node := box c!"array" [leaf c!"dimension" c!"ion", box c!"set" [commented c!"set" c!"spin1" [commented c!"set" c!"kpoint 1"
  [sampleBand c!"1" c!"2", sampleBand c!"3" c!"4"], commented c!"set" c!"kpoint 2" [sampleBand c!"5" c!"6", sampleBand c!"7" c!"8"]]]]
/-- The projections. -/
def exProjected : Node := box c!"projected" [exEigen, exProjArray]
/-- The density of states. -/
def exDos : Node := box c!"dos" sampleDos
/-- Born charges of two atoms. -/
def exBorn : Node := named c!"array" c!"born_charges" [leaf c!"dimension" c!"ion", box c!"set" (rows3 c!"1 2 3" c!"4 5 6" c!"7 8 9"), box c!"set" (rows3 c!"1 0 0" c!"0 1 0" c!"0 0 1")]
/-- Dielectric functions. -/
def exDiel : Node := box c!"dielectricfunction" [
  box c!"imag" [box c!"array" [leaf c!"dimension" c!"gridpoints", box c!"set" [leaf c!"r" c!" 0.5 1 2 3 4 5 6 ", leaf c!"r" c!" 1.5 1 2 3 4 5 6 "]]],
  box c!"real" [box c!"array" [leaf c!"dimension" c!"gridpoints", box c!"set" [leaf c!"r" c!" 0.5 2 2 3 4 5 6 ", leaf c!"r" c!" 1.5 3 2 3 4 5 6 "]]]]
/-- Six rows of six numbers. -/
def exRows6 : List Node := List.replicate 6 (leaf c!"v" c!" 1 2 3 4 5 6 ")
/-- The dynamical matrix. -/
def exDynmat : Node := box c!"dynmat" [named c!"varray" c!"hessian" exRows6, item' c!"v" c!"eigenvalues" c!" 1 2 3 4 5 6.5 ", named c!"varray" c!"eigenvectors" exRows6]
/-- The first ionic step. -/
def exStep1 : Node := box c!"calculation" [exScstep c!"1", exScstep c!"2", exStructure c!"3.0",
  named c!"varray" c!"forces" [leaf c!"v" c!" 1 2 3 ", leaf c!"v" c!" 4 5 6 "], named c!"varray" c!"stress" (rows3 c!"1 0 0" c!"0 1 0" c!"0 0 1"),
  energyBox c!"1.25" c!"1.5" c!"2.25", item' c!"time" c!"totalsc" c!" 1.0 2.0 "]
/-- The second ionic step. -/
def exStep2 : Node := box c!"calculation" [exScstep c!"4", exStructure c!"3.5",
  named c!"varray" c!"forces" [leaf c!"v" c!" 1 2 3 ", leaf c!"v" c!" 4 5 7 "], named c!"varray" c!"stress" (rows3 c!"2 0 0" c!"0 1 0" c!"0 0 1"),
  energyBox c!"3.25" c!"3.5" c!"4.25", exEigen, exInterpolated, exDos, exBorn, named c!"varray" c!"epsilon" (rows3 c!"1 0 0" c!"0 1 0" c!"0 0 1"), exDiel, exProjected, exDynmat]
/-- The sections in front of the ionic steps. -/
def exHead : List Node := [exGenerator, exIncar, exKpoints, exParameters, exAtoms, named c!"structure" c!"initialpos" [leaf c!"crystal" c!" "]]
/-- The ionic steps and what is behind them. -/
def exBody : List Node := [exStep1, exStep2, leaf c!"kpoints_labels" c!" "]
/-- A document. -/
def exDoc : Node := box c!"modeling" (exHead ++ exBody)

theorem exParts : ∀ n ∈ exStep1.children ++ exStep2.children, CalcPart n := by
  have e1 : ∀ n ∈ [exScstep c!"1", exScstep c!"2", exScstep c!"4"], ScstepOk n := by decide +kernel
  have e2 : ∀ n ∈ [exStructure c!"3.0", exStructure c!"3.5"], StructureOk n := by decide +kernel
  have e3 : ∀ a ∈ [c!"1.25", c!"3.25"], ∀ b ∈ [c!"1.5", c!"3.5"], ∀ c ∈ [c!"2.25", c!"4.25"], EnergyOk (energyBox a b c) := by decide +kernel
  have e4 : EigenvaluesOk exEigen ∧ DosOk exDos ∧ DynmatOk exDynmat := by decide +kernel
  intro n hn
  simp only [exStep1, exStep2, box, Node.children, List.cons_append, List.nil_append, List.mem_cons, List.not_mem_nil, or_false] at hn
  rcases hn with rfl | rfl | rfl | rfl | rfl | rfl | rfl | rfl | rfl | rfl | rfl | rfl | rfl | rfl | rfl | rfl | rfl | rfl | rfl | rfl
  · exact .scstep (e1 _ (by simp))
  · exact .scstep (e1 _ (by simp))
  · exact .struct (e2 _ (by simp))
  · exact .forces (by decide) (by decide) (by decide +kernel)
  · exact .stress (by decide) (by decide) (by decide +kernel)
  · exact .energy (e3 _ (by simp) _ (by simp) _ (by simp))
  · exact .quiet (by decide +kernel)
  · exact .scstep (e1 _ (by simp))
  · exact .struct (e2 _ (by simp))
  · exact .forces (by decide) (by decide) (by decide +kernel)
  · exact .stress (by decide) (by decide) (by decide +kernel)
  · exact .energy (e3 _ (by simp) _ (by simp) _ (by simp))
  · exact .eigenvalues e4.1
  · exact .special (v := false) (kp := exSpecial) (e := exEigen) ⟨by decide, fun _ => by decide, rfl, by decide, by decide +kernel, by decide, by decide, e4.1.2.2⟩
  · exact .dos e4.2.1
  · exact .born ⟨by decide, by decide, by decide +kernel, rfl⟩
  · exact .quiet (by decide +kernel)
  · exact .diel ⟨by decide, by decide +kernel, rfl⟩
  · exact .projected (e := exEigen) (arr := exProjArray) ⟨by decide, rfl, e4.1, by decide +kernel⟩
  · exact .dynmat e4.2.2

set_option maxRecDepth 20000 in
theorem exDoc_ok : Doc exDoc exHead exBody exGenerator exParameters exAtoms exArray exKpoints exPoints exWeights := by
  have g1 : GeneratorOk exGenerator := ⟨by decide, by decide +kernel, rfl, by decide +kernel⟩
  have g2 : ParametersOk exParameters := ⟨by decide, by decide +kernel, by decide, ⟨rfl, by decide +kernel⟩, ⟨rfl, by decide +kernel⟩, ⟨rfl, by decide +kernel⟩,
    ⟨rfl, by decide +kernel⟩, ⟨rfl, by decide +kernel⟩, ⟨rfl, by decide +kernel⟩, ⟨rfl, by decide +kernel⟩, ⟨rfl, by decide +kernel⟩, ⟨rfl, by decide +kernel⟩⟩
  have g3 : AtomsOk exAtoms exArray := ⟨by decide, rfl, by decide +kernel, by decide +kernel, rfl, by decide +kernel⟩
  have g4 : KpointsOk exKpoints exPoints exWeights := by
    refine ⟨by decide, rfl, rfl, ⟨by decide +kernel, by decide +kernel, by decide +kernel, by decide +kernel⟩, ?_, by decide +kernel⟩
    intro n hn h1 h2
    simp only [exKpoints, box, Node.children, List.mem_cons, List.not_mem_nil, or_false] at hn
    rcases hn with rfl | rfl | rfl
    · exact ⟨by decide +kernel, rfl⟩
    · exact absurd h1 (by decide)
    · exact absurd h2 (by decide)
  have g5 := exParts
  refine ⟨by decide, rfl, ?_, ?_, ⟨rfl, rfl, g1⟩, ⟨rfl, rfl, g2⟩, ⟨rfl, rfl, g3⟩, ⟨rfl, rfl, g4⟩, rfl⟩
  · intro n hn
    simp only [exHead, List.mem_cons, List.not_mem_nil, or_false] at hn
    rcases hn with rfl | rfl | rfl | rfl | rfl | rfl
    · exact .generator g1
    · exact .filler (by decide +kernel) (by decide)
    · exact .kpoints g4
    · exact .parameters g2
    · exact .atominfo g3
    · exact .filler (by decide +kernel) (by decide)
  · intro n hn
    simp only [exBody, List.mem_cons, List.not_mem_nil, or_false] at hn
    rcases hn with rfl | rfl | rfl
    · exact .inl ⟨by decide, fun m hm => g5 m (List.mem_append_left _ hm)⟩
    · exact .inl ⟨by decide, fun m hm => g5 m (List.mem_append_right _ hm)⟩
    · exact .inr (by decide +kernel)

/-! ### the hypotheses of the theorems about the quantities -/

/-- A document in the layout of VASP, with each of the quantities that are not given for each ionic step at most once. -/
structure Usual (root : Node) (sp : List Nat) : Prop where
  eigen : ((partsOf root).filter isEig).length ≤ 1
  projEigen : ∀ p ∈ partsOf root, isProj p = true → ∃ x, (partsOf root).filter isEig = [x] ∧ ∀ y ∈ p.children.head?, ∀ s, spinRows y 0 1 s = spinRows x 0 1 s
  proj : ((partsOf root).filter isProj).length ≤ 1
  projRows : ∀ p ∈ partsOf root, isProj p = true → spinRows p 0 2 c!"spin1" ≠ []
  born : ((partsOf root).filter isBorn).length ≤ 1
  bornRows : ∀ p ∈ partsOf root, isBorn p = true → findRel p [t c!"set", t c!"v"] ≠ []
  diel : ((partsOf root).filter isDiel).length ≤ 1
  dielRows : ∀ p ∈ partsOf root, isDiel p = true → dielPart p c!"imag" ≠ [] ∧ (dielPart p c!"imag").length = (dielPart p c!"real").length
  dyn : ((partsOf root).filter isDyn).length ≤ 1
  hessian : ∀ p ∈ partsOf root, isDyn p = true → (p.children.filter (tn c!"varray" c!"hessian").selects).length ≤ 1 ∧
      ∀ m ∈ p.children, (tn c!"varray" c!"hessian").selects m = true → VRows m ∧ m.children ≠ []
  modes : ∀ p ∈ partsOf root, isDyn p = true → (p.children.filter (tn c!"varray" c!"eigenvectors").selects).length = 1 ∧
      (p.children.filter (tn c!"v" c!"eigenvalues").selects).length = 1
  dos : ((partsOf root).filter isDos).length ≤ 1
  dosLayout : ∀ p ∈ partsOf root, isDos p = true → comment p = none ∧ DosLayout p
  special : ((partsOf root).filter fun n => isSpec false n || isSpec true n).length ≤ 1
  specialRows : ∀ v, ∀ p ∈ partsOf root, isSpec v p = true → KpointRows p
  energies : ∀ c ∈ calculations root, Complete c ∧ OneFinal c ∧ Direct c
  each : OneEach root
  atoms : 0 < sp.length
  some : 0 < (calculations root).length
  structs : (structures root).length = (calculations root).length
  cell : PerStep (cellSets root) (calculations root).length 3
  positions : PerStep (positionSets root) (calculations root).length sp.length
  forces : forceSets root = [] ∨ PerStep (forceSets root) (calculations root).length sp.length
  stress : stressSets root = [] ∨ PerStep (stressSets root) (calculations root).length 3
  twoSteps : ¬ (sp.length = 1 ∧ (calculations root).length = 2)

/-- What the two parsers agree on. -/
structure Agree (root : Node) (e : EData) (d : Data) : Prop where
  version : e.version = d.version
  params : e.params = d.params
  species : e.species = d.species
  kpoints : e.kpoints = d.kpoints ∧ e.kpointsw = d.kpointsw ∧ e.kpointdiv = d.kpointdiv
  eigenvalues : e.eigenvalues = d.eigenvalues ∧ e.occupancies = d.occupancies
  interpolated : e.eigenvaluesSpecific = d.eigenvaluesSpecific ∧ e.eigenvelocities = d.eigenvelocities
  specialPoints : e.kpointsSpecific = d.kpointsSpecific ∧ e.kpointswSpecific = d.kpointswSpecific
  projectors : e.projectors = d.projectors
  born : d.born = e.born.map Born.charges
  dielectrics : ∃ x, d.dielectrics = some x ∧ x.energy = e.dielectrics.map (fun y => y.energy) ∧ x.imag = e.dielectrics.map (fun y => y.imag) ∧
    x.real = e.dielectrics.map fun y => y.real
  hessian : e.hessian = d.hessian
  dynmat : e.dynmat = d.dynmat.map fun x => ⟨some x.1, some x.2⟩
  dos : e.dos = d.dos.map dosMap ∧ e.dosSpecific = none ∧ d.dosSpecific = none
  energies : ∀ status etype nosc, getEnergies e.totens status etype nosc = getEnergies d.totens status etype nosc
  cell : SameSteps (calculations root).length e.unitcell d.unitcell
  positions : SameSteps (calculations root).length e.positions d.positions
  forces : if forceSets root = [] then e.forces = none ∧ Absent d.forces else SameSteps (calculations root).length e.forces d.forces
  stress : if stressSets root = [] then e.stress = none ∧ Absent d.stress else SameSteps (calculations root).length e.stress d.stress

/-- **C53**, all quantities together. Missing: documents that are not `Usual`, on which the parsers differ (`C53_violation_*`). -/
theorem C53_usual_partial {kb : Bool} {root : Node} {head body : List Node} {g q a arr k l w : Node} (h : Doc root head body g q a arr k l w)
    {e : EData} {d : Data} (he : parsee root kb = .ok e) (hd : parsew root kb true = .ok d) {sp : List Nat} (hsp : d.species = some sp) (u : Usual root sp) :
    Agree root e d := by
  obtain ⟨h1, h2, h3, h4⟩ := C53_head_partial h he hd
  obtain ⟨s1, s2, s3, s4⟩ := C53_steps_partial h he hd u.each sp hsp u.atoms _ u.some u.structs u.cell u.positions u.forces u.stress u.twoSteps
  have hs : ∀ v, ((partsOf root).filter (isSpec v)).length ≤ 1 := by
    intro v
    refine Nat.le_trans (List.Sublist.length_le (List.monotone_filter_right _ fun x hx => ?_)) u.special
    cases v <;> simp [hx]
  exact ⟨h1, h2, h3, h4, C53_eigenvalues_partial h he hd u.eigen u.projEigen, C53_interpolated_partial h he hd hs u.specialRows,
    C53_interpolated_kpoints_partial h he hd u.special u.specialRows, C53_projectors_partial h he hd u.proj u.projRows,
    C53_born_partial h he hd u.born u.bornRows, C53_dielectrics_partial h he hd u.diel u.dielRows, C53_hessian_partial h he hd u.dyn u.hessian,
    C53_dynmat_partial h he hd u.dyn u.modes, C53_dos_partial h he hd u.dos u.dosLayout,
    C53_energies_partial h he hd (fun hc => by have := u.some; rw [hc] at this; exact absurd this (by simp)) u.energies, s1, s2, s3, s4⟩

theorem ex_all {P : Node → Prop} (h : ∀ p ∈ exStep1.children ++ exStep2.children, P p) : ∀ p ∈ partsOf exDoc, P p := h

theorem complete_of {cs : List Node} (h : cs.all (fun c => (scEnergies c .free).length ≠ 0 && [EType.extrapolated, .free, .noEntropy].all fun e =>
      decide ((scEnergies c e).length = (scEnergies c .free).length) && numbers 1 (scEnergies c e) && decide ((finalEnergies c e).length = 1)) = true) :
    ∀ c ∈ cs, Complete c ∧ OneFinal c := by
  intro c hc
  have := List.all_eq_true.1 h c hc
  simp only [Bool.and_eq_true, List.all_eq_true, decide_eq_true_eq] at this
  refine ⟨⟨(scEnergies c .free).length, List.length_pos_iff.2 (by simpa using this.1), fun e => ?_⟩, fun e => (this.2 e (mem_types e)).2⟩
  obtain ⟨⟨g1, g2⟩, g3⟩ := this.2 e (mem_types e)
  exact ⟨g1, allPrint_of g2, by rw [← List.length_pos_iff]; omega⟩

set_option maxRecDepth 20000 in
theorem exDoc_usual : Usual exDoc [14, 6] where
  eigen := by decide +kernel
  projEigen := by
    intro p hp hk
    refine ⟨exEigen, rfl, ?_⟩
    have : (partsOf exDoc).filter isProj = [exProjected] := rfl
    have hm := List.mem_filter.2 ⟨hp, hk⟩
    rw [this, List.mem_singleton] at hm
    subst hm
    intro y hy s
    simp only [exProjected, box, Node.children, List.head?_cons, Option.mem_some_iff] at hy
    rw [← hy]
  proj := by decide +kernel
  projRows := by decide +kernel
  born := by decide +kernel
  bornRows := by decide +kernel
  diel := by decide +kernel
  dielRows := by decide +kernel
  dyn := by decide +kernel
  hessian := by decide +kernel
  modes := by decide +kernel
  dos := by decide +kernel
  dosLayout := by
    intro p hp hk
    have : (partsOf exDoc).filter isDos = [exDos] := rfl
    have hm := List.mem_filter.2 ⟨hp, hk⟩
    rw [this, List.mem_singleton] at hm
    subst hm
    exact ⟨by decide, [_], _, [_], rfl, by decide, by decide, by decide +kernel, .inr ⟨_, rfl, by decide, by decide +kernel, by decide +kernel⟩⟩
  special := by decide +kernel
  specialRows := by
    intro v p hp hk
    have h1 : (partsOf exDoc).filter (isSpec false) = [exInterpolated] := rfl
    have h2 : (partsOf exDoc).filter (isSpec true) = [] := rfl
    have hm := List.mem_filter.2 ⟨hp, hk⟩
    cases v with
    | true => rw [h2] at hm; cases hm
    | false =>
      rw [h1, List.mem_singleton] at hm
      subst hm
      intro kp e hc
      simp only [exInterpolated, commented, Node.children, List.cons.injEq, and_true] at hc
      obtain ⟨rfl, rfl⟩ := hc
      exact ⟨by decide +kernel, _, _, rfl, by decide +kernel, rfl, by decide +kernel⟩
  energies := by
    have h1 := complete_of (cs := calculations exDoc) (by decide +kernel)
    intro c hc
    refine ⟨(h1 c hc).1, (h1 c hc).2, ?_⟩
    have h2 : calculations exDoc = [exStep1, exStep2] := rfl
    rw [h2] at hc
    simp only [List.mem_cons, List.not_mem_nil, or_false] at hc
    rcases hc with rfl | rfl <;> rfl
  each := by
    refine ⟨by decide +kernel, by decide +kernel, .inr (by decide +kernel), .inr (by decide +kernel)⟩
  atoms := by decide
  some := by decide +kernel
  structs := by decide +kernel
  cell := perStep_of (by decide +kernel)
  positions := perStep_of (by decide +kernel)
  forces := .inr (perStep_of (by decide +kernel))
  stress := .inr (perStep_of (by decide +kernel))
  twoSteps := by decide

theorem ok_of {α : Type} {r : Res α} (h : (match r with | .ok _ => true | _ => false) = true) : ∃ x, r = .ok x := by
  cases r with
  | ok x => exact ⟨x, rfl⟩
  | exit c => cases h
  | raise x => cases h

/-- Both parsers read this document, and what they store is not empty. -/
example : ∃ e d, parsee exDoc true = .ok e ∧ parsew exDoc true true = .ok d ∧ d.species = some [14, 6] ∧ Agree exDoc e d ∧
    e.version = some c!"5.4.4.18Apr17 " ∧ e.params.nbands = some 2 ∧ e.kpointdiv = some [2, 1, 1] ∧
    e.eigenvalues = some (.total [[-1, 5/2], [-3/2, 7/2]]) ∧ e.born = some [[[1, 2, 3], [4, 5, 6], [7, 8, 9]], [[1, 0, 0], [0, 1, 0], [0, 0, 1]]] ∧
    e.kpointsSpecific = some [[1/4, 0, 0], [1/4, 1/4, 0]] ∧ e.forces = some [(1, [[1, 2, 3], [4, 5, 6]]), (2, [[1, 2, 3], [4, 5, 7]])] := by
  obtain ⟨e, he⟩ : ∃ e, parsee exDoc true = .ok e := ok_of (by decide +kernel)
  obtain ⟨d, hd⟩ : ∃ d, parsew exDoc true true = .ok d := ok_of (by decide +kernel)
  have hsp : (match parsew exDoc true true with | .ok d => d.species | _ => none) = some [14, 6] := by decide +kernel
  rw [hd] at hsp
  have hv : (match parsee exDoc true with
    | .ok e => decide (e.version = some c!"5.4.4.18Apr17 ") && decide (e.params.nbands = some 2) && decide (e.kpointdiv = some [2, 1, 1]) && decide (e.eigenvalues = some (.total [[-1, 5/2], [-3/2, 7/2]])) &&
      decide (e.born = some [[[1, 2, 3], [4, 5, 6], [7, 8, 9]], [[1, 0, 0], [0, 1, 0], [0, 0, 1]]]) && decide (e.kpointsSpecific = some [[1/4, 0, 0], [1/4, 1/4, 0]]) &&
      decide (e.forces = some [(1, [[1, 2, 3], [4, 5, 6]]), (2, [[1, 2, 3], [4, 5, 7]])])
    | _ => false) = true := by decide +kernel
  rw [he] at hv
  simp only [Bool.and_eq_true, decide_eq_true_eq] at hv
  obtain ⟨⟨⟨⟨⟨⟨v1, v2⟩, v3⟩, v4⟩, v5⟩, v6⟩, v7⟩ := hv
  exact ⟨e, d, he, hd, hsp, C53_usual_partial exDoc_ok he hd hsp exDoc_usual, v1, v2, v3, v4, v5, v6, v7⟩

end Verif.VasprunEvent
