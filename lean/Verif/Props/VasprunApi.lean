import Verif.Props.EventSeen
import Verif.Props.VasprunOther
import Verif.Model.VasprunApi
/-! # vasprun.xml seen from outside: Fermi level (C78), lattice (C79), dielectric tensors (C80), both ways of reading (C53) -/
set_option autoImplicit false
namespace Verif.VasprunApi
open Verif Verif.Utils Verif.Xml Verif.Vasprun Verif.VasprunEvent

/-! ### C78: the Fermi level -/

theorem extractDos_fermi {t1 : List Node} {t2 p1 p2 : Option (List Node)} {f : Option Rat} {na : Nat} {x : Dos}
    (h : extractDos t1 t2 p1 p2 f na = .ok x) : x.fermi = f := by
  unfold extractDos at h
  cases t2 with
  | none =>
    simp only at h
    obtain ⟨_, _, h⟩ := Res.bind_eq_ok.1 h
    obtain ⟨_, _, h⟩ := Res.bind_eq_ok.1 h
    rw [← Res.ok.inj h]
  | some l2 =>
    simp only at h
    obtain ⟨_, _, h⟩ := Res.bind_eq_ok.1 h
    obtain ⟨_, _, h⟩ := Res.bind_eq_ok.1 h
    obtain ⟨_, _, h⟩ := Res.bind_eq_ok.1 h
    obtain ⟨_, _, h⟩ := Res.bind_eq_ok.1 h
    rw [← Res.ok.inj h]

/-- The elements with a Fermi level; `dos` selects the densities of states. -/
def fermiElements (root : Node) (dos : Step) : List Node := findAny root (t c!"calculation") [dos, tn c!"i" c!"efermi"]

theorem oneDos_fermi {root : Node} {d : Step} {na : Option Nat} {r : Option Dos} (h : fetchOneDos root d na = .ok r) :
    if totalRows root d c!"spin 1" = [] ∨ na = none then r = none else ∃ x, r = some x ∧ FirstNumber (fermiElements root d) x.fermi := by
  unfold fetchOneDos at h
  obtain ⟨f, hf, h⟩ := Res.bind_eq_ok.1 h
  have e1 : findAny root (t c!"calculation") [d, t c!"total", t c!"array", t c!"set", tc c!"set" c!"spin 1", t c!"r"] = totalRows root d c!"spin 1" := rfl
  simp only [e1] at h
  cases ht : totalRows root d c!"spin 1" with
  | nil => rw [ht] at h; simpa using (Res.ok.inj h).symm
  | cons a as =>
    rw [ht] at h
    simp only at h
    cases na with
    | none => simpa using (Res.ok.inj h).symm
    | some n =>
      simp only at h
      obtain ⟨x, hx, h⟩ := Res.bind_eq_ok.1 h
      have h := Res.ok.inj h
      simp only [reduceCtorEq, or_self, if_false]
      refine ⟨x, h.symm, ?_⟩
      rw [extractDos_fermi hx]
      exact fetchF_ok hf

theorem fermi_dosDict (x : Dos) : fermiIn (some (dosDict x)) = .ok x.fermi := by
  unfold fermiIn dosDict
  cases x.whole <;> rfl

/-- **C78** for the regular parser, exactly: if there are rows of the total density of states for the first spin (and atoms), the Fermi level returned
is the number printed in the first element `efermi` of a density of states (`None` if there is none); otherwise the call ends with an uncaught
`TypeError`. Missing: documents without such rows, for which the claim is false (`C78_violation`). -/
theorem C78_regular_partial (root : Node) (kb all tr : Bool) (d : Data) (h : parsew root kb all = .ok d) :
    if totalRows root (t c!"dos") c!"spin 1" = [] ∨ d.species = none then getFermiLevel ⟨tr, .whole d⟩ = .raise .typeError
    else ∃ f, getFermiLevel ⟨tr, .whole d⟩ = .ok f ∧ FirstNumber (fermiElements root (t c!"dos")) f := by
  have hd := (parts h).dos
  unfold fetchDos at hd
  obtain ⟨r, hr, hd⟩ := Res.bind_eq_ok.1 hd
  have g := oneDos_fermi hr
  have hx : r = d.dos := by
    cases r with
    | none => injection hd with hd; injection hd
    | some x =>
      simp only at hd
      obtain ⟨s, _, hd⟩ := Res.bind_eq_ok.1 hd
      injection hd with hd; injection hd
  simp only [Option.map_eq_none_iff] at g
  unfold getFermiLevel getDos
  simp only
  split
  · rename_i hc
    rw [if_pos hc] at g
    rw [← hx, g]; rfl
  · rename_i hc
    rw [if_neg hc] at g
    obtain ⟨x, g1, g2⟩ := g
    rw [← hx, g1]
    exact ⟨x.fermi, fermi_dosDict x, g2⟩

/-- **C78** for the interpolated density of states of the regular parser; it is only looked for if there is a density of states. Missing: an interpolated density without an ordinary one, for which the claim is false (`C78_violation`). -/
theorem C78_specific_partial (root : Node) (kb all tr : Bool) (d : Data) (h : parsew root kb all = .ok d) :
    if totalRows root (t c!"dos") c!"spin 1" = [] ∨ totalRows root (tc c!"dos" c!"interpolated") c!"spin 1" = [] ∨ d.species = none then
      getFermiLevelSpecific ⟨tr, .whole d⟩ = .raise .typeError
    else ∃ f, getFermiLevelSpecific ⟨tr, .whole d⟩ = .ok f ∧ FirstNumber (fermiElements root (tc c!"dos" c!"interpolated")) f := by
  have hd := (parts h).dos
  unfold fetchDos at hd
  obtain ⟨r, hr, hd⟩ := Res.bind_eq_ok.1 hd
  have g := oneDos_fermi hr
  simp only [Option.map_eq_none_iff] at g
  unfold getFermiLevelSpecific getDosSpecific
  simp only
  by_cases h1 : totalRows root (t c!"dos") c!"spin 1" = [] ∨ d.species = none
  · rw [if_pos h1] at g
    subst g
    have hd : (none : Option Dos) = d.dosSpecific := congrArg Prod.snd (Res.ok.inj hd)
    have hc : totalRows root (t c!"dos") c!"spin 1" = [] ∨ totalRows root (tc c!"dos" c!"interpolated") c!"spin 1" = [] ∨ d.species = none :=
      h1.elim .inl fun h => .inr (.inr h)
    rw [if_pos hc, ← hd, Option.map_none]; rfl
  · rw [if_neg h1] at g
    obtain ⟨x, rfl, _⟩ := g
    simp only at hd
    obtain ⟨s, hs, hd⟩ := Res.bind_eq_ok.1 hd
    have hd : s = d.dosSpecific := congrArg Prod.snd (Res.ok.inj hd)
    have g := oneDos_fermi hs
    simp only [Option.map_eq_none_iff] at g
    rw [← hd]
    simp only [not_or] at h1
    by_cases h2 : totalRows root (tc c!"dos" c!"interpolated") c!"spin 1" = []
    · rw [if_pos (.inl h2)] at g
      rw [if_pos (.inr (.inl h2)), g, Option.map_none]; rfl
    · rw [if_neg (not_or.2 ⟨h2, h1.2⟩)] at g
      rw [if_neg (not_or.2 ⟨h1.1, not_or.2 ⟨h2, h1.2⟩⟩)]
      obtain ⟨y, rfl, g⟩ := g
      exact ⟨y.fermi, fermi_dosDict y, g⟩

/-- **C78** for the event driven parser: in a document in the layout of VASP with one density of states it is the same Fermi level. Missing: other documents, for which the claim is false (`C78_violation`). -/
theorem C78_event_partial {kb all tr : Bool} {root : Node} {head body : List Node} {g q a arr k l w : Node} (h : Doc root head body g q a arr k l w)
    {e : EData} {d : Data} (he : parsee root kb = .ok e) (hd : parsew root kb all = .ok d) (hone : ((partsOf root).filter isDos).length ≤ 1)
    (hlay : ∀ p ∈ partsOf root, isDos p = true → comment p = none ∧ DosLayout p) :
    getFermiLevel ⟨tr, .event e⟩ = getFermiLevel ⟨tr, .whole d⟩ := by
  unfold getFermiLevel getDos
  simp only
  rw [(C53_dos_partial h he hd hone hlay).1]
  rfl

/-- An ionic step that prints the Fermi level, without the rows of the density of states. -/
def exFermi : Node := box c!"calculation" [box c!"dos" [item' c!"i" c!"efermi" c!" 5.25 "]]

/-- The English claim is false: the Fermi level is printed, but asking for it ends with an uncaught `TypeError`, for both parsers. -/
theorem C78_violation : fermiElements (exWith [exFermi]) (t c!"dos") = [item' c!"i" c!"efermi" c!" 5.25 "] ∧
    (∃ d, parsew (exWith [exFermi]) false true = .ok d ∧ getFermiLevel ⟨false, .whole d⟩ = .raise .typeError) ∧
    (∃ e, parsee (exWith [exFermi]) false = .ok e ∧ getFermiLevelSpecific ⟨false, .event e⟩ = .raise .typeError) :=
  ⟨rfl, okAnd (by decide +kernel), okAnd (by decide +kernel)⟩

/-- The hypotheses are met: a document with a density of states. -/
example : ∃ d, parsew exDoc false true = .ok d ∧ getFermiLevel ⟨false, .whole d⟩ = .ok (some (11/2)) := okAnd (by decide +kernel)

/-! ### C79: the lattice -/

/-- **C79**: `get_lattice(status)` is the unit cell, the positions and the species of one and the same ionic step, the first or the last,
or of each. Missing: one atom and two steps (C49), and an object without structures, where the status is not checked (`C79_violation_status`). -/
theorem C79_lattice_partial (root : Node) (kb tr : Bool) (d : Data) (h : parsew root kb true = .ok d) (sp : List Nat) (hsp : d.species = some sp)
    (ha : 0 < sp.length) (n : Nat) (hn : 0 < n) (hs : (structures root).length = n) (hcell : PerStep (cellSets root) n 3)
    (hpos : PerStep (positionSets root) n sp.length) (hforce : forceSets root = [] ∨ PerStep (forceSets root) n sp.length)
    (hstress : stressSets root = [] ∨ PerStep (stressSets root) n 3) (hex : ¬ (sp.length = 1 ∧ n = 2)) :
    (∃ u p, StepTable (cellSets root) 0 u ∧ StepTable (positionSets root) 0 p ∧
      getLattice ⟨tr, .whole d⟩ c!"initial" = .ok ⟨.one (some u), .one (some p), some sp⟩) ∧
    (∃ u p, StepTable (cellSets root) (n - 1) u ∧ StepTable (positionSets root) (n - 1) p ∧
      getLattice ⟨tr, .whole d⟩ c!"last" = .ok ⟨.one (some u), .one (some p), some sp⟩) ∧
    (∃ us ps, getLattice ⟨tr, .whole d⟩ c!"all" = .ok ⟨.all us, .all ps, some sp⟩ ∧
      ∀ k, k < n → ∃ u p, StepTable (cellSets root) k u ∧ StepTable (positionSets root) k p ∧ us.get? (k + 1) = some (some u) ∧ ps.get? (k + 1) = some (some p)) ∧
    ∀ status, status ∉ [c!"initial", c!"last", c!"all"] → getLattice ⟨tr, .whole d⟩ status = .exit 507 := by
  obtain ⟨⟨⟨u1, a1, b1⟩, ⟨u2, a2, b2⟩, us, b3, b4, _⟩, ⟨⟨p1, c1, d1⟩, ⟨p2, c2, d2⟩, ps, d3, d4, _⟩, _⟩ :=
    C49_steps_partial root kb d h sp hsp ha n hn hs hcell hpos hforce hstress hex
  refine ⟨⟨u1, p1, a1, c1, ?_⟩, ⟨u2, p2, a2, c2, ?_⟩, ⟨us, ps, ?_, fun k hk => ?_⟩, fun status hst => ?_⟩
  · unfold getLattice getUnitcell getPositions getSpecies
    simp only [b1, d1, Res.ok_bind, hsp]
  · unfold getLattice getUnitcell getPositions getSpecies
    simp only [b2, d2, Res.ok_bind, hsp]
  · unfold getLattice getUnitcell getPositions getSpecies
    simp only [b3, d3, Res.ok_bind, hsp]
  · obtain ⟨u, g1, g2⟩ := b4 k hk
    obtain ⟨p, g3, g4⟩ := d4 k hk
    exact ⟨u, p, g1, g3, g2, g4⟩
  · unfold getLattice getUnitcell
    simp only
    have : ∃ x, d.unitcell = some x := by
      cases hu : d.unitcell with
      | none => rw [hu] at b1; cases b1
      | some x => exact ⟨x, rfl⟩
    obtain ⟨x, hx⟩ := this
    rw [hx]
    unfold getSteps checkStatus
    simp only
    rw [if_neg hst]; rfl

/-- The hypotheses are met and the two steps of the example have different cells. -/
example : ∃ d, parsew exDoc false true = .ok d ∧
    getLattice ⟨false, .whole d⟩ c!"initial" = .ok ⟨.one (some [[3, 0, 0], [0, 3, 0], [0, 0, 3]]), .one (some [[1/2, 1/2, 3], [0, 1/2, 3]]), some [14, 6]⟩ ∧
    getLattice ⟨false, .whole d⟩ c!"last" = .ok ⟨.one (some [[7/2, 0, 0], [0, 7/2, 0], [0, 0, 7/2]]), .one (some [[1/2, 1/2, 7/2], [0, 1/2, 7/2]]), some [14, 6]⟩ :=
  okAnd (by decide +kernel)

/-- The English claim is false without structures: any word is accepted as status. -/
theorem C79_violation_status (status : Str) : ∃ d, parsew (exWith []) false true = .ok d ∧ getLattice ⟨false, .whole d⟩ status = .ok ⟨.nothing, .nothing, some [14, 6]⟩ := by
  obtain ⟨d, h1, h2, h3, h4⟩ : ∃ d, parsew (exWith []) false true = .ok d ∧ d.unitcell = none ∧ d.positions = none ∧ d.species = some [14, 6] := okAnd (by decide +kernel)
  refine ⟨d, h1, ?_⟩
  unfold getLattice getUnitcell getPositions getSpecies
  simp only [h2, h3, h4]
  rfl

/-! ### C80: dielectric tensors -/

/-- **C80** for the regular parser: the two tensors are what is printed, `None` if they are not printed. Missing: the event parser, for which the claim is false (`C80_violation_*`). -/
theorem C80_regular_partial (root : Node) (kb all tr : Bool) (d : Data) (h : parsew root kb all = .ok d) (h1 : AllPrint 7 (dielRows root c!"imag"))
    (h2 : AllPrint 7 (dielRows root c!"real")) (h3 : AllPrint 3 (tableRows root c!"epsilon")) (h4 : AllPrint 3 (tableRows root c!"epsilon_ion")) :
    ∃ x y, getEpsilon ⟨tr, .whole d⟩ = .ok x ∧ getEpsilonIon ⟨tr, .whole d⟩ = .ok y ∧
      RowsOf 0 (tableRows root c!"epsilon") x ∧ RowsOf 0 (tableRows root c!"epsilon_ion") y := by
  obtain ⟨x, hx, _, _, g1, g2, _⟩ := C76_dielectrics root kb all d h h1 h2 h3 h4
  refine ⟨x.epsilon, x.epsilonIon, ?_, ?_, g1, g2⟩
  · unfold getEpsilon getDielectrics
    simp only [hx]; rfl
  · unfold getEpsilonIon getDielectrics
    simp only [hx]; rfl

/-- The English claim is false for the event driven parser, whatever the document is: both calls end with an uncaught exception, `TypeError` without
dielectric functions and `KeyError` with them. -/
theorem C80_violation_event (kb tr : Bool) (es : List Event) (e : EData) (_ : parseEvents kb es = .ok e) :
    ∃ x, (x = .typeError ∨ x = .keyError) ∧ getEpsilon ⟨tr, .event e⟩ = .raise x ∧ getEpsilonIon ⟨tr, .event e⟩ = .raise x := by
  unfold getEpsilon getEpsilonIon getDielectrics
  cases h : e.dielectrics with
  | none => exact ⟨.typeError, .inl rfl, by simp only [h]; rfl, by simp only [h]; rfl⟩
  | some x => exact ⟨.keyError, .inr rfl, by simp only [h]; rfl, by simp only [h]; rfl⟩

/-- A document with a tensor: the regular parser returns it, the event driven one raises. -/
example : (∃ d, parsew exDoc false true = .ok d ∧ getEpsilon ⟨false, .whole d⟩ = .ok (some [[1, 0, 0], [0, 1, 0], [0, 0, 1]]) ∧ getEpsilonIon ⟨false, .whole d⟩ = .ok none) ∧
    ∃ e, parsee exDoc false = .ok e ∧ getEpsilon ⟨false, .event e⟩ = .raise .keyError :=
  ⟨okAnd (by decide +kernel), okAnd (by decide +kernel)⟩

/-! ### C53 for the whole class -/

/-- Two objects answer all questions alike, except those about dielectric functions (C80), about forces and stresses if there are none in the document,
and about all steps (`'all'`) if there is only one. -/
structure AnswerAlike (root : Node) (o o' : Obj) : Prop where
  version : getVersionOf o = getVersionOf o'
  parameters : getParameters o = getParameters o'
  species : getSpecies o = getSpecies o'
  kpoints : getKpoints o = getKpoints o' ∧ getKpointsw o = getKpointsw o'
  special : getKpointsSpecific o = getKpointsSpecific o' ∧ getKpointswSpecific o = getKpointswSpecific o'
  eigenvalues : getEigenvalues o = getEigenvalues o' ∧ getOccupancies o = getOccupancies o'
  interpolated : getEigenvaluesSpecific o = getEigenvaluesSpecific o' ∧ getEigenvelocities o = getEigenvelocities o'
  projectors : getProjectors o = getProjectors o'
  dos : getDos o = getDos o' ∧ getDosSpecific o = getDosSpecific o'
  fermi : getFermiLevel o = getFermiLevel o' ∧ getFermiLevelSpecific o = getFermiLevelSpecific o'
  energies : ∀ status etype nosc, getEnergiesOf o status etype nosc = getEnergiesOf o' status etype nosc
  hessian : getHessian o = getHessian o'
  dynmat : getDynmat o = getDynmat o'
  born : getBorn o = getBorn o'
  lattice : ∀ status, status = c!"initial" ∨ status = c!"last" ∨ status ∉ [c!"initial", c!"last", c!"all"] → getLattice o status = getLattice o' status
  forces : forceSets root ≠ [] → ∀ status, status = c!"initial" ∨ status = c!"last" ∨ status ∉ [c!"initial", c!"last", c!"all"] →
    getForces o status = getForces o' status
  stress : stressSets root ≠ [] → ∀ status, status = c!"initial" ∨ status = c!"last" ∨ status ∉ [c!"initial", c!"last", c!"all"] →
    getStress o status = getStress o' status
  all : ∀ f ∈ [getUnitcell, getPositions], ∃ x y, f o c!"all" = .ok (.all x) ∧ f o' c!"all" = .ok (.all y) ∧
    ∀ j, (j ≤ (calculations root).length ∨ 2 ≤ (calculations root).length) → Dict.get? x j = Dict.get? y j

theorem unknown_status {q : Option Steps} {x : Dict Nat (Option Table)} (h : getSteps q c!"all" = .ok (.all x)) {status : Str}
    (hs : status ∉ [c!"initial", c!"last", c!"all"]) : getSteps q status = .exit 507 := by
  cases q with
  | none => cases h
  | some d => unfold getSteps checkStatus; simp only; rw [if_neg hs]; rfl

theorem sameSteps_status {n : Nat} {e : Option (Dict Nat Table)} {d : Option Steps} (h : SameSteps n e d) {status : Str}
    (hs : status = c!"initial" ∨ status = c!"last" ∨ status ∉ [c!"initial", c!"last", c!"all"]) : getSteps (stepsDict e) status = getSteps d status := by
  obtain ⟨h1, h2, x, y, h3, h4, _⟩ := h
  rcases hs with rfl | rfl | hs
  · exact h1
  · exact h2
  · rw [unknown_status (q := stepsDict e) h3 hs, unknown_status h4 hs]

/-- **C53**, all of the class: for a complete file of less than 500 MB which lxml reads as a document in the layout of VASP, and whose events are those of
that document (with the texts of the fifteen early names visible, C77), the objects made with `event=True` and `event=False` answer alike, if the file is
accepted in both ways. Missing: other documents, on which the parsers differ (`C53_violation_*`). -/
theorem C53_object_partial (x : Lxml) (file : Str) (kb : Bool) {root : Node} {head body : List Node} {g q a arr k l w : Node}
    (h : Doc root head body g q a arr k l w) {sp : List Nat} (u : Usual root sp) (htr : truncated file = false) (hsz : file.length < 500 * 1048576)
    (htree : x.tree false file = .ok root) (hstream : ∃ es, x.stream file = (es, none) ∧ List.Forall₂ SameEvent es (events none root))
    {o o' : Obj} (ho : new x (some (.file file)) none kb true true = .ok o) (ho' : new x (some (.file file)) none kb true false = .ok o')
    (hsp : getSpecies o' = some sp) : o.truncated = false ∧ o'.truncated = false ∧ AnswerAlike root o o' := by
  obtain ⟨es, hst, hev⟩ := hstream
  have r1 : regular file.length false true = false := by unfold regular; simp
  have r2 : regular file.length false false = true := by unfold regular; simp [hsz]
  unfold new begin at ho ho'
  simp only [Res.ok_bind, htr, r1, r2, hst, htree, Bool.false_eq_true, if_false, if_true] at ho ho'
  obtain ⟨s, hrun, ho⟩ := Res.bind_eq_ok.1 ho
  obtain ⟨d, hd, ho'⟩ := Res.bind_eq_ok.1 ho'
  have ho := (Res.ok.inj ho).symm
  have ho' := (Res.ok.inj ho').symm
  subst ho; subst ho'
  have he : parsee root kb = .ok (finish s.o) := by
    rw [show parsee root kb = parseEvents kb (events none root) from rfl, ← C77_seen_partial kb es _ hev]
    unfold parseEvents; rw [hrun]; rfl
  generalize finish s.o = e at he ⊢
  have A := C53_usual_partial h he hd hsp u
  refine ⟨rfl, rfl, ?_⟩
  exact
    { version := by unfold getVersionOf; simp only [A.version]
      parameters := A.params
      species := A.species
      kpoints := ⟨A.kpoints.1, A.kpoints.2.1⟩
      special := A.specialPoints
      eigenvalues := A.eigenvalues
      interpolated := A.interpolated
      projectors := A.projectors
      dos := ⟨A.dos.1, by unfold getDosSpecific; simp only [A.dos.2.1, A.dos.2.2]; rfl⟩
      fermi := ⟨by unfold getFermiLevel; exact congrArg fermiIn A.dos.1, by unfold getFermiLevelSpecific getDosSpecific; simp only [A.dos.2.1, A.dos.2.2]; rfl⟩
      energies := A.energies
      hessian := A.hessian
      dynmat := A.dynmat
      born := A.born.symm
      lattice := fun status hs => by
        unfold getLattice getUnitcell getPositions getSpecies
        simp only [sameSteps_status A.cell hs, sameSteps_status A.positions hs, A.species]
      forces := fun hne status hs => by
        have := A.forces
        rw [if_neg hne] at this
        exact sameSteps_status this hs
      stress := fun hne status hs => by
        have := A.stress
        rw [if_neg hne] at this
        exact sameSteps_status this hs
      all := fun f hf => by
        simp only [List.mem_cons, List.not_mem_nil, or_false] at hf
        rcases hf with rfl | rfl
        · exact A.cell.2.2
        · exact A.positions.2.2 }

/-- lxml on a file that holds the example document. -/
def exLxml : Lxml := ⟨fun _ _ => .ok exDoc, fun _ => (events none exDoc, none)⟩
/-- A complete file. -/
def exFile : Str := List.replicate 1100 'a' ++ c!"\n</modeling>\n"

theorem forall2_refl {α : Type} {R : α → α → Prop} (h : ∀ a, R a a) : ∀ l : List α, List.Forall₂ R l l
  | [] => .nil
  | a :: l => .cons (h a) (forall2_refl h l)

/-- The hypotheses of `C53_object_partial` are met. -/
example : ∃ o o', new exLxml (some (.file exFile)) none true true true = .ok o ∧ new exLxml (some (.file exFile)) none true true false = .ok o' ∧ AnswerAlike exDoc o o' := by
  obtain ⟨o, ho⟩ : ∃ o, new exLxml (some (.file exFile)) none true true true = .ok o := ok_of (by decide +kernel)
  obtain ⟨o', ho', hsp⟩ : ∃ o', new exLxml (some (.file exFile)) none true true false = .ok o' ∧ getSpecies o' = some [14, 6] := okAnd (by decide +kernel)
  exact ⟨o, o', ho, ho', (C53_object_partial exLxml exFile true exDoc_ok exDoc_usual (by decide +kernel) (by decide +kernel) rfl
    ⟨_, rfl, forall2_refl (fun e => ⟨rfl, rfl, rfl, fun _ => rfl⟩) _⟩ ho ho' hsp).2.2⟩

end Verif.VasprunApi
