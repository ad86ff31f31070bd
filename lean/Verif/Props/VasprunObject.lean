import Verif.Props.VasprunApi
import Verif.Props.VasprunProj
import Verif.Props.VasprunEnergies
import Verif.Props.VasprunFile
/-! # C90: the getters of an object made from a vasprun.xml file report what the document prints

The theorems C47–C50, C54, C55, C59, C73–C76 speak of the data the regular parser stores; here they are carried through the constructor
and the getters. -/
set_option autoImplicit false
namespace Verif.VasprunApi
open Verif Verif.Utils Verif.Xml Verif.Vasprun Verif.VasprunEvent

/-- `o = Xml(file_path=…)` (default `event=False`) for a file of less than 500 MiB, or a truncated one, which lxml reads as the document `root`. -/
structure ReadFrom (x : Lxml) (file : Str) (kbb all : Bool) (root : Node) (o : Obj) : Prop where
  made : new x (some (.file file)) none kbb all false = .ok o
  small : file.length < 524288000 ∨ truncated file = true
  doc : x.tree (truncated file) file = .ok root

theorem ReadFrom.data {x : Lxml} {file : Str} {kbb all : Bool} {root : Node} {o : Obj} (h : ReadFrom x file kbb all root o) :
    ∃ d, parsew root kbb all = .ok d ∧ o = ⟨truncated file, .whole d⟩ := by
  have hm := h.made
  unfold new begin at hm
  have hr : regular file.length (truncated file) false = true := (C52_size _ _ _).2 ⟨rfl, h.small⟩
  simp only [Res.ok_bind, hr, if_true, h.doc] at hm
  obtain ⟨d, hd, hm⟩ := Res.bind_eq_ok.1 hm
  exact ⟨d, hd, (Res.ok.inj hm).symm⟩

section
variable {x : Lxml} {file : Str} {kbb all : Bool} {root : Node} {o : Obj}

/-- C90: the flag `truncated` of the object (see C51 for what it says of the file). -/
theorem C90_truncated (h : ReadFrom x file kbb all root o) : o.truncated = truncated file := by
  obtain ⟨d, _, rfl⟩ := h.data; rfl

/-- C90, species: the atomic numbers of the symbols of the atom lines. -/
theorem C90_species (h : ReadFrom x file kbb all root o) (h2 : ∀ rc ∈ atomLines root, (cellsIn rc).length = 2) (hne : atomLines root ≠ []) :
    ∃ sp, getSpecies o = some sp ∧ List.Forall₂ (fun rc z => ∃ w, SymbolOf rc w ∧ periodicTable[z]? = some (lower w)) (atomLines root) sp := by
  obtain ⟨d, hd, rfl⟩ := h.data
  exact C54_species root kbb all d hd h2 hne

/-- A getter of ionic steps returns the first, the last and all of `n` steps, and refuses any other word. -/
def StepGetter (sets : List Node) (n : Nat) (get : Str → Res (Got (Option Table))) : Prop :=
  Returns sets 0 (get c!"initial") ∧ Returns sets (n - 1) (get c!"last") ∧
  (∃ all, get c!"all" = .ok (.all all) ∧ (∀ k, k < n → ∃ x, StepTable sets k x ∧ all.get? (k + 1) = some (some x)) ∧
    ∀ j, all.get? j ≠ none → 1 ≤ j ∧ (j ≤ n ∨ n = 1 ∧ j = 2)) ∧
  ∀ status, status ∉ [c!"initial", c!"last", c!"all"] → get status = .exit 507

theorem stepGetter_of {sets : List Node} {n : Nat} {q : Option Steps} (h : StepsOf sets n q) : StepGetter sets n (getSteps q) := by
  obtain ⟨h1, h2, all, h3, h4, h5, _⟩ := h
  exact ⟨h1, h2, ⟨all, h3, h4, h5⟩, fun status hs => unknown_status h3 hs⟩

/-- **C90**, ionic steps, all extracted (the default), but for one atom and two steps (see C49): the four getters return what is printed for the first,
the last and all steps; forces and stress that are not printed are `None`. Missing: one atom with two steps, for which the claim is false (`C49_violation_*`). -/
theorem C90_steps_partial (h : ReadFrom x file kbb true root o) (sp : List Nat) (hsp : getSpecies o = some sp)
    (ha : 0 < sp.length) (n : Nat) (hn : 0 < n) (hs : (structures root).length = n) (hcell : PerStep (cellSets root) n 3)
    (hpos : PerStep (positionSets root) n sp.length) (hforce : forceSets root = [] ∨ PerStep (forceSets root) n sp.length)
    (hstress : stressSets root = [] ∨ PerStep (stressSets root) n 3) (hex : ¬ (sp.length = 1 ∧ n = 2)) :
    StepGetter (cellSets root) n (getUnitcell o) ∧ StepGetter (positionSets root) n (getPositions o) ∧
    (if forceSets root = [] then getForces o c!"initial" = .ok (.one none) ∧ getForces o c!"last" = .ok (.one none)
      else StepGetter (forceSets root) n (getForces o)) ∧
    (if stressSets root = [] then getStress o c!"initial" = .ok (.one none) ∧ getStress o c!"last" = .ok (.one none)
      else StepGetter (stressSets root) n (getStress o)) := by
  obtain ⟨d, hd, rfl⟩ := h.data
  obtain ⟨h1, h2, h3, h4⟩ := C49_steps_partial root kbb d hd sp hsp ha n hn hs hcell hpos hforce hstress hex
  refine ⟨stepGetter_of h1, stepGetter_of h2, ?_, ?_⟩
  · split
    · rename_i hc; rw [if_pos hc] at h3; exact h3
    · rename_i hc; rw [if_neg hc] at h3; exact stepGetter_of h3
  · split
    · rename_i hc; rw [if_pos hc] at h4; exact h4
    · rename_i hc; rw [if_neg hc] at h4; exact stepGetter_of h4

/-- **C90**, only the first and last step extracted. -/
theorem C90_first_last (h : ReadFrom x file kbb false root o) (sp : List Nat) (hsp : getSpecies o = some sp)
    (ha : 0 < sp.length) (n : Nat) (hn : 0 < n)
    (hp : ∀ name, AllPrint 3 (structureRows root name [t c!"crystal", tn c!"varray" c!"basis"]) ∧
      AllPrint 3 (structureRows root name [tn c!"varray" c!"positions"]))
    (hforce : PerStep (forceSets root) n sp.length) (hstress : PerStep (stressSets root) n 3) :
    (∃ a b, TableOf (structureRows root c!"initialpos" [t c!"crystal", tn c!"varray" c!"basis"]) a ∧
      TableOf (structureRows root c!"finalpos" [t c!"crystal", tn c!"varray" c!"basis"]) b ∧ getUnitcell o c!"initial" = .ok (.one a) ∧
      getUnitcell o c!"last" = .ok (.one (if structureRows root c!"finalpos" [t c!"crystal", tn c!"varray" c!"basis"] = [] then a else b))) ∧
    (∃ a b, TableOf (structureRows root c!"initialpos" [tn c!"varray" c!"positions"]) a ∧
      TableOf (structureRows root c!"finalpos" [tn c!"varray" c!"positions"]) b ∧ getPositions o c!"initial" = .ok (.one a) ∧
      getPositions o c!"last" = .ok (.one (if structureRows root c!"finalpos" [tn c!"varray" c!"positions"] = [] then a else b))) ∧
    Returns (forceSets root) 0 (getForces o c!"initial") ∧ Returns (forceSets root) (n - 1) (getForces o c!"last") ∧
    Returns (stressSets root) 0 (getStress o c!"initial") ∧ Returns (stressSets root) (n - 1) (getStress o c!"last") := by
  obtain ⟨d, hd, rfl⟩ := h.data
  exact C49_first_last root kbb d hd sp hsp ha n hn hp hforce hstress

/-- **C90**, energies: see C50. -/
theorem C90_energies (h : ReadFrom x file kbb all root o) (hc : ∀ c ∈ calculations root, Complete c)
    (hne : calculations root ≠ []) (status : Str) (hs : status ∈ [c!"initial", c!"last", c!"all"]) (types : List EType) (ht : types ≠ []) (nosc : Bool) :
    ∃ tab, getEnergiesOf o status (some (types.map EType.name)) nosc = .ok (some tab) ∧
      tab.electronicSteps = ((chosen status (calculations root)).map fun c => if nosc then 1 else (scEnergies c .free).length) ∧
      (∀ e ∈ types, ∃ p, tab.columns.get? e = some p ∧ ColumnOk (chosen status (calculations root)) nosc e p) ∧
      ∀ e, e ∉ types → tab.columns.get? e = none := by
  obtain ⟨d, hd, rfl⟩ := h.data
  exact C50_energies root kbb all d hd hc hne status hs types ht nosc

/-- **C90**, eigenvalues, occupancies and k-points: see C47. -/
theorem C90_bands (h : ReadFrom x file kbb all root o) (nb nk c : Nat) (hb : 0 < nb) (hk : 0 < nk) (hc : 0 < c)
    (h1 : Regular (eigenSets root c!"spin 1") nb nk c) (h2 : eigenSets root c!"spin 2" = [] ∨ Regular (eigenSets root c!"spin 2") nb nk c)
    (hn : (getParameters o).nbands = some (nb : Int)) :
    (∃ ks, getKpoints o = some ks ∧ ks.length = nk) ∧
    (∃ e, getEigenvalues o = some e ∧
      BySpin (fun spin a => Placed kbb nb nk (BandNumber 0 (eigenSets root spin)) a) (eigenSets root c!"spin 2" = []) e) ∧
    (c = 1 → getOccupancies o = none) ∧
    (1 < c → ∃ occ, getOccupancies o = some occ ∧
      BySpin (fun spin a => Placed kbb nb nk (BandNumber 1 (eigenSets root spin)) a) (eigenSets root c!"spin 2" = []) occ) := by
  obtain ⟨d, hd, rfl⟩ := h.data
  exact C47_eigenvalues root kbb all d hd nb nk c hb hk hc h1 h2 hn

/-- **C90**, projections on nine orbitals: see C48. Missing: other numbers of columns, for which the claim is false (`C48_violation_*`). -/
theorem C90_projectors_partial (h : ReadFrom x file kbb all root o) (na nb nk : Nat) (ha : 0 < na) (hb : 0 < nb)
    (hk : 0 < nk) (h1 : Regular3 (projSets root c!"spin1") na nb nk 9)
    (h2 : projSets root c!"spin2" = [] ∨ Regular3 (projSets root c!"spin2") na nb nk 9)
    (hn : (getParameters o).nbands = some (nb : Int)) (hks : ∀ ks, getKpoints o = some ks → ks.length = nk) :
    (∃ sp, getSpecies o = some sp ∧ sp.length = na) ∧
    ∃ p, getProjectors o = some p ∧ BySpin' (fun spin x => Placed3 kbb na nb nk (AtomRow (projSets root spin)) x) (projSets root c!"spin2" = []) p := by
  obtain ⟨d, hd, rfl⟩ := h.data
  exact C48_projectors_partial root kbb all d hd na nb nk ha hb hk h1 h2 hn hks

/-- **C90**, eigenvalues on other k-points: see C73. -/
theorem C90_interpolated (h : ReadFrom x file kbb all root o) (nb nk c : Nat) (hb : 0 < nb) (hk : 0 < nk) (hc : 0 < c)
    (h1 : Regular (specialSets root c!"spin 1") nb nk c) (h2 : specialSets root c!"spin 2" = [] ∨ Regular (specialSets root c!"spin 2") nb nk c)
    (hn : (getParameters o).nbands = some (nb : Int)) :
    ∃ e, getEigenvaluesSpecific o = some e ∧
      BySpin (fun spin a => Placed kbb nb nk (BandNumber 0 (specialSets root spin)) a) (specialSets root c!"spin 2" = []) e := by
  obtain ⟨d, hd, rfl⟩ := h.data
  exact (C73_interpolated root kbb all d hd nb nk c hb hk hc h1 h2 hn).2

/-- **C90**, eigenvelocities and the k-points and weights they belong to: see C73. -/
theorem C90_velocities (h : ReadFrom x file kbb all root o) (nb nk : Nat) (hb : 0 < nb) (hk : 0 < nk)
    (h1 : Regular (velocitySets root c!"spin 1") nb nk 4) (h2 : velocitySets root c!"spin 2" = [] ∨ Regular (velocitySets root c!"spin 2") nb nk 4)
    (hn : (getParameters o).nbands = some (nb : Int)) (hp : AllPrint 3 (specialList root c!"eigenvelocities" c!"kpointlist")) :
    (∃ e, getEigenvelocities o = some e ∧
      BySpin (fun spin a => Placed kbb nb nk (BandRow (velocitySets root spin)) a) (velocitySets root c!"spin 2" = []) e) ∧
    ∃ ks, getKpointsSpecific o = some ks ∧ ks.length = nk ∧ List.Forall₂ Prints (specialList root c!"eigenvelocities" c!"kpointlist") ks := by
  obtain ⟨d, hd, rfl⟩ := h.data
  obtain ⟨hl, he⟩ := C73_velocities root kbb all d hd nb nk hb hk h1 h2 hn
  refine ⟨he, ?_⟩
  have hne := h1.rows_ne hb hk
  obtain ⟨hk1, -⟩ := (C73_kpoints root kbb all d hd).1 hne
  obtain ⟨a, ha, hta⟩ := opt_table hp
  rw [ha] at hk1
  have hk1 : a = d.kpointsSpecific := Res.ok.inj hk1
  rcases hta with ⟨g1, -⟩ | ⟨-, rows, g2, g3⟩
  · rw [g1] at hl; simp at hl; omega
  · exact ⟨rows, by unfold getKpointsSpecific; simp only [← hk1, g2], by rw [← hl]; exact g3.length_eq.symm, g3⟩

theorem opt_column {es : List Node} (h : AllPrint 1 es) : ∃ r, opt convert1D es = .ok r ∧
    ((es = [] ∧ r = none) ∨ ∃ ws, r = some ws ∧ List.Forall₂ (fun e x => Prints e [x]) es ws) := by
  obtain ⟨ws, h1, h2⟩ := convert1D_forall h
  cases es with
  | nil => exact ⟨none, rfl, .inl ⟨rfl, rfl⟩⟩
  | cons e l =>
    refine ⟨some ws, ?_, .inr ⟨ws, rfl, h2⟩⟩
    unfold opt
    simp only [h1]; rfl

/-- **C90**, the other k-points and their weights: those of the eigenvelocities if there are any, else those of the interpolated eigenvalues, `None`
if there are neither. -/
theorem C90_specific (h : ReadFrom x file kbb all root o) (kind : Str)
    (hkind : kind = if (velocitySets root c!"spin 1").flatMap rowsIn = [] then c!"eigenvalues" else c!"eigenvelocities")
    (hp : AllPrint 3 (specialList root kind c!"kpointlist")) (hw : AllPrint 1 (specialList root kind c!"weights")) :
    if (velocitySets root c!"spin 1").flatMap rowsIn = [] ∧ (specialSets root c!"spin 1").flatMap rowsIn = [] then
      getKpointsSpecific o = none ∧ getKpointswSpecific o = none
    else TableOf (specialList root kind c!"kpointlist") (getKpointsSpecific o) ∧
      ((specialList root kind c!"weights" = [] ∧ getKpointswSpecific o = none) ∨
        ∃ ws, getKpointswSpecific o = some ws ∧ List.Forall₂ (fun e x => Prints e [x]) (specialList root kind c!"weights") ws) := by
  obtain ⟨d, hd, rfl⟩ := h.data
  obtain ⟨k1, k2, k3⟩ := C73_kpoints root kbb all d hd
  obtain ⟨a, ha, hta⟩ := opt_table hp
  obtain ⟨b, hb, htb⟩ := opt_column hw
  unfold getKpointsSpecific getKpointswSpecific
  simp only
  by_cases hv : (velocitySets root c!"spin 1").flatMap rowsIn = []
  · rw [if_pos hv] at hkind
    subst hkind
    by_cases hs : (specialSets root c!"spin 1").flatMap rowsIn = []
    · rw [if_pos ⟨hv, hs⟩]; exact k3 hv hs
    · rw [if_neg (fun hc => hs hc.2)]
      obtain ⟨g1, g2⟩ := k2 hv hs
      rw [ha] at g1
      rw [hb] at g2
      rw [← Res.ok.inj g1, ← Res.ok.inj g2]
      exact ⟨hta, htb⟩
  · rw [if_neg hv] at hkind
    subst hkind
    rw [if_neg (fun hc => hv hc.1)]
    obtain ⟨g1, g2⟩ := k1 hv
    rw [ha] at g1
    rw [hb] at g2
    rw [← Res.ok.inj g1, ← Res.ok.inj g2]
    exact ⟨hta, htb⟩

/-- What `get_dos()` returns for one spin, or under `total` without spin. -/
def ShowsDos (root : Node) (dos : Step) (spin : Str) (na ne : Nat) (m : DosMap) : Prop :=
  ∃ tot int part, m.total = some tot ∧ m.integrated = some int ∧ m.partials = some part ∧
    Column 1 (totalRows root dos spin) tot ∧ Column 2 (totalRows root dos spin) int ∧ PartOf (partSets root dos spin) na ne part

/-- What `get_dos()` returns: energies and Fermi level under `total`, and the densities there without spin, under `up` and `down` with spin. -/
def ReportsDos (root : Node) (dos : Step) (na ne : Nat) (y : DosDict) : Prop :=
  ∃ m en f, y.total = some m ∧ m.energy = some en ∧ m.fermi = some f ∧ Column 0 (totalRows root dos c!"spin 1") en ∧
    FirstNumber (findAny root (t c!"calculation") [dos, tn c!"i" c!"efermi"]) f ∧
    if totalRows root dos c!"spin 2" = [] then y.up = none ∧ y.down = none ∧ ShowsDos root dos c!"spin 1" na ne m
    else m.total = none ∧ m.integrated = none ∧ m.partials = none ∧
      ∃ u v, y.up = some u ∧ y.down = some v ∧ ShowsDos root dos c!"spin 1" na ne u ∧ ShowsDos root dos c!"spin 2" na ne v

theorem reports_dosDict {root : Node} {dos : Step} {na ne : Nat} {y : Dos} (he : Column 0 (totalRows root dos c!"spin 1") y.energy)
    (hf : FirstNumber (findAny root (t c!"calculation") [dos, tn c!"i" c!"efermi"]) y.fermi) (h : DosBySpin root dos na ne y) :
    ReportsDos root dos na ne (dosDict y) := by
  unfold DosBySpin at h
  unfold ReportsDos dosDict
  split at h
  · rename_i hc
    obtain ⟨h1, h2, p, h3, h4, h5, h6⟩ := h
    simp only [h3, hc, if_true]
    exact ⟨_, _, _, rfl, rfl, rfl, he, hf, trivial, trivial, _, _, _, rfl, rfl, rfl, h4, h5, h6⟩
  · rename_i hc
    obtain ⟨h1, p, q, h2, h3, h4, h5⟩ := h
    simp only [h1, hc, if_false, h2, h3]
    exact ⟨_, _, _, rfl, rfl, rfl, he, hf, rfl, rfl, rfl, _, _, rfl, rfl, ⟨_, _, _, rfl, rfl, rfl, h4⟩, ⟨_, _, _, rfl, rfl, rfl, h5⟩⟩

/-- **C90**, density of states and Fermi level: see C55, C78. Missing: the cases in which C55 and C78 are false. -/
theorem C90_dos_partial (h : ReadFrom x file kbb all root o) (sp : List Nat) (hsp : getSpecies o = some sp) (ne : Nat)
    (ha : 0 < sp.length) (he : 0 < ne) (hne : totalRows root (t c!"dos") c!"spin 1" ≠ [])
    (h1 : AllPrint 3 (totalRows root (t c!"dos") c!"spin 1")) (h2 : AllPrint 3 (totalRows root (t c!"dos") c!"spin 2"))
    (p1 : partSets root (t c!"dos") c!"spin 1" = [] ∨ Regular (partSets root (t c!"dos") c!"spin 1") ne sp.length 10)
    (p2 : partSets root (t c!"dos") c!"spin 2" = [] ∨ Regular (partSets root (t c!"dos") c!"spin 2") ne sp.length 10) :
    (∃ y, getDos o = some y ∧ ReportsDos root (t c!"dos") sp.length ne y) ∧
    ∃ f, getFermiLevel o = .ok f ∧ FirstNumber (findAny root (t c!"calculation") [t c!"dos", tn c!"i" c!"efermi"]) f := by
  obtain ⟨d, hd, rfl⟩ := h.data
  obtain ⟨y, hy, g1, g2, g3⟩ := C55_dos_partial root kbb all d hd sp hsp ne ha he hne h1 h2 p1 p2
  refine ⟨⟨dosDict y, ?_, reports_dosDict g1 g2 g3⟩, y.fermi, ?_, g2⟩
  · unfold getDos; simp only [hy]; rfl
  · unfold getFermiLevel getDos; simp only [hy]; exact fermi_dosDict y

/-- **C90**, interpolated density of states: see C74, C78. -/
theorem C90_dos_specific (h : ReadFrom x file kbb all root o) (sp : List Nat) (hsp : getSpecies o = some sp) (ne : Nat)
    (ha : 0 < sp.length) (he : 0 < ne) (hd : getDos o ≠ none) (hne : totalRows root (tc c!"dos" c!"interpolated") c!"spin 1" ≠ [])
    (h1 : AllPrint 3 (totalRows root (tc c!"dos" c!"interpolated") c!"spin 1")) (h2 : AllPrint 3 (totalRows root (tc c!"dos" c!"interpolated") c!"spin 2"))
    (p1 : partSets root (tc c!"dos" c!"interpolated") c!"spin 1" = [] ∨ Regular (partSets root (tc c!"dos" c!"interpolated") c!"spin 1") ne sp.length 10)
    (p2 : partSets root (tc c!"dos" c!"interpolated") c!"spin 2" = [] ∨ Regular (partSets root (tc c!"dos" c!"interpolated") c!"spin 2") ne sp.length 10) :
    (∃ y, getDosSpecific o = some y ∧ ReportsDos root (tc c!"dos" c!"interpolated") sp.length ne y) ∧
    ∃ f, getFermiLevelSpecific o = .ok f ∧
      FirstNumber (findAny root (t c!"calculation") [tc c!"dos" c!"interpolated", tn c!"i" c!"efermi"]) f := by
  obtain ⟨d, hd', rfl⟩ := h.data
  cases hx : d.dos with
  | none => exact absurd (by unfold getDos; simp only [hx]; rfl) hd
  | some z =>
    obtain ⟨y, hy, g1, g2, g3⟩ := C74_interpolated root kbb all d hd' sp hsp ne ha he z hx hne h1 h2 p1 p2
    refine ⟨⟨dosDict y, ?_, reports_dosDict g1 g2 g3⟩, y.fermi, ?_, g2⟩
    · unfold getDosSpecific; simp only [hy]; rfl
    · unfold getFermiLevelSpecific getDosSpecific; simp only [hy]; exact fermi_dosDict y

/-- **C90**, input parameters: see C75. -/
theorem C90_parameters (h : ReadFrom x file kbb all root o) :
    FirstNumber (parameter root [c!"symmetry"] c!"SYMPREC") (getParameters o).symprec ∧
    FirstNumber (parameter root [c!"electronic", c!"electronic smearing"] c!"SIGMA") (getParameters o).sigma ∧
    FirstInt (parameter root [c!"electronic", c!"electronic smearing"] c!"ISMEAR") (getParameters o).ismear ∧
    FirstInt (parameter root [c!"electronic", c!"electronic spin"] c!"ISPIN") (getParameters o).ispin ∧
    FirstInt (parameter root [c!"electronic"] c!"NBANDS") (getParameters o).nbands ∧
    FirstNumber (parameter root [c!"electronic"] c!"NELECT") (getParameters o).nelect ∧
    (getParameters o).system = ((parameter root [c!"general"] c!"SYSTEM").head?.bind fun e => e.text) ∧
    FirstInt (parameter root [c!"electronic", c!"electronic convergence"] c!"NELM") (getParameters o).nelm ∧
    FirstInt (parameter root [c!"ionic"] c!"NSW") (getParameters o).nsw := by
  obtain ⟨d, hd, rfl⟩ := h.data
  exact C75_parameters root kbb all d hd

/-- **C90**, dielectric functions and tensors: see C76, C80. -/
theorem C90_dielectrics (h : ReadFrom x file kbb all root o) (h1 : AllPrint 7 (dielRows root c!"imag"))
    (h2 : AllPrint 7 (dielRows root c!"real")) (h3 : AllPrint 3 (tableRows root c!"epsilon")) (h4 : AllPrint 3 (tableRows root c!"epsilon_ion")) :
    ∃ y, getDielectrics o = some y ∧ RowsOf 1 (dielRows root c!"imag") y.imag ∧ RowsOf 1 (dielRows root c!"real") y.real ∧
      ((dielRows root c!"imag" = [] ∧ y.energy = none) ∨ ∃ c, y.energy = some c ∧ Column 0 (dielRows root c!"imag") c) ∧
      (∃ a, y.epsilon = some a ∧ getEpsilon o = .ok a ∧ RowsOf 0 (tableRows root c!"epsilon") a) ∧
      ∃ b, y.epsilonIon = some b ∧ getEpsilonIon o = .ok b ∧ RowsOf 0 (tableRows root c!"epsilon_ion") b := by
  obtain ⟨d, hd, rfl⟩ := h.data
  obtain ⟨y, hy, g1, g2, g3, g4, g5⟩ := C76_dielectrics root kbb all d hd h1 h2 h3 h4
  refine ⟨⟨y.energy, y.imag, y.real, some y.epsilon, some y.epsilonIon⟩, ?_, g1, g2, g5, ⟨_, rfl, ?_, g3⟩, _, rfl, ?_, g4⟩
  · unfold getDielectrics; simp only [hy]; rfl
  · unfold getEpsilon getDielectrics; simp only [hy]; rfl
  · unfold getEpsilonIon getDielectrics; simp only [hy]; rfl

/-- **C90**, k-points and weights: see C76. -/
theorem C90_kpoints (h : ReadFrom x file kbb all root o)
    (h1 : AllPrint 3 (findRel root [t c!"kpoints", tn c!"varray" c!"kpointlist", t c!"v"]))
    (h2 : AllPrint 1 (findRel root [t c!"kpoints", tn c!"varray" c!"weights", t c!"v"])) :
    RowsOf 0 (findRel root [t c!"kpoints", tn c!"varray" c!"kpointlist", t c!"v"]) (getKpoints o) ∧
    (if findRel root [t c!"kpoints", tn c!"varray" c!"weights", t c!"v"] = [] then getKpointsw o = none
      else ∃ ws, getKpointsw o = some ws ∧
        List.Forall₂ (fun e x => Prints e [x]) (findRel root [t c!"kpoints", tn c!"varray" c!"weights", t c!"v"]) ws) := by
  obtain ⟨d, hd, rfl⟩ := h.data
  obtain ⟨g1, g2, -⟩ := C76_kpoints root kbb all d hd h1 h2
  exact ⟨g1, g2⟩

/-- **C90**, Hessian, dynamical matrix and Born charges: see C76. -/
theorem C90_response (h : ReadFrom x file kbb all root o) (sp : List Nat) (hsp : getSpecies o = some sp) :
    (AllPrint (sp.length * 3) (hessianRows root) → RowsOf 0 (hessianRows root) (getHessian o)) ∧
    (∀ e v es vs xs, findAny root (t c!"calculation") [t c!"dynmat", tn c!"v" c!"eigenvalues"] = e :: es → modesSets root = v :: vs → Prints e xs →
      AllPrint (sp.length * 3) v.children →
      ∃ rows, getDynmat o = some ⟨some xs, some rows⟩ ∧ List.Forall₂ Prints v.children rows) ∧
    (0 < sp.length → PerStep (bornSets root) sp.length 3 →
      ∃ b, getBorn o = some (.charges b) ∧ b.length = sp.length ∧ ∀ a, a < sp.length → ∃ x, StepTable (bornSets root) a x ∧ b[a]? = some x) := by
  obtain ⟨d, hd, rfl⟩ := h.data
  refine ⟨C76_hessian root kbb all d hd sp hsp, ?_, fun ha hb => C76_born root kbb all d hd sp hsp ha hb⟩
  intro e v es vs xs he hv hx hp
  obtain ⟨rows, g1, g2⟩ := C76_dynmat root kbb all d hd sp hsp e v es vs he hv xs hx hp
  exact ⟨rows, by unfold getDynmat; simp only [g1]; rfl, g2⟩

/-- **C90**, version: the first version number in the text of the first `version` element of the generator (see C59); `AttributeError` if there is none. -/
theorem C90_version (h : ReadFrom x file kbb all root o) :
    (∀ e es v, findAny root (t c!"generator") [tn c!"i" c!"version"] = e :: es → e.text = some v →
      (∀ r, getVersionOf o = .ok r ↔ FirstVersion v r) ∧ (getVersionOf o = .raise .attributeError ↔ ∀ r, IsVersion r → ¬ r <:+: v)) ∧
    (findAny root (t c!"generator") [tn c!"i" c!"version"] = [] → getVersionOf o = .raise .attributeError) := by
  obtain ⟨d, hd, rfl⟩ := h.data
  unfold getVersionOf
  simp only [(parts hd).version, fetchVersion]
  constructor
  · intro e es v he hv
    rw [he]
    simp only [hv]
    exact ⟨(C59_version v).1, (C59_version v).2.1⟩
  · intro he
    rw [he]; rfl

end

/-- The hypotheses are met: an object made from a complete file. -/
example : ∃ o, ReadFrom exLxml exFile false true exDoc o ∧ getSpecies o = some [14, 6] ∧ getFermiLevel o = .ok (some (11/2)) := by
  obtain ⟨o, ho, h1, h2⟩ : ∃ o, new exLxml (some (.file exFile)) none false true false = .ok o ∧ getSpecies o = some [14, 6] ∧
    getFermiLevel o = .ok (some (11/2)) := okAnd (by decide +kernel)
  exact ⟨o, ⟨ho, .inl (by decide +kernel), rfl⟩, h1, h2⟩

end Verif.VasprunApi
