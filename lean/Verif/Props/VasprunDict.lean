import Verif.Model.VasprunDict
import Verif.Lemmas.Dict
/-! # C110: the dictionary of a vasprun.xml object and its getters -/
set_option autoImplicit false
namespace Verif.VasprunApi
open Verif Verif.Utils Verif.Xml Verif.Vasprun Verif.VasprunEvent

/-- What a getter of a quantity of the ionic steps has to return, given the dictionary under which the quantity is stored: `None` if nothing was
read, else the step 1, the step with the largest number, or all of them. Asking
for a step 1 that is not there is a `KeyError`, for the last of no steps a `ValueError`. -/
inductive OfSteps : Option Steps → Str → Res (Got (Option Table)) → Prop
  | nothing (s : Str) : OfSteps none s (.ok .nothing)
  | initial (d : Steps) (v : Option Table) (h : d.get? 1 = some v) : OfSteps (some d) c!"initial" (.ok (.one v))
  | last (d : Steps) (k : Nat) (v : Option Table) (h : d.get? k = some v) (hk : ∀ k' ∈ d.keys, k' ≤ k) : OfSteps (some d) c!"last" (.ok (.one v))
  | all (d : Steps) : OfSteps (some d) c!"all" (.ok (.all d))
  | missing (d : Steps) (h : d.get? 1 = none) : OfSteps (some d) c!"initial" (.raise .keyError)
  | empty : OfSteps (some []) c!"last" (.raise .valueError)
  | refused (d : Steps) (s : Str) (h : s ∉ [c!"initial", c!"last", c!"all"]) : OfSteps (some d) s (.exit 507)

theorem foldl_max_ge : ∀ (l : List Nat) (a : Nat), a ≤ l.foldl max a ∧ ∀ x ∈ l, x ≤ l.foldl max a
  | [], a => ⟨Nat.le_refl _, by simp⟩
  | b :: l, a => by
    have := foldl_max_ge l (max a b)
    simp only [List.foldl_cons]
    refine ⟨by omega, fun x hx => ?_⟩
    rcases List.mem_cons.1 hx with rfl | hx
    · omega
    · exact this.2 x hx

theorem foldl_max_mem : ∀ (l : List Nat) (a : Nat), l.foldl max a = a ∨ l.foldl max a ∈ l
  | [], a => .inl rfl
  | b :: l, a => by
    simp only [List.foldl_cons]
    rcases foldl_max_mem l (max a b) with h | h
    · rw [h]
      rcases Nat.le_total a b with hab | hab
      · rw [Nat.max_eq_right hab]; simp
      · rw [Nat.max_eq_left hab]; simp
    · exact .inr (List.mem_cons_of_mem _ h)

theorem getSteps_of (d : Option Steps) (s : Str) : OfSteps d s (getSteps d s) := by
  cases d with
  | none => exact .nothing s
  | some d =>
    unfold getSteps checkStatus
    by_cases hs : s ∈ [c!"initial", c!"last", c!"all"]
    · simp only [if_pos hs, Res.ok_bind]
      by_cases hi : s = c!"initial"
      · subst hi
        rw [if_pos rfl]
        unfold item
        cases hv : d.get? 1 with
        | none => exact .missing d hv
        | some v => exact .initial d v hv
      · rw [if_neg hi]
        by_cases hl : s = c!"last"
        · subst hl
          rw [if_pos rfl]
          unfold maxKey
          cases hk : d.keys with
          | nil =>
            have : d = [] := by
              cases d with
              | nil => rfl
              | cons p d => simp [Dict.keys] at hk
            subst this
            exact .empty
          | cons k ks =>
            have h3 : ks.foldl max k ∈ d.keys := by
              rw [hk]
              rcases foldl_max_mem ks k with h | h
              · rw [h]; simp
              · exact List.mem_cons_of_mem _ h
            obtain ⟨v, hv⟩ := Option.isSome_iff_exists.1 ((Dict.mem_keys_iff d _).1 h3)
            simp only [Res.ok_bind, item, hv]
            refine .last d _ v hv fun k' hk' => ?_
            rw [hk] at hk'
            rcases List.mem_cons.1 hk' with rfl | h
            · exact (foldl_max_ge ks _).1
            · exact (foldl_max_ge ks k).2 k' h
        · rw [if_neg hl]
          have : s = c!"all" := by
            simp only [List.mem_cons, List.not_mem_nil, or_false] at hs
            tauto
          subst this
          exact .all d
    · simp only [if_neg hs]
      exact .refused d s hs

/-- C110: `get_dict` holds what the getters return, for objects of both parsers: plain quantities are equal, quantities of ionic steps are selected
from the dictionary by the status. Missing: the version, which is not in the dictionary, and
the words and entries for which the claim is false (`C110_violation_*`). -/
theorem C110_getters_partial (o : Obj) :
    let d := getDict o
    getParameters o = d.parameters ∧ getSpecies o = d.lattice.species ∧ getKpoints o = d.lattice.kpoints ∧ getKpointsw o = d.lattice.kpointsw ∧
    (∀ s, OfSteps d.lattice.unitcell s (getUnitcell o s)) ∧ (∀ s, OfSteps d.lattice.positions s (getPositions o s)) ∧
    (∀ s, OfSteps d.data.forces s (getForces o s)) ∧ (∀ s, OfSteps d.data.stress s (getStress o s)) ∧
    getEigenvalues o = d.data.eigenvalues ∧ getEigenvaluesSpecific o = d.data.eigenvaluesSpecific ∧ getEigenvelocities o = d.data.eigenvelocities ∧
    getKpointsSpecific o = d.data.kpoints ∧ getKpointswSpecific o = d.data.kpointsw ∧ getOccupancies o = d.data.occupancies ∧
    getDos o = d.data.dos ∧ getDosSpecific o = d.data.dosSpecific ∧ getDielectrics o = d.data.dielectrics ∧
    getProjectors o = d.data.projectors ∧ getHessian o = d.data.hessian ∧ getDynmat o = d.data.dynmat ∧ getBorn o = d.data.born ∧
    (∀ s e n, getEnergiesOf o s e n = getEnergies d.data.totens s e n) := by
  cases o with
  | mk t f =>
    cases f <;> refine ⟨rfl, rfl, rfl, rfl, fun s => getSteps_of _ s, fun s => getSteps_of _ s, fun s => getSteps_of _ s, fun s => getSteps_of _ s,
      rfl, rfl, rfl, rfl, rfl, rfl, rfl, rfl, rfl, rfl, rfl, rfl, rfl, fun _ _ _ => rfl⟩

/-- C110: the dictionary decides all getters but `get_version`: objects with equal dictionaries cannot be told apart otherwise. Missing: `get_version`, for which the claim is false (`C110_violation_*`). -/
theorem C110_everything_partial (o o' : Obj) (h : getDict o = getDict o') :
    (∀ s, getForces o s = getForces o' s) ∧ (∀ s, getStress o s = getStress o' s) ∧ (∀ s, getLattice o s = getLattice o' s) ∧
    getFermiLevel o = getFermiLevel o' ∧ getFermiLevelSpecific o = getFermiLevelSpecific o' ∧ getEpsilon o = getEpsilon o' ∧
    getEpsilonIon o = getEpsilonIon o' ∧ (∀ s e n, getEnergiesOf o s e n = getEnergiesOf o' s e n) ∧ getParameters o = getParameters o' ∧
    getSpecies o = getSpecies o' ∧ getKpoints o = getKpoints o' ∧ getKpointsw o = getKpointsw o' ∧ getEigenvalues o = getEigenvalues o' ∧
    getEigenvaluesSpecific o = getEigenvaluesSpecific o' ∧ getEigenvelocities o = getEigenvelocities o' ∧
    getKpointsSpecific o = getKpointsSpecific o' ∧ getKpointswSpecific o = getKpointswSpecific o' ∧ getOccupancies o = getOccupancies o' ∧
    getDos o = getDos o' ∧ getDosSpecific o = getDosSpecific o' ∧ getDielectrics o = getDielectrics o' ∧ getProjectors o = getProjectors o' ∧
    getHessian o = getHessian o' ∧ getDynmat o = getDynmat o' ∧ getBorn o = getBorn o' := by
  have hf : ∀ o s, getForces o s = getSteps (getDict o).data.forces s := by
    intro o s; cases o with | mk t f => cases f <;> rfl
  have hs : ∀ o s, getStress o s = getSteps (getDict o).data.stress s := by
    intro o s; cases o with | mk t f => cases f <;> rfl
  have hu : ∀ o s, getUnitcell o s = getSteps (getDict o).lattice.unitcell s := by
    intro o s; cases o with | mk t f => cases f <;> rfl
  have hp : ∀ o s, getPositions o s = getSteps (getDict o).lattice.positions s := by
    intro o s; cases o with | mk t f => cases f <;> rfl
  obtain ⟨a1, a2, a3, a4, -, -, -, -, a9, a10, a11, a12, a13, a14, a15, a16, a17, a18, a19, a20, a21, a22⟩ := C110_getters_partial o
  obtain ⟨b1, b2, b3, b4, -, -, -, -, b9, b10, b11, b12, b13, b14, b15, b16, b17, b18, b19, b20, b21, b22⟩ := C110_getters_partial o'
  refine ⟨fun s => by rw [hf, hf, h], fun s => by rw [hs, hs, h], fun s => by unfold getLattice; rw [hu, hu, hp, hp, a2, b2, h], ?_, ?_, ?_, ?_, ?_, ?_, ?_, ?_,
    ?_, ?_, ?_, ?_, ?_, ?_, ?_, ?_, ?_, ?_, ?_, ?_, ?_, ?_⟩
  · unfold getFermiLevel; rw [a15, b15, h]
  · unfold getFermiLevelSpecific; rw [a16, b16, h]
  · unfold getEpsilon; rw [a17, b17, h]
  · unfold getEpsilonIon; rw [a17, b17, h]
  · intro s e n; rw [a22, b22, h]
  · rw [a1, b1, h]
  · rw [a2, b2, h]
  · rw [a3, b3, h]
  · rw [a4, b4, h]
  · rw [a9, b9, h]
  · rw [a10, b10, h]
  · rw [a11, b11, h]
  · rw [a12, b12, h]
  · rw [a13, b13, h]
  · rw [a14, b14, h]
  · rw [a15, b15, h]
  · rw [a16, b16, h]
  · rw [a17, b17, h]
  · rw [a18, b18, h]
  · rw [a19, b19, h]
  · rw [a20, b20, h]
  · rw [a21, b21, h]

/-- A document that prints a version only. -/
def versionDoc (v : Str) : Node :=
  .node c!"modeling" [] none [.node c!"generator" [] none [.node c!"i" [(c!"name", c!"version")] (some v) []]]

/-- C110: the dictionary is not everything: the version is missing in it. -/
theorem C110_violation_version : ∃ r r', parsew (versionDoc c!"5.4.4") false true = .ok r ∧ parsew (versionDoc c!"6.3.0") false true = .ok r' ∧
    getDict ⟨false, .whole r⟩ = getDict ⟨false, .whole r'⟩ ∧
    getVersionOf ⟨false, .whole r⟩ = .ok c!"5.4.4" ∧ getVersionOf ⟨false, .whole r'⟩ = .ok c!"6.3.0" := by
  refine ⟨_, _, rfl, rfl, ?_⟩
  decide +kernel

/-- C110: the status `final`, named by the documentation of the getters for the last step, is refused by each of them whenever there is something to return
(and only then). -/
theorem C110_violation_final (o : Obj) :
    ((getDict o).data.forces ≠ none → getForces o c!"final" = .exit 507) ∧ ((getDict o).data.stress ≠ none → getStress o c!"final" = .exit 507) ∧
    ((getDict o).lattice.unitcell ≠ none → getUnitcell o c!"final" = .exit 507) ∧
    ((getDict o).lattice.positions ≠ none → getPositions o c!"final" = .exit 507) := by
  have key : ∀ d : Option Steps, d ≠ none → getSteps d c!"final" = .exit 507 := by
    intro d hd
    cases d with
    | none => exact absurd rfl hd
    | some d => rfl
  cases o with
  | mk t f => cases f <;> exact ⟨key _, key _, key _, key _⟩

/-- Two ionic steps, forces (of one atom) printed in the second only. -/
def lateForces : Node :=
  .node c!"modeling" [] none [.node c!"calculation" [] none [],
    .node c!"calculation" [] none [.node c!"varray" [(c!"name", c!"forces")] none [.node c!"v" [] (some c!"1 2 3") []]]]

/-- C110: asking for the first forces of such a document in event mode is an uncaught `KeyError`, although there are forces. -/
theorem C110_violation_initial : ∃ e, parsee lateForces false = .ok e ∧ (getDict ⟨false, .event e⟩).data.forces = some [(2, some [[1, 2, 3]])] ∧
    getForces ⟨false, .event e⟩ c!"last" = .ok (.one (some [[1, 2, 3]])) ∧ getForces ⟨false, .event e⟩ c!"initial" = .raise .keyError := by
  refine ⟨_, rfl, ?_⟩
  decide +kernel

/-- The largest number, not the last place in the dictionary. -/
example : OfSteps (some [(1, some [[1]]), (3, some [[3]]), (2, some [[2]])]) c!"last" (.ok (.one (some [[3]]))) :=
  .last _ 3 _ rfl (by decide)

end Verif.VasprunApi
