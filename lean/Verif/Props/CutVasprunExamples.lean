import Verif.Props.CutVasprunSteps
/-! # C113: what is wrong after a cut, and examples -/
set_option autoImplicit false
namespace Verif.Vasprun
open Verif Verif.Utils Verif.Xml Verif.VasprunEvent
open Verif.Kpoints (idx toFloat toInt)

variable {full cut : Node} {kbb all : Bool} {d d' : Data}

/-! ### cutting -/

/-- The first elements, as many as the first number says, and the next one cut off as the other numbers say. -/
def chop : List Nat → List Node → List Node
  | [], _ => []
  | i :: p, l => l.take i ++ match l[i]? with
    | some (.node tag attrs text (c :: cs)) => [.node tag attrs text (chop p (c :: cs))]
    | _ => []

/-- A document cut off. -/
def chopped (p : List Nat) : Node → Node
  | .node tag attrs text cs => .node tag attrs text (chop p cs)

theorem chop_cut (p : List Nat) (l : List Node) : CutAll l (chop p l) := by
  induction p generalizing l with
  | nil => exact .stop _
  | cons i p ih =>
    rw [chop]
    have e : l = l.take i ++ l.drop i := (List.take_append_drop i l).symm
    conv => lhs; rw [e]
    refine CutAll.append_left _ ?_
    split
    · rename_i tag attrs text c cs hn
      obtain ⟨hi, hn⟩ := List.getElem?_eq_some_iff.1 hn
      rw [List.drop_eq_getElem_cons hi, hn]
      exact .inside _ _ _ _ _ _ _ (by simp) (ih _)
    · exact .stop _

theorem chopped_cut (p : List Nat) (root : Node) (h : root.children ≠ []) : CutOff root (chopped p root) := by
  cases root with
  | node tag attrs text cs => exact .inside _ _ _ _ _ _ _ h (chop_cut p cs)

/-! ### what is refused -/

theorem extractEigenvalues_length {p : Params} {a b : List Node} {nk : Nat} {r : Spins Table × Option (Spins Table)} {nb : Int} (hn : p.nbands = some nb)
    (h : extractEigenvalues p kbb a (nonEmpty b) nk = .ok r) : (a.length : Int) = nb * nk ∧ (b = [] ∨ (b.length : Int) = nb * nk) := by
  unfold extractEigenvalues at h
  cases hi : p.ispin with
  | none => rw [hi] at h; cases h
  | some i =>
    rw [hi, hn] at h
    simp only at h
    split at h
    · cases h
    · rename_i l1
      refine ⟨not_not.1 l1, ?_⟩
      obtain ⟨e, he, h⟩ := Res.bind_eq_ok.1 h
      cases ht : e.text with
      | none => rw [ht] at h; cases h
      | some s =>
        rw [ht] at h
        simp only at h
        obtain ⟨d1, hd, h⟩ := Res.bind_eq_ok.1 h
        cases hb1 : nonEmpty b with
        | none => exact .inl (nonEmpty_none hb1)
        | some es2 =>
          obtain ⟨rfl, _⟩ := nonEmpty_some hb1
          rw [hb1] at h
          simp only at h
          split at h
          · cases h
          · rename_i l2
            exact .inr (not_not.1 l2)

/-- A file that was cut off inside the eigenvalues of a spin component is never accepted: the eigenvalues of both spins are complete or missing. -/
theorem C113_refused (h : parsew cut kbb all = .ok d) (nb : Int) (ks : Table) (hn : d.params.nbands = some nb) (hk : d.kpoints = some ks) (spin : Str)
    (hs : spin = c!"spin 1" ∨ (spin = c!"spin 2" ∧ d.eigenvalues ≠ none)) :
    ((eigenSets cut spin).flatMap rowsIn).length = 0 ∨ (((eigenSets cut spin).flatMap rowsIn).length : Int) = nb * ks.length := by
  have g := (parts h).eigen
  rw [hk] at g
  have hpath : ∀ s, findAny cut (t c!"calculation") [t c!"eigenvalues", t c!"array", t c!"set", tc c!"set" s, t c!"set", t c!"r"] =
      (eigenSets cut s).flatMap rowsIn := fun s => by
    rw [eigenSets, show [t c!"eigenvalues", t c!"array", t c!"set", tc c!"set" s, t c!"set", t c!"r"] =
      [t c!"eigenvalues", t c!"array", t c!"set", tc c!"set" s, t c!"set"] ++ [t c!"r"] from rfl, findAny_append]
    simp only [follow, selects_tag]; rfl
  unfold fetchEigenvalues at g
  simp only [hpath] at g
  generalize hA : (eigenSets cut c!"spin 1").flatMap rowsIn = A at g
  generalize hB : (eigenSets cut c!"spin 2").flatMap rowsIn = B at g
  cases A with
  | nil =>
    rcases hs with rfl | ⟨rfl, hs⟩
    · left; rw [hA]; rfl
    · simp only [Res.ok.injEq, Prod.mk.injEq] at g
      exact absurd g.1.symm hs
  | cons a A =>
    simp only at g
    obtain ⟨r, hr, g⟩ := Res.bind_eq_ok.1 g
    obtain ⟨h1, h2⟩ := extractEigenvalues_length hn hr
    rcases hs with rfl | ⟨rfl, hs⟩
    · right; rw [hA]; exact h1
    · rw [hB]
      rcases h2 with h2 | h2
      · left; rw [h2]; rfl
      · exact .inr h2

/-! ### what is wrong -/

/-- C113 is false for the energies, in general: if the step in which the file was cut off has no energies yet, those of all earlier steps are lost. -/
theorem C113_violation_energies (h : parsew cut kbb all = .ok d') (cs : List Node) (c : Node) (hl : calculations cut = cs ++ [c]) (e : EType)
    (hm : scEnergies c e = []) : d'.totens = none :=
  C50_missing cut c cs [] hl e hm _ (parts h).totens

/-- Eigenvalues of two spins at two k-points. -/
def spinDoc : Node := box c!"modeling" [sampleKpoints, sampleParams c!" 2 " c!" 2 ", box c!"calculation" [
  box c!"eigenvalues" [box c!"array" [box c!"set" [commented c!"set" c!"spin 1"
    [commented c!"set" c!"kpoint 1" [leaf c!"r" c!" -1.0 1.0 ", leaf c!"r" c!" 2.5 0.0 "],
     commented c!"set" c!"kpoint 2" [leaf c!"r" c!" -1.5 1.0 ", leaf c!"r" c!" 3.5 0.25 "]],
    commented c!"set" c!"spin 2"
    [commented c!"set" c!"kpoint 1" [leaf c!"r" c!" -3.0 1.0 ", leaf c!"r" c!" 4.5 0.0 "],
     commented c!"set" c!"kpoint 2" [leaf c!"r" c!" -3.5 1.0 ", leaf c!"r" c!" 5.5 0.25 "]]]]]]]

/-- C113 is false for two spins: cut off behind the first spin component, its eigenvalues are given as those of a calculation without spin, though `ISPIN`
is two. -/
theorem C113_violation_spin : CutOff spinDoc (chopped [2, 0, 0, 0, 1] spinDoc) ∧ Ordinary spinDoc ∧
    (∃ d, parsew spinDoc false true = .ok d ∧ d.eigenvalues = some (.updown [[-1, -3/2], [5/2, 7/2]] [[-3, -7/2], [9/2, 11/2]])) ∧
    ∃ d, parsew (chopped [2, 0, 0, 0, 1] spinDoc) false true = .ok d ∧ d.params.ispin = some 2 ∧
      d.eigenvalues = some (.total [[-1, -3/2], [5/2, 7/2]]) :=
  ⟨chopped_cut _ _ (by decide +kernel), ⟨by decide +kernel, by decide +kernel, by decide +kernel⟩, ⟨_, rfl, by decide +kernel⟩,
    ⟨_, rfl, by decide +kernel, by decide +kernel⟩⟩

/-- C113: cut off inside the eigenvalues the whole file is refused, with the exit code of wrong sizes, though everything before is complete. -/
theorem C113_violation_eigenvalues : parsew (chopped [2, 0, 0, 0, 0, 1, 1] spinDoc) false true = .exit 505 := by decide +kernel

/-- C113 is false for the partial densities: two atoms and two energies, cut off behind the first atom, and the second energy of the first atom is given as
the density of the second atom. -/
theorem C113_violation_partial_dos : CutOff dosDoc (chopped [1, 0, 2, 0, 0, 1] dosDoc) ∧ Ordinary dosDoc ∧
    ∃ d x, parsew (chopped [1, 0, 2, 0, 0, 1] dosDoc) false true = .ok d ∧ d.species = some [14, 14] ∧ d.dos = some x ∧ x.energy = [-1, 1] ∧
      x.whole = some ⟨[1/2, 3/2], [1/4, 2], some [[[1, 0, 0, 0, 0, 0, 0, 0, 2]], [[3, 0, 0, 0, 0, 0, 0, 0, 4]]]⟩ :=
  ⟨chopped_cut _ _ (by decide +kernel), ⟨by decide +kernel, by decide +kernel, by decide +kernel⟩,
    ⟨_, _, rfl, by decide +kernel, rfl, by decide +kernel, by decide +kernel⟩⟩

/-- Born charges of two atoms. -/
def bornDoc : Node := box c!"modeling" [atomList 2, box c!"calculation" [named c!"array" c!"born_charges" [
  box c!"set" (rows3 c!"1 2 3" c!"4 5 6" c!"7 8 9"), box c!"set" (rows3 c!"-1 -2 -3" c!"-4 -5 -6" c!"-7 -8 -9")]]]

/-- C113 is false for the Born charges: cut off behind the first row of the second atom there are two tables of two rows, and the last row of the first atom
begins the table of the second. -/
theorem C113_violation_born : CutOff bornDoc (chopped [1, 0, 1, 1] bornDoc) ∧ Ordinary bornDoc ∧
    (∃ d, parsew bornDoc false true = .ok d ∧ d.born = some (.charges [[[1, 2, 3], [4, 5, 6], [7, 8, 9]], [[-1, -2, -3], [-4, -5, -6], [-7, -8, -9]]])) ∧
    ∃ d, parsew (chopped [1, 0, 1, 1] bornDoc) false true = .ok d ∧ d.species = some [14, 14] ∧
      d.born = some (.charges [[[1, 2, 3], [4, 5, 6]], [[7, 8, 9], [-1, -2, -3]]]) :=
  ⟨chopped_cut _ _ (by decide +kernel), ⟨by decide +kernel, by decide +kernel, by decide +kernel⟩, ⟨_, rfl, by decide +kernel⟩,
    ⟨_, rfl, by decide +kernel, by decide +kernel⟩⟩

theorem stepsDoc_ordinary : Ordinary stepsDoc := ⟨by decide +kernel, by decide +kernel, by decide +kernel⟩

/-- C113 is false for the last step: three steps, cut off in the positions of the third, which are given for one of the two atoms; the forces and the stress
of the last step are empty tables. -/
theorem C113_violation_last : CutOff stepsDoc (chopped [3, 0, 1, 1] stepsDoc) ∧
    ∃ d, parsew (chopped [3, 0, 1, 1] stepsDoc) false true = .ok d ∧ d.species = some [14, 14] ∧
      getSteps d.positions c!"last" = .ok (.one (some [[1/2, 1/2, 4]])) ∧ getSteps d.forces c!"last" = .ok (.one (some [])) ∧
      getSteps d.stress c!"last" = .ok (.one (some [])) :=
  ⟨chopped_cut _ _ (by decide +kernel), ⟨_, rfl, by decide +kernel, by decide +kernel, by decide +kernel, by decide +kernel⟩⟩

/-- C113 is false if only the first and the last step are extracted: cut off in the forces of the third step, the last forces are one row of the second step
and one of the third. -/
theorem C113_violation_first_last : CutOff stepsDoc (chopped [3, 1, 1] stepsDoc) ∧
    ∃ d, parsew (chopped [3, 1, 1] stepsDoc) false false = .ok d ∧
      getSteps d.forces c!"last" = .ok (.one (some [[1/4, 1/2, 7/2], [1/4, 1/2, 4]])) :=
  ⟨chopped_cut _ _ (by decide +kernel), ⟨_, rfl, by decide +kernel⟩⟩

/-- C113 is false for a cut inside a number: the beginning of the number is read. -/
theorem C113_violation_number :
    (∃ d, parsew (box c!"modeling" [named c!"parameters" c!"" [named c!"separator" c!"electronic" [item' c!"i" c!"NBANDS" c!" 24"]]]) false true = .ok d ∧
      d.params.nbands = some 24) ∧
    ∃ d, parsew (box c!"modeling" [named c!"parameters" c!"" [named c!"separator" c!"electronic" [item' c!"i" c!"NBANDS" c!" 2"]]]) false true = .ok d ∧
      d.params.nbands = some 2 := ⟨⟨_, rfl, by decide +kernel⟩, ⟨_, rfl, by decide +kernel⟩⟩

/-! ### the hypotheses are met -/

/-- Two complete steps and a part of the third: the steps left. -/
example : ∃ d d', parsew stepsDoc false true = .ok d ∧ parsew (chopped [3, 0, 1, 1] stepsDoc) false true = .ok d' ∧ d'.species = d.species ∧
    2 < (structures (chopped [3, 0, 1, 1] stepsDoc)).length ∧ (cellSets (chopped [3, 0, 1, 1] stepsDoc)).length = 3 ∧
    (forceSets (chopped [3, 0, 1, 1] stepsDoc)).length = 2 ∧ PerStep (cellSets stepsDoc) 3 3 :=
  ⟨_, _, rfl, rfl, by decide +kernel, by decide +kernel, by decide +kernel, by decide +kernel, perStep_of (by decide +kernel)⟩

example : Kept (cellSets stepsDoc) (cellSets (chopped [3, 0, 1, 1] stepsDoc)) 2 ∧ Kept (forceSets stepsDoc) (forceSets (chopped [3, 0, 1, 1] stepsDoc)) 1 :=
  ⟨⟨by decide +kernel, rfl⟩, ⟨by decide +kernel, rfl⟩⟩

/-- Cut off between the second and the third step. -/
example : let cut := box c!"modeling" [atomList 2, sampleStep 2 c!"3.0", sampleStep 2 c!"3.5"]
    CutOff stepsDoc cut ∧ calculations cut <+: calculations stepsDoc ∧ (calculations cut).length = 2 :=
  ⟨.inside _ _ _ _ _ _ _ (by simp) (.keep _ _ _ (.keep _ _ _ (.keep _ _ _ (.stop _)))), ⟨[sampleStep 2 c!"4.0"], rfl⟩, rfl⟩

/-- Every step has one table of each kind. -/
example : (∀ c ∈ calculations stepsDoc, ∃ s, findRel c [t c!"structure"] = [s]) ∧
    OneTable stepsDoc [t c!"structure", t c!"crystal", tn c!"varray" c!"basis"] 3 ∧ OneTable stepsDoc [t c!"structure", tn c!"varray" c!"positions"] 2 ∧
    OneTable stepsDoc [tn c!"varray" c!"forces"] 2 ∧ OneTable stepsDoc [tn c!"varray" c!"stress"] 3 := by
  have key : ∀ (ss : List Step) (m : Nat), ((calculations stepsDoc).all fun c => match findRel c ss with
      | [s] => decide ((vIn s).length = m) && numbers 3 (vIn s)
      | _ => false) = true → OneTable stepsDoc ss m := by
    intro ss m h c hc
    have := List.all_eq_true.1 h c hc
    split at this
    · rename_i s hs
      simp only [Bool.and_eq_true, decide_eq_true_eq] at this
      exact ⟨s, hs, this.1, allPrint_of this.2⟩
    · cases this
  refine ⟨fun c hc => ?_, key _ _ (by decide +kernel), key _ _ (by decide +kernel), key _ _ (by decide +kernel), key _ _ (by decide +kernel)⟩
  have h : ((calculations stepsDoc).all fun c => decide ((findRel c [t c!"structure"]).length = 1)) = true := by decide +kernel
  exact List.length_eq_one_iff.1 (of_decide_eq_true (List.all_eq_true.1 h c hc))

/-- Energies: cut off behind the final energies of the second step. -/
example : Ordinary energyDoc ∧ CutOff energyDoc (chopped [1, 2] energyDoc) ∧ ∃ d d' m m', parsew energyDoc false true = .ok d ∧
    parsew (chopped [1, 2] energyDoc) false true = .ok d' ∧ d.totens = some m ∧ d'.totens = some m' :=
  ⟨⟨by decide +kernel, by decide +kernel, by decide +kernel⟩, chopped_cut _ _ (by decide +kernel), _, _, _, _, rfl, rfl, rfl, rfl⟩

/-- The header, eigenvalues and densities. -/
example : ∃ d d', parsew spinDoc false true = .ok d ∧ parsew (chopped [2, 0, 0, 0, 1] spinDoc) false true = .ok d' ∧ d'.params = d.params ∧ d'.kpoints = d.kpoints :=
  ⟨_, _, rfl, rfl, by decide +kernel, by decide +kernel⟩

end Verif.Vasprun
