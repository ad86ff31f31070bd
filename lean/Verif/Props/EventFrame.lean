import Verif.Props.EventDoc
import Verif.Props.VasprunEnergies
/-! # What the parts of an ionic step change -/
set_option autoImplicit false
namespace Verif.VasprunEvent
open Verif Verif.Utils Verif.Xml Verif.Vasprun

/-! ### frames of single parts -/

theorem tableChild_frame {a a' : Acc} {n : Node} (h : tableChild a n = .ok a') :
    a' = { a with o.cell := a'.o.cell, o.pos := a'.o.pos } := by
  unfold tableChild at h
  split at h
  · obtain ⟨x, _, h⟩ := Res.bind_eq_ok.1 h; injection h with h; subst h; rfl
  · split at h
    · obtain ⟨x, _, h⟩ := Res.bind_eq_ok.1 h; injection h with h; subst h; rfl
    · injection h with h; subst h; rfl

/-- A frame is kept by a loop. -/
theorem fold_frame {σ α β : Type} {f : σ → α → Res σ} {π : σ → β} {l : List α} (h : ∀ a ∈ l, ∀ s s', f s a = .ok s' → π s' = π s)
    {s s' : σ} (hs : Res.foldlM' f s l = .ok s') : π s' = π s := foldlM'_keeps h hs

/-- All but unit cell and positions. -/
def noStruct (a : Acc) : Acc := { a with o.cell := [], o.pos := [] }
theorem tableChild_noStruct {a a' : Acc} {n : Node} (h : tableChild a n = .ok a') : noStruct a' = noStruct a := by
  rw [tableChild_frame h]; rfl
theorem structChild_noStruct {a a' : Acc} {n : Node} (h : structChild a n = .ok a') : noStruct a' = noStruct a := by
  unfold structChild at h
  split at h
  · exact foldlM'_keeps (fun _ _ _ _ h => tableChild_noStruct h) h
  · exact tableChild_noStruct h

/-- All but the total energies. -/
def noTotens (a : Acc) : Acc := { a with o.totens := [] }
theorem finalItem_noTotens {a a' : Acc} {n : Node} (h : finalItem a n = .ok a') : noTotens a' = noTotens a := by
  unfold finalItem at h
  cases hn : name n with
  | none => rw [hn] at h; cases h
  | some v =>
    rw [hn] at h
    simp only at h
    cases ht : typeOf v with
    | none => rw [ht] at h; injection h with h; rw [h]
    | some ty =>
      rw [ht] at h
      simp only at h
      cases hx : n.text with
      | none => rw [hx] at h; cases h
      | some x =>
        rw [hx] at h
        simp only at h
        obtain ⟨y, _, h⟩ := Res.bind_eq_ok.1 h
        cases hm : a.o.totens.get? a.o.num with
        | none => rw [hm] at h; cases h
        | some m => rw [hm] at h; injection h with h; subst h; rfl

theorem eigAll_frame {kb : Bool} {a a' : Acc} {n : Node} (h : eigAll kb a n = .ok a') :
    a' = { a with o.eigenvalues := a'.o.eigenvalues, o.occupancies := a'.o.occupancies } := by
  unfold eigAll at h
  obtain ⟨nk, _, h⟩ := Res.bind_eq_ok.1 h
  obtain ⟨r, _, h⟩ := Res.bind_eq_ok.1 h
  injection h with h; subst h; rfl

/-- All but the special k-points. -/
def noSp (a : Acc) : Acc := { a with o.kpointsSpecific := none, o.kpointswSpecific := none }
theorem spChild_noSp {a a' : Acc} {n : Node} (h : spChild a n = .ok a') : noSp a' = noSp a := by
  unfold spChild at h
  split at h
  · obtain ⟨x, _, h⟩ := Res.bind_eq_ok.1 h; injection h with h; subst h; rfl
  · split at h
    · obtain ⟨x, _, h⟩ := Res.bind_eq_ok.1 h; injection h with h; subst h; rfl
    · injection h with h; subst h; rfl

theorem specTable_frame {kb v : Bool} {a a' : Acc} {n : Node} (h : specTable kb v a n = .ok a') :
    a' = if v then { a with o.eigenvelocities := a'.o.eigenvelocities } else { a with o.eigenvaluesSpecific := a'.o.eigenvaluesSpecific } := by
  unfold specTable at h
  obtain ⟨nk, _, h⟩ := Res.bind_eq_ok.1 h
  cases v with
  | true => obtain ⟨r, _, h⟩ := Res.bind_eq_ok.1 h; injection h with h; subst h; rfl
  | false => obtain ⟨r, _, h⟩ := Res.bind_eq_ok.1 h; injection h with h; subst h; rfl

/-- All but what special eigenvalues (or eigenvelocities) set. -/
def noSpec (v : Bool) (a : Acc) : Acc :=
  if v then { noSp a with o.eigenvelocities := none } else { noSp a with o.eigenvaluesSpecific := none }
theorem specAll_noSpec {kb v : Bool} {a a' : Acc} {n : Node} (h : specAll kb v a n = .ok a') : noSpec v a' = noSpec v a := by
  unfold specAll at h
  split at h
  · obtain ⟨a1, h1, h⟩ := Res.bind_eq_ok.1 h
    have e1 := foldlM'_keeps (fun _ _ _ _ h => spChild_noSp h) h1
    have e2 := specTable_frame h
    unfold noSpec
    rw [e2]
    cases v <;> simp only [Bool.false_eq_true, if_false, if_true] <;> rw [← e1] <;> rfl
  · injection h with h; rw [h]

theorem dosAll_frame {a a' : Acc} {n : Node} (h : dosAll a n = .ok a') :
    a' = { a with o.dosDict := a'.o.dosDict, o.dosCopy := a'.o.dosCopy } := by
  unfold dosAll at h
  obtain ⟨s, _, h⟩ := Res.bind_eq_ok.1 h
  obtain ⟨f, _, h⟩ := Res.bind_eq_ok.1 h
  obtain ⟨d, _, h⟩ := Res.bind_eq_ok.1 h
  injection h with h; subst h; rfl

theorem dosSAll_frame {a a' : Acc} {n : Node} (h : dosSAll a n = .ok a') :
    a' = { a with o.dosDict := a'.o.dosDict, o.dosSpecificSet := a'.o.dosSpecificSet } := by
  unfold dosSAll at h
  obtain ⟨s, _, h⟩ := Res.bind_eq_ok.1 h
  obtain ⟨f, _, h⟩ := Res.bind_eq_ok.1 h
  obtain ⟨d, _, h⟩ := Res.bind_eq_ok.1 h
  injection h with h; subst h; rfl

theorem bornAll_frame {a a' : Acc} {n : Node} (h : bornAll a n = .ok a') : a' = { a with o.born := a'.o.born } := by
  unfold bornAll at h
  split at h
  · cases h
  · obtain ⟨s, _, h⟩ := Res.bind_eq_ok.1 h
    obtain ⟨f, _, h⟩ := Res.bind_eq_ok.1 h
    injection h with h; subst h; rfl

theorem dielAll_frame {a a' : Acc} {n : Node} (h : dielAll a n = .ok a') : a' = { a with o.dielectrics := a'.o.dielectrics } := by
  unfold dielAll at h
  obtain ⟨s, _, h⟩ := Res.bind_eq_ok.1 h
  injection h with h; subst h; rfl

theorem projArray_frame {kb : Bool} {a a' : Acc} {n : Node} (h : projArray kb a n = .ok a') : a' = { a with o.projectors := a'.o.projectors } := by
  unfold projArray at h
  obtain ⟨s, _, h⟩ := Res.bind_eq_ok.1 h
  injection h with h; subst h; rfl

theorem projAll_frame {kb : Bool} {a a' : Acc} {n : Node} (h : projAll kb a n = .ok a') :
    a' = { a with o.eigenvalues := a'.o.eigenvalues, o.occupancies := a'.o.occupancies, o.projectors := a'.o.projectors } := by
  unfold projAll at h
  split at h
  · obtain ⟨a1, h1, h⟩ := Res.bind_eq_ok.1 h
    rw [projArray_frame h]
    simp only
    rw [eigAll_frame h1]
  · injection h with h; subst h; rfl

/-- All but what a dynamical matrix sets. -/
def noDyn (a : Acc) : Acc := { a with o.hessian := none, o.dynmat := {}, o.dynmatSet := false }
theorem dynChild_noDyn {a a' : Acc} {n : Node} (h : dynChild a n = .ok a') : noDyn a' = noDyn a := by
  unfold dynChild at h
  split at h
  · split at h
    · cases h
    · obtain ⟨x, _, h⟩ := Res.bind_eq_ok.1 h; injection h with h; subst h; rfl
  · split at h
    · split at h
      · cases h
      · obtain ⟨x, _, h⟩ := Res.bind_eq_ok.1 h; injection h with h; subst h; rfl
    · split at h
      · obtain ⟨x, _, h⟩ := Res.bind_eq_ok.1 h; injection h with h; subst h; rfl
      · injection h with h; subst h; rfl

theorem dynAll_noDyn {a a' : Acc} {n : Node} (h : dynAll a n = .ok a') : noDyn a' = noDyn a := by
  unfold dynAll at h
  obtain ⟨a1, h1, h⟩ := Res.bind_eq_ok.1 h
  injection h with h
  rw [← foldlM'_keeps (fun _ _ _ _ h => dynChild_noDyn h) h1, ← h]; rfl

/-! ### kinds of parts -/

/-- A structure. -/
def isStruct (n : Node) : Bool := decide (n.tag = c!"structure")
/-- Forces. -/
def isForces (n : Node) : Bool := (tn c!"varray" c!"forces").selects n
/-- Stress. -/
def isStress (n : Node) : Bool := (tn c!"varray" c!"stress").selects n
/-- An electronic step. -/
def isSc (n : Node) : Bool := decide (n.tag = c!"scstep")
/-- Final energies. -/
def isEn (n : Node) : Bool := decide (n.tag = c!"energy")
/-- Eigenvalues that are not interpolated. -/
def isEig (n : Node) : Bool := decide (n.tag = c!"eigenvalues") && !decide (comment n = some c!"interpolated")
/-- Special eigenvalues (`false`) or eigenvelocities (`true`). -/
def isSpec : Bool → Node → Bool
  | false, n => decide (n.tag = c!"eigenvalues") && decide (comment n = some c!"interpolated")
  | true, n => decide (n.tag = c!"eigenvelocities")
/-- A density of states, interpolated or not. -/
def isDos (n : Node) : Bool := decide (n.tag = c!"dos")
/-- Born charges. -/
def isBorn (n : Node) : Bool := (tn c!"array" c!"born_charges").selects n
/-- Dielectric functions. -/
def isDiel (n : Node) : Bool := decide (n.tag = c!"dielectricfunction")
/-- Projections. -/
def isProj (n : Node) : Bool := decide (n.tag = c!"projected")
/-- A dynamical matrix. -/
def isDyn (n : Node) : Bool := decide (n.tag = c!"dynmat")

/-- What is only set in front of the ionic steps. -/
def fixed (o : Out) : Option Str × Params × Option (List Nat) × Option Table × Option (List Rat) × Option (List Int) :=
  (o.version, o.params, o.species, o.kpoints, o.kpointsw, o.kpointdiv)

/-- What a part of an ionic step leaves as it is. -/
structure Frame (n : Node) (a a' : Acc) : Prop where
  fixed : fixed a'.o = fixed a.o
  num : a'.o.num = a.o.num
  cell : isStruct n = false → a'.o.cell = a.o.cell ∧ a'.o.pos = a.o.pos
  force : isForces n = false → a'.o.force = a.o.force
  stress : isStress n = false → a'.o.stress = a.o.stress
  sc : isSc n = false → a'.e0 = a.e0 ∧ a'.efr = a.efr ∧ a'.ewo = a.ewo
  totens : isEn n = false → a'.o.totens = a.o.totens
  eigen : isEig n = false → isProj n = false → a'.o.eigenvalues = a.o.eigenvalues ∧ a'.o.occupancies = a.o.occupancies
  special : isSpec false n = false → a'.o.eigenvaluesSpecific = a.o.eigenvaluesSpecific
  velocities : isSpec true n = false → a'.o.eigenvelocities = a.o.eigenvelocities
  kspecial : isSpec false n = false → isSpec true n = false → a'.o.kpointsSpecific = a.o.kpointsSpecific ∧ a'.o.kpointswSpecific = a.o.kpointswSpecific
  dos : isDos n = false → a'.o.dosCopy = a.o.dosCopy ∧ a'.o.dosDict = a.o.dosDict ∧ a'.o.dosSpecificSet = a.o.dosSpecificSet
  born : isBorn n = false → a'.o.born = a.o.born
  diel : isDiel n = false → a'.o.dielectrics = a.o.dielectrics
  proj : isProj n = false → a'.o.projectors = a.o.projectors
  dyn : isDyn n = false → a'.o.hessian = a.o.hessian ∧ a'.o.dynmat = a.o.dynmat ∧ a'.o.dynmatSet = a.o.dynmatSet

theorem ex_struct {a a' : Acc} (h : noStruct a' = noStruct a) : ∃ c p, a' = { a with o.cell := c, o.pos := p } := by
  have : a' = { noStruct a' with o.cell := a'.o.cell, o.pos := a'.o.pos } := rfl
  rw [h] at this
  exact ⟨_, _, this⟩
theorem ex_totens {a a' : Acc} (h : noTotens a' = noTotens a) : ∃ c, a' = { a with o.totens := c } := by
  have : a' = { noTotens a' with o.totens := a'.o.totens } := rfl
  rw [h] at this
  exact ⟨_, this⟩
theorem ex_spec {a a' : Acc} (h : noSpec false a' = noSpec false a) :
    ∃ c d e, a' = { a with o.kpointsSpecific := c, o.kpointswSpecific := d, o.eigenvaluesSpecific := e } := by
  have : a' = { noSpec false a' with o.kpointsSpecific := a'.o.kpointsSpecific, o.kpointswSpecific := a'.o.kpointswSpecific, o.eigenvaluesSpecific := a'.o.eigenvaluesSpecific } := rfl
  rw [h] at this
  exact ⟨_, _, _, this⟩
theorem ex_vel {a a' : Acc} (h : noSpec true a' = noSpec true a) :
    ∃ c d e, a' = { a with o.kpointsSpecific := c, o.kpointswSpecific := d, o.eigenvelocities := e } := by
  have : a' = { noSpec true a' with o.kpointsSpecific := a'.o.kpointsSpecific, o.kpointswSpecific := a'.o.kpointswSpecific, o.eigenvelocities := a'.o.eigenvelocities } := rfl
  rw [h] at this
  exact ⟨_, _, _, this⟩
theorem ex_dyn {a a' : Acc} (h : noDyn a' = noDyn a) : ∃ c d e, a' = { a with o.hessian := c, o.dynmat := d, o.dynmatSet := e } := by
  have : a' = { noDyn a' with o.hessian := a'.o.hessian, o.dynmat := a'.o.dynmat, o.dynmatSet := a'.o.dynmatSet } := rfl
  rw [h] at this
  exact ⟨_, _, _, this⟩

/-- Check a frame. -/
macro "frame" "[" ts:Lean.Parser.Tactic.simpLemma,* "]" : tactic =>
  `(tactic| (constructor <;> first
    | rfl
    | (intro _; rfl)
    | (intro _ _; rfl)
    | (intro _; exact ⟨rfl, rfl⟩)
    | (intro _ _; exact ⟨rfl, rfl⟩)
    | (intro _; exact ⟨rfl, rfl, rfl⟩)
    | (intro hk; exfalso; simp [$ts,*] at hk; done)
    | (intro hk hk2; exfalso; simp [$ts,*] at hk2; done)
    | (intro hk hk2; exfalso; simp [$ts,*] at hk; done)))

theorem calcChild_frame {kb : Bool} {a a' : Acc} {n : Node} (h : calcChild kb a n = .ok a') : Frame n a a' := by
  unfold calcChild at h
  by_cases h1 : n.tag = c!"structure"
  · rw [if_pos h1] at h
    obtain ⟨c, p, rfl⟩ := ex_struct (foldlM'_keeps (fun _ _ _ _ h => structChild_noStruct h) h)
    frame [isStruct, h1]
  rw [if_neg h1] at h
  by_cases h2 : (tn c!"varray" c!"forces").selects n = true
  · rw [if_pos h2] at h
    obtain ⟨x, _, h⟩ := Res.bind_eq_ok.1 h; injection h with h; subst h
    frame [isForces, h2]
  rw [if_neg h2] at h
  by_cases h3 : (tn c!"varray" c!"stress").selects n = true
  · rw [if_pos h3] at h
    obtain ⟨x, _, h⟩ := Res.bind_eq_ok.1 h; injection h with h; subst h
    frame [isStress, h3]
  rw [if_neg h3] at h
  by_cases h4 : n.tag = c!"scstep"
  · rw [if_pos h4] at h
    injection h with h; subst h
    frame [isSc, h4]
  rw [if_neg h4] at h
  by_cases h5 : n.tag = c!"energy"
  · rw [if_pos h5] at h
    obtain ⟨c, rfl⟩ := ex_totens (foldlM'_keeps (fun _ _ _ _ h => finalItem_noTotens h) h)
    frame [isEn, h5]
  rw [if_neg h5] at h
  by_cases h6 : n.tag = c!"eigenvalues"
  · rw [if_pos h6] at h
    by_cases hc : comment n = some c!"interpolated"
    · rw [if_pos hc] at h
      obtain ⟨c, d, e, rfl⟩ := ex_spec (specAll_noSpec h)
      frame [isSpec, h6, hc]
    · rw [if_neg hc] at h
      have h := eigAll_frame h
      generalize a'.o.eigenvalues = u at h
      generalize a'.o.occupancies = v at h
      subst h
      frame [isEig, h6, hc]
  rw [if_neg h6] at h
  by_cases h7 : n.tag = c!"eigenvelocities"
  · rw [if_pos h7] at h
    obtain ⟨c, d, e, rfl⟩ := ex_vel (specAll_noSpec h)
    frame [isSpec, h7]
  rw [if_neg h7] at h
  by_cases h8 : n.tag = c!"dos"
  · rw [if_pos h8] at h
    split at h
    · have h := dosSAll_frame h
      generalize a'.o.dosDict = u at h
      generalize a'.o.dosSpecificSet = v at h
      subst h
      frame [isDos, h8]
    · have h := dosAll_frame h
      generalize a'.o.dosDict = u at h
      generalize a'.o.dosCopy = v at h
      subst h
      frame [isDos, h8]
  rw [if_neg h8] at h
  by_cases h9 : (tn c!"array" c!"born_charges").selects n = true
  · rw [if_pos h9] at h
    have h := bornAll_frame h
    generalize a'.o.born = u at h
    subst h
    frame [isBorn, h9]
  rw [if_neg h9] at h
  by_cases h10 : n.tag = c!"dielectricfunction"
  · rw [if_pos h10] at h
    have h := dielAll_frame h
    generalize a'.o.dielectrics = u at h
    subst h
    frame [isDiel, h10]
  rw [if_neg h10] at h
  by_cases h11 : n.tag = c!"projected"
  · rw [if_pos h11] at h
    have h := projAll_frame h
    generalize a'.o.eigenvalues = u at h
    generalize a'.o.occupancies = v at h
    generalize a'.o.projectors = w at h
    subst h
    frame [isProj, h11]
  rw [if_neg h11] at h
  by_cases h12 : n.tag = c!"dynmat"
  · rw [if_pos h12] at h
    obtain ⟨c, d, e, rfl⟩ := ex_dyn (dynAll_noDyn h)
    frame [isDyn, h12]
  rw [if_neg h12] at h
  injection h with h; subst h
  frame []

end Verif.VasprunEvent
