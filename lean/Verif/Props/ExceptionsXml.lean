import Verif.Props.Exceptions
import Verif.Props.ExitCodesRead
/-! # Which exceptions escape from reading vasprun.xml (C127) -/
set_option autoImplicit false
namespace Verif.Exceptions
open Verif Verif.Utils
open Verif.Xml Verif.Vasprun Verif.VasprunEvent Verif.VasprunApi

/-- What the regular parser can raise. -/
def regularExcs : List Exc := [.typeError, .attributeError, .indexError, .valueError]
/-- What the event driven parser can raise. -/
def eventExcs : List Exc := [.typeError, .attributeError, .indexError, .valueError, .keyError, .zeroDivisionError]

/-- A set of exceptions that has all those of the regular parser. -/
class Has (S : Exc → Prop) : Prop where
  of : ∀ e ∈ Exc.outOfModel :: regularExcs, S e

/-- And those of the event driven one. -/
class HasAll (S : Exc → Prop) : Prop where
  of : ∀ e ∈ Exc.outOfModel :: eventExcs, S e

instance {S : Exc → Prop} [K : HasAll S] : Has S := ⟨fun e he => K.of e (by revert e; decide)⟩

section Regular
variable {S : Exc → Prop} [H : Has S]
include H

/-- Like `raises`, with what may be raised among the hypotheses. -/
macro "raisesA" : tactic => `(tactic|
  repeat' first
    | with_reducible exact RaisesIn.ok _
    | with_reducible exact RaisesIn.exit _
    | (with_reducible refine RaisesIn.raise ?_; assumption)
    | with_reducible assumption
    | with_reducible apply_assumption
    | with_reducible refine RaisesIn.bind ?_ (fun _ => ?_)
    | with_reducible refine RaisesIn.mapM' (fun _ => ?_) _
    | with_reducible refine RaisesIn.ite ?_ ?_
    | split)

seal findAny findRel

theorem fromWords' (l : List Str) : RaisesIn S (fromWords l) := by
  induction l with
  | nil => exact RaisesIn.ok _
  | cons w l ih =>
    have hg : S .outOfModel := H.of _ (by decide)
    unfold fromWords; raisesA

theorem fromText' (e : Node) : RaisesIn S (fromText e) := by
  have h := fromWords' (S := S)
  have ht : S .typeError := H.of _ (by decide)
  unfold fromText; raisesA

theorem arrayI' (e : Node) : RaisesIn S (convertArrayI e) := by
  have hg : S .outOfModel := H.of _ (by decide)
  have ht : S .typeError := H.of _ (by decide)
  unfold convertArrayI; raisesA

theorem convert2D' (es : List Node) (n : Nat) : RaisesIn S (convert2D es n) :=
  RaisesIn.mapM' (fun e => RaisesIn.bind (fromText' e) fun _ => RaisesIn.ok _) es

theorem convert1D' (es : List Node) : RaisesIn S (convert1D es) := by
  refine RaisesIn.mapM' (fun e => ?_) es
  unfold single
  refine RaisesIn.bind (fromText' e) fun xs => ?_
  rcases xs with _ | ⟨x, _ | ⟨y, r⟩⟩
  · exact RaisesIn.exit _
  · exact RaisesIn.ok _
  · exact RaisesIn.exit _

theorem convertF' (e : Node) : RaisesIn S (convertF e) := by
  unfold convertF
  cases e.text with
  | none => exact RaisesIn.ok _
  | some s => exact RaisesIn.ite (RaisesIn.exit _) (RaisesIn.bind (toFloat' (H.of _ (by decide)) (H.of _ (by decide)) _) fun _ => RaisesIn.ok _)

theorem convertI' (e : Node) : RaisesIn S (convertI e) := by
  unfold convertI
  cases e.text with
  | none => exact RaisesIn.ok _
  | some s => exact RaisesIn.ite (RaisesIn.exit _) (RaisesIn.bind (toInt' (H.of _ (by decide)) _) fun _ => RaisesIn.ok _)

theorem species' (es : List Node) : RaisesIn S (convertSpecies es) := by
  refine RaisesIn.mapM' (fun e => ?_) es
  unfold speciesOf
  cases e.text with
  | none => exact RaisesIn.raise (H.of _ (by decide))
  | some s =>
    dsimp only
    cases words s with
    | nil => exact RaisesIn.raise (H.of _ (by decide))
    | cons w r =>
      dsimp only
      cases Dict.get? elementTable (lower w) with
      | none => exact RaisesIn.exit _
      | some z => exact RaisesIn.ok _

theorem split' {α : Type} (n : Nat) (l : List α) (hz : n ≠ 0 ∨ S .zeroDivisionError) : RaisesIn S (split n l) :=
  RaisesIn.ite' (fun hn => RaisesIn.raise (hz.resolve_left fun h => h hn)) fun _ => (RaisesIn.ite (RaisesIn.ok _) (RaisesIn.raise (H.of _ (by decide))))

theorem eigenRows' (c n : Nat) (es : List Node) (hz : n ≠ 0 ∨ S .zeroDivisionError) : RaisesIn S (eigenRows c n es) :=
  RaisesIn.bind (RaisesIn.ite (convert2D' _ _) (RaisesIn.bind (convert1D' _) fun _ => RaisesIn.ok _)) fun _ => split' _ _ hz

omit H in
/-- Elements for every band and point: there are points if there are elements. -/
theorem nonzero {s1 : List Node} (nb : Int) (n : Nat) (hz : s1 ≠ [] ∨ S .zeroDivisionError) (hl : (s1.length : Int) = nb * n) :
    n ≠ 0 ∨ S .zeroDivisionError := by
  refine hz.imp_left fun h hn => h ?_
  subst hn
  rw [Int.natCast_zero, Int.mul_zero] at hl
  exact List.length_eq_zero_iff.1 (by omega)

theorem eigenvalues' (p : Params) (b : Bool) (s1 : List Node) (s2 : Option (List Node)) (n : Nat) (hz : s1 ≠ [] ∨ S .zeroDivisionError) :
    RaisesIn S (extractEigenvalues p b s1 s2 n) := by
  unfold extractEigenvalues
  cases p.ispin with
  | none => exact RaisesIn.exit _
  | some i =>
    dsimp only
    cases p.nbands with
    | none => exact RaisesIn.exit _
    | some nb =>
      dsimp only
      refine RaisesIn.ite' (fun _ => RaisesIn.exit _) fun hl => ?_
      have hz := nonzero nb n hz (Classical.not_not.1 hl)
      refine RaisesIn.bind (idx' (H.of _ (by decide)) _ _) fun e => ?_
      cases e.text with
      | none => exact RaisesIn.raise (H.of _ (by decide))
      | some s =>
        refine RaisesIn.bind (eigenRows' _ _ _ hz) fun d => ?_
        cases s2 with
        | none => exact RaisesIn.ok _
        | some es2 =>
          exact RaisesIn.ite (RaisesIn.exit _) (RaisesIn.bind (eigenRows' _ _ _ hz) fun d => RaisesIn.ok _)

theorem eigenvelocities' (p : Params) (b : Bool) (s1 : List Node) (s2 : Option (List Node)) (n : Nat) (hz : s1 ≠ [] ∨ S .zeroDivisionError) :
    RaisesIn S (extractEigenvelocities p b s1 s2 n) := by
  unfold extractEigenvelocities
  cases p.ispin with
  | none => exact RaisesIn.exit _
  | some i =>
    dsimp only
    cases p.nbands with
    | none => exact RaisesIn.exit _
    | some nb =>
      dsimp only
      refine RaisesIn.ite' (fun _ => RaisesIn.exit _) fun hl => ?_
      have hz := nonzero nb n hz (Classical.not_not.1 hl)
      refine RaisesIn.bind (convert2D' _ _) fun r => RaisesIn.bind (split' _ _ hz) fun d => ?_
      cases s2 with
      | none => exact RaisesIn.ok _
      | some es2 =>
        exact RaisesIn.ite (RaisesIn.exit _)
          (RaisesIn.bind (convert2D' _ _) fun r => RaisesIn.bind (split' _ _ hz) fun d => RaisesIn.ok _)

theorem projRows' (a b : Nat) (es : List Node) (ha : a ≠ 0 ∨ S .zeroDivisionError) (hb : b ≠ 0 ∨ S .zeroDivisionError) : RaisesIn S (projRows a b es) :=
  RaisesIn.bind (convert2D' _ _) fun _ => RaisesIn.bind (split' _ _ ha) fun _ =>
    RaisesIn.bind (RaisesIn.mapM' (fun _ => split' _ _ hb) _) fun _ => RaisesIn.ok _

theorem projectors' (p : Params) (b : Bool) (sp : Option (List Nat)) (ks : Option Table) (s1 : List Node) (s2 : Option (List Node))
    (hz : s1 ≠ [] ∨ S .zeroDivisionError) : RaisesIn S (extractProjectors p b sp ks s1 s2) := by
  unfold extractProjectors
  cases ks with
  | none => exact RaisesIn.exit _
  | some ks =>
    dsimp only
    cases p.ispin with
    | none => exact RaisesIn.exit _
    | some i =>
      dsimp only
      cases p.nbands with
      | none => exact RaisesIn.exit _
      | some nb =>
        dsimp only
        cases sp with
        | none => exact RaisesIn.exit _
        | some sp =>
          refine RaisesIn.ite' (fun _ => RaisesIn.exit _) fun hl => ?_
          have hl := Classical.not_not.1 hl
          have ha : ks.length ≠ 0 ∨ S .zeroDivisionError := hz.imp_left fun h hn => h (by
            rw [hn, Int.natCast_zero, Int.mul_zero, Int.zero_mul] at hl
            exact List.length_eq_zero_iff.1 (by omega))
          have hb : nb.toNat ≠ 0 ∨ S .zeroDivisionError := hz.imp_left fun h hn => h (by
            have hle : nb ≤ 0 := by omega
            have h1 : 0 ≤ (ks.length : Int) * sp.length := by positivity
            have h2 := Int.mul_nonpos_of_nonpos_of_nonneg hle h1
            rw [← Int.mul_assoc, ← hl] at h2
            exact List.length_eq_zero_iff.1 (by omega))
          refine RaisesIn.bind (projRows' _ _ _ ha hb) fun d => ?_
          cases s2 with
          | none => exact RaisesIn.ok _
          | some es2 => exact RaisesIn.ite (RaisesIn.exit _) (RaisesIn.bind (projRows' _ _ _ ha hb) fun d => RaisesIn.ok _)

theorem partialDos' (n : Nat) (hz : n ≠ 0 ∨ S .zeroDivisionError) (es : List Node) : RaisesIn S (Vasprun.partialDos n es) :=
  RaisesIn.bind (convert2D' _ _) fun _ => split' _ _ hz

theorem opt' {α : Type} {f : List Node → Res α} (hf : ∀ e, RaisesIn S (f e)) (es : List Node) : RaisesIn S (opt f es) := by
  unfold opt
  cases es with
  | nil => exact RaisesIn.ok _
  | cons e es => exact RaisesIn.bind (hf _) fun _ => RaisesIn.ok _

theorem fetch' {α : Type} {f : Node → Res (Option α)} (hf : ∀ e, RaisesIn S (f e)) (es : List Node) : RaisesIn S (fetch f es) := by
  unfold fetch
  cases es with
  | nil => exact RaisesIn.ok _
  | cons e es => exact hf _

theorem further' (m : Nat) (es : List Node) (l : List Nat) (d : Steps) : RaisesIn S (furtherSteps m es l d) := by
  induction l generalizing d with
  | nil => exact RaisesIn.ok _
  | cons i l ih => exact RaisesIn.bind (convert2D' _ _) fun x => ih _

theorem upfs' (root : Node) (sp : Option (List Nat)) (b : Bool) : RaisesIn S (fetchUpfs root sp b) := by
  have i1 : ∀ es n, RaisesIn S (convert2D es n) := convert2D'
  have i2 : ∀ (f : List Node → List Node) (es : List Node), RaisesIn S (opt (fun e => convert2D (f e) 3) es) := fun f es => opt' (fun e => i1 _ _) es
  have i3 : ∀ a b, RaisesIn S (initialFinal a b) := fun a b => RaisesIn.bind (i2 id _) fun _ => RaisesIn.bind (i2 id _) fun _ => RaisesIn.ok _
  have i4 : ∀ m es, RaisesIn S (firstLast m es) := fun m es => RaisesIn.bind (i2 (fun e => e.take m) _) fun _ => RaisesIn.bind (i2 (fun e => lastRows m e) _) fun _ => RaisesIn.ok _
  have i5 : ∀ m n b es, RaisesIn S (allSteps m n b es) := by
    intro m n b es
    refine RaisesIn.bind (i2 (fun e => e.take m) _) fun _ => RaisesIn.bind (RaisesIn.ite (RaisesIn.bind (i1 _ _) fun _ => RaisesIn.ok _) (RaisesIn.ok _)) fun _ => ?_
    exact RaisesIn.bind (RaisesIn.ite (further' _ _ _ _) (RaisesIn.ok _)) fun _ => RaisesIn.ok _
  unfold fetchUpfs
  cases sp with
  | none => exact RaisesIn.ok _
  | some sp =>
    refine RaisesIn.ite ?_ (RaisesIn.ite (RaisesIn.ok _) ?_)
    · exact RaisesIn.bind (i3 _ _) fun _ => RaisesIn.bind (i3 _ _) fun _ => RaisesIn.bind (i4 _ _) fun _ => RaisesIn.bind (i4 _ _) fun _ => RaisesIn.ok _
    · exact RaisesIn.bind (i5 _ _ _ _) fun _ => RaisesIn.bind (i5 _ _ _ _) fun _ => RaisesIn.bind (i5 _ _ _ _) fun _ => RaisesIn.bind (i5 _ _ _ _) fun _ => RaisesIn.ok _

theorem energy' (step : Node) (e : EType) : RaisesIn S (fetchEnergy step e) := by
  unfold fetchEnergy
  generalize findAny step (t c!"scstep") [t c!"energy", tn c!"i" e.key] = sc
  cases sc with
  | nil => exact RaisesIn.ok _
  | cons x sc =>
    refine RaisesIn.bind (convert1D' _) fun xs => ?_
    generalize findRel step [t c!"energy", tn c!"i" e.key] = f
    cases f with
    | nil => exact RaisesIn.ok _
    | cons x f => exact RaisesIn.bind (convertF' _) fun _ => RaisesIn.ok _

theorem stepEnergies' (step : Node) (es : List EType) : RaisesIn S (fetchStepEnergies step es) := by
  induction es with
  | nil => exact RaisesIn.ok _
  | cons e es ih =>
    unfold fetchStepEnergies
    refine RaisesIn.bind (energy' step e) fun r => ?_
    rcases r with _ | ⟨xs, y⟩
    · exact RaisesIn.ok _
    · refine RaisesIn.bind ih fun r => ?_
      cases r <;> exact RaisesIn.ok _

theorem allEnergies' (cs : List Node) (i : Nat) : RaisesIn S (fetchAllEnergies i cs) := by
  induction cs generalizing i with
  | nil => exact RaisesIn.ok _
  | cons e es ih =>
    unfold fetchAllEnergies
    refine RaisesIn.bind (stepEnergies' _ _) fun r => ?_
    rcases r with _ | r
    · exact RaisesIn.ok _
    · refine RaisesIn.bind (ih _) fun r => ?_
      cases r <;> exact RaisesIn.ok _

theorem partialOf' (n : Nat) (hz : n ≠ 0 ∨ S .zeroDivisionError) (es : Option (List Node)) : RaisesIn S (partialOf n es) := by
  unfold partialOf
  have i := partialDos' (S := S) n hz
  raises

theorem oneDos' (root : Node) (d : Xml.Step) (na : Option Nat) (hz : ∀ n, na = some n → n ≠ 0) : RaisesIn S (fetchOneDos root d na) := by
  have i1 : ∀ es n, RaisesIn S (convert2D es n) := convert2D'
  have i2 : ∀ n, n ≠ 0 → ∀ es, RaisesIn S (partialOf n es) := fun n hn => partialOf' n (.inl hn)
  have i3 : ∀ a b c d e n, n ≠ 0 → RaisesIn S (extractDos a b c d e n) := by
    intro a b c d e n hn
    unfold extractDos
    cases b with
    | some b => exact RaisesIn.bind (i1 _ _) fun _ => RaisesIn.bind (i2 n hn _) fun _ => RaisesIn.bind (i1 _ _) fun _ => RaisesIn.bind (i2 n hn _) fun _ => RaisesIn.ok _
    | none => exact RaisesIn.bind (i1 _ _) fun _ => RaisesIn.bind (i2 n hn _) fun _ => RaisesIn.ok _
  unfold fetchOneDos
  refine RaisesIn.bind (fetch' (convertF') _) fun f => ?_
  dsimp only
  generalize findAny root (t c!"calculation") [d, t c!"total", t c!"array", t c!"set", tc c!"set" c!"spin 1", t c!"r"] = l
  cases l with
  | nil => exact RaisesIn.ok _
  | cons x l => cases na with
    | none => exact RaisesIn.ok _
    | some n => exact RaisesIn.bind (i3 _ _ _ _ _ _ (hz n rfl)) fun _ => RaisesIn.ok _

theorem fetchSpecies' (root : Node) : RaisesIn S (fetchSpecies root) := by
  unfold fetchSpecies
  generalize findAny root _ _ = l
  cases l with
  | nil => exact RaisesIn.ok _
  | cons x l => exact RaisesIn.bind (species' _) fun _ => RaisesIn.ok _

omit H in
/-- The species found are at least one. -/
theorem species_ne {root : Node} {sp : List Nat} (h : fetchSpecies root = .ok (some sp)) : sp.length ≠ 0 := by
  unfold fetchSpecies at h
  revert h
  generalize findAny root _ _ = l
  intro h
  cases l with
  | nil => cases h
  | cons x l =>
    obtain ⟨y, hy, h⟩ := Res.bind_eq_ok.1 h
    cases h
    unfold convertSpecies at hy
    rw [Kpoints.mapM'_length hy]
    cases l <;> simp [everyOther]

theorem fetchDivisions' (root : Node) : RaisesIn S (fetchDivisions root) := by
  unfold fetchDivisions
  generalize findRel root _ = l
  cases l with
  | nil => exact RaisesIn.ok _
  | cons x l => exact RaisesIn.bind (arrayI' _) fun _ => RaisesIn.ok _

theorem fetchEigenvalues' (root : Node) (p : Params) (b : Bool) (ks : Option Table) : RaisesIn S (fetchEigenvalues root p b ks) := by
  unfold fetchEigenvalues
  dsimp only
  generalize findAny root _ _ = l
  cases l with
  | nil => exact RaisesIn.ok _
  | cons x l => cases ks with
    | none => exact RaisesIn.raise (H.of _ (by decide))
    | some ks => exact RaisesIn.bind (eigenvalues' _ _ _ _ _ (.inl (List.cons_ne_nil _ _))) fun _ => RaisesIn.ok _

theorem two' (n : Nat) (es : List Node) : RaisesIn S (opt (fun e => convert2D e n) es) := opt' (fun _ => convert2D' _ _) es

theorem fetchSpecific' (root : Node) (p : Params) (b : Bool) : RaisesIn S (fetchEigenvaluesSpecific root p b) := by
  unfold fetchEigenvaluesSpecific
  dsimp only
  generalize findAny root _ (t c!"eigenvalues" :: t c!"eigenvalues" :: _) = l
  cases l with
  | nil => exact RaisesIn.ok _
  | cons x l =>
    refine RaisesIn.bind (two' _ _) fun ks => RaisesIn.bind (opt' (convert1D') _) fun ws => ?_
    cases ks with
    | none => exact RaisesIn.raise (H.of _ (by decide))
    | some ks => exact RaisesIn.bind (eigenvalues' _ _ _ _ _ (.inl (List.cons_ne_nil _ _))) fun _ => RaisesIn.ok _

theorem fetchVelocities' (root : Node) (p : Params) (b : Bool) : RaisesIn S (fetchEigenvelocities root p b) := by
  unfold fetchEigenvelocities
  dsimp only
  generalize findAny root _ (t c!"eigenvelocities" :: t c!"eigenvalues" :: _) = l
  cases l with
  | nil => exact RaisesIn.ok _
  | cons x l =>
    refine RaisesIn.bind (two' _ _) fun ks => RaisesIn.bind (opt' (convert1D') _) fun ws => ?_
    cases ks with
    | none => exact RaisesIn.raise (H.of _ (by decide))
    | some ks => exact RaisesIn.bind (eigenvelocities' _ _ _ _ _ (.inl (List.cons_ne_nil _ _))) fun _ => RaisesIn.ok _

theorem fetchDos' (root : Node) (sp : Option (List Nat)) (hz : ∀ l, sp = some l → l.length ≠ 0) : RaisesIn S (fetchDos root sp) := by
  have hz' : ∀ n, sp.map List.length = some n → n ≠ 0 := by
    intro n hn
    obtain ⟨l, hl, rfl⟩ := Option.map_eq_some_iff.1 hn
    exact hz l hl
  unfold fetchDos
  refine RaisesIn.bind (oneDos' _ _ _ hz') fun d => ?_
  cases d with
  | none => exact RaisesIn.ok _
  | some d => exact RaisesIn.bind (oneDos' _ _ _ hz') fun _ => RaisesIn.ok _

theorem fetchTotens' (root : Node) : RaisesIn S (fetchTotens root) := by
  unfold fetchTotens
  generalize findAny root _ _ = l
  cases l with
  | nil => exact RaisesIn.ok _
  | cons x l => exact allEnergies' _ _

theorem fetchProjectors' (root : Node) (p : Params) (b : Bool) (sp : Option (List Nat)) (ks : Option Table) :
    RaisesIn S (fetchProjectors root p b sp ks) := by
  unfold fetchProjectors
  dsimp only
  generalize findAny root _ _ = l
  cases l with
  | nil => exact RaisesIn.ok _
  | cons x l => exact RaisesIn.bind (projectors' _ _ _ _ _ _ (.inl (List.cons_ne_nil _ _))) fun _ => RaisesIn.ok _

theorem fetchHessian' (root : Node) (sp : Option (List Nat)) : RaisesIn S (fetchHessian root sp) := by
  unfold fetchHessian
  generalize findAny root _ _ = l
  cases l with
  | nil => exact RaisesIn.ok _
  | cons x l => cases sp with
    | none => exact RaisesIn.ok _
    | some sp => exact RaisesIn.bind (convert2D' _ _) fun _ => RaisesIn.ok _

theorem fetchDynmat' (root : Node) (sp : Option (List Nat)) : RaisesIn S (fetchDynmat root sp) := by
  unfold fetchDynmat
  generalize findAny root _ [t c!"dynmat", tn c!"v" c!"eigenvalues"] = l
  cases l with
  | nil => exact RaisesIn.ok _
  | cons x l => cases sp with
    | none => exact RaisesIn.ok _
    | some sp =>
      refine RaisesIn.bind (fromText' _) fun ev => ?_
      generalize findAny root _ _ = l
      cases l with
      | nil => exact RaisesIn.ok _
      | cons x l => exact RaisesIn.bind (convert2D' _ _) fun _ => RaisesIn.ok _

theorem fetchBorn' (root : Node) (sp : Option (List Nat)) (hz : ∀ l, sp = some l → l.length ≠ 0) : RaisesIn S (fetchBorn root sp) := by
  unfold fetchBorn
  generalize findAny root _ _ = l
  cases l with
  | nil => exact RaisesIn.ok _
  | cons x l => cases sp with
    | none => exact RaisesIn.ok _
    | some sp => exact RaisesIn.bind (convert2D' _ _) fun _ => RaisesIn.bind (split' _ _ (.inl (hz sp rfl))) fun _ => RaisesIn.ok _

theorem regular' (root : Node) (a b : Bool) : RaisesIn S (parsew root a b) := by
  have iF : ∀ es, RaisesIn S (fetch convertF es) := fetch' (convertF')
  have iI : ∀ es, RaisesIn S (fetch convertI es) := fetch' (convertI')
  refine RaisesIn.bind ?_ fun p => RaisesIn.bind' (fetchSpecies' _) fun sp hsp => RaisesIn.bind (upfs' _ _ _) fun u =>
    RaisesIn.bind (two' _ _) fun ks => RaisesIn.bind (opt' (convert1D') _) fun ws => RaisesIn.bind (fetchDivisions' _) fun kdiv =>
    RaisesIn.bind (fetchEigenvalues' _ _ _ _) fun eig => RaisesIn.bind (fetchSpecific' _ _ _) fun spec =>
    RaisesIn.bind (fetchVelocities' _ _ _) fun vel => RaisesIn.bind (fetchDos' _ _ fun l hl => species_ne (hl ▸ hsp)) fun dos => RaisesIn.bind (fetchTotens' _) fun tot =>
    RaisesIn.bind ?_ fun diel => RaisesIn.bind (fetchProjectors' _ _ _ _ _) fun proj => RaisesIn.bind (fetchHessian' _ _) fun hess =>
    RaisesIn.bind (fetchDynmat' _ _) fun dyn => RaisesIn.bind (fetchBorn' _ _ fun l hl => species_ne (hl ▸ hsp)) fun born => RaisesIn.ok _
  · exact RaisesIn.bind (iF _) fun _ => RaisesIn.bind (iF _) fun _ => RaisesIn.bind (iI _) fun _ => RaisesIn.bind (iI _) fun _ =>
      RaisesIn.bind (iI _) fun _ => RaisesIn.bind (iF _) fun _ => RaisesIn.bind (fetch' (fun _ => RaisesIn.ok _) _) fun _ => RaisesIn.bind (iI _) fun _ =>
      RaisesIn.bind (iI _) fun _ => RaisesIn.ok _
  · exact RaisesIn.bind (two' _ _) fun _ => RaisesIn.bind (two' _ _) fun _ => RaisesIn.bind (two' _ _) fun _ => RaisesIn.bind (two' _ _) fun _ =>
      RaisesIn.ok _


end Regular

section Events
variable {S : Exc → Prop} [K : HasAll S]
include K

theorem seq' {l : List (St → Res St)} (h : ∀ f ∈ l, ∀ s, RaisesIn S (f s)) (s : St) : RaisesIn S (seq l s) := by
  induction l generalizing s with
  | nil => exact RaisesIn.ok _
  | cons f l ih =>
    exact RaisesIn.bind (h f List.mem_cons_self s) fun s => ih (fun g hg => h g (List.mem_cons_of_mem _ hg)) s

theorem nil' : ∀ f ∈ ([] : List (St → Res St)), ∀ s, RaisesIn S (f s) := fun f h => by cases h
theorem cons' {f : St → Res St} {l : List (St → Res St)} (hf : ∀ s, RaisesIn S (f s)) (hl : ∀ f ∈ l, ∀ s, RaisesIn S (f s)) :
    ∀ g ∈ f :: l, ∀ s, RaisesIn S (g s) := by
  intro g hg
  rcases List.mem_cons.1 hg with rfl | hg
  · exact hf
  · exact hl g hg

theorem when' (b : Bool) {f : St → Res St} (h : ∀ s, RaisesIn S (f s)) (s : St) : RaisesIn S (when b f s) := RaisesIn.ite (h s) (RaisesIn.ok _)

theorem numAtoms' (s : St) : RaisesIn S (numAtoms s) := by
  unfold numAtoms
  cases s.o.species with
  | none => exact RaisesIn.exit _
  | some sp => exact RaisesIn.ok _

theorem calc' (e : Event) (s : St) : RaisesIn S (calcStage e s) := by
  refine RaisesIn.ite (RaisesIn.ok _) (RaisesIn.ite ?_ (RaisesIn.ok _))
  refine RaisesIn.bind (convert1D' _) fun _ => RaisesIn.bind (convert1D' _) fun _ => RaisesIn.bind (convert1D' _) fun _ => ?_
  cases s.o.totens.get? s.o.num with
  | none => exact RaisesIn.raise (K.of _ (by decide))
  | some m => exact RaisesIn.ok _

theorem atoms' (e : Event) (s : St) : RaisesIn S (atomsStage e s) :=
  RaisesIn.ite (RaisesIn.ok _) (RaisesIn.ite (RaisesIn.bind (species' _) fun _ => RaisesIn.ok _) (RaisesIn.ok _))

theorem param' (e : Event) (s : St) : RaisesIn S (paramStage e s) := by
  refine RaisesIn.ite (RaisesIn.bind ?_ fun _ => RaisesIn.ok _) (RaisesIn.ok _)
  unfold setParam
  refine RaisesIn.ite ?_ (RaisesIn.ok _)
  cases name e.node with
  | none => exact RaisesIn.ok _
  | some v =>
    have f : ∀ g : Option Rat → Params, RaisesIn S (convertF (asSeen e) >>= fun x => .ok (g x)) := fun g => RaisesIn.bind (convertF' _) fun _ => RaisesIn.ok _
    have i : ∀ g : Option Int → Params, RaisesIn S (convertI (asSeen e) >>= fun x => .ok (g x)) := fun g => RaisesIn.bind (convertI' _) fun _ => RaisesIn.ok _
    refine RaisesIn.ite (f _) (RaisesIn.ite (i _) (RaisesIn.ite (i _) (RaisesIn.ite (f _) (RaisesIn.ite (i _) (RaisesIn.ite (f _)
      (RaisesIn.ite (RaisesIn.ok _) (RaisesIn.ite ?_ (RaisesIn.ite (i _) (RaisesIn.ok _)))))))))
    refine RaisesIn.bind ?_ fun b => RaisesIn.ite (i _) (RaisesIn.ok _)
    unfold parentIs
    cases e.parent with
    | none => exact RaisesIn.raise (K.of _ (by decide))
    | some p => exact RaisesIn.ok _

theorem dosTotal' (s : St) : RaisesIn S (dosTotal s) :=
  RaisesIn.bind (convert2D' _ _) fun _ => RaisesIn.bind (RaisesIn.ite (RaisesIn.ok _) (RaisesIn.bind (convert2D' _ _) fun _ => RaisesIn.ok _)) fun _ => RaisesIn.ok _

theorem dosPartial' (s : St) : RaisesIn S (dosPartial s) :=
  RaisesIn.bind (numAtoms' s) fun _ => RaisesIn.bind (partialDos' _ (.inr (K.of _ (by decide))) _) fun _ =>
    RaisesIn.bind (RaisesIn.ite (RaisesIn.ok _) (RaisesIn.bind (partialDos' _ (.inr (K.of _ (by decide))) _) fun _ => RaisesIn.ok _)) fun _ => RaisesIn.ok _

theorem dosEnd' (b : Bool) (s : St) : RaisesIn S (dosEnd b s) := by
  refine RaisesIn.bind ?_ fun f => RaisesIn.bind (RaisesIn.ite (RaisesIn.ok _) ?_) fun d => RaisesIn.ok _
  · rcases s.c.data6 with _ | ⟨a, _ | ⟨b, r⟩⟩
    · exact RaisesIn.ok _
    · exact convertF' _
    · exact RaisesIn.exit _
  · cases s.c.part1.energy with
    | none => exact RaisesIn.raise (K.of _ (by decide))
    | some e => exact RaisesIn.ok _

theorem dos' (e : Event) (s : St) : RaisesIn S (dosStage e s) :=
  seq' (cons' (when' _ fun _ => RaisesIn.ok _) (cons' (fun s => when' _ dosTotal' s) (cons' (fun s => when' _ (dosPartial') s)
    (cons' (fun s => when' _ (dosEnd' _) s) nil')))) s

theorem dosS' (e : Event) (s : St) : RaisesIn S (dosSpecificStage e s) :=
  seq' (cons' (when' _ fun _ => RaisesIn.ok _) (cons' (fun s => when' _ dosTotal' s) (cons' (fun s => when' _ (dosPartial') s)
    (cons' (fun s => when' _ (dosEnd' _) s) nil')))) s

theorem varray' (e : Event) (s : St) : RaisesIn S (varrayStage e s) := by
  refine RaisesIn.ite ?_ (RaisesIn.ok _)
  cases name e.node with
  | none => exact RaisesIn.raise (K.of _ (by decide))
  | some v =>
    exact RaisesIn.ite (RaisesIn.ite (RaisesIn.ok _) (RaisesIn.bind (convert2D' _ _) fun _ => RaisesIn.ok _))
      (RaisesIn.ite (RaisesIn.ite (RaisesIn.ok _) (RaisesIn.bind (convert2D' _ _) fun _ => RaisesIn.ok _)) (RaisesIn.ok _))

theorem lenOf' (k : Option Table) : RaisesIn S (VasprunEvent.lenOf k) := by
  cases k with
  | none => exact RaisesIn.raise (K.of _ (by decide))
  | some k => exact RaisesIn.ok _

theorem eig' (b : Bool) (e : Event) (s : St) : RaisesIn S (eigStage b e s) := by
  refine seq' (cons' (fun s => when' _ (fun _ => RaisesIn.ok _) s) (cons' (fun s => when' _ (fun s => ?_) s) (cons' (when' _ fun _ => RaisesIn.ok _)
    (cons' (fun s => when' _ (fun s => ?_) s) (cons' (when' _ fun _ => RaisesIn.ok _) (cons' (when' _ fun s => ?_) nil')))))) s
  · exact RaisesIn.bind (lenOf' _) fun _ => RaisesIn.bind (eigenvalues' _ _ _ _ _ (.inr (K.of _ (by decide)))) fun _ => RaisesIn.ok _
  · exact RaisesIn.bind (lenOf' _) fun _ => RaisesIn.bind (eigenvalues' _ _ _ _ _ (.inr (K.of _ (by decide)))) fun _ => RaisesIn.ok _
  · exact RaisesIn.bind (lenOf' _) fun _ => RaisesIn.bind (eigenvelocities' _ _ _ _ _ (.inr (K.of _ (by decide)))) fun _ => RaisesIn.ok _

theorem response' (e : Event) (s : St) : RaisesIn S (responseStage e s) := by
  refine seq' (cons' (when' _ fun _ => RaisesIn.ok _) (cons' (when' _ fun s => ?_) (cons' (when' _ fun _ => RaisesIn.ok _)
    (cons' (when' _ fun _ => RaisesIn.ok _) nil')))) s
  refine RaisesIn.bind (convert2D' _ _) fun _ => RaisesIn.bind (split' _ _ (.inr (K.of _ (by decide)))) fun d => ?_
  rcases d with _ | ⟨a, _ | ⟨b, _ | ⟨c, d⟩⟩⟩
  · exact RaisesIn.raise (K.of _ (by decide))
  · exact RaisesIn.raise (K.of _ (by decide))
  · exact RaisesIn.ok _
  · exact RaisesIn.raise (K.of _ (by decide))

theorem born' (e : Event) (s : St) : RaisesIn S (bornStage e s) :=
  RaisesIn.ite (RaisesIn.ok _) (RaisesIn.ite (RaisesIn.bind (numAtoms' _) fun _ => RaisesIn.bind (convert2D' _ _) fun _ =>
    RaisesIn.bind (split' _ _ (.inr (K.of _ (by decide)))) fun _ => RaisesIn.ok _) (RaisesIn.ok _))

theorem lattice' (e : Event) (s : St) : RaisesIn S (latticeStage e s) :=
  when' _ (seq' (cons' (when' _ fun _ => RaisesIn.ok _) (cons' (when' _ fun _ => RaisesIn.bind (convert2D' _ _) fun _ => RaisesIn.ok _)
    (cons' (when' _ fun _ => RaisesIn.ok _) (cons' (when' _ fun _ => RaisesIn.bind (convert2D' _ _) fun _ => RaisesIn.ok _)
    (cons' (fun _ => RaisesIn.ok _) (cons' (fun _ => RaisesIn.ok _) nil'))))))) s

theorem final' (e : Event) (s : St) : RaisesIn S (finalStage e s) := by
  refine RaisesIn.ite ?_ (RaisesIn.ok _)
  cases name e.node with
  | none => exact RaisesIn.raise (K.of _ (by decide))
  | some v =>
    dsimp only
    cases typeOf v with
    | none => exact RaisesIn.ok _
    | some ty =>
      dsimp only
      cases e.seen with
      | none => exact RaisesIn.raise (K.of _ (by decide))
      | some x =>
        refine RaisesIn.bind (toFloat' (K.of _ (by decide)) (K.of _ (by decide)) _) fun y => ?_
        unfold storeFinal
        cases s.o.totens.get? s.o.num with
        | none => exact RaisesIn.raise (K.of _ (by decide))
        | some m => exact RaisesIn.ok _

theorem special' (e : Event) (s : St) : RaisesIn S (specialStage e s) :=
  seq' (cons' (when' _ fun _ => RaisesIn.ok _) (cons' (when' _ fun _ => RaisesIn.bind (convert2D' _ _) fun _ => RaisesIn.ok _)
    (cons' (when' _ fun _ => RaisesIn.ok _) (cons' (when' _ fun _ => RaisesIn.bind (convert1D' _) fun _ => RaisesIn.ok _) nil')))) s

theorem eigS' (e : Event) (s : St) : RaisesIn S (eigSRows e s) :=
  when' _ (seq' (cons' (special' e) (cons' (fun _ => RaisesIn.ok _) (cons' (fun _ => RaisesIn.ok _) (cons' (fun _ => RaisesIn.ok _) nil'))))) s

theorem vel' (e : Event) (s : St) : RaisesIn S (velRows e s) :=
  when' _ (seq' (cons' (special' e) (cons' (fun _ => RaisesIn.ok _) (cons' (fun _ => RaisesIn.ok _) (cons' (fun _ => RaisesIn.ok _) nil'))))) s

theorem proj' (b : Bool) (e : Event) (s : St) : RaisesIn S (projStage b e s) :=
  when' _ (seq' (cons' (when' _ fun _ => RaisesIn.ok _)
    (cons' (fun s => when' _ (fun _ => RaisesIn.bind (projectors' _ _ _ _ _ _ (.inr (K.of _ (by decide)))) fun _ => RaisesIn.ok _) s) (cons' (fun _ => RaisesIn.ok _) nil')))) s

theorem dynmat' (e : Event) (s : St) : RaisesIn S (dynmatStage e s) :=
  when' _ (seq' (cons' (when' _ fun _ => RaisesIn.ok _)
    (cons' (when' _ fun s => RaisesIn.bind (numAtoms' s) fun _ => RaisesIn.bind (convert2D' _ _) fun _ => RaisesIn.ok _)
    (cons' (when' _ fun _ => RaisesIn.ok _)
    (cons' (when' _ fun s => RaisesIn.bind (numAtoms' s) fun _ => RaisesIn.bind (convert2D' _ _) fun _ => RaisesIn.ok _)
    (cons' (fun _ => RaisesIn.ok _) (cons' (fun _ => RaisesIn.ok _)
    (cons' (when' _ fun s => RaisesIn.bind (fromText' _) fun _ => RaisesIn.ok _) nil')))))))) s

theorem kpoints' (e : Event) (s : St) : RaisesIn S (kpointsStage e s) :=
  when' _ (seq' (cons' (when' _ fun _ => RaisesIn.bind (arrayI' _) fun _ => RaisesIn.ok _) (cons' (when' _ fun _ => RaisesIn.ok _)
    (cons' (when' _ fun _ => RaisesIn.bind (convert2D' _ _) fun _ => RaisesIn.ok _) (cons' (when' _ fun _ => RaisesIn.ok _)
    (cons' (when' _ fun _ => RaisesIn.bind (convert1D' _) fun _ => RaisesIn.ok _) (cons' (fun _ => RaisesIn.ok _) (cons' (fun _ => RaisesIn.ok _)
    nil')))))))) s

theorem event' (b : Bool) (e : Event) (s : St) : RaisesIn S (VasprunEvent.step b e s) := by
  have ok : ∀ (f : St → St) s, RaisesIn S (.ok (f s)) := fun f s => RaisesIn.ok _
  refine seq' (cons' (ok _) (cons' (calc' e) (cons' (atoms' e) (cons' (ok _) (cons' (ok _) (cons' (param' e)
    (cons' (fun s => when' _ (seq' ?_) s) (cons' (ok _) (cons' (kpoints' e) (cons' (ok _) (cons' (ok _) nil'))))))))))) s
  refine cons' (dos' e) (cons' (dosS' e) (cons' (ok _) (cons' (varray' e) (cons' (ok _) (cons' (eig' b e) (cons' (response' e)
    (cons' (born' e) (cons' (fun s => ?_) (cons' (lattice' e) (cons' (ok _) (cons' (final' e) (cons' (ok _) (cons' (eigS' e) (cons' (vel' e)
    (cons' (ok _) (cons' (proj' b e) (cons' (dynmat' e) (cons' (ok _) nil'))))))))))))))))))
  exact RaisesIn.ite (RaisesIn.ite (RaisesIn.raise (K.of _ (by decide))) (RaisesIn.ok _)) (RaisesIn.ok _)

theorem run' (b : Bool) (es : List Event) (s : St) : RaisesIn S (run b es s) := by
  refine seq' (fun f hf s => ?_) s
  obtain ⟨e, _, rfl⟩ := List.mem_map.1 hf
  exact event' b e s


end Events

open Verif.ExitCodes (el nest electronic ispin nbands onePoint oneValue atom doc)

/-- An atom whose name is missing. -/
def noName : Node := el c!"atominfo" [] none [el c!"array" [(c!"name", c!"atoms")] none
  (nest [c!"set", c!"rc"] [el c!"c" [] none [], el c!"c" [] (some c!"1") []])]

/-- C127 for the regular parser of vasprun.xml, every document. -/
theorem C127_vasprun (extractAll : Bool) : Escapes (fun a : Node × Bool => parsew a.1 a.2 extractAll) [.typeError, .attributeError, .indexError, .valueError] := by
  have : Has (Among regularExcs) := ⟨fun _ h => h⟩
  refine .mk' (fun a => regular' (S := Among regularExcs) a.1 a.2 extractAll) ?_
  intro e he
  simp only [List.mem_cons, List.not_mem_nil, or_false] at he
  rcases he with rfl | rfl | rfl | rfl
  · exact ⟨(doc [oneValue], true), by cases extractAll <;> rfl⟩
  · exact ⟨(doc [noName], true), by cases extractAll <;> rfl⟩
  · exact ⟨(doc [atom c!" "], true), by cases extractAll <;> rfl⟩
  · exact ⟨(doc [electronic [nbands c!"x"]], true), by cases extractAll <;> rfl⟩

/-- C127 for the event driven parser: whatever the events are, and each exception for the events of a document. -/
theorem C127_vasprun_event :
    Escapes (fun a : List Event × Bool => parseEvents a.2 a.1) [.typeError, .attributeError, .indexError, .valueError, .keyError, .zeroDivisionError] ∧
    Escapes (fun a : Node × Bool => parsee a.1 a.2) [.typeError, .attributeError, .indexError, .valueError, .keyError, .zeroDivisionError] := by
  have : HasAll (Among eventExcs) := ⟨fun _ h => h⟩
  have only : ∀ a : List Event × Bool, RaisesIn (Among eventExcs) (parseEvents a.2 a.1) := fun a =>
    RaisesIn.bind (run' a.2 a.1 {}) fun s => RaisesIn.ok _
  have all : ∀ e ∈ eventExcs, ∃ a : Node × Bool, parsee a.1 a.2 = .raise e := by
    intro e he
    unfold eventExcs at he
    simp only [List.mem_cons, List.not_mem_nil, or_false] at he
    rcases he with rfl | rfl | rfl | rfl | rfl | rfl
    · exact ⟨(doc [oneValue], true), rfl⟩
    · exact ⟨(doc [noName], true), rfl⟩
    · exact ⟨(doc [atom c!" "], true), rfl⟩
    · exact ⟨(doc [electronic [nbands c!"x"]], true), rfl⟩
    · exact ⟨(doc (nest [c!"calculation", c!"varray"] []), true), rfl⟩
    · exact ⟨(doc [el c!"atominfo" [] none [el c!"array" [(c!"name", c!"atoms")] none []], el c!"calculation" [] none (nest [c!"dos", c!"partial"] [])], true), rfl⟩
  refine ⟨.mk' only fun e he => ?_, .mk' (fun a => only (events none a.1, a.2)) all⟩
  obtain ⟨a, ha⟩ := all e he
  exact ⟨(events none a.1, a.2), ha⟩

end Verif.Exceptions
