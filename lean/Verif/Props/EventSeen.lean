import Verif.Props.EventViolations
/-! # C77: what the event driven parser needs of the text at the start of an element -/
set_option autoImplicit false
namespace Verif.VasprunEvent
open Verif Verif.Utils Verif.Xml Verif.Vasprun

/-- The names of the elements whose text is read at their start event. -/
def earlyNames : List Str := [c!"version", c!"SYMPREC", c!"ISPIN", c!"ISMEAR", c!"SIGMA", c!"NBANDS", c!"NELECT", c!"SYSTEM", c!"NELM", c!"NSW",
  c!"e_0_energy", c!"e_fr_energy", c!"e_wo_entrp", c!"eigenvalues", c!"divisions"]

/-- Two events of the same element that differ at most in the text visible so far, and only for elements whose text is not read early. -/
def SameEvent (e e' : Event) : Prop :=
  e.start = e'.start ∧ e.node = e'.node ∧ e.parent = e'.parent ∧ ((∃ v ∈ earlyNames, name e.node = some v) → e.seen = e'.seen)

theorem setParam_seen {st : Bool} {n : Node} {p : Option Node} {x y : Option Str} (h : ∀ v ∈ earlyNames, name n ≠ some v) (q : Params) :
    setParam q ⟨st, n, p, x⟩ = setParam q ⟨st, n, p, y⟩ := by
  unfold setParam
  cases st with
  | false => rfl
  | true =>
    simp only [if_true]
    cases hn : name n with
    | none => rfl
    | some v =>
      have hv : v ∉ earlyNames := fun hc => h v hc hn
      simp only [earlyNames, List.mem_cons, not_or] at hv
      obtain ⟨h1, h2, h3, h4, h5, h6, h7, h8, h9, h10, _⟩ := hv
      simp only
      rw [if_neg h2, if_neg h3, if_neg h4, if_neg h5, if_neg h6, if_neg h7, if_neg h8, if_neg h9, if_neg h10,
        if_neg h2, if_neg h3, if_neg h4, if_neg h5, if_neg h6, if_neg h7, if_neg h8, if_neg h9, if_neg h10]

theorem step_seen (kb : Bool) {st : Bool} {n : Node} {p : Option Node} {x y : Option Str} (h : ∀ v ∈ earlyNames, name n ≠ some v) :
    step kb ⟨st, n, p, x⟩ = step kb ⟨st, n, p, y⟩ := by
  have ne : ∀ v ∈ earlyNames, decide (name n = some v) = false := fun v hv => decide_eq_false (h v hv)
  have h1 : versionStage ⟨st, n, p, x⟩ = versionStage ⟨st, n, p, y⟩ := by
    funext s; unfold versionStage; simp only [ne c!"version" (by decide), Bool.and_false]; rfl
  have h2 : paramStage ⟨st, n, p, x⟩ = paramStage ⟨st, n, p, y⟩ := by
    funext s; unfold paramStage; rw [setParam_seen h]
  have h3 : finalStage ⟨st, n, p, x⟩ = finalStage ⟨st, n, p, y⟩ := by
    funext s; unfold finalStage opens
    simp only
    cases hn : name n with
    | none => rfl
    | some v =>
      have hv : typeOf v = none := by
        have hv : v ∉ earlyNames := fun hc => h v hc hn
        simp only [earlyNames, List.mem_cons, not_or] at hv
        obtain ⟨_, _, _, _, _, _, _, _, _, _, g1, g2, g3, _⟩ := hv
        unfold typeOf
        rw [if_neg g1, if_neg g2, if_neg g3]
      simp only [hv]
  have h4 : dynmatStage ⟨st, n, p, x⟩ = dynmatStage ⟨st, n, p, y⟩ := by
    unfold dynmatStage
    have : ∀ z : Option Str, (when ((⟨st, n, p, z⟩ : Event).start && decide (name (⟨st, n, p, z⟩ : Event).node = some c!"eigenvalues")) fun s =>
        convertArrayF (asSeen ⟨st, n, p, z⟩) >>= fun x => .ok { s with o.dynmat.eigenvalues := some x }) = fun s => .ok s := by
      intro z; funext s; unfold when
      simp only [ne c!"eigenvalues" (by decide), Bool.and_false, Bool.false_eq_true, if_false]
    rw [this, this]
    rfl
  have h5 : kpointsStage ⟨st, n, p, x⟩ = kpointsStage ⟨st, n, p, y⟩ := by
    unfold kpointsStage
    have : ∀ z : Option Str, (when (opensN ⟨st, n, p, z⟩ c!"v" c!"divisions") fun s =>
        convertArrayI (asSeen ⟨st, n, p, z⟩) >>= fun x => .ok { s with o.kpointdiv := some x }) = fun s => .ok s := by
      intro z; funext s; unfold when opensN
      simp only [ne c!"divisions" (by decide), Bool.and_false, Bool.false_eq_true, if_false]
    rw [this, this]
    rfl
  unfold step calculationStage
  rw [h1, h2, h3, h4, h5]
  rfl

/-- **C77**: the text that is visible at the start of an element does not matter, except for the elements with one of the names above. For all
sequences of events. Missing: those names, for which the claim is false (`C77_violation_*`). -/
theorem C77_seen_partial (kb : Bool) (es es' : List Event) (h : List.Forall₂ SameEvent es es') : parseEvents kb es = parseEvents kb es' := by
  have hr : es.map (step kb) = es'.map (step kb) := by
    induction h with
    | nil => rfl
    | @cons e e' es es' h1 _ ih =>
      rw [List.map_cons, List.map_cons, ih]
      congr 1
      obtain ⟨st, n, p, x⟩ := e
      obtain ⟨st', n', p', y⟩ := e'
      obtain ⟨g1, g2, g3, g4⟩ := h1
      simp only at g1 g2 g3 g4
      subst g1; subst g2; subst g3
      by_cases hn : ∃ v ∈ earlyNames, name n = some v
      · rw [g4 hn]
      · exact step_seen kb fun v hv hc => hn ⟨v, hv, hc⟩
  unfold parseEvents run
  rw [hr]

mutual
/-- The events of an element where `f` says what is visible at the start of an element. -/
def eventsWith (f : Node → Option Str) (p : Option Node) : Node → List Event
  | .node tag attrs text cs =>
    ⟨true, .node tag attrs text cs, p, f (.node tag attrs text cs)⟩ :: (eventsAllWith f (some (.node tag attrs text cs)) cs ++ [⟨false, .node tag attrs text cs, p, text⟩])
/-- The events of the children of an element. -/
def eventsAllWith (f : Node → Option Str) (p : Option Node) : List Node → List Event
  | [] => []
  | c :: cs => eventsWith f p c ++ eventsAllWith f p cs
end

theorem forall2_append {α β : Type} {R : α → β → Prop} {a c : List α} {b d : List β} (h1 : List.Forall₂ R a b) (h2 : List.Forall₂ R c d) :
    List.Forall₂ R (a ++ c) (b ++ d) := by
  induction h1 with
  | nil => exact h2
  | cons h _ ih => exact .cons h ih

mutual
theorem eventsWith_same (f : Node → Option Str) (hf : ∀ n, (∃ v ∈ earlyNames, name n = some v) → f n = n.text) :
    ∀ (n : Node) (p : Option Node), List.Forall₂ SameEvent (eventsWith f p n) (events p n)
  | .node tag attrs text cs, p => by
    rw [eventsWith, events]
    exact .cons ⟨rfl, rfl, rfl, fun h => hf _ h⟩ (forall2_append (eventsAllWith_same f hf cs _) (.cons ⟨rfl, rfl, rfl, fun _ => rfl⟩ .nil))
theorem eventsAllWith_same (f : Node → Option Str) (hf : ∀ n, (∃ v ∈ earlyNames, name n = some v) → f n = n.text) :
    ∀ (cs : List Node) (p : Option Node), List.Forall₂ SameEvent (eventsAllWith f p cs) (eventsAll p cs)
  | [], p => by rw [eventsAllWith, eventsAll]; exact .nil
  | c :: cs, p => by
    rw [eventsAllWith, eventsAll]
    exact forall2_append (eventsWith_same f hf c p) (eventsAllWith_same f hf cs p)
end

/-- **C77** for documents: whatever part of the texts is visible at the start events, the result is the same, if the elements with one of the names
above show all of theirs. Missing: those names, for which the claim is false (`C77_violation_*`). -/
theorem C77_document_partial (kb : Bool) (root : Node) (f : Node → Option Str) (hf : ∀ n, (∃ v ∈ earlyNames, name n = some v) → f n = n.text) :
    parseEvents kb (eventsWith f none root) = parsee root kb :=
  C77_seen_partial kb _ _ (eventsWith_same f hf root none)

/-- The hypotheses are met by a document whose other texts are not visible at the start events. -/
example : ∃ f : Node → Option Str, (∀ n, (∃ v ∈ earlyNames, name n = some v) → f n = n.text) ∧ f exStep1 = none ∧ exStep1.text ≠ none :=
  ⟨fun n => if (earlyNames.any fun v => decide (name n = some v)) then n.text else none, fun n ⟨v, hv, hn⟩ => by
    simp only; rw [if_pos (List.any_eq_true.2 ⟨v, hv, decide_eq_true hn⟩)], by decide +kernel, by decide⟩

/-- If nothing of the texts is visible at the start events, reading the final energies ends with an uncaught `TypeError`, -/
theorem C77_violation_energy : parseEvents false (eventsWith (fun _ => none) none (exWith [box c!"calculation" [energyBox c!"1.25" c!"1.5" c!"2.25"]])) = .raise .typeError ∧
    ∃ e, parsee (exWith [box c!"calculation" [energyBox c!"1.25" c!"1.5" c!"2.25"]]) false = .ok e ∧ e.totens.isSome = true :=
  ⟨by decide +kernel, okAnd (by decide +kernel)⟩

/-- Or, when only the first characters of an energy are visible, another energy is reported. -/
theorem C77_violation_digits :
    (∃ e, parseEvents false (eventsWith (fun n => if n.tag = c!"i" ∧ name n = some c!"e_fr_energy" then n.text.map (List.take 1) else n.text) none
      (exWith [box c!"calculation" [energyBox c!"1.25" c!"1.5" c!"2.25"]])) = .ok e ∧
      e.totens.map (List.map fun kv => kv.2.final.get? .free) = some [some (some 1)]) ∧
    ∃ e, parsee (exWith [box c!"calculation" [energyBox c!"1.25" c!"1.5" c!"2.25"]]) false = .ok e ∧
      e.totens.map (List.map fun kv => kv.2.final.get? .free) = some [some (some (5/4))] :=
  ⟨okAnd (by decide +kernel), okAnd (by decide +kernel)⟩

/-- and the version, the parameters and the divisions are missing or partly read. -/
theorem C77_violation_version :
    (∃ e, parseEvents false (eventsWith (fun n => if n.tag = c!"i" ∧ name n = some c!"version" then n.text.map (List.take 1) else n.text) none (exWith [])) = .ok e ∧
      e.version = some c!"5") ∧
    ∃ e, parsee (exWith []) false = .ok e ∧ e.version = some c!"5.4.4.18Apr17 " :=
  ⟨okAnd (by decide +kernel), okAnd (by decide +kernel)⟩

end Verif.VasprunEvent
