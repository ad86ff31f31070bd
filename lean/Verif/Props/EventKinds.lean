import Verif.Props.EventAgree
/-! # The parts of an ionic step by kind -/
set_option autoImplicit false
namespace Verif.VasprunEvent
open Verif Verif.Utils Verif.Xml Verif.Vasprun

/-- Evaluate the choice by tag. -/
macro "pick" "[" ts:Lean.Parser.Tactic.simpLemma,* "]" : tactic =>
  `(tactic| simp [calcChild, Step.selects, tn, $ts,*])

theorem calcChild_struct {kb : Bool} {a : Acc} {n : Node} (h : isStruct n = true) : calcChild kb a n = Res.foldlM' structChild a n.children := by
  have ht := of_decide_eq_true h
  pick [ht]

theorem calcChild_forces {kb : Bool} {a : Acc} {n : Node} (h : isForces n = true) :
    calcChild kb a n = (convert2D n.children 3 >>= fun x => .ok { a with o.force := a.o.force.set a.o.num x }) := by
  obtain ⟨ht, hn⟩ := selects_tn.1 h
  unfold name at hn
  pick [ht, hn]

theorem calcChild_stress {kb : Bool} {a : Acc} {n : Node} (h : isStress n = true) :
    calcChild kb a n = (convert2D n.children 3 >>= fun x => .ok { a with o.stress := a.o.stress.set a.o.num x }) := by
  obtain ⟨ht, hn⟩ := selects_tn.1 h
  unfold name at hn
  pick [ht, hn]

theorem calcChild_sc {kb : Bool} {a : Acc} {n : Node} (h : isSc n = true) : calcChild kb a n = .ok (scAll a n) := by
  have ht := of_decide_eq_true h
  pick [ht]

theorem calcChild_en {kb : Bool} {a : Acc} {n : Node} (h : isEn n = true) : calcChild kb a n = Res.foldlM' finalItem a n.children := by
  have ht := of_decide_eq_true h
  pick [ht]

theorem isEig_iff {n : Node} : isEig n = true ↔ n.tag = c!"eigenvalues" ∧ comment n ≠ some c!"interpolated" := by
  unfold isEig; rw [Bool.and_eq_true, Bool.not_eq_true', decide_eq_false_iff_not, decide_eq_true_eq]

theorem calcChild_eig {kb : Bool} {a : Acc} {n : Node} (h : isEig n = true) : calcChild kb a n = eigAll kb a n := by
  obtain ⟨ht, hc⟩ := isEig_iff.1 h
  pick [ht, hc]

theorem isSpec_tag {v : Bool} {n : Node} (h : isSpec v n = true) : n.tag = if v then c!"eigenvelocities" else c!"eigenvalues" := by
  cases v with
  | true => exact of_decide_eq_true h
  | false => exact of_decide_eq_true (Bool.and_eq_true_iff.1 h).1

theorem calcChild_spec {kb v : Bool} {a : Acc} {n : Node} (h : isSpec v n = true) : calcChild kb a n = specAll kb v a n := by
  have ht := isSpec_tag h
  cases v with
  | true => simp only [if_true] at ht; pick [ht]
  | false =>
    simp only [Bool.false_eq_true, if_false] at ht
    have hc := of_decide_eq_true (Bool.and_eq_true_iff.1 h).2
    pick [ht, hc]

theorem calcChild_dos {kb : Bool} {a : Acc} {n : Node} (h : isDos n = true) (hc : comment n = none) : calcChild kb a n = dosAll a n := by
  have ht := of_decide_eq_true h
  pick [ht, hc]

theorem calcChild_dosS {kb : Bool} {a : Acc} {n : Node} (h : isDos n = true) (hc : comment n = some c!"interpolated") : calcChild kb a n = dosSAll a n := by
  have ht := of_decide_eq_true h
  pick [ht, hc]

theorem calcChild_born {kb : Bool} {a : Acc} {n : Node} (h : isBorn n = true) : calcChild kb a n = bornAll a n := by
  obtain ⟨ht, hn⟩ := selects_tn.1 h
  unfold name at hn
  pick [ht, hn]

theorem calcChild_diel {kb : Bool} {a : Acc} {n : Node} (h : isDiel n = true) : calcChild kb a n = dielAll a n := by
  have ht := of_decide_eq_true h
  pick [ht]

theorem calcChild_proj {kb : Bool} {a : Acc} {n : Node} (h : isProj n = true) : calcChild kb a n = projAll kb a n := by
  have ht := of_decide_eq_true h
  pick [ht]

theorem calcChild_dyn {kb : Bool} {a : Acc} {n : Node} (h : isDyn n = true) : calcChild kb a n = dynAll a n := by
  have ht := of_decide_eq_true h
  pick [ht]

theorem doc_calcs {root : Node} {head body : List Node} {g q a arr k l w : Node} (h : Doc root head body g q a arr k l w) :
    ∀ c ∈ calculations root, CalcOk c := by
  intro c hc
  have hc' : c ∈ body.filter (t c!"calculation").selects := by rw [← h.steps]; exact hc
  obtain ⟨h1, h2⟩ := List.mem_filter.1 hc'
  rcases h.bodies c h1 with hb | hb
  · exact hb
  · exact absurd (selects_t.1 h2) (hb c (List.mem_cons_self ..)).ne.2.2.1

theorem doc_parts {root : Node} {head body : List Node} {g q a arr k l w : Node} (h : Doc root head body g q a arr k l w) :
    ∀ x ∈ partsOf root, CalcPart x := by
  intro x hx
  obtain ⟨c, hc, hx⟩ := List.mem_flatMap.1 hx
  exact (doc_calcs h c hc).2 x hx

/-- By tag, a part can only be of one kind. -/
theorem quiet_not {n : Node} (h : QuietTree n) : Quiet n := h n (List.mem_cons_self ..)

/-- What the two parsers have in common when they accept a document. -/
structure Both (root : Node) (kb : Bool) (e : EData) (d : Data) (o o' : Out) : Prop where
  run : Res.foldlM' (calcAll kb) o (calculations root) = .ok o'
  finish : e = finish o'
  rest : noHead o = {}
  version : o.version = d.version
  params : o.params = d.params
  species : o.species = d.species
  kpoints : o.kpoints = d.kpoints
  kpointsw : o.kpointsw = d.kpointsw
  kpointdiv : o.kpointdiv = d.kpointdiv
  fixed : fixed o' = fixed o
  some : (∃ sp, d.species = some sp) ∧ ∃ ks, d.kpoints = some ks

theorem both {kb all : Bool} {root : Node} {head body : List Node} {g q a arr k l w : Node} (h : Doc root head body g q a arr k l w) {e : EData}
    {d : Data} (he : parsee root kb = .ok e) (hd : parsew root kb all = .ok d) : ∃ o o', Both root kb e d o o' := by
  obtain ⟨o, o', h1, h2, h3, h4⟩ := doc_run h he
  have hp := Vasprun.parts hd
  have inj : ∀ {α : Type} {r : Res α} {x y : α}, r = .ok x → r = .ok y → x = y := fun e1 e2 => by rw [e1] at e2; injection e2
  have e3 := inj h1.species hp.species
  have e4 := inj h1.kpoints hp.kpoints
  refine ⟨o, o', h2, h4, h1.rest, by rw [← h1.version, hp.version], inj h1.params hp.params, e3, e4, inj h1.weights hp.kpointsw,
    inj h1.divisions hp.divisions, h3, ?_, ?_⟩
  · rw [← e3]; exact h1.isSome.1
  · rw [← e4]; exact Option.isSome_iff_exists.1 h1.isSome.2

/-- **C53**: version, input parameters, species and k-points. Missing: documents in another layout, on which the parsers differ (`C53_violation_*`). -/
theorem C53_head_partial {kb all : Bool} {root : Node} {head body : List Node} {g q a arr k l w : Node} (h : Doc root head body g q a arr k l w)
    {e : EData} {d : Data} (he : parsee root kb = .ok e) (hd : parsew root kb all = .ok d) :
    e.version = d.version ∧ e.params = d.params ∧ e.species = d.species ∧ e.kpoints = d.kpoints ∧ e.kpointsw = d.kpointsw ∧
    e.kpointdiv = d.kpointdiv := by
  obtain ⟨o, o', b⟩ := both h he hd
  have hf := b.fixed
  unfold VasprunEvent.fixed at hf
  simp only [Prod.mk.injEq] at hf
  obtain ⟨f1, f2, f3, f4, f5, f6⟩ := hf
  rw [b.finish]
  exact ⟨f1.trans b.version, f2.trans b.params, f3.trans b.species, f4.trans b.kpoints, f5.trans b.kpointsw, f6.trans b.kpointdiv⟩

end Verif.VasprunEvent
