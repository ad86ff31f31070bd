import Verif.Props.EventSpecial
/-! # The event driven parser on a document -/
set_option autoImplicit false
namespace Verif.VasprunEvent
open Verif Verif.Utils Verif.Xml Verif.Vasprun

/-- A part of an ionic step. -/
inductive CalcPart : Node → Prop
  | struct {n : Node} : StructureOk n → CalcPart n
  | forces {n : Node} : n.tag = c!"varray" → name n = some c!"forces" → VRows n → CalcPart n
  | stress {n : Node} : n.tag = c!"varray" → name n = some c!"stress" → VRows n → CalcPart n
  | scstep {n : Node} : ScstepOk n → CalcPart n
  | energy {n : Node} : EnergyOk n → CalcPart n
  | eigenvalues {n : Node} : EigenvaluesOk n → CalcPart n
  | special {v : Bool} {n kp e : Node} : SpecialOk v n kp e → CalcPart n
  | dos {n : Node} : DosOk n → CalcPart n
  | dosS {n : Node} : DosSOk n → CalcPart n
  | born {n : Node} : BornOk n → CalcPart n
  | diel {n : Node} : DielOk n → CalcPart n
  | projected {n e arr : Node} : ProjectedOk n e arr → CalcPart n
  | dynmat {n : Node} : DynmatOk n → CalcPart n
  | quiet {n : Node} : QuietTree n → CalcPart n

/-- What a part of an ionic step does. -/
def calcChild (kb : Bool) (a : Acc) (n : Node) : Res Acc :=
  if n.tag = c!"structure" then Res.foldlM' structChild a n.children
  else if (tn c!"varray" c!"forces").selects n then convert2D n.children 3 >>= fun x => .ok { a with o.force := a.o.force.set a.o.num x }
  else if (tn c!"varray" c!"stress").selects n then convert2D n.children 3 >>= fun x => .ok { a with o.stress := a.o.stress.set a.o.num x }
  else if n.tag = c!"scstep" then .ok (scAll a n)
  else if n.tag = c!"energy" then Res.foldlM' finalItem a n.children
  else if n.tag = c!"eigenvalues" then if comment n = some c!"interpolated" then specAll kb false a n else eigAll kb a n
  else if n.tag = c!"eigenvelocities" then specAll kb true a n
  else if n.tag = c!"dos" then if comment n = some c!"interpolated" then dosSAll a n else dosAll a n
  else if (tn c!"array" c!"born_charges").selects n then bornAll a n
  else if n.tag = c!"dielectricfunction" then dielAll a n
  else if n.tag = c!"projected" then projAll kb a n
  else if n.tag = c!"dynmat" then dynAll a n
  else .ok a

theorem sel_tag {tag v : Str} {n : Node} {s : Str} (h : n.tag = s) (hs : s ≠ tag) : (tn tag v).selects n = false :=
  selects_false fun hc => hs (h.symm.trans (selects_tn.1 hc).1)

theorem run_calcPart (kb : Bool) (a : Acc) (p : Option Node) (n : Node) (h : CalcPart n) :
    run kb (events p n) a.st = (calcChild kb a n >>= fun a => .ok a.st) := by
  unfold calcChild
  have tne : ∀ {s s' : Str}, n.tag = s → s ≠ s' → ¬ n.tag = s' := fun h1 h2 hc => h2 (h1.symm.trans hc)
  cases h with
  | struct h => rw [if_pos h.1, run_structure kb a p n h]
  | forces ht hn hr => rw [if_neg (tne ht (by decide)), if_pos (selects_tn.2 ⟨ht, hn⟩), run_forces kb a p n ht hn hr]; cases convert2D n.children 3 <;> rfl
  | stress ht hn hr =>
    rw [if_neg (tne ht (by decide)), tn_ne (selects_tn.2 ⟨ht, hn⟩) (by decide), if_neg (by simp), if_pos (selects_tn.2 ⟨ht, hn⟩), run_stress kb a p n ht hn hr]
    cases convert2D n.children 3 <;> rfl
  | scstep h =>
    have ht := h.1
    simp only [sel_tag (v := c!"forces") ht (by decide : c!"scstep" ≠ c!"varray"), sel_tag (v := c!"stress") ht (by decide : c!"scstep" ≠ c!"varray")]
    rw [if_neg (tne ht (by decide)), if_neg (by simp), if_neg (by simp), if_pos ht, run_scstep kb a p n h]; rfl
  | energy h =>
    have ht := h.1
    simp only [sel_tag (v := c!"forces") ht (by decide : c!"energy" ≠ c!"varray"), sel_tag (v := c!"stress") ht (by decide : c!"energy" ≠ c!"varray")]
    rw [if_neg (tne ht (by decide)), if_neg (by simp), if_neg (by simp), if_neg (tne ht (by decide)), if_pos ht, run_energy kb a p n h]
  | eigenvalues h =>
    have ht := h.1
    simp only [sel_tag (v := c!"forces") ht (by decide : c!"eigenvalues" ≠ c!"varray"), sel_tag (v := c!"stress") ht (by decide : c!"eigenvalues" ≠ c!"varray")]
    rw [if_neg (tne ht (by decide)), if_neg (by simp), if_neg (by simp), if_neg (tne ht (by decide)), if_neg (tne ht (by decide)), if_pos ht, if_neg h.2.1,
      run_eigenvalues kb a p n h]
  | @special v _ kp e h =>
    have ht := h.tag
    cases v with
    | false =>
      replace ht : n.tag = c!"eigenvalues" := ht
      simp only [sel_tag (v := c!"forces") ht (by decide : c!"eigenvalues" ≠ c!"varray"), sel_tag (v := c!"stress") ht (by decide : c!"eigenvalues" ≠ c!"varray")]
      rw [if_neg (tne ht (by decide)), if_neg (by simp), if_neg (by simp), if_neg (tne ht (by decide)), if_neg (tne ht (by decide)), if_pos ht,
        if_pos (h.comment rfl), run_special kb false a p n kp e h]
    | true =>
      replace ht : n.tag = c!"eigenvelocities" := ht
      simp only [sel_tag (v := c!"forces") ht (by decide : c!"eigenvelocities" ≠ c!"varray"), sel_tag (v := c!"stress") ht (by decide : c!"eigenvelocities" ≠ c!"varray")]
      rw [if_neg (tne ht (by decide)), if_neg (by simp), if_neg (by simp), if_neg (tne ht (by decide)), if_neg (tne ht (by decide)),
        if_neg (tne ht (by decide)), if_pos ht, run_special kb true a p n kp e h]
  | dos h =>
    have ht := h.1
    have hc : ¬ comment n = some c!"interpolated" := by rw [h.2.1]; simp
    simp only [sel_tag (v := c!"forces") ht (by decide : c!"dos" ≠ c!"varray"), sel_tag (v := c!"stress") ht (by decide : c!"dos" ≠ c!"varray")]
    rw [if_neg (tne ht (by decide)), if_neg (by simp), if_neg (by simp), if_neg (tne ht (by decide)), if_neg (tne ht (by decide)),
      if_neg (tne ht (by decide)), if_neg (tne ht (by decide)), if_pos ht, if_neg hc, run_dos kb a p n h]
  | dosS h =>
    have ht := h.1
    simp only [sel_tag (v := c!"forces") ht (by decide : c!"dos" ≠ c!"varray"), sel_tag (v := c!"stress") ht (by decide : c!"dos" ≠ c!"varray")]
    rw [if_neg (tne ht (by decide)), if_neg (by simp), if_neg (by simp), if_neg (tne ht (by decide)), if_neg (tne ht (by decide)),
      if_neg (tne ht (by decide)), if_neg (tne ht (by decide)), if_pos ht, if_pos h.2.1, run_dosS kb a p n h]
  | born h =>
    have ht := h.tag
    simp only [sel_tag (v := c!"forces") ht (by decide : c!"array" ≠ c!"varray"), sel_tag (v := c!"stress") ht (by decide : c!"array" ≠ c!"varray")]
    rw [if_neg (tne ht (by decide)), if_neg (by simp), if_neg (by simp), if_neg (tne ht (by decide)), if_neg (tne ht (by decide)),
      if_neg (tne ht (by decide)), if_neg (tne ht (by decide)), if_neg (tne ht (by decide)), if_pos (selects_tn.2 ⟨ht, h.named⟩), run_born kb a p n h]
  | diel h =>
    have ht := h.tag
    simp only [sel_tag (v := c!"forces") ht (by decide : c!"dielectricfunction" ≠ c!"varray"),
      sel_tag (v := c!"stress") ht (by decide : c!"dielectricfunction" ≠ c!"varray"),
      sel_tag (v := c!"born_charges") ht (by decide : c!"dielectricfunction" ≠ c!"array")]
    rw [if_neg (tne ht (by decide)), if_neg (by simp), if_neg (by simp), if_neg (tne ht (by decide)), if_neg (tne ht (by decide)),
      if_neg (tne ht (by decide)), if_neg (tne ht (by decide)), if_neg (tne ht (by decide)), if_neg (by simp), if_pos ht, run_diel kb a p n h]
  | projected h =>
    have ht := h.tag
    simp only [sel_tag (v := c!"forces") ht (by decide : c!"projected" ≠ c!"varray"),
      sel_tag (v := c!"stress") ht (by decide : c!"projected" ≠ c!"varray"),
      sel_tag (v := c!"born_charges") ht (by decide : c!"projected" ≠ c!"array")]
    rw [if_neg (tne ht (by decide)), if_neg (by simp), if_neg (by simp), if_neg (tne ht (by decide)), if_neg (tne ht (by decide)),
      if_neg (tne ht (by decide)), if_neg (tne ht (by decide)), if_neg (tne ht (by decide)), if_neg (by simp), if_neg (tne ht (by decide)), if_pos ht,
      run_projected kb a p n _ _ h]
  | dynmat h =>
    have ht := h.1
    simp only [sel_tag (v := c!"forces") ht (by decide : c!"dynmat" ≠ c!"varray"),
      sel_tag (v := c!"stress") ht (by decide : c!"dynmat" ≠ c!"varray"),
      sel_tag (v := c!"born_charges") ht (by decide : c!"dynmat" ≠ c!"array")]
    rw [if_neg (tne ht (by decide)), if_neg (by simp), if_neg (by simp), if_neg (tne ht (by decide)), if_neg (tne ht (by decide)),
      if_neg (tne ht (by decide)), if_neg (tne ht (by decide)), if_neg (tne ht (by decide)), if_neg (by simp), if_neg (tne ht (by decide)),
      if_neg (tne ht (by decide)), if_pos ht, run_dynmat kb a p n h]
  | quiet h =>
    have hq := h n (List.mem_cons_self ..)
    obtain ⟨h1, h2, h3, h4, h5, h6, h7, h8, h9, h10, h11, h12, h13, h14⟩ := hq.ne
    have s1 : (tn c!"varray" c!"forces").selects n = false := selects_false fun hc => by
      obtain ⟨v, g1, g2, g3⟩ := hq.2.2 (selects_tn.1 hc).1
      rw [(selects_tn.1 hc).2] at g1; injection g1 with g1; exact g2 g1.symm
    have s2 : (tn c!"varray" c!"stress").selects n = false := selects_false fun hc => by
      obtain ⟨v, g1, g2, g3⟩ := hq.2.2 (selects_tn.1 hc).1
      rw [(selects_tn.1 hc).2] at g1; injection g1 with g1; exact g3 g1.symm
    have s3 : (tn c!"array" c!"born_charges").selects n = false := selects_false fun hc => (hq.2.1 (selects_tn.1 hc).1).2 (selects_tn.1 hc).2
    rw [if_neg h8, s1, s2, s3, if_neg (by simp), if_neg (by simp), if_neg h10, if_neg h9, if_neg h11, if_neg h12, if_neg h5, if_neg (by simp), if_neg h13,
      if_neg h4, if_neg h14, run_quiet kb a p n h]
    rfl

/-- An ionic step. -/
def CalcOk (n : Node) : Prop := n.tag = c!"calculation" ∧ ∀ m ∈ n.children, CalcPart m

/-- What is stored at the end of an ionic step. -/
def storeAcc (a : Acc) : Res Out :=
  convert1D a.e0 >>= fun x => convert1D a.efr >>= fun y => convert1D a.ewo >>= fun z =>
  match a.o.totens.get? a.o.num with
  | none => .raise .keyError
  | some m => .ok { a.o with
      totens := a.o.totens.set a.o.num { m with sc := ((m.sc.set .extrapolated x).set .free y).set .noEntropy z }, num := a.o.num + 1 }

/-- What is known at the beginning of an ionic step. -/
def startAcc (o : Out) : Acc := { o := { o with totens := o.totens.set o.num {} } }

/-- What an ionic step does. -/
def calcAll (kb : Bool) (o : Out) (n : Node) : Res Out := Res.foldlM' (calcChild kb) (startAcc o) n.children >>= storeAcc

/-- An ionic step. -/
theorem run_calculation (kb : Bool) (o : Out) (p : Option Node) (n : Node) (h : CalcOk n) :
    run kb (events p n) ⟨{}, o⟩ = (calcAll kb o n >>= fun o => .ok ⟨{}, o⟩) := by
  have e1 : step kb (starts p n) ⟨{}, o⟩ = .ok (startAcc o).st := by unfold startAcc Acc.st; evc [h.1]
  unfold calcAll
  rw [run_node, e1, Res.ok_bind, run_children kb Acc.st (calcChild kb) _ _ (fun c hc a => run_calcPart kb a _ c (h.2 c hc))]
  cases Res.foldlM' (calcChild kb) (startAcc o) n.children with
  | exit c => rfl
  | raise x => rfl
  | ok a =>
    simp only [Res.ok_bind]
    unfold Acc.st storeAcc
    cases h1 : convert1D a.e0 with
    | exit c => evc [h.1, storeSc, h1]
    | raise x => evc [h.1, storeSc, h1]
    | ok x =>
      cases h2 : convert1D a.efr with
      | exit c => evc [h.1, storeSc, h1, h2]
      | raise x => evc [h.1, storeSc, h1, h2]
      | ok y =>
        cases h3 : convert1D a.ewo with
        | exit c => evc [h.1, storeSc, h1, h2, h3]
        | raise x => evc [h.1, storeSc, h1, h2, h3]
        | ok z =>
          cases hm : a.o.totens.get? a.o.num <;> evc [h.1, storeSc, h1, h2, h3, hm]

/-! ### the whole document -/

/-- The program and its version. -/
structure GeneratorOk (g : Node) : Prop where
  tag : g.tag = c!"generator"
  still : ∀ m ∈ below g, Still m
  version : OnlyAt g c!"version" [tn c!"i" c!"version"]

/-- A section in front of the ionic steps. -/
inductive HeadPart : Node → Prop
  | generator {n : Node} : GeneratorOk n → HeadPart n
  | parameters {n : Node} : ParametersOk n → HeadPart n
  | atominfo {n arr : Node} : AtomsOk n arr → HeadPart n
  | kpoints {n l w : Node} : KpointsOk n l w → HeadPart n
  | filler {n : Node} : Filler n → n.tag ≠ c!"atominfo" → HeadPart n

/-- What a section in front of the ionic steps does. -/
def headChild (o : Out) (n : Node) : Res Out :=
  if n.tag = c!"generator" then .ok { o with version := match findRel n [tn c!"i" c!"version"] with
    | [] => o.version
    | v :: _ => v.text }
  else if n.tag = c!"parameters" then Res.foldlM' setParam o.params (events none n) >>= fun q => .ok { o with params := q }
  else if n.tag = c!"atominfo" then
    convertSpecies (everyOther (findRel n [tn c!"array" c!"atoms", t c!"set", t c!"rc", t c!"c"])) >>= fun sp => .ok { o with species := some sp }
  else if n.tag = c!"kpoints" then Res.foldlM' kpointsChild o n.children
  else .ok o

theorem atoms_path {a arr : Node} (h : AtomsOk a arr) :
    findRel a [tn c!"array" c!"atoms", t c!"set", t c!"rc", t c!"c"] = findRel arr [t c!"set", t c!"rc", t c!"c"] := by
  rw [findRel_cons, h.array, List.flatMap_singleton]

/-- The parent of `parameters` itself is not looked at. -/
theorem setParam_parent (q : Params) (p p' : Option Node) (g : Node) (hn : name g = none) : setParam q (starts p g) = setParam q (starts p' g) := by
  unfold setParam starts
  simp [hn]

theorem run_headPart (kb : Bool) (o : Out) (p : Option Node) (n : Node) (h : HeadPart n) :
    run kb (events p n) ⟨{}, o⟩ = (headChild o n >>= fun o => .ok ⟨{}, o⟩) := by
  unfold headChild
  have tne : ∀ {s s' : Str}, n.tag = s → s ≠ s' → ¬ n.tag = s' := fun h1 h2 hc => h2 (h1.symm.trans hc)
  cases h with
  | generator h =>
    rw [if_pos h.tag, run_generator kb o p n h.tag h.still (by rw [h.version.1]; exact h.version.2), h.version.1]
    rfl
  | parameters h =>
    rw [if_neg (tne h.tag (by decide)), if_pos h.tag, run_parameters kb o p n h.tag h.still]
    have : Res.foldlM' setParam o.params (events p n) = Res.foldlM' setParam o.params (events none n) := by
      rw [events_eq, events_eq, foldlM'_cons, foldlM'_cons, setParam_parent _ p none n h.name]
      congr 1
      funext q
      rw [foldlM'_append, foldlM'_append]
      congr 1
    rw [this]
    cases Res.foldlM' setParam o.params (events none n) <;> rfl
  | atominfo h =>
    rw [if_neg (tne h.tag (by decide)), if_neg (tne h.tag (by decide)), if_pos h.tag, run_atominfo kb o p n _ h, atoms_path h]
    cases convertSpecies _ <;> rfl
  | kpoints h =>
    rw [if_neg (tne h.tag (by decide)), if_neg (tne h.tag (by decide)), if_neg (tne h.tag (by decide)), if_pos h.tag, run_kpoints kb o p n _ _ h]
  | filler h ha =>
    obtain ⟨h1, h2, h3, h4, h5⟩ := (h n (List.mem_cons_self ..)).ne
    rw [if_neg h1, if_neg h2, if_neg ha, if_neg h4, run_filler kb o p n h]
    rfl

/-- A part of the document behind the first sections: an ionic step or something that is not read. -/
def BodyPart (n : Node) : Prop := CalcOk n ∨ Filler n

/-- What a part behind the first sections does. -/
def bodyChild (kb : Bool) (o : Out) (n : Node) : Res Out := if n.tag = c!"calculation" then calcAll kb o n else .ok o

/-- A document as VASP writes it: version, parameters, atoms and k-points in front of the ionic steps. -/
structure Doc (root : Node) (head body : List Node) (g q a arr k l w : Node) : Prop where
  still : Still root
  parts : root.children = head ++ body
  heads : ∀ n ∈ head, HeadPart n
  bodies : ∀ n ∈ body, BodyPart n
  generator : (below root).filter (t c!"generator").selects = [g] ∧ head.filter (t c!"generator").selects = [g] ∧ GeneratorOk g
  parameters : (below root).filter (t c!"parameters").selects = [q] ∧ head.filter (t c!"parameters").selects = [q] ∧ ParametersOk q
  atominfo : (below root).filter (t c!"atominfo").selects = [a] ∧ head.filter (t c!"atominfo").selects = [a] ∧ AtomsOk a arr
  kpoints : root.children.filter (t c!"kpoints").selects = [k] ∧ head.filter (t c!"kpoints").selects = [k] ∧ KpointsOk k l w
  steps : (below root).filter (t c!"calculation").selects = body.filter (t c!"calculation").selects

theorem run_doc (kb : Bool) {root : Node} {head body : List Node} {g q a arr k l w : Node} (h : Doc root head body g q a arr k l w) :
    parsee root kb = (Res.foldlM' headChild {} head >>= fun o => Res.foldlM' (bodyChild kb) o body >>= fun o => .ok (finish o)) := by
  unfold parsee parseEvents
  have e1 : ∀ o, step kb (starts none root) ⟨{}, o⟩ = .ok ⟨{}, o⟩ := fun o => still_step kb o _ h.still
  have e2 : ∀ o, step kb (ends none root) ⟨{}, o⟩ = .ok ⟨{}, o⟩ := fun o => still_step kb o _ h.still
  have e0 : ({} : St) = ⟨{}, {}⟩ := rfl
  rw [run_node, e0, e1, Res.ok_bind, h.parts, eventsAll_append, run_append,
    run_children kb (fun o => (⟨{}, o⟩ : St)) headChild _ head (fun c hc o => run_headPart kb o _ c (h.heads c hc))]
  cases Res.foldlM' headChild {} head with
  | exit c => rfl
  | raise x => rfl
  | ok o =>
    simp only [Res.ok_bind]
    rw [run_children kb (fun o => (⟨{}, o⟩ : St)) (bodyChild kb) _ body (fun c hc o => ?_)]
    · cases Res.foldlM' (bodyChild kb) o body with
      | exit c => rfl
      | raise x => rfl
      | ok o =>
        simp only [Res.ok_bind]
        rw [e2]; rfl
    · unfold bodyChild
      rcases h.bodies c hc with hb | hb
      · rw [if_pos hb.1, run_calculation kb o _ c hb]
      · rw [if_neg (hb c (List.mem_cons_self ..)).ne.2.2.1, run_filler kb o _ c hb]
        rfl

end Verif.VasprunEvent
