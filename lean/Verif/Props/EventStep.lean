import Verif.Props.EventTables
/-! # The event driven parser on the parts of an ionic step -/
set_option autoImplicit false
namespace Verif.VasprunEvent
open Verif Verif.Utils Verif.Xml Verif.Vasprun

/-- Evaluate what is done for one event inside an ionic step. -/
macro "evc" "[" ts:Lean.Parser.Tactic.simpLemma,* "]" : tactic =>
  `(tactic| evs [calculationStage, dosStage, dosSpecificStage, structureStage, varrayStage, energyStage, eigStage, responseStage, bornStage, scStage,
      latticeStage, forceRows, finalStage, eigRows, eigSRows, velRows, dielRows, projStage, dynmatStage, bornRows, opensC, closesC, $ts,*])

/-- What is known while an ionic step is read: the energies of the electronic steps and what is stored. -/
structure Acc where
  e0 : List Node := []
  efr : List Node := []
  ewo : List Node := []
  o : Out

/-- The state between the parts of an ionic step. -/
def Acc.st (a : Acc) : St := ⟨{ calcn := true, data3 := a.e0, data4 := a.efr, data5 := a.ewo }, a.o⟩

/-! ### parts that are not read -/

/-- The tags that mean something inside an ionic step. -/
def stepTags : List Str := [c!"generator", c!"parameters", c!"calculation", c!"projected", c!"dos", c!"total", c!"partial", c!"structure", c!"energy",
  c!"scstep", c!"eigenvalues", c!"eigenvelocities", c!"dielectricfunction", c!"dynmat"]

/-- An element that is not read inside an ionic step. A `varray` has to have a name. -/
def Quiet (m : Node) : Prop := m.tag ∉ stepTags ∧ (m.tag = c!"array" → name m ≠ some c!"atoms" ∧ name m ≠ some c!"born_charges") ∧
  (m.tag = c!"varray" → ∃ v, name m = some v ∧ v ≠ c!"forces" ∧ v ≠ c!"stress")

/-- Nothing in the tree is read. -/
def QuietTree (n : Node) : Prop := ∀ m ∈ n :: below n, Quiet m

theorem Quiet.ne {m : Node} (h : Quiet m) : m.tag ≠ c!"generator" ∧ m.tag ≠ c!"parameters" ∧ m.tag ≠ c!"calculation" ∧ m.tag ≠ c!"projected" ∧
    m.tag ≠ c!"dos" ∧ m.tag ≠ c!"total" ∧ m.tag ≠ c!"partial" ∧ m.tag ≠ c!"structure" ∧ m.tag ≠ c!"energy" ∧ m.tag ≠ c!"scstep" ∧
    m.tag ≠ c!"eigenvalues" ∧ m.tag ≠ c!"eigenvelocities" ∧ m.tag ≠ c!"dielectricfunction" ∧ m.tag ≠ c!"dynmat" := by
  have := h.1
  simpa [stepTags, not_or] using this

theorem quiet_step (kb : Bool) (a : Acc) (e : Event) (h : Quiet e.node) : step kb e a.st = .ok a.st := by
  obtain ⟨h1, h2, h3, h4, h5, h6, h7, h8, h9, h10, h11, h12, h13, h14⟩ := h.ne
  unfold Acc.st
  by_cases hv : e.node.tag = c!"varray"
  · obtain ⟨v, g1, g2, g3⟩ := h.2.2 hv
    cases hs : e.start <;> evc [hv, hs, g1, g2, g3]
  · by_cases ha : e.node.tag = c!"array"
    · obtain ⟨g1, g2⟩ := h.2.1 ha
      cases hs : e.start <;> evc [ha, hs, g1, g2]
    · cases hs : e.start <;> evc [h1, h2, h3, h4, h5, h6, h7, h8, h9, h10, h11, h12, h13, h14, hv, ha, hs]

theorem run_quiet (kb : Bool) (a : Acc) (p : Option Node) (n : Node) (h : QuietTree n) : run kb (events p n) a.st = .ok a.st := by
  have := run_events kb (fun _ : Unit => a.st) (fun u _ => .ok u) (events p n)
    (fun e he _ => by rw [quiet_step kb a e (h _ (mem_events n p e he).1)]; rfl) ()
  rw [this, foldlM'_pure]
  rfl

/-! ### forces and stress -/

/-- While the rows of the forces are read. -/
def forcesM (a : Acc) (d : List Node) : St := ⟨{ calcn := true, forces := true, data := d, data3 := a.e0, data4 := a.efr, data5 := a.ewo }, a.o⟩
/-- While the rows of the stress are read. -/
def stressM (a : Acc) (d : List Node) : St := ⟨{ calcn := true, stress := true, data := d, data3 := a.e0, data4 := a.efr, data5 := a.ewo }, a.o⟩

theorem forces_row (kb : Bool) (a : Acc) (d : List Node) (e : Event) (h : e.node.tag = c!"v" ∧ name e.node = none) :
    step kb e (forcesM a d) = .ok (forcesM a (if e.start && hasTag c!"v" e.node then d ++ [e.node] else d)) := by
  unfold hasTag forcesM
  cases hs : e.start <;> evc [h.1, h.2, hs]

theorem stress_row (kb : Bool) (a : Acc) (d : List Node) (e : Event) (h : e.node.tag = c!"v" ∧ name e.node = none) :
    step kb e (stressM a d) = .ok (stressM a (if e.start && hasTag c!"v" e.node then d ++ [e.node] else d)) := by
  unfold hasTag stressM
  cases hs : e.start <;> evc [h.1, h.2, hs]

/-- The forces. -/
theorem run_forces (kb : Bool) (a : Acc) (p : Option Node) (n : Node) (ht : n.tag = c!"varray") (hn : name n = some c!"forces") (hr : VRows n) :
    run kb (events p n) a.st = (convert2D n.children 3 >>= fun x => .ok ({ a with o.force := a.o.force.set a.o.num x } : Acc).st) := by
  have e1 : step kb (starts p n) a.st = .ok (forcesM a []) := by unfold Acc.st forcesM; evc [ht, hn]
  rw [run_node, e1, Res.ok_bind, run_rows kb (forcesM a) n hr _ (forces_row kb a), Res.ok_bind]
  unfold Acc.st forcesM
  cases hc : convert2D n.children 3 <;> evc [ht, hn, hc]

/-- The stress. -/
theorem run_stress (kb : Bool) (a : Acc) (p : Option Node) (n : Node) (ht : n.tag = c!"varray") (hn : name n = some c!"stress") (hr : VRows n) :
    run kb (events p n) a.st = (convert2D n.children 3 >>= fun x => .ok ({ a with o.stress := a.o.stress.set a.o.num x } : Acc).st) := by
  have e1 : step kb (starts p n) a.st = .ok (stressM a []) := by unfold Acc.st stressM; evc [ht, hn]
  rw [run_node, e1, Res.ok_bind, run_rows kb (stressM a) n hr _ (stress_row kb a), Res.ok_bind]
  unfold Acc.st stressM
  cases hc : convert2D n.children 3 <;> evc [ht, hn, hc]

/-! ### unit cell and positions -/

/-- Inside a structure. -/
def latM (a : Acc) : St := ⟨{ calcn := true, lat := true, data3 := a.e0, data4 := a.efr, data5 := a.ewo }, a.o⟩
/-- While the rows of the unit cell are read. -/
def basisM (a : Acc) (d : List Node) : St := ⟨{ calcn := true, lat := true, ucell := true, data := d, data3 := a.e0, data4 := a.efr, data5 := a.ewo }, a.o⟩
/-- While the rows of the positions are read. -/
def posM (a : Acc) (d : List Node) : St := ⟨{ calcn := true, lat := true, posn := true, data := d, data3 := a.e0, data4 := a.efr, data5 := a.ewo }, a.o⟩

theorem basis_row (kb : Bool) (a : Acc) (d : List Node) (e : Event) (h : e.node.tag = c!"v" ∧ name e.node = none) :
    step kb e (basisM a d) = .ok (basisM a (if e.start && hasTag c!"v" e.node then d ++ [e.node] else d)) := by
  unfold hasTag basisM
  cases hs : e.start <;> evc [h.1, h.2, hs]

theorem pos_row (kb : Bool) (a : Acc) (d : List Node) (e : Event) (h : e.node.tag = c!"v" ∧ name e.node = none) :
    step kb e (posM a d) = .ok (posM a (if e.start && hasTag c!"v" e.node then d ++ [e.node] else d)) := by
  unfold hasTag posM
  cases hs : e.start <;> evc [h.1, h.2, hs]

/-- What a table inside a structure does. -/
def tableChild (a : Acc) (n : Node) : Res Acc :=
  if (tn c!"varray" c!"basis").selects n then convert2D n.children 3 >>= fun x => .ok { a with o.cell := a.o.cell.set a.o.num x }
  else if (tn c!"varray" c!"positions").selects n then convert2D n.children 3 >>= fun x => .ok { a with o.pos := a.o.pos.set a.o.num x }
  else .ok a

/-- An element inside a structure that is not read. -/
def Untold (m : Node) : Prop := Quiet m ∧ ¬ (m.tag = c!"varray" ∧ (name m = some c!"basis" ∨ name m = some c!"positions"))

theorem untold_step (kb : Bool) (a : Acc) (e : Event) (h : Untold e.node) : step kb e (latM a) = .ok (latM a) := by
  obtain ⟨h1, h2, h3, h4, h5, h6, h7, h8, h9, h10, h11, h12, h13, h14⟩ := h.1.ne
  unfold latM
  by_cases hv : e.node.tag = c!"varray"
  · obtain ⟨v, g1, g2, g3⟩ := h.1.2.2 hv
    have g4 : v ≠ c!"basis" := fun hc => h.2 ⟨hv, .inl (by rw [g1, hc])⟩
    have g5 : v ≠ c!"positions" := fun hc => h.2 ⟨hv, .inr (by rw [g1, hc])⟩
    cases hs : e.start <;> evc [hv, hs, g1, g2, g3, g4, g5]
  · by_cases ha : e.node.tag = c!"array"
    · obtain ⟨g1, g2⟩ := h.1.2.1 ha
      cases hs : e.start <;> evc [ha, hs, g1, g2]
    · cases hs : e.start <;> evc [h1, h2, h3, h4, h5, h6, h7, h8, h9, h10, h11, h12, h13, h14, hv, ha, hs]

/-- A table of the structure or something that is not read. -/
def StructPart (n : Node) : Prop :=
  (n.tag = c!"varray" ∧ (name n = some c!"basis" ∨ name n = some c!"positions") ∧ VRows n) ∨ ∀ m ∈ n :: below n, Untold m

theorem run_structPart (kb : Bool) (a : Acc) (p : Option Node) (n : Node) (h : StructPart n) :
    run kb (events p n) (latM a) = (tableChild a n >>= fun a => .ok (latM a)) := by
  unfold tableChild
  rcases h with ⟨ht, hn, hr⟩ | h
  · rcases hn with hn | hn
    · have e1 : step kb (starts p n) (latM a) = .ok (basisM a []) := by unfold latM basisM; evc [ht, hn]
      rw [if_pos (selects_tn.2 ⟨ht, hn⟩), run_node, e1, Res.ok_bind, run_rows kb (basisM a) n hr _ (basis_row kb a), Res.ok_bind]
      unfold latM basisM
      cases hc : convert2D n.children 3 <;> evc [ht, hn, hc]
    · have e1 : step kb (starts p n) (latM a) = .ok (posM a []) := by unfold latM posM; evc [ht, hn]
      rw [if_neg (by rw [tn_ne (selects_tn.2 ⟨ht, hn⟩) (by decide)]; simp), if_pos (selects_tn.2 ⟨ht, hn⟩), run_node, e1, Res.ok_bind,
        run_rows kb (posM a) n hr _ (pos_row kb a), Res.ok_bind]
      unfold latM posM
      cases hc : convert2D n.children 3 <;> evc [ht, hn, hc]
  · have hs := (h n (List.mem_cons_self ..)).2
    rw [if_neg (fun hc => hs ⟨(selects_tn.1 hc).1, .inl (selects_tn.1 hc).2⟩), if_neg (fun hc => hs ⟨(selects_tn.1 hc).1, .inr (selects_tn.1 hc).2⟩)]
    have := run_events kb (fun _ : Unit => latM a) (fun u _ => .ok u) (events p n)
      (fun e he _ => by rw [untold_step kb a e (h _ (mem_events n p e he).1)]; rfl) ()
    rw [this, foldlM'_pure]
    rfl

/-- A structure: a crystal with the unit cell in it, and the positions. -/
def StructureOk (n : Node) : Prop := n.tag = c!"structure" ∧ ∀ m ∈ n.children, (m.tag = c!"crystal" ∧ ∀ q ∈ m.children, StructPart q) ∨ StructPart m

/-- What a child of a structure does. -/
def structChild (a : Acc) (n : Node) : Res Acc := if n.tag = c!"crystal" then Res.foldlM' tableChild a n.children else tableChild a n

/-- A structure. -/
theorem run_structure (kb : Bool) (a : Acc) (p : Option Node) (n : Node) (h : StructureOk n) :
    run kb (events p n) a.st = (Res.foldlM' structChild a n.children >>= fun a => .ok a.st) := by
  have e1 : step kb (starts p n) a.st = .ok (latM a) := by unfold Acc.st latM; evc [h.1]
  rw [run_node, e1, Res.ok_bind, run_children kb latM structChild _ _ (fun c hc a => ?_)]
  · cases Res.foldlM' structChild a n.children with
    | exit c => rfl
    | raise x => rfl
    | ok a =>
      simp only [Res.ok_bind]
      unfold Acc.st latM
      evc [h.1]
  · unfold structChild
    by_cases ht : c.tag = c!"crystal"
    · rw [if_pos ht]
      have hq : Untold c := by
        refine ⟨⟨by rw [ht]; decide, fun hc => absurd (ht.symm.trans hc) (by decide), fun hc => absurd (ht.symm.trans hc) (by decide)⟩,
          fun hc => absurd (ht.symm.trans hc.1) (by decide)⟩
      rcases h.2 c hc with ⟨_, hp⟩ | hp
      · rw [run_node, untold_step kb a (starts _ c) hq, Res.ok_bind,
          run_children kb latM tableChild _ _ (fun q hq a => run_structPart kb a _ q (hp q hq))]
        cases Res.foldlM' tableChild a c.children with
        | exit c => rfl
        | raise x => rfl
        | ok a => exact untold_step kb a (ends _ c) hq
      · rw [run_structPart kb a _ c hp]
        rcases hp with ⟨hv, _⟩ | hp
        · exact absurd (ht.symm.trans hv) (by decide)
        · have ut : ∀ (a : Acc) (m : Node), Untold m → tableChild a m = .ok a := fun a m hm => by
            unfold tableChild
            rw [if_neg (fun hc => hm.2 ⟨(selects_tn.1 hc).1, .inl (selects_tn.1 hc).2⟩), if_neg (fun hc => hm.2 ⟨(selects_tn.1 hc).1, .inr (selects_tn.1 hc).2⟩)]
          rw [ut a c (hp c (List.mem_cons_self ..))]
          have : ∀ l : List Node, (∀ m ∈ l, Untold m) → Res.foldlM' tableChild a l = .ok a := by
            intro l
            induction l with
            | nil => intro _; rfl
            | cons m l ih =>
              intro hl
              rw [foldlM'_cons, ut a m (hl m (List.mem_cons_self ..)), Res.ok_bind]
              exact ih fun m hm => hl m (List.mem_cons_of_mem _ hm)
          rw [this c.children (fun m hm => hp m (List.mem_cons_of_mem _ (by rw [below_eq]; exact mem_belowAll hm)))]
    · rw [if_neg ht]
      rcases h.2 c hc with ⟨hc, _⟩ | hp
      · exact absurd hc ht
      · exact run_structPart kb a _ c hp

/-! ### energies -/

/-- Inside an electronic step. -/
def scM (a : Acc) : St := ⟨{ calcn := true, sc := true, data3 := a.e0, data4 := a.efr, data5 := a.ewo }, a.o⟩

/-- An energy inside an electronic step. -/
def scItem (a : Acc) (n : Node) : Acc :=
  { a with
    e0 := if (tn c!"i" c!"e_0_energy").selects n then a.e0 ++ [n] else a.e0,
    efr := if (tn c!"i" c!"e_fr_energy").selects n then a.efr ++ [n] else a.efr,
    ewo := if (tn c!"i" c!"e_wo_entrp").selects n then a.ewo ++ [n] else a.ewo }

/-- An item: an `i` with a name and nothing inside. -/
def Item (n : Node) : Prop := n.tag = c!"i" ∧ n.children = [] ∧ ∃ v, name n = some v

theorem selects_false {s : Step} {n : Node} (h : ¬ s.selects n = true) : s.selects n = false := by
  cases hc : s.selects n with
  | false => rfl
  | true => exact absurd hc h

theorem run_item (kb : Bool) (a : Acc) (p : Option Node) (n : Node) (h : Item n) : run kb (events p n) (scM a) = .ok (scM (scItem a n)) := by
  obtain ⟨h1, h2, v, h3⟩ := h
  rw [run_node, h2, eventsAll_nil]
  unfold scM scItem
  by_cases g1 : v = c!"e_0_energy"
  · subst g1
    rw [selects_tn.2 ⟨h1, h3⟩, tn_ne (selects_tn.2 ⟨h1, h3⟩) (by decide), tn_ne (selects_tn.2 ⟨h1, h3⟩) (by decide)]
    evc [h1, h3, run_nil]
  by_cases g2 : v = c!"e_fr_energy"
  · subst g2
    rw [selects_tn.2 ⟨h1, h3⟩, tn_ne (selects_tn.2 ⟨h1, h3⟩) (by decide), tn_ne (selects_tn.2 ⟨h1, h3⟩) (by decide)]
    evc [h1, h3, run_nil]
  by_cases g3 : v = c!"e_wo_entrp"
  · subst g3
    rw [selects_tn.2 ⟨h1, h3⟩, tn_ne (selects_tn.2 ⟨h1, h3⟩) (by decide), tn_ne (selects_tn.2 ⟨h1, h3⟩) (by decide)]
    evc [h1, h3, run_nil]
  have ns : ∀ w, v ≠ w → (tn c!"i" w).selects n = false := fun w hw => selects_false fun hc => by
    have := (selects_tn.1 hc).2
    rw [h3] at this
    injection this with this
    exact hw this
  rw [ns _ g1, ns _ g2, ns _ g3]
  evc [h1, h3, run_nil, g1, g2, g3]

/-- An element that is not read inside an electronic step. -/
def ScQuiet (m : Node) : Prop := Quiet m ∧ m.tag ≠ c!"i"

theorem scQuiet_step (kb : Bool) (a : Acc) (e : Event) (h : ScQuiet e.node) : step kb e (scM a) = .ok (scM a) := by
  obtain ⟨h1, h2, h3, h4, h5, h6, h7, h8, h9, h10, h11, h12, h13, h14⟩ := h.1.ne
  have hi := h.2
  unfold scM
  by_cases hv : e.node.tag = c!"varray"
  · obtain ⟨v, g1, g2, g3⟩ := h.1.2.2 hv
    cases hs : e.start <;> evc [hv, hs, g1, g2, g3]
  · by_cases ha : e.node.tag = c!"array"
    · obtain ⟨g1, g2⟩ := h.1.2.1 ha
      cases hs : e.start <;> evc [ha, hs, g1, g2]
    · cases hs : e.start <;> evc [h1, h2, h3, h4, h5, h6, h7, h8, h9, h10, h11, h12, h13, h14, hv, ha, hi, hs]

/-- An electronic step: energies and things that are not read. -/
def ScstepOk (n : Node) : Prop := n.tag = c!"scstep" ∧
  ∀ m ∈ n.children, (m.tag = c!"energy" ∧ ∀ i ∈ m.children, Item i) ∨ ∀ q ∈ m :: below m, ScQuiet q

/-- What a child of an electronic step does. -/
def scChild (a : Acc) (n : Node) : Acc := if n.tag = c!"energy" then n.children.foldl scItem a else a

/-- What an electronic step does. -/
def scAll (a : Acc) (n : Node) : Acc :=
  { a with e0 := a.e0 ++ findRel n [t c!"energy", tn c!"i" c!"e_0_energy"], efr := a.efr ++ findRel n [t c!"energy", tn c!"i" c!"e_fr_energy"],
           ewo := a.ewo ++ findRel n [t c!"energy", tn c!"i" c!"e_wo_entrp"] }

theorem foldl_scItem (l : List Node) (a : Acc) : l.foldl scItem a =
    { a with e0 := a.e0 ++ l.filter (tn c!"i" c!"e_0_energy").selects, efr := a.efr ++ l.filter (tn c!"i" c!"e_fr_energy").selects,
             ewo := a.ewo ++ l.filter (tn c!"i" c!"e_wo_entrp").selects } := by
  induction l generalizing a with
  | nil => simp
  | cons n l ih =>
    rw [List.foldl_cons, ih]
    unfold scItem
    simp only [List.filter_cons, List.append_assoc]
    congr 1 <;> split <;> simp

theorem findRel_singleton (n : Node) (s : Step) : findRel n [s] = n.children.filter s.selects := by
  unfold findRel; rw [follow, List.flatMap_singleton, follow]

theorem scChild_eq (a : Acc) (n : Node) : n.children.foldl scChild a = scAll a n := by
  unfold scAll
  rw [findRel_cons', findRel_cons', findRel_cons']
  generalize n.children = l
  induction l generalizing a with
  | nil => simp
  | cons m l ih =>
    rw [List.foldl_cons, ih, List.flatMap_cons, List.flatMap_cons, List.flatMap_cons]
    unfold scChild
    by_cases hm : m.tag = c!"energy"
    · rw [if_pos hm, if_pos (selects_t.2 hm), if_pos (selects_t.2 hm), if_pos (selects_t.2 hm), foldl_scItem, findRel_singleton, findRel_singleton, findRel_singleton]
      simp
    · have := selects_false (s := t c!"energy") (n := m) fun hc => hm (selects_t.1 hc)
      rw [if_neg hm, this]
      simp

/-- An electronic step. -/
theorem run_scstep (kb : Bool) (a : Acc) (p : Option Node) (n : Node) (h : ScstepOk n) : run kb (events p n) a.st = .ok (scAll a n).st := by
  have e1 : ∀ a : Acc, step kb (starts p n) a.st = .ok (scM a) := fun a => by unfold Acc.st scM; evc [h.1]
  have e2 : ∀ a : Acc, step kb (ends p n) (scM a) = .ok a.st := fun a => by unfold Acc.st scM; evc [h.1]
  rw [run_node, e1, Res.ok_bind, run_children kb scM (fun a c => .ok (scChild a c)) _ _ (fun c hc a => ?_), foldlM'_pure, Res.ok_bind, Res.ok_bind, e2, scChild_eq]
  rw [Res.ok_bind]
  unfold scChild
  by_cases ht : c.tag = c!"energy"
  · rw [if_pos ht]
    rcases h.2 c hc with ⟨_, hi⟩ | hq
    · have f1 : ∀ (e : Event) (a : Acc), e.node = c → step kb e (scM a) = .ok (scM a) := fun e a he => by
        have ht' : e.node.tag = c!"energy" := he ▸ ht
        unfold scM
        cases hs : e.start <;> evc [ht', hs]
      rw [run_node, f1 _ a rfl, Res.ok_bind, run_children kb scM (fun a c => .ok (scItem a c)) _ _ (fun i hi' a => by rw [run_item kb a _ i (hi i hi')]; rfl),
        foldlM'_pure, Res.ok_bind, Res.ok_bind, f1 _ _ rfl]
    · exact absurd ht (hq c (List.mem_cons_self ..)).1.ne.2.2.2.2.2.2.2.2.1
  · rw [if_neg ht]
    rcases h.2 c hc with ⟨hc, _⟩ | hq
    · exact absurd hc ht
    · have := run_events kb (fun _ : Unit => scM a) (fun u _ => .ok u) (events (some n) c)
        (fun e he _ => by rw [scQuiet_step kb a e (hq _ (mem_events c _ e he).1)]; rfl) ()
      rw [this, foldlM'_pure]
      rfl

/-- Inside the final energies. -/
def enM (a : Acc) : St := ⟨{ calcn := true, en := true, data3 := a.e0, data4 := a.efr, data5 := a.ewo }, a.o⟩

/-- What a final energy does. -/
def finalItem (a : Acc) (n : Node) : Res Acc :=
  match name n with
  | none => .raise .keyError
  | some v => match typeOf v with
    | none => .ok a
    | some ty => match n.text with
      | none => .raise .typeError
      | some x => Kpoints.toFloat x >>= fun y => match a.o.totens.get? a.o.num with
        | none => .raise .keyError
        | some m => .ok { a with o.totens := a.o.totens.set a.o.num { m with final := m.final.set ty (some y) } }

/-- The final energies. -/
def EnergyOk (n : Node) : Prop := n.tag = c!"energy" ∧ ∀ i ∈ n.children, Item i

theorem run_finalItem (kb : Bool) (a : Acc) (p : Option Node) (n : Node) (h : Item n) :
    run kb (events p n) (enM a) = (finalItem a n >>= fun a => .ok (enM a)) := by
  obtain ⟨h1, h2, v, h3⟩ := h
  have e2 : ∀ a : Acc, step kb (ends p n) (enM a) = .ok (enM a) := fun a => by unfold enM; evc [h1, h3]
  have e1 : step kb (starts p n) (enM a) = (finalItem a n >>= fun a => .ok (enM a)) := by
    unfold enM finalItem
    cases ht : typeOf v with
    | none => evc [h1, h3, ht]
    | some ty =>
      cases hx : n.text with
      | none => evc [h1, h3, ht, hx]
      | some x =>
        cases hy : Kpoints.toFloat x with
        | exit c => evc [h1, h3, ht, hx, hy]
        | raise r => evc [h1, h3, ht, hx, hy]
        | ok y =>
          cases hm : a.o.totens.get? a.o.num with
          | none => evc [h1, h3, ht, hx, hy, hm, storeFinal]
          | some m => evc [h1, h3, ht, hx, hy, hm, storeFinal]
  rw [run_node, e1, h2, eventsAll_nil]
  cases finalItem a n with
  | exit c => rfl
  | raise r => rfl
  | ok a => exact e2 a

/-- The final energies. -/
theorem run_energy (kb : Bool) (a : Acc) (p : Option Node) (n : Node) (h : EnergyOk n) :
    run kb (events p n) a.st = (Res.foldlM' finalItem a n.children >>= fun a => .ok a.st) := by
  have e1 : step kb (starts p n) a.st = .ok (enM a) := by unfold Acc.st enM; evc [h.1]
  rw [run_node, e1, Res.ok_bind, run_children kb enM finalItem _ _ (fun c hc a => run_finalItem kb a _ c (h.2 c hc))]
  cases Res.foldlM' finalItem a n.children with
  | exit c => rfl
  | raise x => rfl
  | ok a =>
    simp only [Res.ok_bind]
    unfold Acc.st enM
    evc [h.1]

/-! ### eigenvalues -/

/-- Inside the eigenvalues. -/
def eigM (a : Acc) (x y : Bool) (d1 d2 : List Node) : St :=
  ⟨{ calcn := true, eig := true, eig1 := x, eig2 := y, data := d1, data2 := d2, data3 := a.e0, data4 := a.efr, data5 := a.ewo }, a.o⟩

theorem eig_mode (kb : Bool) (a : Acc) : SpinMode kb c!"spin 1" c!"spin 2" (eigM a) where
  set e x y d1 d2 ht := by unfold eigM; cases hs : e.start <;> evc [ht, hs]
  row e x y d1 d2 ht := by unfold eigM; cases hs : e.start <;> evc [ht, hs]
  other e x y d1 d2 ht := by unfold eigM; rcases ht with ht | ht <;> cases hs : e.start <;> evc [ht, hs]

/-- The rows of one spin channel below an element. -/
def spinRows (n : Node) (w k : Nat) (s : Str) : List Node := findRel n (t c!"array" :: t c!"set" :: spinPath w k s)

/-- What the eigenvalues do. -/
def eigAll (kb : Bool) (a : Acc) (n : Node) : Res Acc :=
  lenOf a.o.kpoints >>= fun nk => extractEigenvalues a.o.params kb (spinRows n 0 1 c!"spin 1") (orNone (spinRows n 0 1 c!"spin 2")) nk >>= fun r =>
  .ok { a with o.eigenvalues := some r.1, o.occupancies := r.2 }

/-- The eigenvalues: not interpolated, arrays of rows for each spin and k-point. -/
def EigenvaluesOk (n : Node) : Prop := n.tag = c!"eigenvalues" ∧ comment n ≠ some c!"interpolated" ∧ TableOk c!"spin 1" c!"spin 2" 0 1 n

/-- The eigenvalues. -/
theorem run_eigenvalues (kb : Bool) (a : Acc) (p : Option Node) (n : Node) (h : EigenvaluesOk n) :
    run kb (events p n) a.st = (eigAll kb a n >>= fun a => .ok a.st) := by
  obtain ⟨h1, h2, h3⟩ := h
  have e1 : step kb (starts p n) a.st = .ok (eigM a false false [] []) := by unfold Acc.st eigM; evc [h1, h2]
  rw [run_node, e1, Res.ok_bind, run_table (eig_mode kb a) (by decide) 0 1 n h3
    (fun e d1 d2 ht g1 g2 => by unfold eigM; cases hs : e.start <;> evc [ht, hs, g1, g2]), Res.ok_bind]
  show step kb _ (eigM a false false (spinRows n 0 1 c!"spin 1") (spinRows n 0 1 c!"spin 2")) = _
  unfold eigAll
  generalize spinRows n 0 1 c!"spin 1" = l1
  generalize spinRows n 0 1 c!"spin 2" = l2
  unfold Acc.st eigM
  cases hl : lenOf a.o.kpoints with
  | exit c => evc [h1, h2, hl, eigEnd]
  | raise x => evc [h1, h2, hl, eigEnd]
  | ok nk =>
    simp only [Res.ok_bind]
    cases hr : extractEigenvalues a.o.params kb l1 (orNone l2) nk with
    | exit c => evc [h1, h2, hl, hr, eigEnd]
    | raise x => evc [h1, h2, hl, hr, eigEnd]
    | ok r => evc [h1, h2, hl, hr, eigEnd]

end Verif.VasprunEvent
