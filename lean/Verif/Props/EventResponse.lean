import Verif.Props.EventDos
/-! # The event driven parser on projections, response functions and special eigenvalues of an ionic step -/
set_option autoImplicit false
namespace Verif.VasprunEvent
open Verif Verif.Utils Verif.Xml Verif.Vasprun

/-! ### Born charges -/

/-- Inside the Born charges. -/
def bornM (a : Acc) (d : List Node) : St := ⟨{ calcn := true, born := true, data := d, data3 := a.e0, data4 := a.efr, data5 := a.ewo }, a.o⟩

/-- The Born charges: rows in sets, and descriptions. -/
structure BornOk (n : Node) : Prop where
  tag : n.tag = c!"array"
  named : name n = some c!"born_charges"
  quiet : ∀ m ∈ below n, Quiet m
  rows : (below n).filter (hasTag c!"v") = findRel n [t c!"set", t c!"v"]

theorem born_step (kb : Bool) (a : Acc) (d : List Node) (e : Event) (h : Quiet e.node) :
    step kb e (bornM a d) = .ok (bornM a (if e.start && hasTag c!"v" e.node then d ++ [e.node] else d)) := by
  obtain ⟨h1, h2, h3, h4, h5, h6, h7, h8, h9, h10, h11, h12, h13, h14⟩ := h.ne
  unfold bornM hasTag
  by_cases hv : e.node.tag = c!"varray"
  · obtain ⟨v, g1, g2, g3⟩ := h.2.2 hv
    cases hs : e.start <;> evc [hv, hs, g1, g2, g3]
  · by_cases ha : e.node.tag = c!"array"
    · obtain ⟨g1, g2⟩ := h.2.1 ha
      cases hs : e.start <;> evc [ha, hs, g1, g2]
    · by_cases hr : e.node.tag = c!"v"
      · cases hs : e.start <;> evc [hr, hs]
      · cases hs : e.start <;> evc [h1, h2, h3, h4, h5, h6, h7, h8, h9, h10, h11, h12, h13, h14, hv, ha, hr, hs]

/-- What the Born charges do. -/
def bornAll (a : Acc) (n : Node) : Res Acc :=
  match a.o.species with
  | none => .exit 501
  | some sp => convert2D (findRel n [t c!"set", t c!"v"]) 3 >>= fun d => split sp.length d >>= fun b => .ok { a with o.born := some b }

theorem run_born (kb : Bool) (a : Acc) (p : Option Node) (n : Node) (h : BornOk n) : run kb (events p n) a.st = (bornAll a n >>= fun a => .ok a.st) := by
  have h1 := h.tag
  have h2 := h.named
  have e1 : step kb (starts p n) a.st = .ok (bornM a []) := by unfold Acc.st bornM; evc [h1, h2]
  rw [run_node, e1, Res.ok_bind, run_events kb (bornM a) (fun d e => .ok (if e.start && hasTag c!"v" e.node then d ++ [e.node] else d)) _
    (fun e he d => by rw [born_step kb a d e (h.quiet _ (by rw [below_eq]; exact (mem_eventsAll _ _ e he).1))]; rfl), foldlM'_pure, foldl_collect,
    started_eventsAll, ← below_eq, h.rows]
  simp only [Res.ok_bind, List.nil_append]
  unfold bornAll
  generalize findRel n [t c!"set", t c!"v"] = l
  unfold Acc.st bornM
  cases hsp : a.o.species with
  | none => evc [h1, h2, numAtoms, hsp]
  | some sp =>
    cases hd : convert2D l 3 with
    | exit c => evc [h1, h2, hd, numAtoms, hsp]
    | raise x => evc [h1, h2, hd, numAtoms, hsp]
    | ok d =>
      cases hb : split sp.length d <;> evc [h1, h2, hd, numAtoms, hsp, hb]

/-! ### dielectric functions -/

/-- Inside the dielectric functions. -/
def dielM (a : Acc) (d : List Node) : St := ⟨{ calcn := true, diel := true, data := d, data3 := a.e0, data4 := a.efr, data5 := a.ewo }, a.o⟩

/-- The rows of the imaginary or real part. -/
def dielPart (n : Node) (part : Str) : List Node := findRel n [t part, t c!"array", t c!"set", t c!"r"]

/-- The dielectric functions: first the rows of the imaginary part, then those of the real part. -/
structure DielOk (n : Node) : Prop where
  tag : n.tag = c!"dielectricfunction"
  quiet : ∀ m ∈ below n, Quiet m
  rows : (below n).filter (hasTag c!"r") = dielPart n c!"imag" ++ dielPart n c!"real"

theorem diel_step (kb : Bool) (a : Acc) (d : List Node) (e : Event) (h : Quiet e.node) :
    step kb e (dielM a d) = .ok (dielM a (if e.start && hasTag c!"r" e.node then d ++ [e.node] else d)) := by
  obtain ⟨h1, h2, h3, h4, h5, h6, h7, h8, h9, h10, h11, h12, h13, h14⟩ := h.ne
  unfold dielM hasTag
  by_cases hv : e.node.tag = c!"varray"
  · obtain ⟨v, g1, g2, g3⟩ := h.2.2 hv
    cases hs : e.start <;> evc [hv, hs, g1, g2, g3]
  · by_cases ha : e.node.tag = c!"array"
    · obtain ⟨g1, g2⟩ := h.2.1 ha
      cases hs : e.start <;> evc [ha, hs, g1, g2]
    · by_cases hr : e.node.tag = c!"r"
      · cases hs : e.start <;> evc [hr, hs]
      · cases hs : e.start <;> evc [h1, h2, h3, h4, h5, h6, h7, h8, h9, h10, h11, h12, h13, h14, hv, ha, hr, hs]

/-- What rows of dielectric functions do. -/
def dielOf (l : List Node) : Res EDiel :=
  convert2D l 7 >>= fun d => split 2 d >>= fun h => match h with
    | [x, y] => .ok ⟨tableColumn 0 x, x.map (List.drop 1), y.map (List.drop 1)⟩
    | _ => .raise .valueError

/-- What the dielectric functions do. -/
def dielAll (a : Acc) (n : Node) : Res Acc := dielOf (dielPart n c!"imag" ++ dielPart n c!"real") >>= fun x => .ok { a with o.dielectrics := some x }

theorem run_diel (kb : Bool) (a : Acc) (p : Option Node) (n : Node) (h : DielOk n) : run kb (events p n) a.st = (dielAll a n >>= fun a => .ok a.st) := by
  have h1 := h.tag
  have e1 : step kb (starts p n) a.st = .ok (dielM a []) := by unfold Acc.st dielM; evc [h1]
  rw [run_node, e1, Res.ok_bind, run_events kb (dielM a) (fun d e => .ok (if e.start && hasTag c!"r" e.node then d ++ [e.node] else d)) _
    (fun e he d => by rw [diel_step kb a d e (h.quiet _ (by rw [below_eq]; exact (mem_eventsAll _ _ e he).1))]; rfl), foldlM'_pure, foldl_collect,
    started_eventsAll, ← below_eq, h.rows]
  simp only [Res.ok_bind, List.nil_append]
  unfold dielAll dielOf
  generalize dielPart n c!"imag" ++ dielPart n c!"real" = l
  unfold Acc.st dielM
  cases hd : convert2D l 7 with
  | exit c => evc [h1, hd, dielEnd]
  | raise x => evc [h1, hd, dielEnd]
  | ok d =>
    cases hb : split 2 d with
    | exit c => evc [h1, hd, hb, dielEnd]
    | raise x => evc [h1, hd, hb, dielEnd]
    | ok hs =>
      match hs with
      | [] => evc [h1, hd, hb, dielEnd]
      | [x] => evc [h1, hd, hb, dielEnd]
      | [x, y] => evc [h1, hd, hb, dielEnd]
      | x :: y :: z :: r => evc [h1, hd, hb, dielEnd]

/-! ### projections -/

/-- Inside the eigenvalues in front of the projections. -/
def projEigM (a : Acc) (x y : Bool) (d1 d2 : List Node) : St :=
  ⟨{ calcn := true, proj := true, eig := true, eig1 := x, eig2 := y, data := d1, data2 := d2, data3 := a.e0, data4 := a.efr, data5 := a.ewo }, a.o⟩
/-- Inside the projections. -/
def projM (a : Acc) (x y : Bool) (d1 d2 : List Node) : St :=
  ⟨{ calcn := true, proj := true, eproj := true, eproj1 := x, eproj2 := y, data := d1, data2 := d2, data3 := a.e0, data4 := a.efr, data5 := a.ewo }, a.o⟩

theorem projEig_mode (kb : Bool) (a : Acc) : SpinMode kb c!"spin 1" c!"spin 2" (projEigM a) where
  set e x y d1 d2 ht := by unfold projEigM; cases hs : e.start <;> evc [ht, hs, projRowsOf]
  row e x y d1 d2 ht := by unfold projEigM; cases hs : e.start <;> evc [ht, hs, projRowsOf]
  other e x y d1 d2 ht := by unfold projEigM; rcases ht with ht | ht <;> cases hs : e.start <;> evc [ht, hs, projRowsOf]

theorem proj_mode (kb : Bool) (a : Acc) : SpinMode kb c!"spin1" c!"spin2" (projM a) where
  set e x y d1 d2 ht := by unfold projM; cases hs : e.start <;> evc [ht, hs, projRowsOf]
  row e x y d1 d2 ht := by unfold projM; cases hs : e.start <;> evc [ht, hs, projRowsOf]
  other e x y d1 d2 ht := by unfold projM; rcases ht with ht | ht <;> cases hs : e.start <;> evc [ht, hs, projRowsOf]

/-- Projections: eigenvalues, then one array with rows for each spin, k-point and band. -/
structure ProjectedOk (n e arr : Node) : Prop where
  tag : n.tag = c!"projected"
  parts : n.children = [e, arr]
  eigen : EigenvaluesOk e
  array : ArrayOk c!"spin1" c!"spin2" 0 2 arr

/-- What the array of projections does. -/
def projArray (kb : Bool) (a : Acc) (n : Node) : Res Acc :=
  extractProjectors a.o.params kb a.o.species a.o.kpoints (spinRows n 0 2 c!"spin1") (orNone (spinRows n 0 2 c!"spin2")) >>= fun r =>
  .ok { a with o.projectors := some r }

/-- What the projections do. -/
def projAll (kb : Bool) (a : Acc) (n : Node) : Res Acc :=
  match n.children with
  | e :: _ => eigAll kb a e >>= fun a => projArray kb a n
  | _ => .ok a

theorem run_projected (kb : Bool) (a : Acc) (p : Option Node) (n e arr : Node) (h : ProjectedOk n e arr) :
    run kb (events p n) a.st = (projAll kb a n >>= fun a => .ok a.st) := by
  have h1 := h.tag
  obtain ⟨g1, g2, g3⟩ := h.eigen
  obtain ⟨k1, k2, k3, _⟩ := h.array
  have e1 : step kb (starts p n) a.st = .ok ⟨{ calcn := true, proj := true, data3 := a.e0, data4 := a.efr, data5 := a.ewo }, a.o⟩ := by
    unfold Acc.st; evc [h1, projRowsOf]
  have e2 : step kb (starts (some n) e) ⟨{ calcn := true, proj := true, data3 := a.e0, data4 := a.efr, data5 := a.ewo }, a.o⟩ = .ok (projEigM a false false [] []) := by
    unfold projEigM; evc [g1, g2, projRowsOf]
  have hsr : ∀ s, spinRows n 0 2 s = findRel arr (t c!"set" :: spinPath 0 2 s) := fun s => by
    unfold spinRows
    have f1 : (t c!"array").selects e = false := selects_false fun hc => absurd (g1.symm.trans (selects_t.1 hc)) (by decide)
    rw [findRel_cons', h.parts, List.flatMap_cons, List.flatMap_cons, if_pos (selects_t.2 k1), f1]
    simp
  unfold projAll projArray
  rw [hsr, hsr, run_node, e1, Res.ok_bind, h.parts, eventsAll_cons, run_append, run_node, e2, Res.ok_bind, run_table (projEig_mode kb a) (by decide) 0 1 e g3
    (fun e d1 d2 ht g1 g2 => by unfold projEigM; cases hs : e.start <;> evc [ht, hs, g1, g2, projRowsOf]), Res.ok_bind]
  have e3 : step kb (ends (some n) e) (projEigM a false false (spinRows e 0 1 c!"spin 1") (spinRows e 0 1 c!"spin 2")) =
      (eigAll kb a e >>= fun a => .ok (projM a false false [] [])) := by
    unfold eigAll
    generalize spinRows e 0 1 c!"spin 1" = l1
    generalize spinRows e 0 1 c!"spin 2" = l2
    unfold projEigM projM
    cases hl : lenOf a.o.kpoints with
    | exit c => evc [g1, g2, hl, eigEnd, projRowsOf]
    | raise x => evc [g1, g2, hl, eigEnd, projRowsOf]
    | ok nk =>
      cases hr : extractEigenvalues a.o.params kb l1 (orNone l2) nk with
      | exit c => evc [g1, g2, hl, hr, eigEnd, projRowsOf]
      | raise x => evc [g1, g2, hl, hr, eigEnd, projRowsOf]
      | ok r => evc [g1, g2, hl, hr, eigEnd, projRowsOf]
  have e3' := e3
  unfold spinRows at e3'
  simp only [List.nil_append]
  rw [e3']
  cases eigAll kb a e with
  | exit c => rfl
  | raise x => rfl
  | ok a =>
    simp only [Res.ok_bind]
    have e4 : step kb (starts (some n) arr) (projM a false false [] []) = .ok (projM a false false [] []) := by
      unfold projM; evc [k1, k2, k3, projRowsOf]
    rw [eventsAll_cons, eventsAll_nil, List.append_nil, run_node, e4, Res.ok_bind, run_array (proj_mode kb a) (by decide) 0 2 arr h.array, Res.ok_bind]
    simp only [List.nil_append]
    generalize findRel arr (t c!"set" :: spinPath 0 2 c!"spin1") = l1
    generalize findRel arr (t c!"set" :: spinPath 0 2 c!"spin2") = l2
    unfold projM Acc.st
    cases hr : extractProjectors a.o.params kb a.o.species a.o.kpoints l1 (orNone l2) <;> evc [h1, k1, k2, k3, projRowsOf, projEnd, hr]

/-! ### Hessian and dynamical matrix -/

/-- Inside the dynamical matrix. -/
def dynM (a : Acc) : St := ⟨{ calcn := true, dyn := true, data3 := a.e0, data4 := a.efr, data5 := a.ewo }, a.o⟩
/-- While the rows of the Hessian are read. -/
def hessM (a : Acc) (d : List Node) : St := ⟨{ calcn := true, dyn := true, hess := true, data := d, data3 := a.e0, data4 := a.efr, data5 := a.ewo }, a.o⟩
/-- While the rows of the eigenvectors are read. -/
def vecM (a : Acc) (d : List Node) : St := ⟨{ calcn := true, dyn := true, dynEig := true, data := d, data3 := a.e0, data4 := a.efr, data5 := a.ewo }, a.o⟩

theorem hess_row (kb : Bool) (a : Acc) (d : List Node) (e : Event) (h : e.node.tag = c!"v" ∧ name e.node = none) :
    step kb e (hessM a d) = .ok (hessM a (if e.start && hasTag c!"v" e.node then d ++ [e.node] else d)) := by
  unfold hasTag hessM
  cases hs : e.start <;> evc [h.1, h.2, hs]

theorem vec_row (kb : Bool) (a : Acc) (d : List Node) (e : Event) (h : e.node.tag = c!"v" ∧ name e.node = none) :
    step kb e (vecM a d) = .ok (vecM a (if e.start && hasTag c!"v" e.node then d ++ [e.node] else d)) := by
  unfold hasTag vecM
  cases hs : e.start <;> evc [h.1, h.2, hs]

/-- An element of the dynamical matrix that is not read. -/
def DynQuiet (m : Node) : Prop := Quiet m ∧ name m ≠ some c!"eigenvalues" ∧ ¬ (m.tag = c!"varray" ∧ (name m = some c!"hessian" ∨ name m = some c!"eigenvectors"))

/-- A part of the dynamical matrix. -/
def DynPart (n : Node) : Prop :=
  (n.tag = c!"varray" ∧ (name n = some c!"hessian" ∨ name n = some c!"eigenvectors") ∧ VRows n) ∨
  (n.tag = c!"v" ∧ name n = some c!"eigenvalues" ∧ n.children = []) ∨ ∀ m ∈ n :: below n, DynQuiet m

/-- What a part of the dynamical matrix does. -/
def dynChild (a : Acc) (n : Node) : Res Acc :=
  if (tn c!"varray" c!"hessian").selects n then match a.o.species with
    | none => .exit 501
    | some sp => convert2D n.children (sp.length * 3) >>= fun x => .ok { a with o.hessian := some x }
  else if (tn c!"varray" c!"eigenvectors").selects n then match a.o.species with
    | none => .exit 501
    | some sp => convert2D n.children (sp.length * 3) >>= fun x => .ok { a with o.dynmat.eigenvectors := some x }
  else if (tn c!"v" c!"eigenvalues").selects n then convertArrayF n >>= fun x => .ok { a with o.dynmat.eigenvalues := some x }
  else .ok a

theorem dynQuiet_step (kb : Bool) (a : Acc) (e : Event) (h : DynQuiet e.node) : step kb e (dynM a) = .ok (dynM a) := by
  obtain ⟨h1, h2, h3, h4, h5, h6, h7, h8, h9, h10, h11, h12, h13, h14⟩ := h.1.ne
  have hn := h.2.1
  unfold dynM
  by_cases hv : e.node.tag = c!"varray"
  · obtain ⟨v, g1, g2, g3⟩ := h.1.2.2 hv
    have g4 : v ≠ c!"hessian" := fun hc => h.2.2 ⟨hv, .inl (by rw [g1, hc])⟩
    have g5 : v ≠ c!"eigenvectors" := fun hc => h.2.2 ⟨hv, .inr (by rw [g1, hc])⟩
    have g6 : v ≠ c!"eigenvalues" := fun hc => hn (by rw [g1, hc])
    cases hs : e.start <;> evc [hv, hs, g1, g2, g3, g4, g5, g6]
  · by_cases ha : e.node.tag = c!"array"
    · obtain ⟨g1, g2⟩ := h.1.2.1 ha
      cases hs : e.start <;> evc [ha, hs, g1, g2, hn]
    · cases hs : e.start <;> evc [h1, h2, h3, h4, h5, h6, h7, h8, h9, h10, h11, h12, h13, h14, hv, ha, hs, hn]

theorem run_dynPart (kb : Bool) (a : Acc) (p : Option Node) (n : Node) (h : DynPart n) :
    run kb (events p n) (dynM a) = (dynChild a n >>= fun a => .ok (dynM a)) := by
  unfold dynChild
  rcases h with ⟨ht, hn, hr⟩ | ⟨ht, hn, hc⟩ | h
  · rcases hn with hn | hn
    · have e1 : step kb (starts p n) (dynM a) = .ok (hessM a []) := by unfold dynM hessM; evc [ht, hn]
      rw [if_pos (selects_tn.2 ⟨ht, hn⟩), run_node, e1, Res.ok_bind, run_rows kb (hessM a) n hr _ (hess_row kb a), Res.ok_bind]
      unfold dynM hessM
      cases hsp : a.o.species with
      | none => evc [ht, hn, numAtoms, hsp]
      | some sp => cases hc : convert2D n.children (sp.length * 3) <;> evc [ht, hn, numAtoms, hsp, hc]
    · have e1 : step kb (starts p n) (dynM a) = .ok (vecM a []) := by unfold dynM vecM; evc [ht, hn]
      rw [if_neg (by rw [tn_ne (selects_tn.2 ⟨ht, hn⟩) (by decide)]; simp), if_pos (selects_tn.2 ⟨ht, hn⟩), run_node, e1, Res.ok_bind,
        run_rows kb (vecM a) n hr _ (vec_row kb a), Res.ok_bind]
      unfold dynM vecM
      cases hsp : a.o.species with
      | none => evc [ht, hn, numAtoms, hsp]
      | some sp => cases hc : convert2D n.children (sp.length * 3) <;> evc [ht, hn, numAtoms, hsp, hc]
  · have ns : ∀ w, (tn c!"varray" w).selects n = false := fun w => selects_false fun hc => absurd (ht.symm.trans (selects_tn.1 hc).1) (by decide)
    have hsee : asSeen (starts p n) = n := asSeen_eq rfl
    unfold starts at hsee
    rw [if_neg (by rw [ns]; simp), if_neg (by rw [ns]; simp), if_pos (selects_tn.2 ⟨ht, hn⟩), run_node, hc, eventsAll_nil]
    unfold dynM
    cases hx : convertArrayF n <;> evc [ht, hn, hx, hsee, run_nil]
  · obtain ⟨_, g1, g2⟩ := h n (List.mem_cons_self ..)
    rw [if_neg (fun hc => g2 ⟨(selects_tn.1 hc).1, .inl (selects_tn.1 hc).2⟩), if_neg (fun hc => g2 ⟨(selects_tn.1 hc).1, .inr (selects_tn.1 hc).2⟩),
      if_neg (fun hc => g1 (selects_tn.1 hc).2)]
    have := run_events kb (fun _ : Unit => dynM a) (fun u _ => .ok u) (events p n)
      (fun e he _ => by rw [dynQuiet_step kb a e (h _ (mem_events n p e he).1)]; rfl) ()
    rw [this, foldlM'_pure]
    rfl

/-- The dynamical matrix. -/
def DynmatOk (n : Node) : Prop := n.tag = c!"dynmat" ∧ name n ≠ some c!"eigenvalues" ∧ ∀ m ∈ n.children, DynPart m

/-- What the dynamical matrix does. -/
def dynAll (a : Acc) (n : Node) : Res Acc := Res.foldlM' dynChild a n.children >>= fun a => .ok { a with o.dynmatSet := true }

theorem run_dynmat (kb : Bool) (a : Acc) (p : Option Node) (n : Node) (h : DynmatOk n) : run kb (events p n) a.st = (dynAll a n >>= fun a => .ok a.st) := by
  obtain ⟨h1, h2, h3⟩ := h
  have e1 : step kb (starts p n) a.st = .ok (dynM a) := by unfold Acc.st dynM; evc [h1, h2]
  unfold dynAll
  rw [run_node, e1, Res.ok_bind, run_children kb dynM dynChild _ _ (fun c hc a => run_dynPart kb a _ c (h3 c hc))]
  cases Res.foldlM' dynChild a n.children with
  | exit c => rfl
  | raise x => rfl
  | ok a =>
    simp only [Res.ok_bind]
    unfold Acc.st dynM
    evc [h1, h2]

end Verif.VasprunEvent
