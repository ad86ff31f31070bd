import Verif.Props.EventResponse
/-! # The event driven parser on interpolated eigenvalues, eigenvelocities and densities of states -/
set_option autoImplicit false
namespace Verif.VasprunEvent
open Verif Verif.Utils Verif.Xml Verif.Vasprun

/-- Inside interpolated eigenvalues (or eigenvelocities). -/
def spM (v : Bool) (a : Acc) : St := ⟨{ calcn := true, eigS := !v, vel := v, data3 := a.e0, data4 := a.efr, data5 := a.ewo }, a.o⟩
/-- While the rows of their k-points are read. -/
def spKpM (v : Bool) (a : Acc) (d : List Node) : St :=
  ⟨{ calcn := true, eigS := !v, vel := v, kpS := true, data := d, data3 := a.e0, data4 := a.efr, data5 := a.ewo }, a.o⟩
/-- While the rows of their weights are read. -/
def spKpwM (v : Bool) (a : Acc) (d : List Node) : St :=
  ⟨{ calcn := true, eigS := !v, vel := v, kpwS := true, data := d, data3 := a.e0, data4 := a.efr, data5 := a.ewo }, a.o⟩
/-- While their rows are read. -/
def specM : Bool → Acc → Bool → Bool → List Node → List Node → St
  | false, a, x, y, d1, d2 =>
    ⟨{ calcn := true, eigS := true, eig1 := x, eig2 := y, data := d1, data2 := d2, data3 := a.e0, data4 := a.efr, data5 := a.ewo }, a.o⟩
  | true, a, x, y, d1, d2 =>
    ⟨{ calcn := true, vel := true, vel1 := x, vel2 := y, data := d1, data2 := d2, data3 := a.e0, data4 := a.efr, data5 := a.ewo }, a.o⟩

theorem spec_mode (kb v : Bool) (a : Acc) : SpinMode kb c!"spin 1" c!"spin 2" (specM v a) where
  set e x y d1 d2 ht := by cases v <;> unfold specM <;> cases hs : e.start <;> evc [ht, hs, specialStage, specialRows]
  row e x y d1 d2 ht := by cases v <;> unfold specM <;> cases hs : e.start <;> evc [ht, hs, specialStage, specialRows]
  other e x y d1 d2 ht := by
    cases v <;> unfold specM <;> rcases ht with ht | ht <;> cases hs : e.start <;> evc [ht, hs, specialStage, specialRows]

theorem spKp_row (kb v : Bool) (a : Acc) (d : List Node) (e : Event) (h : e.node.tag = c!"v" ∧ name e.node = none) :
    step kb e (spKpM v a d) = .ok (spKpM v a (if e.start && hasTag c!"v" e.node then d ++ [e.node] else d)) := by
  unfold hasTag spKpM
  cases v <;> cases hs : e.start <;> evc [h.1, h.2, hs, specialStage, specialRows]

theorem spKpw_row (kb v : Bool) (a : Acc) (d : List Node) (e : Event) (h : e.node.tag = c!"v" ∧ name e.node = none) :
    step kb e (spKpwM v a d) = .ok (spKpwM v a (if e.start && hasTag c!"v" e.node then d ++ [e.node] else d)) := by
  unfold hasTag spKpwM
  cases v <;> cases hs : e.start <;> evc [h.1, h.2, hs, specialStage, specialRows]

/-- An element among the k-points that is not read. -/
def SpQuiet (m : Node) : Prop := Quiet m ∧ m.tag ≠ c!"set" ∧ ¬ (m.tag = c!"varray" ∧ (name m = some c!"kpointlist" ∨ name m = some c!"weights"))

/-- A part of the k-points. -/
def SpPart (n : Node) : Prop :=
  (n.tag = c!"varray" ∧ (name n = some c!"kpointlist" ∨ name n = some c!"weights") ∧ VRows n) ∨ ∀ m ∈ n :: below n, SpQuiet m

/-- What a part of the k-points does. -/
def spChild (a : Acc) (n : Node) : Res Acc :=
  if (tn c!"varray" c!"kpointlist").selects n then convert2D n.children 3 >>= fun x => .ok { a with o.kpointsSpecific := some x }
  else if (tn c!"varray" c!"weights").selects n then convert1D n.children >>= fun x => .ok { a with o.kpointswSpecific := some x }
  else .ok a

theorem spQuiet_step (kb v : Bool) (a : Acc) (e : Event) (h : SpQuiet e.node) : step kb e (spM v a) = .ok (spM v a) := by
  obtain ⟨h1, h2, h3, h4, h5, h6, h7, h8, h9, h10, h11, h12, h13, h14⟩ := h.1.ne
  unfold spM
  by_cases hv : e.node.tag = c!"varray"
  · obtain ⟨w, g1, g2, g3⟩ := h.1.2.2 hv
    have g4 : w ≠ c!"kpointlist" := fun hc => h.2.2 ⟨hv, .inl (by rw [g1, hc])⟩
    have g5 : w ≠ c!"weights" := fun hc => h.2.2 ⟨hv, .inr (by rw [g1, hc])⟩
    cases v <;> cases hs : e.start <;> evc [hv, hs, g1, g2, g3, g4, g5, specialStage, specialRows]
  · by_cases ha : e.node.tag = c!"array"
    · obtain ⟨g1, g2⟩ := h.1.2.1 ha
      cases v <;> cases hs : e.start <;> evc [ha, hs, g1, g2, specialStage, specialRows]
    · have hset := h.2.1
      cases v <;> cases hs : e.start <;>
        evc [h1, h2, h3, h4, h5, h6, h7, h8, h9, h10, h11, h12, h13, h14, hv, ha, hset, hs, specialStage, specialRows]

theorem run_spPart (kb v : Bool) (a : Acc) (p : Option Node) (n : Node) (h : SpPart n) :
    run kb (events p n) (spM v a) = (spChild a n >>= fun a => .ok (spM v a)) := by
  unfold spChild
  rcases h with ⟨ht, hn, hr⟩ | h
  · rcases hn with hn | hn
    · have e1 : step kb (starts p n) (spM v a) = .ok (spKpM v a []) := by unfold spM spKpM; cases v <;> evc [ht, hn, specialStage, specialRows]
      rw [if_pos (selects_tn.2 ⟨ht, hn⟩), run_node, e1, Res.ok_bind, run_rows kb (spKpM v a) n hr _ (spKp_row kb v a), Res.ok_bind]
      unfold spM spKpM
      cases hc : convert2D n.children 3 <;> cases v <;> evc [ht, hn, hc, specialStage, specialRows]
    · have e1 : step kb (starts p n) (spM v a) = .ok (spKpwM v a []) := by unfold spM spKpwM; cases v <;> evc [ht, hn, specialStage, specialRows]
      rw [if_neg (by rw [tn_ne (selects_tn.2 ⟨ht, hn⟩) (by decide)]; simp), if_pos (selects_tn.2 ⟨ht, hn⟩), run_node, e1, Res.ok_bind,
        run_rows kb (spKpwM v a) n hr _ (spKpw_row kb v a), Res.ok_bind]
      unfold spM spKpwM
      cases hc : convert1D n.children <;> cases v <;> evc [ht, hn, hc, specialStage, specialRows]
  · have hs := (h n (List.mem_cons_self ..)).2.2
    rw [if_neg (fun hc => hs ⟨(selects_tn.1 hc).1, .inl (selects_tn.1 hc).2⟩), if_neg (fun hc => hs ⟨(selects_tn.1 hc).1, .inr (selects_tn.1 hc).2⟩)]
    have := run_events kb (fun _ : Unit => spM v a) (fun u _ => .ok u) (events p n)
      (fun e he _ => by rw [spQuiet_step kb v a e (h _ (mem_events n p e he).1)]; rfl) ()
    rw [this, foldlM'_pure]
    rfl

/-- Interpolated eigenvalues (or eigenvelocities): k-points, then a table. -/
structure SpecialOk (v : Bool) (n kp e : Node) : Prop where
  tag : n.tag = if v then c!"eigenvelocities" else c!"eigenvalues"
  comment : v = false → comment n = some c!"interpolated"
  parts : n.children = [kp, e]
  ktag : kp.tag = c!"kpoints"
  kparts : ∀ m ∈ kp.children, SpPart m
  etag : e.tag = c!"eigenvalues"
  ecomment : VasprunEvent.comment e ≠ some c!"interpolated"
  table : TableOk c!"spin 1" c!"spin 2" 0 1 e

/-- What the table does. -/
def specTable (kb v : Bool) (a : Acc) (e : Node) : Res Acc :=
  lenOf a.o.kpointsSpecific >>= fun nk =>
  if v then extractEigenvelocities a.o.params kb (spinRows e 0 1 c!"spin 1") (orNone (spinRows e 0 1 c!"spin 2")) nk >>= fun r =>
    .ok { a with o.eigenvelocities := some r }
  else extractEigenvalues a.o.params kb (spinRows e 0 1 c!"spin 1") (orNone (spinRows e 0 1 c!"spin 2")) nk >>= fun r =>
    .ok { a with o.eigenvaluesSpecific := some r.1 }

/-- What interpolated eigenvalues (or eigenvelocities) do. -/
def specAll (kb v : Bool) (a : Acc) (n : Node) : Res Acc :=
  match n.children with
  | [kp, e] => Res.foldlM' spChild a kp.children >>= fun a => specTable kb v a e
  | _ => .ok a

theorem run_special (kb v : Bool) (a : Acc) (p : Option Node) (n kp e : Node) (h : SpecialOk v n kp e) :
    run kb (events p n) a.st = (specAll kb v a n >>= fun a => .ok a.st) := by
  have h1 := h.tag
  have h2 := h.comment
  have k1 := h.ktag
  have g1 := h.etag
  have g2 := h.ecomment
  have e1 : step kb (starts p n) a.st = .ok (spM v a) := by
    unfold Acc.st spM
    cases v with
    | false => have h2 := h2 rfl; evc [h1, h2, specialStage, specialRows]
    | true => evc [h1, specialStage, specialRows]
  have kq : ∀ (x : Event) (a : Acc), x.node = kp → step kb x (spM v a) = .ok (spM v a) := fun x a hx => by
    have k1' : x.node.tag = c!"kpoints" := hx ▸ k1
    unfold spM
    cases v <;> cases hs : x.start <;> evc [k1', hs, specialStage, specialRows]
  unfold specAll
  rw [run_node, e1, Res.ok_bind, h.parts, eventsAll_cons, run_append, run_node, kq (starts (some n) kp) a rfl, Res.ok_bind,
    run_children kb (spM v) spChild _ _ (fun c hc a => run_spPart kb v a _ c (h.kparts c hc))]
  simp only []
  cases Res.foldlM' spChild a kp.children with
  | exit c => rfl
  | raise x => rfl
  | ok a =>
    simp only [Res.ok_bind]
    have e2 : step kb (starts (some n) e) (spM v a) = .ok (specM v a false false [] []) := by
      cases v <;> unfold spM specM <;> evc [g1, g2, specialStage, specialRows]
    rw [kq (ends (some n) kp) a rfl, Res.ok_bind, eventsAll_cons, eventsAll_nil, List.append_nil, run_node, e2, Res.ok_bind,
      run_table (spec_mode kb v a) (by decide) 0 1 e h.table
      (fun e d1 d2 ht g1 g2 => by cases v <;> unfold specM <;> cases hs : e.start <;> evc [ht, hs, g1, g2, specialStage, specialRows]), Res.ok_bind]
    simp only [List.nil_append]
    unfold specTable spinRows
    generalize findRel e (t c!"array" :: t c!"set" :: spinPath 0 1 c!"spin 1") = l1
    generalize findRel e (t c!"array" :: t c!"set" :: spinPath 0 1 c!"spin 2") = l2
    cases v with
    | true =>
      simp only [if_true]
      have e3 : step kb (ends (some n) e) (specM true a false false l1 l2) = .ok (specM true a false false l1 l2) := by
        unfold specM; evc [g1, g2, specialStage, specialRows]
      rw [e3, Res.ok_bind]
      unfold specM Acc.st
      cases hl : lenOf a.o.kpointsSpecific with
      | exit c => evc [h1, specialStage, specialRows, velEnd, hl]
      | raise x => evc [h1, specialStage, specialRows, velEnd, hl]
      | ok nk =>
        cases hr : extractEigenvelocities a.o.params kb l1 (orNone l2) nk <;> evc [h1, specialStage, specialRows, velEnd, hl, hr]
    | false =>
      simp only [Bool.false_eq_true, if_false]
      have h2 := h2 rfl
      have e4 : ∀ a : Acc, step kb (ends p n) a.st = .ok a.st := fun a => by unfold Acc.st; evc [h1, h2, specialStage, specialRows]
      have e3 : step kb (ends (some n) e) (specM false a false false l1 l2) = (lenOf a.o.kpointsSpecific >>= fun nk =>
          extractEigenvalues a.o.params kb l1 (orNone l2) nk >>= fun r => .ok ({ a with o.eigenvaluesSpecific := some r.1 } : Acc).st) := by
        unfold specM Acc.st
        cases hl : lenOf a.o.kpointsSpecific with
        | exit c => evc [g1, g2, specialStage, specialRows, eigSEnd, hl]
        | raise x => evc [g1, g2, specialStage, specialRows, eigSEnd, hl]
        | ok nk =>
          cases hr : extractEigenvalues a.o.params kb l1 (orNone l2) nk <;> evc [g1, g2, specialStage, specialRows, eigSEnd, hl, hr]
      rw [e3]
      cases lenOf a.o.kpointsSpecific with
      | exit c => rfl
      | raise x => rfl
      | ok nk =>
        simp only [Res.ok_bind]
        cases extractEigenvalues a.o.params kb l1 (orNone l2) nk with
        | exit c => rfl
        | raise x => rfl
        | ok r => exact e4 _

/-! ### interpolated density of states -/

/-- Inside an interpolated density of states. -/
def dosSM (a : Acc) (s : DosAcc) (x y : Bool) (d1 d2 : List Node) : St :=
  ⟨{ calcn := true, dosS := true, dosS1 := x, dosS2 := y, data := d1, data2 := d2, data3 := a.e0, data4 := a.efr, data5 := a.ewo, data6 := s.fermi,
     part1 := s.p1, part2 := s.p2 }, a.o⟩

theorem dosS_mode (kb : Bool) (a : Acc) (s : DosAcc) : SpinMode kb c!"spin 1" c!"spin 2" (dosSM a s) where
  set e x y d1 d2 ht := by unfold dosSM; cases hs : e.start <;> evc [ht, hs]
  row e x y d1 d2 ht := by unfold dosSM; cases hs : e.start <;> evc [ht, hs]
  other e x y d1 d2 ht := by unfold dosSM; rcases ht with ht | ht <;> cases hs : e.start <;> evc [ht, hs]

theorem run_dosSChild (kb : Bool) (a : Acc) (s : DosAcc) (p : Option Node) (n : Node) (h : DosPartOk n) :
    run kb (events p n) (dosSM a s false false [] []) = (dosChild a.o.species s n >>= fun s => .ok (dosSM a s false false [] [])) := by
  have arr : ∀ (s : DosAcc) e d1 d2, e.node.tag = c!"array" → name e.node ≠ some c!"atoms" → name e.node ≠ some c!"born_charges" →
      step kb e (dosSM a s false false d1 d2) = .ok (dosSM a s false false d1 d2) := fun s e d1 d2 ht g1 g2 => by
    unfold dosSM; cases hs : e.start <;> evc [ht, hs, g1, g2]
  unfold dosChild
  rcases h with ⟨h1, h2, v, h3⟩ | ⟨h1, h2⟩ | ⟨h1, h2⟩
  · rw [if_neg (fun hc => absurd (h1.symm.trans hc) (by decide)), if_neg (fun hc => absurd (h1.symm.trans hc) (by decide)), run_node, h2, eventsAll_nil]
    unfold dosSM
    by_cases hv : v = c!"efermi"
    · subst hv
      evc [h1, h3, run_nil]
    · evc [h1, h3, run_nil, hv]
  · have e1 : step kb (starts p n) (dosSM a s false false [] []) = .ok (dosSM a s false false [] []) := by unfold dosSM; evc [h1]
    rw [if_pos h1, run_node, e1, Res.ok_bind, run_table (dosS_mode kb a s) (by decide) 0 0 n h2 (arr s), Res.ok_bind]
    show step kb _ (dosSM a s false false (spinRows n 0 0 c!"spin 1") (spinRows n 0 0 c!"spin 2")) = _
    generalize spinRows n 0 0 c!"spin 1" = l1
    generalize spinRows n 0 0 c!"spin 2" = l2
    unfold dosSM totalOf
    cases hd : convert2D l1 3 with
    | exit c => evc [h1, hd, dosTotal]
    | raise x => evc [h1, hd, dosTotal]
    | ok d =>
      cases l2 with
      | nil => evc [h1, hd, dosTotal]
      | cons z zs =>
        cases hd2 : convert2D (z :: zs) 3 with
        | exit c => evc [h1, hd, hd2, dosTotal]
        | raise x => evc [h1, hd, hd2, dosTotal]
        | ok d2 => evc [h1, hd, hd2, dosTotal]
  · have e1 : step kb (starts p n) (dosSM a s false false [] []) = .ok (dosSM a s false false [] []) := by unfold dosSM; evc [h1]
    rw [if_neg (fun hc => absurd (h1.symm.trans hc) (by decide)), if_pos h1, run_node, e1, Res.ok_bind, run_table (dosS_mode kb a s) (by decide) 1 0 n h2 (arr s), Res.ok_bind]
    show step kb _ (dosSM a s false false (spinRows n 1 0 c!"spin 1") (spinRows n 1 0 c!"spin 2")) = _
    generalize spinRows n 1 0 c!"spin 1" = l1
    generalize spinRows n 1 0 c!"spin 2" = l2
    unfold dosSM partOf
    cases hsp : a.o.species with
    | none => evc [h1, dosPartial, numAtoms, hsp]
    | some sp =>
      cases hd : partialDos sp.length l1 with
      | exit c => evc [h1, hd, dosPartial, numAtoms, hsp]
      | raise x => evc [h1, hd, dosPartial, numAtoms, hsp]
      | ok d =>
        cases l2 with
        | nil => evc [h1, hd, dosPartial, numAtoms, hsp]
        | cons z zs =>
          cases hd2 : partialDos sp.length (z :: zs) with
          | exit c => evc [h1, hd, hd2, dosPartial, numAtoms, hsp]
          | raise x => evc [h1, hd, hd2, dosPartial, numAtoms, hsp]
          | ok d2 => evc [h1, hd, hd2, dosPartial, numAtoms, hsp]

/-- An interpolated density of states. -/
def DosSOk (n : Node) : Prop := n.tag = c!"dos" ∧ comment n = some c!"interpolated" ∧ ∀ m ∈ n.children, DosPartOk m

/-- What an interpolated density of states does. -/
def dosSAll (a : Acc) (n : Node) : Res Acc :=
  Res.foldlM' (dosChild a.o.species) {} n.children >>= fun s => fermiOf s.fermi >>= fun f => joinDos a.o.dosDict s.p1 s.p2 f >>= fun d =>
  .ok { a with o.dosDict := d, o.dosSpecificSet := true }

/-- An interpolated density of states. -/
theorem run_dosS (kb : Bool) (a : Acc) (p : Option Node) (n : Node) (h : DosSOk n) :
    run kb (events p n) a.st = (dosSAll a n >>= fun a => .ok a.st) := by
  obtain ⟨h1, h2, h3⟩ := h
  have e1 : step kb (starts p n) a.st = .ok (dosSM a {} false false [] []) := by unfold Acc.st dosSM; evc [h1, h2]
  unfold dosSAll
  rw [run_node, e1, Res.ok_bind, run_children kb (fun s => dosSM a s false false [] []) (dosChild a.o.species) _ _
    (fun c hc s => run_dosSChild kb a s _ c (h3 c hc))]
  cases Res.foldlM' (dosChild a.o.species) {} n.children with
  | exit c => rfl
  | raise x => rfl
  | ok s =>
    simp only [Res.ok_bind]
    unfold Acc.st dosSM
    cases hf : fermiOf s.fermi with
    | exit c => evc [h1, h2, hf, dosEnd]
    | raise x => evc [h1, h2, hf, dosEnd]
    | ok f =>
      simp only [Res.ok_bind]
      cases hj : joinDos a.o.dosDict s.p1 s.p2 f with
      | exit c => evc [h1, h2, hf, hj, dosEnd]
      | raise x => evc [h1, h2, hf, hj, dosEnd]
      | ok d => evc [h1, h2, hf, hj, dosEnd]

end Verif.VasprunEvent
