import Verif.Props.EventStep
/-! # The event driven parser on the densities of states of an ionic step -/
set_option autoImplicit false
namespace Verif.VasprunEvent
open Verif Verif.Utils Verif.Xml Verif.Vasprun

/-- What is known while a density of states is read: the Fermi levels and the parts found. -/
structure DosAcc where
  fermi : List Node := []
  p1 : DosMap := {}
  p2 : DosMap := {}

/-- Inside a density of states. -/
def dosM (a : Acc) (s : DosAcc) (x y : Bool) (d1 d2 : List Node) : St :=
  ⟨{ calcn := true, dos := true, dos1 := x, dos2 := y, data := d1, data2 := d2, data3 := a.e0, data4 := a.efr, data5 := a.ewo, data6 := s.fermi,
     part1 := s.p1, part2 := s.p2 }, a.o⟩

theorem dos_mode (kb : Bool) (a : Acc) (s : DosAcc) : SpinMode kb c!"spin 1" c!"spin 2" (dosM a s) where
  set e x y d1 d2 ht := by unfold dosM; cases hs : e.start <;> evc [ht, hs]
  row e x y d1 d2 ht := by unfold dosM; cases hs : e.start <;> evc [ht, hs]
  other e x y d1 d2 ht := by unfold dosM; rcases ht with ht | ht <;> cases hs : e.start <;> evc [ht, hs]

/-- The total part from rows. -/
def totalOf (s : DosAcc) (l1 l2 : List Node) : Res DosAcc :=
  convert2D l1 3 >>= fun d =>
  (if l2.isEmpty then .ok s.p2
   else convert2D l2 3 >>= fun d2 =>
     .ok { s.p2 with total := some (tableColumn 1 d2), integrated := some (tableColumn 2 d2), partials := some none }) >>= fun p2 =>
  .ok { s with
    p1 := { s.p1 with energy := some (tableColumn 0 d), total := some (tableColumn 1 d), integrated := some (tableColumn 2 d), partials := some none },
    p2 := p2 }

/-- The partial part from rows. -/
def partOf (species : Option (List Nat)) (s : DosAcc) (l1 l2 : List Node) : Res DosAcc :=
  match species with
  | none => .exit 501
  | some sp => partialDos sp.length l1 >>= fun d =>
    (if l2.isEmpty then .ok s.p2 else partialDos sp.length l2 >>= fun d2 => .ok { s.p2 with partials := some (some d2) }) >>= fun p2 =>
    .ok { s with p1 := { s.p1 with partials := some (some d) }, p2 := p2 }

/-- A part of a density of states. -/
def DosPartOk (n : Node) : Prop :=
  Item n ∨ (n.tag = c!"total" ∧ TableOk c!"spin 1" c!"spin 2" 0 0 n) ∨ (n.tag = c!"partial" ∧ TableOk c!"spin 1" c!"spin 2" 1 0 n)

/-- What a part of a density of states does. -/
def dosChild (species : Option (List Nat)) (s : DosAcc) (n : Node) : Res DosAcc :=
  if n.tag = c!"total" then totalOf s (spinRows n 0 0 c!"spin 1") (spinRows n 0 0 c!"spin 2")
  else if n.tag = c!"partial" then partOf species s (spinRows n 1 0 c!"spin 1") (spinRows n 1 0 c!"spin 2")
  else .ok { s with fermi := if name n = some c!"efermi" then s.fermi ++ [n] else s.fermi }

theorem run_dosChild (kb : Bool) (a : Acc) (s : DosAcc) (p : Option Node) (n : Node) (h : DosPartOk n) :
    run kb (events p n) (dosM a s false false [] []) = (dosChild a.o.species s n >>= fun s => .ok (dosM a s false false [] [])) := by
  have arr : ∀ (s : DosAcc) e d1 d2, e.node.tag = c!"array" → name e.node ≠ some c!"atoms" → name e.node ≠ some c!"born_charges" →
      step kb e (dosM a s false false d1 d2) = .ok (dosM a s false false d1 d2) := fun s e d1 d2 ht g1 g2 => by
    unfold dosM; cases hs : e.start <;> evc [ht, hs, g1, g2]
  unfold dosChild
  rcases h with ⟨h1, h2, v, h3⟩ | ⟨h1, h2⟩ | ⟨h1, h2⟩
  · rw [if_neg (fun hc => absurd (h1.symm.trans hc) (by decide)), if_neg (fun hc => absurd (h1.symm.trans hc) (by decide)), run_node, h2, eventsAll_nil]
    unfold dosM
    by_cases hv : v = c!"efermi"
    · subst hv
      evc [h1, h3, run_nil]
    · evc [h1, h3, run_nil, hv]
  · have e1 : step kb (starts p n) (dosM a s false false [] []) = .ok (dosM a s false false [] []) := by unfold dosM; evc [h1]
    rw [if_pos h1, run_node, e1, Res.ok_bind, run_table (dos_mode kb a s) (by decide) 0 0 n h2 (arr s), Res.ok_bind]
    show step kb _ (dosM a s false false (spinRows n 0 0 c!"spin 1") (spinRows n 0 0 c!"spin 2")) = _
    generalize spinRows n 0 0 c!"spin 1" = l1
    generalize spinRows n 0 0 c!"spin 2" = l2
    unfold dosM totalOf
    cases hd : convert2D l1 3 with
    | exit c => evc [h1, hd, dosTotal]
    | raise x => evc [h1, hd, dosTotal]
    | ok d =>
      cases l2 with
      | nil => evc [h1, hd, dosTotal]
      | cons z zs =>
        cases hd2 : convert2D (z :: zs) 3 with
        | exit c => evc [h1, hd, hd2, dosTotal]
        | raise x => evc [h1, hd, hd2, dosTotal]
        | ok d2 => evc [h1, hd, hd2, dosTotal]
  · have e1 : step kb (starts p n) (dosM a s false false [] []) = .ok (dosM a s false false [] []) := by unfold dosM; evc [h1]
    rw [if_neg (fun hc => absurd (h1.symm.trans hc) (by decide)), if_pos h1, run_node, e1, Res.ok_bind, run_table (dos_mode kb a s) (by decide) 1 0 n h2 (arr s), Res.ok_bind]
    show step kb _ (dosM a s false false (spinRows n 1 0 c!"spin 1") (spinRows n 1 0 c!"spin 2")) = _
    generalize spinRows n 1 0 c!"spin 1" = l1
    generalize spinRows n 1 0 c!"spin 2" = l2
    unfold dosM partOf
    cases hsp : a.o.species with
    | none => evc [h1, dosPartial, numAtoms, hsp]
    | some sp =>
      cases hd : partialDos sp.length l1 with
      | exit c => evc [h1, hd, dosPartial, numAtoms, hsp]
      | raise x => evc [h1, hd, dosPartial, numAtoms, hsp]
      | ok d =>
        cases l2 with
        | nil => evc [h1, hd, dosPartial, numAtoms, hsp]
        | cons z zs =>
          cases hd2 : partialDos sp.length (z :: zs) with
          | exit c => evc [h1, hd, hd2, dosPartial, numAtoms, hsp]
          | raise x => evc [h1, hd, hd2, dosPartial, numAtoms, hsp]
          | ok d2 => evc [h1, hd, hd2, dosPartial, numAtoms, hsp]

/-- A density of states that is not interpolated. -/
def DosOk (n : Node) : Prop := n.tag = c!"dos" ∧ comment n = none ∧ ∀ m ∈ n.children, DosPartOk m

/-- What a density of states does. -/
def dosAll (a : Acc) (n : Node) : Res Acc :=
  Res.foldlM' (dosChild a.o.species) {} n.children >>= fun s => fermiOf s.fermi >>= fun f => joinDos a.o.dosDict s.p1 s.p2 f >>= fun d =>
  .ok { a with o.dosDict := d, o.dosCopy := some d }

/-- A density of states. -/
theorem run_dos (kb : Bool) (a : Acc) (p : Option Node) (n : Node) (h : DosOk n) :
    run kb (events p n) a.st = (dosAll a n >>= fun a => .ok a.st) := by
  obtain ⟨h1, h2, h3⟩ := h
  have e1 : step kb (starts p n) a.st = .ok (dosM a {} false false [] []) := by unfold Acc.st dosM; evc [h1, h2]
  unfold dosAll
  rw [run_node, e1, Res.ok_bind, run_children kb (fun s => dosM a s false false [] []) (dosChild a.o.species) _ _
    (fun c hc s => run_dosChild kb a s _ c (h3 c hc))]
  cases Res.foldlM' (dosChild a.o.species) {} n.children with
  | exit c => rfl
  | raise x => rfl
  | ok s =>
    simp only [Res.ok_bind]
    unfold Acc.st dosM
    cases hf : fermiOf s.fermi with
    | exit c => evc [h1, h2, hf, dosEnd]
    | raise x => evc [h1, h2, hf, dosEnd]
    | ok f =>
      simp only [Res.ok_bind]
      cases hj : joinDos a.o.dosDict s.p1 s.p2 f with
      | exit c => evc [h1, h2, hf, hj, dosEnd]
      | raise x => evc [h1, h2, hf, hj, dosEnd]
      | ok d => evc [h1, h2, hf, hj, dosEnd]

end Verif.VasprunEvent
