import Verif.Model.Effects
import Verif.Props.PoscarHeap
/-!
# C104: a call that fails changes nothing

Statements about the methods as sequences of statements (`Model/Effects.lean`), in which assignments made before an exception stay.
-/
set_option autoImplicit false
namespace Verif
open Prog

/-! ### specification -/

/-- The call did not return normally. -/
def Failed {α : Type} (r : Res α) : Prop := ∀ a, r ≠ .ok a

/-- A call that fails leaves the memory as it found it. -/
def Atomic {σ α : Type} (p : Prog σ α) : Prop := ∀ s, Failed (p s).2 → (p s).1 = s

/-- A history of calls whose failures are caught by the caller: the memory at the end. -/
def runCaught {σ : Type} (ps : List (Prog σ Unit)) (s : σ) : σ := ps.foldl (fun s p => (p s).1) s

/-- The calls of a history that return normally. -/
def succeeding {σ : Type} : List (Prog σ Unit) → σ → List (Prog σ Unit)
  | [], _ => []
  | p :: ps, s => match (p s).2 with
    | .ok _ => p :: succeeding ps (p s).1
    | _ => succeeding ps (p s).1

/-- A history in which every call returns normally. -/
def AllSucceed {σ : Type} : List (Prog σ Unit) → σ → Prop
  | [], _ => True
  | p :: ps, s => (p s).2 = .ok () ∧ AllSucceed ps (p s).1

/-! ### programs -/

/-- What a call with the result `r` does if it is all or nothing. -/
def outcome {σ : Type} (s : σ) : Res σ → σ × Res Unit
  | .ok s' => (s', .ok ())
  | .exit c => (s, .exit c)
  | .raise e => (s, .raise e)

theorem outcome_bind {σ α : Type} {f : σ → Res α} {g : α → Prog σ Unit} {k : α → Res σ} {s : σ}
    (h : ∀ a, f s = .ok a → g a s = outcome s (k a)) : (eval f).bind g s = outcome s (f s >>= k) := by
  simp only [Prog.bind, eval]
  cases hf : f s with
  | ok a => exact h a hf
  | exit c => rfl
  | raise e => rfl

theorem atomic_of_outcome {σ : Type} {p : Prog σ Unit} {k : σ → Res σ} (h : ∀ s, p s = outcome s (k s)) : Atomic p := by
  intro s hs
  rw [h s] at hs ⊢
  cases hk : k s with
  | ok a => rw [hk] at hs; exact absurd rfl (hs ())
  | exit c => rfl
  | raise e => rfl

/-- Calls that fail can be left out of a history. -/
theorem runCaught_succeeding {σ : Type} {ps : List (Prog σ Unit)} (h : ∀ p ∈ ps, Atomic p) (s : σ) :
    runCaught ps s = runCaught (succeeding ps s) s ∧ AllSucceed (succeeding ps s) s := by
  induction ps generalizing s with
  | nil => exact ⟨rfl, trivial⟩
  | cons p ps ih =>
    have ih' := ih (fun q hq => h q (List.mem_cons_of_mem _ hq)) (p s).1
    cases hp : (p s).2 with
    | ok a =>
      rw [succeeding, hp]
      exact ⟨ih'.1, hp, ih'.2⟩
    | exit c =>
      have e := h p (List.mem_cons_self ..) s (by rw [hp]; intro a e; cases e)
      simp only [succeeding, hp]
      rw [e] at ih' ⊢
      refine ⟨?_, ih'.2⟩
      rw [← ih'.1]
      show runCaught ps (p s).1 = _
      rw [e]
    | raise x =>
      have e := h p (List.mem_cons_self ..) s (by rw [hp]; intro a e; cases e)
      simp only [succeeding, hp]
      rw [e] at ih' ⊢
      refine ⟨?_, ih'.2⟩
      rw [← ih'.1]
      show runCaught ps (p s).1 = _
      rw [e]

/-! ### Incar -/

namespace Incar

theorem modifyS_eq (F : FloatEnv) (tag : Str) (value : Value) (comment : Option Str) (d : Entries) :
    modifyS F tag value comment d = outcome d (modify F d tag value comment) := by
  unfold modifyS modify
  simp only [Prog.bind, eval]
  cases cleanEntry F tag value comment <;> rfl

/-- C104 for `Incar`: `modify` and `delete`. -/
theorem C104_incar (F : FloatEnv) (tag : Str) (value : Value) (comment : Option Str) :
    Atomic (modifyS F tag value comment) ∧ Atomic (deleteS tag) :=
  ⟨atomic_of_outcome (modifyS_eq F tag value comment), fun _ h => absurd rfl (h ())⟩

end Incar

/-! ### Kpoints -/

namespace Kpoints

theorem modifyS_eq (d : Nat) (entry : Str) (r : Ref) (n : Option Int) (h : Heap) :
    modifyS d entry r n h = outcome h (modifyH h d entry r n) := by
  unfold modifyS modifyH
  refine outcome_bind (f := fun _ => checkAllowed entry) fun _ _ => ?_
  refine outcome_bind (f := fun h : Heap => checkDict (h.entries d)) fun _ _ => ?_
  cases n with
  | none => exact outcome_bind (f := fun h : Heap => checkEntry (h.entries d) entry (h.val r)) fun _ _ => rfl
  | some n =>
    refine outcome_bind (f := fun h : Heap => checkPoint (h.entries d) (h.val r)) fun _ _ => ?_
    refine outcome_bind (f := fun h : Heap => checkPointNumber (h.entries d) n) fun _ _ => ?_
    simp only [Prog.bind, eval, placeOf]
    cases (h.dict d).get? c!"points" with
    | none => rfl
    | some x => cases x with
      | atom a => rfl
      | list a => dsimp only; cases pyIndex n (h.lists[a]?.getD []).length <;> rfl

theorem deletePointS_eq (d : Nat) (n : Int) (h : Heap) : deletePointS d n h = outcome h (deletePointH h d n) := by
  unfold deletePointS deletePointH
  refine outcome_bind (f := fun h : Heap => checkPoints (h.entries d) .none) fun _ _ => ?_
  refine outcome_bind (f := fun h : Heap => checkPointNumber (h.entries d) n) fun _ _ => ?_
  simp only [Prog.bind, eval, placeOf]
  cases (h.dict d).get? c!"points" with
  | none => rfl
  | some x => cases x with
    | atom a => rfl
    | list a => dsimp only; cases pyIndex n (h.lists[a]?.getD []).length <;> rfl

/-- Calls of a program that may fail. -/
inductive Edit
  | modify (d : Nat) (entry : Str) (r : Ref) (n : Option Int)
  | deletePoint (d : Nat) (n : Int)
  | addPoint
  | construct (d : Nat)

/-- The calls as sequences of statements. -/
def Edit.prog : Edit → Prog Heap Unit
  | .modify d entry r n => modifyS d entry r n
  | .deletePoint d n => deletePointS d n
  | .addPoint => addPointS
  | .construct d => constructS d

/-- C104 for `Kpoints`, construction from a dictionary included. -/
theorem C104_kpoints (e : Edit) : Atomic e.prog := by
  cases e with
  | modify d entry r n => exact atomic_of_outcome (modifyS_eq d entry r n)
  | deletePoint d n => exact atomic_of_outcome (deletePointS_eq d n)
  | addPoint => intro s _; rfl
  | construct d => intro s _; rfl

/-- C104 for `Kpoints`: whatever calls a program makes on whatever objects, those that fail might as well not have been made. -/
theorem C104_kpoints_history (es : List Edit) (h : Heap) :
    runCaught (es.map Edit.prog) h = runCaught (succeeding (es.map Edit.prog) h) h ∧ AllSucceed (succeeding (es.map Edit.prog) h) h :=
  runCaught_succeeding (by
    intro p hp
    obtain ⟨e, _, rfl⟩ := List.mem_map.1 hp
    exact C104_kpoints e) h

end Kpoints

/-! ### Poscar -/

namespace Poscar
open Verif.Kpoints (pyIndex)
open Verif.Lattice

theorem modifyS_eq (d : Nat) (entry : Str) (r : PRef) (h : Heap) : modifyS d entry r h = outcome h (modifyH h d entry r) := by
  unfold modifyS modifyH
  refine outcome_bind (f := fun _ => checkAllowed entry) fun _ _ => ?_
  exact outcome_bind (f := fun h : Heap => checkEntry (h.entries d) entry (h.val r)) fun _ _ => rfl

theorem modifySiteS_eq (d : Nat) (entry : Str) (v : Option ERef) (n : Int) (h : Heap) :
    modifySiteS d entry v n h = outcome h (modifySiteH h d entry v n) := by
  unfold modifySiteS modifySiteH
  refine outcome_bind (f := fun _ => checkAllowed entry) fun _ _ => ?_
  refine outcome_bind (f := fun h : Heap => checkSite (h.entries d) (v.map h.elem)) fun _ _ => ?_
  refine outcome_bind (f := fun h : Heap => checkSiteNumber (h.entries d) n) fun _ _ => ?_
  simp only [Prog.bind, eval, placeOf]
  cases (h.dict d).get? c!"sites" with
  | none => rfl
  | some x => cases x with
    | imm a => rfl
    | list a => dsimp only; cases pyIndex n (h.list a).length <;> rfl

theorem deleteSiteS_eq (d : Nat) (n : Int) (h : Heap) : deleteSiteS d n h = outcome h (deleteSiteH h d n) := by
  unfold deleteSiteS deleteSiteH
  refine outcome_bind (f := fun h : Heap => checkSites (h.entries d) .none) fun _ _ => ?_
  refine outcome_bind (f := fun h : Heap => checkSiteNumber (h.entries d) n) fun _ _ => ?_
  simp only [Prog.bind, eval, placeOf]
  cases (h.dict d).get? c!"sites" with
  | none => rfl
  | some x => cases x with
    | imm a => rfl
    | list a => dsimp only; cases pyIndex n (h.list a).length <;> rfl

/-- Calls on existing objects. -/
inductive ObjectCall
  | modify (d : Nat) (entry : Str) (r : PRef)
  | modifySite (d : Nat) (entry : Str) (v : Option ERef) (n : Int)
  | deleteSite (d : Nat) (n : Int)
  | addSite

/-- The calls as sequences of statements. -/
def ObjectCall.prog : ObjectCall → Prog Heap Unit
  | .modify d entry r => modifyS d entry r
  | .modifySite d entry v n => modifySiteS d entry v n
  | .deleteSite d n => deleteSiteS d n
  | .addSite => addSiteS

/-- C104 for `Poscar`, calls on existing objects. -/
theorem C104_poscar (e : ObjectCall) : Atomic e.prog := by
  cases e with
  | modify d entry r => exact atomic_of_outcome (modifyS_eq d entry r)
  | modifySite d entry v n => exact atomic_of_outcome (modifySiteS_eq d entry v n)
  | deleteSite d n => exact atomic_of_outcome (deleteSiteS_eq d n)
  | addSite => intro s _; rfl

/-- C104 for `Poscar`: whatever calls a program makes on existing objects, those that fail might as well not have been made. -/
theorem C104_poscar_history (es : List ObjectCall) (h : Heap) :
    runCaught (es.map ObjectCall.prog) h = runCaught (succeeding (es.map ObjectCall.prog) h) h ∧ AllSucceed (succeeding (es.map ObjectCall.prog) h) h :=
  runCaught_succeeding (by
    intro p hp
    obtain ⟨e, _, rfl⟩ := List.mem_map.1 hp
    exact C104_poscar e) h

/-! #### construction -/

theorem setSite_comp (i : Nat) (f g : Site → Site) (h : Heap) : setSite i f (setSite i g h) = setSite i (fun t => f (g t)) h := by
  simp only [setSite, List.modify_modify_eq]
  rfl

theorem setSite_const (i : Nat) (f : Site → Site) (h : Heap) {s : Site} (hs : h.sites[i]? = some s) :
    setSite i f h = { h with sites := h.sites.set i (f s) } := by
  simp only [setSite, List.modify_eq_set_getElem?, hs]
  rfl

theorem toDirect_fails {v w : Vec} {c : Option Cell} {p : Vec} (h : toDirect v c = .ok p) : ∃ q, toDirect w c = .ok q := by
  cases c with
  | none => cases h
  | some m =>
    simp only [toDirect, Lattice.cartToDir] at h ⊢
    cases hi : Lattice.M3.inv m with
    | none => rw [hi] at h; cases h
    | some r => exact ⟨_, rfl⟩

/-- The turn of the loop is what `Model/PoscarHeap.lean` says. -/
theorem convertS_eq (c : Option Cell) (r : ERef) (h : Heap) : convertS c r h = convertRef c h r := by
  cases r with
  | other => rfl
  | dict d =>
    simp only [convertS, convertRef, Prog.bind, eval, Heap.elem]
    rcases convertElem c (.dict d) with (_ | _ | _) | _ | _ <;> rfl
  | site i =>
    simp only [convertS, convertRef, Prog.bind, eval, Heap.elem]
    cases hs : h.sites[i]? with
    | none => rfl
    | some s =>
      have hset : h.sites.set i s = h.sites := by
        obtain ⟨hi, e⟩ := List.getElem?_eq_some_iff.1 hs
        rw [← e, List.set_getElem_self]
      by_cases hd : s.direct = true
      · simp only [convertElem, hd, if_true, hset]
        rfl
      · simp only [convertElem, hd]
        cases hp : toDirect s.position c with
        | exit n => rfl
        | raise x => rfl
        | ok p =>
          cases hv : s.velocities with
          | none =>
            simp only [Prog.bind, eval, assign, Bool.false_eq_true, if_false, Res.ok_bind, setSite_comp]
            rw [setSite_const i _ h hs, hv]
          | some v =>
            obtain ⟨q, hq⟩ := toDirect_fails (w := v) hp
            simp only [Prog.bind, eval, assign, Bool.false_eq_true, if_false, Res.ok_bind, hq, setSite_comp]
            rw [setSite_const i _ h hs]

theorem forEach_eq (c : Option Cell) (rs : List ERef) (h : Heap) : forEach (convertS c) rs h = convertRefs c h rs := by
  induction rs generalizing h with
  | nil => rfl
  | cons r rs ih =>
    simp only [forEach, convertRefs, Prog.bind, convertS_eq]
    rcases convertRef c h r with ⟨h', x⟩
    cases x <;> simp only [ih]

theorem constructS_eq (d : Nat) (h : Heap) : constructS d h = construct h d := by
  have e : fromDictS d h = fromDictH h d := by
    simp only [fromDictS, fromDictH, Prog.bind, eval]
    cases (h.dict d).get? c!"sites" with
    | none => rfl
    | some x => cases x with
      | list a => exact forEach_eq _ _ _
      | imm v => cases v with
        | str t => cases t <;> rfl
        | _ => rfl
  simp only [constructS, construct, Prog.bind, e, eval]
  rcases fromDictH h d with ⟨h', x⟩
  cases x <;> rfl

/-- A `Site` after a construction, against before: the same object, or the same atom in direct coordinates of the cell. -/
def SameOrConverted (c : Option Cell) (s s' : Site) : Prop := s' = s ∨ convertElem c (.site s) = .ok (.site s')

/-- A conversion leaves a converted site alone. -/
theorem SameOrConverted.trans {c : Option Cell} {a b d : Site} (h : SameOrConverted c a b) (k : SameOrConverted c b d) : SameOrConverted c a d := by
  rcases h with rfl | h
  · exact k
  · rcases k with rfl | k
    · exact .inr h
    · have hb : b.direct = true := by
        simp only [convertElem] at h
        split at h
        · next hd => cases h; exact hd
        · obtain ⟨p, _, h⟩ := Res.bind_eq_ok.1 h
          cases hv : a.velocities with
          | none => rw [hv] at h; cases h; rfl
          | some v => rw [hv] at h; obtain ⟨q, _, h⟩ := Res.bind_eq_ok.1 h; cases h; rfl
      simp only [convertElem, hb, if_true] at k
      cases k
      exact .inr h

/-- The memory after the loop of a construction. -/
structure Touched (c : Option Cell) (h h' : Heap) : Prop where
  lists : h'.lists = h.lists
  dicts : h'.dicts = h.dicts
  count : h'.sites.length = h.sites.length
  sites : ∀ (i : Nat) (s : Site), h.sites[i]? = some s → ∃ s' : Site, h'.sites[i]? = some s' ∧ SameOrConverted c s s'

theorem Touched.refl (c : Option Cell) (h : Heap) : Touched c h h := ⟨rfl, rfl, rfl, fun _ s hs => ⟨s, hs, .inl rfl⟩⟩

theorem Touched.trans {c : Option Cell} {h h' h'' : Heap} (a : Touched c h h') (b : Touched c h' h'') : Touched c h h'' :=
  ⟨b.lists.trans a.lists, b.dicts.trans a.dicts, b.count.trans a.count, fun i s hs =>
    have ⟨s', hs', k⟩ := a.sites i s hs
    have ⟨s'', hs'', k'⟩ := b.sites i s' hs'
    ⟨s'', hs'', k.trans k'⟩⟩

theorem convertRef_touched (c : Option Cell) (h : Heap) (r : ERef) : Touched c h (convertRef c h r).1 := by
  unfold convertRef
  split
  · next s i hc =>
    refine ⟨rfl, rfl, List.length_set .., fun j t ht => ?_⟩
    by_cases hij : i = j
    · subst hij
      refine ⟨s, ?_, .inr ?_⟩
      · have := (List.getElem?_eq_some_iff.1 ht).1
        simp only [List.getElem?_set_self this]
      · simpa only [Heap.elem, ht] using hc
    · exact ⟨t, by simpa only [List.getElem?_set_ne hij] using ht, .inl rfl⟩
  all_goals exact Touched.refl c h

theorem convertRefs_touched (c : Option Cell) (h : Heap) (rs : List ERef) : Touched c h (convertRefs c h rs).1 := by
  induction rs generalizing h with
  | nil => exact Touched.refl c h
  | cons r rs ih =>
    have a := convertRef_touched c h r
    unfold convertRefs
    rcases hx : convertRef c h r with ⟨h', x⟩
    rw [hx] at a
    cases x with
    | ok _ => exact a.trans (ih h')
    | exit n => exact a
    | raise e => exact a

/-- The `Site` objects a dictionary holds. -/
def sitesOf (h : Heap) (d : Nat) : List ERef :=
  match (h.dict d).get? c!"sites" with
  | some (.list a) => h.list a
  | _ => []

theorem convertRefs_direct (c : Option Cell) (h : Heap) (rs : List ERef) (hd : ∀ (i : Nat) (s : Site), ERef.site i ∈ rs → h.sites[i]? = some s → s.direct = true) :
    (convertRefs c h rs).1 = h := by
  induction rs with
  | nil => rfl
  | cons r rs ih =>
    have e : (convertRef c h r).1 = h := by
      unfold convertRef
      split
      · next s i hc =>
        cases ht : h.sites[i]? with
        | none => simp only [Heap.elem, ht, convertElem] at hc; cases hc
        | some t =>
          simp only [Heap.elem, ht, convertElem, hd i t (List.mem_cons_self ..) ht, if_true] at hc
          cases hc
          obtain ⟨hi, e⟩ := List.getElem?_eq_some_iff.1 ht
          show { h with sites := _ } = h
          rw [← e, List.set_getElem_self]
      all_goals rfl
    have ih' := ih fun i s hi => hd i s (List.mem_cons_of_mem _ hi)
    unfold convertRefs
    rcases hx : convertRef c h r with ⟨h', x⟩
    rw [hx] at e
    cases e
    cases x with
    | ok _ => exact ih'
    | exit n => rfl
    | raise e => rfl

/-- C104 for the construction of a `Poscar` from a dictionary, whatever it is and whether it succeeds: dictionaries and lists stay as they are, and
every `Site` in memory stays or is converted to direct coordinates of the cell of the dictionary.  A dictionary without cartesian `Site`
objects changes nothing at all.  Missing for the full claim (and false, `C104_violation_poscar`): the conversion is not undone if the
construction fails. -/
theorem C104_poscar_construct_partial (d : Nat) (h : Heap) :
    Touched (cellOf (h.entries d)) h (constructS d h).1 ∧
    ((∀ (i : Nat) (s : Site), ERef.site i ∈ sitesOf h d → h.sites[i]? = some s → s.direct = true) → (constructS d h).1 = h) := by
  have e : (constructS d h).1 = (fromDictH h d).1 := by
    rw [constructS_eq, construct]
    rcases fromDictH h d with ⟨h', x⟩
    cases x <;> rfl
  rw [e]
  unfold fromDictH sitesOf
  cases (h.dict d).get? c!"sites" with
  | none => exact ⟨Touched.refl _ _, fun _ => rfl⟩
  | some x => cases x with
    | list a => exact ⟨convertRefs_touched _ _ _, convertRefs_direct _ _ _⟩
    | imm v => cases v with
      | str t => cases t <;> exact ⟨Touched.refl _ _, fun _ => rfl⟩
      | _ => exact ⟨Touched.refl _ _, fun _ => rfl⟩

/-- The claim C104 is false for the construction of a `Poscar`: with a comment that is neither a string nor `None` it is refused (exit code
13), but the `Site` objects of the caller have been converted; for every invertible cell and every cartesian `Site`. -/
theorem C104_violation_poscar (a : Cell) (s : Site) (hs : s.direct = false) (ha : a.toMatrix.det ≠ 0) :
    ∃ s' : Site, s'.direct = true ∧ dirToCart s'.position a = s.position ∧
      constructS 0 ⟨[s], [[.site 0]], [[(c!"comment", .imm .other), (c!"unitcell", .imm (.cell (some a))), (c!"sites", .list 0)]]⟩ =
        (⟨[s'], [[.site 0]], [[(c!"comment", .imm .other), (c!"unitcell", .imm (.cell (some a))), (c!"sites", .list 0)]]⟩, .exit 13) := by
  obtain ⟨s', hc, h2⟩ := convertElem_ok ha s
  refine ⟨s', h2.direct, ?_, ?_⟩
  · have := h2.position
    rw [hs] at this
    simpa using this
  rw [constructS_eq]
  have e : fromDictH ⟨[s], [[.site 0]], [[(c!"comment", .imm .other), (c!"unitcell", .imm (.cell (some a))), (c!"sites", .list 0)]]⟩ 0 =
      (⟨[s'], [[.site 0]], [[(c!"comment", .imm .other), (c!"unitcell", .imm (.cell (some a))), (c!"sites", .list 0)]]⟩, .ok ()) := by
    show convertRefs (some a) _ [.site 0] = _
    have hc' : convertElem (some a) (Heap.elem ⟨[s], [[.site 0]], [[(c!"comment", .imm .other), (c!"unitcell", .imm (.cell (some a))), (c!"sites", .list 0)]]⟩ (.site 0)) = .ok (.site s') := hc
    simp only [convertRefs, convertRef, hc']
    rfl
  rw [construct, e]
  rfl

/-! ### concrete cases -/

/-- A `Kpoints` object to which a wrong value is given. -/
example : Failed (Kpoints.modifyS 0 c!"mode" (.atom (.str c!"wrong")) Option.none
    ⟨[[(c!"points", .atom .none), (c!"divisions", .list 0), (c!"generating_vectors", .atom .none), (c!"mode", .atom (.str c!"automatic"))]],
     [[.atom (.int 4), .atom (.int 4), .atom (.int 4)]]⟩).2 := by
  intro ⟨⟩
  decide +kernel

/-- A `Poscar` object from which a site is deleted that does not exist. -/
example : Failed (deleteSiteS 0 7 ⟨[⟨c!"si", ⟨0, 0, 0⟩, (true, true, true), none, none, true⟩], [[.site 0]], [[(c!"sites", .list 0)]]⟩).2 := by
  intro ⟨⟩
  decide +kernel

end Poscar
end Verif
