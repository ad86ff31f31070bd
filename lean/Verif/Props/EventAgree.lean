import Verif.Props.EventFrame
/-! # What is left after all ionic steps have been read -/
set_option autoImplicit false
namespace Verif.VasprunEvent
open Verif Verif.Utils Verif.Xml Verif.Vasprun

theorem body_calcs (kb : Bool) (o : Out) (body : List Node) :
    Res.foldlM' (bodyChild kb) o body = Res.foldlM' (calcAll kb) o (body.filter (t c!"calculation").selects) := by
  induction body generalizing o with
  | nil => rfl
  | cons n body ih =>
    rw [foldlM'_cons]
    unfold bodyChild
    by_cases hn : n.tag = c!"calculation"
    · rw [if_pos hn, List.filter_cons_of_pos (by exact selects_t.2 hn), foldlM'_cons]
      congr 1
      funext o
      exact ih o
    · rw [if_neg hn, List.filter_cons_of_neg (fun hc => hn (selects_t.1 hc)), Res.ok_bind]
      exact ih o

theorem storeAcc_frame {a : Acc} {o : Out} (h : storeAcc a = .ok o) : ∃ t k, o = { a.o with totens := t, num := k } := by
  unfold storeAcc at h
  obtain ⟨x, _, h⟩ := Res.bind_eq_ok.1 h
  obtain ⟨y, _, h⟩ := Res.bind_eq_ok.1 h
  obtain ⟨z, _, h⟩ := Res.bind_eq_ok.1 h
  split at h
  · cases h
  · injection h with h; exact ⟨_, _, h.symm⟩

/-- Not about energies and the number of the step. -/
def Plain {β : Type} (π : Out → β) : Prop := ∀ o t k, π { o with totens := t, num := k } = π o

theorem fixed_plain : Plain fixed := fun _ _ _ => rfl

theorem Plain.start {β : Type} {π : Out → β} (h : Plain π) (o : Out) : π (startAcc o).o = π o := h o _ o.num

theorem Plain.store {β : Type} {π : Out → β} (h : Plain π) {a : Acc} {o : Out} (hs : storeAcc a = .ok o) : π o = π a.o := by
  obtain ⟨t, k, rfl⟩ := storeAcc_frame hs
  exact h _ _ _

theorem parts_fixed {kb : Bool} {l : List Node} {a a' : Acc} (h : Res.foldlM' (calcChild kb) a l = .ok a') : fixed a'.o = fixed a.o :=
  foldlM'_keeps (π := fun a : Acc => fixed a.o) (fun _ _ _ _ h => (calcChild_frame h).fixed) h

theorem calcAll_fixed {kb : Bool} {n : Node} {o o' : Out} (h : calcAll kb o n = .ok o') : fixed o' = fixed o := by
  unfold calcAll at h
  obtain ⟨a, h1, h2⟩ := Res.bind_eq_ok.1 h
  rw [fixed_plain.store h2, parts_fixed h1, fixed_plain.start]

theorem calcs_fixed {kb : Bool} {cs : List Node} {o o' : Out} (h : Res.foldlM' (calcAll kb) o cs = .ok o') : fixed o' = fixed o :=
  foldlM'_keeps (fun _ _ _ _ h => calcAll_fixed h) h

/-- Parts of some kind set something. -/
theorem parts_last {β : Type} {kb : Bool} {π : Out → β} {Q : β → Prop} {kind : Node → Bool} {l : List Node}
    (keep : ∀ n a a', kind n = false → Frame n a a' → π a'.o = π a.o) {a a' : Acc}
    (hQ : ∀ x ∈ l, kind x = true → ∀ b b', fixed b.o = fixed a.o → calcChild kb b x = .ok b' → Q (π b'.o))
    (h : Res.foldlM' (calcChild kb) a l = .ok a') : (l.filter kind = [] → π a'.o = π a.o) ∧ (l.filter kind ≠ [] → Q (π a'.o)) := by
  induction l generalizing a with
  | nil => injection h with h; subst h; exact ⟨fun _ => rfl, fun hc => absurd rfl hc⟩
  | cons n l ih =>
    rw [foldlM'_cons] at h
    obtain ⟨a1, h1, h2⟩ := Res.bind_eq_ok.1 h
    have f1 := (calcChild_frame h1).fixed
    obtain ⟨i1, i2⟩ := ih (fun x hx hk b b' hb => hQ x (List.mem_cons_of_mem _ hx) hk b b' (hb.trans f1)) h2
    cases hk : kind n with
    | true =>
      rw [List.filter_cons_of_pos hk]
      refine ⟨fun hc => (by cases hc), fun _ => ?_⟩
      by_cases hl : l.filter kind = []
      · rw [i1 hl]; exact hQ n (List.mem_cons_self ..) hk a a1 rfl h1
      · exact i2 hl
    | false =>
      rw [List.filter_cons_of_neg (by simp [hk])]
      refine ⟨fun hc => ?_, i2⟩
      rw [i1 hc, keep n a a1 hk (calcChild_frame h1)]

/-- Parts of some kind set something: after all ionic steps. -/
theorem calcs_last {β : Type} {kb : Bool} {π : Out → β} (hπ : Plain π) (Q : β → Prop) (kind : Node → Bool) {cs : List Node}
    (keep : ∀ n a a', kind n = false → Frame n a a' → π a'.o = π a.o) {o o' : Out}
    (hQ : ∀ x ∈ cs.flatMap Node.children, kind x = true → ∀ b b', fixed b.o = fixed o → calcChild kb b x = .ok b' → Q (π b'.o))
    (h : Res.foldlM' (calcAll kb) o cs = .ok o') :
    ((cs.flatMap Node.children).filter kind = [] → π o' = π o) ∧ ((cs.flatMap Node.children).filter kind ≠ [] → Q (π o')) := by
  induction cs generalizing o with
  | nil => injection h with h; subst h; exact ⟨fun _ => rfl, fun hc => absurd rfl hc⟩
  | cons c cs ih =>
    rw [foldlM'_cons] at h
    obtain ⟨o1, h1, h2⟩ := Res.bind_eq_ok.1 h
    have f1 := calcAll_fixed h1
    unfold calcAll at h1
    obtain ⟨a, g1, g2⟩ := Res.bind_eq_ok.1 h1
    obtain ⟨i1, i2⟩ := ih (fun x hx hk b b' hb => hQ x (by rw [List.flatMap_cons]; exact List.mem_append_right _ hx) hk b b' (hb.trans f1)) h2
    obtain ⟨j1, j2⟩ := parts_last keep (fun x hx hk b b' hb => hQ x (by rw [List.flatMap_cons]; exact List.mem_append_left _ hx) hk b b'
      (hb.trans (fixed_plain.start o))) g1
    rw [List.flatMap_cons, List.filter_append]
    by_cases hr : (cs.flatMap Node.children).filter kind = []
    · rw [hr, List.append_nil]
      refine ⟨fun hc => ?_, fun hc => ?_⟩
      · rw [i1 hr, hπ.store g2, j1 hc, hπ.start]
      · rw [i1 hr, hπ.store g2]; exact j2 hc
    · exact ⟨fun hc => absurd (List.append_eq_nil_iff.1 hc).2 hr, fun _ => i2 hr⟩

/-- The one part of some kind. -/
theorem calcs_unique {β : Type} {kb : Bool} {π : Out → β} (hπ : Plain π) (kind : Node → Bool) {cs : List Node}
    (keep : ∀ n a a', kind n = false → Frame n a a' → π a'.o = π a.o) {o o' : Out} (h : Res.foldlM' (calcAll kb) o cs = .ok o') {x : Node}
    (hx : (cs.flatMap Node.children).filter kind = [x]) :
    ∃ a a', calcChild kb a x = .ok a' ∧ fixed a.o = fixed o ∧ π a.o = π o ∧ π o' = π a'.o := by
  induction cs generalizing o with
  | nil => cases hx
  | cons c cs ih =>
    rw [foldlM'_cons] at h
    obtain ⟨o1, h1, h2⟩ := Res.bind_eq_ok.1 h
    have f1 := calcAll_fixed h1
    unfold calcAll at h1
    obtain ⟨a, g1, g2⟩ := Res.bind_eq_ok.1 h1
    rw [List.flatMap_cons, List.filter_append] at hx
    by_cases hc : c.children.filter kind = []
    · rw [hc, List.nil_append] at hx
      obtain ⟨b, b', k1, k2, k3, k4⟩ := ih h2 hx
      refine ⟨b, b', k1, k2.trans f1, k3.trans ?_, k4⟩
      have := (parts_last (Q := fun _ => True) keep (fun _ _ _ _ _ _ _ => trivial) g1).1 hc
      rw [hπ.store g2, this, hπ.start]
    · obtain ⟨y, ys, hy⟩ := List.exists_cons_of_ne_nil hc
      rw [hy, List.cons_append] at hx
      injection hx with e1 e2
      subst e1
      obtain ⟨e2, e3⟩ := List.append_eq_nil_iff.1 e2
      subst e2
      obtain ⟨s1, s2, k1, k2, k3, pre, post, _, k5⟩ := foldlM'_unique (π := fun a : Acc => π a.o) hy
        (fun n _ hk s s' hs => keep n s s' hk (calcChild_frame hs)) g1
      refine ⟨s1, s2, k1, (parts_fixed k5).trans (fixed_plain.start o), k2.trans (hπ.start o), ?_⟩
      rw [((calcs_last hπ (fun _ => True) kind keep (fun _ _ _ _ _ _ _ => trivial) h2).1 e3), hπ.store g2]
      exact k3

/-! ### in front of the ionic steps -/

/-- All that is not set in front of the ionic steps. -/
def noHead (o : Out) : Out :=
  { o with version := none, params := {}, species := none, kpoints := none, kpointsw := none, kpointdiv := none }

/-- What a section in front of the ionic steps leaves as it is. -/
structure HeadFrame (n : Node) (o o' : Out) : Prop where
  rest : noHead o' = noHead o
  version : (t c!"generator").selects n = false → o'.version = o.version
  params : (t c!"parameters").selects n = false → o'.params = o.params
  species : (t c!"atominfo").selects n = false → o'.species = o.species
  kpoints : (t c!"kpoints").selects n = false → o'.kpoints = o.kpoints ∧ o'.kpointsw = o.kpointsw ∧ o'.kpointdiv = o.kpointdiv

theorem sel_true {s : Str} {n : Node} (h : n.tag = s) : ¬ (t s).selects n = false := fun hc => by rw [selects_t.2 h] at hc; cases hc

theorem kpointsChild_ex {o o' : Out} {n : Node} (h : kpointsChild o n = .ok o') :
    ({ o' with kpoints := none, kpointsw := none, kpointdiv := none } : Out) = { o with kpoints := none, kpointsw := none, kpointdiv := none } := by
  have := (kpointsChild_keeps h).2.2.1
  rw [← this]

theorem headChild_frame {o o' : Out} {n : Node} (h : headChild o n = .ok o') : HeadFrame n o o' := by
  unfold headChild at h
  by_cases h1 : n.tag = c!"generator"
  · rw [if_pos h1] at h
    injection h with h; subst h
    exact ⟨rfl, fun hc => absurd hc (sel_true h1), fun _ => rfl, fun _ => rfl, fun _ => ⟨rfl, rfl, rfl⟩⟩
  rw [if_neg h1] at h
  by_cases h2 : n.tag = c!"parameters"
  · rw [if_pos h2] at h
    obtain ⟨q, _, h⟩ := Res.bind_eq_ok.1 h
    injection h with h; subst h
    exact ⟨rfl, fun _ => rfl, fun hc => absurd hc (sel_true h2), fun _ => rfl, fun _ => ⟨rfl, rfl, rfl⟩⟩
  rw [if_neg h2] at h
  by_cases h3 : n.tag = c!"atominfo"
  · rw [if_pos h3] at h
    obtain ⟨q, _, h⟩ := Res.bind_eq_ok.1 h
    injection h with h; subst h
    exact ⟨rfl, fun _ => rfl, fun _ => rfl, fun hc => absurd hc (sel_true h3), fun _ => ⟨rfl, rfl, rfl⟩⟩
  rw [if_neg h3] at h
  by_cases h4 : n.tag = c!"kpoints"
  · rw [if_pos h4] at h
    have e := foldlM'_keeps (π := fun o : Out => ({ o with kpoints := none, kpointsw := none, kpointdiv := none } : Out))
      (fun _ _ _ _ h => kpointsChild_ex h) h
    have e' : ∀ {β : Type} (π : Out → β), π { o' with kpoints := none, kpointsw := none, kpointdiv := none } =
      π { o with kpoints := none, kpointsw := none, kpointdiv := none } := fun π => congrArg π e
    exact ⟨e' noHead, fun _ => e' (fun o => o.version), fun _ => e' (fun o => o.params), fun _ => e' (fun o => o.species), fun hc => absurd hc (sel_true h4)⟩
  rw [if_neg h4] at h
  injection h with h; subst h
  exact ⟨rfl, fun _ => rfl, fun _ => rfl, fun _ => rfl, fun _ => ⟨rfl, rfl, rfl⟩⟩

theorem noHead_init : noHead {} = {} := rfl

/-- What both parsers agree on before the ionic steps. -/
structure Start (root : Node) (o : Out) : Prop where
  version : fetchVersion root = o.version
  params : fetchParams root = .ok o.params
  species : fetchSpecies root = .ok o.species
  kpoints : opt (fun e => convert2D e 3) (findRel root [t c!"kpoints", tn c!"varray" c!"kpointlist", t c!"v"]) = .ok o.kpoints
  weights : opt convert1D (findRel root [t c!"kpoints", tn c!"varray" c!"weights", t c!"v"]) = .ok o.kpointsw
  divisions : fetchDivisions root = .ok o.kpointdiv
  rest : noHead o = {}
  isSome : (∃ sp, o.species = some sp) ∧ o.kpoints.isSome

theorem start_agree {root : Node} {head body : List Node} {g q a arr k l w : Node} (h : Doc root head body g q a arr k l w) {o : Out}
    (ho : Res.foldlM' headChild {} head = .ok o) : Start root o := by
  have rest : noHead o = {} := foldlM'_keeps (π := noHead) (fun _ _ _ _ h => (headChild_frame h).rest) ho
  obtain ⟨g1, g2, g3⟩ := h.generator
  obtain ⟨q1, q2, q3⟩ := h.parameters
  obtain ⟨a1, a2, a3⟩ := h.atominfo
  obtain ⟨k1, k2, k3⟩ := h.kpoints
  obtain ⟨s1, s2, e1, e2, e3, _⟩ := foldlM'_unique (π := fun o : Out => o.version) g2 (fun n _ hk s s' hs => (headChild_frame hs).version hk) ho
  obtain ⟨t1, t2, f1, f2, f3, _⟩ := foldlM'_unique (π := fun o : Out => o.params) q2 (fun n _ hk s s' hs => (headChild_frame hs).params hk) ho
  obtain ⟨u1, u2, i1, i2, i3, _⟩ := foldlM'_unique (π := fun o : Out => o.species) a2 (fun n _ hk s s' hs => (headChild_frame hs).species hk) ho
  obtain ⟨v1, v2, j1, j2, j3, _⟩ := foldlM'_unique (π := fun o : Out => (o.kpoints, o.kpointsw, o.kpointdiv)) k2
    (fun n _ hk s s' hs => by obtain ⟨r1, r2, r3⟩ := (headChild_frame hs).kpoints hk; simp only [r1, r2, r3]) ho
  have tne : ∀ {n : Node} {s s' : Str}, n.tag = s → s ≠ s' → ¬ n.tag = s' := fun h1 h2 hc => h2 (h1.symm.trans hc)
  -- version
  unfold headChild at e1
  rw [if_pos g3.tag] at e1
  injection e1 with e1
  -- parameters
  unfold headChild at f1
  rw [if_neg (tne q3.tag (by decide)), if_pos q3.tag] at f1
  obtain ⟨p, hp, f1⟩ := Res.bind_eq_ok.1 f1
  injection f1 with f1
  -- species
  unfold headChild at i1
  rw [if_neg (tne a3.tag (by decide)), if_neg (tne a3.tag (by decide)), if_pos a3.tag, atoms_path a3] at i1
  obtain ⟨sp, hsp, i1⟩ := Res.bind_eq_ok.1 i1
  injection i1 with i1
  -- k-points
  unfold headChild at j1
  rw [if_neg (tne k3.tag (by decide)), if_neg (tne k3.tag (by decide)), if_neg (tne k3.tag (by decide)), if_pos k3.tag] at j1
  have j2' : v1.kpoints = none ∧ v1.kpointsw = none ∧ v1.kpointdiv = none := by
    simp only [Prod.mk.injEq] at j2; exact j2
  have j3' : o.kpoints = v2.kpoints ∧ o.kpointsw = v2.kpointsw ∧ o.kpointdiv = v2.kpointdiv := by
    simp only [Prod.mk.injEq] at j3; exact j3
  obtain ⟨kk1, kk2, kk3, kk4, kk5⟩ := kpoints_agree root k l w k1 k3 v1 v2 j2'.2.2 j1
  have i3' : o.species = some sp := by rw [i3, ← i1]
  refine ⟨?_, ?_, ?_, ?_, ?_, ?_, rest, ⟨sp, i3'⟩, ?_⟩
  · rw [e3, ← e1]
    unfold fetchVersion findAny
    rw [g1]
    show (match findRel g [tn c!"i" c!"version"] with
      | [] => none
      | e :: _ => e.text) = _
    cases findRel g [tn c!"i" c!"version"] with
    | nil => exact e2.symm
    | cons x xs => rfl
  · have f2 : t1.params = ({} : Params) := f2
    rw [f2] at hp
    rw [f3, ← f1]
    exact params_agree root q q1 q3 none p hp
  · rw [species_agree root a arr a1 a3, hsp, i3']; rfl
  · rw [kk1, j3'.1]
  · rw [kk2, j3'.2.1]
  · rw [kk3, j3'.2.2]
  · rw [j3'.1]; exact kk5

/-- The run of the event driven parser on a document. -/
theorem doc_run {kb : Bool} {root : Node} {head body : List Node} {g q a arr k l w : Node} (h : Doc root head body g q a arr k l w) {e : EData}
    (he : parsee root kb = .ok e) :
    ∃ o o', Start root o ∧ Res.foldlM' (calcAll kb) o (calculations root) = .ok o' ∧ fixed o' = fixed o ∧ e = finish o' := by
  rw [run_doc kb h] at he
  obtain ⟨o, h1, he⟩ := Res.bind_eq_ok.1 he
  obtain ⟨o', h2, he⟩ := Res.bind_eq_ok.1 he
  injection he with he
  have hc : calculations root = body.filter (t c!"calculation").selects := by
    rw [← h.steps]; rfl
  rw [body_calcs, ← hc] at h2
  exact ⟨o, o', start_agree h h1, h2, calcs_fixed h2, he.symm⟩

/-- The children of all ionic steps. -/
def partsOf (root : Node) : List Node := (calculations root).flatMap Node.children

theorem findAny_parts (root : Node) (s : Step) (ss : List Step) :
    findAny root (t c!"calculation") (s :: ss) = ((partsOf root).filter s.selects).flatMap fun n => findRel n ss := by
  unfold findAny
  rw [follow, follow_linear, ← List.filter_flatMap]
  rfl

end Verif.VasprunEvent
