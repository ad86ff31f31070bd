import Verif.Props.VasprunOther
import Verif.Props.VasprunProj
import Verif.Props.VasprunEnergies
import Verif.Props.EventBasics
/-!
# C113: a vasprun.xml that is cut off

A truncated file is read with lxml in recovery mode (vasprun.py:207-228): the tree holds what was read, and the elements that were open are closed.
`CutOff full cut` says that the tree `cut` is what is left of the tree `full` of the complete file if the text ends between two tags and not inside an
element without children (VASP prints such an element on one line, so this is a cut at the end of a line). The text of the elements left open
(blanks and newlines in files of VASP) may come out in any way. That lxml returns such a tree is part of the trusted base.
-/
set_option autoImplicit false
namespace Verif.Vasprun
open Verif Verif.Utils Verif.Xml Verif.VasprunEvent
open Verif.Kpoints (idx toFloat toInt)

/-! ### specification -/

/-- What is left of a list of elements: some of them from the beginning, and perhaps the next one, itself cut off. -/
inductive CutAll : List Node → List Node → Prop
  | stop (cs : List Node) : CutAll cs []
  | inside (tag : Str) (attrs : Dict Str Str) (text text' : Option Str) (ds ds' cs : List Node) (hne : ds ≠ []) (h : CutAll ds ds') :
      CutAll (.node tag attrs text ds :: cs) [.node tag attrs text' ds']
  | keep (c : Node) (cs cs' : List Node) (h : CutAll cs cs') : CutAll (c :: cs) (c :: cs')

/-- `cut` is what is left of the document `full`. -/
def CutOff (full cut : Node) : Prop := CutAll [full] [cut]

/-- A document as VASP prints it, as far as needed here: the elements with these names are not nested, and the elements that hold numbers or names
have no children. -/
structure Ordinary (full : Node) : Prop where
  apart : ∀ n ∈ below full, n.tag ∈ [c!"generator", c!"parameters", c!"atominfo", c!"calculation", c!"structure", c!"scstep"] →
    ∀ m ∈ below n, m.tag ≠ n.tag
  leaf : ∀ n ∈ below full, n.tag ∈ [c!"i", c!"v", c!"r", c!"c"] → n.children = []
  rows : ∀ n ∈ below full, n.tag = c!"varray" → ∀ m ∈ n.children, m.tag = c!"v"

/-- A value of the cut document: missing or the one of the complete document. -/
def SameOrNone {α : Type} (x x' : Option α) : Prop := x' = none ∨ x' = x

/-- A list in the cut document: missing or the beginning of the one in the complete document. -/
def BeginsOrNone {α : Type} (x x' : Option (List α)) : Prop := x' = none ∨ ∃ l l', x = some l ∧ x' = some l' ∧ l' <+: l

/-! ### what is left of lists of elements -/

theorem CutAll.nil {l : List Node} (h : CutAll [] l) : l = [] := by cases h; rfl

theorem CutAll.refl (l : List Node) : CutAll l l := by
  induction l with
  | nil => exact .stop _
  | cons a l ih => exact .keep a l l ih

theorem CutAll.append_right {a a' : List Node} (h : CutAll a a') (b : List Node) : CutAll (a ++ b) a' := by
  induction h with
  | stop cs => exact .stop _
  | inside tag attrs text text' ds ds' cs hne h ih => exact .inside tag attrs text text' ds ds' _ hne h
  | keep c cs cs' h ih => exact .keep c _ _ ih

theorem CutAll.append_left (a : List Node) {b b' : List Node} (h : CutAll b b') : CutAll (a ++ b) (a ++ b') := by
  induction a with
  | nil => exact h
  | cons x a ih => exact .keep x _ _ ih

theorem selects_node (s : Step) (tag : Str) (attrs : Dict Str Str) (text text' : Option Str) (ds ds' : List Node) :
    s.selects (.node tag attrs text' ds') = s.selects (.node tag attrs text ds) := rfl

theorem CutAll.filter {l l' : List Node} (h : CutAll l l') (s : Step) : CutAll (l.filter s.selects) (l'.filter s.selects) := by
  induction h with
  | stop cs => exact .stop _
  | inside tag attrs text text' ds ds' cs hne h ih =>
    by_cases hs : s.selects (.node tag attrs text ds) = true
    · rw [List.filter_cons_of_pos hs, List.filter_cons_of_pos (by rw [selects_node s tag attrs text text' ds ds']; exact hs), List.filter_nil]
      exact .inside _ _ _ _ _ _ _ hne h
    · rw [List.filter_cons_of_neg hs, List.filter_cons_of_neg (by rw [selects_node s tag attrs text text' ds ds']; exact hs), List.filter_nil]
      exact .stop _
  | keep c cs cs' h ih =>
    by_cases hs : s.selects c = true
    · rw [List.filter_cons_of_pos hs, List.filter_cons_of_pos hs]
      exact .keep c _ _ ih
    · rw [List.filter_cons_of_neg hs, List.filter_cons_of_neg hs]
      exact ih

theorem CutAll.children {l l' : List Node} (h : CutAll l l') (s : Step) :
    CutAll (l.flatMap fun n => n.children.filter s.selects) (l'.flatMap fun n => n.children.filter s.selects) := by
  induction h with
  | stop cs => exact .stop _
  | inside tag attrs text text' ds ds' cs hne h ih =>
    simp only [List.flatMap_cons, List.flatMap_nil, List.append_nil]
    exact (h.filter s).append_right _
  | keep c cs cs' h ih =>
    simp only [List.flatMap_cons]
    exact ih.append_left _

theorem CutAll.follow (ss : List Step) {l l' : List Node} (h : CutAll l l') : CutAll (follow ss l) (follow ss l') := by
  induction ss generalizing l l' with
  | nil => exact h
  | cons s ss ih => exact ih (h.children s)

theorem CutAll.inBelow (s : Step) {l l' : List Node} (h : CutAll l l')
    (hn : ∀ n ∈ belowAll l, s.selects n = true → ∀ m ∈ Xml.below n, s.selects m = false) :
    CutAll ((belowAll l).filter s.selects) ((belowAll l').filter s.selects) := by
  induction h with
  | stop cs => rw [belowAll]; exact .stop _
  | inside tag attrs text text' ds ds' cs hne h ih =>
    rw [belowAll, belowAll, belowAll, List.append_nil, Xml.below, Xml.below]
    have hin : ∀ n ∈ belowAll ds, n ∈ belowAll (.node tag attrs text ds :: cs) := by
      intro n hn'
      rw [belowAll, Xml.below]
      simp [hn']
    have ih := ih fun n hn' => hn n (hin n hn')
    by_cases hs : s.selects (.node tag attrs text ds) = true
    · have h0 : (belowAll ds).filter s.selects = [] := by
        rw [List.filter_eq_nil_iff]
        intro m hm
        rw [hn _ (by rw [belowAll]; simp) hs m (by rw [Xml.below]; exact hm)]
        simp
      rw [h0] at ih
      rw [List.filter_cons_of_pos hs, List.filter_cons_of_pos (by rw [selects_node s tag attrs text text' ds ds']; exact hs), ih.nil]
      exact .inside _ _ _ _ _ _ _ hne h
    · rw [List.filter_cons_of_neg hs, List.filter_cons_of_neg (by rw [selects_node s tag attrs text text' ds ds']; exact hs), List.filter_append]
      exact ih.append_right _
  | keep c cs cs' h ih =>
    rw [belowAll, belowAll, List.filter_cons, List.filter_cons, List.filter_append, List.filter_append]
    have ih := ih fun n hn' => hn n (by rw [belowAll]; simp [hn'])
    split
    · exact .keep c _ _ (ih.append_left _)
    · exact ih.append_left _

/-- What is left of elements without children is the beginning of the list. -/
theorem CutAll.prefix {l l' : List Node} (h : CutAll l l') (hl : ∀ n ∈ l, n.children = []) : l' <+: l := by
  induction h with
  | stop cs => exact List.nil_prefix
  | inside tag attrs text text' ds ds' cs hne h ih => exact absurd (hl (.node tag attrs text ds) (by simp)) hne
  | keep c cs cs' h ih => exact (List.prefix_cons_inj c).2 (ih fun n hn => hl n (by simp [hn]))

theorem CutAll.length {l l' : List Node} (h : CutAll l l') : l'.length ≤ l.length := by
  induction h with
  | stop cs => simp
  | inside tag attrs text text' ds ds' cs hne h ih => simp
  | keep c cs cs' h ih => simpa using ih

theorem CutOff.children {full cut : Node} (h : CutOff full cut) : CutAll full.children cut.children := by
  unfold CutOff at h
  generalize hl : [full] = l at h
  generalize hl' : [cut] = l' at h
  cases h with
  | stop cs => cases hl'
  | inside tag attrs text text' ds ds' cs hne h => cases hl; cases hl'; exact h
  | keep c cs cs' h => cases hl; cases hl'; exact CutAll.refl _

theorem mem_belowAll_trans : ∀ (cs : List Node) {n m : Node}, n ∈ belowAll cs → m ∈ below n → m ∈ belowAll cs
  | [], _, _, h, _ => by rw [belowAll] at h; cases h
  | c :: cs, n, m, h, hm => by
    rw [belowAll] at h ⊢
    rcases List.mem_cons.1 h with rfl | h
    · exact List.mem_cons_of_mem _ (List.mem_append_left _ hm)
    · rcases List.mem_append.1 h with h | h
      · refine List.mem_cons_of_mem _ (List.mem_append_left _ ?_)
        cases c with
        | node t a x ds =>
          rw [Xml.below] at h ⊢
          exact mem_belowAll_trans ds h hm
      · exact List.mem_cons_of_mem _ (List.mem_append_right _ (mem_belowAll_trans cs h hm))

theorem below_trans {root n m : Node} (h : n ∈ below root) (hm : m ∈ below n) : m ∈ below root := by
  rw [below_eq] at h ⊢
  exact mem_belowAll_trans _ h hm

/-- The names `Ordinary.apart` speaks of. -/
theorem Ordinary.cut {full cut : Node} (ho : Ordinary full) (h : CutOff full cut) (s : Step) (ss : List Step)
    (hs : s.tag ∈ [c!"generator", c!"parameters", c!"atominfo", c!"calculation", c!"structure", c!"scstep"]) :
    CutAll (findAny full s ss) (findAny cut s ss) := by
  unfold findAny
  refine CutAll.follow ss ?_
  rw [below_eq, below_eq]
  refine h.children.inBelow s fun n hn hsel m hm => ?_
  rw [← below_eq] at hn
  have ht : n.tag = s.tag := by
    unfold Step.selects at hsel
    exact of_decide_eq_true (Bool.and_eq_true_iff.1 hsel).1
  have := ho.apart n hn (by rw [ht]; exact hs) m hm
  unfold Step.selects
  rw [ht] at this
  simp [this]

theorem mem_follow {ss : List Step} {ns : List Node} {m root : Node} (hr : ∀ n ∈ ns, n ∈ below root) (hm : m ∈ follow ss ns) : m ∈ below root := by
  induction ss generalizing ns with
  | nil => exact hr m hm
  | cons s ss ih =>
    refine ih (ns := ns.flatMap fun n : Node => n.children.filter s.selects) (fun n hn => ?_) hm
    obtain ⟨a, ha, hn⟩ := List.mem_flatMap.1 hn
    exact below_trans (hr a ha) (mem_below (List.mem_filter.1 hn).1)

theorem tag_follow {ss : List Step} {s : Step} {ns : List Node} {m : Node} (hm : m ∈ follow (ss ++ [s]) ns) : m.tag = s.tag := by
  rw [follow_append] at hm
  obtain ⟨a, _, hm⟩ := List.mem_flatMap.1 (show m ∈ (follow ss ns).flatMap fun n => n.children.filter s.selects from hm)
  have := (List.mem_filter.1 hm).2
  unfold Step.selects at this
  exact of_decide_eq_true (Bool.and_eq_true_iff.1 this).1

theorem mem_findAny {root m : Node} {s : Step} {ss : List Step} (hm : m ∈ findAny root s ss) : m ∈ below root :=
  mem_follow (fun _ hn => (List.mem_filter.1 hn).1) hm

/-- The rows of a quantity in the cut document are the first ones of those in the complete document. -/
theorem Ordinary.prefix {full cut : Node} (ho : Ordinary full) (h : CutOff full cut) (s : Step) (ss : List Step) (e : Step)
    (hs : s.tag ∈ [c!"generator", c!"parameters", c!"atominfo", c!"calculation", c!"structure", c!"scstep"])
    (he : e.tag ∈ [c!"i", c!"v", c!"r", c!"c"]) : findAny cut s (ss ++ [e]) <+: findAny full s (ss ++ [e]) :=
  (ho.cut h s _ hs).prefix fun n hn => ho.leaf n (mem_findAny hn) (by rw [tag_follow hn]; exact he)

theorem Ordinary.prefixRel {full cut : Node} (ho : Ordinary full) (h : CutOff full cut) (s : Step) (ss : List Step) (e : Step)
    (he : e.tag ∈ [c!"i", c!"v", c!"r", c!"c"]) : findRel cut (s :: ss ++ [e]) <+: findRel full (s :: ss ++ [e]) := by
  have h1 : CutAll (findRel full (s :: ss ++ [e])) (findRel cut (s :: ss ++ [e])) := CutAll.follow _ h
  refine h1.prefix fun n hn => ho.leaf n ?_ (by rw [tag_follow (ss := s :: ss) hn]; exact he)
  refine mem_follow (ns := [full].flatMap fun n : Node => n.children.filter s.selects) (fun m hm => ?_) (show n ∈ follow (ss ++ [e]) _ from hn)
  simp only [List.flatMap_cons, List.flatMap_nil, List.append_nil] at hm
  exact mem_below (List.mem_filter.1 hm).1

/-! ### header and tables -/

theorem forall2_prefix {α β : Type} {R : α → β → Prop} (hR : ∀ a b b', R a b → R a b' → b = b') {l l' : List α} {r r' : List β} (hp : l' <+: l)
    (h : List.Forall₂ R l r) (h' : List.Forall₂ R l' r') : r' <+: r := by
  induction h' generalizing l r with
  | nil => exact List.nil_prefix
  | @cons a b l' r' hab h' ih =>
    cases h with
    | nil => exact absurd hp (by simp)
    | @cons c e l r hce h =>
      obtain ⟨rfl, hp'⟩ := List.cons_prefix_cons.1 hp
      rw [hR _ _ _ hce hab]
      exact (List.prefix_cons_inj b).2 (ih hp' h)

theorem mapM'_prefix {α β : Type} {f : α → Res β} {l l' : List α} {r r' : List β} (hp : l' <+: l) (h : Res.mapM' f l = .ok r)
    (h' : Res.mapM' f l' = .ok r') : r' <+: r :=
  forall2_prefix (fun _ _ _ h1 h2 => by rw [h1] at h2; exact Res.ok.inj h2) hp (Res.mapM'_eq_ok.1 h) (Res.mapM'_eq_ok.1 h')

theorem convert2D_prefix {n : Nat} {es es' : List Node} {a a' : Table} (hp : es' <+: es) (h : convert2D es n = .ok a) (h' : convert2D es' n = .ok a') :
    a' <+: a := mapM'_prefix hp h h'

theorem opt_prefix {α : Type} {f : List Node → Res (List α)} (hf : ∀ es es' a a', es' <+: es → f es = .ok a → f es' = .ok a' → a' <+: a)
    {es es' : List Node} {x x' : Option (List α)} (hp : es' <+: es) (h : opt f es = .ok x) (h' : opt f es' = .ok x') : BeginsOrNone x x' := by
  cases es' with
  | nil => cases h'; exact .inl rfl
  | cons e' es' =>
    cases es with
    | nil => exact absurd hp (by simp)
    | cons e es =>
      obtain ⟨a, ha, h⟩ := Res.bind_eq_ok.1 (show (f (e :: es) >>= fun x => .ok (some x)) = .ok x from h)
      obtain ⟨a', ha', h'⟩ := Res.bind_eq_ok.1 (show (f (e' :: es') >>= fun x => .ok (some x)) = .ok x' from h')
      cases h; cases h'
      exact .inr ⟨a, a', rfl, rfl, hf _ _ _ _ hp ha ha'⟩

theorem fetch_prefix {α : Type} {conv : Node → Res (Option α)} {es es' : List Node} {x x' : Option α} (hp : es' <+: es) (h : fetch conv es = .ok x)
    (h' : fetch conv es' = .ok x') : SameOrNone x x' := by
  cases es' with
  | nil => cases h'; exact .inl rfl
  | cons e' es' =>
    cases es with
    | nil => exact absurd hp (by simp)
    | cons e es =>
      obtain ⟨rfl, _⟩ := List.cons_prefix_cons.1 hp
      exact .inr (Res.ok.inj (h'.symm.trans h))

theorem everyOther_prefix {α : Type} : ∀ {l l' : List α}, l' <+: l → everyOther l' <+: everyOther l
  | _, [], _ => List.nil_prefix
  | [], _ :: _, h => absurd h (by simp)
  | a :: l, [b], h => by
    obtain ⟨rfl, _⟩ := List.cons_prefix_cons.1 h
    cases l with
    | nil => exact List.prefix_refl _
    | cons c l => simp [everyOther]
  | [a], b :: c :: l', h => absurd h (by simp)
  | a :: d :: l, b :: c :: l', h => by
    obtain ⟨rfl, h1⟩ := List.cons_prefix_cons.1 h
    obtain ⟨rfl, h2⟩ := List.cons_prefix_cons.1 h1
    exact (List.prefix_cons_inj b).2 (everyOther_prefix h2)

variable {full cut : Node} {kbb all : Bool} {d d' : Data}

/-- The parameters of the cut document. -/
structure ParamsCut (p p' : Params) : Prop where
  symprec : SameOrNone p.symprec p'.symprec
  sigma : SameOrNone p.sigma p'.sigma
  ismear : SameOrNone p.ismear p'.ismear
  ispin : SameOrNone p.ispin p'.ispin
  nbands : SameOrNone p.nbands p'.nbands
  nelect : SameOrNone p.nelect p'.nelect
  system : SameOrNone p.system p'.system
  nelm : SameOrNone p.nelm p'.nelm
  nsw : SameOrNone p.nsw p'.nsw

/-- C113, header: version, input parameters and divisions are those of the complete file or missing; species, k-points and weights are missing or the first
ones of those of the complete file. -/
theorem C113_header_partial (ho : Ordinary full) (hc : CutOff full cut) (h : parsew full kbb all = .ok d) (h' : parsew cut kbb all = .ok d') :
    SameOrNone d.version d'.version ∧ ParamsCut d.params d'.params ∧ SameOrNone d.kpointdiv d'.kpointdiv ∧
    BeginsOrNone d.species d'.species ∧ BeginsOrNone d.kpoints d'.kpoints ∧ BeginsOrNone d.kpointsw d'.kpointsw := by
  have P := parts h
  have P' := parts h'
  refine ⟨?_, ?_, ?_, ?_, ?_, ?_⟩
  · rw [P.version, P'.version]
    have := ho.prefix hc (t c!"generator") [] (tn c!"i" c!"version") (by decide) (by decide)
    unfold fetchVersion
    change findAny cut (t c!"generator") [tn c!"i" c!"version"] <+: findAny full (t c!"generator") [tn c!"i" c!"version"] at this
    cases hL' : findAny cut (t c!"generator") [tn c!"i" c!"version"] with
    | nil => exact .inl rfl
    | cons e' es' =>
      cases hL : findAny full (t c!"generator") [tn c!"i" c!"version"] with
      | nil => rw [hL, hL'] at this; exact absurd this (by simp)
      | cons e es =>
        rw [hL, hL'] at this
        obtain ⟨rfl, _⟩ := List.cons_prefix_cons.1 this
        exact .inr rfl
  · have hp := P.params
    have hp' := P'.params
    unfold fetchParams at hp hp'
    obtain ⟨p1, g1, hp⟩ := Res.bind_eq_ok.1 hp
    obtain ⟨p2, g2, hp⟩ := Res.bind_eq_ok.1 hp
    obtain ⟨p3, g3, hp⟩ := Res.bind_eq_ok.1 hp
    obtain ⟨p4, g4, hp⟩ := Res.bind_eq_ok.1 hp
    obtain ⟨p5, g5, hp⟩ := Res.bind_eq_ok.1 hp
    obtain ⟨p6, g6, hp⟩ := Res.bind_eq_ok.1 hp
    obtain ⟨p7, g7, hp⟩ := Res.bind_eq_ok.1 hp
    obtain ⟨p8, g8, hp⟩ := Res.bind_eq_ok.1 hp
    obtain ⟨p9, g9, hp⟩ := Res.bind_eq_ok.1 hp
    obtain ⟨q1, k1, hp'⟩ := Res.bind_eq_ok.1 hp'
    obtain ⟨q2, k2, hp'⟩ := Res.bind_eq_ok.1 hp'
    obtain ⟨q3, k3, hp'⟩ := Res.bind_eq_ok.1 hp'
    obtain ⟨q4, k4, hp'⟩ := Res.bind_eq_ok.1 hp'
    obtain ⟨q5, k5, hp'⟩ := Res.bind_eq_ok.1 hp'
    obtain ⟨q6, k6, hp'⟩ := Res.bind_eq_ok.1 hp'
    obtain ⟨q7, k7, hp'⟩ := Res.bind_eq_ok.1 hp'
    obtain ⟨q8, k8, hp'⟩ := Res.bind_eq_ok.1 hp'
    obtain ⟨q9, k9, hp'⟩ := Res.bind_eq_ok.1 hp'
    rw [← Res.ok.inj hp, ← Res.ok.inj hp']
    exact {
      symprec := fetch_prefix (ho.prefix hc _ [_] _ (by decide) (by decide)) g1 k1
      sigma := fetch_prefix (ho.prefix hc _ [_, _] _ (by decide) (by decide)) g2 k2
      ismear := fetch_prefix (ho.prefix hc _ [_, _] _ (by decide) (by decide)) g3 k3
      ispin := fetch_prefix (ho.prefix hc _ [_, _] _ (by decide) (by decide)) g4 k4
      nbands := fetch_prefix (ho.prefix hc _ [_] _ (by decide) (by decide)) g5 k5
      nelect := fetch_prefix (ho.prefix hc _ [_] _ (by decide) (by decide)) g6 k6
      system := fetch_prefix (ho.prefix hc _ [_] _ (by decide) (by decide)) g7 k7
      nelm := fetch_prefix (ho.prefix hc _ [_, _] _ (by decide) (by decide)) g8 k8
      nsw := fetch_prefix (ho.prefix hc _ [_] _ (by decide) (by decide)) g9 k9 }
  · have g := P.divisions
    have g' := P'.divisions
    have hd : ∀ root, fetchDivisions root = fetch (fun e => convertArrayI e >>= fun x => .ok (some x))
        (findRel root [t c!"kpoints", t c!"generation", tn c!"v" c!"divisions"]) := fun root => by
      unfold fetchDivisions fetch; split <;> rfl
    rw [hd] at g g'
    exact fetch_prefix (ho.prefixRel hc _ [_] _ (by decide)) g g'
  · have g := P.species
    have g' := P'.species
    have hs : ∀ root, fetchSpecies root = opt (fun e => convertSpecies (everyOther e))
        (findAny root (t c!"atominfo") [tn c!"array" c!"atoms", t c!"set", t c!"rc", t c!"c"]) := fun root => by
      unfold fetchSpecies opt; split <;> rfl
    rw [hs] at g g'
    refine opt_prefix (fun es es' a a' hp ha ha' => ?_) (ho.prefix hc _ [_, _, _] _ (by decide) (by decide)) g g'
    exact mapM'_prefix (everyOther_prefix hp) ha ha'
  · exact opt_prefix (fun es es' a a' hp ha ha' => convert2D_prefix hp ha ha') (ho.prefixRel hc _ [_] _ (by decide)) P.kpoints P'.kpoints
  · exact opt_prefix (fun es es' a a' hp ha ha' => mapM'_prefix hp ha ha') (ho.prefixRel hc _ [_] _ (by decide)) P.kpointsw P'.kpointsw

/-! ### eigenvalues and projections -/

/-- Eigenvalues, occupancies or projections of the cut document: missing, those of the complete document, or those of its first spin component alone. -/
def SpinsCut {α : Type} (x x' : Option (Spins α)) : Prop :=
  x' = none ∨ x' = x ∨ ∃ up down, x = some (.updown up down) ∧ x' = some (.total up)

theorem nonEmpty_some {l r : List Node} (h : nonEmpty l = some r) : r = l ∧ l ≠ [] := by
  unfold nonEmpty at h
  split at h
  · cases h
  · rename_i hn
    cases h
    exact ⟨rfl, by intro e; rw [e] at hn; exact hn rfl⟩

theorem nonEmpty_none {l : List Node} (h : nonEmpty l = none) : l = [] := by
  unfold nonEmpty at h
  split at h
  · rename_i hn; exact List.isEmpty_iff.1 hn
  · cases h

theorem prefix_eq_of_length {α : Type} {l l' : List α} (hp : l' <+: l) {m : Int} (h : ¬ (l.length : Int) ≠ m) (h' : ¬ (l'.length : Int) ≠ m) : l' = l :=
  hp.eq_of_length (by
    have h := not_not.1 h
    have h' := not_not.1 h'
    exact_mod_cast h'.trans h.symm)

theorem extractEigenvalues_cut {p : Params} {nk : Nat} {a a' b b' : List Node} (ha : a' <+: a) (hb : b' <+: b) {r r' : Spins Table × Option (Spins Table)}
    (h : extractEigenvalues p kbb a (nonEmpty b) nk = .ok r) (h' : extractEigenvalues p kbb a' (nonEmpty b') nk = .ok r') :
    SpinsCut (some r.1) (some r'.1) ∧ SpinsCut r.2 r'.2 := by
  unfold extractEigenvalues at h h'
  cases hi : p.ispin with
  | none => rw [hi] at h; cases h
  | some i =>
    rw [hi] at h h'
    cases hn : p.nbands with
    | none => rw [hn] at h; cases h
    | some nb =>
      rw [hn] at h h'
      simp only at h h'
      split at h
      · cases h
      · rename_i l1
        split at h'
        · cases h'
        · rename_i l1'
          cases prefix_eq_of_length ha l1 l1'
          obtain ⟨e, he, h⟩ := Res.bind_eq_ok.1 h
          obtain ⟨e', he', h'⟩ := Res.bind_eq_ok.1 h'
          rw [he] at he'
          cases he'
          cases ht : e.text with
          | none => rw [ht] at h; cases h
          | some s =>
            rw [ht] at h h'
            simp only at h h'
            obtain ⟨d1, hd, h⟩ := Res.bind_eq_ok.1 h
            obtain ⟨d1', hd', h'⟩ := Res.bind_eq_ok.1 h'
            rw [hd] at hd'
            cases hd'
            cases hb1 : nonEmpty b with
            | none =>
              have hbn := nonEmpty_none hb1
              rw [hbn] at hb
              have hbn' : b' = [] := List.prefix_nil.1 hb
              rw [hb1] at h
              rw [hbn'] at h'
              simp only at h
              rw [show nonEmpty ([] : List Node) = none from rfl] at h'
              simp only at h'
              rw [h] at h'
              cases h'
              exact ⟨.inr (.inl rfl), .inr (.inl rfl)⟩
            | some es2 =>
              obtain ⟨rfl, _⟩ := nonEmpty_some hb1
              rw [hb1] at h
              simp only at h
              split at h
              · cases h
              · rename_i l2
                obtain ⟨d2, hd2, h⟩ := Res.bind_eq_ok.1 h
                cases h
                cases hb2 : nonEmpty b' with
                | none =>
                  rw [hb2] at h'
                  cases h'
                  refine ⟨.inr (.inr ⟨_, _, rfl, rfl⟩), ?_⟩
                  by_cases hcol : (words s).length > 1
                  · simp only [if_pos hcol]
                    exact .inr (.inr ⟨_, _, rfl, rfl⟩)
                  · simp only [if_neg hcol]
                    exact .inl rfl
                | some es2' =>
                  obtain ⟨rfl, _⟩ := nonEmpty_some hb2
                  rw [hb2] at h'
                  simp only at h'
                  split at h'
                  · cases h'
                  · rename_i l2'
                    cases prefix_eq_of_length hb l2 l2'
                    obtain ⟨d2', hd2', h'⟩ := Res.bind_eq_ok.1 h'
                    rw [hd2] at hd2'
                    cases hd2'
                    cases h'
                    exact ⟨.inr (.inl rfl), .inr (.inl rfl)⟩

/-- C113, bands: if the input parameters and the k-points are complete, eigenvalues and occupancies are missing, those of the complete file, or those of the
first spin component alone. -/
theorem C113_bands_partial (ho : Ordinary full) (hc : CutOff full cut) (h : parsew full kbb all = .ok d) (h' : parsew cut kbb all = .ok d')
    (hp : d'.params = d.params) (hk : d'.kpoints = d.kpoints) :
    SpinsCut d.eigenvalues d'.eigenvalues ∧ SpinsCut d.occupancies d'.occupancies := by
  have g := (parts h).eigen
  have g' := (parts h').eigen
  rw [hp, hk] at g'
  have pa := ho.prefix hc (t c!"calculation") [t c!"eigenvalues", t c!"array", t c!"set", tc c!"set" c!"spin 1", t c!"set"] (t c!"r") (by decide) (by decide)
  have pb := ho.prefix hc (t c!"calculation") [t c!"eigenvalues", t c!"array", t c!"set", tc c!"set" c!"spin 2", t c!"set"] (t c!"r") (by decide) (by decide)
  unfold fetchEigenvalues at g g'
  simp only [List.cons_append, List.nil_append] at pa pb g g'
  generalize findAny full (t c!"calculation") [t c!"eigenvalues", t c!"array", t c!"set", tc c!"set" c!"spin 1", t c!"set", t c!"r"] = A at pa g
  generalize findAny cut (t c!"calculation") [t c!"eigenvalues", t c!"array", t c!"set", tc c!"set" c!"spin 1", t c!"set", t c!"r"] = A' at pa g'
  generalize findAny full (t c!"calculation") [t c!"eigenvalues", t c!"array", t c!"set", tc c!"set" c!"spin 2", t c!"set", t c!"r"] = B at pb g
  generalize findAny cut (t c!"calculation") [t c!"eigenvalues", t c!"array", t c!"set", tc c!"set" c!"spin 2", t c!"set", t c!"r"] = B' at pb g'
  cases A' with
  | nil =>
    simp only [Res.ok.injEq, Prod.mk.injEq] at g'
    exact ⟨.inl g'.1.symm, .inl g'.2.symm⟩
  | cons e' A' =>
    cases A with
    | nil => exact absurd pa (by simp)
    | cons e A =>
      cases hks : d.kpoints with
      | none => rw [hks] at g; cases g
      | some ks =>
        rw [hks] at g g'
        simp only at g g'
        obtain ⟨r, hr, g⟩ := Res.bind_eq_ok.1 g
        obtain ⟨r', hr', g'⟩ := Res.bind_eq_ok.1 g'
        simp only [Res.ok.injEq, Prod.mk.injEq] at g g'
        rw [← g.1, ← g.2, ← g'.1, ← g'.2]
        exact extractEigenvalues_cut pa pb hr hr'

theorem extractProjectors_cut {p : Params} {sp : Option (List Nat)} {kp : Option Table} {a a' b b' : List Node} (ha : a' <+: a) (hb : b' <+: b)
    {r r' : Spins (List (List Table))} (h : extractProjectors p kbb sp kp a (nonEmpty b) = .ok r)
    (h' : extractProjectors p kbb sp kp a' (nonEmpty b') = .ok r') : SpinsCut (some r) (some r') := by
  unfold extractProjectors at h h'
  cases kp with
  | none => cases h
  | some ks =>
    simp only at h h'
    cases hi : p.ispin with
    | none => rw [hi] at h; cases h
    | some i =>
      rw [hi] at h h'
      simp only at h h'
      cases hn : p.nbands with
      | none => rw [hn] at h; cases h
      | some nb =>
        rw [hn] at h h'
        simp only at h h'
        cases sp with
        | none => cases h
        | some sp =>
          simp only at h h'
          split at h
          · cases h
          · rename_i l1
            split at h'
            · cases h'
            · rename_i l1'
              cases prefix_eq_of_length ha l1 l1'
              obtain ⟨d1, hd, h⟩ := Res.bind_eq_ok.1 h
              obtain ⟨d1', hd', h'⟩ := Res.bind_eq_ok.1 h'
              rw [hd] at hd'
              cases hd'
              cases hb1 : nonEmpty b with
              | none =>
                have hbn := nonEmpty_none hb1
                rw [hbn] at hb
                have hbn' : b' = [] := List.prefix_nil.1 hb
                rw [hb1] at h
                rw [hbn', show nonEmpty ([] : List Node) = none from rfl] at h'
                cases h; cases h'
                exact .inr (.inl rfl)
              | some es2 =>
                obtain ⟨rfl, _⟩ := nonEmpty_some hb1
                rw [hb1] at h
                simp only at h
                split at h
                · cases h
                · rename_i l2
                  obtain ⟨d2, hd2, h⟩ := Res.bind_eq_ok.1 h
                  cases h
                  cases hb2 : nonEmpty b' with
                  | none =>
                    rw [hb2] at h'
                    cases h'
                    exact .inr (.inr ⟨_, _, rfl, rfl⟩)
                  | some es2' =>
                    obtain ⟨rfl, _⟩ := nonEmpty_some hb2
                    rw [hb2] at h'
                    simp only at h'
                    split at h'
                    · cases h'
                    · rename_i l2'
                      cases prefix_eq_of_length hb l2 l2'
                      obtain ⟨d2', hd2', h'⟩ := Res.bind_eq_ok.1 h'
                      rw [hd2] at hd2'
                      cases hd2'
                      cases h'
                      exact .inr (.inl rfl)

/-- C113, projections: likewise. Missing: a file cut behind the first spin, which is returned as one without spin (`C113_violation_*`). -/
theorem C113_projectors_partial (ho : Ordinary full) (hc : CutOff full cut) (h : parsew full kbb all = .ok d) (h' : parsew cut kbb all = .ok d')
    (hp : d'.params = d.params) (hk : d'.kpoints = d.kpoints) (hs : d'.species = d.species) : SpinsCut d.projectors d'.projectors := by
  have g := (parts h).projectors
  have g' := (parts h').projectors
  rw [hp, hk, hs] at g'
  have pa := ho.prefix hc (t c!"calculation") [t c!"projected", t c!"array", t c!"set", tc c!"set" c!"spin1", t c!"set", t c!"set"] (t c!"r") (by decide) (by decide)
  have pb := ho.prefix hc (t c!"calculation") [t c!"projected", t c!"array", t c!"set", tc c!"set" c!"spin2", t c!"set", t c!"set"] (t c!"r") (by decide) (by decide)
  unfold fetchProjectors at g g'
  simp only [List.cons_append, List.nil_append] at pa pb g g'
  generalize findAny full (t c!"calculation") [t c!"projected", t c!"array", t c!"set", tc c!"set" c!"spin1", t c!"set", t c!"set", t c!"r"] = A at pa g
  generalize findAny cut (t c!"calculation") [t c!"projected", t c!"array", t c!"set", tc c!"set" c!"spin1", t c!"set", t c!"set", t c!"r"] = A' at pa g'
  generalize findAny full (t c!"calculation") [t c!"projected", t c!"array", t c!"set", tc c!"set" c!"spin2", t c!"set", t c!"set", t c!"r"] = B at pb g
  generalize findAny cut (t c!"calculation") [t c!"projected", t c!"array", t c!"set", tc c!"set" c!"spin2", t c!"set", t c!"set", t c!"r"] = B' at pb g'
  cases A' with
  | nil => exact .inl (Res.ok.inj g').symm
  | cons e' A' =>
    cases A with
    | nil => exact absurd pa (by simp)
    | cons e A =>
      simp only at g g'
      obtain ⟨r, hr, g⟩ := Res.bind_eq_ok.1 g
      obtain ⟨r', hr', g'⟩ := Res.bind_eq_ok.1 g'
      rw [← Res.ok.inj g, ← Res.ok.inj g']
      exact extractProjectors_cut pa pb hr hr'

end Verif.Vasprun
