import Verif.Props.CutVasprun
import Verif.Props.EventTables
/-! # C113: densities of states, response data, ionic steps and energies of a vasprun.xml that is cut off -/
set_option autoImplicit false
namespace Verif.Vasprun
open Verif Verif.Utils Verif.Xml Verif.VasprunEvent
open Verif.Kpoints (idx toFloat toInt)
open Verif.Chgcar (chunks)

variable {full cut : Node} {kbb all : Bool} {d d' : Data}

/-! ### tables -/

theorem map_beginsOrNone {α β : Type} {x x' : Option (List α)} (h : BeginsOrNone x x') (f : α → β) :
    BeginsOrNone (x.map fun l => l.map f) (x'.map fun l => l.map f) := by
  rcases h with rfl | ⟨l, l', rfl, rfl, hp⟩
  · exact .inl rfl
  · exact .inr ⟨_, _, rfl, rfl, hp.map f⟩

theorem tableColumn_prefix {c : Nat} {a a' : Table} (h : a' <+: a) : tableColumn c a' <+: tableColumn c a := h.filterMap _

theorem tableColumn_beginsOrNone {c : Nat} {x x' : Option Table} (h : BeginsOrNone x x') : BeginsOrNone (x.map (tableColumn c)) (x'.map (tableColumn c)) := by
  rcases h with rfl | ⟨l, l', rfl, rfl, hp⟩
  · exact .inl rfl
  · exact .inr ⟨_, _, rfl, rfl, tableColumn_prefix hp⟩

/-- The dielectric data of the cut document. -/
structure DielCut (x x' : Diel) : Prop where
  energy : BeginsOrNone x.energy x'.energy
  imag : BeginsOrNone x.imag x'.imag
  real : BeginsOrNone x.real x'.real
  epsilon : BeginsOrNone x.epsilon x'.epsilon
  epsilonIon : BeginsOrNone x.epsilonIon x'.epsilonIon

theorem opt2_cut {n : Nat} (ho : Ordinary full) (hc : CutOff full cut) (ss : List Step) (e : Step) (he : e.tag ∈ [c!"i", c!"v", c!"r", c!"c"])
    {x x' : Option Table} (h : opt (fun e => convert2D e n) (findAny full (t c!"calculation") (ss ++ [e])) = .ok x)
    (h' : opt (fun e => convert2D e n) (findAny cut (t c!"calculation") (ss ++ [e])) = .ok x') : BeginsOrNone x x' :=
  opt_prefix (fun es es' a a' hp ha ha' => convert2D_prefix hp ha ha') (ho.prefix hc _ ss e (by decide) he) h h'

theorem CutAll.head {v v' : Node} {vs vs' : List Node} (h : CutAll (v :: vs) (v' :: vs')) : CutAll v.children v'.children := by
  generalize hl : v :: vs = l at h
  generalize hl' : v' :: vs' = l' at h
  cases h with
  | stop cs => cases hl'
  | inside tag attrs text text' ds ds' cs hne h => cases hl; cases hl'; exact h
  | keep c cs cs' h => cases hl; cases hl'; exact CutAll.refl _

theorem split_flatten {α : Type} {n : Nat} {l : List α} {a : List (List α)} (h : split n l = .ok a) : a.flatten = l := by
  obtain ⟨hn, hm, rfl⟩ := split_ok.1 h
  have key : ∀ (m k : Nat) (l : List α), l.length = k * m → (chunks m k l).flatten = l := by
    intro m k
    induction k with
    | zero => intro l hl; simp at hl; subst hl; rfl
    | succ k ih =>
      intro l hl
      have e : chunks m (k + 1) l = l.take m :: chunks m k (l.drop m) := by
        unfold chunks
        rw [List.range_succ_eq_map, List.map_cons, List.map_map]
        simp only [Nat.zero_mul, List.drop_zero, List.cons.injEq, true_and]
        refine List.map_congr_left fun i _ => ?_
        simp only [Function.comp, List.drop_drop]
        rw [Nat.succ_mul, Nat.add_comm]
      rw [e, List.flatten_cons, ih _ (by rw [List.length_drop, hl, Nat.add_mul]; omega), List.take_append_drop]
  refine key _ _ l ?_
  have := Nat.div_add_mod l.length n
  rw [hm] at this
  omega

/-- Born charges of the cut document: the rows are the first ones (the tables they are put in may be others, see `C113_violation_born`). -/
def BornCut (x x' : Option Born) : Prop :=
  x' = none ∨ x' = x ∨ ∃ b b', x = some (.charges b) ∧ x' = some (.charges b') ∧ b'.flatten <+: b.flatten

/-- C113, response data: if the species are complete, the tables are missing or consist of the first rows of those of the complete file. -/
theorem C113_response_partial (ho : Ordinary full) (hc : CutOff full cut) (h : parsew full kbb all = .ok d) (h' : parsew cut kbb all = .ok d')
    (hs : d'.species = d.species) :
    (∃ x x', d.dielectrics = some x ∧ d'.dielectrics = some x' ∧ DielCut x x') ∧ BeginsOrNone d.hessian d'.hessian ∧
    (d'.dynmat = none ∨ ∃ ev m m', d.dynmat = some (ev, m) ∧ d'.dynmat = some (ev, m') ∧ m' <+: m) ∧ BornCut d.born d'.born := by
  refine ⟨?_, ?_, ?_, ?_⟩
  · obtain ⟨x, g, e⟩ := (parts h).dielectrics
    obtain ⟨x', g', e'⟩ := (parts h').dielectrics
    refine ⟨x, x', e, e', ?_⟩
    unfold fetchDielectrics at g g'
    obtain ⟨a1, h1, g⟩ := Res.bind_eq_ok.1 g
    obtain ⟨a2, h2, g⟩ := Res.bind_eq_ok.1 g
    obtain ⟨a3, h3, g⟩ := Res.bind_eq_ok.1 g
    obtain ⟨a4, h4, g⟩ := Res.bind_eq_ok.1 g
    obtain ⟨b1, k1, g'⟩ := Res.bind_eq_ok.1 g'
    obtain ⟨b2, k2, g'⟩ := Res.bind_eq_ok.1 g'
    obtain ⟨b3, k3, g'⟩ := Res.bind_eq_ok.1 g'
    obtain ⟨b4, k4, g'⟩ := Res.bind_eq_ok.1 g'
    cases g; cases g'
    have c1 := opt2_cut ho hc [t c!"dielectricfunction", t c!"imag", t c!"array", t c!"set"] (t c!"r") (by decide) h1 k1
    have c2 := opt2_cut ho hc [t c!"dielectricfunction", t c!"real", t c!"array", t c!"set"] (t c!"r") (by decide) h2 k2
    have c3 := opt2_cut ho hc [tn c!"varray" c!"epsilon"] (t c!"v") (by decide) h3 k3
    have c4 := opt2_cut ho hc [tn c!"varray" c!"epsilon_ion"] (t c!"v") (by decide) h4 k4
    exact ⟨tableColumn_beginsOrNone c1, map_beginsOrNone c1 _, map_beginsOrNone c2 _, c3, c4⟩
  · have g := (parts h).hessian
    have g' := (parts h').hessian
    rw [hs] at g'
    have pp := ho.prefix hc (t c!"calculation") [t c!"dynmat", tn c!"varray" c!"hessian"] (t c!"v") (by decide) (by decide)
    unfold fetchHessian at g g'
    simp only [List.cons_append, List.nil_append] at pp
    generalize findAny full (t c!"calculation") [t c!"dynmat", tn c!"varray" c!"hessian", t c!"v"] = A at pp g
    generalize findAny cut (t c!"calculation") [t c!"dynmat", tn c!"varray" c!"hessian", t c!"v"] = A' at pp g'
    cases A' with
    | nil => exact .inl (Res.ok.inj g').symm
    | cons e' A' =>
      cases A with
      | nil => exact absurd pp (by simp)
      | cons e A =>
        simp only at g g'
        cases hsp : d.species with
        | none => rw [hsp] at g'; exact .inl (Res.ok.inj g').symm
        | some sp =>
          rw [hsp] at g g'
          simp only at g g'
          obtain ⟨r, hr, g⟩ := Res.bind_eq_ok.1 g
          obtain ⟨r', hr', g'⟩ := Res.bind_eq_ok.1 g'
          exact .inr ⟨r, r', (Res.ok.inj g).symm, (Res.ok.inj g').symm, convert2D_prefix pp hr hr'⟩
  · have g := (parts h).dynmat
    have g' := (parts h').dynmat
    rw [hs] at g'
    have pp := ho.prefix hc (t c!"calculation") [t c!"dynmat"] (tn c!"v" c!"eigenvalues") (by decide) (by decide)
    have qq := ho.cut hc (t c!"calculation") [t c!"dynmat", tn c!"varray" c!"eigenvectors"] (by decide)
    have hleaf : ∀ n ∈ findAny full (t c!"calculation") [t c!"dynmat", tn c!"varray" c!"eigenvectors"], ∀ m ∈ n.children, m.children = [] := by
      intro n hn m hm
      have htag : n.tag = c!"varray" := tag_follow (ss := [t c!"dynmat"]) (s := tn c!"varray" c!"eigenvectors") hn
      exact ho.leaf m (below_trans (mem_findAny hn) (mem_below hm)) (by rw [ho.rows n (mem_findAny hn) htag m hm]; decide)
    unfold fetchDynmat at g g'
    simp only [List.cons_append, List.nil_append] at pp
    generalize findAny full (t c!"calculation") [t c!"dynmat", tn c!"v" c!"eigenvalues"] = A at pp g
    generalize findAny cut (t c!"calculation") [t c!"dynmat", tn c!"v" c!"eigenvalues"] = A' at pp g'
    generalize findAny full (t c!"calculation") [t c!"dynmat", tn c!"varray" c!"eigenvectors"] = B at qq g hleaf
    generalize findAny cut (t c!"calculation") [t c!"dynmat", tn c!"varray" c!"eigenvectors"] = B' at qq g'
    cases A' with
    | nil => exact .inl (Res.ok.inj g').symm
    | cons e' A' =>
      cases A with
      | nil => exact absurd pp (by simp)
      | cons e A =>
        obtain ⟨rfl, _⟩ := List.cons_prefix_cons.1 pp
        simp only at g g'
        cases hsp : d.species with
        | none => rw [hsp] at g'; exact .inl (Res.ok.inj g').symm
        | some sp =>
          rw [hsp] at g g'
          simp only at g g'
          obtain ⟨ev, hev, g⟩ := Res.bind_eq_ok.1 g
          obtain ⟨ev', hev', g'⟩ := Res.bind_eq_ok.1 g'
          rw [hev] at hev'
          cases hev'
          cases B' with
          | nil => exact .inl (Res.ok.inj g').symm
          | cons v' B' =>
            cases B with
            | nil => exact absurd qq.nil (by simp)
            | cons v B =>
              simp only at g g'
              obtain ⟨r, hr, g⟩ := Res.bind_eq_ok.1 g
              obtain ⟨r', hr', g'⟩ := Res.bind_eq_ok.1 g'
              exact .inr ⟨ev, r, r', (Res.ok.inj g).symm, (Res.ok.inj g').symm,
                convert2D_prefix (qq.head.prefix (hleaf v (by simp))) hr hr'⟩
  · have g := (parts h).born
    have g' := (parts h').born
    rw [hs] at g'
    have pp := ho.prefix hc (t c!"calculation") [tn c!"array" c!"born_charges", t c!"set"] (t c!"v") (by decide) (by decide)
    unfold fetchBorn at g g'
    simp only [List.cons_append, List.nil_append] at pp
    generalize findAny full (t c!"calculation") [tn c!"array" c!"born_charges", t c!"set", t c!"v"] = A at pp g
    generalize findAny cut (t c!"calculation") [tn c!"array" c!"born_charges", t c!"set", t c!"v"] = A' at pp g'
    cases A' with
    | nil => exact .inl (Res.ok.inj g').symm
    | cons e' A' =>
      cases A with
      | nil => exact absurd pp (by simp)
      | cons e A =>
        simp only at g g'
        cases hsp : d.species with
        | none =>
          rw [hsp] at g g'
          exact .inr (.inl ((Res.ok.inj g').symm.trans (Res.ok.inj g)))
        | some sp =>
          rw [hsp] at g g'
          simp only at g g'
          obtain ⟨r, hr, g⟩ := Res.bind_eq_ok.1 g
          obtain ⟨r', hr', g'⟩ := Res.bind_eq_ok.1 g'
          obtain ⟨b, hb, g⟩ := Res.bind_eq_ok.1 g
          obtain ⟨b', hb', g'⟩ := Res.bind_eq_ok.1 g'
          refine .inr (.inr ⟨b, b', (Res.ok.inj g).symm, (Res.ok.inj g').symm, ?_⟩)
          rw [split_flatten hb, split_flatten hb']
          exact convert2D_prefix pp hr hr'

/-! ### density of states -/

/-- The density of one spin in the cut document: the first values. -/
def PartCut (p p' : DosPart) : Prop := p'.total <+: p.total ∧ p'.integrated <+: p.integrated

/-- A density of states in the cut document: missing, or the Fermi level is the same or missing, and energies and densities are the first ones of the
complete document; with spin, perhaps only those of the first spin component, then called the total. -/
def DosCut (x x' : Option Dos) : Prop :=
  x' = none ∨ ∃ y y', x = some y ∧ x' = some y' ∧ SameOrNone y.fermi y'.fermi ∧ y'.energy <+: y.energy ∧
    ((∃ u w u' w', y.up = some u ∧ y.down = some w ∧ y'.up = some u' ∧ y'.down = some w' ∧ PartCut u u' ∧ PartCut w w') ∨
     (∃ u u', y.whole = some u ∧ y'.whole = some u' ∧ y'.up = none ∧ y'.down = none ∧ PartCut u u') ∨
     (∃ u w u', y.up = some u ∧ y.down = some w ∧ y'.whole = some u' ∧ y'.up = none ∧ y'.down = none ∧ PartCut u u'))

theorem extractDos_cut {a a' b b' : List Node} (ha : a' <+: a) (hb : b' <+: b) {p1 p2 p1' p2' : Option (List Node)} {f f' : Option Rat} (hf : SameOrNone f f')
    {na : Nat} {x x' : Dos} (h : extractDos a (nonEmpty b) p1 p2 f na = .ok x) (h' : extractDos a' (nonEmpty b') p1' p2' f' na = .ok x') :
    DosCut (some x) (some x') := by
  refine .inr ⟨x, x', rfl, rfl, ?_⟩
  unfold extractDos at h h'
  cases hb1 : nonEmpty b with
  | none =>
    have hbn := nonEmpty_none hb1
    rw [hbn] at hb
    have hbn' : b' = [] := List.prefix_nil.1 hb
    rw [hb1] at h
    rw [hbn', show nonEmpty ([] : List Node) = none from rfl] at h'
    simp only at h h'
    obtain ⟨d1, h1, h⟩ := Res.bind_eq_ok.1 h
    obtain ⟨q1, h2, h⟩ := Res.bind_eq_ok.1 h
    obtain ⟨d1', h1', h'⟩ := Res.bind_eq_ok.1 h'
    obtain ⟨q1', h2', h'⟩ := Res.bind_eq_ok.1 h'
    cases h; cases h'
    have hp := convert2D_prefix ha h1 h1'
    exact ⟨hf, tableColumn_prefix hp, .inr (.inl ⟨_, _, rfl, rfl, rfl, rfl, tableColumn_prefix hp, tableColumn_prefix hp⟩)⟩
  | some l2 =>
    obtain ⟨rfl, _⟩ := nonEmpty_some hb1
    rw [hb1] at h
    simp only at h
    obtain ⟨d1, h1, h⟩ := Res.bind_eq_ok.1 h
    obtain ⟨q1, h2, h⟩ := Res.bind_eq_ok.1 h
    obtain ⟨d2, h3, h⟩ := Res.bind_eq_ok.1 h
    obtain ⟨q2, h4, h⟩ := Res.bind_eq_ok.1 h
    cases h
    cases hb2 : nonEmpty b' with
    | none =>
      rw [hb2] at h'
      simp only at h'
      obtain ⟨d1', h1', h'⟩ := Res.bind_eq_ok.1 h'
      obtain ⟨q1', h2', h'⟩ := Res.bind_eq_ok.1 h'
      cases h'
      have hp := convert2D_prefix ha h1 h1'
      exact ⟨hf, tableColumn_prefix hp, .inr (.inr ⟨_, _, _, rfl, rfl, rfl, rfl, rfl, tableColumn_prefix hp, tableColumn_prefix hp⟩)⟩
    | some l2' =>
      obtain ⟨rfl, _⟩ := nonEmpty_some hb2
      rw [hb2] at h'
      simp only at h'
      obtain ⟨d1', h1', h'⟩ := Res.bind_eq_ok.1 h'
      obtain ⟨q1', h2', h'⟩ := Res.bind_eq_ok.1 h'
      obtain ⟨d2', h3', h'⟩ := Res.bind_eq_ok.1 h'
      obtain ⟨q2', h4', h'⟩ := Res.bind_eq_ok.1 h'
      cases h'
      have hp := convert2D_prefix ha h1 h1'
      have hq := convert2D_prefix hb h3 h3'
      exact ⟨hf, tableColumn_prefix hp, .inl ⟨_, _, _, _, rfl, rfl, rfl, rfl, ⟨tableColumn_prefix hp, tableColumn_prefix hp⟩,
        ⟨tableColumn_prefix hq, tableColumn_prefix hq⟩⟩⟩

theorem fetchOneDos_cut (ho : Ordinary full) (hc : CutOff full cut) (s : Step) (na : Option Nat) {x x' : Option Dos}
    (h : fetchOneDos full s na = .ok x) (h' : fetchOneDos cut s na = .ok x') : DosCut x x' := by
  have pf := ho.prefix hc (t c!"calculation") [s] (tn c!"i" c!"efermi") (by decide) (by decide)
  have pa := ho.prefix hc (t c!"calculation") [s, t c!"total", t c!"array", t c!"set", tc c!"set" c!"spin 1"] (t c!"r") (by decide) (by decide)
  have pb := ho.prefix hc (t c!"calculation") [s, t c!"total", t c!"array", t c!"set", tc c!"set" c!"spin 2"] (t c!"r") (by decide) (by decide)
  unfold fetchOneDos at h h'
  simp only [List.cons_append, List.nil_append] at pf pa pb
  obtain ⟨f, hf, h⟩ := Res.bind_eq_ok.1 h
  obtain ⟨f', hf', h'⟩ := Res.bind_eq_ok.1 h'
  have hff := fetch_prefix pf hf hf'
  simp only at h h'
  generalize findAny full (t c!"calculation") [s, t c!"total", t c!"array", t c!"set", tc c!"set" c!"spin 1", t c!"r"] = A at pa h
  generalize findAny cut (t c!"calculation") [s, t c!"total", t c!"array", t c!"set", tc c!"set" c!"spin 1", t c!"r"] = A' at pa h'
  generalize findAny full (t c!"calculation") [s, t c!"total", t c!"array", t c!"set", tc c!"set" c!"spin 2", t c!"r"] = B at pb h
  generalize findAny cut (t c!"calculation") [s, t c!"total", t c!"array", t c!"set", tc c!"set" c!"spin 2", t c!"r"] = B' at pb h'
  cases A' with
  | nil => exact .inl (Res.ok.inj h').symm
  | cons e' A' =>
    cases A with
    | nil => exact absurd pa (by simp)
    | cons e A =>
      cases na with
      | none => exact .inl (Res.ok.inj h').symm
      | some n =>
        simp only at h h'
        obtain ⟨y, hy, h⟩ := Res.bind_eq_ok.1 h
        obtain ⟨y', hy', h'⟩ := Res.bind_eq_ok.1 h'
        rw [← Res.ok.inj h, ← Res.ok.inj h']
        exact extractDos_cut pa pb hff hy hy'

/-- C113, density of states, the ordinary and the interpolated one, if the species are complete. (The partial densities may be mixed up, see
`C113_violation_partial_dos`.) Missing: the same for partial densities, for which it is false. -/
theorem C113_dos_partial (ho : Ordinary full) (hc : CutOff full cut) (h : parsew full kbb all = .ok d) (h' : parsew cut kbb all = .ok d')
    (hs : d'.species = d.species) : DosCut d.dos d'.dos ∧ DosCut d.dosSpecific d'.dosSpecific := by
  have g := (parts h).dos
  have g' := (parts h').dos
  rw [hs] at g'
  unfold fetchDos at g g'
  obtain ⟨x, h1, g⟩ := Res.bind_eq_ok.1 g
  obtain ⟨x', h1', g'⟩ := Res.bind_eq_ok.1 g'
  have c1 := fetchOneDos_cut ho hc _ _ h1 h1'
  cases x' with
  | none =>
    simp only [Res.ok.injEq, Prod.mk.injEq] at g'
    rw [← g'.1, ← g'.2]
    exact ⟨.inl rfl, .inl rfl⟩
  | some y' =>
    simp only at g'
    obtain ⟨s', h2', g'⟩ := Res.bind_eq_ok.1 g'
    simp only [Res.ok.injEq, Prod.mk.injEq] at g'
    cases x with
    | none => rcases c1 with c1 | ⟨_, _, c1, _⟩ <;> cases c1
    | some y =>
      simp only at g
      obtain ⟨s, h2, g⟩ := Res.bind_eq_ok.1 g
      simp only [Res.ok.injEq, Prod.mk.injEq] at g
      rw [← g.1, ← g.2, ← g'.1, ← g'.2]
      exact ⟨c1, fetchOneDos_cut ho hc _ _ h2 h2'⟩

end Verif.Vasprun
