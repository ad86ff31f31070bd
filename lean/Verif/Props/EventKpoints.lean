import Verif.Props.EventHead
/-! # The event driven parser on the list of atoms and the k-points -/
set_option autoImplicit false
namespace Verif.VasprunEvent
open Verif Verif.Utils Verif.Xml Verif.Vasprun

/-- What a loop does to one part of the state. -/
theorem fold_project {σ α β γ : Type} {g : σ → α → Res σ} {π : σ → β} {items : α → List γ} {h : β → γ → Res β} {cs : List α}
    (hstep : ∀ a ∈ cs, ∀ s s', g s a = .ok s' → Res.foldlM' h (π s) (items a) = .ok (π s')) {s s' : σ} (hs : Res.foldlM' g s cs = .ok s') :
    Res.foldlM' h (π s) (cs.flatMap items) = .ok (π s') := by
  induction cs generalizing s with
  | nil => injection hs with hs; subst hs; rfl
  | cons a as ih =>
    rw [foldlM'_cons] at hs
    obtain ⟨s1, h1, h2⟩ := Res.bind_eq_ok.1 hs
    rw [List.flatMap_cons, foldlM'_append, hstep a (List.mem_cons_self ..) _ _ h1, Res.ok_bind]
    exact ih (fun a ha => hstep a (List.mem_cons_of_mem _ ha)) h2

theorem foldl_collect (k : Node → Bool) (d : List Node) (es : List Event) :
    es.foldl (fun d e => if e.start && k e.node then d ++ [e.node] else d) d = d ++ (es.filterMap started).filter k := by
  rw [← filter_started]
  induction es generalizing d with
  | nil => simp
  | cons e es ih =>
    rw [List.foldl_cons, ih]
    cases hk : e.start && k e.node with
    | true => rw [if_pos rfl, List.filter_cons_of_pos (by exact hk)]; simp
    | false => rw [if_neg (by simp), List.filter_cons_of_neg (by simp [hk])]

/-! ### the list of atoms -/

/-- Is this the tag of the element? -/
def hasTag (v : Str) (n : Node) : Bool := decide (n.tag = v)

theorem spec_step (kb : Bool) (o : Out) (d : List Node) (e : Event) (h : Still e.node) : step kb e ⟨{ spec := true, data := d }, o⟩ =
    .ok ⟨{ spec := true, data := if e.start && hasTag c!"c" e.node then d ++ [e.node] else d }, o⟩ := by
  obtain ⟨h1, h2, h3, h4, h5⟩ := h.ne
  have h6 := h.2
  unfold hasTag
  cases hs : e.start <;> by_cases hc : e.node.tag = c!"c" <;> evs [h1, h2, h3, h4, h5, h6, hs, hc]

/-- The array of atoms. -/
theorem run_atoms (kb : Bool) (o : Out) (p : Option Node) (a : Node) (ht : a.tag = c!"array") (hn : name a = some c!"atoms")
    (hs : ∀ m ∈ below a, Still m) : run kb (events p a) ⟨{}, o⟩ =
    (convertSpecies (everyOther ((below a).filter (hasTag c!"c"))) >>= fun sp => .ok ⟨{}, { o with species := some sp }⟩) := by
  rw [run_node]
  have h1 : step kb (starts p a) ⟨{}, o⟩ = .ok ⟨{ spec := true, data := [] }, o⟩ := by evs [ht, hn]
  rw [h1, Res.ok_bind, run_events kb (fun d => (⟨{ spec := true, data := d }, o⟩ : St))
    (fun d e => .ok (if e.start && hasTag c!"c" e.node then d ++ [e.node] else d)) _
    (fun e he d => by rw [spec_step kb o d e (hs _ (by rw [below_eq]; exact (mem_eventsAll _ _ e he).1))]; rfl), foldlM'_pure, foldl_collect,
    started_eventsAll, ← below_eq]
  simp only [Res.ok_bind, List.nil_append]
  cases hc : convertSpecies (everyOther ((below a).filter (hasTag c!"c"))) <;> evs [ht, hn, hc]

/-- The list of atoms: in one array, and only its entries have the tag `c`. -/
structure AtomsOk (a : Node) (arr : Node) : Prop where
  tag : a.tag = c!"atominfo"
  array : a.children.filter (tn c!"array" c!"atoms").selects = [arr]
  others : ∀ n ∈ a.children, (tn c!"array" c!"atoms").selects n = false → Filler n
  still : ∀ m ∈ below arr, Still m
  entries : (below arr).filter (hasTag c!"c") = findRel arr [t c!"set", t c!"rc", t c!"c"]
  some : findRel arr [t c!"set", t c!"rc", t c!"c"] ≠ []

theorem selects_tn {tag v : Str} {n : Node} : (tn tag v).selects n = true ↔ n.tag = tag ∧ name n = some v := by
  unfold Step.selects tn name
  constructor
  · intro h
    obtain ⟨h1, h2⟩ := Bool.and_eq_true_iff.1 h
    exact ⟨of_decide_eq_true h1, of_decide_eq_true h2⟩
  · rintro ⟨h1, h2⟩
    exact Bool.and_eq_true_iff.2 ⟨decide_eq_true h1, decide_eq_true h2⟩

theorem selects_t {tag : Str} {n : Node} : (t tag).selects n = true ↔ n.tag = tag := by
  unfold Step.selects t
  constructor
  · intro h
    exact of_decide_eq_true (Bool.and_eq_true_iff.1 h).1
  · intro h
    exact Bool.and_eq_true_iff.2 ⟨decide_eq_true h, rfl⟩

theorem unique_split {α : Type} {k : α → Bool} {l : List α} {x : α} (h : l.filter k = [x]) :
    ∃ pre post, l = pre ++ x :: post ∧ (∀ a ∈ pre, k a = false) ∧ (∀ a ∈ post, k a = false) ∧ k x = true := by
  induction l with
  | nil => cases h
  | cons a as ih =>
    cases hk : k a with
    | true =>
      rw [List.filter_cons_of_pos hk] at h
      injection h with h1 h2
      subst h1
      refine ⟨[], as, rfl, by simp, fun b hb => ?_, hk⟩
      by_contra hc
      have : b ∈ as.filter k := List.mem_filter.2 ⟨hb, by simpa using hc⟩
      rw [h2] at this; cases this
    | false =>
      rw [List.filter_cons_of_neg (by simp [hk])] at h
      obtain ⟨pre, post, h1, h2, h3, h4⟩ := ih h
      refine ⟨a :: pre, post, by rw [h1]; rfl, fun b hb => ?_, h3, h4⟩
      rcases List.mem_cons.1 hb with rfl | hb
      · exact hk
      · exact h2 b hb

theorem run_fillers (kb : Bool) (o : Out) (p : Option Node) (ns : List Node) (h : ∀ n ∈ ns, Filler n) : run kb (eventsAll p ns) ⟨{}, o⟩ = .ok ⟨{}, o⟩ := by
  induction ns with
  | nil => rw [eventsAll_nil]; rfl
  | cons n ns ih =>
    rw [eventsAll_cons, run_append, run_filler kb o p n (h n (List.mem_cons_self ..)), Res.ok_bind]
    exact ih fun m hm => h m (List.mem_cons_of_mem _ hm)

/-- `atominfo`. -/
theorem run_atominfo (kb : Bool) (o : Out) (p : Option Node) (a arr : Node) (h : AtomsOk a arr) : run kb (events p a) ⟨{}, o⟩ =
    (convertSpecies (everyOther (findRel arr [t c!"set", t c!"rc", t c!"c"])) >>= fun sp => .ok ⟨{}, { o with species := some sp }⟩) := by
  have hstill : Still a := ⟨by rw [h.tag]; decide, fun hc => absurd (h.tag.symm.trans hc.1) (by decide)⟩
  obtain ⟨pre, post, h1, h2, h3, h4⟩ := unique_split h.array
  obtain ⟨h5, h6⟩ := selects_tn.1 h4
  rw [run_node, still_step kb o (starts p a) hstill, Res.ok_bind, h1, eventsAll_append, eventsAll_cons, run_append,
    run_fillers kb o _ pre (fun n hn => h.others n (by rw [h1]; exact List.mem_append_left _ hn) (h2 n hn)), Res.ok_bind, run_append,
    run_atoms kb o _ arr h5 h6 h.still, h.entries]
  cases convertSpecies (everyOther (findRel arr [t c!"set", t c!"rc", t c!"c"])) with
  | exit c => rfl
  | raise x => rfl
  | ok sp =>
    simp only [Res.ok_bind]
    rw [run_fillers kb _ _ post (fun n hn => h.others n (by rw [h1]; exact List.mem_append_right _ (List.mem_cons_of_mem _ hn)) (h3 n hn)), Res.ok_bind]
    exact still_step kb _ (ends p a) hstill

theorem species_agree (root a arr : Node) (ha : (below root).filter (t c!"atominfo").selects = [a]) (h : AtomsOk a arr) :
    fetchSpecies root = (convertSpecies (everyOther (findRel arr [t c!"set", t c!"rc", t c!"c"])) >>= fun sp => .ok (some sp)) := by
  unfold fetchSpecies
  have : findAny root (t c!"atominfo") [tn c!"array" c!"atoms", t c!"set", t c!"rc", t c!"c"] = findRel arr [t c!"set", t c!"rc", t c!"c"] := by
    unfold findAny findRel
    rw [ha, follow, List.flatMap_singleton, h.array]
  rw [this]
  cases hf : findRel arr [t c!"set", t c!"rc", t c!"c"] with
  | nil => exact absurd hf h.some
  | cons x xs => rfl

/-! ### the k-points -/

/-- The rows of a table: elements `v` without name and children. -/
def VRows (n : Node) : Prop := ∀ m ∈ n.children, m.tag = c!"v" ∧ name m = none ∧ m.children = []

theorem belowAll_leaves : ∀ (cs : List Node), (∀ m ∈ cs, m.children = []) → belowAll cs = cs
  | [], _ => by rw [belowAll]
  | c :: cs, h => by
    rw [belowAll, below_eq, h c (List.mem_cons_self ..), belowAll_leaves cs (fun m hm => h m (List.mem_cons_of_mem _ hm)), belowAll]; rfl

theorem VRows.below {n : Node} (h : VRows n) : below n = n.children := by
  rw [below_eq, belowAll_leaves _ fun m hm => (h m hm).2.2]

theorem VRows.filter {n : Node} (h : VRows n) : n.children.filter (t c!"v").selects = n.children := by
  rw [List.filter_eq_self]
  exact fun m hm => selects_t.2 (h m hm).1

/-- Is this the number of divisions? -/
def isDivisions (n : Node) : Bool := (tn c!"v" c!"divisions").selects n

/-- The numbers of divisions below a child of `kpoints` that are found at their place. -/
def divisionsIn (n : Node) : List Node := if n.tag = c!"generation" then n.children.filter isDivisions else []

/-- A child of `kpoints` that is not one of the two tables. -/
def KpointsOther (n : Node) : Prop := (∀ m ∈ n :: below n, Still m ∧ ¬ (m.tag = c!"varray" ∧ (name m = some c!"kpointlist" ∨ name m = some c!"weights"))) ∧
  (n :: below n).filter isDivisions = divisionsIn n

/-- The k-points: one table of points, one of weights, at most one number of divisions. -/
structure KpointsOk (k l w : Node) : Prop where
  tag : k.tag = c!"kpoints"
  points : k.children.filter (tn c!"varray" c!"kpointlist").selects = [l]
  weights : k.children.filter (tn c!"varray" c!"weights").selects = [w]
  rows : VRows l ∧ l.children ≠ [] ∧ VRows w ∧ w.children ≠ []
  others : ∀ n ∈ k.children, (tn c!"varray" c!"kpointlist").selects n = false → (tn c!"varray" c!"weights").selects n = false → KpointsOther n
  divisions : (findRel k [t c!"generation", tn c!"v" c!"divisions"]).length ≤ 1

/-- What a child of `kpoints` does. -/
def kpointsChild (o : Out) (n : Node) : Res Out :=
  if (tn c!"varray" c!"kpointlist").selects n then convert2D n.children 3 >>= fun x => .ok { o with kpoints := some x }
  else if (tn c!"varray" c!"weights").selects n then convert1D n.children >>= fun x => .ok { o with kpointsw := some x }
  else Res.foldlM' (fun o d => convertArrayI d >>= fun x => .ok { o with kpointdiv := some x }) o (divisionsIn n)

theorem row_still {m : Node} (h : m.tag = c!"v") : Still m := ⟨by rw [h]; decide, fun hc => absurd (h.symm.trans hc.1) (by decide)⟩

theorem kp_step (kb : Bool) (o : Out) (d : List Node) (e : Event) (h : e.node.tag = c!"v" ∧ name e.node = none) :
    step kb e ⟨{ kdata := true, kp := true, data := d }, o⟩ =
    .ok ⟨{ kdata := true, kp := true, data := if e.start && hasTag c!"v" e.node then d ++ [e.node] else d }, o⟩ := by
  unfold hasTag
  cases hs : e.start <;> evs [h.1, h.2, hs]

theorem kpw_step (kb : Bool) (o : Out) (d : List Node) (e : Event) (h : e.node.tag = c!"v" ∧ name e.node = none) :
    step kb e ⟨{ kdata := true, kpw := true, data := d }, o⟩ =
    .ok ⟨{ kdata := true, kpw := true, data := if e.start && hasTag c!"v" e.node then d ++ [e.node] else d }, o⟩ := by
  unfold hasTag
  cases hs : e.start <;> evs [h.1, h.2, hs]

theorem VRows.hasTag {n : Node} (h : VRows n) : n.children.filter (VasprunEvent.hasTag c!"v") = n.children := by
  rw [List.filter_eq_self]
  exact fun m hm => by simp [VasprunEvent.hasTag, (h m hm).1]

/-- Rows collected from a table. -/
theorem run_rows (kb : Bool) (X : List Node → St) (n : Node) (h : VRows n) (p : Option Node)
    (hX : ∀ d e, e.node.tag = c!"v" ∧ name e.node = none → step kb e (X d) = .ok (X (if e.start && hasTag c!"v" e.node then d ++ [e.node] else d))) :
    run kb (eventsAll p n.children) (X []) = .ok (X n.children) := by
  rw [run_events kb X (fun d e => .ok (if e.start && hasTag c!"v" e.node then d ++ [e.node] else d)) _ (fun e he d => ?_), foldlM'_pure, foldl_collect,
    started_eventsAll, ← below_eq, h.below, h.hasTag]
  · rfl
  · have := (mem_eventsAll _ _ e he).1
    rw [← below_eq, h.below] at this
    rw [hX d e ⟨(h _ this).1, (h _ this).2.1⟩]
    rfl

theorem div_step (kb : Bool) (o : Out) (e : Event) (hv : e.seen = e.node.text)
    (h : Still e.node ∧ ¬ (e.node.tag = c!"varray" ∧ (name e.node = some c!"kpointlist" ∨ name e.node = some c!"weights"))) :
    step kb e ⟨{ kdata := true }, o⟩ = (if e.start && isDivisions e.node then convertArrayI e.node >>= fun x => .ok ⟨{ kdata := true }, { o with kpointdiv := some x }⟩
      else .ok ⟨{ kdata := true }, o⟩) := by
  obtain ⟨h1, h2, h3, h4, h5⟩ := h.1.ne
  have h6 := h.1.2
  have h7 : ¬ (e.node.tag = c!"varray" ∧ name e.node = some c!"kpointlist") := fun hc => h.2 ⟨hc.1, .inl hc.2⟩
  have h8 : ¬ (e.node.tag = c!"varray" ∧ name e.node = some c!"weights") := fun hc => h.2 ⟨hc.1, .inr hc.2⟩
  cases hd : isDivisions e.node with
  | true =>
    obtain ⟨g1, g2⟩ := selects_tn.1 hd
    cases hs : e.start with
    | true =>
      rw [if_pos (by rfl)]
      have := asSeen_eq hv
      cases hc : convertArrayI e.node <;> evs [g1, g2, hs, this, hc]
    | false => evs [g1, g2, hs]
  | false =>
    have h9 : ¬ (e.node.tag = c!"v" ∧ name e.node = some c!"divisions") := fun hc => by
      have : isDivisions e.node = true := selects_tn.2 hc
      rw [hd] at this; cases this
    rw [if_neg (by simp)]
    cases hs : e.start <;> evs [h1, h2, h3, h4, h5, h6, h7, h8, h9, hs]

theorem tn_ne {tag v w : Str} {n : Node} (h : (tn tag v).selects n = true) (hvw : v ≠ w) : (tn tag w).selects n = false := by
  cases hc : (tn tag w).selects n with
  | false => rfl
  | true =>
    have h1 := (selects_tn.1 h).2
    have h2 := (selects_tn.1 hc).2
    rw [h1] at h2
    injection h2 with h2
    exact absurd h2 hvw

/-- What the numbers of divisions do. -/
def setDivisions (o : Out) (d : Node) : Res Out := convertArrayI d >>= fun x => .ok { o with kpointdiv := some x }

theorem fold_started {σ : Type} (k : Node → Bool) (f : σ → Node → Res σ) (s : σ) (es : List Event) :
    Res.foldlM' (fun s e => if e.start && k e.node then f s e.node else .ok s) s es = Res.foldlM' f s ((es.filterMap started).filter k) := by
  rw [← filter_started]
  induction es generalizing s with
  | nil => rfl
  | cons e es ih =>
    rw [foldlM'_cons]
    cases hk : e.start && k e.node with
    | true =>
      rw [if_pos rfl, List.filter_cons_of_pos (by exact hk), List.map_cons, foldlM'_cons]
      congr 1
      funext s
      exact ih s
    | false =>
      rw [if_neg (by simp), List.filter_cons_of_neg (by simp [hk]), Res.ok_bind]
      exact ih s

theorem run_kpoints_child (kb : Bool) (o : Out) (p : Option Node) (k l w n : Node) (h : KpointsOk k l w) (hn : n ∈ k.children) :
    run kb (events p n) ⟨{ kdata := true }, o⟩ = (kpointsChild o n >>= fun o => .ok ⟨{ kdata := true }, o⟩) := by
  unfold kpointsChild
  cases h1 : (tn c!"varray" c!"kpointlist").selects n with
  | true =>
    have hl : n = l := by
      have : n ∈ k.children.filter (tn c!"varray" c!"kpointlist").selects := List.mem_filter.2 ⟨hn, h1⟩
      rw [h.points] at this
      exact List.mem_singleton.1 this
    subst hl
    obtain ⟨g1, g2⟩ := selects_tn.1 h1
    rw [run_node]
    have e1 : step kb (starts p n) ⟨{ kdata := true }, o⟩ = .ok ⟨{ kdata := true, kp := true, data := [] }, o⟩ := by evs [g1, g2]
    rw [e1, Res.ok_bind, run_rows kb (fun d => ⟨{ kdata := true, kp := true, data := d }, o⟩) n h.rows.1 _ (fun d e he => kp_step kb o d e he), Res.ok_bind]
    cases hc : convert2D n.children 3 <;> evs [g1, g2, hc]
  | false =>
    cases h2 : (tn c!"varray" c!"weights").selects n with
    | true =>
      have hl : n = w := by
        have : n ∈ k.children.filter (tn c!"varray" c!"weights").selects := List.mem_filter.2 ⟨hn, h2⟩
        rw [h.weights] at this
        exact List.mem_singleton.1 this
      subst hl
      obtain ⟨g1, g2⟩ := selects_tn.1 h2
      rw [run_node]
      have e1 : step kb (starts p n) ⟨{ kdata := true }, o⟩ = .ok ⟨{ kdata := true, kpw := true, data := [] }, o⟩ := by evs [g1, g2]
      rw [e1, Res.ok_bind, run_rows kb (fun d => ⟨{ kdata := true, kpw := true, data := d }, o⟩) n h.rows.2.2.1 _ (fun d e he => kpw_step kb o d e he), Res.ok_bind]
      cases hc : convert1D n.children <;> evs [g1, g2, hc]
    | false =>
      obtain ⟨g1, g2⟩ := h.others n hn h1 h2
      rw [run_events kb (fun o => (⟨{ kdata := true }, o⟩ : St)) (fun o e => if e.start && isDivisions e.node then setDivisions o e.node else .ok o) _
        (fun e he o => ?_), fold_started, started_events, g2]
      · rfl
      · obtain ⟨f1, f2⟩ := mem_events n p e he
        rw [div_step kb o e f2 (g1 _ f1)]
        split
        · unfold setDivisions
          cases convertArrayI e.node <;> rfl
        · rfl

/-- `kpoints`. -/
theorem run_kpoints (kb : Bool) (o : Out) (p : Option Node) (k l w : Node) (h : KpointsOk k l w) :
    run kb (events p k) ⟨{}, o⟩ = (Res.foldlM' kpointsChild o k.children >>= fun o => .ok ⟨{}, o⟩) := by
  rw [run_node]
  have e1 : step kb (starts p k) ⟨{}, o⟩ = .ok ⟨{ kdata := true }, o⟩ := by evs [h.tag]
  rw [e1, Res.ok_bind, run_children kb (fun o => (⟨{ kdata := true }, o⟩ : St)) kpointsChild _ _ (fun c hc o => run_kpoints_child kb o _ k l w c h hc)]
  cases Res.foldlM' kpointsChild o k.children with
  | exit c => rfl
  | raise x => rfl
  | ok o =>
    simp only [Res.ok_bind]
    evs [h.tag]

/-- What the children of `kpoints` leave as it was. -/
theorem kpointsChild_keeps {o o' : Out} {n : Node} (h : kpointsChild o n = .ok o') :
    ((tn c!"varray" c!"kpointlist").selects n = false → o'.kpoints = o.kpoints) ∧
    ((tn c!"varray" c!"weights").selects n = false → o'.kpointsw = o.kpointsw) ∧
    ({ o' with kpoints := o.kpoints, kpointsw := o.kpointsw, kpointdiv := o.kpointdiv } : Out) = o ∧
    Res.foldlM' setDivisions o (if (tn c!"varray" c!"kpointlist").selects n || (tn c!"varray" c!"weights").selects n then [] else divisionsIn n) =
      .ok { o with kpointdiv := o'.kpointdiv } := by
  have hdiv : ∀ (l : List Node) (o o' : Out), Res.foldlM' setDivisions o l = .ok o' → o' = { o with kpointdiv := o'.kpointdiv } := by
    intro l
    induction l with
    | nil => intro o o' h; injection h with h; subst h; rfl
    | cons d l ih =>
      intro o o' h
      rw [foldlM'_cons] at h
      obtain ⟨o1, h1, h2⟩ := Res.bind_eq_ok.1 h
      unfold setDivisions at h1
      obtain ⟨x, _, h1⟩ := Res.bind_eq_ok.1 h1
      injection h1 with h1
      subst h1
      rw [ih _ _ h2]
  unfold kpointsChild at h
  cases h1 : (tn c!"varray" c!"kpointlist").selects n with
  | true =>
    rw [h1] at h
    obtain ⟨x, _, h⟩ := Res.bind_eq_ok.1 h
    injection h with h
    subst h
    exact ⟨fun h => (by cases h), fun _ => rfl, rfl, rfl⟩
  | false =>
    rw [h1] at h
    cases h2 : (tn c!"varray" c!"weights").selects n with
    | true =>
      rw [h2] at h
      obtain ⟨x, _, h⟩ := Res.bind_eq_ok.1 h
      injection h with h
      subst h
      exact ⟨fun _ => rfl, fun h => (by cases h), rfl, rfl⟩
    | false =>
      rw [h2] at h
      have h : Res.foldlM' setDivisions o (divisionsIn n) = .ok o' := h
      have := hdiv _ _ _ h
      refine ⟨fun _ => by rw [this], fun _ => by rw [this], by rw [this], ?_⟩
      rw [← this]
      exact h

/-- The divisions are in the place where the regular parser looks for them. -/
theorem divisions_place {k l w : Node} (h : KpointsOk k l w) :
    k.children.flatMap (fun n => if (tn c!"varray" c!"kpointlist").selects n || (tn c!"varray" c!"weights").selects n then [] else divisionsIn n) =
    findRel k [t c!"generation", tn c!"v" c!"divisions"] := by
  have key : ∀ cs : List Node, cs.flatMap (fun n => if (tn c!"varray" c!"kpointlist").selects n || (tn c!"varray" c!"weights").selects n then [] else divisionsIn n) =
      (cs.filter (t c!"generation").selects).flatMap fun n => n.children.filter (tn c!"v" c!"divisions").selects := by
    intro cs
    induction cs with
    | nil => rfl
    | cons c cs ih =>
      rw [List.flatMap_cons, ih]
      cases hc : (t c!"generation").selects c with
      | true =>
        rw [List.filter_cons_of_pos hc, List.flatMap_cons]
        congr 1
        have hg := selects_t.1 hc
        have h1 : ∀ v, (tn c!"varray" v).selects c = false := fun v => by
          cases hv : (tn c!"varray" v).selects c with
          | false => rfl
          | true => exact absurd (hg.symm.trans (selects_tn.1 hv).1) (by decide)
        rw [h1, h1]
        unfold divisionsIn
        rw [if_pos hg]
        rfl
      | false =>
        rw [List.filter_cons_of_neg (by simp [hc])]
        have hg : c.tag ≠ c!"generation" := fun hg => by rw [selects_t.2 hg] at hc; cases hc
        have : divisionsIn c = [] := by unfold divisionsIn; rw [if_neg hg]
        rw [this, ite_self, List.nil_append]
  rw [key]
  unfold findRel
  rw [follow, follow, follow, List.flatMap_singleton]

/-- The k-points, weights and divisions are those the regular parser finds, and nothing else is changed. -/
theorem kpoints_agree (root k l w : Node) (hk : root.children.filter (t c!"kpoints").selects = [k]) (h : KpointsOk k l w) (o o' : Out)
    (ho : o.kpointdiv = none) (hf : Res.foldlM' kpointsChild o k.children = .ok o') :
    opt (fun e => convert2D e 3) (findRel root [t c!"kpoints", tn c!"varray" c!"kpointlist", t c!"v"]) = .ok o'.kpoints ∧
    opt convert1D (findRel root [t c!"kpoints", tn c!"varray" c!"weights", t c!"v"]) = .ok o'.kpointsw ∧
    fetchDivisions root = .ok o'.kpointdiv ∧
    ({ o' with kpoints := o.kpoints, kpointsw := o.kpointsw, kpointdiv := o.kpointdiv } : Out) = o ∧ o'.kpoints.isSome := by
  have opt_cons : ∀ {α : Type} (f : List Node → Res α) (es : List Node), es ≠ [] → opt f es = (f es >>= fun x => .ok (some x)) := by
    intro α f es he
    cases es with
    | nil => exact absurd rfl he
    | cons _ _ => rfl
  have p1 : findRel root [t c!"kpoints", tn c!"varray" c!"kpointlist", t c!"v"] = l.children := by
    unfold findRel
    rw [follow, List.flatMap_singleton, hk, follow, List.flatMap_singleton, h.points, follow, List.flatMap_singleton, h.rows.1.filter, follow]
  have p2 : findRel root [t c!"kpoints", tn c!"varray" c!"weights", t c!"v"] = w.children := by
    unfold findRel
    rw [follow, List.flatMap_singleton, hk, follow, List.flatMap_singleton, h.weights, follow, List.flatMap_singleton, h.rows.2.2.1.filter, follow]
  have p3 : findRel root [t c!"kpoints", t c!"generation", tn c!"v" c!"divisions"] = findRel k [t c!"generation", tn c!"v" c!"divisions"] := by
    unfold findRel
    rw [follow, List.flatMap_singleton, hk]
  have sel : ∀ {v : Str} {x : Node}, k.children.filter (tn c!"varray" v).selects = [x] → (tn c!"varray" v).selects x = true := fun {v x} hx => by
    have : x ∈ k.children.filter (tn c!"varray" v).selects := hx ▸ List.mem_singleton.2 rfl
    exact (List.mem_filter.1 this).2
  refine ⟨?_, ?_, ?_, ?_⟩
  · obtain ⟨s1, s2, g1, _, g3, _⟩ := foldlM'_unique (π := fun o : Out => o.kpoints) h.points (fun a _ ha s s' hs => (kpointsChild_keeps hs).1 ha) hf
    unfold kpointsChild at g1
    rw [if_pos (sel h.points)] at g1
    obtain ⟨x, hx, g1⟩ := Res.bind_eq_ok.1 g1
    injection g1 with g1
    rw [p1, opt_cons _ _ h.rows.2.1, hx, g3, ← g1]
    rfl
  · obtain ⟨s1, s2, g1, _, g3, _⟩ := foldlM'_unique (π := fun o : Out => o.kpointsw) h.weights (fun a _ ha s s' hs => (kpointsChild_keeps hs).2.1 ha) hf
    unfold kpointsChild at g1
    have : (tn c!"varray" c!"kpointlist").selects w = false := tn_ne (sel h.weights) (by decide)
    rw [if_neg (by rw [this]; simp), if_pos (sel h.weights)] at g1
    obtain ⟨x, hx, g1⟩ := Res.bind_eq_ok.1 g1
    injection g1 with g1
    rw [p2, opt_cons _ _ h.rows.2.2.2, hx, g3, ← g1]
    rfl
  · have hd : Res.foldlM' (fun (_ : Option (List Int)) d => convertArrayI d >>= fun x => .ok (some x)) o.kpointdiv
        (k.children.flatMap (fun n => if (tn c!"varray" c!"kpointlist").selects n || (tn c!"varray" c!"weights").selects n then [] else divisionsIn n)) = .ok o'.kpointdiv := by
      refine fold_project (π := fun o : Out => o.kpointdiv) (g := kpointsChild) (fun a _ s s' hs => ?_) hf
      have hs := (kpointsChild_keeps hs).2.2.2
      generalize (if (tn c!"varray" c!"kpointlist").selects a || (tn c!"varray" c!"weights").selects a then [] else divisionsIn a) = ds at hs ⊢
      have gen : ∀ (ds : List Node) (s s' : Out), Res.foldlM' setDivisions s ds = .ok s' →
          Res.foldlM' (fun (_ : Option (List Int)) d => convertArrayI d >>= fun x => .ok (some x)) s.kpointdiv ds = .ok s'.kpointdiv := by
        intro ds
        induction ds with
        | nil => intro s s' h; injection h with h; subst h; rfl
        | cons d ds ih =>
          intro s s' h
          rw [foldlM'_cons] at h ⊢
          obtain ⟨s1, h1, h2⟩ := Res.bind_eq_ok.1 h
          unfold setDivisions at h1
          obtain ⟨x, hx, h1⟩ := Res.bind_eq_ok.1 h1
          injection h1 with h1
          have := ih _ _ h2
          rw [← h1] at this
          rw [hx]
          exact this
      have hg := gen ds s _ hs
      exact hg
    rw [divisions_place h, ho] at hd
    unfold fetchDivisions
    rw [p3]
    have hl := h.divisions
    cases hv : findRel k [t c!"generation", tn c!"v" c!"divisions"] with
    | nil => rw [hv] at hd; injection hd with hd; rw [← hd]
    | cons d ds =>
      rw [hv] at hd hl
      cases ds with
      | cons _ _ => simp at hl
      | nil =>
        rw [foldlM'_cons] at hd
        obtain ⟨x, hx, hd⟩ := Res.bind_eq_ok.1 hd
        injection hd with hd
        show (convertArrayI d >>= fun x => .ok (some x)) = _
        rw [hx, hd]
  · refine ⟨?_, ?_⟩
    · exact foldlM'_keeps (π := fun q : Out => ({ q with kpoints := o.kpoints, kpointsw := o.kpointsw, kpointdiv := o.kpointdiv } : Out))
        (fun a _ s s' hs => by
          have := (kpointsChild_keeps hs).2.2.1
          rw [← this]) hf
    · obtain ⟨s1, s2, g1, _, g3, _⟩ := foldlM'_unique (π := fun o : Out => o.kpoints) h.points (fun a _ ha s s' hs => (kpointsChild_keeps hs).1 ha) hf
      unfold kpointsChild at g1
      rw [if_pos (sel h.points)] at g1
      obtain ⟨x, hx, g1⟩ := Res.bind_eq_ok.1 g1
      injection g1 with g1
      rw [g3, ← g1]
      rfl

end Verif.VasprunEvent
