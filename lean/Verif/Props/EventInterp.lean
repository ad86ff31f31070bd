import Verif.Props.EventEnergies
/-! # C53: interpolated eigenvalues, eigenvelocities and their k-points -/
set_option autoImplicit false
namespace Verif.VasprunEvent
open Verif Verif.Utils Verif.Xml Verif.Vasprun

/-- The tag of interpolated eigenvalues (`false`) or eigenvelocities (`true`). -/
def specTag (v : Bool) : Str := if v then c!"eigenvelocities" else c!"eigenvalues"

theorem part_vel {n : Node} (h : CalcPart n) (ht : n.tag = c!"eigenvelocities") : ∃ kp e, SpecialOk true n kp e := by
  have tne : ∀ {s : Str}, n.tag = s → c!"eigenvelocities" = s := fun h1 => ht.symm.trans h1
  cases h with
  | struct h => exact absurd (tne h.1) (by decide)
  | forces h _ _ => exact absurd (tne h) (by decide)
  | stress h _ _ => exact absurd (tne h) (by decide)
  | scstep h => exact absurd (tne h.1) (by decide)
  | energy h => exact absurd (tne h.1) (by decide)
  | eigenvalues h => exact absurd (tne h.1) (by decide)
  | @special v _ kp e h => cases v with
    | false => exact absurd (tne h.tag) (by decide)
    | true => exact ⟨kp, e, h⟩
  | dos h => exact absurd (tne h.1) (by decide)
  | dosS h => exact absurd (tne h.1) (by decide)
  | born h => exact absurd (tne h.tag) (by decide)
  | diel h => exact absurd (tne h.tag) (by decide)
  | projected h => exact absurd (tne h.tag) (by decide)
  | dynmat h => exact absurd (tne h.1) (by decide)
  | quiet h => exact absurd ht (quiet_not h).ne.2.2.2.2.2.2.2.2.2.2.2.1

theorem part_spec {v : Bool} {n : Node} (h : CalcPart n) (hk : isSpec v n = true) : ∃ kp e, SpecialOk v n kp e := by
  have ht := isSpec_tag hk
  cases v with
  | true => exact part_vel h ht
  | false =>
    rcases part_eig h ht with h1 | h1
    · exact absurd (of_decide_eq_true (Bool.and_eq_true_iff.1 hk).2) h1.2.1
    · exact h1

/-- The regular parser looks at the same elements. -/
theorem spec_paths {root : Node} {head body : List Node} {g q a arr k l w : Node} (h : Doc root head body g q a arr k l w) (v : Bool) (s : Step)
    (hs : s.tag ≠ c!"array") (ss : List Step) :
    findAny root (t c!"calculation") (t (specTag v) :: s :: ss) = ((partsOf root).filter (isSpec v)).flatMap fun n => findRel n (s :: ss) := by
  rw [findAny_parts]
  refine flatMap_filter_eq fun x hx hk => ?_
  cases hsel : (t (specTag v)).selects x with
  | false =>
    have hi : isSpec v x = true := by cases hi : isSpec v x with
      | true => rfl
      | false => rw [hsel, hi] at hk; exact absurd rfl hk
    have := selects_t.2 (isSpec_tag hi)
    unfold specTag at hsel
    rw [this] at hsel; cases hsel
  | true =>
    have hi : isSpec v x = false := by cases hi : isSpec v x with
      | false => rfl
      | true => rw [hsel, hi] at hk; exact absurd rfl hk
    have ht := selects_t.1 hsel
    cases v with
    | true => rw [show isSpec true x = true from decide_eq_true ht] at hi; cases hi
    | false =>
      rcases part_eig (doc_parts h x hx) ht with h1 | ⟨kp, e, h1⟩
      · rw [findRel_cons, List.filter_eq_nil_iff.2]
        · rfl
        · intro c hc hsc
          have h2 : s.tag = c.tag := by
            unfold Step.selects at hsc
            exact (of_decide_eq_true (Bool.and_eq_true_iff.1 hsc).1).symm
          exact hs (h2.trans (h1.2.2 c hc).1)
      · have : isSpec false x = true := by
          show (decide _ && decide _) = true
          rw [decide_eq_true (show x.tag = c!"eigenvalues" from h1.tag), decide_eq_true (h1.comment rfl)]; rfl
        rw [this] at hi; cases hi

/-- The table has rows, and the k-points of it are one list of coordinates and one of weights, both with rows. -/
def KpointRows (n : Node) : Prop := ∀ kp e, n.children = [kp, e] → spinRows e 0 1 c!"spin 1" ≠ [] ∧ ∃ l w, kp.children.filter (tn c!"varray" c!"kpointlist").selects = [l] ∧ l.children ≠ [] ∧
  kp.children.filter (tn c!"varray" c!"weights").selects = [w] ∧ w.children ≠ []

theorem spPart_rows {m : Node} {v : Str} (hv : v = c!"kpointlist" ∨ v = c!"weights") (h : SpPart m) (hs : (tn c!"varray" v).selects m = true) : VRows m := by
  rcases h with h | h
  · exact h.2.2
  · obtain ⟨g1, g2⟩ := selects_tn.1 hs
    refine absurd ⟨g1, ?_⟩ (h m (List.mem_cons_self ..)).2.2
    rcases hv with rfl | rfl
    · exact .inl g2
    · exact .inr g2

theorem spChild_keeps {a a' : Acc} {n : Node} (h : spChild a n = .ok a') :
    ((tn c!"varray" c!"kpointlist").selects n = false → a'.o.kpointsSpecific = a.o.kpointsSpecific) ∧
    ((tn c!"varray" c!"weights").selects n = false → a'.o.kpointswSpecific = a.o.kpointswSpecific) := by
  unfold spChild at h
  by_cases h1 : (tn c!"varray" c!"kpointlist").selects n = true
  · rw [if_pos h1] at h
    obtain ⟨x, _, h⟩ := Res.bind_eq_ok.1 h; injection h with h; subst h
    exact ⟨fun hc => (by rw [h1] at hc; cases hc), fun _ => rfl⟩
  rw [if_neg h1] at h
  by_cases h2 : (tn c!"varray" c!"weights").selects n = true
  · rw [if_pos h2] at h
    obtain ⟨x, _, h⟩ := Res.bind_eq_ok.1 h; injection h with h; subst h
    exact ⟨fun _ => rfl, fun hc => (by rw [h2] at hc; cases hc)⟩
  rw [if_neg h2] at h
  injection h with h; subst h
  exact ⟨fun _ => rfl, fun _ => rfl⟩

/-- What is read from interpolated eigenvalues, and where. -/
structure SpecRead (kb : Bool) (p : Params) (n : Node) (v : Bool) (ks : Table) (ws : List Rat) (o' : Out) : Prop where
  rows : findRel n (t c!"eigenvalues" :: t c!"array" :: t c!"set" :: spinPath 0 1 c!"spin 1") ≠ []
  points : ∃ s, findRel n [t c!"kpoints", tn c!"varray" c!"kpointlist", t c!"v"] = s ∧ s ≠ [] ∧ convert2D s 3 = .ok ks
  weights : ∃ s, findRel n [t c!"kpoints", tn c!"varray" c!"weights", t c!"v"] = s ∧ s ≠ [] ∧ convert1D s = .ok ws
  kpoints : o'.kpointsSpecific = some ks
  kpointsw : o'.kpointswSpecific = some ws
  values : v = false → ∃ r, extractEigenvalues p kb (findRel n (t c!"eigenvalues" :: t c!"array" :: t c!"set" :: spinPath 0 1 c!"spin 1"))
    (nonEmpty (findRel n (t c!"eigenvalues" :: t c!"array" :: t c!"set" :: spinPath 0 1 c!"spin 2"))) ks.length = .ok r ∧ o'.eigenvaluesSpecific = some r.1
  velocities : v = true → ∃ r, extractEigenvelocities p kb (findRel n (t c!"eigenvalues" :: t c!"array" :: t c!"set" :: spinPath 0 1 c!"spin 1"))
    (nonEmpty (findRel n (t c!"eigenvalues" :: t c!"array" :: t c!"set" :: spinPath 0 1 c!"spin 2"))) ks.length = .ok r ∧ o'.eigenvelocities = some r

theorem spec_read {kb v : Bool} {a a' : Acc} {n kp e : Node} (hs : SpecialOk v n kp e) (hk : KpointRows n) (h : specAll kb v a n = .ok a') :
    ∃ ks ws, SpecRead kb a.o.params n v ks ws a'.o := by
  obtain ⟨hrow, l, w, l1, l2, w1, w2⟩ := hk kp e hs.parts
  unfold specAll at h
  rw [hs.parts] at h
  simp only at h
  obtain ⟨a1, h1, h2⟩ := Res.bind_eq_ok.1 h
  obtain ⟨ml, sl⟩ := kind_of l1
  obtain ⟨mw, sw⟩ := kind_of w1
  obtain ⟨s1, s2, g1, _, g3, _⟩ := foldlM'_unique (π := fun a : Acc => a.o.kpointsSpecific) l1 (fun a _ ha s s' hs => (spChild_keeps hs).1 ha) h1
  obtain ⟨t1, t2, i1, _, i3, _⟩ := foldlM'_unique (π := fun a : Acc => a.o.kpointswSpecific) w1 (fun a _ ha s s' hs => (spChild_keeps hs).2 ha) h1
  have hpar : a1.o.params = a.o.params := by
    have := foldlM'_keeps (π := noSp) (fun _ _ _ _ h => spChild_noSp h) h1
    show (noSp a1).o.params = (noSp a).o.params
    rw [this]
  unfold spChild at g1 i1
  rw [if_pos sl] at g1
  rw [tn_ne sw (by decide), if_neg (by simp), if_pos sw] at i1
  obtain ⟨ks, hks, g1⟩ := Res.bind_eq_ok.1 g1
  obtain ⟨ws, hws, i1⟩ := Res.bind_eq_ok.1 i1
  injection g1 with g1
  injection i1 with i1
  have k1 : a1.o.kpointsSpecific = some ks := by
    have g3 : a1.o.kpointsSpecific = s2.o.kpointsSpecific := g3
    rw [g3, ← g1]
  have k2 : a1.o.kpointswSpecific = some ws := by
    have i3 : a1.o.kpointswSpecific = t2.o.kpointswSpecific := i3
    rw [i3, ← i1]
  have hkp : n.children.filter (t c!"kpoints").selects = [kp] := by
    rw [hs.parts, List.filter_cons_of_pos (by exact selects_t.2 hs.ktag),
      List.filter_cons_of_neg (fun hc => absurd (hs.etag.symm.trans (selects_t.1 hc)) (by decide))]
    rfl
  have he : n.children.filter (t c!"eigenvalues").selects = [e] := by
    rw [hs.parts, List.filter_cons_of_neg (fun hc => absurd (hs.ktag.symm.trans (selects_t.1 hc)) (by decide)),
      List.filter_cons_of_pos (by exact selects_t.2 hs.etag)]
    rfl
  have path : ∀ {v : Str} {x : Node}, kp.children.filter (tn c!"varray" v).selects = [x] → VRows x →
      findRel n [t c!"kpoints", tn c!"varray" v, t c!"v"] = x.children := by
    intro v x hx hr
    rw [findRel_cons, hkp, List.flatMap_singleton, findRel_cons, hx, List.flatMap_singleton, findRel_one, hr.filter]
  have epath : ∀ ss, findRel n (t c!"eigenvalues" :: ss) = findRel e ss := by
    intro ss
    rw [findRel_cons, he, List.flatMap_singleton]
  have hfr := specTable_frame h2
  unfold specTable at h2
  rw [k1] at h2
  simp only [lenOf, Res.ok_bind] at h2
  refine ⟨ks, ws, by rw [epath]; exact hrow, ⟨_, path l1 (spPart_rows (.inl rfl) (hs.kparts l ml) sl), l2, hks⟩,
    ⟨_, path w1 (spPart_rows (.inr rfl) (hs.kparts w mw) sw), w2, hws⟩, ?_, ?_, ?_, ?_⟩
  · rw [hfr]; cases v <;> exact k1
  · rw [hfr]; cases v <;> exact k2
  · rintro rfl
    simp only [Bool.false_eq_true, if_false] at h2
    obtain ⟨r, hr, h2⟩ := Res.bind_eq_ok.1 h2
    injection h2 with h2
    rw [epath, epath]
    exact ⟨r, by rw [← hpar]; exact hr, by rw [← h2]⟩
  · rintro rfl
    simp only [if_true] at h2
    obtain ⟨r, hr, h2⟩ := Res.bind_eq_ok.1 h2
    injection h2 with h2
    rw [epath, epath]
    exact ⟨r, by rw [← hpar]; exact hr, by rw [← h2]⟩

theorem opt_some {α : Type} (f : List Node → Res α) {es : List Node} (he : es ≠ []) : opt f es = (f es >>= fun x => .ok (some x)) := by
  cases es with
  | nil => exact absurd rfl he
  | cons a as => rfl

theorem fetchSpec_eq {root : Node} {head body : List Node} {g q a arr k l w : Node} (h : Doc root head body g q a arr k l w) {p : Params} {kb : Bool} {x : Node}
    (hx : (partsOf root).filter (isSpec false) = [x]) {ks : Table} {ws : List Rat} {o' : Out} (hr : SpecRead kb p x false ks ws o') :
    ∃ r, fetchEigenvaluesSpecific root p kb = .ok (some ⟨some ks, some ws, r⟩) ∧ o'.eigenvaluesSpecific = some r := by
  have path : ∀ (s : Step), s.tag ≠ c!"array" → ∀ ss, findAny root (t c!"calculation") (t c!"eigenvalues" :: s :: ss) = findRel x (s :: ss) := by
    intro s hs ss
    have := spec_paths h false s hs ss
    rw [hx, List.flatMap_singleton] at this
    exact this
  obtain ⟨s1, e1, n1, c1⟩ := hr.points
  obtain ⟨s2, e2, n2, c2⟩ := hr.weights
  obtain ⟨r, c3, c4⟩ := hr.values rfl
  refine ⟨r.1, ?_, c4⟩
  have hne := hr.rows
  unfold fetchEigenvaluesSpecific
  simp only [path _ (show (t c!"eigenvalues").tag ≠ c!"array" by decide), path _ (show (t c!"kpoints").tag ≠ c!"array" by decide), e1, e2]
  change (match findRel x (t c!"eigenvalues" :: t c!"array" :: t c!"set" :: spinPath 0 1 c!"spin 1") with
    | [] => _
    | s1 => _) = _
  cases hl : findRel x (t c!"eigenvalues" :: t c!"array" :: t c!"set" :: spinPath 0 1 c!"spin 1") with
  | nil => exact absurd hl hne
  | cons y ys =>
    simp only
    rw [opt_some _ n1, c1, Res.ok_bind, Res.ok_bind, opt_some _ n2, c2, Res.ok_bind, Res.ok_bind]
    simp only
    rw [← hl]
    rw [show extractEigenvalues p kb (findRel x (t c!"eigenvalues" :: t c!"array" :: t c!"set" :: spinPath 0 1 c!"spin 1"))
      (nonEmpty (findRel x [t c!"eigenvalues", t c!"array", t c!"set", tc c!"set" c!"spin 2", t c!"set", t c!"r"])) ks.length = .ok r from c3, Res.ok_bind]

theorem fetchVel_eq {root : Node} {head body : List Node} {g q a arr k l w : Node} (h : Doc root head body g q a arr k l w) {p : Params} {kb : Bool} {x : Node}
    (hx : (partsOf root).filter (isSpec true) = [x]) {ks : Table} {ws : List Rat} {o' : Out} (hr : SpecRead kb p x true ks ws o') :
    ∃ r, fetchEigenvelocities root p kb = .ok (some ⟨some ks, some ws, r⟩) ∧ o'.eigenvelocities = some r := by
  have path : ∀ (s : Step), s.tag ≠ c!"array" → ∀ ss, findAny root (t c!"calculation") (t c!"eigenvelocities" :: s :: ss) = findRel x (s :: ss) := by
    intro s hs ss
    have := spec_paths h true s hs ss
    rw [hx, List.flatMap_singleton] at this
    exact this
  obtain ⟨s1, e1, n1, c1⟩ := hr.points
  obtain ⟨s2, e2, n2, c2⟩ := hr.weights
  obtain ⟨r, c3, c4⟩ := hr.velocities rfl
  refine ⟨r, ?_, c4⟩
  have hne := hr.rows
  unfold fetchEigenvelocities
  simp only [path _ (show (t c!"eigenvalues").tag ≠ c!"array" by decide), path _ (show (t c!"kpoints").tag ≠ c!"array" by decide), e1, e2]
  change (match findRel x (t c!"eigenvalues" :: t c!"array" :: t c!"set" :: spinPath 0 1 c!"spin 1") with
    | [] => _
    | s1 => _) = _
  cases hl : findRel x (t c!"eigenvalues" :: t c!"array" :: t c!"set" :: spinPath 0 1 c!"spin 1") with
  | nil => exact absurd hl hne
  | cons y ys =>
    simp only
    rw [opt_some _ n1, c1, Res.ok_bind, Res.ok_bind, opt_some _ n2, c2, Res.ok_bind, Res.ok_bind]
    simp only
    rw [← hl]
    rw [show extractEigenvelocities p kb (findRel x (t c!"eigenvalues" :: t c!"array" :: t c!"set" :: spinPath 0 1 c!"spin 1"))
      (nonEmpty (findRel x [t c!"eigenvalues", t c!"array", t c!"set", tc c!"set" c!"spin 2", t c!"set", t c!"r"])) ks.length = .ok r from c3, Res.ok_bind]

theorem fetchSpec_none {root : Node} {head body : List Node} {g q a arr k l w : Node} (h : Doc root head body g q a arr k l w) (p : Params) (kb : Bool)
    (hx : (partsOf root).filter (isSpec false) = []) : fetchEigenvaluesSpecific root p kb = .ok none := by
  unfold fetchEigenvaluesSpecific
  have := spec_paths h false (t c!"eigenvalues") (by decide) [t c!"array", t c!"set", tc c!"set" c!"spin 1", t c!"set", t c!"r"]
  rw [hx] at this
  simp only [show findAny root (t c!"calculation") [t c!"eigenvalues", t c!"eigenvalues", t c!"array", t c!"set", tc c!"set" c!"spin 1", t c!"set", t c!"r"] = [] from this]

theorem fetchVel_none {root : Node} {head body : List Node} {g q a arr k l w : Node} (h : Doc root head body g q a arr k l w) (p : Params) (kb : Bool)
    (hx : (partsOf root).filter (isSpec true) = []) : fetchEigenvelocities root p kb = .ok none := by
  unfold fetchEigenvelocities
  have := spec_paths h true (t c!"eigenvalues") (by decide) [t c!"array", t c!"set", tc c!"set" c!"spin 1", t c!"set", t c!"r"]
  rw [hx] at this
  simp only [show findAny root (t c!"calculation") [t c!"eigenvelocities", t c!"eigenvalues", t c!"array", t c!"set", tc c!"set" c!"spin 1", t c!"set", t c!"r"] = [] from this]

/-- **C53**: interpolated eigenvalues and eigenvelocities. The document has at most one element of each, with k-points and weights. Missing: other documents, on which the parsers differ (`C53_violation_*`). -/
theorem C53_interpolated_partial {kb all : Bool} {root : Node} {head body : List Node} {g q a arr k l w : Node} (h : Doc root head body g q a arr k l w)
    {e : EData} {d : Data} (he : parsee root kb = .ok e) (hd : parsew root kb all = .ok d)
    (hone : ∀ v, ((partsOf root).filter (isSpec v)).length ≤ 1) (hrows : ∀ v, ∀ p ∈ partsOf root, isSpec v p = true → KpointRows p) :
    e.eigenvaluesSpecific = d.eigenvaluesSpecific ∧ e.eigenvelocities = d.eigenvelocities := by
  obtain ⟨o, o', b⟩ := both h he hd
  have e1 : e.eigenvaluesSpecific = o'.eigenvaluesSpecific ∧ e.eigenvelocities = o'.eigenvelocities := by rw [b.finish]; exact ⟨rfl, rfl⟩
  rw [e1.1, e1.2]
  obtain ⟨s, hs1, hs2⟩ := (Vasprun.parts hd).special
  obtain ⟨u, hu1, hu2⟩ := (Vasprun.parts hd).velocities
  constructor
  · rcases b.once (π := fun o => o.eigenvaluesSpecific) (fun _ _ _ => rfl) (fun _ => rfl) (isSpec false) (fun n a a' hk f => f.special hk) (hone false) with
      ⟨h0, h1⟩ | ⟨x, a, a', hx, hc, ⟨c1, c2, c3⟩, h1, h2⟩
    · rw [fetchSpec_none h _ _ h0] at hs1
      injection hs1 with hs1
      rw [hs2, ← hs1]
      exact h1
    · obtain ⟨m1, m2⟩ := kind_of hx
      obtain ⟨kp, e', hsp⟩ := part_spec (doc_parts h x m1) m2
      rw [calcChild_spec m2] at hc
      obtain ⟨ks, ws, hr⟩ := spec_read hsp (hrows false x m1 m2) hc
      rw [c1] at hr
      obtain ⟨r, k1, k2⟩ := fetchSpec_eq h hx hr
      rw [k1] at hs1
      injection hs1 with hs1
      rw [hs2, ← hs1]
      exact h2.trans k2
  · rcases b.once (π := fun o => o.eigenvelocities) (fun _ _ _ => rfl) (fun _ => rfl) (isSpec true) (fun n a a' hk f => f.velocities hk) (hone true) with
      ⟨h0, h1⟩ | ⟨x, a, a', hx, hc, ⟨c1, c2, c3⟩, h1, h2⟩
    · rw [fetchVel_none h _ _ h0] at hu1
      have hu1 := Res.ok.inj hu1
      rw [hu2, ← hu1]
      exact h1
    · obtain ⟨m1, m2⟩ := kind_of hx
      obtain ⟨kp, e', hsp⟩ := part_spec (doc_parts h x m1) m2
      rw [calcChild_spec m2] at hc
      obtain ⟨ks, ws, hr⟩ := spec_read hsp (hrows true x m1 m2) hc
      rw [c1] at hr
      obtain ⟨r, k1, k2⟩ := fetchVel_eq h hx hr
      rw [k1] at hu1
      have hu1 := Res.ok.inj hu1
      rw [hu2, ← hu1]
      exact h2.trans k2

/-- **C53**: the k-points of interpolated eigenvalues or eigenvelocities. The document has at most one element of these, with k-points and weights. Missing: other documents, on which the parsers differ (`C53_violation_*`). -/
theorem C53_interpolated_kpoints_partial {kb all : Bool} {root : Node} {head body : List Node} {g q a arr k l w : Node} (h : Doc root head body g q a arr k l w)
    {e : EData} {d : Data} (he : parsee root kb = .ok e) (hd : parsew root kb all = .ok d)
    (hone : ((partsOf root).filter fun n => isSpec false n || isSpec true n).length ≤ 1) (hrows : ∀ v, ∀ p ∈ partsOf root, isSpec v p = true → KpointRows p) :
    e.kpointsSpecific = d.kpointsSpecific ∧ e.kpointswSpecific = d.kpointswSpecific := by
  obtain ⟨o, o', b⟩ := both h he hd
  have e1 : e.kpointsSpecific = o'.kpointsSpecific ∧ e.kpointswSpecific = o'.kpointswSpecific := by rw [b.finish]; exact ⟨rfl, rfl⟩
  rw [e1.1, e1.2]
  obtain ⟨vel, spec, g1, g2, g3, g4⟩ := (Vasprun.parts hd).grids
  rw [g3, g4]
  have split : ∀ {x : Node} {v : Bool}, ((partsOf root).filter fun n => isSpec false n || isSpec true n) = [x] → isSpec v x = true →
      (partsOf root).filter (isSpec v) = [x] ∧ (partsOf root).filter (isSpec !v) = [] := by
    intro x v hx hv
    have ff : ∀ u, (partsOf root).filter (isSpec u) = [x].filter (isSpec u) := by
      intro u
      rw [← hx, List.filter_filter]
      refine List.filter_congr fun n _ => ?_
      cases u <;> cases isSpec false n <;> cases isSpec true n <;> rfl
    rw [ff, ff]
    have hn : isSpec (!v) x = false := by
      cases hc : isSpec (!v) x with
      | false => rfl
      | true =>
        have h1 := isSpec_tag hv
        have h2 := isSpec_tag hc
        rw [h1] at h2
        cases v <;> exact absurd h2 (by decide)
    rw [List.filter_cons_of_pos hv, List.filter_cons_of_neg (by simp [hn])]
    exact ⟨rfl, rfl⟩
  rcases b.once (π := fun o => (o.kpointsSpecific, o.kpointswSpecific)) (fun _ _ _ => rfl) (fun _ => rfl) (fun n => isSpec false n || isSpec true n)
    (fun n a a' hk f => by
      rw [Bool.or_eq_false_iff] at hk
      obtain ⟨f1, f2⟩ := f.kspecial hk.1 hk.2
      simp only [f1, f2]) hone with
      ⟨h0, h1⟩ | ⟨x, a, a', hx, hc, ⟨c1, c2, c3⟩, h1, h2⟩
  · have z : ∀ v, (partsOf root).filter (isSpec v) = [] := by
      intro v
      rw [List.filter_eq_nil_iff] at h0 ⊢
      intro n hn hc
      refine h0 n hn ?_
      cases v <;> simp [hc]
    rw [fetchVel_none h _ _ (z true)] at g1
    rw [fetchSpec_none h _ _ (z false)] at g2
    injection g1 with g1; injection g2 with g2
    subst g1 g2
    simp only [Prod.mk.injEq] at h1
    exact h1
  · obtain ⟨m1, m2⟩ := kind_of hx
    simp only [Prod.mk.injEq] at h2
    rw [h2.1, h2.2]
    cases hv : isSpec true x with
    | true =>
      obtain ⟨y1, y2⟩ := split hx hv
      obtain ⟨kp, e', hsp⟩ := part_spec (doc_parts h x m1) hv
      rw [calcChild_spec hv] at hc
      obtain ⟨ks, ws, hr⟩ := spec_read hsp (hrows true x m1 hv) hc
      rw [hr.kpoints, hr.kpointsw]
      rw [c1] at hr
      obtain ⟨r, k1, k2⟩ := fetchVel_eq h y1 hr
      rw [k1] at g1
      injection g1 with g1
      subst g1
      exact ⟨rfl, rfl⟩
    | false =>
      have hv' : isSpec false x = true := by rw [hv, Bool.or_false] at m2; exact m2
      obtain ⟨y1, y2⟩ := split hx hv'
      obtain ⟨kp, e', hsp⟩ := part_spec (doc_parts h x m1) hv'
      rw [calcChild_spec hv'] at hc
      obtain ⟨ks, ws, hr⟩ := spec_read hsp (hrows false x m1 hv') hc
      rw [hr.kpoints, hr.kpointsw]
      rw [c1] at hr
      obtain ⟨r, k1, k2⟩ := fetchSpec_eq h y1 hr
      rw [k1] at g2
      rw [fetchVel_none h _ _ y2] at g1
      injection g1 with g1
      injection g2 with g2
      subst g1 g2
      exact ⟨rfl, rfl⟩

end Verif.VasprunEvent
