import Verif.Props.EventLast
/-! # C53: projections, Born charges, dielectric functions, dynamical matrix -/
set_option autoImplicit false
namespace Verif.VasprunEvent
open Verif Verif.Utils Verif.Xml Verif.Vasprun

theorem at_most_one {α : Type} {l : List α} (h : l.length ≤ 1) : l = [] ∨ ∃ x, l = [x] := by
  cases l with
  | nil => exact .inl rfl
  | cons a as => cases as with
    | nil => exact .inr ⟨a, rfl⟩
    | cons b bs => simp at h

/-- What one part sets, or what was there before. -/
theorem Both.once {root : Node} {kb : Bool} {e : EData} {d : Data} {o o' : Out} (b : Both root kb e d o o') {β : Type} {π : Out → β}
    (hπ : Plain π) (hh : ∀ o, π (noHead o) = π o) (kind : Node → Bool) (keep : ∀ n a a', kind n = false → Frame n a a' → π a'.o = π a.o)
    (h1 : ((partsOf root).filter kind).length ≤ 1) :
    ((partsOf root).filter kind = [] ∧ π o' = π {}) ∨ ∃ x a a', (partsOf root).filter kind = [x] ∧ calcChild kb a x = .ok a' ∧
      (a.o.params = d.params ∧ a.o.species = d.species ∧ a.o.kpoints = d.kpoints) ∧ π a.o = π {} ∧ π o' = π a'.o := by
  rcases at_most_one h1 with h0 | ⟨x, hx⟩
  · refine .inl ⟨h0, ?_⟩
    rw [((calcs_last hπ (fun _ => True) kind keep (fun _ _ _ _ _ _ _ => trivial) b.run).1 h0), b.init π hh]
  · obtain ⟨a, a', k1, k2, k3, k4⟩ := calcs_unique hπ kind keep b.run hx
    exact .inr ⟨x, a, a', hx, k1, b.ctx k2, by rw [k3, b.init π hh], k4⟩

theorem kind_of {l : List Node} {kind : Node → Bool} {x : Node} (h : l.filter kind = [x]) : x ∈ l ∧ kind x = true :=
  List.mem_filter.1 (h ▸ List.mem_singleton.2 rfl)

/-! ### projections -/

theorem filter_t_proj (l : List Node) : l.filter (t c!"projected").selects = l.filter isProj := by
  refine List.filter_congr fun x _ => ?_
  unfold isProj Step.selects t
  simp

/-- **C53**: projections. The document has at most one element `projected`, and it has rows. Missing: other documents, on which the parsers differ (`C53_violation_*`). -/
theorem C53_projectors_partial {kb all : Bool} {root : Node} {head body : List Node} {g q a arr k l w : Node} (h : Doc root head body g q a arr k l w)
    {e : EData} {d : Data} (he : parsee root kb = .ok e) (hd : parsew root kb all = .ok d) (hone : ((partsOf root).filter isProj).length ≤ 1)
    (hrows : ∀ p ∈ partsOf root, isProj p = true → spinRows p 0 2 c!"spin1" ≠ []) : e.projectors = d.projectors := by
  obtain ⟨o, o', b⟩ := both h he hd
  have hp := (Vasprun.parts hd).projectors
  have hr : ∀ s, findAny root (t c!"calculation") [t c!"projected", t c!"array", t c!"set", tc c!"set" s, t c!"set", t c!"set", t c!"r"] =
      ((partsOf root).filter isProj).flatMap fun n => spinRows n 0 2 s := by
    intro s; rw [findAny_parts, filter_t_proj]; rfl
  unfold fetchProjectors at hp
  simp only [hr] at hp
  have e1 : e.projectors = o'.projectors := by rw [b.finish]; rfl
  rw [e1]
  rcases b.once (π := fun o => o.projectors) (fun _ _ _ => rfl) (fun _ => rfl) isProj (fun n a a' hk f => f.proj hk) hone with
    ⟨h0, h1⟩ | ⟨x, a, a', hx, hc, ⟨c1, c2, c3⟩, h1, h2⟩
  · rw [h0] at hp
    injection hp with hp
    exact h1.trans hp
  · rw [hx] at hp
    simp only [List.flatMap_cons, List.flatMap_nil, List.append_nil] at hp
    obtain ⟨m1, m2⟩ := kind_of hx
    obtain ⟨e', arr', hpo⟩ := part_proj (doc_parts h x m1) (of_decide_eq_true m2)
    rw [calcChild_proj m2] at hc
    unfold projAll at hc
    rw [hpo.parts] at hc
    obtain ⟨a1, g1, g2⟩ := Res.bind_eq_ok.1 hc
    have hf := eigAll_frame g1
    unfold projArray at g2
    obtain ⟨r, g3, g4⟩ := Res.bind_eq_ok.1 g2
    injection g4 with g4
    have q1 : a1.o.params = d.params := by rw [hf]; exact c1
    have q2 : a1.o.species = d.species := by rw [hf]; exact c2
    have q3 : a1.o.kpoints = d.kpoints := by rw [hf]; exact c3
    rw [q1, q2, q3, orNone_nonEmpty] at g3
    have := hrows x m1 m2
    cases hl : spinRows x 0 2 c!"spin1" with
    | nil => exact absurd hl this
    | cons y ys =>
      rw [hl] at hp g3
      simp only [g3, Res.ok_bind] at hp
      injection hp with hp
      rw [← hp]
      refine h2.trans ?_
      rw [← g4]

/-! ### Born charges -/

/-- **C53**: Born charges. The document has at most one array of them, and it has rows. Missing: other documents, on which the parsers differ (`C53_violation_*`). -/
theorem C53_born_partial {kb all : Bool} {root : Node} {head body : List Node} {g q a arr k l w : Node} (h : Doc root head body g q a arr k l w)
    {e : EData} {d : Data} (he : parsee root kb = .ok e) (hd : parsew root kb all = .ok d) (hone : ((partsOf root).filter isBorn).length ≤ 1)
    (hrows : ∀ p ∈ partsOf root, isBorn p = true → findRel p [t c!"set", t c!"v"] ≠ []) : d.born = e.born.map Born.charges := by
  obtain ⟨o, o', b⟩ := both h he hd
  have hp := (Vasprun.parts hd).born
  obtain ⟨sp, hsp⟩ := b.some.1
  unfold fetchBorn at hp
  have hfil : (partsOf root).filter (tn c!"array" c!"born_charges").selects = (partsOf root).filter isBorn := rfl
  rw [findAny_parts, hfil] at hp
  have e1 : e.born = o'.born := by rw [b.finish]; rfl
  rw [e1]
  rcases b.once (π := fun o => o.born) (fun _ _ _ => rfl) (fun _ => rfl) isBorn (fun n a a' hk f => f.born hk) hone with
    ⟨h0, h1⟩ | ⟨x, a, a', hx, hc, ⟨c1, c2, c3⟩, h1, h2⟩
  · rw [h0] at hp
    injection hp with hp
    rw [show o'.born = none from h1, ← hp]; rfl
  · rw [hx] at hp
    simp only [List.flatMap_cons, List.flatMap_nil, List.append_nil] at hp
    obtain ⟨m1, m2⟩ := kind_of hx
    rw [calcChild_born m2] at hc
    unfold bornAll at hc
    rw [c2, hsp] at hc
    simp only at hc
    obtain ⟨x1, g1, hc⟩ := Res.bind_eq_ok.1 hc
    obtain ⟨x2, g2, hc⟩ := Res.bind_eq_ok.1 hc
    injection hc with hc
    have := hrows x m1 m2
    cases hl : findRel x [t c!"set", t c!"v"] with
    | nil => exact absurd hl this
    | cons y ys =>
      rw [hl] at hp g1
      simp only [hsp, g1, g2, Res.ok_bind] at hp
      injection hp with hp
      rw [← hp, show o'.born = some x2 from h2.trans (by rw [← hc])]
      rfl

/-! ### dielectric functions -/

theorem filter_t_diel (l : List Node) : l.filter (t c!"dielectricfunction").selects = l.filter isDiel := by
  refine List.filter_congr fun x _ => ?_
  unfold isDiel Step.selects t
  simp

theorem mapM'_append {α β : Type} (f : α → Res β) (a b : List α) :
    Res.mapM' f (a ++ b) = (Res.mapM' f a >>= fun x => Res.mapM' f b >>= fun y => .ok (x ++ y)) := by
  induction a with
  | nil =>
    show Res.mapM' f b = (Res.mapM' f b >>= fun y => .ok y)
    cases h : Res.mapM' f b <;> rfl
  | cons c a ih =>
    simp only [List.cons_append, Res.mapM', ih]
    cases f c with
    | exit c => rfl
    | raise x => rfl
    | ok r =>
      cases Res.mapM' f a with
      | exit c => rfl
      | raise x => rfl
      | ok r =>
        simp only [Res.ok_bind]
        cases Res.mapM' f b <;> rfl

theorem convert2D_append (a b : List Node) (n : Nat) : convert2D (a ++ b) n = (convert2D a n >>= fun x => convert2D b n >>= fun y => .ok (x ++ y)) :=
  mapM'_append _ a b

theorem convert2D_length {l : List Node} {n : Nat} {x : Table} (h : convert2D l n = .ok x) : x.length = l.length :=
  (List.Forall₂.length_eq (Res.mapM'_eq_ok.1 h)).symm

theorem split_two {α : Type} {x y : List α} (h : x.length = y.length) : split 2 (x ++ y) = .ok [x, y] := by
  unfold split
  have h1 : (x ++ y).length = 2 * y.length := by rw [List.length_append, h]; omega
  rw [if_neg (by decide), if_pos (by rw [h1]; omega), h1]
  have h2 : 2 * y.length / 2 = y.length := by omega
  rw [h2]
  show Res.ok [(List.drop (0 * y.length) (x ++ y)).take y.length, (List.drop (1 * y.length) (x ++ y)).take y.length] = _
  rw [Nat.zero_mul, Nat.one_mul, List.drop_zero, List.take_left' h, List.drop_left' h, List.take_length]

/-- **C53**: dielectric functions. The document has at most one element for them, with as many rows for the imaginary as for the real part. The
regular parser leaves a dictionary of `None` if there is none. Missing: other documents, on which the parsers differ (`C53_violation_*`). -/
theorem C53_dielectrics_partial {kb all : Bool} {root : Node} {head body : List Node} {g q a arr k l w : Node} (h : Doc root head body g q a arr k l w)
    {e : EData} {d : Data} (he : parsee root kb = .ok e) (hd : parsew root kb all = .ok d) (hone : ((partsOf root).filter isDiel).length ≤ 1)
    (hrows : ∀ p ∈ partsOf root, isDiel p = true → dielPart p c!"imag" ≠ [] ∧ (dielPart p c!"imag").length = (dielPart p c!"real").length) :
    ∃ x, d.dielectrics = some x ∧ x.energy = e.dielectrics.map (fun y => y.energy) ∧ x.imag = e.dielectrics.map (fun y => y.imag) ∧
      x.real = e.dielectrics.map fun y => y.real := by
  obtain ⟨o, o', b⟩ := both h he hd
  obtain ⟨x, hp, hx⟩ := (Vasprun.parts hd).dielectrics
  refine ⟨x, hx, ?_⟩
  have hr : ∀ s, findAny root (t c!"calculation") [t c!"dielectricfunction", t s, t c!"array", t c!"set", t c!"r"] =
      ((partsOf root).filter isDiel).flatMap fun n => dielPart n s := by
    intro s; rw [findAny_parts, filter_t_diel]; rfl
  unfold fetchDielectrics at hp
  simp only [hr] at hp
  have e1 : e.dielectrics = o'.dielectrics := by rw [b.finish]; rfl
  rw [e1]
  obtain ⟨im, p1, hp⟩ := Res.bind_eq_ok.1 hp
  obtain ⟨re, p2, hp⟩ := Res.bind_eq_ok.1 hp
  obtain ⟨eps, p3, hp⟩ := Res.bind_eq_ok.1 hp
  obtain ⟨ion, p4, hp⟩ := Res.bind_eq_ok.1 hp
  injection hp with hp
  subst hp
  rcases b.once (π := fun o => o.dielectrics) (fun _ _ _ => rfl) (fun _ => rfl) isDiel (fun n a a' hk f => f.diel hk) hone with
    ⟨h0, h1⟩ | ⟨x, a, a', hx, hc, ⟨c1, c2, c3⟩, h1, h2⟩
  · rw [h0] at p1 p2
    injection p1 with p1
    injection p2 with p2
    subst p1 p2
    rw [show o'.dielectrics = none from h1]
    exact ⟨rfl, rfl, rfl⟩
  · rw [hx] at p1 p2
    simp only [List.flatMap_cons, List.flatMap_nil, List.append_nil] at p1 p2
    obtain ⟨m1, m2⟩ := kind_of hx
    obtain ⟨n1, n2⟩ := hrows x m1 m2
    rw [calcChild_diel m2] at hc
    unfold dielAll dielOf at hc
    obtain ⟨ed, hc, hc'⟩ := Res.bind_eq_ok.1 hc
    injection hc' with hc'
    obtain ⟨t1, hc1, hc⟩ := Res.bind_eq_ok.1 hc
    rw [convert2D_append] at hc1
    obtain ⟨u, hu, hc1⟩ := Res.bind_eq_ok.1 hc1
    obtain ⟨v, hv, hc1⟩ := Res.bind_eq_ok.1 hc1
    injection hc1 with hc1
    subst hc1
    rw [split_two (by rw [convert2D_length hu, convert2D_length hv, n2])] at hc
    simp only [Res.ok_bind] at hc
    injection hc with hc
    have opt_cons : ∀ {α : Type} (f : List Node → Res α) (es : List Node), es ≠ [] → opt f es = (f es >>= fun x => .ok (some x)) := by
      intro α f es he
      cases es with
      | nil => exact absurd rfl he
      | cons a as => rfl
    have n3 : dielPart x c!"real" ≠ [] := by
      intro hc0
      rw [hc0] at n2
      exact n1 (List.length_eq_zero_iff.1 n2)
    rw [opt_cons _ _ n1, hu] at p1
    rw [opt_cons _ _ n3, hv] at p2
    injection p1 with p1
    injection p2 with p2
    subst p1 p2
    rw [show o'.dielectrics = some ed from h2.trans (by rw [← hc']), ← hc]
    exact ⟨rfl, rfl, rfl⟩

/-! ### dynamical matrix -/

theorem filter_t_dyn (l : List Node) : l.filter (t c!"dynmat").selects = l.filter isDyn := by
  refine List.filter_congr fun x _ => ?_
  unfold isDyn Step.selects t
  simp

/-- What a part of the dynamical matrix leaves as it is. -/
theorem dynChild_keeps {a a' : Acc} {n : Node} (h : dynChild a n = .ok a') : a'.o.species = a.o.species ∧
    ((tn c!"varray" c!"hessian").selects n = false → a'.o.hessian = a.o.hessian) ∧
    ((tn c!"varray" c!"eigenvectors").selects n = false → a'.o.dynmat.eigenvectors = a.o.dynmat.eigenvectors) ∧
    ((tn c!"v" c!"eigenvalues").selects n = false → a'.o.dynmat.eigenvalues = a.o.dynmat.eigenvalues) := by
  unfold dynChild at h
  split at h
  · rename_i hs
    split at h
    · cases h
    · obtain ⟨x, _, h⟩ := Res.bind_eq_ok.1 h; injection h with h; subst h
      exact ⟨rfl, fun hc => (by rw [hs] at hc; cases hc), fun _ => rfl, fun _ => rfl⟩
  · split at h
    · rename_i hs
      split at h
      · cases h
      · obtain ⟨x, _, h⟩ := Res.bind_eq_ok.1 h; injection h with h; subst h
        exact ⟨rfl, fun _ => rfl, fun hc => (by rw [hs] at hc; cases hc), fun _ => rfl⟩
    · split at h
      · rename_i hs
        obtain ⟨x, _, h⟩ := Res.bind_eq_ok.1 h; injection h with h; subst h
        exact ⟨rfl, fun _ => rfl, fun _ => rfl, fun hc => (by rw [hs] at hc; cases hc)⟩
      · injection h with h; subst h; exact ⟨rfl, fun _ => rfl, fun _ => rfl, fun _ => rfl⟩

/-- **C53**: the Hessian. The document has at most one dynamical matrix, with at most one table for the Hessian, which has rows. Missing: other documents, on which the parsers differ (`C53_violation_*`). -/
theorem C53_hessian_partial {kb all : Bool} {root : Node} {head body : List Node} {g q a arr k l w : Node} (h : Doc root head body g q a arr k l w)
    {e : EData} {d : Data} (he : parsee root kb = .ok e) (hd : parsew root kb all = .ok d) (hone : ((partsOf root).filter isDyn).length ≤ 1)
    (hrows : ∀ p ∈ partsOf root, isDyn p = true → (p.children.filter (tn c!"varray" c!"hessian").selects).length ≤ 1 ∧
      ∀ m ∈ p.children, (tn c!"varray" c!"hessian").selects m = true → VRows m ∧ m.children ≠ []) : e.hessian = d.hessian := by
  obtain ⟨o, o', b⟩ := both h he hd
  obtain ⟨sp, hsp⟩ := b.some.1
  have hp := (Vasprun.parts hd).hessian
  unfold fetchHessian at hp
  rw [findAny_parts, filter_t_dyn] at hp
  have e1 : e.hessian = o'.hessian := by rw [b.finish]; rfl
  rw [e1]
  rcases b.once (π := fun o => o.hessian) (fun _ _ _ => rfl) (fun _ => rfl) isDyn (fun n a a' hk f => (f.dyn hk).1) hone with
    ⟨h0, h1⟩ | ⟨x, a, a', hx, hc, ⟨c1, c2, c3⟩, h1, h2⟩
  · rw [h0] at hp
    injection hp with hp
    exact h1.trans hp
  · rw [hx] at hp
    simp only [List.flatMap_cons, List.flatMap_nil, List.append_nil, findRel_cons x] at hp
    obtain ⟨m1, m2⟩ := kind_of hx
    obtain ⟨n1, n2⟩ := hrows x m1 m2
    rw [calcChild_dyn m2] at hc
    unfold dynAll at hc
    obtain ⟨a1, g1, g2⟩ := Res.bind_eq_ok.1 hc
    injection g2 with g2
    have h2 : o'.hessian = a1.o.hessian := h2.trans (by rw [← g2])
    rcases at_most_one n1 with f0 | ⟨y, hy⟩
    · rw [f0] at hp
      injection hp with hp
      rw [h2, foldlM'_keeps (π := fun a : Acc => a.o.hessian) (fun m hm s s' hs => (dynChild_keeps hs).2.1 (by
        cases hsel : (tn c!"varray" c!"hessian").selects m with
        | false => rfl
        | true =>
          have : m ∈ x.children.filter (tn c!"varray" c!"hessian").selects := List.mem_filter.2 ⟨hm, hsel⟩
          rw [f0] at this; cases this)) g1]
      exact h1.trans hp
    · obtain ⟨my, ms⟩ := kind_of hy
      obtain ⟨r1, r2⟩ := n2 y my ms
      rw [hy] at hp
      simp only [List.flatMap_cons, List.flatMap_nil, List.append_nil, findRel_singleton, r1.filter] at hp
      obtain ⟨s1, s2, k1, k2, k3, pre, post, _, k5⟩ := foldlM'_unique (π := fun a : Acc => a.o.hessian) hy
        (fun m _ hk s s' hs => (dynChild_keeps hs).2.1 hk) g1
      have hs1 : s1.o.species = some sp := by
        rw [foldlM'_keeps (π := fun a : Acc => a.o.species) (fun m _ s s' hs => (dynChild_keeps hs).1) k5, c2, hsp]
      unfold dynChild at k1
      rw [if_pos ms, hs1] at k1
      simp only at k1
      obtain ⟨z, z1, k1⟩ := Res.bind_eq_ok.1 k1
      injection k1 with k1
      cases hl : y.children with
      | nil => exact absurd hl r2
      | cons u us =>
        rw [hl] at hp z1
        simp only [hsp, z1, Res.ok_bind] at hp
        injection hp with hp
        rw [h2, ← hp]
        exact k3.trans (by rw [← k1])

/-- **C53**: the dynamical matrix. The document has at most one, with eigenvalues and eigenvectors. Missing: other documents, on which the parsers differ (`C53_violation_*`). -/
theorem C53_dynmat_partial {kb all : Bool} {root : Node} {head body : List Node} {g q a arr k l w : Node} (h : Doc root head body g q a arr k l w)
    {e : EData} {d : Data} (he : parsee root kb = .ok e) (hd : parsew root kb all = .ok d) (hone : ((partsOf root).filter isDyn).length ≤ 1)
    (hrows : ∀ p ∈ partsOf root, isDyn p = true → (p.children.filter (tn c!"varray" c!"eigenvectors").selects).length = 1 ∧
      (p.children.filter (tn c!"v" c!"eigenvalues").selects).length = 1) :
    e.dynmat = d.dynmat.map fun x => ⟨some x.1, some x.2⟩ := by
  obtain ⟨o, o', b⟩ := both h he hd
  obtain ⟨sp, hsp⟩ := b.some.1
  have hp := (Vasprun.parts hd).dynmat
  unfold fetchDynmat at hp
  rw [findAny_parts, findAny_parts, filter_t_dyn] at hp
  have e1 : e.dynmat = if o'.dynmatSet then some o'.dynmat else none := by rw [b.finish]; rfl
  rw [e1]
  rcases b.once (π := fun o => (o.dynmat, o.dynmatSet)) (fun _ _ _ => rfl) (fun _ => rfl) isDyn
      (fun n a a' hk f => by simp only [(f.dyn hk).2.1, (f.dyn hk).2.2]) hone with
    ⟨h0, h1⟩ | ⟨x, a, a', hx, hc, ⟨c1, c2, c3⟩, h1, h2⟩
  · rw [h0] at hp
    injection hp with hp
    simp only [Prod.mk.injEq] at h1
    rw [h1.2, ← hp]; rfl
  · rw [hx] at hp
    simp only [List.flatMap_cons, List.flatMap_nil, List.append_nil, findRel_singleton] at hp
    obtain ⟨m1, m2⟩ := kind_of hx
    obtain ⟨n1, n2⟩ := hrows x m1 m2
    rw [calcChild_dyn m2] at hc
    unfold dynAll at hc
    obtain ⟨a1, g1, g2⟩ := Res.bind_eq_ok.1 hc
    injection g2 with g2
    simp only [Prod.mk.injEq] at h2
    have d1 : o'.dynmat = a1.o.dynmat := h2.1.trans (by rw [← g2])
    have d2 : o'.dynmatSet = true := h2.2.trans (by rw [← g2])
    obtain ⟨y, hy⟩ := List.length_eq_one_iff.1 n1
    obtain ⟨z, hz⟩ := List.length_eq_one_iff.1 n2
    obtain ⟨my, ms⟩ := kind_of hy
    obtain ⟨mz, mt⟩ := kind_of hz
    have tz : (tn c!"varray" c!"hessian").selects z = false := selects_false fun hc => by
      have h1 := (selects_tn.1 mt).1; have h2 := (selects_tn.1 hc).1
      exact absurd (h1.symm.trans h2) (by decide)
    have tz2 : (tn c!"varray" c!"eigenvectors").selects z = false := selects_false fun hc => by
      have h1 := (selects_tn.1 mt).1; have h2 := (selects_tn.1 hc).1
      exact absurd (h1.symm.trans h2) (by decide)
    have ty : (tn c!"varray" c!"hessian").selects y = false := tn_ne ms (by decide)
    obtain ⟨s1, s2, k1, k2, k3, pre, post, _, k5⟩ := foldlM'_unique (π := fun a : Acc => a.o.dynmat.eigenvectors) hy
      (fun m _ hk s s' hs => (dynChild_keeps hs).2.2.1 hk) g1
    obtain ⟨t1, t2, l1, l2, l3, _⟩ := foldlM'_unique (π := fun a : Acc => a.o.dynmat.eigenvalues) hz
      (fun m _ hk s s' hs => (dynChild_keeps hs).2.2.2 hk) g1
    have hs1 : s1.o.species = some sp := by
      rw [foldlM'_keeps (π := fun a : Acc => a.o.species) (fun m _ s s' hs => (dynChild_keeps hs).1) k5, c2, hsp]
    unfold dynChild at k1 l1
    rw [if_neg (by rw [ty]; simp), if_pos ms, hs1] at k1
    rw [if_neg (by rw [tz]; simp), if_neg (by rw [tz2]; simp), if_pos mt] at l1
    simp only at k1
    obtain ⟨u, u1, k1⟩ := Res.bind_eq_ok.1 k1
    injection k1 with k1
    obtain ⟨v, v1, l1⟩ := Res.bind_eq_ok.1 l1
    injection l1 with l1
    rw [hy, hz] at hp
    simp only [hsp, u1, v1, Res.ok_bind] at hp
    injection hp with hp
    have e2 : a1.o.dynmat.eigenvectors = some u := k3.trans (by rw [← k1])
    have e3 : a1.o.dynmat.eigenvalues = some v := l3.trans (by rw [← l1])
    rw [d2, d1, ← hp, if_pos rfl]
    show some a1.o.dynmat = some ⟨some v, some u⟩
    rw [← e2, ← e3]

end Verif.VasprunEvent
