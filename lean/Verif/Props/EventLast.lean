import Verif.Props.EventKinds
/-! # C53: what is given once in a document is read in the same way by both parsers -/
set_option autoImplicit false
namespace Verif.VasprunEvent
open Verif Verif.Utils Verif.Xml Verif.Vasprun

theorem flatMap_filter_eq {α β : Type} {k k' : α → Bool} {f : α → List β} {l : List α} (h : ∀ x ∈ l, k x ≠ k' x → f x = []) :
    (l.filter k).flatMap f = (l.filter k').flatMap f := by
  rw [flatMap_filter, flatMap_filter]
  induction l with
  | nil => rfl
  | cons x l ih =>
    rw [List.flatMap_cons, List.flatMap_cons, ih fun y hy => h y (List.mem_cons_of_mem _ hy)]
    congr 1
    by_cases hk : k x = k' x
    · rw [hk]
    · rw [h x (List.mem_cons_self ..) hk]; split <;> split <;> rfl

theorem flatMap_eq_nil {α β : Type} {f : α → List β} {l : List α} (h : ∀ x ∈ l, f x = []) : l.flatMap f = [] := by
  rw [List.flatMap_eq_nil_iff]; exact h

theorem Both.ctx {root : Node} {kb : Bool} {e : EData} {d : Data} {o o' : Out} (b : Both root kb e d o o') {o1 : Out} (h : VasprunEvent.fixed o1 = VasprunEvent.fixed o) :
    o1.params = d.params ∧ o1.species = d.species ∧ o1.kpoints = d.kpoints := by
  unfold VasprunEvent.fixed at h
  simp only [Prod.mk.injEq] at h
  obtain ⟨f1, f2, f3, f4, f5, f6⟩ := h
  exact ⟨f2.trans b.params, f3.trans b.species, f4.trans b.kpoints⟩

theorem Both.init {root : Node} {kb : Bool} {e : EData} {d : Data} {o o' : Out} (b : Both root kb e d o o') {β : Type} (π : Out → β)
    (h : ∀ o, π (noHead o) = π o) : π o = π {} := by rw [← h o, b.rest]

theorem orNone_nonEmpty (l : List Node) : orNone l = nonEmpty l := rfl

/-! ### eigenvalues -/

theorem interp_rows {v : Bool} {n kp e : Node} (h : SpecialOk v n kp e) (ss : List Step) : findRel n (t c!"array" :: ss) = [] := by
  rw [findRel_cons, h.parts]
  have h1 : (t c!"array").selects kp = false := selects_false fun hc => absurd (h.ktag.symm.trans (selects_t.1 hc)) (by decide)
  have h2 : (t c!"array").selects e = false := selects_false fun hc => absurd (h.etag.symm.trans (selects_t.1 hc)) (by decide)
  rw [List.filter_cons_of_neg (by simp [h1]), List.filter_cons_of_neg (by simp [h2])]
  rfl

/-- A part with the tag of eigenvalues. -/
theorem part_eig {n : Node} (h : CalcPart n) (ht : n.tag = c!"eigenvalues") : EigenvaluesOk n ∨ ∃ kp e, SpecialOk false n kp e := by
  have tne : ∀ {s : Str}, n.tag = s → c!"eigenvalues" = s := fun h1 => ht.symm.trans h1
  cases h with
  | struct h => exact absurd (tne h.1) (by decide)
  | forces h _ _ => exact absurd (tne h) (by decide)
  | stress h _ _ => exact absurd (tne h) (by decide)
  | scstep h => exact absurd (tne h.1) (by decide)
  | energy h => exact absurd (tne h.1) (by decide)
  | eigenvalues h => exact .inl h
  | @special v _ kp e h =>
    cases v with
    | false => exact .inr ⟨kp, e, h⟩
    | true => exact absurd (tne h.tag) (by decide)
  | dos h => exact absurd (tne h.1) (by decide)
  | dosS h => exact absurd (tne h.1) (by decide)
  | born h => exact absurd (tne h.tag) (by decide)
  | diel h => exact absurd (tne h.tag) (by decide)
  | projected h => exact absurd (tne h.tag) (by decide)
  | dynmat h => exact absurd (tne h.1) (by decide)
  | quiet h => exact absurd ht (quiet_not h).ne.2.2.2.2.2.2.2.2.2.2.1

theorem part_proj {n : Node} (h : CalcPart n) (ht : n.tag = c!"projected") : ∃ e arr, ProjectedOk n e arr := by
  have tne : ∀ {s : Str}, n.tag = s → c!"projected" = s := fun h1 => ht.symm.trans h1
  cases h with
  | struct h => exact absurd (tne h.1) (by decide)
  | forces h _ _ => exact absurd (tne h) (by decide)
  | stress h _ _ => exact absurd (tne h) (by decide)
  | scstep h => exact absurd (tne h.1) (by decide)
  | energy h => exact absurd (tne h.1) (by decide)
  | eigenvalues h => exact absurd (tne h.1) (by decide)
  | @special v _ kp e h => cases v <;> exact absurd (tne h.tag) (by decide)
  | dos h => exact absurd (tne h.1) (by decide)
  | dosS h => exact absurd (tne h.1) (by decide)
  | born h => exact absurd (tne h.tag) (by decide)
  | diel h => exact absurd (tne h.tag) (by decide)
  | projected h => exact ⟨_, _, h⟩
  | dynmat h => exact absurd (tne h.1) (by decide)
  | quiet h => exact absurd ht (quiet_not h).ne.2.2.2.1

theorem eigAll_ok {kb : Bool} {a a' : Acc} {n : Node} (h : eigAll kb a n = .ok a') : ∃ ks r, a.o.kpoints = some ks ∧
    extractEigenvalues a.o.params kb (spinRows n 0 1 c!"spin 1") (orNone (spinRows n 0 1 c!"spin 2")) ks.length = .ok r ∧
    a'.o.eigenvalues = some r.1 ∧ a'.o.occupancies = r.2 := by
  unfold eigAll at h
  obtain ⟨nk, h1, h⟩ := Res.bind_eq_ok.1 h
  obtain ⟨r, h2, h⟩ := Res.bind_eq_ok.1 h
  injection h with h; subst h
  unfold lenOf at h1
  cases hk : a.o.kpoints with
  | none => rw [hk] at h1; cases h1
  | some ks => rw [hk] at h1; injection h1 with h1; subst h1; exact ⟨ks, r, rfl, h2, rfl, rfl⟩

/-- Eigenvalues without rows are not accepted. -/
theorem extract_rows {p : Params} {kb : Bool} {l : List Node} {l2 : Option (List Node)} {nk : Nat} {r : Spins Table × Option (Spins Table)}
    (h : extractEigenvalues p kb l l2 nk = .ok r) : l ≠ [] := by
  rintro rfl
  unfold extractEigenvalues at h
  split at h
  · cases h
  · split at h
    · cases h
    · split at h
      · cases h
      · cases h

/-- **C53**: eigenvalues and occupancies. The document has at most one element `eigenvalues` that is not interpolated, and if it has
projections, the eigenvalues repeated there are the same. Missing: other documents, on which the parsers differ (`C53_violation_*`). -/
theorem C53_eigenvalues_partial {kb all : Bool} {root : Node} {head body : List Node} {g q a arr k l w : Node} (h : Doc root head body g q a arr k l w)
    {e : EData} {d : Data} (he : parsee root kb = .ok e) (hd : parsew root kb all = .ok d) (hone : ((partsOf root).filter isEig).length ≤ 1)
    (hproj : ∀ p ∈ partsOf root, isProj p = true → ∃ x, (partsOf root).filter isEig = [x] ∧
      ∀ y ∈ p.children.head?, ∀ s, spinRows y 0 1 s = spinRows x 0 1 s) :
    e.eigenvalues = d.eigenvalues ∧ e.occupancies = d.occupancies := by
  obtain ⟨o, o', b⟩ := both h he hd
  obtain ⟨ks, hks⟩ := b.some.2
  have hp := (Vasprun.parts hd).eigen
  have hrows : ∀ s, findAny root (t c!"calculation") [t c!"eigenvalues", t c!"array", t c!"set", tc c!"set" s, t c!"set", t c!"r"] =
      ((partsOf root).filter isEig).flatMap fun n => spinRows n 0 1 s := by
    intro s
    rw [findAny_parts]
    refine flatMap_filter_eq fun x hx hk => ?_
    cases hs : (t c!"eigenvalues").selects x with
    | false =>
      have : isEig x = true := by cases hi : isEig x with
        | true => rfl
        | false => rw [hs, hi] at hk; exact absurd rfl hk
      rw [selects_t.2 (isEig_iff.1 this).1] at hs; cases hs
    | true =>
      rcases part_eig (doc_parts h x hx) (selects_t.1 hs) with h1 | ⟨kp, e', h1⟩
      · have : isEig x = true := isEig_iff.2 ⟨h1.1, h1.2.1⟩
        rw [hs, this] at hk; exact absurd rfl hk
      · exact interp_rows h1 _
  have key := calcs_last (kb := kb) (π := fun o : Out => (o.eigenvalues, o.occupancies)) (fun _ _ _ => rfl)
    (fun v => ∃ x r, (partsOf root).filter isEig = [x] ∧
      extractEigenvalues d.params kb (spinRows x 0 1 c!"spin 1") (nonEmpty (spinRows x 0 1 c!"spin 2")) ks.length = .ok r ∧ v = (some r.1, r.2))
    (fun n => isEig n || isProj n) (cs := calculations root)
    (fun n a a' hk f => by
      rw [Bool.or_eq_false_iff] at hk
      obtain ⟨f1, f2⟩ := f.eigen hk.1 hk.2
      simp only [f1, f2]) (o := o) (o' := o')
    (fun x hx hk a a' hf hc => by
      obtain ⟨c1, c2, c3⟩ := b.ctx hf
      cases hi : isEig x with
      | true =>
        rw [calcChild_eig hi] at hc
        obtain ⟨ks', r, k1, k2, k3, k4⟩ := eigAll_ok hc
        rw [c3, hks] at k1; injection k1 with k1; subst k1
        have hm : x ∈ (partsOf root).filter isEig := List.mem_filter.2 ⟨hx, hi⟩
        have hxx : (partsOf root).filter isEig = [x] := by
          cases hl : (partsOf root).filter isEig with
          | nil => rw [hl] at hm; cases hm
          | cons y ys =>
            rw [hl] at hone hm
            cases ys with
            | nil => rw [List.mem_singleton.1 hm]
            | cons _ _ => simp at hone
        rw [c1] at k2
        exact ⟨x, r, hxx, k2, by rw [k3, k4]⟩
      | false =>
        have hpr : isProj x = true := by rw [hi] at hk; exact hk
        rw [calcChild_proj hpr] at hc
        obtain ⟨e', arr', hpo⟩ := part_proj (doc_parts h x hx) (of_decide_eq_true hpr)
        obtain ⟨y, hy1, hy2⟩ := hproj x hx hpr
        unfold projAll at hc
        rw [hpo.parts] at hc hy2
        obtain ⟨a1, g1, g2⟩ := Res.bind_eq_ok.1 hc
        have hfr := projArray_frame g2
        obtain ⟨ks', r, k1, k2, k3, k4⟩ := eigAll_ok g1
        rw [c3, hks] at k1; injection k1 with k1; subst k1
        rw [hy2 e' rfl, hy2 e' rfl, c1] at k2
        refine ⟨y, r, hy1, k2, ?_⟩
        rw [hfr, k3, k4]) b.run
  have e1 : e.eigenvalues = o'.eigenvalues ∧ e.occupancies = o'.occupancies := by rw [b.finish]; exact ⟨rfl, rfl⟩
  rw [e1.1, e1.2]
  unfold fetchEigenvalues at hp
  simp only [hrows] at hp
  by_cases hn : ((calculations root).flatMap Node.children).filter (fun n => isEig n || isProj n) = []
  · have hk := key.1 hn
    have h0 : (partsOf root).filter isEig = [] := by
      rw [List.filter_eq_nil_iff] at hn ⊢
      exact fun x hx hc => hn x hx (by rw [hc]; rfl)
    rw [h0] at hp
    simp only [List.flatMap_nil] at hp
    injection hp with hp
    have i1 := b.init (fun o => (o.eigenvalues, o.occupancies)) fun _ => rfl
    have : (o'.eigenvalues, o'.occupancies) = (none, none) := hk.trans i1
    simp only [Prod.mk.injEq] at this hp
    rw [this.1, this.2]
    exact hp
  · obtain ⟨x, r, hx, h1, h2⟩ := key.2 hn
    rw [hx] at hp
    simp only [List.flatMap_cons, List.flatMap_nil, List.append_nil] at hp
    have hne := extract_rows h1
    cases hl : spinRows x 0 1 c!"spin 1" with
    | nil => exact absurd hl hne
    | cons y ys =>
      rw [hl] at hp h1
      simp only [hks, h1, Res.ok_bind] at hp
      injection hp with hp
      simp only [Prod.mk.injEq] at h2 hp
      rw [h2.1, h2.2]
      exact hp

end Verif.VasprunEvent
