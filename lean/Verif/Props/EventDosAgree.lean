import Verif.Props.EventInterp
/-! # C53: the density of states -/
set_option autoImplicit false
namespace Verif.VasprunEvent
open Verif Verif.Utils Verif.Xml Verif.Vasprun

/-- The keys and values in the dictionary of one spin channel. -/
def partMap (p : DosPart) : DosMap := { total := some p.total, integrated := some p.integrated, partials := some p.partials }

/-- The keys and values in the dictionary the regular parser stores. -/
def dosMap (x : Dos) : DosDict :=
  match x.whole with
  | some p => { total := some { partMap p with energy := some x.energy, fermi := some x.fermi } }
  | none => { up := x.up.map partMap, down := x.down.map partMap, total := some { energy := some x.energy, fermi := some x.fermi } }

/-- A density of states as VASP prints it: items, the total density with rows for the first spin, and possibly partial densities with rows for the
first spin, with rows for the second spin only if the total density has them. -/
def DosLayout (n : Node) : Prop := ∃ is tot ps, n.children = is ++ tot :: ps ∧ (∀ m ∈ is, m.tag = c!"i") ∧ tot.tag = c!"total" ∧
  spinRows tot 0 0 c!"spin 1" ≠ [] ∧ (ps = [] ∨ ∃ par, ps = [par] ∧ par.tag = c!"partial" ∧ spinRows par 1 0 c!"spin 1" ≠ [] ∧
    (spinRows tot 0 0 c!"spin 2" = [] → spinRows par 1 0 c!"spin 2" = []))

theorem dosItems (sp : Option (List Nat)) (is : List Node) (h : ∀ m ∈ is, m.tag = c!"i") (s : DosAcc) :
    Res.foldlM' (dosChild sp) s is = .ok { s with fermi := s.fermi ++ is.filter (tn c!"i" c!"efermi").selects } := by
  induction is generalizing s with
  | nil => simp [Res.foldlM']
  | cons m is ih =>
    have hm := h m (List.mem_cons_self ..)
    have e1 : dosChild sp s m = .ok { s with fermi := if name m = some c!"efermi" then s.fermi ++ [m] else s.fermi } := by
      unfold dosChild
      rw [if_neg (by rw [hm]; decide), if_neg (by rw [hm]; decide)]
    rw [foldlM'_cons, e1, Res.ok_bind, ih (fun m h' => h m (List.mem_cons_of_mem _ h'))]
    by_cases hn : name m = some c!"efermi"
    · rw [List.filter_cons_of_pos (by exact selects_tn.2 ⟨hm, hn⟩)]
      simp [hn]
    · rw [List.filter_cons_of_neg (fun hc => hn (selects_tn.1 hc).2)]
      simp [hn]

theorem fermi_agree {l : List Node} {f : Option Rat} (h : fermiOf l = .ok f) : fetch convertF l = .ok f := by
  unfold fermiOf at h
  unfold fetch
  cases l with
  | nil => exact h
  | cons a as => cases as with
    | nil => exact h
    | cons b bs => cases h

theorem partialOf_rows {n : Nat} {l : List Node} (h : l ≠ []) : partialOf n (nonEmpty l) = (partialDos n l >>= fun x => .ok (some x)) := by
  cases l with
  | nil => exact absurd rfl h
  | cons a as => rfl

/-- A density of states that is read to the end is the one `_extract_dos` makes of its rows. -/
theorem dos_agree {sp : List Nat} {s : DosAcc} {f : Option Rat} {r : DosDict} {is : List Node} {tot : Node} {ps : List Node}
    (his : ∀ m ∈ is, m.tag = c!"i") (ht : tot.tag = c!"total")
    (hps : ps = [] ∨ ∃ par, ps = [par] ∧ par.tag = c!"partial" ∧ spinRows par 1 0 c!"spin 1" ≠ [] ∧
      (spinRows tot 0 0 c!"spin 2" = [] → spinRows par 1 0 c!"spin 2" = []))
    (h1 : Res.foldlM' (dosChild (some sp)) {} (is ++ tot :: ps) = .ok s) (h2 : joinDos {} s.p1 s.p2 f = .ok r) :
    s.fermi = is.filter (tn c!"i" c!"efermi").selects ∧
    ∃ x, extractDos (spinRows tot 0 0 c!"spin 1") (nonEmpty (spinRows tot 0 0 c!"spin 2"))
      (nonEmpty (ps.flatMap fun p => spinRows p 1 0 c!"spin 1")) (nonEmpty (ps.flatMap fun p => spinRows p 1 0 c!"spin 2")) f sp.length = .ok x ∧
      dosMap x = r := by
  rw [foldlM'_append, dosItems _ _ his, Res.ok_bind, foldlM'_cons] at h1
  obtain ⟨s1, g1, h1⟩ := Res.bind_eq_ok.1 h1
  unfold dosChild at g1
  rw [if_pos ht] at g1
  generalize spinRows tot 0 0 c!"spin 1" = l1 at g1 hps ⊢
  generalize spinRows tot 0 0 c!"spin 2" = l2 at g1 hps ⊢
  unfold totalOf at g1
  obtain ⟨d, hd, g1⟩ := Res.bind_eq_ok.1 g1
  obtain ⟨p2, hp2, g1⟩ := Res.bind_eq_ok.1 g1
  have g9 := Res.ok.inj g1
  clear g1
  have hpart : ∃ q1 q2 : Option (List Table), partialOf sp.length (nonEmpty (ps.flatMap fun p => spinRows p 1 0 c!"spin 1")) = .ok q1 ∧
      partialOf sp.length (nonEmpty (ps.flatMap fun p => spinRows p 1 0 c!"spin 2")) = .ok q2 ∧ (l2 = [] → q2 = none) ∧
      s.fermi = s1.fermi ∧ s.p1 = { s1.p1 with partials := some q1 } ∧ (l2 ≠ [] → s.p2 = { s1.p2 with partials := some q2 }) ∧ (l2 = [] → s.p2 = s1.p2) := by
    rcases hps with rfl | ⟨par, rfl, hpt, hr1, hr2⟩
    · injection h1 with h1
      subst h1
      refine ⟨none, none, rfl, rfl, fun _ => rfl, rfl, ?_, ?_, fun _ => rfl⟩
      · rw [← g9]
      · intro hl
        rw [← g9]
        cases l2 with
        | nil => exact absurd rfl hl
        | cons z zs =>
          simp only [List.isEmpty_cons, Bool.false_eq_true, if_false] at hp2
          obtain ⟨d2, _, hp2⟩ := Res.bind_eq_ok.1 hp2
          injection hp2 with hp2
          rw [← hp2]
    · rw [foldlM'_cons] at h1
      obtain ⟨s2, k1, h1⟩ := Res.bind_eq_ok.1 h1
      injection h1 with h1
      subst h1
      unfold dosChild at k1
      rw [if_neg (by rw [hpt]; decide), if_pos hpt] at k1
      simp only [List.flatMap_cons, List.flatMap_nil, List.append_nil]
      generalize spinRows par 1 0 c!"spin 1" = m1 at k1 hr1 ⊢
      generalize spinRows par 1 0 c!"spin 2" = m2 at k1 hr2 ⊢
      unfold partOf at k1
      simp only at k1
      obtain ⟨x, hx, k1⟩ := Res.bind_eq_ok.1 k1
      obtain ⟨y, hy, k1⟩ := Res.bind_eq_ok.1 k1
      injection k1 with k1
      subst k1
      rw [partialOf_rows hr1, hx, Res.ok_bind]
      cases m2 with
      | nil =>
        simp only [List.isEmpty_nil, if_true] at hy
        injection hy with hy
        refine ⟨_, none, rfl, rfl, fun _ => rfl, rfl, rfl, ?_, fun _ => hy.symm⟩
        intro hl
        show y = _
        rw [← hy, ← g9]
        cases l2 with
        | nil => exact absurd rfl hl
        | cons z zs =>
          simp only [List.isEmpty_cons, Bool.false_eq_true, if_false] at hp2
          obtain ⟨d2, _, hp2⟩ := Res.bind_eq_ok.1 hp2
          injection hp2 with hp2
          rw [← hp2]
      | cons z zs =>
        simp only [List.isEmpty_cons, Bool.false_eq_true, if_false] at hy
        obtain ⟨y2, hy2, hy⟩ := Res.bind_eq_ok.1 hy
        injection hy with hy
        rw [partialOf_rows (by simp), hy2, Res.ok_bind]
        refine ⟨_, _, rfl, rfl, fun hl => absurd (hr2 hl) (by simp), rfl, rfl, fun _ => hy.symm, fun hl => absurd (hr2 hl) (by simp)⟩
  obtain ⟨q1, q2, a1, a2, a3, a4, a5, a6, a7⟩ := hpart
  refine ⟨by rw [a4, ← g9]; rfl, ?_⟩
  unfold extractDos
  rw [a1, a2, hd]
  cases l2 with
  | nil =>
    simp only [List.isEmpty_nil, if_true] at hp2
    injection hp2 with hp2
    refine ⟨_, rfl, ?_⟩
    have e2 : s.p2 = {} := by rw [a7 rfl, ← g9]; exact hp2.symm
    rw [e2, a5, ← g9] at h2
    injection h2 with h2
  | cons z zs =>
    simp only [List.isEmpty_cons, Bool.false_eq_true, if_false] at hp2
    obtain ⟨d2, hd2, hp2⟩ := Res.bind_eq_ok.1 hp2
    injection hp2 with hp2
    have e2 : s.p2 = { total := some (tableColumn 1 d2), integrated := some (tableColumn 2 d2), partials := some q2 } := by
      rw [a6 (by simp), ← g9, ← hp2]
    refine ⟨{ up := some ⟨tableColumn 1 d, tableColumn 2 d, q1⟩, down := some ⟨tableColumn 1 d2, tableColumn 2 d2, q2⟩, energy := tableColumn 0 d, fermi := f }, ?_, ?_⟩
    · show (convert2D (z :: zs) 3 >>= fun d2 => _) = _
      rw [hd2]; rfl
    · rw [e2, a5, ← g9] at h2
      unfold joinDos at h2
      rw [if_neg (by unfold DosMap.empty; simp)] at h2
      simp only at h2
      injection h2 with h2

theorem filter_t_dos (l : List Node) : l.filter (t c!"dos").selects = l.filter isDos := by
  refine List.filter_congr fun x _ => ?_
  unfold isDos Step.selects t
  simp

/-- **C53**: the density of states. The document has at most one, not interpolated, in the layout of VASP. Missing: other documents, on which the parsers differ (`C53_violation_*`). -/
theorem C53_dos_partial {kb all : Bool} {root : Node} {head body : List Node} {g q a arr k l w : Node} (h : Doc root head body g q a arr k l w)
    {e : EData} {d : Data} (he : parsee root kb = .ok e) (hd : parsew root kb all = .ok d) (hone : ((partsOf root).filter isDos).length ≤ 1)
    (hlay : ∀ p ∈ partsOf root, isDos p = true → comment p = none ∧ DosLayout p) :
    e.dos = d.dos.map dosMap ∧ e.dosSpecific = none ∧ d.dosSpecific = none := by
  obtain ⟨o, o', b⟩ := both h he hd
  obtain ⟨sp, hsp⟩ := b.some.1
  have e1 : e.dos = o'.dosCopy ∧ e.dosSpecific = (if o'.dosSpecificSet then some o'.dosDict else none) := by rw [b.finish]; exact ⟨rfl, rfl⟩
  rw [e1.1, e1.2]
  have hp := (Vasprun.parts hd).dos
  rw [hsp] at hp
  have hr : ∀ s ss, findAny root (t c!"calculation") (t c!"dos" :: s :: ss) = ((partsOf root).filter isDos).flatMap fun n => findRel n (s :: ss) := by
    intro s ss; rw [findAny_parts, filter_t_dos]
  have hrc : ∀ ss, findAny root (t c!"calculation") (tc c!"dos" c!"interpolated" :: ss) = [] := by
    intro ss
    rw [findAny_parts, List.filter_eq_nil_iff.2]
    · rfl
    · intro x hx hs
      obtain ⟨g1, g2⟩ := selects_tc.1 hs
      rw [(hlay x hx (decide_eq_true g1)).1] at g2; cases g2
  unfold fetchDos fetchOneDos at hp
  simp only [hr, hrc] at hp
  rcases b.once (π := fun o => (o.dosCopy, o.dosDict, o.dosSpecificSet)) (fun _ _ _ => rfl) (fun _ => rfl) isDos (fun n a a' hk f => by
    obtain ⟨f1, f2, f3⟩ := f.dos hk
    simp only [f1, f2, f3]) hone with ⟨h0, h1⟩ | ⟨x, a, a', hx, hc, ⟨c1, c2, c3⟩, h1, h2⟩
  · rw [h0] at hp
    simp only [Prod.mk.injEq] at h1
    rw [h1.1, h1.2.2]
    simp only [List.flatMap_nil, fetch, Res.ok_bind, Option.map_some] at hp
    injection hp with hp
    simp only [Prod.mk.injEq] at hp
    rw [← hp.1, ← hp.2]
    exact ⟨rfl, rfl, rfl⟩
  · obtain ⟨m1, m2⟩ := kind_of hx
    obtain ⟨hcm, is, tot, ps, hch, his, ht, hrow, hps⟩ := hlay x m1 m2
    rw [calcChild_dos m2 hcm] at hc
    simp only [Prod.mk.injEq] at h1 h2
    unfold dosAll at hc
    obtain ⟨s, k1, hc⟩ := Res.bind_eq_ok.1 hc
    obtain ⟨f, k2, hc⟩ := Res.bind_eq_ok.1 hc
    obtain ⟨r, k3, hc⟩ := Res.bind_eq_ok.1 hc
    injection hc with hc
    rw [c2, hsp, hch] at k1
    rw [h1.2.1] at k3
    obtain ⟨y1, y, y2, y3⟩ := dos_agree his ht hps k1 k3
    rw [hx] at hp
    simp only [List.flatMap_cons, List.flatMap_nil, List.append_nil] at hp
    have tagne : ∀ {m : Node} {s s' : Str}, m.tag = s → s ≠ s' → ¬ (t s').selects m = true := fun h1 h2 hc => h2 (h1.symm.trans (selects_t.1 hc))
    have ftot : x.children.filter (t c!"total").selects = [tot] := by
      rw [hch, List.filter_append, List.filter_eq_nil_iff.2 (fun m hm => tagne (his m hm) (by decide)), List.filter_cons_of_pos (by exact selects_t.2 ht)]
      rcases hps with rfl | ⟨par, rfl, hpt, _⟩
      · rfl
      · rw [List.filter_cons_of_neg (tagne hpt (by decide))]; rfl
    have fpar : x.children.filter (t c!"partial").selects = ps := by
      rw [hch, List.filter_append, List.filter_eq_nil_iff.2 (fun m hm => tagne (his m hm) (by decide)), List.filter_cons_of_neg (tagne ht (by decide))]
      rcases hps with rfl | ⟨par, rfl, hpt, _⟩
      · rfl
      · rw [List.filter_cons_of_pos (by exact selects_t.2 hpt)]; rfl
    have ffer : x.children.filter (tn c!"i" c!"efermi").selects = is.filter (tn c!"i" c!"efermi").selects := by
      have ne : ∀ {m : Node} {s : Str}, m.tag = s → s ≠ c!"i" → ¬ (tn c!"i" c!"efermi").selects m = true :=
        fun h1 h2 hc => h2 (h1.symm.trans (selects_tn.1 hc).1)
      rw [hch, List.filter_append, List.filter_cons_of_neg (ne ht (by decide))]
      rcases hps with rfl | ⟨par, rfl, hpt, _⟩
      · simp
      · rw [List.filter_cons_of_neg (ne hpt (by decide))]; simp
    rw [findRel_one, ffer, ← y1, fermi_agree k2, Res.ok_bind] at hp
    have ptot : ∀ s, findRel x [t c!"total", t c!"array", t c!"set", tc c!"set" s, t c!"r"] = spinRows tot 0 0 s := by
      intro s; rw [findRel_cons, ftot, List.flatMap_singleton]; rfl
    have ppar : ∀ s, findRel x [t c!"partial", t c!"array", t c!"set", t c!"set", tc c!"set" s, t c!"r"] = ps.flatMap fun p => spinRows p 1 0 s := by
      intro s; rw [findRel_cons, fpar]; rfl
    simp only [ptot, ppar] at hp
    cases hl : spinRows tot 0 0 c!"spin 1" with
    | nil => exact absurd hl hrow
    | cons z zs =>
      rw [hl] at hp y2
      simp only [Option.map_some, y2, Res.ok_bind, fetch] at hp
      injection hp with hp
      simp only [Prod.mk.injEq] at hp
      rw [h2.1, h2.2.2, ← hc, ← hp.1, ← hp.2]
      simp only [Option.map_some, y3, h1.2.2]
      exact ⟨trivial, rfl, trivial⟩

end Verif.VasprunEvent
