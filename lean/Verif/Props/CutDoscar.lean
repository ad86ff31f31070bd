import Verif.Props.Doscar
import Verif.Lemmas.Cut
/-! # DOSCAR files cut off (C93) -/
set_option autoImplicit false
namespace Verif.Doscar
open Verif Verif.Utils
open Verif.Kpoints (idx toFloat toInt)

theorem mapM'_append_ok {α β : Type} {f : α → Res β} {a b : List α} {r : List β} (h : Res.mapM' f (a ++ b) = .ok r) :
    ∃ x y, Res.mapM' f a = .ok x ∧ Res.mapM' f b = .ok y ∧ r = x ++ y := by
  rw [Res.mapM'_eq_ok] at h
  have : ∀ (a : List α) (r : List β), List.Forall₂ (fun x y => f x = .ok y) (a ++ b) r →
      ∃ x y, List.Forall₂ (fun x y => f x = .ok y) a x ∧ List.Forall₂ (fun x y => f x = .ok y) b y ∧ r = x ++ y := by
    intro a
    induction a with
    | nil => intro r h; exact ⟨[], r, .nil, h, rfl⟩
    | cons u us ih =>
      intro r h
      cases h with
      | cons h1 h2 =>
        obtain ⟨x, y, k1, k2, rfl⟩ := ih _ h2
        exact ⟨_ :: x, y, .cons h1 k1, k2, rfl⟩
  obtain ⟨x, y, h1, h2, rfl⟩ := this a r h
  exact ⟨x, y, Res.mapM'_eq_ok.2 h1, Res.mapM'_eq_ok.2 h2, rfl⟩

theorem Accepted.ok {nc : Bool} {lines : List Str} {d : Data} (A : Accepted nc lines d) : fromList nc lines = .ok d := by
  obtain ⟨numIons, numAtoms, p, q, coord, header, nd, data, l0, l3, l4, l5, e0, e3, e4, e5, ints, hcoord, numbers, hheader, hdata, pos, hn, hi,
    ha, hname, hcart, total, part⟩ := A
  have hidx : ∀ i l, lines[i]? = some l → idx lines i = .ok l := by intro i l h; unfold idx; rw [h]
  have h5 : lineToType toFloat l5 = .ok (.many header) := by
    refine lineToType_ok.2 ⟨header, numbers, ?_⟩
    rw [hheader]; rfl
  unfold fromList
  simp only [hidx _ _ e0, hidx _ _ e3, hidx _ _ e4, hidx _ _ e5, ints, hcoord, h5, Res.ok_bind, unpack, List.length_cons, List.length_nil]
  rw [hheader]
  simp only [List.length_cons, List.length_nil, if_true, Res.ok_bind, hdata]
  rw [if_neg (by omega), total, Res.ok_bind, ← hheader, part, Res.ok_bind, hcart, Res.ok_bind]
  obtain ⟨⟨m1, m2, m3, m4, m5, m6, m7, m8, m9⟩, dos, pdos⟩ := d
  simp only at hn hi ha hname
  subst hn hi ha hname
  rfl

/-- The same file with further lines. -/
theorem data_append {nc nc' : Bool} {A B : List Str} {d d' : Data} (x : Accepted nc A d) (x' : Accepted nc' (A ++ B) d') :
    x.l0 = x'.l0 ∧ x.l3 = x'.l3 ∧ x.l4 = x'.l4 ∧ x.l5 = x'.l5 ∧ ∃ more, x'.data = x.data ++ more := by
  have h := fun (i : Nat) (l l' : Str) (e : A[i]? = some l) (e' : (A ++ B)[i]? = some l') => (by
    rw [idx_prefix_ok B e] at e'; exact Option.some.inj e' : l = l')
  refine ⟨h 0 _ _ x.e0 x'.e0, h 3 _ _ x.e3 x'.e3, h 4 _ _ x.e4 x'.e4, h 5 _ _ x.e5 x'.e5, ?_⟩
  have h6 : 6 ≤ A.length := by
    by_contra hc
    have := x.e5
    rw [List.getElem?_eq_none (by omega)] at this
    cases this
  have hd := x'.hdata
  rw [List.drop_append_of_le_length h6] at hd
  obtain ⟨u, v, h1, h2, h3⟩ := mapM'_append_ok hd
  rw [x.hdata] at h1
  cases h1
  exact ⟨v, h3⟩

/-- What two accepted files have in common if one is a beginning of the other. -/
theorem same_header {nc nc' : Bool} {A B : List Str} {d d' : Data} (x : Accepted nc A d) (x' : Accepted nc' (A ++ B) d') :
    d.metadata = d'.metadata ∧ x.header = x'.header ∧ x.nd = x'.nd ∧ x.numIons = x'.numIons := by
  obtain ⟨k0, k3, k4, k5, _⟩ := data_append x x'
  have e0 := x.ints
  rw [k0, x'.ints] at e0
  have e0 := OneOrMany.many.inj (Res.ok.inj e0)
  simp only [List.cons.injEq, and_true] at e0
  have e3 := x.hcoord
  rw [k3, x'.hcoord] at e3
  have e3 := Res.ok.inj e3
  have ec := x.hcart
  rw [← e3, x'.hcart] at ec
  have ec := Res.ok.inj ec
  have e5 := x.numbers
  rw [k5] at e5
  have e5 := Numbers.unique e5 x'.numbers
  have e5' := e5
  rw [x.hheader, x'.hheader] at e5'
  simp only [List.cons.injEq, and_true] at e5'
  have hn := x.hn
  have hn' := x'.hn
  have h1 := x.hi
  have h1' := x'.hi
  have h2 := x.ha
  have h2' := x'.ha
  have h4 := x.hname
  have h4' := x'.hname
  refine ⟨?_, e5, e5'.2.2.1, e0.1.symm⟩
  have ext : ∀ m m' : Metadata, m.nIons = m'.nIons → m.nAtoms = m'.nAtoms → m.cartesian = m'.cartesian → m.name = m'.name → m.emax = m'.emax →
      m.emin = m'.emin → m.nDos = m'.nDos → m.efermi = m'.efermi → m.weight = m'.weight → m = m' := by
    intro m m' a1 a2 a3 a4 a5 a6 a7 a8 a9
    cases m; cases m'
    simp only at a1 a2 a3 a4 a5 a6 a7 a8 a9
    subst a1 a2 a3 a4 a5 a6 a7 a8 a9
    rfl
  obtain ⟨u1, u2, u3, u4, u5⟩ := e5'
  exact ext _ _ (by rw [h1, h1', e0.1]) (by rw [h2, h2', e0.2.1]) ec.symm (by rw [h4, h4', k4]) u1 u2 (by rw [hn, hn', u3]) u4 u5

theorem idx_mono {α : Type} {l m : List α} {i : Nat} {a : α} (h : idx l i = .ok a) : idx (l ++ m) i = .ok a := by
  unfold idx at h ⊢
  split at h
  · rename_i b hb
    cases h
    rw [idx_prefix_ok m hb]
  · cases h

theorem totalDos_mono {data more : List (OneOrMany Rat)} {n : Nat} (hn : 0 < n) {dos : List Record} (h : totalDos data n = .ok dos) :
    totalDos (data ++ more) n = .ok dos := by
  unfold totalDos at h ⊢
  obtain ⟨last, h1, h⟩ := Res.bind_eq_ok.1 h
  rw [idx_mono h1, Res.ok_bind, List.take_append_of_le_length]
  · exact h
  · unfold idx at h1
    by_contra hc
    rw [List.getElem?_eq_none (by omega)] at h1
    cases h1

/-- C93, proved part: a DOSCAR cut at the end of a line, if accepted, has the metadata and the total density of states of the complete file; its
partial density of states is missing, complete, or, with a single ion, a beginning of the complete one. Missing in the full claim: that a cut
file is refused, which is false (`C93_violation_missing`, `C93_violation_short`), and cuts inside a line (`C93_violation_digit`). -/
theorem C93_cut_partial (nc : Bool) (p q : Str) (hp : LineEnd p) (d d' : Data) (h : init none (some p) nc = .ok d)
    (h' : init none (some (p ++ q)) nc = .ok d') :
    d.metadata = d'.metadata ∧ d.dos = d'.dos ∧
    (d.pdos = [] ∨ d.pdos = d'.pdos ∨ d.metadata.nIons = 1 ∧ ∃ b b', d.pdos = [b] ∧ d'.pdos = [b'] ∧ b <+: b') := by
  have hh : fromList nc (readlines p) = .ok d := h
  have hh' : fromList nc (readlines (p ++ q)) = .ok d' := h'
  rw [readlines_lineEnd hp] at hh'
  obtain ⟨x⟩ := fromList_ok hh
  obtain ⟨x'⟩ := fromList_ok hh'
  obtain ⟨hm, hhead, hnd, hions⟩ := same_header x x'
  obtain ⟨_, _, _, _, more, hmore⟩ := data_append x x'
  have hpos := x.pos
  refine ⟨hm, ?_, ?_⟩
  · have t := totalDos_mono (more := more) (by omega) x.total
    have t' := x'.total
    rw [← hmore, hnd] at t
    rw [t] at t'
    exact Res.ok.inj t'
  · have P := partial_ok x.part
    have P' := partial_ok x'.part
    rw [← hhead, ← hnd, ← hions, hmore] at P'
    rcases P with ⟨_, P⟩ | ⟨pp, c, s, dt, m, p1, p2, p3, p4, p5, p6, p7, p8, p9, p10⟩
    · exact .inl P
    · right
      have hlt : pp < x.data.length := by
        by_contra hc
        rw [List.getElem?_eq_none (by omega)] at p1
        cases p1
      rcases P' with ⟨P', _⟩ | ⟨pp', c', s', dt', m', p1', p2', p3', p4', p5', p6', p7', p8', p9', p10'⟩
      · exact absurd (idx_prefix_ok more p1) (P' pp)
      · have hpp : pp' = pp := by
          rcases Nat.lt_trichotomy pp' pp with hl | hl | hl
          · rw [List.getElem?_append_left (by omega)] at p1'
            exact absurd p1' (p2 pp' hl)
          · exact hl
          · exact absurd (idx_prefix_ok more p1) (p2' pp hl)
        subst hpp
        have hlen : d.pdos.length = d'.pdos.length := by omega
        have get : ∀ i, i < d.pdos.length → ∃ b b', d.pdos[i]? = some b ∧ d'.pdos[i]? = some b' := fun i hi =>
          ⟨_, _, List.getElem?_eq_getElem hi, List.getElem?_eq_getElem (by omega)⟩
        have row : ∀ i b j r, d.pdos[i]? = some b → b[j]? = some r → ∃ rw_, (x.data ++ more)[pp' + 1 + i * ((truncInt x.nd).toNat + 1) + j]? = some (.many rw_) ∧
            rw_.length = c ∧ r = record s (dt.tail.map Prod.fst) rw_ := by
          intro i b j r hb hr
          obtain ⟨rw_, w1, w2, w3⟩ := (p10 i b hb).2 j r hr
          exact ⟨rw_, idx_prefix_ok more w1, w2, w3⟩
        -- the first rows
        obtain ⟨b0, b0', g0, g0'⟩ := get 0 (by omega)
        have l0 := (p10 0 b0 g0).1
        have l0' := (p10' 0 b0' g0').1
        obtain ⟨r0, r0', f0, f0'⟩ : ∃ r r', b0[0]? = some r ∧ b0'[0]? = some r' :=
          ⟨_, _, List.getElem?_eq_getElem (by omega), List.getElem?_eq_getElem (by omega)⟩
        obtain ⟨w, w1, w2, _⟩ := row 0 b0 0 r0 g0 f0
        obtain ⟨w', w1', w2', _⟩ := (p10' 0 b0' g0').2 0 r0' f0'
        rw [w1] at w1'
        have := OneOrMany.many.inj (Option.some.inj w1')
        subst this
        have hc : c' = c := by rw [← w2, ← w2']
        subst hc
        have hs : s' = s := by rw [p4] at p4'; exact (Res.ok.inj p4').symm
        have hdt : dt' = dt := by rw [p5] at p5'; exact (Res.ok.inj p5').symm
        subst hs hdt
        -- all rows
        have pre : ∀ (i : Nat) (b b' : List Record), d.pdos[i]? = some b → d'.pdos[i]? = some b' → ∀ j : Nat, j < m → j < m' → b[j]? = b'[j]? := by
          intro i b b' hb hb' j hj hj'
          have lb := (p10 i b hb).1
          have lb' := (p10' i b' hb').1
          obtain ⟨w, w1, _, w3⟩ := row i b j _ hb (List.getElem?_eq_getElem (by omega))
          obtain ⟨w', w1', _, w3'⟩ := (p10' i b' hb').2 j _ (List.getElem?_eq_getElem (by omega))
          rw [w1] at w1'
          have := OneOrMany.many.inj (Option.some.inj w1')
          subst this
          rw [List.getElem?_eq_getElem (by omega), List.getElem?_eq_getElem (by omega), w3, w3']
        have hmm : m ≤ m' := by
          rcases p8' with e | ⟨_, e⟩
          · omega
          · obtain ⟨w, w1, _, _⟩ := row 0 b0 (m - 1) _ g0 (List.getElem?_eq_getElem (by omega))
            by_contra hc
            rw [List.getElem?_eq_none (by omega)] at w1
            cases w1
        rcases p8 with e | ⟨e1, e2⟩
        · left
          have : m' = m := by omega
          subst this
          refine List.ext_getElem? fun i => ?_
          by_cases hi : i < d.pdos.length
          · obtain ⟨b, b', hb, hb'⟩ := get i hi
            rw [hb, hb']
            have lb := (p10 i b hb).1
            have lb' := (p10' i b' hb').1
            congr 1
            refine List.ext_getElem? fun j => ?_
            by_cases hj : j < m'
            · exact pre i b b' hb hb' j hj hj
            · rw [List.getElem?_eq_none (by omega), List.getElem?_eq_none (by omega)]
          · rw [List.getElem?_eq_none (by omega), List.getElem?_eq_none (by omega)]
        · right
          have one : ∀ l : List (List Record), ∀ b, l.length = 1 → l[0]? = some b → l = [b] := by
            intro l b h1 h2
            obtain ⟨y, rfl⟩ := List.length_eq_one_iff.1 h1
            simpa using h2
          refine ⟨by rw [x.hi]; exact e1, b0, b0', one _ _ (by omega) g0, one _ _ (by omega) g0', ?_⟩
          rw [List.prefix_iff_getElem?]
          intro j hj
          rw [← pre 0 b0 b0' g0 g0' j (by omega) (by omega), List.getElem?_eq_getElem hj]

theorem totalDos_cut {data more : List (OneOrMany Rat)} {n : Nat} (hn : 0 < n) (hl : n ≤ data.length) {dos : List Record}
    (h : totalDos (data ++ more) n = .ok dos) : totalDos data n = .ok dos := by
  unfold totalDos at h ⊢
  obtain ⟨last, h1, h⟩ := Res.bind_eq_ok.1 h
  have h2 : idx data (n - 1) = .ok last := by
    unfold idx at h1 ⊢
    rwa [List.getElem?_append_left (by omega)] at h1
  rw [h2, Res.ok_bind, ← List.take_append_of_le_length (l₂ := more) hl]
  exact h

/-- C93 is false of every DOSCAR with a partial density of states: cut at the end of a line anywhere between the total density of states and
the second line of energies, it is accepted and reported as a complete calculation without partial density of states. -/
theorem C93_violation_missing (nc : Bool) (p q : Str) (hp : LineEnd p) (d : Data) (h : init none (some (p ++ q)) nc = .ok d)
    (r : Nat) (hr : FirstRepeat (readlines (p ++ q)) r) (h1 : 6 + d.metadata.nDos ≤ (readlines p).length) (h2 : (readlines p).length ≤ 6 + r) :
    init none (some p) nc = .ok { d with pdos := [] } := by
  have hh : fromList nc (readlines (p ++ q)) = .ok d := h
  obtain ⟨x⟩ := fromList_ok hh
  obtain ⟨_, no⟩ := (firstRepeat_iff x r).1 hr
  have hpos := x.pos
  rw [x.hn] at h1
  show fromList nc (readlines p) = _
  have get : ∀ (i : Nat) (l : Str), i < 6 → (readlines (p ++ q))[i]? = some l → (readlines p)[i]? = some l := by
    intro i l hi e
    rw [readlines_lineEnd hp, List.getElem?_append_left (by omega)] at e
    exact e
  have hd : Res.mapM' (lineToType toFloat) ((readlines p).drop 6 ++ readlines q) = .ok x.data := by
    rw [← List.drop_append_of_le_length (by omega), ← readlines_lineEnd hp]
    exact x.hdata
  obtain ⟨u, v, w1, _, w3⟩ := mapM'_append_ok hd
  have hu : u.length = (readlines p).length - 6 := by
    have := (Res.mapM'_eq_ok.1 w1).length_eq
    rw [List.length_drop] at this
    omega
  have ht := x.total
  rw [w3] at ht
  have ix : indexOf x.header u = none := by
    cases e : indexOf x.header u with
    | none => rfl
    | some k =>
      obtain ⟨e1, _⟩ := indexOf_some e
      have hk : k < u.length := by
        by_contra hc
        rw [List.getElem?_eq_none (by omega)] at e1
        cases e1
      refine absurd ?_ (no k (by omega))
      rw [w3]
      exact idx_prefix_ok v e1
  exact Accepted.ok
    { numIons := x.numIons, numAtoms := x.numAtoms, p := x.p, q := x.q, coord := x.coord, header := x.header, nd := x.nd, data := u
      l0 := x.l0, l3 := x.l3, l4 := x.l4, l5 := x.l5
      e0 := get 0 _ (by omega) x.e0, e3 := get 3 _ (by omega) x.e3, e4 := get 4 _ (by omega) x.e4, e5 := get 5 _ (by omega) x.e5
      ints := x.ints, hcoord := x.hcoord, numbers := x.numbers, hheader := x.hheader, hdata := w1, pos := x.pos, hn := x.hn, hi := x.hi
      ha := x.ha, hname := x.hname, hcart := x.hcart
      total := totalDos_cut (by omega) (by omega) ht
      part := by unfold partialDos; rw [ix] }

/-- The complete file of one ion for the cuts below. -/
def cutFile : Str := c!"1 1 1 0\n0\n0\nCAR\nname\n 2 -1 2 5 1\n 1 2 3\n 2 3 4\n 2 -1 2 5 1\n 1 5 6 7\n 2 6 7 8\n"

/-- A cut inside the block of the only ion is accepted; fewer rows than energies are returned. -/
theorem C93_violation_short : ∃ p q : Str, p ++ q = cutFile ∧ LineEnd p ∧ (results (init none (some cutFile) false)).map (·.2) = some
      [[[(c!"energy", [1]), (c!"s", [5]), (c!"p", [6]), (c!"d", [7])], [(c!"energy", [2]), (c!"s", [6]), (c!"p", [7]), (c!"d", [8])]]] ∧
    (results (init none (some p) false)).map (·.2) = some [[[(c!"energy", [1]), (c!"s", [5]), (c!"p", [6]), (c!"d", [7])]]] :=
  ⟨c!"1 1 1 0\n0\n0\nCAR\nname\n 2 -1 2 5 1\n 1 2 3\n 2 3 4\n 2 -1 2 5 1\n 1 5 6 7\n", c!" 2 6 7 8\n", by decide +kernel, .inr (by decide +kernel),
    by decide +kernel, by decide +kernel⟩

/-- A cut inside the last number is accepted; another number is returned. -/
theorem C93_violation_digit : ∃ p q : Str, q = c!"5\n" ∧
    (results (init none (some (p ++ q)) false)).map (·.1) = some
      [[(c!"energy", [1]), (c!"total", [2]), (c!"integrated", [3])], [(c!"energy", [2]), (c!"total", [3]), (c!"integrated", [45])]] ∧
    (results (init none (some p) false)).map (·.1) = some
      [[(c!"energy", [1]), (c!"total", [2]), (c!"integrated", [3])], [(c!"energy", [2]), (c!"total", [3]), (c!"integrated", [4])]] :=
  ⟨c!"1 1 1 0\n0\n0\nCAR\nname\n 2 -1 2 5 1\n 1 2 3\n 2 3 4", _, rfl, by decide +kernel, by decide +kernel⟩

/-- The hypotheses of `C93_violation_missing` are met: `cutFile` cut in front of the second line of energies. -/
example : ∃ p q : Str, p ++ q = cutFile ∧ LineEnd p ∧ ∃ d, init none (some (p ++ q)) false = .ok d ∧ FirstRepeat (readlines (p ++ q)) 2 ∧
    6 + d.metadata.nDos ≤ (readlines p).length ∧ (readlines p).length ≤ 6 + 2 := by
  refine ⟨c!"1 1 1 0\n0\n0\nCAR\nname\n 2 -1 2 5 1\n 1 2 3\n 2 3 4\n", c!" 2 -1 2 5 1\n 1 5 6 7\n 2 6 7 8\n", by decide +kernel, .inr (by decide +kernel), ?_⟩
  have hs : ∃ d, init none (some cutFile) false = .ok d ∧ d.metadata.nDos = 2 ∧ d.pdos ≠ [] := by
    have : (match init none (some cutFile) false with | .ok d => decide (d.metadata.nDos = 2 ∧ d.pdos ≠ []) | _ => false) = true := by decide +kernel
    revert this
    generalize init none (some cutFile) false = e
    cases e with
    | ok d => intro h; exact ⟨d, rfl, of_decide_eq_true h⟩
    | raise _ => intro h; cases h
    | exit _ => intro h; cases h
  obtain ⟨d, hd, hn, hp⟩ := hs
  have e : c!"1 1 1 0\n0\n0\nCAR\nname\n 2 -1 2 5 1\n 1 2 3\n 2 3 4\n" ++ c!" 2 -1 2 5 1\n 1 5 6 7\n 2 6 7 8\n" = cutFile := by decide +kernel
  rw [e]
  refine ⟨d, hd, ?_, by rw [hn]; decide +kernel, by decide +kernel⟩
  have hh : fromList false (readlines cutFile) = .ok d := hd
  obtain ⟨x⟩ := fromList_ok hh
  rw [firstRepeat_iff x]
  rcases partial_ok x.part with ⟨_, h⟩ | ⟨k, _, _, _, _, k1, k2, _⟩
  · exact absurd h hp
  · have hdat := x.hdata
    have e2 : Res.mapM' (lineToType toFloat) ((readlines cutFile).drop 6) =
      .ok [.many [1, 2, 3], .many [2, 3, 4], .many [2, -1, 2, 5, 1], .many [1, 5, 6, 7], .many [2, 6, 7, 8]] := by decide +kernel
    rw [e2] at hdat
    have hdat := Res.ok.inj hdat
    have hx : x.header = [2, -1, 2, 5, 1] := by
      refine Numbers.unique x.numbers ?_
      have e5 := x.e5
      have e6 : (readlines cutFile)[5]? = some c!" 2 -1 2 5 1\n" := by decide +kernel
      rw [e6] at e5
      rw [← Option.some.inj e5]
      exact (numbers_iff _ _).2 (by decide +kernel)
    rw [← hdat, hx]
    refine ⟨rfl, fun q hq => ?_⟩
    match q, hq with
    | 0, _ => decide
    | 1, _ => decide

end Verif.Doscar
