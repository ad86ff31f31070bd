import Verif.Props.Eigenval
import Verif.Lemmas.Cut
/-! # EIGENVAL files cut off (C92) -/
set_option autoImplicit false
namespace Verif.Eigenval
open Verif Verif.Utils
open Verif.Kpoints (idx toFloat toInt)
open Verif.Doscar (unpack cartesianOf)

/-! ### the header -/

/-- The header part of `_from_list`: the metadata and the sizes. -/
def headRes (lines : List Str) : Res (Metadata × Nat × Nat × Nat) :=
  idx lines 0 >>= fun l0 => lineToType toInt l0 >>= fun v0 =>
  idx lines 1 >>= fun l1 => lineToType toFloat l1 >>= fun v1 =>
  idx lines 2 >>= fun l2 => lineToType toFloat l2 >>= fun v2 =>
  idx lines 3 >>= fun l3 => lineToType Res.ok l3 >>= fun coord =>
  idx lines 4 >>= fun l4 =>
  idx lines 5 >>= fun l5 => lineToType toInt l5 >>= fun v5 => unpack 3 v5 >>= fun h5 =>
  unpack 4 v0 >>= fun h0 =>
  match h0, h5 with
  | [numIons, numAtoms, p00, numSpins], [param0, numKp, numBands] =>
    size numKp >>= fun nk => size numSpins >>= fun ns => size numBands >>= fun nb =>
    cartesianOf coord >>= fun cart =>
    .ok (⟨h0, v1, v2, numIons, numAtoms, p00, numSpins, cart, lineToTypeNoSplit l4, param0, numBands, numKp⟩, nk, ns, nb)
  | _, _ => .raise .valueError

/-- The loop over the blocks. -/
def loopRes (lines : List Str) (nk ns nb : Nat) : Res Arrays :=
  Res.foldlM' (readBlock ns nb) ⟨List.replicate nk [0, 0, 0, 0], List.replicate ns (List.replicate nk (List.replicate nb 0))⟩
      (blocks (lines.drop 6).flatten).zipIdx

theorem fromList_iff (lines : List Str) (d : Data) : fromList lines = .ok d ↔
    ∃ nk ns nb, headRes lines = .ok (d.metadata, nk, ns, nb) ∧ loopRes lines nk ns nb = .ok d.arrays := by
  unfold fromList headRes loopRes
  constructor
  · intro h
    obtain ⟨l0, e0, h⟩ := Res.bind_eq_ok.1 h
    obtain ⟨v0, f0, h⟩ := Res.bind_eq_ok.1 h
    obtain ⟨l1, e1, h⟩ := Res.bind_eq_ok.1 h
    obtain ⟨v1, f1, h⟩ := Res.bind_eq_ok.1 h
    obtain ⟨l2, e2, h⟩ := Res.bind_eq_ok.1 h
    obtain ⟨v2, f2, h⟩ := Res.bind_eq_ok.1 h
    obtain ⟨l3, e3, h⟩ := Res.bind_eq_ok.1 h
    obtain ⟨co, f3, h⟩ := Res.bind_eq_ok.1 h
    obtain ⟨l4, e4, h⟩ := Res.bind_eq_ok.1 h
    obtain ⟨l5, e5, h⟩ := Res.bind_eq_ok.1 h
    obtain ⟨v5, f5, h⟩ := Res.bind_eq_ok.1 h
    obtain ⟨h5, g5, h⟩ := Res.bind_eq_ok.1 h
    obtain ⟨h0, g0, h⟩ := Res.bind_eq_ok.1 h
    simp only [e0, f0, e1, f1, e2, f2, e3, f3, e4, e5, f5, g5, g0, Res.ok_bind]
    split at h
    · obtain ⟨nk, q1, h⟩ := Res.bind_eq_ok.1 h
      obtain ⟨ns, q2, h⟩ := Res.bind_eq_ok.1 h
      obtain ⟨nb, q3, h⟩ := Res.bind_eq_ok.1 h
      obtain ⟨a, q4, h⟩ := Res.bind_eq_ok.1 h
      obtain ⟨c, q5, h⟩ := Res.bind_eq_ok.1 h
      cases h
      exact ⟨nk, ns, nb, by simp only [q1, q2, q3, q5, Res.ok_bind], q4⟩
    · cases h
  · rintro ⟨nk, ns, nb, h, hl⟩
    obtain ⟨l0, e0, h⟩ := Res.bind_eq_ok.1 h
    obtain ⟨v0, f0, h⟩ := Res.bind_eq_ok.1 h
    obtain ⟨l1, e1, h⟩ := Res.bind_eq_ok.1 h
    obtain ⟨v1, f1, h⟩ := Res.bind_eq_ok.1 h
    obtain ⟨l2, e2, h⟩ := Res.bind_eq_ok.1 h
    obtain ⟨v2, f2, h⟩ := Res.bind_eq_ok.1 h
    obtain ⟨l3, e3, h⟩ := Res.bind_eq_ok.1 h
    obtain ⟨co, f3, h⟩ := Res.bind_eq_ok.1 h
    obtain ⟨l4, e4, h⟩ := Res.bind_eq_ok.1 h
    obtain ⟨l5, e5, h⟩ := Res.bind_eq_ok.1 h
    obtain ⟨v5, f5, h⟩ := Res.bind_eq_ok.1 h
    obtain ⟨h5, g5, h⟩ := Res.bind_eq_ok.1 h
    obtain ⟨h0, g0, h⟩ := Res.bind_eq_ok.1 h
    simp only [e0, f0, e1, f1, e2, f2, e3, f3, e4, e5, f5, g5, g0, Res.ok_bind]
    split at h
    · obtain ⟨nk', q1, h⟩ := Res.bind_eq_ok.1 h
      obtain ⟨ns', q2, h⟩ := Res.bind_eq_ok.1 h
      obtain ⟨nb', q3, h⟩ := Res.bind_eq_ok.1 h
      obtain ⟨c, q5, h⟩ := Res.bind_eq_ok.1 h
      have h' := Res.ok.inj h
      simp only [Prod.mk.injEq] at h'
      obtain ⟨hm, rfl, rfl, rfl⟩ := h'
      simp only [q1, q2, q3, Res.ok_bind, hl, q5, hm]
    · cases h

theorem six_lines {lines : List Str} {r : Metadata × Nat × Nat × Nat} (h : headRes lines = .ok r) : 6 ≤ lines.length := by
  unfold headRes at h
  obtain ⟨l0, e0, h⟩ := Res.bind_eq_ok.1 h
  obtain ⟨v0, f0, h⟩ := Res.bind_eq_ok.1 h
  obtain ⟨l1, e1, h⟩ := Res.bind_eq_ok.1 h
  obtain ⟨v1, f1, h⟩ := Res.bind_eq_ok.1 h
  obtain ⟨l2, e2, h⟩ := Res.bind_eq_ok.1 h
  obtain ⟨v2, f2, h⟩ := Res.bind_eq_ok.1 h
  obtain ⟨l3, e3, h⟩ := Res.bind_eq_ok.1 h
  obtain ⟨co, f3, h⟩ := Res.bind_eq_ok.1 h
  obtain ⟨l4, e4, h⟩ := Res.bind_eq_ok.1 h
  obtain ⟨l5, e5, h⟩ := Res.bind_eq_ok.1 h
  unfold idx at e5
  by_contra hc
  rw [List.getElem?_eq_none (by omega)] at e5
  cases e5

theorem headRes_append {A : List Str} (B : List Str) (h : 6 ≤ A.length) : headRes (A ++ B) = headRes A := by
  have hi : ∀ i, i < 6 → idx (A ++ B) i = idx A i := by
    intro i hi
    unfold idx
    rw [List.getElem?_append_left (by omega)]
  unfold headRes
  rw [hi 0 (by omega), hi 1 (by omega), hi 2 (by omega), hi 3 (by omega), hi 4 (by omega), hi 5 (by omega)]

/-! ### blocks of a beginning -/

theorem runs_single {l : List Str} (hl : l ≠ []) : runs [l] = [[l]] := by
  rw [runs.eq_def]; simp [hl]
theorem runs_sep {l x : List Str} (t : List (List Str)) (hl : l ≠ []) (hx : x = []) : runs (l :: x :: t) = [l] :: runs (x :: t) := by
  rw [runs.eq_def]; simp [hl, hx]
theorem runs_join {l x : List Str} (t : List (List Str)) (hl : l ≠ []) (hx : x ≠ []) :
    runs (l :: x :: t) = match runs (x :: t) with | [] => [[l]] | r :: rs => (l :: r) :: rs := by
  rw [runs.eq_def]; simp only [if_neg hl, if_neg hx]
  cases runs (x :: t) <;> rfl

theorem runs_cons_ne {l : List Str} {ls : List (List Str)} (hl : l ≠ []) : ∃ r rs, runs (l :: ls) = (l :: r) :: rs ∧
    (r = [] ∧ rs = runs ls ∨ runs ls = r :: rs ∨ runs ls = [] ∧ r = [] ∧ rs = []) := by
  cases ls with
  | nil => exact ⟨[], [], runs_single hl, .inl ⟨rfl, rfl⟩⟩
  | cons x t =>
    by_cases hx : x = []
    · exact ⟨[], runs (x :: t), runs_sep t hl hx, .inl ⟨rfl, rfl⟩⟩
    · have := runs_join t hl hx
      cases hr : runs (x :: t) with
      | nil => rw [hr] at this; exact ⟨[], [], this, .inl ⟨rfl, rfl⟩⟩
      | cons r rs => rw [hr] at this; exact ⟨r, rs, this, .inr (.inl rfl)⟩

/-- The runs of a beginning of the lines: those of all lines, where the last one may be cut. -/
theorem runs_append (A B : List (List Str)) : runs (A ++ B) = runs A ++ runs B ∨
    ∃ X y z W, runs A = X ++ [y] ∧ y ≠ [] ∧ runs (A ++ B) = X ++ (y ++ z) :: W := by
  induction A with
  | nil => exact .inl rfl
  | cons l ls ih =>
    by_cases hl : l = []
    · subst hl; rw [List.cons_append, runs_blank, runs_blank]; exact ih
    · cases ls with
      | nil =>
        rw [runs_single hl, List.cons_append, List.nil_append]
        obtain ⟨r, rs, h1, h2⟩ := runs_cons_ne (ls := B) hl
        rcases h2 with ⟨rfl, rfl⟩ | _
        · exact .inl h1
        · exact .inr ⟨[], [l], r, rs, rfl, by simp, h1⟩
      | cons x t =>
        by_cases hx : x = []
        · have e : ∀ u, runs (l :: x :: u) = [l] :: runs (x :: u) := fun u => runs_sep u hl hx
          rw [List.cons_append, List.cons_append, e, e]
          rw [List.cons_append] at ih
          rcases ih with h | ⟨X, y, z, W, h1, h2, h3⟩
          · exact .inl (by rw [h]; rfl)
          · exact .inr ⟨[l] :: X, y, z, W, by rw [h1]; rfl, h2, by rw [h3]; rfl⟩
        · have e : ∀ u, ∃ r rs, runs (x :: u) = (x :: r) :: rs ∧ runs (l :: x :: u) = (l :: x :: r) :: rs := by
            intro u
            obtain ⟨r, rs, h1, _⟩ := runs_cons_ne (ls := u) hx
            refine ⟨r, rs, h1, ?_⟩
            rw [runs_join u hl hx, h1]
          obtain ⟨r1, rs1, a1, a2⟩ := e t
          obtain ⟨r2, rs2, b1, b2⟩ := e (t ++ B)
          rw [List.cons_append, List.cons_append, a2, b2]
          rw [List.cons_append, a1, b1] at ih
          rcases ih with h | ⟨X, y, z, W, h1, h2, h3⟩
          · simp only [List.cons_append, List.cons.injEq] at h
            exact .inl (by rw [h.1.2, h.2]; rfl)
          · right
            cases X with
            | nil =>
              simp only [List.nil_append, List.cons.injEq] at h1 h3
              obtain ⟨rfl, rfl⟩ := h1
              simp only [List.cons_append, List.cons.injEq, true_and] at h3
              exact ⟨[], l :: x :: r1, z, rs2, rfl, by simp, by rw [h3.1]; rfl⟩
            | cons X0 X =>
              simp only [List.cons_append, List.cons.injEq] at h1 h3
              obtain ⟨rfl, rfl⟩ := h1
              obtain ⟨h3a, rfl⟩ := h3
              simp only [List.cons.injEq, true_and] at h3a
              exact ⟨(l :: x :: r1) :: X, y, z, W, rfl, h2, by rw [h3a]; rfl⟩

/-! ### values of a beginning -/

theorem Numbers.unique {ws : List Str} {xs ys : List Rat} (h : Numbers ws xs) (h' : Numbers ws ys) : xs = ys := by
  unfold Numbers at h h'
  induction h generalizing ys with
  | nil => cases h'; rfl
  | cons hx _ ih =>
    cases h' with
    | cons hy ht =>
      rw [hx] at hy
      rw [Option.some.inj hy, ih ht]

theorem InColumn.unique {n : Nat} {line : List Str} {s : Nat} {v v' : Rat} (h : InColumn n line s v) (h' : InColumn n line s v') : v = v' := by
  obtain ⟨xs, h1, h2⟩ := h
  obtain ⟨ys, h1', h2'⟩ := h'
  have := h1.unique h1'
  subst this
  rcases h2 with ⟨a, b⟩ | ⟨a, b⟩
  · rcases h2' with ⟨a', b'⟩ | ⟨a', b'⟩
    · rw [a] at a'; exact Option.some.inj a'
    · subst a'; exact absurd b.symm b'
  · rcases h2' with ⟨a', b'⟩ | ⟨a', b'⟩
    · subst a; exact absurd b'.symm b
    · rw [a] at a'; simpa using a'

theorem PointLine.unique {line : List Str} {k k' : List Rat} (h : PointLine line k) (h' : PointLine line k') : k = k' := by
  rcases h with ⟨a, b⟩ | ⟨x, a, b⟩
  · rcases h' with ⟨a', b'⟩ | ⟨x', a', b'⟩
    · exact a.unique a'
    · have := a.unique a'; subst this; simp at b
  · rcases h' with ⟨a', b'⟩ | ⟨x', a', b'⟩
    · have := a.unique a'; subst this; simp at b'
    · have := a.unique a'
      simp only [List.cons.injEq, and_true] at this
      rw [b, b', this]

/-- The value is that of the last line about the band. -/
theorem BandValue.last {n nb : Nat} {lines : List (List Str)} {s b : Nat} {v : Rat} (h : BandValue n nb lines s b v) :
    (∃ (i : Nat) (line : List Str), lines[i]? = some line ∧ Concerns nb line b ∧ (∀ (j : Nat) (q : List Str), i < j → lines[j]? = some q → ¬ Concerns nb q b) ∧ InColumn n line s v) ∨
    ((∀ q ∈ lines, ¬ Concerns nb q b) ∧ v = 0) := by
  rcases h with ⟨pre, line, post, rfl, h1, h2, h3⟩ | h
  · left
    refine ⟨pre.length, line, by simp, h1, ?_, h3⟩
    intro j q hj hq
    obtain ⟨k, rfl⟩ := Nat.exists_eq_add_of_lt hj
    rw [List.getElem?_append_right (by omega), show pre.length + k + 1 - pre.length = k + 1 by omega, List.getElem?_cons_succ] at hq
    exact h2 q (List.mem_of_getElem? hq)
  · exact .inr h

theorem BandValue.unique {n nb : Nat} {lines : List (List Str)} {s b : Nat} {v v' : Rat} (h : BandValue n nb lines s b v)
    (h' : BandValue n nb lines s b v') : v = v' := by
  rcases h.last with ⟨i, l, a1, a2, a3, a4⟩ | ⟨a1, a2⟩
  · rcases h'.last with ⟨j, m, b1, b2, b3, b4⟩ | ⟨b1, b2⟩
    · have : i = j := by
        rcases Nat.lt_trichotomy i j with h | h | h
        · exact absurd b2 (a3 j m h b1)
        · exact h
        · exact absurd a2 (b3 i l h a1)
      subst this
      rw [a1] at b1
      have := Option.some.inj b1; subst this
      exact a4.unique b4
    · exact absurd a2 (b1 l (List.mem_of_getElem? a1))
  · rcases h'.last with ⟨j, m, b1, b2, b3, b4⟩ | ⟨b1, b2⟩
    · exact absurd b2 (a1 m (List.mem_of_getElem? b1))
    · rw [a2, b2]

/-- A block prints no band twice. -/
def Once (nb : Nat) (lines : List (List Str)) : Prop :=
  ∀ (i j : Nat) (l l' : List Str) (b : Nat), lines[i]? = some l → lines[j]? = some l' → Concerns nb l b → Concerns nb l' b → i = j

theorem BandValue.grow {n nb : Nat} {lines z : List (List Str)} {s b : Nat} {v v' : Rat} (ho : Once nb (lines ++ z))
    (h : BandValue n nb lines s b v) (h' : BandValue n nb (lines ++ z) s b v') :
    v = v' ∨ v = 0 ∧ ∀ q ∈ lines, ¬ Concerns nb q b := by
  rcases h.last with ⟨i, l, a1, a2, a3, a4⟩ | ⟨a1, a2⟩
  · left
    have a1' := idx_prefix_ok z a1
    rcases h'.last with ⟨j, m, b1, b2, b3, b4⟩ | ⟨b1, b2⟩
    · have := ho i j l m b a1' b1 a2 b2
      subst this
      rw [a1'] at b1
      have := Option.some.inj b1; subst this
      exact a4.unique b4
    · exact absurd a2 (b1 l (List.mem_of_getElem? a1'))
  · exact .inr ⟨a2, a1⟩

/-! ### C92 -/

/-- The values of two objects at block `k`, one read from the block `y` and the other from `y ++ z`. -/
theorem placed_grow {ns nb k : Nat} {a a' : Arrays} {y z : List (List Str)} (h : Placed ns nb a k y) (h' : Placed ns nb a' k (y ++ z))
    (ho : Once nb (y ++ z).tail) : a.kpoints[k]? = a'.kpoints[k]? ∧
    ∀ s b, s < ns → b < nb → at3 a.values s k b = at3 a'.values s k b ∨
      at3 a.values s k b = some 0 ∧ ∀ q ∈ y.tail, ¬ Concerns nb q b := by
  obtain ⟨f, r, rfl, ⟨kp, p1, p2⟩, p3⟩ := h
  obtain ⟨f', r', e, ⟨kp', p1', p2'⟩, p3'⟩ := h'
  simp only [List.cons_append, List.cons.injEq] at e
  obtain ⟨rfl, rfl⟩ := e
  refine ⟨by rw [p1, p1', p2.unique p2'], fun s b hs hb => ?_⟩
  obtain ⟨v, v1, v2⟩ := p3 s b hs hb
  obtain ⟨v', v1', v2'⟩ := p3' s b hs hb
  rcases v2.grow ho v2' with rfl | ⟨rfl, hq⟩
  · left; rw [v1, v1']
  · right; exact ⟨v1, hq⟩

theorem placed_same {ns nb k : Nat} {a a' : Arrays} {y : List (List Str)} (h : Placed ns nb a k y) (h' : Placed ns nb a' k y) :
    a.kpoints[k]? = a'.kpoints[k]? ∧ ∀ s b, s < ns → b < nb → at3 a.values s k b = at3 a'.values s k b := by
  obtain ⟨f, r, rfl, ⟨kp, p1, p2⟩, p3⟩ := h
  obtain ⟨f', r', e, ⟨kp', p1', p2'⟩, p3'⟩ := h'
  simp only [List.cons.injEq] at e
  obtain ⟨rfl, rfl⟩ := e
  refine ⟨by rw [p1, p1', p2.unique p2'], fun s b hs hb => ?_⟩
  obtain ⟨v, v1, v2⟩ := p3 s b hs hb
  obtain ⟨v', v1', v2'⟩ := p3' s b hs hb
  rw [v1, v1', v2.unique v2']

theorem pointBlocks_append {p : Str} (q : Str) (hp : LineEnd p) (h6 : 6 ≤ (readlines p).length) :
    pointBlocks (p ++ q) = runs (((readlines p).drop 6).map words ++ (readlines q).map words) := by
  unfold pointBlocks
  rw [readlines_lineEnd hp, List.drop_append_of_le_length h6, List.map_append]

/-- C92, proved part: an EIGENVAL cut at the end of a line, if accepted, has the metadata of the complete file; every k-point it prints and all
eigenvalues of the k-points before the last one are those of the complete file; at the last k-point each eigenvalue is that of the complete
file, or zero because no line about it is left; everything else is zero. Missing in the full claim: that a cut file is refused, which is false
(`C92_violation_accepted`), and cuts inside a line (`C92_violation_digit`). -/
theorem C92_cut_partial (p q : Str) (hp : LineEnd p) (hb : ∀ c ∈ p ++ q, isLineBreak c = true → c = '\n') (d d' : Data)
    (h : init none (some p) = .ok d) (h' : init none (some (p ++ q)) = .ok d')
    (once : ∀ block ∈ pointBlocks (p ++ q), Once d'.metadata.nBands.toNat block.tail) :
    d.metadata = d'.metadata ∧
    (∀ k, k < (pointBlocks p).length → d.arrays.kpoints[k]? = d'.arrays.kpoints[k]?) ∧
    (∀ s k b, k + 1 < (pointBlocks p).length → at3 d.arrays.values s k b = at3 d'.arrays.values s k b) ∧
    (∀ s k b y, k + 1 = (pointBlocks p).length → (pointBlocks p)[k]? = some y → at3 d.arrays.values s k b = at3 d'.arrays.values s k b ∨
      at3 d.arrays.values s k b = some 0 ∧ ∀ l ∈ y.tail, ¬ Concerns d'.metadata.nBands.toNat l b) ∧
    (∀ k, (pointBlocks p).length ≤ k → (d.arrays.kpoints[k]? = some [0, 0, 0, 0] ∨ d.arrays.kpoints[k]? = none) ∧
      ∀ s b, at3 d.arrays.values s k b = some 0 ∨ at3 d.arrays.values s k b = none) := by
  have g := (fromList_iff (readlines p) d).1 h
  have g' := (fromList_iff (readlines (p ++ q)) d').1 h'
  obtain ⟨nk, ns, nb, g1, g2⟩ := g
  obtain ⟨nk', ns', nb', g1', g2'⟩ := g'
  have h6 := six_lines g1
  rw [readlines_lineEnd hp, headRes_append _ h6, g1] at g1'
  have g3 := Res.ok.inj g1'
  simp only [Prod.mk.injEq] at g3
  obtain ⟨hmeta, -, -, -⟩ := g3
  clear g1 g1' g2 g2' nk ns nb nk' ns' nb'
  obtain ⟨_, _, _, _, _, _, _, _, _, _, nk, ns, nb, _, _, _, _, _, _, _, _, _, _, _, _, _, _, _, _, _, e1, _, e2, e3, _, hf⟩ := fromList_ok h
  obtain ⟨_, _, _, _, _, _, _, _, _, _, nk', ns', nb', _, _, _, _, _, _, _, _, _, _, _, _, _, _, _, _, _, e1', _, e2', e3', _, hf'⟩ := fromList_ok h'
  rw [hmeta] at e1 e2 e3
  have q1 : ns' = ns := by rw [e1] at e1'; exact_mod_cast e1'.symm
  have q2 : nk' = nk := by rw [e2] at e2'; exact_mod_cast e2'.symm
  have q3 : nb' = nb := by rw [e3] at e3'; exact_mod_cast e3'.symm
  subst q1 q2 q3
  have hnb : d'.metadata.nBands.toNat = nb' := by rw [e3]; rfl
  rw [hnb] at once ⊢
  have hbp : ∀ c ∈ p, isLineBreak c = true → c = '\n' := fun c hc => hb c (by simp [hc])
  have hs := solid_of_ok _ hf
  rw [solid_blocks p hbp] at hs
  rw [← hs] at hf
  have hs' := solid_of_ok _ hf'
  rw [solid_blocks (p ++ q) hb] at hs'
  rw [← hs'] at hf'
  obtain ⟨r1, r2, r3, r4, r5⟩ := readBlocks_ok _ hf
  obtain ⟨t1, t2, t3, t4, t5⟩ := readBlocks_ok _ hf'
  have hpre : ∀ k block, (pointBlocks p)[k]? = some block → ∃ z, (pointBlocks (p ++ q))[k]? = some (block ++ z) ∧
      (k + 1 < (pointBlocks p).length → z = []) := by
    intro k block hk
    rw [pointBlocks_append q hp h6]
    rcases runs_append (((readlines p).drop 6).map words) ((readlines q).map words) with hr | ⟨X, y, z, W, x1, x2, x3⟩
    · refine ⟨[], ?_, fun _ => rfl⟩
      rw [hr, List.append_nil]
      exact idx_prefix_ok _ hk
    · have hk' : (X ++ [y])[k]? = some block := by rw [← x1]; exact hk
      have hlen : (pointBlocks p).length = X.length + 1 := by unfold pointBlocks; rw [x1]; simp
      rw [x3]
      by_cases hkx : k < X.length
      · rw [List.getElem?_append_left hkx] at hk'
        exact ⟨[], by rw [List.append_nil]; exact idx_prefix_ok _ hk', fun _ => rfl⟩
      · have hke : k = X.length := by
          by_contra hne
          rw [List.getElem?_eq_none (by simp; omega)] at hk'
          cases hk'
        subst hke
        simp only [List.getElem?_concat_length, Option.some.injEq] at hk'
        subst hk'
        exact ⟨z, by simp, fun hc => by omega⟩
  have hnone : ∀ s k b, ¬ (s < ns' ∧ k < nk' ∧ b < nb') → at3 d.arrays.values s k b = none ∧ at3 d'.arrays.values s k b = none := by
    intro s k b hn
    constructor
    · cases ha : at3 d.arrays.values s k b with
      | none => rfl
      | some v => exact absurd ((r2.elem s k b).1 (by rw [ha]; rfl)) hn
    · cases ha : at3 d'.arrays.values s k b with
      | none => rfl
      | some v => exact absurd ((t2.elem s k b).1 (by rw [ha]; rfl)) hn
  have hget : ∀ k, k < (pointBlocks p).length → ∃ y, (pointBlocks p)[k]? = some y := fun k hk => ⟨_, List.getElem?_eq_getElem hk⟩
  refine ⟨hmeta, ?_, ?_, ?_, ?_⟩
  · intro k hk
    obtain ⟨y, hy⟩ := hget k hk
    obtain ⟨z, hz, _⟩ := hpre k y hy
    exact (placed_grow (r4 k y hy) (t4 k _ hz) (once _ (List.mem_of_getElem? hz))).1
  · intro s k b hk
    obtain ⟨y, hy⟩ := hget k (by omega)
    obtain ⟨z, hz, hz0⟩ := hpre k y hy
    rw [hz0 hk, List.append_nil] at hz
    by_cases hin : s < ns' ∧ k < nk' ∧ b < nb'
    · exact (placed_same (r4 k y hy) (t4 k _ hz)).2 s b hin.1 hin.2.2
    · obtain ⟨n1, n2⟩ := hnone s k b hin
      rw [n1, n2]
  · intro s k b y hk hy
    obtain ⟨z, hz, _⟩ := hpre k y hy
    by_cases hin : s < ns' ∧ k < nk' ∧ b < nb'
    · exact (placed_grow (r4 k y hy) (t4 k _ hz) (once _ (List.mem_of_getElem? hz))).2 s b hin.1 hin.2.2
    · obtain ⟨n1, n2⟩ := hnone s k b hin
      left; rw [n1, n2]
  · intro k hk
    by_cases hkn : k < nk'
    · obtain ⟨u1, u2⟩ := r5 k hk hkn
      refine ⟨.inl u1, fun s b => ?_⟩
      by_cases hin : s < ns' ∧ b < nb'
      · exact .inl (u2 s b hin.1 hin.2)
      · exact .inr (hnone s k b (fun hc => hin ⟨hc.1, hc.2.2⟩)).1
    · refine ⟨.inr (List.getElem?_eq_none (by omega)), fun s b => .inr (hnone s k b (fun hc => hkn hc.2.1)).1⟩

theorem foldlM'_prefix {α σ : Type} {f : σ → α → Res σ} {s s' : σ} {a b : List α} (h : Res.foldlM' f s (a ++ b) = .ok s') :
    ∃ s1, Res.foldlM' f s a = .ok s1 := by
  rw [Res.foldlM'_append] at h
  obtain ⟨s1, h1, _⟩ := Res.bind_eq_ok.1 h
  exact ⟨s1, h1⟩

/-- C92 is false: whatever the complete file is, cut at the end of any line with words behind the header it is accepted as well (and has zeros
for what is missing). -/
theorem C92_violation_accepted (p q : Str) (hp : LineEnd p) (hb : ∀ c ∈ p ++ q, isLineBreak c = true → c = '\n') (d' : Data)
    (h' : init none (some (p ++ q)) = .ok d')
    (hfirst : ∀ a b r, (readlines (p ++ q)).drop 6 = a :: b :: r → words a ≠ [] ∨ words b ≠ [])
    (hlast : ∃ l, ((readlines p).drop 6).getLast? = some l ∧ words l ≠ []) : ∃ d, init none (some p) = .ok d := by
  have h6 : 6 ≤ (readlines p).length := by
    obtain ⟨l, hl, _⟩ := hlast
    have := List.mem_of_getLast? hl
    by_contra hc
    rw [List.drop_eq_nil_of_le (by omega)] at this
    cases this
  obtain ⟨nk, ns, nb, g1, g2⟩ := (fromList_iff (readlines (p ++ q)) d').1 h'
  unfold loopRes at g2
  have hs' := solid_of_ok _ g2
  rw [solid_blocks (p ++ q) hb] at hs'
  rw [← hs', pointBlocks_append q hp h6] at g2
  rw [readlines_lineEnd hp, headRes_append _ h6] at g1
  have hbl : blocks ((readlines p).drop 6).flatten = pointBlocks p := by
    refine blocks_of_tame p (fun c hc => hb c (by simp [hc])) ?_ hlast
    intro a b r e
    refine hfirst a b (r ++ readlines q) ?_
    rw [readlines_lineEnd hp, List.drop_append_of_le_length h6, e]; rfl
  have : ∃ a, loopRes (readlines p) nk ns nb = .ok a := by
    unfold loopRes
    rw [hbl]
    unfold pointBlocks
    rcases runs_append (((readlines p).drop 6).map words) ((readlines q).map words) with hr | ⟨X, y, z, W, x1, x2, x3⟩
    · rw [hr, List.zipIdx_append] at g2
      exact foldlM'_prefix g2
    · rw [x1]
      rw [x3, List.zipIdx_append, Res.foldlM'_append] at g2
      obtain ⟨a1, k1, g2⟩ := Res.bind_eq_ok.1 g2
      simp only [List.zipIdx_cons, Nat.zero_add, Res.foldlM'] at g2
      have hok : ∃ a2, readBlock ns nb a1 (y ++ z, X.length) = .ok a2 := by
        cases hx : readBlock ns nb a1 (y ++ z, X.length) with
        | ok a2 => exact ⟨a2, rfl⟩
        | exit c => rw [hx] at g2; cases g2
        | raise e => rw [hx] at g2; cases g2
      obtain ⟨a2, k2⟩ := hok
      have hok' : ∃ a3, readBlock ns nb a1 (y, X.length) = .ok a3 := by
        obtain ⟨f, r, rfl⟩ := List.exists_cons_of_ne_nil x2
        unfold readBlock at k2 ⊢
        simp only [List.cons_append] at k2 ⊢
        obtain ⟨kpi, m1, k2⟩ := Res.bind_eq_ok.1 k2
        split at k2
        · rename_i hlt
          obtain ⟨kp, m2, k2⟩ := Res.bind_eq_ok.1 k2
          obtain ⟨e, m3, k2⟩ := Res.bind_eq_ok.1 k2
          obtain ⟨e', m4⟩ := foldlM'_prefix m3
          exact ⟨⟨a1.kpoints.set X.length kp, e'⟩, by rw [m1, Res.ok_bind, if_pos hlt, m2, Res.ok_bind, m4]; rfl⟩
        · cases k2
      obtain ⟨a3, k3⟩ := hok'
      refine ⟨a3, ?_⟩
      rw [List.zipIdx_append, Res.foldlM'_append, k1, Res.ok_bind]
      simp only [List.zipIdx_cons, List.zipIdx_nil, Nat.zero_add, Res.foldlM', k3]
  obtain ⟨a, ha⟩ := this
  exact ⟨⟨d'.metadata, a⟩, (fromList_iff _ _).2 ⟨nk, ns, nb, g1, ha⟩⟩

/-- C92 is false inside a line, too: without its last characters a file is accepted with another eigenvalue. -/
theorem C92_violation_digit : ∃ (p q : Str) (d d' : Data), init none (some p) = .ok d ∧ init none (some (p ++ q)) = .ok d' ∧
    at3 d.arrays.values 0 0 0 = some 1 ∧ at3 d'.arrays.values 0 0 0 = some 15 := by
  refine ⟨c!"1 1 1 1\n0\n0\nCAR\nn\n2 1 1\n\n0 0 0 1\n1 1", c!"5.0\n", ⟨⟨[1, 1, 1, 1], .one 0, .one 0, 1, 1, 1, 1, true, ['n'], 2, 1, 1⟩,
    ⟨[[0, 0, 0, 1]], [[[1]]]⟩⟩, ⟨⟨[1, 1, 1, 1], .one 0, .one 0, 1, 1, 1, 1, true, ['n'], 2, 1, 1⟩,
    ⟨[[0, 0, 0, 1]], [[[15]]]⟩⟩, ?_, ?_, ?_, ?_⟩ <;> decide +kernel

/-- Non-vacuity: the example of C40 cut behind the first band of the second k-point. -/
example : LineEnd (exampleText.take 133) ∧ (pointBlocks (exampleText.take 133)).length = 2 ∧
    init none (some (exampleText.take 133)) = .ok ⟨exampleData.metadata, ⟨[[0, 0, 0, 1/2], [1/2, 0, 0, 1/2]],
      [[[-61/10, 3/2], [-5, 0]], [[-31/5, 5/4], [-11/2, 0]]]⟩⟩ := by
  refine ⟨.inr ?_, ?_, ?_⟩ <;> decide +kernel

example : ∀ block ∈ pointBlocks exampleText, Once 2 block.tail := by
  have key : ∀ x y : List Str, Once 2 [['1'] :: x, ['2'] :: y] := by
    intro x y i j l l' b hi hj hl hl'
    obtain ⟨w, n, h1, h2, h3⟩ := hl
    obtain ⟨w', n', h1', h2', h3'⟩ := hl'
    have one : pyInt ['1'] = some 1 := by decide +kernel
    have two : pyInt ['2'] = some 2 := by decide +kernel
    have hc : ∀ (k : Nat) (m : List Str) (u : Str) (t : Int), ([['1'] :: x, ['2'] :: y] : List (List Str))[k]? = some m → m.head? = some u → pyInt u = some t → t = (k : Int) + 1 := by
      intro k m u t hk hm ht
      match k, hk with
      | 0, hk =>
        simp only [List.getElem?_cons_zero, Option.some.injEq] at hk
        subst hk
        simp only [List.head?_cons, Option.some.injEq] at hm
        subst hm
        rw [one] at ht; cases ht; rfl
      | 1, hk =>
        simp only [List.getElem?_cons_succ, List.getElem?_cons_zero, Option.some.injEq] at hk
        subst hk
        simp only [List.head?_cons, Option.some.injEq] at hm
        subst hm
        rw [two] at ht; cases ht; rfl
      | k + 2, hk => simp at hk
    have e1 := hc i l w n hi h1 h2
    have e2 := hc j l' w' n' hj h1' h2'
    omega
  have e : pointBlocks exampleText = [[[c!"0.0", c!"0.0", c!"0.0", c!"0.5"], [['1'], c!"-6.1", c!"-6.2"], [['2'], c!"1.5", c!"1.25"]],
      [[c!"0.5", c!"0.0", c!"0.0", c!"0.5"], [['1'], c!"-5.0", c!"-5.5"], [['2'], c!"2.0", c!"2.5"]]] := by decide +kernel
  rw [e]
  intro block hbk
  simp only [List.mem_cons, List.not_mem_nil, or_false] at hbk
  rcases hbk with rfl | rfl
  · exact key _ _
  · exact key _ _

end Verif.Eigenval
