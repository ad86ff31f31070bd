import Verif.Props.CutEigenval
import Verif.Props.CutPoscarInside
/-! # EIGENVAL files cut off at any character (C92) -/
set_option autoImplicit false
namespace Verif.Eigenval
open Verif Verif.Utils
open Verif.Kpoints (idx toFloat toInt)

/-! ### a cut line -/

/-- The words of a cut line: all but the last are those of the complete line. -/
def CutWords (w w' : List Str) : Prop := w.length ≤ w'.length ∧ ∀ i, i + 1 < w.length → w'[i]? = w[i]?

theorem cutWords (l r : Str) : CutWords (words l) (words (l ++ r)) := by
  obtain ⟨ws, z, ⟨h1, h2⟩ | ⟨x, x', h1, h2⟩⟩ := words_cut l r
  · rw [h2, h1]
    refine ⟨by simp, fun i hi => ?_⟩
    rw [List.getElem?_append_left (by omega)]
  · rw [h2, h1]
    refine ⟨by simp, fun i hi => ?_⟩
    have : i < ws.length := by simpa using hi
    rw [List.getElem?_append_left this, List.getElem?_append_left this]

theorem words_grow {l : Str} (r : Str) (h : words l ≠ []) : words (l ++ r) ≠ [] := by
  intro hc
  have := (cutWords l r).1
  rw [hc] at this
  exact h (List.length_eq_zero_iff.1 (by simpa using this))

/-! ### blocks -/

theorem runs_split (X : List (List Str)) {w w' : List Str} (Z : List (List Str)) (hw : w ≠ []) (hw' : w' ≠ []) :
    ∃ W y0 z W', runs (X ++ [w]) = W ++ [y0 ++ [w]] ∧ runs (X ++ w' :: Z) = W ++ (y0 ++ w' :: z) :: W' := by
  induction X with
  | nil =>
    obtain ⟨r, rs, h1, _⟩ := runs_cons_ne (ls := Z) hw'
    exact ⟨[], [], r, rs, runs_single hw, h1⟩
  | cons l ls ih =>
    obtain ⟨W, y0, z, W', h1, h2⟩ := ih
    by_cases hl : l = []
    · subst hl
      rw [List.cons_append, List.cons_append, runs_blank, runs_blank]
      exact ⟨W, y0, z, W', h1, h2⟩
    · have join : ∀ a b u v, a ≠ [] → b ≠ [] → runs (a :: u) = W ++ [y0 ++ [w]] → runs (b :: v) = W ++ (y0 ++ w' :: z) :: W' →
          ∃ W y0 z W', runs (l :: a :: u) = W ++ [y0 ++ [w]] ∧ runs (l :: b :: v) = W ++ (y0 ++ w' :: z) :: W' := by
        intro a b u v ha hb e1 e2
        rw [runs_join _ hl ha, runs_join _ hl hb, e1, e2]
        cases W with
        | nil => exact ⟨[], l :: y0, z, W', rfl, rfl⟩
        | cons W0 W => exact ⟨(l :: W0) :: W, y0, z, W', rfl, rfl⟩
      cases ls with
      | nil => exact join _ _ _ _ hw hw' h1 h2
      | cons x t =>
        by_cases hx : x = []
        · simp only [List.cons_append]
          rw [runs_sep _ hl hx, runs_sep _ hl hx]
          simp only [List.cons_append] at h1 h2
          rw [h1, h2]
          exact ⟨[l] :: W, y0, z, W', rfl, rfl⟩
        · exact join _ _ _ _ hx hx h1 h2

/-- The blocks of a cut file: those of the complete file, but for the last one, of which the end is missing. -/
theorem blocks_cut (X : List (List Str)) {w w' : List Str} (Z : List (List Str)) (hc : CutWords w w') (hg : w ≠ [] → w' ≠ [])
    {k : Nat} {y : List (List Str)} (hk : (runs (X ++ [w]))[k]? = some y) : ∃ y', (runs (X ++ w' :: Z))[k]? = some y' ∧
      (k + 1 < (runs (X ++ [w])).length → y' = y) ∧
      (k + 1 = (runs (X ++ [w])).length → (∃ z, y' = y ++ z) ∨ ∃ y0 z, y = y0 ++ [w] ∧ y' = y0 ++ w' :: z) := by
  by_cases hw : w = []
  · subst hw
    rw [runs_append_blank] at hk ⊢
    rcases runs_append X (w' :: Z) with hr | ⟨V, v, z, W, x1, x2, x3⟩
    · refine ⟨y, ?_, fun _ => rfl, fun _ => .inl ⟨[], by simp⟩⟩
      rw [hr]; exact idx_prefix_ok _ hk
    · rw [x1] at hk ⊢
      rw [x3]
      by_cases hkx : k < V.length
      · rw [List.getElem?_append_left hkx] at hk
        exact ⟨y, idx_prefix_ok _ hk, fun _ => rfl, fun h => by simp at h; omega⟩
      · have hke : k = V.length := by
          by_contra hne
          rw [List.getElem?_eq_none (by simp; omega)] at hk
          cases hk
        subst hke
        simp only [List.getElem?_concat_length, Option.some.injEq] at hk
        subst hk
        exact ⟨v ++ z, by simp, fun h => by simp at h, fun _ => .inl ⟨z, rfl⟩⟩
  · obtain ⟨V, y0, z, W, x1, x3⟩ := runs_split X Z hw (hg hw)
    rw [x1] at hk ⊢
    rw [x3]
    by_cases hkx : k < V.length
    · rw [List.getElem?_append_left hkx] at hk
      exact ⟨y, idx_prefix_ok _ hk, fun _ => rfl, fun h => by simp at h; omega⟩
    · have hke : k = V.length := by
        by_contra hne
        rw [List.getElem?_eq_none (by simp; omega)] at hk
        cases hk
      subst hke
      simp only [List.getElem?_concat_length, Option.some.injEq] at hk
      subst hk
      exact ⟨y0 ++ w' :: z, by simp, fun h => by simp at h, fun _ => .inr ⟨y0, z, rfl, rfl⟩⟩

/-! ### values -/

theorem Numbers.word {ws : List Str} {xs : List Rat} (h : Numbers ws xs) : ws.length = xs.length ∧
    ∀ (i : Nat) (w : Str), ws[i]? = some w → ∃ x, xs[i]? = some x ∧ pyFloatRat w = some x := by
  unfold Numbers at h
  induction h with
  | nil => exact ⟨rfl, by simp⟩
  | cons h1 _ ih =>
    refine ⟨by simp [ih.1], fun i w hw => ?_⟩
    cases i with
    | zero => cases hw; exact ⟨_, rfl, h1⟩
    | succ i => exact ih.2 i w hw

/-- A column in front of the last word of a cut line is complete. -/
theorem InColumn.cut {n : Nat} {w w' : List Str} {s : Nat} {v v' : Rat} (hc : CutWords w w') (hs : s < n) (hl : s + 2 < w.length)
    (h : InColumn n w s v) (h' : InColumn n w' s v') : v = v' := by
  have key : ∀ (u : List Str) (x : Rat), s + 2 < u.length → InColumn n u s x → ∃ t, u[s + 1]? = some t ∧ pyFloatRat t = some x := by
    intro u x hu hx
    obtain ⟨xs, h1, h2⟩ := hx
    obtain ⟨g1, g2⟩ := h1.word
    have hget : ((u.drop 1).take n)[s]? = u[s + 1]? := by
      rw [List.getElem?_take, if_pos hs, List.getElem?_drop, Nat.add_comm]
    have hlt : s + 1 < u.length := by omega
    obtain ⟨x0, e1, e2⟩ := g2 s u[s + 1] (by rw [hget, List.getElem?_eq_getElem hlt])
    refine ⟨u[s + 1], List.getElem?_eq_getElem hlt, ?_⟩
    rcases h2 with ⟨a, b⟩ | ⟨a, b⟩
    · rw [a] at e1; rw [e2, ← e1]
    · subst a
      simp only [List.length_take, List.length_drop, List.length_cons, List.length_nil] at g1
      omega
  obtain ⟨t, e1, e2⟩ := key w v hl h
  obtain ⟨t', e1', e2'⟩ := key w' v' (by have := hc.1; omega) h'
  rw [hc.2 _ (by omega), e1] at e1'
  cases e1'
  rw [e2] at e2'
  exact Option.some.inj e2'

theorem Concerns.cut {nb b : Nat} {w w' : List Str} (hc : CutWords w w') (hl : 2 ≤ w.length) (h : Concerns nb w b) : Concerns nb w' b := by
  obtain ⟨x, n, h1, h2⟩ := h
  refine ⟨x, n, ?_, h2⟩
  rw [List.head?_eq_getElem?] at h1 ⊢
  rw [hc.2 0 (by omega)]; exact h1

/-- The value of a band among lines of which the last one is cut. -/
theorem BandValue.cut {n nb : Nat} {rest z : List (List Str)} {w w' : List Str} {s b : Nat} {v v' : Rat} (hc : CutWords w w') (hs : s < n)
    (ho : Once nb (rest ++ w' :: z)) (h : BandValue n nb (rest ++ [w]) s b v) (h' : BandValue n nb (rest ++ w' :: z) s b v') :
    v = v' ∨ (v = 0 ∧ ∀ q ∈ rest ++ [w], ¬ Concerns nb q b) ∨ (Concerns nb w b ∧ w.length ≤ s + 2) := by
  rcases h.last with ⟨i, l, a1, a2, a3, a4⟩ | ⟨a1, a2⟩
  · have same : ∀ m, (rest ++ w' :: z)[i]? = some m → Concerns nb m b → InColumn n m s v' := by
      intro m hm hcm
      rcases h'.last with ⟨j, m', b1, b2, b3, b4⟩ | ⟨b1, b2⟩
      · have := ho i j m m' b hm b1 hcm b2
        subst this
        rw [hm] at b1
        cases b1; exact b4
      · exact absurd hcm (b1 m (List.mem_of_getElem? hm))
    by_cases hi : i < rest.length
    · left
      rw [List.getElem?_append_left hi] at a1
      exact a4.unique (same l (by rw [List.getElem?_append_left hi]; exact a1) a2)
    · have hie : i = rest.length := by
        by_contra hne
        rw [List.getElem?_eq_none (by simp; omega)] at a1
        cases a1
      subst hie
      simp only [List.getElem?_concat_length, Option.some.injEq] at a1
      subst a1
      by_cases hl : w.length ≤ s + 2
      · exact .inr (.inr ⟨a2, hl⟩)
      · left
        exact a4.cut hc hs (by omega) (same w' (by simp) (a2.cut hc (by omega)))
  · exact .inr (.inl ⟨a2, a1⟩)

/-- What a k-point line cut off can say. -/
theorem PointLine.cut {w w' : List Str} {k k' : List Rat} (hc : CutWords w w') (h : PointLine w k) (h' : PointLine w' k') :
    (∃ a b c x x', k = [a, b, c, x] ∧ k' = [a, b, c, x']) ∨ ∃ x, k = [x, x, x, x] ∧ w.length = 1 := by
  rcases h with ⟨a, b⟩ | ⟨x, a, b⟩
  · rcases h' with ⟨a', b'⟩ | ⟨x', a', b'⟩
    · left
      match k, b, k', b' with
      | [k0, k1, k2, k3], _, [m0, m1, m2, m3], _ =>
        have e : ∀ i x x', i + 1 < 4 → [k0, k1, k2, k3][i]? = some x → [m0, m1, m2, m3][i]? = some x' → x = x' := by
          intro i x x' hi hx hx'
          have hl : w.length = 4 := (Numbers.word a).1
          have hlt : i < w.length := by omega
          obtain ⟨y, y1, y2⟩ := (Numbers.word a).2 i w[i] (List.getElem?_eq_getElem hlt)
          obtain ⟨y', y1', y2'⟩ := (Numbers.word a').2 i w[i] (by rw [hc.2 i (by omega)]; exact List.getElem?_eq_getElem hlt)
          rw [y1] at hx; rw [y1'] at hx'
          cases hx; cases hx'
          rw [y2] at y2'
          exact Option.some.inj y2'
        have e0 := e 0 k0 m0 (by omega) rfl rfl
        have e1 := e 1 k1 m1 (by omega) rfl rfl
        have e2 := e 2 k2 m2 (by omega) rfl rfl
        subst e0 e1 e2
        exact ⟨k0, k1, k2, k3, m3, rfl, rfl⟩
    · have h1 := (Numbers.word a).1
      have h2 := (Numbers.word a').1
      have := hc.1
      simp at h2
      omega
  · exact .inr ⟨x, b, (Numbers.word a).1⟩

/-! ### C92 -/

/-- C92, proved part, for cuts inside a line: an EIGENVAL cut at any character behind the sixth line, if accepted, has the metadata of the
complete file; the k-points and eigenvalues of all blocks before the last one are those of the complete file; the k-point of the last block is
that of the complete file unless the cut line is the k-point line itself, and then it has the same coordinates and only another weight, or the
line consists of a single number; at the last k-point each eigenvalue is that of the complete file, or zero because no line about it is left,
or belongs to the last line, in the column of its last word or behind it; everything else is zero. -/
theorem C92_inside_partial (p q : Str) (h7 : 6 < (readlines p).length) (hb : ∀ c ∈ p ++ q, isLineBreak c = true → c = '\n') (d d' : Data)
    (h : init none (some p) = .ok d) (h' : init none (some (p ++ q)) = .ok d')
    (once : ∀ block ∈ pointBlocks (p ++ q), Once d'.metadata.nBands.toNat block.tail) :
    d.metadata = d'.metadata ∧
    (∀ k, k + 1 < (pointBlocks p).length → d.arrays.kpoints[k]? = d'.arrays.kpoints[k]? ∧
      ∀ s b, at3 d.arrays.values s k b = at3 d'.arrays.values s k b) ∧
    (∀ k y, k + 1 = (pointBlocks p).length → (pointBlocks p)[k]? = some y →
      (d.arrays.kpoints[k]? = d'.arrays.kpoints[k]? ∨ ∃ w, y = [w] ∧
        ((∃ a b c x x', d.arrays.kpoints[k]? = some [a, b, c, x] ∧ d'.arrays.kpoints[k]? = some [a, b, c, x']) ∨
          ∃ x, d.arrays.kpoints[k]? = some [x, x, x, x] ∧ w.length = 1)) ∧
      ∀ s b, at3 d.arrays.values s k b = at3 d'.arrays.values s k b ∨
        (at3 d.arrays.values s k b = some 0 ∧ ∀ l ∈ y.tail, ¬ Concerns d'.metadata.nBands.toNat l b) ∨
        ∃ w, y.tail.getLast? = some w ∧ Concerns d'.metadata.nBands.toNat w b ∧ w.length ≤ s + 2) ∧
    (∀ k, (pointBlocks p).length ≤ k → (d.arrays.kpoints[k]? = some [0, 0, 0, 0] ∨ d.arrays.kpoints[k]? = none) ∧
      ∀ s b, at3 d.arrays.values s k b = some 0 ∨ at3 d.arrays.values s k b = none) := by
  rcases readlines_append p q with ⟨hp, -⟩ | ⟨A, l, r, B, -, -, hA, hF⟩
  · obtain ⟨e1, e2, e3, e4, e5⟩ := C92_cut_partial p q hp hb d d' h h' once
    refine ⟨e1, fun k hk => ⟨e2 k (by omega), fun s b => e3 s k b hk⟩, fun k y hk hy => ⟨.inl (e2 k (by omega)), fun s b => ?_⟩, e5⟩
    rcases e4 s k b y hk hy with e | e
    · exact .inl e
    · exact .inr (.inl e)
  have hA6 : 6 ≤ A.length := by rw [hA] at h7; simpa using h7
  obtain ⟨nk, ns, nb, g1, -⟩ := (fromList_iff (readlines p) d).1 h
  obtain ⟨nk', ns', nb', g1', -⟩ := (fromList_iff (readlines (p ++ q)) d').1 h'
  rw [hA, headRes_append _ hA6] at g1
  rw [hF, headRes_append _ hA6, g1] at g1'
  have g3 := Res.ok.inj g1'
  simp only [Prod.mk.injEq] at g3
  obtain ⟨hmeta, -, -, -⟩ := g3
  clear g1 g1' nk ns nb nk' ns' nb'
  obtain ⟨_, _, _, _, _, _, _, _, _, _, nk, ns, nb, _, _, _, _, _, _, _, _, _, _, _, _, _, _, _, _, _, e1, _, e2, e3, _, hf⟩ := fromList_ok h
  obtain ⟨_, _, _, _, _, _, _, _, _, _, nk', ns', nb', _, _, _, _, _, _, _, _, _, _, _, _, _, _, _, _, _, e1', _, e2', e3', _, hf'⟩ := fromList_ok h'
  rw [hmeta] at e1 e2 e3
  have q1 : ns' = ns := by rw [e1] at e1'; exact_mod_cast e1'.symm
  have q2 : nk' = nk := by rw [e2] at e2'; exact_mod_cast e2'.symm
  have q3 : nb' = nb := by rw [e3] at e3'; exact_mod_cast e3'.symm
  subst q1 q2 q3
  have hnb : d'.metadata.nBands.toNat = nb' := by rw [e3]; rfl
  rw [hnb] at once ⊢
  have hbp : ∀ c ∈ p, isLineBreak c = true → c = '\n' := fun c hc => hb c (by simp [hc])
  have hs := solid_of_ok _ hf
  rw [solid_blocks p hbp] at hs
  rw [← hs] at hf
  have hs' := solid_of_ok _ hf'
  rw [solid_blocks (p ++ q) hb] at hs'
  rw [← hs'] at hf'
  obtain ⟨r1, r2, r3, r4, r5⟩ := readBlocks_ok _ hf
  obtain ⟨t1, t2, t3, t4, t5⟩ := readBlocks_ok _ hf'
  have bp : pointBlocks p = runs ((A.drop 6).map words ++ [words l]) := by
    unfold pointBlocks
    rw [hA, List.drop_append_of_le_length hA6, List.map_append]; rfl
  have bf : pointBlocks (p ++ q) = runs ((A.drop 6).map words ++ words (l ++ r) :: B.map words) := by
    unfold pointBlocks
    rw [hF, List.drop_append_of_le_length hA6, List.map_append]; rfl
  have hcw := cutWords l r
  have hpre : ∀ k y, (pointBlocks p)[k]? = some y → ∃ y', (pointBlocks (p ++ q))[k]? = some y' ∧
      (k + 1 < (pointBlocks p).length → y' = y) ∧
      (k + 1 = (pointBlocks p).length → (∃ z, y' = y ++ z) ∨ ∃ y0 z, y = y0 ++ [words l] ∧ y' = y0 ++ words (l ++ r) :: z) := by
    intro k y hk
    rw [bp] at hk ⊢
    rw [bf]
    exact blocks_cut _ _ hcw (words_grow r) hk
  have hnone : ∀ s k b, ¬ (s < ns' ∧ k < nk' ∧ b < nb') → at3 d.arrays.values s k b = none ∧ at3 d'.arrays.values s k b = none := by
    intro s k b hn
    constructor
    · cases ha : at3 d.arrays.values s k b with
      | none => rfl
      | some v => exact absurd ((r2.elem s k b).1 (by rw [ha]; rfl)) hn
    · cases ha : at3 d'.arrays.values s k b with
      | none => rfl
      | some v => exact absurd ((t2.elem s k b).1 (by rw [ha]; rfl)) hn
  have hget : ∀ k, k < (pointBlocks p).length → ∃ y, (pointBlocks p)[k]? = some y := fun k hk => ⟨_, List.getElem?_eq_getElem hk⟩
  refine ⟨hmeta, ?_, ?_, ?_⟩
  · intro k hk
    obtain ⟨y, hy⟩ := hget k (by omega)
    obtain ⟨y', hz, hz0, _⟩ := hpre k y hy
    rw [hz0 hk] at hz
    obtain ⟨s1, s2⟩ := placed_same (r4 k y hy) (t4 k _ hz)
    refine ⟨s1, fun s b => ?_⟩
    by_cases hin : s < ns' ∧ k < nk' ∧ b < nb'
    · exact s2 s b hin.1 hin.2.2
    · obtain ⟨n1, n2⟩ := hnone s k b hin
      rw [n1, n2]
  · intro k y hk hy
    obtain ⟨y', hz, _, hz1⟩ := hpre k y hy
    have hpy := r4 k y hy
    have hpy' := t4 k y' hz
    have hon := once _ (List.mem_of_getElem? hz)
    rcases hz1 hk with ⟨z, rfl⟩ | ⟨y0, z, rfl, rfl⟩
    · obtain ⟨s1, s2⟩ := placed_grow hpy hpy' hon
      refine ⟨.inl s1, fun s b => ?_⟩
      by_cases hin : s < ns' ∧ k < nk' ∧ b < nb'
      · rcases s2 s b hin.1 hin.2.2 with e | e
        · exact .inl e
        · exact .inr (.inl e)
      · obtain ⟨n1, n2⟩ := hnone s k b hin
        left; rw [n1, n2]
    · obtain ⟨f, rest, e, ⟨kp, p1, p2⟩, p3⟩ := hpy
      obtain ⟨f', rest', e', ⟨kp', p1', p2'⟩, p3'⟩ := hpy'
      cases y0 with
      | nil =>
        simp only [List.nil_append, List.cons.injEq] at e e'
        obtain ⟨rfl, rfl⟩ := e
        obtain ⟨rfl, rfl⟩ := e'
        refine ⟨.inr ⟨_, rfl, ?_⟩, fun s b => ?_⟩
        · rw [p1, p1']
          rcases p2.cut hcw p2' with ⟨a, b, c, x, x', rfl, rfl⟩ | ⟨x, rfl, hw⟩
          · exact .inl ⟨a, b, c, x, x', rfl, rfl⟩
          · exact .inr ⟨x, rfl, hw⟩
        · by_cases hin : s < ns' ∧ k < nk' ∧ b < nb'
          · obtain ⟨v, v1, v2⟩ := p3 s b hin.1 hin.2.2
            rcases v2.last with ⟨i, m, a1, _⟩ | ⟨a1, a2⟩
            · simp at a1
            · subst a2
              exact .inr (.inl ⟨v1, by simp⟩)
          · obtain ⟨n1, n2⟩ := hnone s k b hin
            left; rw [n1, n2]
      | cons f0 y0 =>
        simp only [List.cons_append, List.cons.injEq] at e e'
        obtain ⟨rfl, rfl⟩ := e
        obtain ⟨rfl, rfl⟩ := e'
        refine ⟨.inl (by rw [p1, p1', p2.unique p2']), fun s b => ?_⟩
        by_cases hin : s < ns' ∧ k < nk' ∧ b < nb'
        · obtain ⟨v, v1, v2⟩ := p3 s b hin.1 hin.2.2
          obtain ⟨v', v1', v2'⟩ := p3' s b hin.1 hin.2.2
          rcases v2.cut hcw hin.1 hon v2' with rfl | ⟨rfl, hq⟩ | ⟨hq, hl⟩
          · left; rw [v1, v1']
          · exact .inr (.inl ⟨v1, hq⟩)
          · exact .inr (.inr ⟨words l, by simp, hq, hl⟩)
        · obtain ⟨n1, n2⟩ := hnone s k b hin
          left; rw [n1, n2]
  · intro k hk
    by_cases hkn : k < nk'
    · obtain ⟨u1, u2⟩ := r5 k hk hkn
      refine ⟨.inl u1, fun s b => ?_⟩
      by_cases hin : s < ns' ∧ b < nb'
      · exact .inl (u2 s b hin.1 hin.2)
      · exact .inr (hnone s k b (fun hc => hin ⟨hc.1, hc.2.2⟩)).1
    · refine ⟨.inr (List.getElem?_eq_none (by omega)), fun s b => .inr (hnone s k b (fun hc => hkn hc.2.1)).1⟩

/-- Non-vacuity: the example of C40 cut inside the last eigenvalue of the first band of the second k-point, `-5` instead of `-5.5`. -/
example : ¬ LineEnd (exampleText.take 130) ∧ 6 < (readlines (exampleText.take 130)).length ∧ (pointBlocks (exampleText.take 130)).length = 2 ∧
    init none (some (exampleText.take 130)) = .ok ⟨exampleData.metadata, ⟨[[0, 0, 0, 1/2], [1/2, 0, 0, 1/2]],
      [[[-61/10, 3/2], [-5, 0]], [[-31/5, 5/4], [-5, 0]]]⟩⟩ := by
  refine ⟨?_, ?_, ?_, ?_⟩
  · unfold LineEnd; decide +kernel
  · decide +kernel
  · decide +kernel
  · decide +kernel

end Verif.Eigenval
