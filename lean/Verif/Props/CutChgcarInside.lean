import Verif.Props.CutChgcar
import Verif.Props.CutEigenvalInside
/-! # CHGCAR files cut off at any character (C94) -/
set_option autoImplicit false
namespace Verif.Chgcar
open Verif Verif.Utils
open Verif.Kpoints (idx toFloat toInt)
open Verif.Lattice (V3 M3)
open Verif.Eigenval (Numbers at3 cutWords)

/-! ### specification -/

/-- The last place of a grid. -/
def LastPlace (g : Grid) (z y x : Nat) : Prop :=
  z + 1 = g.length ∧ ∃ plane, g[z]? = some plane ∧ y + 1 = plane.length ∧ ∃ row, plane[y]? = some row ∧ x + 1 = row.length

/-- Two grids with the same numbers, but possibly the last one. -/
def CutGrid (g g' : Grid) : Prop := g.length = g'.length ∧ ∀ z y x, at3 g z y x = at3 g' z y x ∨ LastPlace g z y x

/-- Two magnetizations of the same kind with the same numbers, but possibly the last one. -/
def CutMagnetization : Magnetization → Magnetization → Prop
  | .none, .none => True
  | .collinear g, .collinear g' => CutGrid g g'
  | .components x y z, .components x' y' z' => x = x' ∧ y = y' ∧ CutGrid z z'
  | _, _ => False

/-! ### grids -/

theorem CutGrid.refl (g : Grid) : CutGrid g g := ⟨rfl, fun _ _ _ => .inl rfl⟩

/-- The numbers of two texts, one of which is a beginning of the other, if there are equally many: only the last can be another. -/
theorem numbers_cut {u v : Str} {xs xs' : List Rat} (h : Numbers (words u) xs) (h' : Numbers (words (u ++ v)) xs') {i : Nat}
    (hi : i + 1 < xs.length) : xs[i]? = xs'[i]? := by
  obtain ⟨a1, a2⟩ := h.word
  obtain ⟨b1, b2⟩ := h'.word
  have hc := cutWords u v
  have hlt : i < (words u).length := by omega
  obtain ⟨x, x1, x2⟩ := a2 i _ (List.getElem?_eq_getElem hlt)
  obtain ⟨y, y1, y2⟩ := b2 i _ ((hc.2 i (by omega)).trans (List.getElem?_eq_getElem hlt))
  rw [x2] at y2
  rw [x1, y1, Option.some.inj y2]

theorem last_index {nx ny nz x y z : Nat} (hx : x < nx) (hy : y < ny) (hz : z < nz) (h : ¬ (x + 1 = nx ∧ y + 1 = ny ∧ z + 1 = nz)) :
    x + nx * (y + ny * z) + 1 < nx * ny * nz := by
  have e : nx * ny * nz = nx * (ny * nz) := Nat.mul_assoc _ _ _
  rw [e]
  have hzz : ny * (z + 1) ≤ ny * nz := Nat.mul_le_mul_left _ hz
  have hz1 : ny * (z + 1) = ny * z + ny := Nat.mul_succ _ _
  have hyy : nx * (y + ny * z + 1) ≤ nx * (ny * nz) := Nat.mul_le_mul_left _ (by omega)
  have hy1 : nx * (y + ny * z + 1) = nx * (y + ny * z) + nx := Nat.mul_succ _ _
  by_cases h1 : x + 1 = nx
  · have : nx * (y + ny * z + 1 + 1) ≤ nx * (ny * nz) := by
      refine Nat.mul_le_mul_left _ ?_
      by_cases h2 : y + 1 = ny
      · have h3 : z + 1 < nz := by
          rcases Nat.lt_or_ge (z + 1) nz with h3 | h3
          · exact h3
          · exact absurd ⟨h1, h2, by omega⟩ h
        have h4 : ny * (z + 1 + 1) ≤ ny * nz := Nat.mul_le_mul_left _ h3
        have h5 : ny * (z + 1 + 1) = ny * (z + 1) + ny := Nat.mul_succ _ _
        omega
      · omega
    have h6 : nx * (y + ny * z + 1 + 1) = nx * (y + ny * z + 1) + nx := Nat.mul_succ _ _
    omega
  · omega

/-- Grids read from numbers of which only the last can be another. -/
theorem cutGrid_of {nx ny nz : Nat} {volume : Rat} {xs xs' : List Rat} {g g' : Grid} (hl : xs.length = nx * ny * nz)
    (hs : g.length = nz ∧ (∀ p ∈ g, p.length = ny ∧ ∀ r ∈ p, r.length = nx) ∧
      ∀ x y z, x < nx → y < ny → z < nz → ∃ v, xs[x + nx * (y + ny * z)]? = some v ∧ at3 g z y x = some (v / volume))
    (hs' : g'.length = nz ∧ (∀ p ∈ g', p.length = ny ∧ ∀ r ∈ p, r.length = nx) ∧
      ∀ x y z, x < nx → y < ny → z < nz → ∃ v, xs'[x + nx * (y + ny * z)]? = some v ∧ at3 g' z y x = some (v / volume))
    (he : ∀ i, i + 1 < xs.length → xs[i]? = xs'[i]?) : CutGrid g g' := by
  obtain ⟨a1, a2, a3⟩ := hs
  obtain ⟨b1, b2, b3⟩ := hs'
  refine ⟨by rw [a1, b1], fun z y x => ?_⟩
  by_cases hin : z < nz ∧ y < ny ∧ x < nx
  · obtain ⟨hz, hy, hx⟩ := hin
    by_cases hlast : x + 1 = nx ∧ y + 1 = ny ∧ z + 1 = nz
    · right
      obtain ⟨e1, e2, e3⟩ := hlast
      have hzg : z < g.length := by omega
      have hp := a2 g[z] (List.getElem_mem hzg)
      have hyg : y < g[z].length := by omega
      have hr := hp.2 g[z][y] (List.getElem_mem hyg)
      exact ⟨by omega, g[z], List.getElem?_eq_getElem hzg, by omega, g[z][y], List.getElem?_eq_getElem hyg, by omega⟩
    · left
      obtain ⟨v, v1, v2⟩ := a3 x y z hx hy hz
      obtain ⟨v', v1', v2'⟩ := b3 x y z hx hy hz
      rw [he _ (by rw [hl]; exact last_index hx hy hz hlast), v1'] at v1
      rw [v2, v2', Option.some.inj v1]
  · left
    have out : ∀ g : Grid, g.length = nz → (∀ p ∈ g, p.length = ny ∧ ∀ r ∈ p, r.length = nx) → at3 g z y x = none := by
      intro g h1 h2
      unfold at3
      cases hg : g[z]? with
      | none => rfl
      | some p =>
        have hz : z < nz := by rw [← h1]; exact (List.getElem?_eq_some_iff.1 hg).1
        obtain ⟨h3, h4⟩ := h2 p (List.mem_of_getElem? hg)
        simp only [Option.bind_some]
        cases hp : p[y]? with
        | none => rfl
        | some r =>
          have hy : y < ny := by rw [← h3]; exact (List.getElem?_eq_some_iff.1 hp).1
          have h5 := h4 r (List.mem_of_getElem? hp)
          simp only [Option.bind_some]
          exact List.getElem?_eq_none (by omega)
    rw [out g a1 a2, out g' b1 b2]

/-- What stands before the word in a text and in a beginning of it: one is a beginning of the other. -/
theorem before_cut {p l r t t' : Str} (h : Before p l t) (h' : Before p (l ++ r) t') : t <+: t' ∨ t' <+: t := by
  have ht : t <+: l ++ r := by
    rcases h with ⟨b, h⟩ | ⟨rfl, _⟩
    · exact ⟨p ++ b ++ r, by rw [h.1]; simp⟩
    · exact List.prefix_append _ _
  have ht' : t' <+: l ++ r := by
    rcases h' with ⟨b, h⟩ | ⟨rfl, _⟩
    · exact ⟨p ++ b, by rw [h.1]; simp⟩
    · exact List.prefix_rfl
  exact List.prefix_or_prefix_of_prefix ht ht'

theorem density_inside {nx ny nz : Nat} {volume : Rat} {l l' : Str} {g g' : Grid} (hl : l <+: l' ∨ l' <+: l) (h : IsDensity nx ny nz volume l g)
    (h' : IsDensity nx ny nz volume l' g') : CutGrid g g' := by
  obtain ⟨t, xs, ht, hx, hlen, rest⟩ := h
  obtain ⟨t', xs', ht', hx', hlen', rest'⟩ := h'
  have hb : t <+: t' ∨ t' <+: t := by
    rcases hl with ⟨r, rfl⟩ | ⟨r, rfl⟩
    · exact before_cut ht ht'
    · exact (before_cut ht' ht).symm
  refine cutGrid_of hlen rest rest' ?_
  rcases hb with ⟨u, rfl⟩ | ⟨u, rfl⟩
  · exact fun i hi => numbers_cut hx hx' hi
  · exact fun i hi => (numbers_cut hx' hx (by omega)).symm

/-! ### data sets -/

/-- The data sets of a text cut anywhere: the first ones and a piece of which one is the beginning of the other. -/
theorem Pieces.inside {g s : Str} {ps : List Str} (hg : g ≠ []) (h : Pieces g s ps) (q : Str) {ps' : List Str} (h' : Pieces g (s ++ q) ps') :
    ∃ ini l l' rest, ps = ini ++ [l] ∧ ps' = ini ++ l' :: rest ∧ (l <+: l' ∨ l' <+: l) := by
  induction h generalizing ps' with
  | @last s hno =>
    cases h' with
    | last _ => exact ⟨[], s, s ++ q, [], rfl, rfl, .inl (List.prefix_append _ _)⟩
    | @cons _ a b ps hf _ =>
      refine ⟨[], s, a, ps, rfl, rfl, ?_⟩
      refine List.prefix_or_prefix_of_prefix (List.prefix_append s q) ?_
      exact ⟨g ++ b, by rw [hf.1]; simp⟩
  | @cons s a b ps hf _ ih =>
    cases h' with
    | last hno => exact absurd ⟨a, b ++ q, by rw [hf.1]; simp⟩ hno
    | @cons _ a' b' ps'' hf' hps =>
      obtain ⟨rfl, rfl⟩ := FirstAt.unique hg (hf.append q) hf'
      obtain ⟨ini, l, l', rest, e1, e2, e3⟩ := ih hps
      exact ⟨a :: ini, l, l', rest, by rw [e1]; rfl, by rw [e2]; rfl, e3⟩

/-- Two files, one a beginning of the other, have the same header. -/
theorem File.inside {p q : Str} {s s' : Rat} {c c' : M3 Rat} {nx ny nz nx' ny' nz' : Nat} {ps ps' : List Str}
    (h : File p s c nx ny nz ps) (h' : File (p ++ q) s' c' nx' ny' nz' ps') :
    s = s' ∧ c = c' ∧ nx = nx' ∧ ny = ny' ∧ nz = nz' ∧ ∃ ini l l' rest, ps = ini ++ [l] ∧ ps' = ini ++ l' :: rest ∧ (l <+: l' ∨ l' <+: l) := by
  obtain ⟨header, rest, grid, body, l1, l2, l3, l4, f1, f2, a1, b1, a2, b2, a3, b3, a4, b4, hi, hps⟩ := h.parts
  obtain ⟨header', rest', grid', body', l1', l2', l3', l4', f1', f2', a1', b1', a2', b2', a3', b3', a4', b4', hi', hps'⟩ := h'.parts
  obtain ⟨rfl, rfl⟩ := FirstAt.unique (by decide) (f1.append q) f1'
  obtain ⟨rfl, rfl⟩ := FirstAt.unique (by decide) (f2.append q) f2'
  have e1 := Option.some.inj (a1.symm.trans a1')
  have e2 := Option.some.inj (a2.symm.trans a2')
  have e3 := Option.some.inj (a3.symm.trans a3')
  have e4 := Option.some.inj (a4.symm.trans a4')
  subst e1 e2 e3 e4
  have hs := Option.some.inj (b1.symm.trans b1')
  have h2 := PrintsVector.unique b2 b2'
  have h3 := PrintsVector.unique b3 b3'
  have h4 := PrintsVector.unique b4 b4'
  have hint := (ints_iff _ _).2 hi
  rw [(ints_iff _ _).2 hi'] at hint
  have hint := Res.ok.inj hint
  simp only [List.cons.injEq, and_true, Int.natCast_inj] at hint
  have hg : grid ≠ [] := by rintro rfl; cases hi
  refine ⟨hs, ?_, hint.1.symm, hint.2.1.symm, hint.2.2.symm, Pieces.inside hg hps q hps'⟩
  cases c; cases c'
  simp only at h2 h3 h4
  subst h2 h3 h4
  rfl

/-! ### C94 -/

/-- C94, proved part, for cuts inside a line: a CHGCAR cut at any character, if accepted, has the charge density of the complete file, but
possibly for the very last number, and that only if it reports no magnetization; its magnetization is missing, the complete one but possibly
for the very last number, or, of a file with magnetization along x, y and z, the one along x (but possibly for its last number) reported as a
collinear magnetization. (The last case is a file with three or more than four data sets, which has no magnetization according to the complete
file.) -/
theorem C94_inside_partial (p q : Str) (d d' : Data) (h : init none (some p) = .ok d) (h' : init none (some (p ++ q)) = .ok d') :
    CutGrid d.total d'.total ∧ (d.magnetization ≠ .none → d.total = d'.total) ∧
    (d.magnetization = .none ∨ CutMagnetization d.magnetization d'.magnetization ∨
      (∃ x y z g, d'.magnetization = .components x y z ∧ d.magnetization = .collinear g ∧ CutGrid g x) ∨ d'.magnetization = .none) := by
  obtain ⟨s, c, nx, ny, nz, ps, p0, hf, _, p0h, ht, hm⟩ := (C41_grid_partial p d).1 h
  obtain ⟨s', c', nx', ny', nz', ps', p0', hf', _, p0h', ht', hm'⟩ := (C41_grid_partial (p ++ q) d').1 h'
  obtain ⟨rfl, rfl, rfl, rfl, rfl, ini, l, l', rest, rfl, rfl, hl⟩ := File.inside hf hf'
  have hsame : ini ≠ [] → d.total = d'.total := by
    intro hi
    cases ini with
    | nil => exact absurd rfl hi
    | cons y ys =>
      cases p0h; cases p0h'
      exact IsDensity.unique ht ht'
  refine ⟨?_, ?_, ?_⟩
  · cases ini with
    | nil =>
      cases p0h; cases p0h'
      exact density_inside hl ht ht'
    | cons y ys =>
      rw [hsame (by simp)]
      exact CutGrid.refl _
  · intro hne
    refine hsame ?_
    rintro rfl
    cases hd : d.magnetization with
    | none => exact hne hd
    | collinear g => rw [hd] at hm; obtain ⟨_, _, e, _⟩ := hm; cases e
    | components x y z => rw [hd] at hm; obtain ⟨_, _, _, _, e, _⟩ := hm; cases e
  · cases hd : d.magnetization with
    | none => exact .inl rfl
    | collinear g =>
      rw [hd] at hm
      obtain ⟨a, b, e, hg⟩ := hm
      right
      obtain ⟨y, rfl⟩ : ∃ y, ini = [y] := List.length_eq_one_iff.1 (by simpa using congrArg List.length e)
      cases e
      cases hd' : d'.magnetization with
      | none => exact .inr (.inr rfl)
      | collinear g' =>
        rw [hd'] at hm'
        obtain ⟨a', b', e, hg'⟩ := hm'
        cases e
        exact .inl (density_inside hl hg hg')
      | components x y z =>
        rw [hd'] at hm'
        obtain ⟨a', b', _, _, e, hg', _⟩ := hm'
        cases e
        exact .inr (.inl ⟨x, y, z, g, rfl, rfl, density_inside hl hg hg'⟩)
    | components x y z =>
      rw [hd] at hm
      obtain ⟨a, b, c, f, e, hx, hy, hz⟩ := hm
      right
      obtain ⟨y1, y2, y3, rfl⟩ : ∃ y1 y2 y3, ini = [y1, y2, y3] := List.length_eq_three.1 (by simpa using congrArg List.length e)
      cases e
      cases hd' : d'.magnetization with
      | none => exact .inr (.inr rfl)
      | collinear g' =>
        rw [hd'] at hm'
        obtain ⟨_, _, e, _⟩ := hm'
        cases e
      | components x' y' z' =>
        rw [hd'] at hm'
        obtain ⟨_, _, _, _, e, hx', hy', hz'⟩ := hm'
        cases e
        exact .inl ⟨IsDensity.unique hx hx', IsDensity.unique hy hy', density_inside hl hz hz'⟩

/-- Non-vacuity: a file cut inside its last number, and the two densities: they differ there only. -/
example : ∃ p q : Str, ¬ LineEnd p ∧ init none (some p) = .ok ⟨[[[3, 1]]], .none⟩ ∧ init none (some (p ++ q)) = .ok ⟨[[[3, 16]]], .none⟩ :=
  ⟨c!"x\n1.0\n 1 0 0\n 0 1 0\n 0 0 1\nH\n1\nDirect\n0 0 0\n\n 2 1 1\n 3 1", c!"6.0\n", by unfold LineEnd; decide +kernel, by decide +kernel,
    by decide +kernel⟩

end Verif.Chgcar
