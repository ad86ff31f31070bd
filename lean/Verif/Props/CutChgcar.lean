import Verif.Props.Chgcar
import Verif.Lemmas.Cut
/-! # CHGCAR files cut off (C94) -/
set_option autoImplicit false
namespace Verif.Chgcar
open Verif Verif.Utils
open Verif.Kpoints (idx toFloat toInt)
open Verif.Outcar (cut)
open Verif.Lattice (V3 M3)
open Verif.Eigenval (Numbers at3)

theorem FirstAt.append {p s a b : Str} (h : FirstAt p s a b) (q : Str) : FirstAt p (s ++ q) a (b ++ q) := by
  refine ⟨by rw [h.1]; simp, ?_⟩
  intro i hi hp
  refine h.2 i hi ?_
  have hl : i + p.length ≤ s.length := by rw [h.1]; simp only [List.length_append]; omega
  rw [List.drop_append_of_le_length (by omega)] at hp
  exact List.prefix_of_prefix_length_le hp (List.prefix_append _ _) (by rw [List.length_drop]; omega)

theorem FirstAt.unique {p s a b a' b' : Str} (hp : p ≠ []) (h : FirstAt p s a b) (h' : FirstAt p s a' b') : a = a' ∧ b = b' := by
  have e := ((cut_some hp).2 h).symm.trans ((cut_some hp).2 h')
  cases e; exact ⟨rfl, rfl⟩

theorem Pieces.unique {g s : Str} (hg : g ≠ []) {ps ps' : List Str} (h : Pieces g s ps) (h' : Pieces g s ps') : ps = ps' :=
  ((splitStr_iff hg _ s ps (Nat.le_refl _)).2 h).symm.trans ((splitStr_iff hg _ s ps' (Nat.le_refl _)).2 h')

theorem lineEnd_right {a b : Str} (h : LineEnd (a ++ b)) : LineEnd b := by
  rcases h with h | h
  · exact .inl (List.append_eq_nil_iff.1 h).2
  · cases b with
    | nil => exact .inl rfl
    | cons x xs => right; rwa [List.getLast?_append_of_ne_nil _ (by simp)] at h

/-- A word without newline that is not in a text cut at the end of a line comes behind that text. -/
theorem behind {g s q a b : Str} (hs : LineEnd s) (hg : '\n' ∉ g) (hno : ¬ g <:+: s) (h : FirstAt g (s ++ q) a b) : ∃ r, a = s ++ r := by
  by_cases hl : s.length ≤ a.length
  · have e := h.1
    rw [List.append_assoc] at e
    obtain ⟨r, hr, _⟩ | ⟨r, hr, _⟩ := List.append_eq_append_iff.1 e
    · exact ⟨r, hr⟩
    · have : r = [] := by
        have := congrArg List.length hr
        simp only [List.length_append] at this
        exact List.length_eq_zero_iff.1 (by omega)
      subst this
      exact ⟨[], by simpa using hr.symm⟩
  · exfalso
    have e := h.1
    rw [List.append_assoc] at e
    obtain ⟨r, hr, _⟩ | ⟨r, hr, hr2⟩ := List.append_eq_append_iff.1 e
    · have := congrArg List.length hr
      simp only [List.length_append] at this
      omega
    · have hne : r ≠ [] := by rintro rfl; simp at hr; rw [hr] at hl; omega
      obtain ⟨t, ht, _⟩ | ⟨t, ht, _⟩ := List.append_eq_append_iff.1 hr2
      · exact hno ⟨a, t, by rw [hr, ht, List.append_assoc]⟩
      · rw [hr] at hs
        rcases lineEnd_right hs with h0 | h0
        · exact hne h0
        · exact hg (by rw [ht]; exact List.mem_append_left _ (List.mem_of_getLast? h0))

/-- The data sets of a text cut at the end of a line: the first ones, the last of them possibly cut. -/
theorem Pieces.cut {g s : Str} {ps : List Str} (hg : g ≠ []) (hn : '\n' ∉ g) (h : Pieces g s ps) (hs : LineEnd s) (q : Str) {ps' : List Str}
    (h' : Pieces g (s ++ q) ps') : ∃ ini l r rest, ps = ini ++ [l] ∧ ps' = ini ++ (l ++ r) :: rest ∧ LineEnd l := by
  induction h generalizing ps' with
  | @last s hno =>
    cases h' with
    | last _ => exact ⟨[], s, q, [], rfl, rfl, hs⟩
    | @cons _ a b ps hf _ =>
      obtain ⟨r, rfl⟩ := behind hs hn hno hf
      exact ⟨[], s, r, ps, rfl, rfl, hs⟩
  | @cons s a b ps hf _ ih =>
    cases h' with
    | last hno => exact absurd ⟨a, b ++ q, by rw [hf.1]; simp⟩ hno
    | @cons _ a' b' ps'' hf' hps =>
      obtain ⟨rfl, rfl⟩ := FirstAt.unique hg (hf.append q) hf'
      have hb : LineEnd b := by rw [hf.1] at hs; exact lineEnd_right hs
      obtain ⟨ini, l, r, rest, e1, e2, e3⟩ := ih hb hps
      exact ⟨a :: ini, l, r, rest, by rw [e1]; rfl, by rw [e2]; rfl, e3⟩

theorem words_lineEnd {l : Str} (h : LineEnd l) (r : Str) : words (l ++ r) = words l ++ words r := by
  rcases h with rfl | h
  · rfl
  · obtain ⟨a, rfl⟩ : ∃ a, l = a ++ ['\n'] := by
      have hne : l ≠ [] := by rintro rfl; cases h
      refine ⟨l.dropLast, ?_⟩
      rw [List.getLast?_eq_getLast_of_ne_nil hne] at h
      rw [← Option.some.inj h, List.dropLast_append_getLast]
    rw [words_append_space a '\n' (by decide), List.append_assoc]
    exact words_sep a '\n' r (by decide)

theorem forall₂_split {α β : Type} {R : α → β → Prop} {b : List α} : ∀ {a : List α} {r : List β}, List.Forall₂ R (a ++ b) r →
    ∃ x y, List.Forall₂ R a x ∧ List.Forall₂ R b y ∧ r = x ++ y
  | [], r, h => ⟨[], r, .nil, h, rfl⟩
  | _ :: _, _, .cons h1 h2 => by
    obtain ⟨x, y, k1, k2, rfl⟩ := forall₂_split h2
    exact ⟨_ :: x, y, .cons h1 k1, k2, rfl⟩

theorem density_cut {nx ny nz : Nat} {volume : Rat} {l r : Str} {g g' : Grid} (hl : LineEnd l) (h : IsDensity nx ny nz volume l g)
    (h' : IsDensity nx ny nz volume (l ++ r) g') : g = g' := by
  have hp : (c!"augmentation occupancies" : Str) ≠ [] := by decide
  obtain ⟨t, xs, ht, hx, hlen, rest⟩ := h
  obtain ⟨t', xs', ht', hx', hlen', rest'⟩ := id h'
  have same : xs' = xs := by
    rcases ht with ⟨b, ht⟩ | ⟨rfl, hno⟩
    · have e1 := (cut_fst hp).2 (.inl ⟨_, ht.append r⟩)
      rw [(cut_fst hp).2 ht'] at e1
      rw [e1] at hx'
      exact Numbers.unique hx' hx
    · obtain ⟨u, rfl⟩ : ∃ u, t' = t ++ u := by
        rcases ht' with ⟨b, ht'⟩ | ⟨rfl, _⟩
        · exact behind hl (by decide) hno ht'
        · exact ⟨r, rfl⟩
      rw [words_lineEnd hl] at hx'
      obtain ⟨x1, x2, k1, k2, rfl⟩ := forall₂_split hx'
      have := Numbers.unique k1 hx
      subst this
      simp only [List.length_append] at hlen'
      have : x2 = [] := List.length_eq_zero_iff.1 (by omega)
      simp [this]
  subst same
  exact IsDensity.unique ⟨t', xs', ht', hx', hlen', rest⟩ h'

theorem PrintsVector.unique {l : Str} {v w : V3 Rat} (h : PrintsVector l v) (h' : PrintsVector l w) : v = w := by
  obtain ⟨v1, v2, v3⟩ := v
  obtain ⟨w1, w2, w3⟩ := w
  rcases h with h | ⟨h, e⟩ <;> rcases h' with h' | ⟨h', e'⟩
  · have := Numbers.unique h h'
    simpa using this
  · have := Numbers.unique h h'
    simp at this
  · have := Numbers.unique h h'
    simp at this
  · have := Numbers.unique h h'
    simp only [List.cons.injEq, and_true] at this
    rw [e, e']
    simp only at this ⊢
    rw [this]

/-- Two files, one a beginning of the other, have the same header. -/
theorem File.same {p q : Str} (hp : LineEnd p) {s s' : Rat} {c c' : M3 Rat} {nx ny nz nx' ny' nz' : Nat} {ps ps' : List Str}
    (h : File p s c nx ny nz ps) (h' : File (p ++ q) s' c' nx' ny' nz' ps') :
    s = s' ∧ c = c' ∧ nx = nx' ∧ ny = ny' ∧ nz = nz' ∧ ∃ ini l r rest, ps = ini ++ [l] ∧ ps' = ini ++ (l ++ r) :: rest ∧ LineEnd l := by
  obtain ⟨header, rest, grid, body, l1, l2, l3, l4, f1, f2, a1, b1, a2, b2, a3, b3, a4, b4, hi, hps⟩ := h.parts
  obtain ⟨header', rest', grid', body', l1', l2', l3', l4', f1', f2', a1', b1', a2', b2', a3', b3', a4', b4', hi', hps'⟩ := h'.parts
  obtain ⟨rfl, rfl⟩ := FirstAt.unique (by decide) (f1.append q) f1'
  obtain ⟨rfl, rfl⟩ := FirstAt.unique (by decide) (f2.append q) f2'
  have e1 := Option.some.inj (a1.symm.trans a1')
  have e2 := Option.some.inj (a2.symm.trans a2')
  have e3 := Option.some.inj (a3.symm.trans a3')
  have e4 := Option.some.inj (a4.symm.trans a4')
  subst e1 e2 e3 e4
  have hs := Option.some.inj (b1.symm.trans b1')
  have h2 := PrintsVector.unique b2 b2'
  have h3 := PrintsVector.unique b3 b3'
  have h4 := PrintsVector.unique b4 b4'
  have hint := (ints_iff _ _).2 hi
  rw [(ints_iff _ _).2 hi'] at hint
  have hint := Res.ok.inj hint
  simp only [List.cons.injEq, and_true, Int.natCast_inj] at hint
  have hg : grid ≠ [] := by rintro rfl; cases hi
  have hn : '\n' ∉ grid := by
    intro hm
    obtain ⟨u, v, rfl⟩ := List.append_of_mem hm
    refine f2.2 u.length (by simp) ?_
    rw [f2.1]
    simp
  have hb : LineEnd body := by
    rw [f1.1] at hp
    have := lineEnd_right hp
    rw [f2.1] at this
    exact lineEnd_right this
  refine ⟨hs, ?_, hint.1.symm, hint.2.1.symm, hint.2.2.symm, Pieces.cut hg hn hps hb q hps'⟩
  cases c; cases c'
  simp only at h2 h3 h4
  subst h2 h3 h4
  rfl

/-- C94, proved part: a CHGCAR cut at the end of a line, if accepted, has the charge density of the complete file; its magnetization is
missing, the complete one, or, of a file with magnetization along x, y and z, the one along x reported as a collinear magnetization. (The last
case is a file with three or more than four data sets, which has no magnetization according to the complete file.) Missing in the full claim:
that a cut file is refused, which is false (`C94_violation_collinear`, `C94_violation_none`), and cuts inside a line
(`C94_violation_digit`). -/
theorem C94_cut_partial (p q : Str) (hp : LineEnd p) (d d' : Data) (h : init none (some p) = .ok d) (h' : init none (some (p ++ q)) = .ok d') :
    d.total = d'.total ∧ (d.magnetization = .none ∨ d.magnetization = d'.magnetization ∨
      (∃ x y z, d'.magnetization = .components x y z ∧ d.magnetization = .collinear x) ∨ d'.magnetization = .none) := by
  obtain ⟨s, c, nx, ny, nz, ps, p0, hf, _, p0h, ht, hm⟩ := (C41_grid_partial p d).1 h
  obtain ⟨s', c', nx', ny', nz', ps', p0', hf', _, p0h', ht', hm'⟩ := (C41_grid_partial (p ++ q) d').1 h'
  obtain ⟨rfl, rfl, rfl, rfl, rfl, ini, l, r, rest, rfl, rfl, hl⟩ := File.same hp hf hf'
  constructor
  · cases ini with
    | nil =>
      cases p0h; cases p0h'
      exact density_cut hl ht ht'
    | cons y ys =>
      cases p0h; cases p0h'
      exact IsDensity.unique ht ht'
  · cases hd : d.magnetization with
    | none => exact .inl rfl
    | collinear g =>
      rw [hd] at hm
      obtain ⟨a, b, e, hg⟩ := hm
      right
      obtain ⟨y, rfl⟩ : ∃ y, ini = [y] := List.length_eq_one_iff.1 (by simpa using congrArg List.length e)
      · cases e
        cases hd' : d'.magnetization with
        | none => exact .inr (.inr rfl)
        | collinear g' =>
          rw [hd'] at hm'
          obtain ⟨a', b', e, hg'⟩ := hm'
          cases e
          exact .inl (by rw [density_cut hl hg hg'])
        | components x y z =>
          rw [hd'] at hm'
          obtain ⟨a', b', _, _, e, hg', _⟩ := hm'
          cases e
          exact .inr (.inl ⟨x, y, z, rfl, by rw [density_cut hl hg hg']⟩)
    | components x y z =>
      rw [hd] at hm
      obtain ⟨a, b, c, f, e, hx, hy, hz⟩ := hm
      right
      obtain ⟨y1, y2, y3, rfl⟩ : ∃ y1 y2 y3, ini = [y1, y2, y3] := List.length_eq_three.1 (by simpa using congrArg List.length e)
      · cases e
        cases hd' : d'.magnetization with
        | none => exact .inr (.inr rfl)
        | collinear g' =>
          rw [hd'] at hm'
          obtain ⟨_, _, e, _⟩ := hm'
          cases e
        | components x' y' z' =>
          rw [hd'] at hm'
          obtain ⟨_, _, _, _, e, hx', hy', hz'⟩ := hm'
          cases e
          exact .inl (by rw [IsDensity.unique hx hx', IsDensity.unique hy hy', density_cut hl hz hz'])

/-- The data sets of a text cut in front of the grid line after its first `n + 1` data sets. -/
theorem Pieces.front {g s : Str} {ps : List Str} (hg : g ≠ []) (h : Pieces g s ps) : ∀ (n : Nat) (t : Str), n + 1 < ps.length →
    s = t → ∃ u v, s = u ++ g ++ v ∧ Pieces g u (ps.take (n + 1)) := by
  induction h with
  | last _ => intro n t hn; simp at hn
  | @cons s a b ps hf hps ih =>
    intro n t hn _
    cases n with
    | zero =>
      refine ⟨a, b, hf.1, .last ?_⟩
      rintro ⟨x, y, e⟩
      refine hf.2 x.length ?_ ?_
      · rw [← e]
        have := List.length_pos_iff.2 hg
        simp only [List.length_append]; omega
      · rw [hf.1, ← e]
        simp
    | succ n =>
      obtain ⟨u, v, rfl, hu⟩ := ih n b (by simpa using hn) rfl
      refine ⟨a ++ g ++ u, v, by rw [hf.1]; simp, ?_⟩
      rw [List.take_succ_cons]
      refine .cons ⟨rfl, ?_⟩ hu
      intro i hi hpre
      refine hf.2 i hi ?_
      rw [hf.1]
      have : a ++ g ++ (u ++ g ++ v) = (a ++ g ++ u) ++ (g ++ v) := by simp
      rw [this, List.drop_append_of_le_length (by simp only [List.length_append]; omega)]
      exact hpre.trans (List.prefix_append _ _)

/-- A file cut in front of the grid line after its first `n + 1` data sets. -/
theorem File.front {text : Str} {s : Rat} {c : M3 Rat} {nx ny nz : Nat} {ps : List Str} (h : File text s c nx ny nz ps) (n : Nat)
    (hn : n + 1 < ps.length) : ∃ u v, text = u ++ v ∧ v ≠ [] ∧ File u s c nx ny nz (ps.take (n + 1)) := by
  obtain ⟨header, rest, grid, body, l1, l2, l3, l4, f1, f2, a1, b1, a2, b2, a3, b3, a4, b4, hi, hps⟩ := h.parts
  have hg : grid ≠ [] := by rintro rfl; cases hi
  obtain ⟨u, v, rfl, hu⟩ := hps.front hg n _ hn rfl
  have shorter : ∀ {p s a b w : Str}, FirstAt p s a (b ++ w) → FirstAt p (a ++ p ++ b) a b := by
    intro p s a b w hf
    refine ⟨rfl, fun i hi hpre => hf.2 i hi ?_⟩
    rw [hf.1, ← List.append_assoc, List.drop_append_of_le_length (by simp only [List.length_append]; omega)]
    exact hpre.trans (List.prefix_append _ _)
  have k2 := shorter (b := u) (w := grid ++ v) (by rw [List.append_assoc] at f2; exact f2)
  have e : rest = grid ++ c!"\n" ++ u ++ (grid ++ v) := by rw [f2.1]; simp
  have k1 := shorter (b := grid ++ c!"\n" ++ u) (w := grid ++ v) (by rw [e] at f1; exact f1)
  refine ⟨header ++ c!"\n\n" ++ (grid ++ c!"\n" ++ u), grid ++ v, by rw [f1.1, e]; simp, by simp [hg], ⟨header, _, grid, u, l1, l2, l3, l4, k1, k2,
    a1, b1, a2, b2, a3, b3, a4, b4, hi, hu⟩⟩

/-- C94 is false of every noncollinear CHGCAR: cut in front of the third or fourth data set it is accepted; in the first case its magnetization
along x is reported as a collinear magnetization, in the second it has none. -/
theorem C94_violation_collinear (text : Str) (t x y z : Grid) (h : init none (some text) = .ok ⟨t, .components x y z⟩) :
    (∃ p q, text = p ++ q ∧ q ≠ [] ∧ init none (some p) = .ok ⟨t, .collinear x⟩) ∧
    (∃ p q, text = p ++ q ∧ q ≠ [] ∧ init none (some p) = .ok ⟨t, .none⟩) := by
  obtain ⟨s, c, nx, ny, nz, ps, p0, hf, hv, p0h, ht, a, b, e, f, rfl, hx, hy, hz⟩ := (C41_grid_partial text _).1 h
  cases p0h
  constructor
  · obtain ⟨p, q, rfl, hq, hf⟩ := hf.front 1 (by simp)
    exact ⟨p, q, rfl, hq, (C41_grid_partial p _).2 ⟨s, c, nx, ny, nz, _, p0, hf, hv, rfl, ht, p0, b, rfl, hx⟩⟩
  · obtain ⟨p, q, rfl, hq, hf⟩ := hf.front 2 (by simp)
    exact ⟨p, q, rfl, hq, (C41_grid_partial p _).2 ⟨s, c, nx, ny, nz, _, p0, hf, hv, rfl, ht, by simp, by simp⟩⟩

/-- C94 is false of every CHGCAR with a magnetization: cut behind its first data set it is accepted as the file of a calculation without
spin. -/
theorem C94_violation_none (text : Str) (d : Data) (h : init none (some text) = .ok d) (hm : d.magnetization ≠ .none) :
    ∃ p q, text = p ++ q ∧ q ≠ [] ∧ init none (some p) = .ok ⟨d.total, .none⟩ := by
  obtain ⟨s, c, nx, ny, nz, ps, p0, hf, hv, p0h, ht, hmag⟩ := (C41_grid_partial text _).1 h
  have hl : 1 < ps.length := by
    cases hd : d.magnetization with
    | none => exact absurd hd hm
    | collinear g => rw [hd] at hmag; obtain ⟨_, _, rfl, _⟩ := hmag; simp
    | components x y z => rw [hd] at hmag; obtain ⟨_, _, _, _, rfl, _⟩ := hmag; simp
  obtain ⟨p, q, rfl, hq, hf⟩ := hf.front 0 hl
  cases ps with
  | nil => simp at hl
  | cons a as =>
    cases p0h
    exact ⟨p, q, rfl, hq, (C41_grid_partial p _).2 ⟨s, c, nx, ny, nz, _, p0, hf, hv, rfl, ht, by simp, by simp⟩⟩

/-- A cut inside the last number is accepted; another density is returned. -/
theorem C94_violation_digit : ∃ p q : Str, q = c!"6.0\n" ∧ init none (some (p ++ q)) = .ok ⟨[[[16]]], .none⟩ ∧ init none (some p) = .ok ⟨[[[1]]], .none⟩ :=
  ⟨c!"x\n1.0\n 1 0 0\n 0 1 0\n 0 0 1\nH\n1\nDirect\n0 0 0\n\n 1 1 1\n 1", _, rfl, by decide +kernel, by decide +kernel⟩

/-- Both files of `C94_cut_partial` can be accepted, with the third of its cases: `exampleText` cut behind the line of its second data set. -/
example : ∃ p q : Str, LineEnd p ∧ p ++ q = exampleText ∧
    init none (some p) = .ok ⟨[[[1, 2]], [[3, 4]]], .collinear [[[1/4, 1/2]], [[3/4, 1]]]⟩ :=
  ⟨exampleText.take 154, exampleText.drop 154, .inr (by decide +kernel), List.take_append_drop _ _, by decide +kernel⟩

end Verif.Chgcar
