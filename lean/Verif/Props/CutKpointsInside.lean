import Verif.Props.CutKpoints
import Verif.Props.CutPoscarInside
import Verif.Lemmas.Words
/-! # KPOINTS files cut off anywhere (C99): inside a line only the last number read can be wrong -/
set_option autoImplicit false
namespace Verif.Kpoints
open Verif

/-! ### specification -/

/-- Specification: a row of numbers whose end is missing: not longer than the complete row, and all but its last number are those of the
complete row. -/
def CutRow {α : Type} (xs ys : List α) : Prop := xs.length ≤ ys.length ∧ xs.dropLast <+: ys

/-- Specification: two points of which the first was cut off: its coordinates are a cut row; if they are not those of the complete point, it
has no weight, or (line mode, where no weights are read) the same. -/
def CutPoint (k k' : Kpoint) : Prop :=
  CutRow k.coord k'.coord ∧ k.direct = k'.direct ∧ (k.coord = k'.coord ∨ k.weight = none ∨ k.weight = k'.weight)

/-! ### rows -/

theorem CutRow.refl {α : Type} (xs : List α) : CutRow xs xs := ⟨le_refl _, List.dropLast_prefix xs⟩

theorem words_row (l r : Str) : CutRow (words l) (words (l ++ r)) := by
  obtain ⟨ws, z, ⟨h1, h2⟩ | ⟨w, w', h1, h2⟩⟩ := words_cut l r
  · rw [h2, h1]
    exact ⟨by simp, (List.dropLast_prefix _).trans (List.prefix_append _ _)⟩
  · rw [h1, h2]
    refine ⟨by simp, ?_⟩
    rw [List.dropLast_concat]
    exact List.prefix_append _ _

theorem CutRow.take {α : Type} {xs ys : List α} (h : CutRow xs ys) (n : Nat) : CutRow (xs.take n) (ys.take n) := by
  obtain ⟨h1, z, h2⟩ := h
  refine ⟨by simp; omega, ?_⟩
  by_cases hn : n ≤ xs.length
  · rw [List.prefix_take_iff]
    refine ⟨?_, by simp⟩
    have : (xs.take n).dropLast = xs.dropLast.take (n - 1) := by
      rw [List.dropLast_eq_take, List.dropLast_eq_take, List.take_take, List.take_take, List.length_take]
      congr 1
      omega
    rw [this, ← h2]
    exact (List.take_prefix _ _).trans (List.prefix_append _ _)
  · rw [List.take_of_length_le (by omega), List.prefix_take_iff]
    exact ⟨⟨z, h2⟩, by simp; omega⟩

theorem CutRow.mapM' {α β : Type} {f : α → Res β} {ws ws' : List α} {xs ys : List β} (h : CutRow ws ws') (h1 : Res.mapM' f ws = .ok xs)
    (h2 : Res.mapM' f ws' = .ok ys) : CutRow xs ys := by
  obtain ⟨h3, z, h4⟩ := h
  rw [Res.mapM'_eq_ok] at h1 h2
  have l1 := h1.length_eq
  have l2 := h2.length_eq
  refine ⟨by omega, ?_⟩
  rw [List.prefix_iff_getElem?]
  intro i hi
  have hi' : i < xs.length - 1 := by simpa using hi
  obtain ⟨_, g1⟩ := List.forall₂_iff_get.1 h1
  obtain ⟨_, g2⟩ := List.forall₂_iff_get.1 h2
  have a1 := g1 i (by omega) (by omega)
  have a2 := g2 i (by omega) (by omega)
  simp only [List.get_eq_getElem] at a1 a2
  have hw : ws[i]'(by omega) = ws'[i]'(by omega) := by
    have e1 : ws.dropLast[i]? = some (ws[i]'(by omega)) := by
      rw [List.getElem?_dropLast, if_pos (by omega), List.getElem?_eq_getElem (by omega)]
    have e2 : ws'[i]? = ws.dropLast[i]? := by
      rw [← h4, List.getElem?_append_left (by simp; omega)]
    rw [e1, List.getElem?_eq_getElem (by omega)] at e2
    exact (Option.some.inj e2).symm
  rw [hw, a2] at a1
  rw [List.getElem?_eq_getElem (by omega)]
  simp only [List.getElem_dropLast, Option.some.injEq]
  exact Res.ok.inj a1

open Verif.Poscar (idx_cut idx_le idx_front word_cut cutL fullL mapM'_snoc)

section
variable {A B : List Str} {l r : Str}

/-- Reading the lines `p`, `p + 1`, ..., `p + n - 1` one by one: all but the last result agree. -/
theorem rows_inside {β : Type} {f : Str → Res β} {p n : Nat} {vs vs' : List β}
    (e : Res.mapM' (fun k => idx (cutL A l) (k + p) >>= f) (List.range n) = .ok vs)
    (e' : Res.mapM' (fun k => idx (fullL A l r B) (k + p) >>= f) (List.range n) = .ok vs') :
    (vs = vs' ∧ (0 < n → n + p ≤ A.length + 1)) ∨
    (n + p = A.length + 1 ∧ ∃ us a a', vs = us ++ [a] ∧ vs' = us ++ [a'] ∧ f l = .ok a ∧ f (l ++ r) = .ok a') := by
  induction n generalizing vs vs' with
  | zero => cases e; cases e'; exact .inl ⟨rfl, fun h => absurd h (by omega)⟩
  | succ n ih =>
    rw [List.range_succ] at e e'
    obtain ⟨us, a, h1, ha, rfl⟩ := mapM'_snoc e
    obtain ⟨us', a', h1', ha', rfl⟩ := mapM'_snoc e'
    obtain ⟨x, hx, hca⟩ := Res.bind_eq_ok.1 ha
    obtain ⟨x', hx', hca'⟩ := Res.bind_eq_ok.1 ha'
    clear ha ha'
    have hle := idx_le hx
    have hus : us = us' := by
      rcases ih h1 h1' with ⟨h, _⟩ | ⟨h, _⟩
      · exact h
      · omega
    subst hus
    rcases idx_cut (r := r) (B := B) hx with ⟨_, hx2⟩ | ⟨_, rfl, hx2⟩
    · rw [hx2] at hx'; cases hx'
      rw [hca] at hca'; cases hca'
      exact .inl ⟨rfl, fun _ => by omega⟩
    · rw [hx2] at hx'; cases hx'
      exact .inr ⟨by omega, us, a, a', rfl, rfl, hca, hca'⟩

theorem parsePoint_cut {k k' : Kpoint} (h : parsePoint l = .ok k) (h' : parsePoint (l ++ r) = .ok k') : CutPoint k k' := by
  unfold parsePoint at h h'
  obtain ⟨a, ha, h⟩ := Res.bind_eq_ok.1 h
  obtain ⟨x, hx, h⟩ := Res.bind_eq_ok.1 h
  obtain ⟨b, hb, h⟩ := Res.bind_eq_ok.1 h
  obtain ⟨y, hy, h⟩ := Res.bind_eq_ok.1 h
  obtain ⟨c, hc, h⟩ := Res.bind_eq_ok.1 h
  obtain ⟨z, hz, h⟩ := Res.bind_eq_ok.1 h
  obtain ⟨a', ha', h'⟩ := Res.bind_eq_ok.1 h'
  obtain ⟨x', hx', h'⟩ := Res.bind_eq_ok.1 h'
  obtain ⟨b', hb', h'⟩ := Res.bind_eq_ok.1 h'
  obtain ⟨y', hy', h'⟩ := Res.bind_eq_ok.1 h'
  obtain ⟨c', hc', h'⟩ := Res.bind_eq_ok.1 h'
  obtain ⟨z', hz', h'⟩ := Res.bind_eq_ok.1 h'
  rw [word_cut r ha hb] at ha'; cases ha'
  rw [word_cut r hb hc] at hb'; cases hb'
  rw [hx] at hx'; cases hx'
  rw [hy] at hy'; cases hy'
  have hcoord : k'.coord = [x, y, z'] ∧ k'.direct = true := by
    split at h'
    · obtain ⟨d, _, h'⟩ := Res.bind_eq_ok.1 h'
      obtain ⟨w, _, h'⟩ := Res.bind_eq_ok.1 h'
      cases h'; exact ⟨rfl, rfl⟩
    · cases h'; exact ⟨rfl, rfl⟩
  have hrow : CutRow [x, y, z] [x, y, z'] := ⟨by simp, ⟨[z'], by simp⟩⟩
  split at h
  · obtain ⟨d, hd, h⟩ := Res.bind_eq_ok.1 h
    obtain ⟨w, hw, h⟩ := Res.bind_eq_ok.1 h
    rw [word_cut r hc hd] at hc'; cases hc'
    rw [hz] at hz'; cases hz'
    cases h
    exact ⟨by rw [hcoord.1]; exact hrow, hcoord.2.symm, .inl hcoord.1.symm⟩
  · cases h
    exact ⟨by rw [hcoord.1]; exact hrow, hcoord.2.symm, .inr (.inl rfl)⟩

/-- What a cut anywhere may do to the tetrahedra. -/
def CutTetra (t t' : Option (List (List Int)) × Option Rat) : Prop :=
  t = t' ∨ t = (none, none) ∨ t = (some [], none) ∨ (t.1 = some [] ∧ t'.1 = some []) ∨
  (t.2 = t'.2 ∧ ∃ ts a a', t.1 = some (ts ++ [a]) ∧ t'.1 = some (ts ++ [a']) ∧ CutRow a a')

theorem first_strip {l : Str} {c : Char} (h : idx (strip l) 0 = .ok c) : idx (strip (l ++ r)) 0 = .ok c := by
  rw [idx_iff, ← List.head?_eq_getElem?] at h ⊢
  rw [strip_head_words] at h ⊢
  obtain ⟨w, hw, hc⟩ := Option.bind_eq_some_iff.1 h
  obtain ⟨ws, z, ⟨h1, h2⟩ | ⟨x, x', h1, h2⟩⟩ := words_cut l r
  · rw [h2, ← h1]
    cases hl : words l with
    | nil => rw [hl] at hw; cases hw
    | cons a t => rw [hl] at hw; cases hw; simpa using hc
  · rw [h2]
    rw [h1] at hw
    cases ws with
    | nil =>
      cases hw
      cases w with
      | nil => cases hc
      | cons y ys => simpa using hc
    | cons a t => cases hw; simpa using hc

theorem parseTetraLine_cut {a a' : List Int} (h : parseTetraLine l = .ok a) (h' : parseTetraLine (l ++ r) = .ok a') : CutRow a a' := by
  unfold parseTetraLine at h h'
  split at h
  · split at h'
    · exact (words_row l r).mapM' h h'
    · cases h'
  · cases h

theorem parseTetra_inside {n : Nat} {t t' : Option (List (List Int)) × Option Rat}
    (h : parseTetra (cutL A l) n = .ok t) (h' : parseTetra (fullL A l r B) n = .ok t') : CutTetra t t' := by
  have hL : (cutL A l).length = A.length + 1 := by simp
  have hL' : A.length + 1 ≤ (fullL A l r B).length := by simp
  unfold parseTetra at h h'
  split at h
  · rename_i hn
    rw [if_pos (by omega)] at h'
    obtain ⟨x, hx, h⟩ := Res.bind_eq_ok.1 h
    obtain ⟨c, hc, h⟩ := Res.bind_eq_ok.1 h
    obtain ⟨x', hx', h'⟩ := Res.bind_eq_ok.1 h'
    obtain ⟨c', hc', h'⟩ := Res.bind_eq_ok.1 h'
    have hcc : c = c' := by
      rcases idx_cut (r := r) (B := B) hx with ⟨_, h2⟩ | ⟨_, rfl, h2⟩
      · rw [h2] at hx'; cases hx'
        rw [hc] at hc'; exact Res.ok.inj hc'
      · rw [h2] at hx'; cases hx'
        rw [first_strip hc] at hc'; exact Res.ok.inj hc'
    subst hcc
    split at h
    · rename_i hct
      rw [if_pos hct] at h'
      split at h
      · rename_i hn1
        rw [if_pos (by omega)] at h'
        obtain ⟨first, hf, h⟩ := Res.bind_eq_ok.1 h
        obtain ⟨w, hw, h⟩ := Res.bind_eq_ok.1 h
        obtain ⟨num, hnum, h⟩ := Res.bind_eq_ok.1 h
        obtain ⟨v, hv, h⟩ := Res.bind_eq_ok.1 h
        obtain ⟨vol, hvol, h⟩ := Res.bind_eq_ok.1 h
        obtain ⟨ts, hts, h⟩ := Res.bind_eq_ok.1 h
        obtain ⟨first', hf', h'⟩ := Res.bind_eq_ok.1 h'
        obtain ⟨w', hw', h'⟩ := Res.bind_eq_ok.1 h'
        obtain ⟨num', hnum', h'⟩ := Res.bind_eq_ok.1 h'
        obtain ⟨v', hv', h'⟩ := Res.bind_eq_ok.1 h'
        obtain ⟨vol', hvol', h'⟩ := Res.bind_eq_ok.1 h'
        obtain ⟨ts', hts', h'⟩ := Res.bind_eq_ok.1 h'
        cases h
        cases h'
        have hww : w = w' := by
          rcases idx_cut (r := r) (B := B) hf with ⟨_, h2⟩ | ⟨_, rfl, h2⟩
          · rw [h2] at hf'; cases hf'
            rw [hw] at hw'; exact Res.ok.inj hw'
          · rw [h2] at hf'; cases hf'
            rw [word_cut r hw hv] at hw'; exact Res.ok.inj hw'
        subst hww
        rw [hnum] at hnum'; cases hnum'
        have hvol2 : n + 1 < A.length → vol = vol' := by
          intro hlt
          rw [idx_front (r := r) (B := B) hlt hf] at hf'; cases hf'
          rw [hv] at hv'; cases hv'
          rw [hvol] at hvol'; exact Res.ok.inj hvol'
        rcases rows_inside hts hts' with ⟨rfl, hb⟩ | ⟨hb, us, a, a', rfl, rfl, ha, ha'⟩
        · by_cases h0 : num.toNat = 0
          · rw [h0] at hts
            cases hts
            exact .inr (.inr (.inr (.inl ⟨rfl, rfl⟩)))
          · have := hvol2 (by have := hb (by omega); omega)
            subst this
            exact .inl rfl
        · have h0 : 0 < num.toNat := by
            by_contra hc
            have : num.toNat = 0 := by omega
            rw [this] at hts
            have := Res.ok.inj hts
            simp at this
          have := hvol2 (by omega)
          subst this
          exact .inr (.inr (.inr (.inr ⟨rfl, us, a, a', rfl, rfl, parseTetraLine_cut ha ha'⟩)))
      · cases h; exact .inr (.inr (.inl rfl))
    · cases h; exact .inr (.inl rfl)
  · cases h; exact .inr (.inl rfl)

/-- What is read of a file cut anywhere, compared with what is read of the complete file. -/
structure CutIn (p p' : Parsed) : Prop where
  comment : p.comment = p'.comment
  num : p.num = p'.num
  mode : p.mode = p'.mode
  centering : p.centering = p'.centering
  vectors : p.vectors = p'.vectors
  divisions : p.divisions = p'.divisions ∨ ∃ d d', p.divisions = some d ∧ p'.divisions = some d' ∧ CutRow d d'
  shifts : p.shifts = p'.shifts ∨ p.shifts = none ∨ p'.shifts = none ∨ ∃ d d', p.shifts = some d ∧ p'.shifts = some d' ∧ CutRow d d'
  points : p.points = p'.points ∨ (p.mode = c!"line" ∧ ∃ ps ps', p.points = some ps ∧ p'.points = some ps' ∧ ps <+: ps') ∨
    ∃ ps k k' z, p.points = some (ps ++ [k]) ∧ p'.points = some (ps ++ k' :: z) ∧ CutPoint k k' ∧ (p.mode ≠ c!"line" → z = [])
  tetra : CutTetra (p.tetra, p.tetraVol) (p'.tetra, p'.tetraVol)

theorem CutIn.refl (p : Parsed) : CutIn p p := ⟨rfl, rfl, rfl, rfl, rfl, .inl rfl, .inl rfl, .inl rfl, .inl rfl⟩

theorem parseExplicit_inside {p q q' : Parsed} {c : Char} (h : parseExplicit (cutL A l) p c = .ok q)
    (h' : parseExplicit (fullL A l r B) p c = .ok q') : CutIn q q' := by
  unfold parseExplicit at h h'
  split at h
  · cases h
  rename_i hc
  rw [if_neg hc] at h'
  obtain ⟨ps, hps, h⟩ := Res.bind_eq_ok.1 h
  obtain ⟨ps', hps', h'⟩ := Res.bind_eq_ok.1 h'
  obtain ⟨t, ht, h⟩ := Res.bind_eq_ok.1 h
  obtain ⟨t', ht', h'⟩ := Res.bind_eq_ok.1 h'
  cases h
  cases h'
  refine ⟨rfl, rfl, rfl, rfl, rfl, .inl rfl, .inl rfl, ?_, parseTetra_inside ht ht'⟩
  rcases rows_inside hps hps' with ⟨rfl, _⟩ | ⟨_, us, a, a', rfl, rfl, ha, ha'⟩
  · exact .inl rfl
  · exact .inr (.inr ⟨us, a, a', [], rfl, rfl, parsePoint_cut ha ha', fun _ => rfl⟩)

theorem parseAutomatic_inside {p q q' : Parsed} {c : Char} (hs : p.shifts = none) (h : parseAutomatic (cutL A l) p c = .ok q)
    (h' : parseAutomatic (fullL A l r B) p c = .ok q') : CutIn q q' := by
  have hL : (cutL A l).length = A.length + 1 := by simp
  have hL' : (fullL A l r B).length = A.length + 1 + B.length := by simp; omega
  unfold parseAutomatic at h h'
  split at h
  · cases h
  rename_i c1
  rw [if_neg c1] at h'
  split at h
  · rename_i c2
    rw [if_pos c2] at h'
    obtain ⟨l3, hl3, h⟩ := Res.bind_eq_ok.1 h
    obtain ⟨div, hdiv, h⟩ := Res.bind_eq_ok.1 h
    obtain ⟨s, hs1, h⟩ := Res.bind_eq_ok.1 h
    obtain ⟨l3', hl3', h'⟩ := Res.bind_eq_ok.1 h'
    obtain ⟨div', hdiv', h'⟩ := Res.bind_eq_ok.1 h'
    obtain ⟨s', hs1', h'⟩ := Res.bind_eq_ok.1 h'
    cases h
    cases h'
    refine ⟨rfl, rfl, rfl, rfl, rfl, ?_, ?_, .inl rfl, .inl rfl⟩
    · rcases idx_cut (r := r) (B := B) hl3 with ⟨_, h2⟩ | ⟨_, rfl, h2⟩
      · rw [h2] at hl3'; cases hl3'
        rw [hdiv] at hdiv'; cases hdiv'
        exact .inl rfl
      · rw [h2] at hl3'; cases hl3'
        exact .inr ⟨div, div', rfl, rfl, (words_row _ r).mapM' hdiv hdiv'⟩
    · show s = s' ∨ s = none ∨ s' = none ∨ ∃ d d', s = some d ∧ s' = some d' ∧ CutRow d d'
      split at hs1
      · split at hs1'
        · obtain ⟨l4, hl4, hs1⟩ := Res.bind_eq_ok.1 hs1
          obtain ⟨d, hd, hs1⟩ := Res.bind_eq_ok.1 hs1
          obtain ⟨l4', hl4', hs1'⟩ := Res.bind_eq_ok.1 hs1'
          obtain ⟨d', hd', hs1'⟩ := Res.bind_eq_ok.1 hs1'
          cases hs1; cases hs1'
          rcases idx_cut (r := r) (B := B) hl4 with ⟨_, h2⟩ | ⟨_, rfl, h2⟩
          · rw [h2] at hl4'; cases hl4'
            rw [hd] at hd'; cases hd'
            exact .inl rfl
          · rw [h2] at hl4'; cases hl4'
            exact .inr (.inr (.inr ⟨d, d', rfl, rfl, (words_row _ r).mapM' hd hd'⟩))
        · cases hs1'; exact .inr (.inr (.inl hs))
      · cases hs1; exact .inr (.inl hs)
  rename_i c2
  rw [if_neg c2] at h'
  split at h
  · rename_i c3
    rw [if_pos c3] at h'
    obtain ⟨gv, hgv, h⟩ := Res.bind_eq_ok.1 h
    obtain ⟨l6, hl6, h⟩ := Res.bind_eq_ok.1 h
    obtain ⟨s, hs1, h⟩ := Res.bind_eq_ok.1 h
    obtain ⟨gv', hgv', h'⟩ := Res.bind_eq_ok.1 h'
    obtain ⟨l6', hl6', h'⟩ := Res.bind_eq_ok.1 h'
    obtain ⟨s', hs1', h'⟩ := Res.bind_eq_ok.1 h'
    have h6 := idx_le hl6
    have hg : Res.mapM' (fun k => idx (fullL A l r B) k >>= fun l => Res.mapM' toFloat (words l)) [3, 4, 5] = .ok gv := by
      rw [Res.mapM'_eq_ok] at hgv ⊢
      have key : ∀ k ∈ [3, 4, 5], ∀ b, (idx (cutL A l) k >>= fun l => Res.mapM' toFloat (words l)) = .ok b →
          (idx (fullL A l r B) k >>= fun l => Res.mapM' toFloat (words l)) = .ok b := by
        intro k hk b hb
        obtain ⟨x, hx, hb⟩ := Res.bind_eq_ok.1 hb
        have : k < A.length := by
          simp only [List.mem_cons, List.not_mem_nil, or_false] at hk
          rcases hk with rfl | rfl | rfl <;> omega
        rw [idx_front (r := r) (B := B) this hx, Res.ok_bind]
        exact hb
      cases hgv with
      | cons a1 hgv => cases hgv with
        | cons a2 hgv => cases hgv with
          | cons a3 hgv =>
            cases hgv
            exact .cons (key _ (by simp) _ a1) (.cons (key _ (by simp) _ a2) (.cons (key _ (by simp) _ a3) .nil))
    rw [hg] at hgv'; cases hgv'
    cases h
    cases h'
    refine ⟨rfl, rfl, rfl, rfl, rfl, .inl rfl, ?_, .inl rfl, .inl rfl⟩
    rcases idx_cut (r := r) (B := B) hl6 with ⟨_, h2⟩ | ⟨_, rfl, h2⟩
    · rw [h2] at hl6'; cases hl6'
      rw [hs1] at hs1'; cases hs1'
      exact .inl rfl
    · rw [h2] at hl6'; cases hl6'
      exact .inr (.inr (.inr ⟨s, s', rfl, rfl, (words_row _ r).mapM' hs1 hs1'⟩))
  rename_i c3
  rw [if_neg c3] at h'
  split at h
  · cases h
  rename_i c4
  rw [if_neg c4] at h'
  cases h
  cases h'
  exact CutIn.refl _

theorem parseLinePoint_cut (hl : '\n' ∉ l) {ks ks' : List Kpoint} (h : parseLinePoint l = .ok ks) (h' : parseLinePoint (l ++ r) = .ok ks')
    (h0 : l ≠ []) : ∃ k k', ks = [k] ∧ ks' = [k'] ∧ CutPoint k k' := by
  unfold parseLinePoint at h h'
  have n1 : l ≠ ['\n'] := by rintro rfl; exact hl (by simp)
  have n2 : l ++ r ≠ ['\n'] := by
    intro hc
    cases l with
    | nil => exact h0 rfl
    | cons a t =>
      simp only [List.cons_append, List.cons.injEq] at hc
      exact hl (by simp [hc.1])
  rw [if_neg n1] at h
  rw [if_neg n2] at h'
  obtain ⟨xs, hx, h⟩ := Res.bind_eq_ok.1 h
  obtain ⟨xs', hx', h'⟩ := Res.bind_eq_ok.1 h'
  cases h; cases h'
  exact ⟨_, _, rfl, rfl, ((words_row l r).take 3).mapM' hx hx', rfl, .inr (.inr rfl)⟩

theorem parseLineMode_inside (hl : '\n' ∉ l) (h0 : l ≠ []) {p q q' : Parsed} (hm : p.mode = c!"line") (h : parseLineMode (cutL A l) p = .ok q)
    (h' : parseLineMode (fullL A l r B) p = .ok q') : CutIn q q' := by
  unfold parseLineMode at h h'
  obtain ⟨l3, hl3, h⟩ := Res.bind_eq_ok.1 h
  obtain ⟨w, hw, h⟩ := Res.bind_eq_ok.1 h
  obtain ⟨c, hc, h⟩ := Res.bind_eq_ok.1 h
  obtain ⟨l3', hl3', h'⟩ := Res.bind_eq_ok.1 h'
  obtain ⟨w', hw', h'⟩ := Res.bind_eq_ok.1 h'
  obtain ⟨c', hc', h'⟩ := Res.bind_eq_ok.1 h'
  split at h
  · split at h'
    · obtain ⟨ps, hps, h⟩ := Res.bind_eq_ok.1 h
      obtain ⟨ps', hps', h'⟩ := Res.bind_eq_ok.1 h'
      cases h
      cases h'
      have h3 := idx_le hl3
      refine ⟨rfl, rfl, rfl, rfl, rfl, .inl rfl, .inl rfl, ?_, .inl rfl⟩
      by_cases hA : A.length = 3
      · have : (cutL A l).drop 4 = [] := List.drop_eq_nil_of_le (by simp [hA])
        rw [this] at hps
        cases hps
        exact .inr (.inl ⟨hm, _, _, rfl, rfl, by simp⟩)
      · have e1 : (cutL A l).drop 4 = A.drop 4 ++ [l] := by rw [List.drop_append_of_le_length (by omega)]
        have e2 : (fullL A l r B).drop 4 = A.drop 4 ++ (l ++ r) :: B := by rw [List.drop_append_of_le_length (by omega)]
        rw [e1] at hps
        rw [e2, Incar.mapM'_append] at hps'
        obtain ⟨us, b, f1, f2, rfl⟩ := mapM'_snoc hps
        rw [f1, Res.ok_bind] at hps'
        obtain ⟨z, hz, hr⟩ := Res.bind_eq_ok.1 hps'
        cases hr
        rw [Res.mapM'_eq_ok] at hz
        cases hz with
        | @cons _ b' _ zs g1 g2 =>
          obtain ⟨k, k', rfl, rfl, hk⟩ := parseLinePoint_cut hl f2 g1 h0
          refine .inr (.inr ⟨us.flatten, k, k', zs.flatten, by simp, by simp, hk, fun hc => absurd hm hc⟩)
    · cases h'
  · cases h

theorem parse_inside (hl : '\n' ∉ l) (h0 : l ≠ []) {p p' : Parsed} (h : parse (cutL A l) = .ok p) (h' : parse (fullL A l r B) = .ok p') :
    CutIn p p' := by
  unfold parse at h h'
  obtain ⟨l0, g0, h⟩ := Res.bind_eq_ok.1 h
  obtain ⟨l1, g1, h⟩ := Res.bind_eq_ok.1 h
  obtain ⟨w, hw, h⟩ := Res.bind_eq_ok.1 h
  obtain ⟨num, hnum, h⟩ := Res.bind_eq_ok.1 h
  obtain ⟨l2, g2, h⟩ := Res.bind_eq_ok.1 h
  obtain ⟨c, hc, h⟩ := Res.bind_eq_ok.1 h
  have h2 := idx_le g2
  rw [idx_front (r := r) (B := B) (by omega) g0, Res.ok_bind, idx_front (r := r) (B := B) (by omega) g1, Res.ok_bind, hw, Res.ok_bind,
    hnum, Res.ok_bind] at h'
  obtain ⟨l2', g2', h'⟩ := Res.bind_eq_ok.1 h'
  obtain ⟨c', hc', h'⟩ := Res.bind_eq_ok.1 h'
  have hcc : c = c' := by
    rcases idx_cut (r := r) (B := B) g2 with ⟨_, k⟩ | ⟨_, rfl, k⟩
    · rw [k] at g2'; cases g2'
      rw [hc] at hc'; exact Res.ok.inj hc'
    · rw [k] at g2'; cases g2'
      rw [first_strip hc] at hc'; exact Res.ok.inj hc'
  subst hcc
  dsimp only at h h'
  by_cases ha : num ≤ 0
  · by_cases hll : lowerC c = 'l'
    · have hauto : ∀ (L : List Str) (p : Parsed), parseAutomatic L p c = .ok p := by
        intro L p
        unfold parseAutomatic
        rw [hll]
        simp
      simp only [ha, hll, decide_true, Bool.not_true, Bool.false_and, Bool.false_eq_true, if_false, Res.ok_bind, if_true, hauto] at h h'
      exact parseLineMode_inside hl h0 rfl h h'
    · simp only [ha, hll, decide_true, decide_false, Bool.not_true, Bool.false_and, Bool.false_eq_true, if_false, Res.ok_bind, if_true] at h h'
      obtain ⟨x, hx, h⟩ := Res.bind_eq_ok.1 h
      obtain ⟨x', hx', h'⟩ := Res.bind_eq_ok.1 h'
      cases h
      cases h'
      exact parseAutomatic_inside rfl hx hx'
  · by_cases hll : lowerC c = 'l'
    · simp only [ha, hll, decide_true, decide_false, Bool.not_true, Bool.and_false, Bool.false_eq_true, if_false, Res.ok_bind, if_true] at h h'
      exact parseLineMode_inside hl h0 rfl h h'
    · simp only [ha, hll, decide_false, Bool.not_false, Bool.and_true, Bool.false_eq_true, if_false, Res.ok_bind, if_true] at h h'
      obtain ⟨x, hx, h⟩ := Res.bind_eq_ok.1 h
      obtain ⟨x', hx', h'⟩ := Res.bind_eq_ok.1 h'
      cases h
      cases h'
      exact parseExplicit_inside hx hx'
end

theorem CutOf.toIn {p p' : Parsed} (h : CutOf p p') : CutIn p p' := by
  refine ⟨h.comment, h.num, h.mode, h.centering, h.vectors, .inl h.divisions, ?_, ?_, ?_⟩
  · rcases h.shifts with h | h | h
    · exact .inl h
    · exact .inr (.inl h)
    · exact .inr (.inr (.inl h))
  · rcases h.points with ⟨_, h⟩ | h
    · exact .inl h
    · exact .inr (.inl h)
  · rcases h.tetra with h | h | h
    · exact .inl h
    · exact .inr (.inl h)
    · exact .inr (.inr (.inl h))

/-- C99, proved part for cuts at any character: a cut KPOINTS, if accepted, has the comment, mode, number, centering and generating vectors of
the complete file; the divisions are those of the complete file but for the last one; the shifts as well, or one of the files has none; the
points are those of the complete file (in line mode the first of them), but for the last one read, whose last coordinate and weight can be
wrong; the tetrahedra are lost, or those of the complete file but for the last number of the last one. Missing: the last number read, which may be cut (`C99_violation_*`). -/
theorem C99_inside_partial (p q : Str) (e e' : Entries) (h : init { handler := some p } = .ok e)
    (h' : init { handler := some (p ++ q) } = .ok e') :
    (∀ k ∈ [c!"comment", c!"mode", c!"num_kpoints", c!"centering", c!"generating_vectors"], e.get? k = e'.get? k) ∧
    (e.get? c!"divisions" = e'.get? c!"divisions" ∨ ∃ d d', e.get? c!"divisions" = some (atomsVal .int d) ∧
      e'.get? c!"divisions" = some (atomsVal .int d') ∧ CutRow d d') ∧
    (e.get? c!"shifts" = e'.get? c!"shifts" ∨ e.get? c!"shifts" = some .none ∨ e'.get? c!"shifts" = some .none ∨
      ∃ d d', e.get? c!"shifts" = some (atomsVal .float d) ∧ e'.get? c!"shifts" = some (atomsVal .float d') ∧ CutRow d d') ∧
    (e.get? c!"points" = e'.get? c!"points" ∨ ∃ ps z : List Kpoint, e'.get? c!"points" = some (atomsVal .point (ps ++ z)) ∧
      (e.get? c!"mode" ≠ some (.str c!"line") → z.length = 1) ∧
      (e.get? c!"points" = some (atomsVal .point ps) ∧ e.get? c!"mode" = some (.str c!"line") ∨
        ∃ k k', z.head? = some k' ∧ e.get? c!"points" = some (atomsVal .point (ps ++ [k])) ∧ CutPoint k k')) ∧
    ((e.get? c!"tetra" = e'.get? c!"tetra" ∧ e.get? c!"tetra_volume" = e'.get? c!"tetra_volume") ∨
      e.get? c!"tetra" = some .none ∨ e.get? c!"tetra" = some (.list []) ∨
      (e.get? c!"tetra_volume" = e'.get? c!"tetra_volume" ∧ ∃ ts a a', e.get? c!"tetra" = some (rowsVal .int (ts ++ [a])) ∧
        e'.get? c!"tetra" = some (rowsVal .int (ts ++ [a'])) ∧ CutRow a a')) := by
  obtain ⟨P, h1, rfl⟩ := init_handler h
  obtain ⟨P', h1', rfl⟩ := init_handler h'
  have c : CutIn P P' := by
    rcases readlines_append p q with ⟨hp, hr⟩ | ⟨A, l, r, B, k0, k1, k2, k3⟩
    · rw [hr] at h1'
      exact (parse_cut h1 h1').toIn
    · rw [k2] at h1
      rw [k3] at h1'
      exact parse_inside k1 k0 h1 h1'
  have a := holds_toEntries P
  have b := holds_toEntries P'
  refine ⟨?_, ?_, ?_, ?_, ?_⟩
  · intro k hk
    simp only [List.mem_cons, List.not_mem_nil, or_false] at hk
    rcases hk with rfl | rfl | rfl | rfl | rfl
    · rw [a.comment, b.comment, c.comment]
    · rw [a.mode, b.mode, c.mode]
    · rw [a.num, b.num, c.num]
    · rw [a.centering, b.centering, c.centering]
    · rw [a.vectors, b.vectors, c.vectors]
  · rcases c.divisions with hc | ⟨d, d', h1, h2, h3⟩
    · exact .inl (by rw [a.divisions, b.divisions, hc])
    · exact .inr ⟨d, d', by rw [a.divisions, h1]; rfl, by rw [b.divisions, h2]; rfl, h3⟩
  · rcases c.shifts with hc | hc | hc | ⟨d, d', h1, h2, h3⟩
    · exact .inl (by rw [a.shifts, b.shifts, hc])
    · exact .inr (.inl (by rw [a.shifts, hc]; rfl))
    · exact .inr (.inr (.inl (by rw [b.shifts, hc]; rfl)))
    · exact .inr (.inr (.inr ⟨d, d', by rw [a.shifts, h1]; rfl, by rw [b.shifts, h2]; rfl, h3⟩))
  · rcases c.points with hc | ⟨hm, ps, ps', e1, e2, z, rfl⟩ | ⟨ps, k, k', z, e1, e2, e3, e4⟩
    · exact .inl (by rw [a.points, b.points, hc])
    · refine .inr ⟨ps, z, by rw [b.points, e2]; rfl, ?_, .inl ⟨by rw [a.points, e1]; rfl, by rw [a.mode, hm]⟩⟩
      intro hc
      rw [a.mode, hm] at hc
      exact absurd rfl hc
    · refine .inr ⟨ps, k' :: z, by rw [b.points, e2]; rfl, ?_, .inr ⟨k, k', rfl, by rw [a.points, e1]; rfl, e3⟩⟩
      intro hc
      rw [a.mode] at hc
      rw [e4 (by rintro hx; rw [hx] at hc; exact hc rfl)]
      rfl
  · rcases c.tetra with hc | hc | hc | ⟨hc, _⟩ | ⟨hc, ts, x, x', e1, e2, e3⟩
    · obtain ⟨h1, h2⟩ := Prod.mk.inj hc
      exact .inl ⟨by rw [a.tetra, b.tetra, h1], by rw [a.volume, b.volume, h2]⟩
    · obtain ⟨h1, h2⟩ := Prod.mk.inj hc
      exact .inr (.inl (by rw [a.tetra, h1]; rfl))
    · obtain ⟨h1, h2⟩ := Prod.mk.inj hc
      exact .inr (.inr (.inl (by rw [a.tetra, h1]; rfl)))
    · have hc : P.tetra = some [] := hc
      exact .inr (.inr (.inl (by rw [a.tetra, hc]; rfl)))
    · have hc : P.tetraVol = P'.tetraVol := hc
      have e1 : P.tetra = some (ts ++ [x]) := e1
      have e2 : P'.tetra = some (ts ++ [x']) := e2
      exact .inr (.inr (.inr ⟨by rw [a.volume, b.volume, hc], ts, x, x', by rw [a.tetra, e1]; rfl, by rw [b.tetra, e2]; rfl, e3⟩))

end Verif.Kpoints
