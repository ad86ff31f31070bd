import Verif.Props.CutPoscar
import Verif.Props.PoscarRead
/-! # POSCAR files cut off anywhere (C97): inside a line only the last number or word read can be wrong -/
set_option autoImplicit false
namespace Verif

theorem splitP_append (f : Char → Bool) (a b : Str) : ∃ i x y z, splitP f a = i ++ [x] ∧ splitP f (a ++ b) = i ++ (x ++ y) :: z := by
  induction a with
  | nil =>
    cases hb : splitP f b with
    | nil => exact absurd hb (splitP_ne_nil f b)
    | cons y z => exact ⟨[], [], y, z, rfl, by simp [hb]⟩
  | cons c a ih =>
    obtain ⟨i, x, y, z, h1, h2⟩ := ih
    rw [List.cons_append]
    unfold splitP
    rw [h1, h2]
    split
    · exact ⟨[] :: i, x, y, z, by simp, by simp⟩
    · cases i with
      | nil => exact ⟨[], c :: x, y, z, by simp [consHead], by simp [consHead]⟩
      | cons i0 i => exact ⟨(c :: i0) :: i, x, y, z, by simp [consHead], by simp [consHead]⟩

/-- The words of a cut line: those of the complete line, but for the last one, which may be cut off. -/
theorem words_cut (l r : Str) : ∃ ws z, (words l = ws ∧ words (l ++ r) = ws ++ z) ∨
    ∃ w w', words l = ws ++ [w] ∧ words (l ++ r) = ws ++ (w ++ w') :: z := by
  obtain ⟨i, x, y, z, h1, h2⟩ := splitP_append isSpace l r
  unfold words
  rw [h1, h2]
  by_cases hx : x = []
  · subst hx
    exact ⟨_, _, .inl ⟨by simp; rfl, by rw [List.filter_append]⟩⟩
  · exact ⟨i.filter (fun w => !w.isEmpty), z.filter (fun w => !w.isEmpty), .inr ⟨x, y, by simp [hx], by simp [hx]⟩⟩

end Verif

namespace Verif.Poscar
open Verif Verif.Utils Verif.Lattice
open Verif.Kpoints (idx toFloat toInt)

/-- Words in front of another word are complete. -/
theorem word_cut {l : Str} (r : Str) {i : Nat} {w v : Str} (h : idx (words l) i = .ok w) (hn : idx (words l) (i + 1) = .ok v) :
    idx (words (l ++ r)) i = .ok w := by
  rw [idx_ok] at h hn ⊢
  obtain ⟨ws, z, ⟨h1, h2⟩ | ⟨x, x', h1, h2⟩⟩ := words_cut l r
  · rw [h2, ← h1]
    exact idx_prefix_ok _ h
  · rw [h1] at h hn
    rw [h2]
    have hlt : i + 1 < (ws ++ [x]).length := by
      by_contra hc
      rw [List.getElem?_eq_none (by omega)] at hn
      cases hn
    have hlt : i < ws.length := by simpa using hlt
    rw [List.getElem?_append_left hlt] at h ⊢
    exact h

section
variable {A B : List Str} {l r : Str}

/-- The lines of the cut file. -/
abbrev cutL (A : List Str) (l : Str) : List Str := A ++ [l]
/-- The lines of the complete file. -/
abbrev fullL (A : List Str) (l r : Str) (B : List Str) : List Str := A ++ (l ++ r) :: B

theorem idx_cut {i : Nat} {x : Str} (h : idx (cutL A l) i = .ok x) :
    (i < A.length ∧ idx (fullL A l r B) i = .ok x) ∨ (i = A.length ∧ x = l ∧ idx (fullL A l r B) i = .ok (l ++ r)) := by
  rw [idx_ok] at h
  by_cases hi : i < A.length
  · left
    rw [List.getElem?_append_left hi] at h
    exact ⟨hi, idx_ok.2 (by rw [List.getElem?_append_left hi]; exact h)⟩
  · right
    rw [List.getElem?_append_right (by omega)] at h
    have : i - A.length = 0 := by
      by_contra hc
      rw [List.getElem?_eq_none (by simp; omega)] at h
      cases h
    rw [this] at h
    refine ⟨by omega, by simpa using h.symm, idx_ok.2 ?_⟩
    rw [List.getElem?_append_right (by omega), this]
    rfl

theorem idx_front {i : Nat} {x : Str} (hi : i < A.length) (h : idx (cutL A l) i = .ok x) : idx (fullL A l r B) i = .ok x := by
  rcases idx_cut (r := r) (B := B) h with ⟨_, h⟩ | ⟨h, _⟩
  · exact h
  · omega

theorem idx_le {i : Nat} {x : Str} (h : idx (cutL A l) i = .ok x) : i ≤ A.length := by
  rcases idx_cut (r := []) (B := []) h with ⟨h, _⟩ | ⟨h, _⟩ <;> omega

/-- The first character of any line of the cut file is the one of that line of the complete file. -/
theorem first_cut {i : Nat} {x : Str} {c : Char} (h : idx (cutL A l) i = .ok x) (hc : idx x 0 = .ok c) :
    ∃ y, idx (fullL A l r B) i = .ok y ∧ idx y 0 = .ok c := by
  rcases idx_cut (r := r) (B := B) h with ⟨_, h⟩ | ⟨_, rfl, h⟩
  · exact ⟨x, h, hc⟩
  · exact ⟨_, h, idx_mono hc⟩

theorem readHeader_inside {h : Header} (e : readHeader (cutL A l) = .ok h) : readHeader (fullL A l r B) = .ok h := by
  unfold readHeader at e ⊢
  obtain ⟨l0, h0, e⟩ := Res.bind_eq_ok.1 e
  obtain ⟨l5, h5, e⟩ := Res.bind_eq_ok.1 e
  obtain ⟨l1, h1, e⟩ := Res.bind_eq_ok.1 e
  obtain ⟨w, hw, e⟩ := Res.bind_eq_ok.1 e
  obtain ⟨sc, hsc, e⟩ := Res.bind_eq_ok.1 e
  split at e
  · cases e
  rename_i c1
  split at e
  · cases e
  rename_i c2
  obtain ⟨l2, h2, e⟩ := Res.bind_eq_ok.1 e
  obtain ⟨a, ha, e⟩ := Res.bind_eq_ok.1 e
  obtain ⟨l3, h3, e⟩ := Res.bind_eq_ok.1 e
  obtain ⟨b, hb, e⟩ := Res.bind_eq_ok.1 e
  obtain ⟨l4, h4, e⟩ := Res.bind_eq_ok.1 e
  obtain ⟨c, hc, e⟩ := Res.bind_eq_ok.1 e
  obtain ⟨cell, hcell, e⟩ := Res.bind_eq_ok.1 e
  obtain ⟨l6, h6, e⟩ := Res.bind_eq_ok.1 e
  obtain ⟨atoms, hatoms, e⟩ := Res.bind_eq_ok.1 e
  obtain ⟨l7, h7, e⟩ := Res.bind_eq_ok.1 e
  obtain ⟨c7, hc7, e⟩ := Res.bind_eq_ok.1 e
  have hN := idx_le h7
  obtain ⟨m7, g7, k7⟩ := first_cut (r := r) (B := B) h7 hc7
  simp only [idx_front (r := r) (B := B) (by omega) h0, idx_front (r := r) (B := B) (by omega) h5, idx_front (r := r) (B := B) (by omega) h1,
    idx_front (r := r) (B := B) (by omega) h2, idx_front (r := r) (B := B) (by omega) h3, idx_front (r := r) (B := B) (by omega) h4,
    idx_front (r := r) (B := B) (by omega) h6, hw, hsc, Res.ok_bind, ha, hb, hc, hcell, hatoms, g7, k7]
  rw [if_neg c1, if_neg c2]
  dsimp only at e
  split at e
  · rename_i c3
    obtain ⟨l8, h8, e⟩ := Res.bind_eq_ok.1 e
    obtain ⟨c8, hc8, e⟩ := Res.bind_eq_ok.1 e
    obtain ⟨m8, g8, k8⟩ := first_cut (r := r) (B := B) h8 hc8
    rw [if_pos c3, g8, Res.ok_bind, k8, Res.ok_bind]
    exact e
  · rename_i c3
    rw [if_neg c3]
    exact e

/-- Three numbers of a cut line: the first two are complete. -/
theorem readVec_cut {v v' : Vec} (h : readVec l = .ok v) (h' : readVec (l ++ r) = .ok v') :
    v.x = v'.x ∧ v.y = v'.y ∧ (∃ w, idx (words l) 0 = .ok w ∧ idx (words (l ++ r)) 0 = .ok w) ∧
    (∀ w, idx (words l) 3 = .ok w → v = v') := by
  unfold readVec at h h'
  simp only [Res.bind_eq_ok] at h h'
  obtain ⟨a, ha, x, hx, b, hb, y, hy, c, hc, z, hz, rfl⟩ := by simpa only [Res.bind_eq_ok, Res.ok.injEq] using h
  obtain ⟨a', ha', x', hx', b', hb', y', hy', c', hc', z', hz', rfl⟩ := by simpa only [Res.bind_eq_ok, Res.ok.injEq] using h'
  have e0 := word_cut r ha hb
  have e1 := word_cut r hb hc
  rw [e0] at ha'; cases ha'
  rw [e1] at hb'; cases hb'
  rw [hx] at hx'; cases hx'
  rw [hy] at hy'; cases hy'
  refine ⟨rfl, rfl, ⟨a, ha, e0⟩, fun w hw => ?_⟩
  have e2 := word_cut r hc hw
  rw [e2] at hc'; cases hc'
  rw [hz] at hz'; cases hz'
  rfl

theorem readFlag_cut {i : Nat} {b b' : Bool} {w : Str} (h : readFlag l i = .ok b) (h' : readFlag (l ++ r) i = .ok b')
    (hn : idx (words l) (i + 1) = .ok w) : b = b' := by
  unfold readFlag at h h'
  obtain ⟨a, ha, h⟩ := Res.bind_eq_ok.1 h
  obtain ⟨a', ha', h'⟩ := Res.bind_eq_ok.1 h'
  rw [word_cut r ha hn] at ha'
  cases ha'
  cases h; cases h'; rfl

/-- Specification: two sites of one species, of which either the positions and the first two flags agree, or all flags. -/
def Raw.Cut (a b : Raw) : Prop :=
  a.specie = b.specie ∧ ((a.position = b.position ∧ a.flags.1 = b.flags.1 ∧ a.flags.2.1 = b.flags.2.1) ∨ a.flags = b.flags)

theorem readFlag_word {l : Str} {i : Nat} {b : Bool} (h : readFlag l i = .ok b) : ∃ w, idx (words l) i = .ok w := by
  unfold readFlag at h
  obtain ⟨a, ha, h⟩ := Res.bind_eq_ok.1 h
  exact ⟨a, ha⟩

theorem readPos_cut {h : Header} {v v' : Vec} {f f' : Bool × Bool × Bool} (e1 : readPos h l = .ok v) (e2 : readPos h (l ++ r) = .ok v')
    (g1 : readFlags l h.selective = .ok f) (g2 : readFlags (l ++ r) h.selective = .ok f') :
    (v = v' ∧ f.1 = f'.1 ∧ f.2.1 = f'.2.1) ∨ f = f' := by
  unfold readFlags at g1 g2
  split at g1
  · rename_i hs
    rw [if_pos hs] at g2
    simp only [Res.bind_eq_ok] at g1 g2
    obtain ⟨a, ha, b, hb, c, hc, g1⟩ := g1
    obtain ⟨a', ha', b', hb', c', hc', g2⟩ := g2
    cases g1; cases g2
    left
    obtain ⟨w3, k3⟩ := readFlag_word ha
    obtain ⟨w4, k4⟩ := readFlag_word hb
    obtain ⟨w5, k5⟩ := readFlag_word hc
    refine ⟨?_, readFlag_cut ha ha' k4, readFlag_cut hb hb' k5⟩
    unfold readPos at e1 e2
    obtain ⟨u, hu, e1⟩ := Res.bind_eq_ok.1 e1
    obtain ⟨u', hu', e2⟩ := Res.bind_eq_ok.1 e2
    have := (readVec_cut hu hu').2.2.2 _ k3
    subst this
    rw [e1] at e2
    exact Res.ok.inj e2
  · rename_i hs
    rw [if_neg hs] at g2
    cases g1; cases g2
    exact .inr rfl

theorem readSites_inside {h : Header} {n i slot : Nat} {index : Int} {raws raws' : List Raw}
    (e : readSites h (cutL A l) n i slot index = .ok raws) (e' : readSites h (fullL A l r B) n i slot index = .ok raws') :
    (raws = raws' ∧ (0 < n → i + n + h.loopmax ≤ A.length)) ∨
    (i + n + h.loopmax = A.length + 1 ∧ ∃ rs a a', raws = rs ++ [a] ∧ raws' = rs ++ [a'] ∧ a.Cut a') := by
  induction n generalizing i slot index raws raws' with
  | zero => cases e; cases e'; exact .inl ⟨rfl, fun h => absurd h (by omega)⟩
  | succ n ih =>
    unfold readSites at e e'
    simp only [Res.bind_eq_ok] at e e'
    obtain ⟨a, ha, s, hs, line, hl, v, hv, f, hf, rest, hr, heq⟩ := e
    obtain ⟨a', ha', s', hs', line', hl', v', hv', f', hf', rest', hr', heq'⟩ := e'
    rw [ha] at ha'; cases ha'
    rw [hs] at hs'; cases hs'
    cases heq; cases heq'
    rcases idx_cut (r := r) (B := B) hl with ⟨hi, hl2⟩ | ⟨hi, rfl, hl2⟩
    · rw [hl2] at hl'; cases hl'
      rw [hv] at hv'; cases hv'
      rw [hf] at hf'; cases hf'
      rcases ih hr hr' with ⟨rfl, hb⟩ | ⟨hb, rs, x, x', rfl, rfl, hx⟩
      · refine .inl ⟨rfl, fun _ => ?_⟩
        cases n with
        | zero => omega
        | succ m => have := hb (by omega); omega
      · exact .inr ⟨by omega, ⟨s, v, f⟩ :: rs, x, x', rfl, rfl, hx⟩
    · rw [hl2] at hl'; cases hl'
      have hn : n = 0 := by
        cases n with
        | zero => rfl
        | succ m =>
          exfalso
          unfold readSites at hr
          simp only [Res.bind_eq_ok] at hr
          obtain ⟨_, _, _, _, _, hq, _⟩ := hr
          have := idx_le hq
          omega
      subst hn
      cases hr; cases hr'
      exact .inr ⟨by omega, [], _, _, rfl, rfl, rfl, readPos_cut hv hv' hf hf'⟩

theorem mapM'_snoc {α β : Type} {f : α → Res β} {l : List α} {a : α} {vs : List β} (h : Res.mapM' f (l ++ [a]) = .ok vs) :
    ∃ us b, Res.mapM' f l = .ok us ∧ f a = .ok b ∧ vs = us ++ [b] := by
  rw [Res.mapM'_eq_ok] at h
  induction l generalizing vs with
  | nil =>
    cases h with
    | cons h t => cases t; exact ⟨[], _, rfl, h, rfl⟩
  | cons x l ih =>
    cases h with
    | @cons _ y _ ys h t =>
      obtain ⟨us, b, h1, h2, rfl⟩ := ih t
      exact ⟨y :: us, b, Res.mapM'_eq_ok.2 (.cons h (Res.mapM'_eq_ok.1 h1)), h2, rfl⟩

theorem mapM'_same {α β : Type} {f g : α → Res β} {l : List α} (h : ∀ a ∈ l, f a = g a) : Res.mapM' f l = Res.mapM' g l := by
  induction l with
  | nil => rfl
  | cons a l ih =>
    unfold Res.mapM'
    rw [h a (by simp), ih fun b hb => h b (by simp [hb])]

theorem readVecs_inside {p n : Nat} {conv : Vec → Res Vec} {vs vs' : List Vec} (e : readVecs (cutL A l) p n conv = .ok vs)
    (e' : readVecs (fullL A l r B) p n conv = .ok vs') :
    vs.length = n ∧ vs'.length = n ∧ (0 < n → n + p ≤ A.length + 1) ∧
    (vs = vs' ∨ ∃ us a a', vs = us ++ [a] ∧ vs' = us ++ [a'] ∧ ∃ u u', conv u = .ok a ∧ conv u' = .ok a' ∧ u.x = u'.x ∧ u.y = u'.y) := by
  unfold readVecs at e e'
  induction n generalizing vs vs' with
  | zero => cases e; cases e'; exact ⟨rfl, rfl, fun h => absurd h (by omega), .inl rfl⟩
  | succ n ih =>
    rw [List.range_succ] at e e'
    obtain ⟨us, a, h1, ha, rfl⟩ := mapM'_snoc e
    obtain ⟨us', a', h1', ha', rfl⟩ := mapM'_snoc e'
    obtain ⟨k1, k2, k3, k4⟩ := ih h1 h1'
    rw [Res.mapM'_eq_ok] at h1 h1'
    obtain ⟨x, hx, hxa⟩ := Res.bind_eq_ok.1 ha
    obtain ⟨u, hu, hca⟩ := Res.bind_eq_ok.1 hxa
    obtain ⟨x', hx', hxa'⟩ := Res.bind_eq_ok.1 ha'
    obtain ⟨u', hu', hca'⟩ := Res.bind_eq_ok.1 hxa'
    clear hxa hxa' ha ha'
    have hle := idx_le hx
    have hus : us = us' := by
      refine List.ext_getElem (by omega) fun i hi hi' => ?_
      obtain ⟨_, g⟩ := List.forall₂_iff_get.1 h1
      obtain ⟨_, g'⟩ := List.forall₂_iff_get.1 h1'
      have gi := g i (by simpa using (by omega : i < n)) hi
      have gi' := g' i (by simpa using (by omega : i < n)) hi'
      obtain ⟨y, hy, gi⟩ := Res.bind_eq_ok.1 gi
      obtain ⟨y', hy', gi'⟩ := Res.bind_eq_ok.1 gi'
      have : i < n := by omega
      simp only [List.get_eq_getElem, List.getElem_range] at hy hy' gi gi'
      rw [idx_front (r := r) (B := B) (by omega) hy] at hy'
      cases hy'
      rw [gi] at gi'
      exact Res.ok.inj gi'
    subst hus
    refine ⟨by simp [k1], by simp [k1], fun _ => by omega, ?_⟩
    rcases idx_cut (r := r) (B := B) hx with ⟨_, hx2⟩ | ⟨_, rfl, hx2⟩
    · rw [hx2] at hx'; cases hx'
      rw [hu] at hu'; cases hu'
      rw [hca] at hca'; cases hca'
      exact .inl rfl
    · rw [hx2] at hx'; cases hx'
      obtain ⟨c1, c2, -⟩ := readVec_cut hu hu'
      exact .inr ⟨us, a, a', rfl, rfl, u, u', hca, hca', c1, c2⟩

theorem readVecs_front {p n : Nat} {conv : Vec → Res Vec} {vs vs' : List Vec} (hp : n + p ≤ A.length)
    (e : readVecs (cutL A l) p n conv = .ok vs) (e' : readVecs (fullL A l r B) p n conv = .ok vs') : vs = vs' := by
  have : readVecs (fullL A l r B) p n conv = readVecs (cutL A l) p n conv := by
    unfold readVecs
    refine mapM'_same fun i hi => ?_
    have hi : i < n := by simpa using hi
    have : idx (fullL A l r B) (i + p) = idx (cutL A l) (i + p) := by
      unfold idx
      rw [List.getElem?_append_left (by omega), List.getElem?_append_left (by omega)]
    rw [this]
  rw [this, e] at e'
  exact Res.ok.inj e'

theorem not_blank (hl : '\n' ∉ l) : isBlank l = false := by
  unfold isBlank
  rw [Bool.eq_false_iff]
  intro h
  have h := eq_of_beq h
  have : '\n' ∈ l.filter (· != ' ') := by rw [h]; simp
  exact hl (List.mem_filter.1 this).1

theorem readTail_inside (hl : '\n' ∉ l) {p0 : Nat} {t t' : Bool × Bool × Bool} (e : readTail (cutL A l) p0 = .ok t)
    (e' : readTail (fullL A l r B) p0 = .ok t') :
    (p0 < A.length → t = t') ∧ (A.length ≤ p0 → t.2.2 = false) ∧ (A.length < p0 → t.1 = false) := by
  have hL : (cutL A l).length = A.length + 1 := by simp
  have hL' : A.length + 1 ≤ (fullL A l r B).length := by simp
  unfold readTail at e e'
  obtain ⟨u, hu, e⟩ := Res.bind_eq_ok.1 e
  obtain ⟨u', hu', e'⟩ := Res.bind_eq_ok.1 e'
  refine ⟨fun hlt => ?_, fun hle => ?_, fun hlt => ?_⟩
  · rw [if_pos (by omega)] at hu hu' e e'
    obtain ⟨x, hx, hu⟩ := Res.bind_eq_ok.1 hu
    obtain ⟨x', hx', hu'⟩ := Res.bind_eq_ok.1 hu'
    rw [idx_front (r := r) (B := B) hlt hx] at hx'; cases hx'
    rw [hu] at hu'; cases hu'
    obtain ⟨y, hy, e⟩ := Res.bind_eq_ok.1 e
    obtain ⟨w, hw, e⟩ := Res.bind_eq_ok.1 e
    obtain ⟨y', hy', e'⟩ := Res.bind_eq_ok.1 e'
    obtain ⟨w', hw', e'⟩ := Res.bind_eq_ok.1 e'
    split at e
    · split at e'
      · cases e; cases e'; rfl
      · cases e'
    · cases e
  · rw [if_neg (by omega)] at e
    cases e
    rfl
  · rw [if_neg (by omega)] at hu
    rw [if_neg (by omega)] at e
    cases hu; cases e; rfl

theorem readPredAfter_inside (hl : '\n' ∉ l) {p n : Nat} (hn : 0 < n) {q q' : Option (List Vec)} (e : readPredAfter (cutL A l) p n = .ok q)
    (e' : readPredAfter (fullL A l r B) p n = .ok q') :
    q = none ∨ (p < A.length ∧ ∃ vs vs', q = some vs ∧ q' = some vs' ∧ vs.length = n ∧ vs'.length = n ∧
      (vs = vs' ∨ ∃ us a a', vs = us ++ [a] ∧ vs' = us ++ [a'] ∧ a.x = a'.x ∧ a.y = a'.y)) := by
  have hL : (cutL A l).length = A.length + 1 := by simp
  have hL' : A.length + 1 ≤ (fullL A l r B).length := by simp
  cases hq : q with
  | none => exact .inl rfl
  | some vs =>
    subst hq
    right
    unfold readPredAfter at e e'
    split at e
    · rename_i hlt
      rw [if_pos (by omega)] at e'
      obtain ⟨x, hx, e⟩ := Res.bind_eq_ok.1 e
      obtain ⟨x', hx', e'⟩ := Res.bind_eq_ok.1 e'
      split at e
      · rename_i hb
        have hp : p < A.length := by
          rcases idx_cut (r := r) (B := B) hx with ⟨h, _⟩ | ⟨_, rfl, _⟩
          · exact h
          · rw [not_blank hl] at hb; cases hb
        rw [idx_front (r := r) (B := B) hp hx] at hx'; cases hx'
        rw [if_pos hb] at e'
        obtain ⟨y, hy, e⟩ := Res.bind_eq_ok.1 e
        obtain ⟨w, hw, e⟩ := Res.bind_eq_ok.1 e
        obtain ⟨y', hy', e'⟩ := Res.bind_eq_ok.1 e'
        obtain ⟨w', hw', e'⟩ := Res.bind_eq_ok.1 e'
        split at e
        · rename_i hnum
          obtain ⟨vs0, hv, e⟩ := Res.bind_eq_ok.1 e
          cases e
          have hww : w = w' := by
            rcases idx_cut (r := r) (B := B) hy with ⟨_, h⟩ | ⟨_, rfl, h⟩
            · rw [h] at hy'; cases hy'
              rw [hw] at hw'; exact Res.ok.inj hw'
            · rw [h] at hy'; cases hy'
              obtain ⟨m, rfl⟩ : ∃ m, n = m + 1 := ⟨n - 1, by omega⟩
              unfold readVecs at hv
              rw [Res.mapM'_eq_ok, List.range_succ_eq_map] at hv
              cases hv with
              | cons h0 _ =>
                obtain ⟨z, hz, h0⟩ := Res.bind_eq_ok.1 h0
                obtain ⟨u, hu, _⟩ := Res.bind_eq_ok.1 h0
                rw [Nat.zero_add, hy] at hz; cases hz
                unfold readVec at hu
                simp only [Res.bind_eq_ok] at hu
                obtain ⟨a, ha, _, _, b, hb, _⟩ := hu
                rw [hw] at ha; cases ha
                rw [word_cut r hw hb] at hw'
                exact Res.ok.inj hw'
          subst hww
          rw [if_pos hnum] at e'
          obtain ⟨vs0', hv', e'⟩ := Res.bind_eq_ok.1 e'
          cases e'
          obtain ⟨k1, k2, k3, k4⟩ := readVecs_inside hv hv'
          refine ⟨hp, _, _, rfl, rfl, k1, k2, ?_⟩
          rcases k4 with h | ⟨us, a, a', h1, h2, u, u', h3, h4, h5, h6⟩
          · exact .inl h
          · cases h3; cases h4
            exact .inr ⟨us, a, a', h1, h2, h5, h6⟩
        · cases e
      · cases e
    · cases e

end

/-! ### sites -/

/-- Specification: the sites of a cut file compared with those of the complete file. All but the last are those of the complete file,
with velocities and predictors, with velocities only, or without both. The last one is of the same species; it can differ besides in one
thing only, the one at which the file ends: the position or the third flag; the velocity; or the last component of the predictor. -/
def CutSites (sites sites' : List Site) : Prop :=
  (sites = [] ∧ sites' = []) ∨ ∃ ss s s', sites' = ss ++ [s'] ∧ s.specie = s'.specie ∧ s.direct = s'.direct ∧
    ((sites = ss.map Site.withoutMotion ++ [s] ∧ s.velocities = none ∧ s.predictors = none ∧
        ((s.position = s'.position ∧ s.selective.1 = s'.selective.1 ∧ s.selective.2.1 = s'.selective.2.1) ∨ s.selective = s'.selective)) ∨
     (sites = ss.map Site.withoutPredictors ++ [s] ∧ s.position = s'.position ∧ s.selective = s'.selective ∧ s.predictors = none) ∨
     (sites = ss ++ [s] ∧ s.position = s'.position ∧ s.selective = s'.selective ∧ s.velocities = s'.velocities ∧
        (s.predictors = s'.predictors ∨ ∃ v v', s.predictors = some v ∧ s'.predictors = some v' ∧ v.x = v'.x ∧ v.y = v'.y)))

theorem assemble_snoc (rs : List Raw) (a : Raw) (v q : Option (List Vec)) : assemble (rs ++ [a]) v q =
    assemble rs v q ++ [Site.new a.specie a.position a.flags (v.bind fun l => l[rs.length]?) (q.bind fun l => l[rs.length]?) true] := by
  unfold assemble
  rw [List.zipIdx_append, List.map_append]
  simp

theorem assemble_congr (rs : List Raw) (v v' q q' : Option (List Vec)) (hv : ∀ i : Nat, i < rs.length → (v.bind fun l => l[i]?) = (v'.bind fun l => l[i]?))
    (hq : ∀ i : Nat, i < rs.length → (q.bind fun l => l[i]?) = (q'.bind fun l => l[i]?)) : assemble rs v q = assemble rs v' q' := by
  unfold assemble
  refine List.map_congr_left fun x hx => ?_
  obtain ⟨r, i⟩ := x
  have := List.mem_zipIdx hx
  simp only [Nat.zero_add] at this
  simp only [hv i this.2.1, hq i this.2.1]

theorem snoc_get {us : List Vec} {a a' : Vec} {i : Nat} (h : i < us.length) : (us ++ [a])[i]? = (us ++ [a'])[i]? := by
  rw [List.getElem?_append_left h, List.getElem?_append_left h]

theorem parse_inside {A B : List Str} {l r : Str} (hl : '\n' ∉ l) {P P' : Parsed} (h : parse (A ++ [l]) = .ok P)
    (h' : parse (A ++ (l ++ r) :: B) = .ok P') : P.comment = P'.comment ∧ P.cell = P'.cell ∧ CutSites P.sites P'.sites := by
  obtain ⟨hd, raws, t, v, q, a1, a2, a3, a4, rfl, a5⟩ := parse_parts h
  obtain ⟨hd', raws', t', v', q', b1, b2, b3, b4, rfl, b5⟩ := parse_parts h'
  rw [readHeader_inside a1] at b1
  cases Res.ok.inj b1
  refine ⟨rfl, rfl, ?_⟩
  simp only
  have hlen := readSites_length _ _ _ _ _ _ _ a3
  have hlen' := readSites_length _ _ _ _ _ _ _ b3
  generalize hn : hd.atoms.sum.toNat = n at *
  rcases Nat.eq_zero_or_pos n with h0 | hpos
  · left
    have : raws = [] := List.length_eq_zero_iff.1 (by omega)
    have : raws' = [] := List.length_eq_zero_iff.1 (by omega)
    subst_vars
    exact ⟨rfl, rfl⟩
  right
  obtain ⟨m1, m2, m3⟩ := readTail_inside hl a4 b4
  rcases readSites_inside a3 b3 with ⟨rfl, hb⟩ | ⟨hb, rs, a, a', rfl, rfl, hs, hc⟩
  · have hb := hb hpos
    obtain ⟨rs, a, rfl⟩ : ∃ rs a, raws = rs ++ [a] :=
      ⟨raws.dropLast, raws.getLast (by intro hc; rw [hc] at hlen; simp at hlen; omega), (List.dropLast_append_getLast _).symm⟩
    have hrs : rs.length + 1 = n := by simpa using hlen
    rcases a5 with ⟨c1, ⟨vs, rfl, c2⟩, c3⟩ | ⟨c1, c2, rfl, qs, rfl, c3⟩ | ⟨_, _, rfl, rfl⟩
    · -- velocities
      have hp0 : n + hd.loopmax < A.length := by
        by_contra hc
        have hle := (List.forall₂_iff_get.1 (Res.mapM'_eq_ok.1 c2)).2 0 (by simpa using hpos)
          (by have := (List.forall₂_iff_get.1 (Res.mapM'_eq_ok.1 c2)).1; simp at this; omega)
        obtain ⟨y, hy, _⟩ := Res.bind_eq_ok.1 hle
        simp only [List.get_eq_getElem, List.getElem_range] at hy
        have := idx_le hy
        omega
      have := m1 hp0
      subst this
      rcases b5 with ⟨d1, ⟨vs', rfl, d2⟩, d3⟩ | ⟨d1, _⟩ | ⟨d1, _⟩
      · obtain ⟨k1, k2, k3, k4⟩ := readVecs_inside c2 d2
        rcases readPredAfter_inside hl hpos c3 d3 with rfl | ⟨hp, qs, qs', rfl, rfl, g1, g2, g3⟩
        · -- no predictors
          have hvs : ∀ i : Nat, i < rs.length → vs[i]? = vs'[i]? := by
            intro i hi
            rcases k4 with rfl | ⟨us, x, x', rfl, rfl, _⟩
            · rfl
            · exact snoc_get (by simp at k1; omega)
          refine ⟨assemble rs (some vs') q', Site.new a.specie a.position a.flags (vs[rs.length]?) none true, _,
            assemble_snoc rs a (some vs') q', rfl, rfl, .inr (.inl ⟨?_, rfl, rfl, rfl⟩)⟩
          rw [assemble_snoc, assemble_withoutPredictors]
          rw [assemble_congr rs (some vs) (some vs') none none (fun i hi => hvs i hi) (fun _ _ => rfl)]
          rfl
        · -- predictors: the velocities are complete
          have hvv : vs = vs' := by
            rcases k4 with h | ⟨us, x, x', rfl, rfl, u, u', _⟩
            · exact h
            · exact readVecs_front (by omega) c2 d2
          subst hvv
          have hqs : ∀ i : Nat, i < rs.length → qs[i]? = qs'[i]? := by
            intro i hi
            rcases g3 with rfl | ⟨us, x, x', rfl, rfl, _⟩
            · rfl
            · exact snoc_get (by simp at g1; omega)
          refine ⟨assemble rs (some vs) (some qs'), Site.new a.specie a.position a.flags (vs[rs.length]?) (qs[rs.length]?) true, _,
            assemble_snoc rs a (some vs) (some qs'), rfl, rfl, .inr (.inr ⟨?_, rfl, rfl, rfl, ?_⟩)⟩
          · rw [assemble_snoc, assemble_congr rs (some vs) (some vs) (some qs) (some qs') (fun _ _ => rfl) (fun i hi => hqs i hi)]
            rfl
          · rcases g3 with rfl | ⟨us, x, x', rfl, rfl, e1, e2⟩
            · exact .inl rfl
            · have : us.length = rs.length := by simp at g1; omega
              refine .inr ⟨x, x', ?_, ?_, e1, e2⟩
              · show (us ++ [x])[rs.length]? = some x
                rw [← this]; simp
              · show (us ++ [x'])[rs.length]? = some x'
                rw [← this]; simp
      · rw [c1] at d1; cases d1
      · rw [c1] at d1; cases d1
    · -- predictors only
      have hp0 : n + hd.loopmax < A.length := by
        by_contra hc
        rw [m2 (by omega)] at c2
        cases c2
      have := m1 hp0
      subst this
      rcases b5 with ⟨d1, _⟩ | ⟨_, _, rfl, qs', rfl, d3⟩ | ⟨_, d2, _⟩
      · rw [c1] at d1; cases d1
      · obtain ⟨k1, k2, k3, k4⟩ := readVecs_inside c3 d3
        have hqs : ∀ i : Nat, i < rs.length → qs[i]? = qs'[i]? := by
          intro i hi
          rcases k4 with rfl | ⟨us, x, x', rfl, rfl, _⟩
          · rfl
          · exact snoc_get (by simp at k1; omega)
        refine ⟨assemble rs none (some qs'), Site.new a.specie a.position a.flags none (qs[rs.length]?) true, _,
          assemble_snoc rs a none (some qs'), rfl, rfl, .inr (.inr ⟨?_, rfl, rfl, rfl, ?_⟩)⟩
        · rw [assemble_snoc, assemble_congr rs none none (some qs) (some qs') (fun _ _ => rfl) (fun i hi => hqs i hi)]
          rfl
        · rcases k4 with rfl | ⟨us, x, x', rfl, rfl, u, u', e3, e4, e1, e2⟩
          · exact .inl rfl
          · cases e3; cases e4
            have : us.length = rs.length := by simp at k1; omega
            refine .inr ⟨x, x', ?_, ?_, e1, e2⟩
            · show (us ++ [x])[rs.length]? = some x
              rw [← this]; simp
            · show (us ++ [x'])[rs.length]? = some x'
              rw [← this]; simp
      · rw [c2] at d2; cases d2
    · refine ⟨assemble rs v' q', Site.new a.specie a.position a.flags none none true, _, assemble_snoc rs a v' q', rfl, rfl,
        .inl ⟨?_, rfl, rfl, .inr rfl⟩⟩
      rw [assemble_snoc, assemble_withoutMotion]
      rfl
  · -- cut in the last position
    have ht : t.1 = false := m3 (by omega)
    have ht2 : t.2.2 = false := m2 (by omega)
    rcases a5 with ⟨c1, _⟩ | ⟨_, c2, _⟩ | ⟨_, _, rfl, rfl⟩
    · rw [ht] at c1; cases c1
    · rw [ht2] at c2; cases c2
    · refine ⟨assemble rs v' q', Site.new a.specie a.position a.flags none none true, _, assemble_snoc rs a' v' q', ?_, rfl,
        .inl ⟨?_, rfl, rfl, hc⟩⟩
      · show lower a.specie = lower a'.specie
        rw [hs]
      · rw [assemble_snoc, assemble_withoutMotion]
        rfl

/-- C97, proved part for cuts at any character: a cut POSCAR, if accepted, has the comment and the cell of the complete file and as many
sites; all but the last are those of the complete file, apart from missing velocities and predictors; the last one is of the same species and
differs besides in the one number or flag at which the file ends (`CutSites`). -/
theorem C97_inside_partial (p q : Str) (e e' : Entries) (h : init { handler := some p } = .ok e)
    (h' : init { handler := some (p ++ q) } = .ok e') :
    ∃ comment cell sites sites', e = fileEntries comment cell sites ∧ e' = fileEntries comment cell sites' ∧ CutSites sites sites' := by
  rcases readlines_append p q with ⟨hp, -⟩ | ⟨A, l, r, B, -, h1, h2, h3⟩
  · obtain ⟨comment, cell, sites, sites', he, he', hs⟩ := C97_cut_partial p q hp e e' h h'
    refine ⟨comment, cell, sites, sites', he, he', ?_⟩
    rcases List.eq_nil_or_concat sites' with rfl | ⟨ss, s', rfl⟩
    · left
      refine ⟨?_, rfl⟩
      rcases hs with h | h | h <;> simpa using h
    · right
      rw [List.concat_eq_append] at hs ⊢
      rcases hs with rfl | rfl | rfl
      · exact ⟨ss, s', s', rfl, rfl, rfl, .inr (.inr ⟨rfl, rfl, rfl, rfl, .inl rfl⟩)⟩
      · exact ⟨ss, s'.withoutPredictors, s', rfl, rfl, rfl, .inr (.inl ⟨by simp, rfl, rfl, rfl⟩)⟩
      · exact ⟨ss, s'.withoutMotion, s', rfl, rfl, rfl, .inl ⟨by simp, rfl, rfl, .inr rfl⟩⟩
  · obtain ⟨P, c, g1, g2, rfl⟩ := (init_handler p e).1 h
    obtain ⟨P', c', g1', g2', rfl⟩ := (init_handler _ e').1 h'
    rw [h2] at g1
    rw [h3] at g1'
    obtain ⟨k1, k2, k3⟩ := parse_inside h1 g1 g1'
    rw [g2, g2'] at k2
    cases Option.some.inj k2
    exact ⟨P.comment, c, P.sites, P'.sites, rfl, by rw [k1], k3⟩

end Verif.Poscar
