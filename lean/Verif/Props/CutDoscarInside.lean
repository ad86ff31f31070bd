import Verif.Props.CutDoscar
import Verif.Props.CutPoscarInside
/-! # DOSCAR files cut off at any character (C93) -/
set_option autoImplicit false
namespace Verif.Doscar
open Verif Verif.Utils
open Verif.Kpoints (idx toFloat toInt)

/-! ### specification -/

/-- The same names, and in each field the same numbers, but possibly the last. -/
def Close (r r' : Record) : Prop :=
  List.Forall₂ (fun f g => f.1 = g.1 ∧ (f.2 = g.2 ∨ ∃ ns x y, f.2 = ns ++ [x] ∧ g.2 = ns ++ [y])) r r'

/-- Two tables agree but for the last number of the last row (if there is one row only, for that row). -/
def CutTable (t t' : List Record) : Prop := t = t' ∨ ∃ c r r', t = c ++ [r] ∧ t' = c ++ [r'] ∧ (Close r r' ∨ c = [])

/-- Partial densities of states of a cut file: missing, a single row, or all rows that are there agree but for the last number of the last row of the
last ion; with several ions all rows are there. -/
def CutPartial (ions : Int) (t t' : List (List Record)) : Prop :=
  t = [] ∨ (ions = 1 ∧ ∃ r, t = [[r]]) ∨ t.length = t'.length ∧ ∀ i b b', t[i]? = some b → t'[i]? = some b' →
    (b.length = b'.length ∨ ions = 1 ∧ b.length ≤ b'.length) ∧
    ∀ j r r', b[j]? = some r → b'[j]? = some r' → r = r' ∨ Close r r' ∧ i + 1 = t.length ∧ j + 1 = b.length

/-! ### rows -/

/-- Two rows of one length of which one is a cut. -/
def CutRow (a b : List Rat) : Prop := a = b ∨ ∃ rs x y, a = rs ++ [x] ∧ b = rs ++ [y]

theorem forall2_append {α β : Type} {R : α → β → Prop} {a b : List α} {r : List β} (h : List.Forall₂ R (a ++ b) r) :
    ∃ x y, List.Forall₂ R a x ∧ List.Forall₂ R b y ∧ r = x ++ y := by
  induction a generalizing r with
  | nil => exact ⟨[], r, .nil, h, rfl⟩
  | cons u us ih =>
    cases h with
    | cons h1 h2 =>
      obtain ⟨x, y, k1, k2, rfl⟩ := ih h2
      exact ⟨_ :: x, y, .cons h1 k1, k2, rfl⟩

theorem forall2_unique {α β : Type} {R : α → β → Prop} (hu : ∀ a x y, R a x → R a y → x = y) {a : List α} {r s : List β}
    (h : List.Forall₂ R a r) (h' : List.Forall₂ R a s) : r = s := by
  induction h generalizing s with
  | nil => cases h'; rfl
  | cons h1 _ ih =>
    cases h' with
    | cons k1 k2 => rw [hu _ _ _ h1 k1, ih k2]

theorem row_cut {l r : Str} {a b : List Rat} (h : lineToType toFloat l = .ok (.many a)) (h' : lineToType toFloat (l ++ r) = .ok (.many b))
    (hl : a.length = b.length) : CutRow a b := by
  have key : ∀ (s : Str) (c : List Rat), lineToType toFloat s = .ok (.many c) → Numbers s c := by
    intro s c h
    obtain ⟨r0, h1, h2⟩ := lineToType_ok.1 h
    have : r0 = c := by
      unfold wrap at h2
      split at h2
      · cases h2
      · exact (OneOrMany.many.inj h2).symm
    rw [← this]; exact h1
  have ha := key _ _ h
  have hb := key _ _ h'
  unfold Numbers at ha hb
  have hu : ∀ (w : Str) (x y : Rat), pyFloatRat w = some x → pyFloatRat w = some y → x = y := by
    intro w x y h1 h2; rw [h1] at h2; exact Option.some.inj h2
  obtain ⟨ws, z, ⟨h1, h2⟩ | ⟨w, w', h1, h2⟩⟩ := words_cut l r
  · rw [h1] at ha
    rw [h2] at hb
    obtain ⟨x, y, k1, k2, rfl⟩ := forall2_append hb
    have := forall2_unique hu ha k1
    subst this
    left
    simp only [List.length_append] at hl
    rw [List.eq_nil_of_length_eq_zero (by omega : y.length = 0), List.append_nil]
  · rw [h1] at ha
    rw [h2] at hb
    obtain ⟨x, y, k1, k2, rfl⟩ := forall2_append ha
    obtain ⟨x', y', k1', k2', rfl⟩ := forall2_append hb
    have := forall2_unique hu k1 k1'
    subst this
    right
    cases k2 with
    | cons e1 e2 =>
      cases e2
      cases k2' with
      | cons e1' e2' =>
        rename_i _ t
        simp only [List.length_append, List.length_cons, List.length_nil] at hl
        rw [List.eq_nil_of_length_eq_zero (by omega : t.length = 0)]
        exact ⟨x, _, _, rfl, rfl⟩

theorem cols_close (rs : List Rat) (x y : Rat) (a b : Nat) : cols (rs ++ [x]) a b = cols (rs ++ [y]) a b ∨
    ∃ ns u v, cols (rs ++ [x]) a b = ns ++ [u] ∧ cols (rs ++ [y]) a b = ns ++ [v] := by
  unfold cols
  by_cases ha : a ≤ rs.length
  · rw [List.drop_append_of_le_length ha, List.drop_append_of_le_length ha]
    by_cases hb : b - a ≤ (rs.drop a).length
    · left
      rw [List.take_append_of_le_length hb, List.take_append_of_le_length hb]
    · right
      rw [List.take_of_length_le (by simp at hb ⊢; omega), List.take_of_length_le (by simp at hb ⊢; omega)]
      exact ⟨_, x, y, rfl, rfl⟩
  · left
    rw [List.drop_eq_nil_of_le (by simp; omega), List.drop_eq_nil_of_le (by simp; omega)]

theorem record_close {a b : List Rat} (s : Nat) (names : List Str) (h : CutRow a b) : record s names a = record s names b ∨
    Close (record s names a) (record s names b) := by
  rcases h with rfl | ⟨rs, x, y, rfl, rfl⟩
  · exact .inl rfl
  · right
    unfold Close record
    refine .cons ⟨rfl, cols_close rs x y 0 1⟩ ?_
    rw [List.forall₂_map_left_iff, List.forall₂_map_right_iff]
    exact List.forall₂_same.2 fun p _ => ⟨rfl, cols_close rs x y _ _⟩

/-! ### header -/

theorem header_agree {nc nc' : Bool} {A B : List Str} {d d' : Data} (x : Accepted nc A d) (x' : Accepted nc' B d')
    (h : ∀ i, i < 6 → A[i]? = B[i]?) : d.metadata = d'.metadata ∧ x.header = x'.header ∧ x.nd = x'.nd ∧ x.numIons = x'.numIons := by
  have k0 : x.l0 = x'.l0 := Option.some.inj (by rw [← x.e0, ← x'.e0, h 0 (by omega)])
  have k3 : x.l3 = x'.l3 := Option.some.inj (by rw [← x.e3, ← x'.e3, h 3 (by omega)])
  have k4 : x.l4 = x'.l4 := Option.some.inj (by rw [← x.e4, ← x'.e4, h 4 (by omega)])
  have k5 : x.l5 = x'.l5 := Option.some.inj (by rw [← x.e5, ← x'.e5, h 5 (by omega)])
  have e0 := x.ints
  rw [k0, x'.ints] at e0
  have e0 := OneOrMany.many.inj (Res.ok.inj e0)
  simp only [List.cons.injEq, and_true] at e0
  have e3 := x.hcoord
  rw [k3, x'.hcoord] at e3
  have e3 := Res.ok.inj e3
  have ec := x.hcart
  rw [← e3, x'.hcart] at ec
  have ec := Res.ok.inj ec
  have e5 := x.numbers
  rw [k5] at e5
  have e5 := Numbers.unique e5 x'.numbers
  have e5' := e5
  rw [x.hheader, x'.hheader] at e5'
  simp only [List.cons.injEq, and_true] at e5'
  have hn := x.hn
  have hn' := x'.hn
  have h1 := x.hi
  have h1' := x'.hi
  have h2 := x.ha
  have h2' := x'.ha
  have h4 := x.hname
  have h4' := x'.hname
  refine ⟨?_, e5, e5'.2.2.1, e0.1.symm⟩
  have ext : ∀ m m' : Metadata, m.nIons = m'.nIons → m.nAtoms = m'.nAtoms → m.cartesian = m'.cartesian → m.name = m'.name → m.emax = m'.emax →
      m.emin = m'.emin → m.nDos = m'.nDos → m.efermi = m'.efermi → m.weight = m'.weight → m = m' := by
    intro m m' a1 a2 a3 a4 a5 a6 a7 a8 a9
    cases m; cases m'
    simp only at a1 a2 a3 a4 a5 a6 a7 a8 a9
    subst a1 a2 a3 a4 a5 a6 a7 a8 a9
    rfl
  obtain ⟨u1, u2, u3, u4, u5⟩ := e5'
  exact ext _ _ (by rw [h1, h1', e0.1]) (by rw [h2, h2', e0.2.1]) ec.symm (by rw [h4, h4', k4]) u1 u2 (by rw [hn, hn', u3]) u4 u5

/-! ### tables -/

section
variable {D more : List (OneOrMany Rat)} {v v' : OneOrMany Rat}

/-- What the last line of a cut file and that line of the complete file have in common. -/
def CutLast (v v' : OneOrMany Rat) : Prop := ∀ a b, v = .many a → v' = .many b → a.length = b.length → CutRow a b

theorem front (i : Nat) (h : i < D.length) : (D ++ [v])[i]? = (D ++ v' :: more)[i]? := by
  rw [List.getElem?_append_left h, List.getElem?_append_left h]

theorem totalDos_inside (hv : CutLast v v') {n : Nat} (hn : 0 < n) {t t' : List Record} (h : totalDos (D ++ [v]) n = .ok t)
    (h' : totalDos (D ++ v' :: more) n = .ok t') : CutTable t t' := by
  obtain ⟨c, dt, rows, a1, a2, a3, a4, rfl⟩ := total_ok hn h
  obtain ⟨c', dt', rows', b1, b2, b3, b4, rfl⟩ := total_ok hn h'
  have hlen : n ≤ D.length + 1 := by
    have := congrArg List.length a2
    simp at this
    omega
  by_cases hc : n ≤ D.length
  · left
    rw [List.take_append_of_le_length hc] at a2 b2
    have : rows = rows' := by
      have e : rows.map OneOrMany.many = rows'.map OneOrMany.many := by rw [← a2, ← b2]
      exact List.map_injective_iff.2 (fun _ _ h => OneOrMany.many.inj h) e
    subst this
    have hcc : c = c' := by
      obtain ⟨r0, hr0⟩ : ∃ r, r ∈ rows := ⟨rows[0]'(by omega), List.getElem_mem _⟩
      rw [← a4 r0 hr0, ← b4 r0 hr0]
    subst hcc
    rw [a1] at b1; cases b1
    rfl
  · have hD : D.length = n - 1 := by omega
    rw [List.take_of_length_le (by simp; omega)] at a2
    have e' : (D ++ v' :: more).take n = D ++ [v'] := by
      rw [show D ++ v' :: more = (D ++ [v']) ++ more by simp, List.take_append_of_le_length (by simp; omega), List.take_of_length_le (by simp; omega)]
    rw [e'] at b2
    rcases List.eq_nil_or_concat rows with rfl | ⟨rs, a, rfl⟩
    · simp at a3; omega
    rcases List.eq_nil_or_concat rows' with rfl | ⟨rs', b, rfl⟩
    · simp at b3; omega
    rw [List.concat_eq_append, List.map_append, List.map_cons, List.map_nil] at a2 b2
    obtain ⟨a5, a6⟩ := List.append_inj' a2 rfl
    obtain ⟨b5, b6⟩ := List.append_inj' b2 rfl
    have : rs = rs' := by
      have e : rs.map OneOrMany.many = rs'.map OneOrMany.many := by rw [← a5, ← b5]
      exact List.map_injective_iff.2 (fun _ _ h => OneOrMany.many.inj h) e
    subst this
    simp only [List.concat_eq_append] at *
    by_cases hrs : rs = []
    · subst hrs
      exact .inr ⟨[], _, _, rfl, rfl, .inr rfl⟩
    · have hcc : c = c' := by
        obtain ⟨r0, rt, rfl⟩ := List.exists_cons_of_ne_nil hrs
        rw [← a4 r0 (by simp), ← b4 r0 (by simp)]
      subst hcc
      rw [a1] at b1; cases b1
      have hcut := hv a b (by simpa using a6) (by simpa using b6) (by rw [a4 a (by simp), b4 b (by simp)])
      rcases record_close (if c = 5 then 2 else 1) (dt.tail.map Prod.fst) hcut with e | e
      · left
        rw [List.map_append, List.map_append, List.map_cons, List.map_cons, e]
      · right
        exact ⟨_, _, _, by rw [List.map_append, List.map_cons, List.map_nil], by rw [List.map_append, List.map_cons, List.map_nil], .inl e⟩

theorem partialDos_inside (hv : CutLast v v') {nc : Bool} {header : List Rat} {n : Nat} {k : Int} {t t' : List (List Record)}
    (h : partialDos nc header (D ++ [v]) n k = .ok t) (h' : partialDos nc header (D ++ v' :: more) n k = .ok t') : CutPartial k t t' := by
  rcases partial_ok h with ⟨_, P⟩ | ⟨p, c, s, dt, m, p1, p2, p3, p4, p5, p6, p7, p8, p9, p10⟩
  · exact .inl P
  right
  have get0 : ∃ b0, t[0]? = some b0 := ⟨_, List.getElem?_eq_getElem (by omega)⟩
  obtain ⟨b0, g0⟩ := get0
  have l0 := (p10 0 b0 g0).1
  have f0 : b0[0]? = some b0[0] := List.getElem?_eq_getElem (by omega)
  obtain ⟨w, w1, w2, w3⟩ := (p10 0 b0 g0).2 0 _ f0
  simp only [Nat.zero_mul, Nat.add_zero] at w1
  have hp : p + 1 ≤ D.length := by
    have := (List.getElem?_eq_some_iff.1 w1).1
    simp at this; omega
  have inD : ∀ i b j r, t[i]? = some b → b[j]? = some r → p + 1 + i * (n + 1) + j ≤ D.length := by
    intro i b j r hb hr
    obtain ⟨row, r1, _⟩ := (p10 i b hb).2 j r hr
    have := (List.getElem?_eq_some_iff.1 r1).1
    simp at this; omega
  by_cases hone : p + 1 = D.length
  · left
    have hk : t.length = 1 := by
      by_contra hne
      have hb1 : t[1]? = some t[1] := List.getElem?_eq_getElem (by omega)
      have hl1 := (p10 1 _ hb1).1
      have := inD 1 _ 0 _ hb1 (List.getElem?_eq_getElem (by omega))
      omega
    have hm : b0.length = 1 := by
      by_contra hne
      have := inD 0 _ 1 _ g0 (List.getElem?_eq_getElem (by omega))
      omega
    refine ⟨by omega, ?_⟩
    obtain ⟨y, rfl⟩ := List.length_eq_one_iff.1 hk
    simp only [List.getElem?_cons_zero, Option.some.injEq] at g0
    subst g0
    obtain ⟨z, rfl⟩ := List.length_eq_one_iff.1 hm
    exact ⟨z, rfl⟩
  right
  have hp1 : (D ++ v' :: more)[p]? = some (.many header) := by rw [← front p (by omega)]; exact p1
  rcases partial_ok h' with ⟨P', _⟩ | ⟨p', c', s', dt', m', q1, q2, q3, q4, q5, q6, q7, q8, q9, q10⟩
  · exact absurd hp1 (P' p)
  have hpp : p' = p := by
    rcases Nat.lt_trichotomy p' p with hl | hl | hl
    · rw [← front p' (by omega)] at q1
      exact absurd q1 (p2 p' hl)
    · exact hl
    · exact absurd hp1 (q2 p hl)
  subst hpp
  have hlen : t.length = t'.length := by omega
  obtain ⟨b0', g0'⟩ : ∃ b, t'[0]? = some b := ⟨_, List.getElem?_eq_getElem (by omega)⟩
  have l0' := (q10 0 b0' g0').1
  have f0' : b0'[0]? = some b0'[0] := List.getElem?_eq_getElem (by omega)
  obtain ⟨w', w1', w2', _⟩ := (q10 0 b0' g0').2 0 _ f0'
  simp only [Nat.zero_mul, Nat.add_zero] at w1'
  rw [← front (p' + 1) (by omega), w1] at w1'
  have := OneOrMany.many.inj (Option.some.inj w1')
  subst this
  have hcc : c' = c := by rw [← w2, ← w2']
  subst hcc
  have hs : s' = s := by rw [p4] at q4; exact (Res.ok.inj q4).symm
  have hdt : dt' = dt := by rw [p5] at q5; exact (Res.ok.inj q5).symm
  subst hs hdt
  refine ⟨hlen, fun i b b' hb hb' => ⟨?_, ?_⟩⟩
  · have hbl := (p10 i b hb).1
    have hbl' := (q10 i b' hb').1
    rcases p8 with e | ⟨e1, e2⟩
    · left
      rcases q8 with f | ⟨f1, f2⟩
      · omega
      · have hx := inD 0 b0 (m - 1) _ g0 (List.getElem?_eq_getElem (by omega))
        simp at f2
        omega
    · right
      refine ⟨e1, ?_⟩
      simp at e2
      rcases q8 with f | ⟨f1, f2⟩
      · omega
      · simp at f2; omega
  · intro j r r' hr hr'
    have hin := inD i b j r hb hr
    obtain ⟨row, r1, r2, r3⟩ := (p10 i b hb).2 j r hr
    obtain ⟨row', r1', r2', r3'⟩ := (q10 i b' hb').2 j r' hr'
    by_cases hlt : p' + 1 + i * (n + 1) + j < D.length
    · rw [← front _ hlt, r1] at r1'
      have := OneOrMany.many.inj (Option.some.inj r1')
      subst this
      left; rw [r3, r3']
    · have he : p' + 1 + i * (n + 1) + j = D.length := by omega
      rw [he, List.getElem?_append_right (le_refl _)] at r1 r1'
      simp only [Nat.sub_self, List.getElem?_cons_zero, Option.some.injEq] at r1 r1'
      rcases record_close s' (dt'.tail.map Prod.fst) (hv row row' r1 r1' (by rw [r2, r2'])) with e | e
      · left; rw [r3, r3', e]
      · right
        refine ⟨by rw [r3, r3']; exact e, ?_, ?_⟩
        · by_contra hne
          have hi := (List.getElem?_eq_some_iff.1 hb).1
          have hbn : t[i + 1]? = some t[i + 1] := List.getElem?_eq_getElem (by omega)
          have hln := (p10 (i + 1) _ hbn).1
          have := inD (i + 1) _ 0 _ hbn (List.getElem?_eq_getElem (by omega))
          have hbl := (p10 i b hb).1
          have hj := (List.getElem?_eq_some_iff.1 hr).1
          have : (i + 1) * (n + 1) = i * (n + 1) + (n + 1) := by ring
          omega
        · by_contra hne
          have hj := (List.getElem?_eq_some_iff.1 hr).1
          have := inD i b (j + 1) _ hb (List.getElem?_eq_getElem (by omega))
          omega

end

/-- C93, proved part for cuts at any character: a DOSCAR cut off, if accepted, has the metadata of the complete file; its total density of states
agrees but for the last number read (with a single energy: but for that row), and its partial density of states is missing, a single row, or agrees
as well but for the last number, with all rows there if there are several ions. -/
theorem C93_inside_partial (nc : Bool) (p q : Str) (d d' : Data) (h : init none (some p) nc = .ok d)
    (h' : init none (some (p ++ q)) nc = .ok d') :
    d.metadata = d'.metadata ∧ CutTable d.dos d'.dos ∧ CutPartial d.metadata.nIons d.pdos d'.pdos := by
  rcases readlines_append p q with ⟨hp, -⟩ | ⟨A, l, r, B, -, h1, h2, h3⟩
  · obtain ⟨e1, e2, e3⟩ := C93_cut_partial nc p q hp d d' h h'
    refine ⟨e1, .inl e2, ?_⟩
    rcases e3 with e | e | ⟨e0, b, b', e4, e5, z, e6⟩
    · exact .inl e
    · right; right
      rw [e]
      refine ⟨rfl, fun i b b' hb hb' => ?_⟩
      rw [hb] at hb'; cases hb'
      refine ⟨.inl rfl, fun j r r' hr hr' => ?_⟩
      rw [hr] at hr'; cases hr'; exact .inl rfl
    · right; right
      rw [e4, e5]
      refine ⟨rfl, fun i c c' hc hc' => ?_⟩
      have hi : i = 0 := by
        have := (List.getElem?_eq_some_iff.1 hc).1
        simp at this; exact this
      subst hi
      simp only [List.getElem?_cons_zero, Option.some.injEq] at hc hc'
      subst hc hc'
      refine ⟨.inr ⟨e0, by rw [← e6]; simp⟩, fun j r r' hr hr' => ?_⟩
      rw [← e6, idx_prefix_ok z hr] at hr'
      cases hr'; exact .inl rfl
  · have hh : fromList nc (readlines p) = .ok d := h
    have hh' : fromList nc (readlines (p ++ q)) = .ok d' := h'
    rw [h2] at hh
    rw [h3] at hh'
    obtain ⟨x⟩ := fromList_ok hh
    obtain ⟨x'⟩ := fromList_ok hh'
    have hn := x.pos
    have h6 : 6 ≤ A.length := by
      by_contra hc
      have hd := x.hdata
      rw [List.drop_eq_nil_of_le (by simp; omega)] at hd
      have ht := x.total
      rw [← Res.ok.inj (show Res.ok [] = Res.ok x.data from hd)] at ht
      obtain ⟨_, _, rows, _, a2, a3, _⟩ := total_ok (by omega) ht
      simp at a2
      rw [a2] at a3
      simp at a3
      omega
    obtain ⟨hm, hhead, hnd, hions⟩ := header_agree x x' (fun i hi => by
      rw [List.getElem?_append_left (by omega), List.getElem?_append_left (by omega)])
    have hd := x.hdata
    have hd' := x'.hdata
    rw [List.drop_append_of_le_length h6] at hd hd'
    obtain ⟨D, y, u1, u2, u3⟩ := mapM'_append_ok hd
    obtain ⟨D', y', t1, t2, t3⟩ := mapM'_append_ok hd'
    rw [u1] at t1
    cases t1
    have hy : ∃ v, lineToType toFloat l = .ok v ∧ y = [v] := by
      rw [Res.mapM'_eq_ok] at u2
      cases u2 with
      | cons k1 k2 => cases k2; exact ⟨_, k1, rfl⟩
    have hy' : ∃ v more, lineToType toFloat (l ++ r) = .ok v ∧ y' = v :: more := by
      rw [Res.mapM'_eq_ok] at t2
      cases t2 with
      | cons k1 k2 => exact ⟨_, _, k1, rfl⟩
    obtain ⟨v, k1, rfl⟩ := hy
    obtain ⟨v', more, k1', rfl⟩ := hy'
    have hv : CutLast v v' := by
      rintro a b rfl rfl hl
      exact row_cut k1 k1' hl
    have ht := x.total
    have ht' := x'.total
    have hq := x.part
    have hq' := x'.part
    rw [u3] at ht hq
    rw [t3] at ht' hq'
    rw [← hnd] at ht' hq'
    rw [← hhead, ← hions] at hq'
    refine ⟨hm, totalDos_inside hv (by omega) ht ht', ?_⟩
    rw [x.hi]
    exact partialDos_inside hv hq hq'

/-- A file with two ions, cut inside the last number of the last row. -/
def insideFile : Str := c!"2 2 1 0\n0\n0\nCAR\nname\n 2 -1 2 5 1\n 1 2 3\n 2 3 4\n 2 -1 2 5 1\n 1 5 6 7\n 2 6 7 8\n 2 -1 2 5 1\n 1 5 6 7\n 2 6 7 8.2"

example : ∃ q d d', q = c!"5\n" ∧ init none (some insideFile) false = .ok d ∧ init none (some (insideFile ++ q)) false = .ok d' ∧
    d.pdos ≠ d'.pdos ∧ CutPartial d.metadata.nIons d.pdos d'.pdos ∧ CutTable d.dos d'.dos := by
  have hs : ∃ d d', init none (some insideFile) false = .ok d ∧ init none (some (insideFile ++ c!"5\n")) false = .ok d' ∧ d.pdos ≠ d'.pdos := by
    have : (match init none (some insideFile) false, init none (some (insideFile ++ c!"5\n")) false with
      | .ok d, .ok d' => decide (d.pdos ≠ d'.pdos) | _, _ => false) = true := by decide +kernel
    revert this
    generalize init none (some insideFile) false = e
    generalize init none (some (insideFile ++ c!"5\n")) false = e'
    cases e with
    | ok d =>
      cases e' with
      | ok d' => intro h; exact ⟨d, d', rfl, rfl, of_decide_eq_true h⟩
      | raise _ => intro h; cases h
      | exit _ => intro h; cases h
    | raise _ => intro h; cases h
    | exit _ => intro h; cases h
  obtain ⟨d, d', h, h', hne⟩ := hs
  obtain ⟨_, h2, h3⟩ := C93_inside_partial false insideFile c!"5\n" d d' h h'
  exact ⟨_, d, d', rfl, h, h', hne, h3, h2⟩

end Verif.Doscar
