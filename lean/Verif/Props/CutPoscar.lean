import Verif.Props.PoscarRound
import Verif.Lemmas.Cut
/-! # POSCAR files cut off (C97) -/
set_option autoImplicit false
namespace Verif
/-- A text can be cut behind any number of its lines. -/
theorem cut_lines : ∀ (k : Nat) (t : Str), k ≤ (readlines t).length →
    ∃ p q, t = p ++ q ∧ readlines p = (readlines t).take k ∧ readlines q = (readlines t).drop k
  | 0, t, _ => ⟨[], t, rfl, rfl, rfl⟩
  | k + 1, t, h => by
    by_cases hm : '\n' ∈ t
    · obtain ⟨a, b, rfl, ha⟩ := List.eq_append_cons_of_mem hm
      rw [readlines_line_append _ ha] at h ⊢
      obtain ⟨p, q, rfl, h1, h2⟩ := cut_lines k b (by simpa using h)
      refine ⟨a ++ '\n' :: p, q, by simp, ?_, ?_⟩
      · rw [readlines_line_append _ ha, h1, List.take_succ_cons]
      · rw [h2, List.drop_succ_cons]
    · cases t with
      | nil => simp [readlines] at h
      | cons x xs =>
        rw [readlines_noeol hm (by simp)] at h ⊢
        have : k = 0 := by simpa using h
        subst this
        exact ⟨x :: xs, [], by simp, readlines_noeol hm (by simp), rfl⟩
end Verif

namespace Verif.Poscar
open Verif Verif.Utils Verif.Lattice
open Verif.Kpoints (idx toFloat toInt)

theorem idx_mono {α : Type} {l m : List α} {i : Nat} {a : α} (h : idx l i = .ok a) : idx (l ++ m) i = .ok a :=
  idx_ok.2 (idx_prefix_ok m (idx_ok.1 h))

theorem idx_down {α : Type} {l m : List α} {i : Nat} (h : i < l.length) : idx (l ++ m) i = idx l i := by
  unfold idx; rw [List.getElem?_append_left h]

theorem readHeader_mono {A B : List Str} {h : Header} (e : readHeader A = .ok h) : readHeader (A ++ B) = .ok h := by
  unfold readHeader at e ⊢
  obtain ⟨l0, h0, e⟩ := Res.bind_eq_ok.1 e
  obtain ⟨l5, h5, e⟩ := Res.bind_eq_ok.1 e
  obtain ⟨l1, h1, e⟩ := Res.bind_eq_ok.1 e
  obtain ⟨w, hw, e⟩ := Res.bind_eq_ok.1 e
  obtain ⟨sc, hsc, e⟩ := Res.bind_eq_ok.1 e
  simp only [idx_mono h0, idx_mono h5, idx_mono h1, hw, hsc, Res.ok_bind]
  split at e
  · cases e
  rename_i c1
  split at e
  · cases e
  rename_i c2
  rw [if_neg c1, if_neg c2]
  obtain ⟨l2, h2, e⟩ := Res.bind_eq_ok.1 e
  obtain ⟨a, ha, e⟩ := Res.bind_eq_ok.1 e
  obtain ⟨l3, h3, e⟩ := Res.bind_eq_ok.1 e
  obtain ⟨b, hb, e⟩ := Res.bind_eq_ok.1 e
  obtain ⟨l4, h4, e⟩ := Res.bind_eq_ok.1 e
  obtain ⟨c, hc, e⟩ := Res.bind_eq_ok.1 e
  obtain ⟨cell, hcell, e⟩ := Res.bind_eq_ok.1 e
  obtain ⟨l6, h6, e⟩ := Res.bind_eq_ok.1 e
  obtain ⟨atoms, hatoms, e⟩ := Res.bind_eq_ok.1 e
  obtain ⟨l7, h7, e⟩ := Res.bind_eq_ok.1 e
  obtain ⟨c7, hc7, e⟩ := Res.bind_eq_ok.1 e
  simp only [idx_mono h2, ha, idx_mono h3, hb, idx_mono h4, hc, hcell, idx_mono h6, hatoms, idx_mono h7, hc7, Res.ok_bind]
  dsimp only at e
  split at e
  · rename_i c3
    obtain ⟨l8, h8, e⟩ := Res.bind_eq_ok.1 e
    obtain ⟨c8, hc8, e⟩ := Res.bind_eq_ok.1 e
    rw [if_pos c3, idx_mono h8, Res.ok_bind, hc8, Res.ok_bind]
    exact e
  · rename_i c3
    rw [if_neg c3]
    exact e

theorem readHeader_loopmax {A : List Str} {h : Header} (e : readHeader A = .ok h) : 8 ≤ h.loopmax ∧ h.loopmax ≤ A.length := by
  unfold readHeader at e
  obtain ⟨l0, h0, e⟩ := Res.bind_eq_ok.1 e
  obtain ⟨l5, h5, e⟩ := Res.bind_eq_ok.1 e
  obtain ⟨l1, h1, e⟩ := Res.bind_eq_ok.1 e
  obtain ⟨w, hw, e⟩ := Res.bind_eq_ok.1 e
  obtain ⟨sc, hsc, e⟩ := Res.bind_eq_ok.1 e
  split at e
  · cases e
  split at e
  · cases e
  obtain ⟨l2, h2, e⟩ := Res.bind_eq_ok.1 e
  obtain ⟨a, ha, e⟩ := Res.bind_eq_ok.1 e
  obtain ⟨l3, h3, e⟩ := Res.bind_eq_ok.1 e
  obtain ⟨b, hb, e⟩ := Res.bind_eq_ok.1 e
  obtain ⟨l4, h4, e⟩ := Res.bind_eq_ok.1 e
  obtain ⟨c, hc, e⟩ := Res.bind_eq_ok.1 e
  obtain ⟨cell, hcell, e⟩ := Res.bind_eq_ok.1 e
  obtain ⟨l6, h6, e⟩ := Res.bind_eq_ok.1 e
  obtain ⟨atoms, hatoms, e⟩ := Res.bind_eq_ok.1 e
  obtain ⟨l7, h7, e⟩ := Res.bind_eq_ok.1 e
  obtain ⟨c7, hc7, e⟩ := Res.bind_eq_ok.1 e
  have len : ∀ (i : Nat) (l : Str), idx A i = .ok l → i < A.length := by
    intro i l hi
    by_contra hc
    have := idx_ok.1 hi
    rw [List.getElem?_eq_none (by omega)] at this
    cases this
  dsimp only at e
  split at e
  · obtain ⟨l8, h8, e⟩ := Res.bind_eq_ok.1 e
    obtain ⟨c8, hc8, e⟩ := Res.bind_eq_ok.1 e
    cases e
    exact ⟨show 8 ≤ 9 by omega, len 8 _ h8⟩
  · cases e
    exact ⟨show 8 ≤ 8 by omega, len 7 _ h7⟩

theorem readHeader_down {A B : List Str} {h : Header} (e : readHeader (A ++ B) = .ok h) (hl : h.loopmax ≤ A.length) : readHeader A = .ok h := by
  have h8 := (readHeader_loopmax e).1
  have d : ∀ i : Nat, i < 8 → idx (A ++ B) i = idx A i := fun i hi => idx_down (by omega)
  have e' := e
  unfold readHeader at e ⊢
  rw [d 0 (by omega), d 1 (by omega), d 2 (by omega), d 3 (by omega), d 4 (by omega), d 5 (by omega), d 6 (by omega), d 7 (by omega)] at e
  by_cases h9 : 8 < A.length
  · rw [idx_down h9] at e
    exact e
  · have hlen : A.length = 8 := by omega
    obtain ⟨l0, h0, e⟩ := Res.bind_eq_ok.1 e
    obtain ⟨l5, h5, e⟩ := Res.bind_eq_ok.1 e
    obtain ⟨l1, h1, e⟩ := Res.bind_eq_ok.1 e
    obtain ⟨w, hw, e⟩ := Res.bind_eq_ok.1 e
    obtain ⟨sc, hsc, e⟩ := Res.bind_eq_ok.1 e
    simp only [h0, h5, h1, hw, hsc, Res.ok_bind]
    split at e
    · cases e
    rename_i c1
    split at e
    · cases e
    rename_i c2
    rw [if_neg c1, if_neg c2]
    obtain ⟨l2, h2, e⟩ := Res.bind_eq_ok.1 e
    obtain ⟨a, ha, e⟩ := Res.bind_eq_ok.1 e
    obtain ⟨l3, h3, e⟩ := Res.bind_eq_ok.1 e
    obtain ⟨b, hb, e⟩ := Res.bind_eq_ok.1 e
    obtain ⟨l4, h4, e⟩ := Res.bind_eq_ok.1 e
    obtain ⟨c, hc, e⟩ := Res.bind_eq_ok.1 e
    obtain ⟨cell, hcell, e⟩ := Res.bind_eq_ok.1 e
    obtain ⟨l6, h6, e⟩ := Res.bind_eq_ok.1 e
    obtain ⟨atoms, hatoms, e⟩ := Res.bind_eq_ok.1 e
    obtain ⟨l7, h7, e⟩ := Res.bind_eq_ok.1 e
    obtain ⟨c7, hc7, e⟩ := Res.bind_eq_ok.1 e
    simp only [h2, ha, h3, hb, h4, hc, hcell, h6, hatoms, h7, hc7, Res.ok_bind]
    dsimp only at e
    split at e
    · obtain ⟨l8, h8', e⟩ := Res.bind_eq_ok.1 e
      obtain ⟨c8, hc8, e⟩ := Res.bind_eq_ok.1 e
      cases e
      exact absurd hl (by simp; omega)
    · rename_i c3
      rw [if_neg c3]
      exact e

theorem readSites_mono {h : Header} {A B : List Str} {n i slot : Nat} {index : Int} {raws : List Raw}
    (e : readSites h A n i slot index = .ok raws) : readSites h (A ++ B) n i slot index = .ok raws := by
  induction n generalizing i slot index raws with
  | zero => exact e
  | succ n ih =>
    unfold readSites at e ⊢
    simp only [Res.bind_eq_ok] at e
    obtain ⟨a, ha, s, hs, line, hl, v, hv, f, hf, rest, hr, heq⟩ := e
    simp only [ha, Res.ok_bind, hs, idx_mono hl, hv, hf, ih hr]
    exact heq

theorem readSites_down {h : Header} {A B : List Str} {n i slot : Nat} {index : Int} (hl : i + n + h.loopmax ≤ A.length) :
    readSites h (A ++ B) n i slot index = readSites h A n i slot index := by
  induction n generalizing i slot index with
  | zero => rfl
  | succ n ih =>
    unfold readSites
    rw [idx_down (show i + h.loopmax < A.length by omega)]
    have := fun slot index => ih (i := i + 1) (slot := slot) (index := index) (by omega)
    simp only [this]

theorem readVecs_mono {A B : List Str} {p n : Nat} {conv : Vec → Res Vec} {vs : List Vec} (e : readVecs A p n conv = .ok vs) :
    readVecs (A ++ B) p n conv = .ok vs := by
  unfold readVecs at e ⊢
  rw [Res.mapM'_eq_ok] at e ⊢
  refine e.imp fun i v hv => ?_
  obtain ⟨l, hl, hv⟩ := Res.bind_eq_ok.1 hv
  rw [idx_mono hl, Res.ok_bind]
  exact hv

theorem readPredAfter_mono {A B : List Str} {p n : Nat} {vs : List Vec} (e : readPredAfter A p n = .ok (some vs)) :
    readPredAfter (A ++ B) p n = .ok (some vs) := by
  unfold readPredAfter at e ⊢
  split at e
  · rename_i hlt
    rw [if_pos (by rw [List.length_append]; omega)]
    obtain ⟨l, hl, e⟩ := Res.bind_eq_ok.1 e
    rw [idx_mono hl, Res.ok_bind]
    split at e
    · rename_i hb
      rw [if_pos hb]
      obtain ⟨l', hl', e⟩ := Res.bind_eq_ok.1 e
      obtain ⟨w, hw, e⟩ := Res.bind_eq_ok.1 e
      rw [idx_mono hl', Res.ok_bind, hw, Res.ok_bind]
      split at e
      · rename_i hn
        rw [if_pos hn]
        obtain ⟨v, hv, e⟩ := Res.bind_eq_ok.1 e
        rw [readVecs_mono hv, Res.ok_bind]
        exact e
      · cases e
    · cases e
  · cases e

theorem readTail_mono {A B : List Str} {p0 : Nat} {t t' : Bool × Bool × Bool} (e : readTail A p0 = .ok t) (e' : readTail (A ++ B) p0 = .ok t') :
    (t.1 = true → t'.1 = true ∧ t'.2.1 = t.2.1) ∧ (t.1 = false → t.2.2 = true → t' = t) ∧ (p0 < A.length → t'.1 = t.1) := by
  unfold readTail at e e'
  obtain ⟨u, hu, e⟩ := Res.bind_eq_ok.1 e
  obtain ⟨u', hu', e'⟩ := Res.bind_eq_ok.1 e'
  have hu2 : p0 < A.length → u' = u := by
    intro hlt
    rw [if_pos hlt] at hu
    rw [if_pos (by rw [List.length_append]; omega), idx_down hlt, hu] at hu'
    exact (Res.ok.inj hu').symm
  have ht : ∀ {L : List Str} {u t : Bool × Bool × Bool}, (if p0 + 1 < L.length then
      idx L (p0 + 1) >>= fun l => idx (words l) 0 >>= fun w => if isNumber w then Res.ok u else .exit 302
      else .ok (u.1, u.2.1, false)) = .ok t → t.1 = u.1 ∧ t.2.1 = u.2.1 ∧ (p0 + 1 < L.length → t = u) ∧ (¬ p0 + 1 < L.length → t.2.2 = false) := by
    intro L u t h
    split at h
    · rename_i hlt
      obtain ⟨l, _, h⟩ := Res.bind_eq_ok.1 h
      obtain ⟨w, _, h⟩ := Res.bind_eq_ok.1 h
      split at h
      · cases h; exact ⟨rfl, rfl, fun _ => rfl, fun h => absurd hlt h⟩
      · cases h
    · rename_i hlt
      cases h; exact ⟨rfl, rfl, fun h => absurd h hlt, fun _ => rfl⟩
  obtain ⟨a1, a2, a3, a4⟩ := ht e
  obtain ⟨b1, b2, b3, b4⟩ := ht e'
  have hnot : ¬ p0 < A.length → u = (false, false, false) := by
    intro hc
    rw [if_neg hc] at hu
    exact (Res.ok.inj hu).symm
  refine ⟨?_, ?_, ?_⟩
  · intro h1
    by_cases hlt : p0 < A.length
    · have := hu2 hlt
      subst this
      exact ⟨by rw [b1, ← a1, h1], by rw [b2, a2]⟩
    · rw [a1, hnot hlt] at h1; cases h1
  · intro h1 h2
    by_cases hlt : p0 + 1 < A.length
    · have := hu2 (by omega)
      subst this
      rw [a3 hlt, b3 (by rw [List.length_append]; omega)]
    · rw [a4 hlt] at h2; cases h2
  · intro hlt
    rw [b1, hu2 hlt, a1]

/-- A site without predictors. -/
def Site.withoutPredictors (s : Site) : Site := { s with predictors := none }
/-- A site without velocities and predictors. -/
def Site.withoutMotion (s : Site) : Site := { s with velocities := none, predictors := none }

theorem assemble_withoutMotion (raws : List Raw) (v q : Option (List Vec)) : (assemble raws v q).map Site.withoutMotion = assemble raws none none := by
  unfold assemble
  rw [List.map_map]
  rfl

theorem assemble_withoutPredictors (raws : List Raw) (v q : Option (List Vec)) : (assemble raws v q).map Site.withoutPredictors = assemble raws v none := by
  unfold assemble
  rw [List.map_map]
  rfl

/-- All parts of a successful parse. -/
theorem parse_parts {lines : List Str} {p : Parsed} (h : parse lines = .ok p) :
    ∃ hd raws t v q, readHeader lines = .ok hd ∧ 0 ≤ hd.atoms.sum ∧ readSites hd lines hd.atoms.sum.toNat 0 0 1 = .ok raws ∧
      readTail lines (hd.atoms.sum.toNat + hd.loopmax) = .ok t ∧ p = ⟨hd.comment, hd.cell, assemble raws v q⟩ ∧
      ((t.1 = true ∧ (∃ vs, v = some vs ∧ readVecs lines (hd.atoms.sum.toNat + hd.loopmax + 1) hd.atoms.sum.toNat
          (fun v => if hd.direct && !t.2.1 then .ok v else toDirect v hd.cell) = .ok vs) ∧
          readPredAfter lines (hd.atoms.sum.toNat + (hd.atoms.sum.toNat + hd.loopmax + 1)) hd.atoms.sum.toNat = .ok q) ∨
        (t.1 = false ∧ t.2.2 = true ∧ v = none ∧
          ∃ qs, q = some qs ∧ readVecs lines (hd.atoms.sum.toNat + hd.loopmax + 1) hd.atoms.sum.toNat .ok = .ok qs) ∨
        (t.1 = false ∧ t.2.2 = false ∧ v = none ∧ q = none)) := by
  unfold parse at h
  obtain ⟨hd, hhd, h⟩ := Res.bind_eq_ok.1 h
  dsimp only at h
  by_cases hneg : hd.atoms.sum < 0
  · rw [if_pos hneg] at h; cases h
  · rw [if_neg hneg] at h
    obtain ⟨raws, hraws, h⟩ := Res.bind_eq_ok.1 h
    obtain ⟨t, ht, h⟩ := Res.bind_eq_ok.1 h
    split at h
    · rename_i c1
      obtain ⟨vels, h1, h⟩ := Res.bind_eq_ok.1 h
      obtain ⟨preds, h2, h⟩ := Res.bind_eq_ok.1 h
      cases h
      exact ⟨hd, raws, t, _, _, hhd, by omega, hraws, ht, rfl, .inl ⟨c1, ⟨vels, rfl, h1⟩, h2⟩⟩
    · rename_i c1
      split at h
      · rename_i c2
        obtain ⟨preds, h1, h⟩ := Res.bind_eq_ok.1 h
        cases h
        exact ⟨hd, raws, t, _, _, hhd, by omega, hraws, ht, rfl, .inr (.inl ⟨by simpa using c1, c2, rfl, preds, rfl, h1⟩)⟩
      · rename_i c2
        cases h
        exact ⟨hd, raws, t, _, _, hhd, by omega, hraws, ht, rfl, .inr (.inr ⟨by simpa using c1, by simpa using c2, rfl, rfl⟩)⟩

theorem parse_cut {A B : List Str} {P P' : Parsed} (h : parse A = .ok P) (h' : parse (A ++ B) = .ok P') :
    P.comment = P'.comment ∧ P.cell = P'.cell ∧
    (P.sites = P'.sites ∨ P.sites = P'.sites.map Site.withoutPredictors ∨ P.sites = P'.sites.map Site.withoutMotion) := by
  obtain ⟨hd, raws, t, v, q, a1, a2, a3, a4, rfl, a5⟩ := parse_parts h
  obtain ⟨hd', raws', t', v', q', b1, b2, b3, b4, rfl, b5⟩ := parse_parts h'
  rw [readHeader_mono a1] at b1
  cases Res.ok.inj b1
  rw [readSites_mono a3] at b3
  cases Res.ok.inj b3
  refine ⟨rfl, rfl, ?_⟩
  simp only
  obtain ⟨m1, m2, _⟩ := readTail_mono a4 b4
  rcases a5 with ⟨c1, ⟨vs, rfl, c2⟩, c3⟩ | ⟨c1, c2, rfl, qs, rfl, c3⟩ | ⟨_, _, rfl, rfl⟩
  · obtain ⟨k1, k2⟩ := m1 c1
    rcases b5 with ⟨d1, ⟨vs', rfl, d2⟩, d3⟩ | ⟨d1, _⟩ | ⟨d1, _⟩
    · rw [k2, readVecs_mono c2] at d2
      cases Res.ok.inj d2
      cases q with
      | some qs =>
        rw [readPredAfter_mono c3] at d3
        cases Res.ok.inj d3
        exact .inl rfl
      | none => exact .inr (.inl (assemble_withoutPredictors _ _ _).symm)
    · rw [k1] at d1; cases d1
    · rw [k1] at d1; cases d1
  · have := m2 c1 c2
    subst this
    rcases b5 with ⟨d1, _⟩ | ⟨_, _, rfl, qs', rfl, d3⟩ | ⟨_, d2, _⟩
    · rw [c1] at d1; cases d1
    · rw [readVecs_mono c3] at d3
      cases Res.ok.inj d3
      exact .inl rfl
    · rw [c2] at d2; cases d2
  · exact .inr (.inr (assemble_withoutMotion _ _ _).symm)

/-- The entries of an object read from a file. -/
def fileEntries (comment : Str) (cell : Cell) (sites : List Site) : Entries :=
  [(c!"comment", .str comment), (c!"unitcell", .cell (some cell)), (c!"sites", .sites (sites.map .site))]

theorem init_handler (t : Str) (e : Entries) : init { handler := some t } = .ok e ↔
    ∃ P c, parse (readlines t) = .ok P ∧ P.cell = some c ∧ e = fileEntries P.comment c P.sites := by
  have hi : init { handler := some t } = (fromList (readlines t) >>= fun d => fromDict d >>= fun e => validate e >>= fun _ => .ok e) := by
    unfold init load fromFile
    simp [guards]
  have hdir : ∀ P, parse (readlines t) = .ok P → ∀ s ∈ P.sites, s.direct = true := by
    intro P hP s hs
    obtain ⟨_, _, _, _, _, _, _, _, _, rfl, _⟩ := parse_parts hP
    unfold assemble at hs
    obtain ⟨x, _, rfl⟩ := List.mem_map.1 hs
    rfl
  have hfd : ∀ P, parse (readlines t) = .ok P → fromDict P.toEntries = .ok P.toEntries := fun P hP =>
    fromDict_direct ⟨rfl, hdir P hP⟩ rfl
  rw [hi]
  constructor
  · intro h
    unfold fromList at h
    obtain ⟨d, hd, h⟩ := Res.bind_eq_ok.1 h
    obtain ⟨P, hP, hd⟩ := Res.bind_eq_ok.1 hd
    cases hd
    rw [hfd P hP, Res.ok_bind] at h
    obtain ⟨_, hv, h⟩ := Res.bind_eq_ok.1 h
    cases h
    cases hc : P.cell with
    | some c => exact ⟨P, c, hP, hc, by rw [fileEntries, ← hc]; rfl⟩
    | none =>
      exfalso
      unfold validate at hv
      obtain ⟨_, _, hv⟩ := Res.bind_eq_ok.1 hv
      obtain ⟨_, hv, _⟩ := Res.bind_eq_ok.1 hv
      have : checkCell P.toEntries .none = .exit 13 := by
        unfold checkCell argOr lookup
        simp only [if_true]
        rw [show P.toEntries.get? c!"unitcell" = some (.cell P.cell) from rfl, hc]
        rfl
      rw [this] at hv
      cases hv
  · rintro ⟨P, c, hP, hc, rfl⟩
    have e1 : fileEntries P.comment c P.sites = P.toEntries := by rw [fileEntries, ← hc]; rfl
    rw [e1]
    unfold fromList
    rw [hP]
    simp only [Res.ok_bind]
    rw [hfd P hP, Res.ok_bind, validate_holds (holds_toEntries P c hc (hdir P hP)), Res.ok_bind]

/-- C97, proved part: a POSCAR cut at the end of a line, if accepted, has the comment, the cell and all sites of the complete file with their
species, positions and flags; the velocities and predictors are those of the complete file, or the predictors, or both, are missing. Missing in
the full claim: that a cut file is refused, which is false for velocities and predictors (`C97_violation_velocities`), and cuts inside a line
(`C97_violation_digit`). -/
theorem C97_cut_partial (p q : Str) (hp : LineEnd p) (e e' : Entries) (h : init { handler := some p } = .ok e)
    (h' : init { handler := some (p ++ q) } = .ok e') :
    ∃ comment cell sites sites', e = fileEntries comment cell sites ∧ e' = fileEntries comment cell sites' ∧
      (sites = sites' ∨ sites = sites'.map Site.withoutPredictors ∨ sites = sites'.map Site.withoutMotion) := by
  obtain ⟨P, c, h1, h2, rfl⟩ := (init_handler p e).1 h
  obtain ⟨P', c', h1', h2', rfl⟩ := (init_handler _ e').1 h'
  rw [readlines_lineEnd hp] at h1'
  obtain ⟨k1, k2, k3⟩ := parse_cut h1 h1'
  rw [h2, h2'] at k2
  cases Option.some.inj k2
  exact ⟨P.comment, c, P.sites, P'.sites, rfl, by rw [k1], k3⟩

/-- C97 is false of every POSCAR with velocities or predictors: cut behind the positions it is accepted, without them. -/
theorem C97_violation_velocities (text comment : Str) (cell : Cell) (sites : List Site)
    (h : init { handler := some text } = .ok (fileEntries comment cell sites)) :
    ∃ p q, text = p ++ q ∧ init { handler := some p } = .ok (fileEntries comment cell (sites.map Site.withoutMotion)) := by
  obtain ⟨P, c, h1, h2, h3⟩ := (init_handler _ _).1 h
  obtain ⟨rfl, rfl, rfl⟩ : comment = P.comment ∧ cell = c ∧ sites = P.sites := by
    unfold fileEntries at h3
    simp only [List.cons.injEq, Prod.mk.injEq, true_and, and_true, Val.str.injEq, Val.cell.injEq, Option.some.injEq, Val.sites.injEq] at h3
    refine ⟨h3.1, h3.2.1, ?_⟩
    have hinj : Function.Injective Elem.site := fun a b h => by cases h; rfl
    exact List.map_injective_iff.2 hinj h3.2.2
  obtain ⟨hd, raws, t, v, w, a1, a2, a3, a4, a5, _⟩ := parse_parts h1
  have hlen : hd.atoms.sum.toNat + hd.loopmax ≤ (readlines text).length := by
    cases hn : hd.atoms.sum.toNat with
    | zero => rw [Nat.zero_add]; exact (readHeader_loopmax a1).2
    | succ n =>
      have hl := readSites_length _ _ _ _ _ _ _ a3
      obtain ⟨line, hline, _⟩ := readSites_lines _ _ _ _ _ _ _ a3 n _ (List.getElem?_eq_getElem (by omega))
      by_contra hc
      rw [List.getElem?_eq_none (by omega)] at hline
      cases hline
  obtain ⟨p, q, rfl, r1, r2⟩ := cut_lines _ _ hlen
  refine ⟨p, q, rfl, (init_handler _ _).2 ⟨⟨P.comment, P.cell, P.sites.map Site.withoutMotion⟩, _, ?_, h2, rfl⟩⟩
  have hsplit : readlines (p ++ q) = readlines p ++ readlines q := by rw [r1, r2, List.take_append_drop]
  have hl : (readlines p).length = hd.atoms.sum.toNat + hd.loopmax := by rw [r1, List.length_take]; omega
  rw [hsplit] at a1 a3
  have k1 := readHeader_down a1 (by omega)
  rw [readSites_down (by omega)] at a3
  unfold parse
  rw [k1, Res.ok_bind]
  simp only
  rw [if_neg (by omega), a3, Res.ok_bind]
  have k2 : readTail (readlines p) (hd.atoms.sum.toNat + hd.loopmax) = .ok (false, false, false) := by
    unfold readTail
    rw [if_neg (by omega), Res.ok_bind, if_neg (by omega)]
  rw [k2, Res.ok_bind]
  simp only [Bool.false_eq_true, if_false]
  rw [a5]
  simp only
  rw [assemble_withoutMotion]

/-- The number of the sites of an object, with velocities and positions. -/
def shownSites (r : Res Entries) : Option (List (Vec × Option Vec)) :=
  match r with
  | .ok e => match e.get? c!"sites" with
    | some (.sites l) => some (l.filterMap fun x => match x with | .site s => some (s.position, s.velocities) | _ => none)
    | _ => none
  | _ => none

/-- A POSCAR with velocities. -/
def cutExample : Str := c!"two\n1.0\n 1 0 0\n 0 1 0\n 0 0 1\nH\n1\nDirect\n 0.25 0.5 0.75\nDirect\n 0.1 0.2 0.3\n"

/-- A cut inside the last number of the positions is accepted; the atom stands elsewhere. -/
theorem C97_violation_digit : ∃ p q : Str, p ++ q = cutExample ∧ shownSites (init { handler := some p }) = some [(⟨1/4, 1/2, 0⟩, none)] ∧
    shownSites (init { handler := some (p ++ q) }) = some [(⟨1/4, 1/2, 3/4⟩, some ⟨1/10, 1/5, 3/10⟩)] :=
  ⟨c!"two\n1.0\n 1 0 0\n 0 1 0\n 0 0 1\nH\n1\nDirect\n 0.25 0.5 0", c!".75\nDirect\n 0.1 0.2 0.3\n", by decide +kernel, by decide +kernel, by decide +kernel⟩

/-- Both files of `C97_cut_partial` can be accepted, with velocities missing. -/
example : ∃ p q : Str, p ++ q = cutExample ∧ LineEnd p ∧ shownSites (init { handler := some p }) = some [(⟨1/4, 1/2, 3/4⟩, none)] ∧
    shownSites (init { handler := some (p ++ q) }) = some [(⟨1/4, 1/2, 3/4⟩, some ⟨1/10, 1/5, 3/10⟩)] :=
  ⟨c!"two\n1.0\n 1 0 0\n 0 1 0\n 0 0 1\nH\n1\nDirect\n 0.25 0.5 0.75\n", c!"Direct\n 0.1 0.2 0.3\n", by decide +kernel, .inr (by decide +kernel), by decide +kernel, by decide +kernel⟩

end Verif.Poscar
