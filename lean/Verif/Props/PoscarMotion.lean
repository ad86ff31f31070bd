import Verif.Props.PoscarCell
/-! # The velocities and predictors of a POSCAR file (C122) -/
set_option autoImplicit false
namespace Verif.Poscar
open Verif Verif.Utils Verif.Lattice
open Verif.Kpoints (idx toFloat toInt pyIndex)

/-! ### specification -/

/-- The first position line. -/
def firstSite (sel : Bool) : Nat := if sel then 9 else 8

/-- Specification: line `i` starts with the numbers `v.x`, `v.y`, `v.z`. -/
def VectorAt (lines : List Str) (i : Nat) (v : Vec) : Prop :=
  ∃ line, lines[i]? = some line ∧ WordIs line 0 v.x ∧ WordIs line 1 v.y ∧ WordIs line 2 v.z

/-- Specification: line `i` exists and starts with one of two letters. -/
def StartsWith (lines : List Str) (i : Nat) (a b : Char) : Prop := ∃ line c, lines[i]? = some line ∧ line[0]? = some c ∧ (c = a ∨ c = b)

/-- Specification: line `i` exists and consists of blanks only. -/
def BlankAt (lines : List Str) (i : Nat) : Prop := ∃ line, lines[i]? = some line ∧ ∃ k m : Nat, line = List.replicate k ' ' ++ '\n' :: List.replicate m ' '

/-! ### lemmas -/

theorem filter_spaces_nil : ∀ l : Str, l.filter (· != ' ') = [] → l = List.replicate l.length ' '
  | [], _ => rfl
  | c :: cs, h => by
    by_cases hc : c = ' '
    · subst hc
      rw [List.filter_cons_of_neg (by decide)] at h
      rw [List.length_cons, List.replicate_succ, ← filter_spaces_nil cs h]
    · rw [List.filter_cons_of_pos (by simpa using hc)] at h; cases h

theorem filter_replicate (k : Nat) : (List.replicate k ' ').filter (· != ' ') = [] := by
  rw [List.filter_eq_nil_iff]
  intro c hc
  rw [(List.mem_replicate.1 hc).2]
  decide

theorem isBlank_iff (l : Str) : isBlank l = true ↔ ∃ k m : Nat, l = List.replicate k ' ' ++ '\n' :: List.replicate m ' ' := by
  unfold isBlank
  rw [beq_iff_eq]
  constructor
  · intro h
    induction l with
    | nil => cases h
    | cons c cs ih =>
      by_cases hc : c = ' '
      · subst hc
        rw [List.filter_cons_of_neg (by decide)] at h
        obtain ⟨k, m, e⟩ := ih h
        exact ⟨k + 1, m, by rw [List.replicate_succ, e]; rfl⟩
      · rw [List.filter_cons_of_pos (by simpa using hc)] at h
        injection h with h1 h2
        subst h1
        exact ⟨0, cs.length, by rw [← filter_spaces_nil cs h2]; rfl⟩
  · rintro ⟨k, m, rfl⟩
    rw [List.filter_append, filter_replicate, List.filter_cons_of_pos (by decide), filter_replicate]
    rfl

theorem readVecs_at {lines : List Str} {p n : Nat} {conv : Vec → Res Vec} {vs : List Vec} (h : readVecs lines p n conv = .ok vs) :
    vs.length = n ∧ ∀ (k : Nat) (v : Vec), vs[k]? = some v → ∃ u, VectorAt lines (p + k) u ∧ conv u = .ok v := by
  unfold readVecs at h
  rw [Res.mapM'_eq_ok] at h
  refine ⟨by simpa using h.length_eq.symm, fun k v hk => ?_⟩
  have hkn : k < (List.range n).length := by
    rw [h.length_eq]; exact (List.getElem?_eq_some_iff.1 hk).1
  have := h.get hkn (by rw [← h.length_eq]; exact hkn)
  obtain ⟨hk1, hk2⟩ := List.getElem?_eq_some_iff.1 hk
  simp only [List.get_eq_getElem, List.getElem_range] at this
  rw [hk2] at this
  obtain ⟨l, hl, this⟩ := Res.bind_eq_ok.1 this
  obtain ⟨u, hu, hc⟩ := Res.bind_eq_ok.1 this
  obtain ⟨u1, u2, u3⟩ := readVec_ok.1 hu
  exact ⟨u, ⟨l, by rw [Nat.add_comm]; exact idx_ok.1 hl, u1, u2, u3⟩, hc⟩

theorem lowerC_c (c : Char) : lowerC c = 'c' ↔ c = 'c' ∨ c = 'C' := by
  constructor
  · intro h
    have h1 := congrArg Char.toNat h
    rw [lowerC_toNat] at h1
    have h2 : ('c' : Char).toNat = 99 := rfl
    rw [h2] at h1
    have h3 : c.toNat = 99 ∨ c.toNat = 67 := by split at h1 <;> omega
    rcases h3 with h3 | h3
    · left; exact Char.toNat_inj.1 h3
    · right; exact Char.toNat_inj.1 h3
  · rintro (rfl | rfl) <;> decide

/-- What the tail says. -/
theorem readTail_says {lines : List Str} {p : Nat} {t : Bool × Bool × Bool} (h : readTail lines p = .ok t) :
    (t.1 = true ↔ StartsWith lines p 'd' 'D' ∨ StartsWith lines p 'c' 'C') ∧ (t.2.1 = true ↔ StartsWith lines p 'c' 'C') ∧
    (t.2.2 = true ↔ BlankAt lines p ∧ p + 1 < lines.length) := by
  unfold readTail at h
  obtain ⟨t', h1, h⟩ := Res.bind_eq_ok.1 h
  have hrel : t.1 = t'.1 ∧ t.2.1 = t'.2.1 ∧ (t.2.2 = true ↔ t'.2.2 = true ∧ p + 1 < lines.length) := by
    split at h
    · rename_i hlt
      obtain ⟨l, _, h⟩ := Res.bind_eq_ok.1 h
      obtain ⟨w, _, h⟩ := Res.bind_eq_ok.1 h
      split at h
      · cases h; exact ⟨rfl, rfl, by simp [hlt]⟩
      · cases h
    · rename_i hlt
      cases h; exact ⟨rfl, rfl, by simp [hlt]⟩
  obtain ⟨r1, r2, r3⟩ := hrel
  rw [r1, r2, r3]
  split at h1
  · rename_i hp
    obtain ⟨l, hl, h1⟩ := Res.bind_eq_ok.1 h1
    obtain ⟨c, hc, h1⟩ := Res.bind_eq_ok.1 h1
    have hl' := idx_ok.1 hl
    have hc' := idx_ok.1 hc
    have hS : ∀ a b, StartsWith lines p a b ↔ c = a ∨ c = b := by
      intro a b
      constructor
      · rintro ⟨l2, c2, g1, g2, g3⟩
        rw [hl'] at g1; cases g1
        rw [hc'] at g2; cases g2
        exact g3
      · intro g; exact ⟨l, c, hl', hc', g⟩
    have hB : BlankAt lines p ↔ isBlank l = true := by
      rw [isBlank_iff]
      constructor
      · rintro ⟨l2, g1, g2⟩
        rw [hl'] at g1; cases g1
        exact g2
      · intro g; exact ⟨l, hl', g⟩
    rw [hS, hS, hB, ← lowerC_d, ← lowerC_c]
    split at h1
    · rename_i hcond
      cases h1
      refine ⟨by simpa using hcond, by simp, ?_⟩
      constructor
      · rintro ⟨h, _⟩; cases h
      · rintro ⟨hb, _⟩
        exfalso
        rw [isBlank_iff] at hb
        obtain ⟨k, m, rfl⟩ := hb
        cases k with
        | zero => cases hc'; revert hcond; decide
        | succ k => cases hc'; revert hcond; decide
    · rename_i hcond
      cases h1
      refine ⟨by simpa using hcond, ?_, Iff.rfl⟩
      constructor
      · intro h; cases h
      · intro h; exact absurd (Or.inr h) hcond
  · rename_i hp
    cases h1
    have hno : lines[p]? = none := List.getElem?_eq_none (by omega)
    have hS : ∀ a b, ¬ StartsWith lines p a b := by
      rintro a b ⟨l, c, g1, _⟩
      rw [hno] at g1; cases g1
    refine ⟨by simp [hS], by simp [hS], ?_⟩
    constructor
    · rintro ⟨h, _⟩; cases h
    · rintro ⟨⟨l, g1, _⟩, _⟩
      rw [hno] at g1; cases g1

/-- Where predictors behind the velocities come from. -/
theorem readPredAfter_at {lines : List Str} {p n : Nat} {q : Option (List Vec)} (h : readPredAfter lines p n = .ok q) :
    (∀ qs, q = some qs → BlankAt lines p ∧ qs.length = n ∧ ∀ (k : Nat) (v : Vec), qs[k]? = some v → VectorAt lines (p + 1 + k) v) ∧
    (BlankAt lines p → (∃ (l w : Str), lines[p + 1]? = some l ∧ (words l)[0]? = some w ∧ isNumber w = true) → q ≠ none) := by
  unfold readPredAfter at h
  split at h
  · obtain ⟨l, hl, h⟩ := Res.bind_eq_ok.1 h
    split at h
    · rename_i hb
      obtain ⟨l', hl', h⟩ := Res.bind_eq_ok.1 h
      obtain ⟨w, hw, h⟩ := Res.bind_eq_ok.1 h
      split at h
      · rename_i hnum
        obtain ⟨vs, hvs, h⟩ := Res.bind_eq_ok.1 h
        cases h
        obtain ⟨k1, k2⟩ := readVecs_at hvs
        refine ⟨fun qs hq => ?_, fun _ _ => by simp⟩
        cases hq
        refine ⟨⟨l, idx_ok.1 hl, (isBlank_iff _).1 hb⟩, k1, fun k v hk => ?_⟩
        obtain ⟨u, hu, hc⟩ := k2 k v hk
        cases hc
        exact hu
      · rename_i hnum
        cases h
        refine ⟨by rintro qs ⟨⟩, ?_⟩
        rintro _ ⟨l2, w2, g1, g2, g3⟩
        rw [idx_ok.1 hl'] at g1; cases g1
        rw [idx_ok.1 hw] at g2; cases g2
        exact absurd g3 hnum
    · rename_i hb
      cases h
      refine ⟨by rintro qs ⟨⟩, ?_⟩
      rintro ⟨l2, g1, g2⟩
      rw [idx_ok.1 hl] at g1; cases g1
      exact absurd ((isBlank_iff _).2 g2) hb
  · rename_i hp
    cases h
    refine ⟨by rintro qs ⟨⟩, ?_⟩
    rintro ⟨l2, g1, g2⟩
    rw [List.getElem?_eq_none (by omega)] at g1; cases g1

theorem toDirect_back {v w : Vec} {c : Option Cell} (h : toDirect v c = .ok w) : ∃ m, c = some m ∧ dirToCart w m = v := by
  cases c with
  | none => cases h
  | some m =>
    refine ⟨m, rfl, ?_⟩
    by_cases hdet : m.toMatrix.det = 0
    · unfold toDirect at h
      simp only [(C16_inverse m).2 hdet] at h
      cases h
    · obtain ⟨w', hw, hw'⟩ := toDirect_ok hdet v
      rw [hw] at h
      cases h
      exact hw'

/-! ### theorems -/

/-- What an object holds for site `k`. -/
def HasSite (e : Entries) (k : Nat) (s : Site) : Prop := ∃ l, e.get? c!"sites" = some (.sites l) ∧ l[k]? = some (.site s)

theorem hasSite_file {cm : Str} {c : Cell} {sites : List Site} {k : Nat} {s : Site} : HasSite (fileEntries cm c sites) k s ↔ sites[k]? = some s := by
  unfold HasSite
  have : (fileEntries cm c sites).get? c!"sites" = some (.sites (sites.map .site)) := rfl
  rw [this]
  constructor
  · rintro ⟨l, hl, hk⟩
    cases hl
    rw [List.getElem?_map] at hk
    cases hs : sites[k]? with
    | none => rw [hs] at hk; cases hk
    | some x => rw [hs] at hk; cases hk; rfl
  · intro h
    exact ⟨_, rfl, by rw [List.getElem?_map, h]; rfl⟩

theorem siteCount_file (cm : Str) (c : Cell) (sites : List Site) : siteCount (fileEntries cm c sites) = sites.length := by
  show (sites.map Elem.site).length = _
  rw [List.length_map]

theorem assemble_at {raws : List Raw} {v q : Option (List Vec)} {k : Nat} {s : Site} (h : (assemble raws v q)[k]? = some s) :
    k < raws.length ∧ s.velocities = v.bind (·[k]?) ∧ s.predictors = q.bind (·[k]?) := by
  unfold assemble at h
  rw [List.getElem?_map, List.getElem?_zipIdx] at h
  cases hr : raws[k]? with
  | none => rw [hr] at h; cases h
  | some r =>
    rw [hr] at h
    simp only [Option.map_some, Option.some.injEq] at h
    subst h
    refine ⟨(List.getElem?_eq_some_iff.1 hr).1, ?_, ?_⟩
    · show (v.bind fun l => l[0 + k]?) = _
      rw [Nat.zero_add]
    · show (q.bind fun l => l[0 + k]?) = _
      rw [Nat.zero_add]

/-- C122, velocities: if the line behind the positions starts with `d` or `c` (in either case), every site has a velocity: the vector printed on
its own line behind that header, as it stands if positions and velocities are both direct, and the vector with these cartesian
coordinates otherwise. In all other files no site has a velocity. Missing: that direct velocities behind cartesian positions stay as they stand and that velocities behind a blank line are found, which is false (`C122_violation_mixed`, `C122_violation_blank`). -/
theorem C122_velocities_partial (t : Str) (e : Entries) (h : init { handler := some t } = .ok e) (k : Nat) (s : Site) (hk : HasSite e k s) :
    ∃ sel dir, Layout (readlines t) sel dir ∧
      (s.velocities.isSome = true ↔ StartsWith (readlines t) (firstSite sel + siteCount e) 'd' 'D' ∨ StartsWith (readlines t) (firstSite sel + siteCount e) 'c' 'C') ∧
      ∀ v, s.velocities = some v → ∃ x, VectorAt (readlines t) (firstSite sel + siteCount e + 1 + k) x ∧
        (dir = true → StartsWith (readlines t) (firstSite sel + siteCount e) 'd' 'D' → v = x) ∧
        (dir = false ∨ StartsWith (readlines t) (firstSite sel + siteCount e) 'c' 'C' →
          ∃ c, e.get? c!"unitcell" = some (.cell (some c)) ∧ dirToCart v c = x) := by
  obtain ⟨P, m, hP, hm, rfl⟩ := (init_handler _ _).1 h
  rw [hasSite_file] at hk
  rw [siteCount_file]
  obtain ⟨hd, raws, tl, v, q, a1, a2, a3, a4, rfl, a5⟩ := parse_parts hP
  obtain ⟨hlay, hmax, -⟩ := readHeader_layout a1
  have hlen := readSites_length _ _ _ _ _ _ _ a3
  obtain ⟨b1, b2, b3⟩ := readTail_says a4
  have hfirst : firstSite hd.selective + (assemble raws v q).length = hd.atoms.sum.toNat + hd.loopmax := by
    rw [assemble_length, hlen, hmax]; unfold firstSite; omega
  dsimp only at hk ⊢
  refine ⟨hd.selective, hd.direct, hlay, ?_⟩
  rw [hfirst]
  obtain ⟨k1, k2, -⟩ := assemble_at hk
  have hexcl : ¬ (StartsWith (readlines t) (hd.atoms.sum.toNat + hd.loopmax) 'd' 'D' ∧ StartsWith (readlines t) (hd.atoms.sum.toNat + hd.loopmax) 'c' 'C') := by
    rintro ⟨⟨l, c, g1, g2, g3⟩, ⟨l', c', f1, f2, f3⟩⟩
    rw [g1] at f1; cases f1
    rw [g2] at f2; cases f2
    rcases g3 with rfl | rfl <;> rcases f3 with f3 | f3 <;> revert f3 <;> decide
  rcases a5 with ⟨c1, ⟨vs, rfl, c2⟩, c3⟩ | ⟨c1, c2, rfl, -⟩ | ⟨c1, c2, rfl, -⟩
  · obtain ⟨d1, d2⟩ := readVecs_at c2
    refine ⟨?_, fun w hw => ?_⟩
    · rw [k2, ← b1]
      simp only [Option.bind_some, c1, iff_true]
      rw [List.getElem?_eq_getElem (by omega)]
      rfl
    · rw [k2] at hw
      obtain ⟨u, hu, hc⟩ := d2 k w hw
      refine ⟨u, hu, fun hdir hst => ?_, fun hor => ?_⟩
      · have hnc : tl.2.1 = false := by
          rw [Bool.eq_false_iff]
          intro hx
          exact hexcl ⟨hst, b2.1 hx⟩
        rw [hdir, hnc] at hc
        cases hc
        rfl
      · have : (hd.direct && !tl.2.1) = false := by
          rcases hor with hor | hor
          · rw [hor]; rfl
          · rw [b2.2 hor]; simp
        rw [this] at hc
        simp only [Bool.false_eq_true, if_false] at hc
        obtain ⟨m', hm', hw'⟩ := toDirect_back hc
        refine ⟨m', ?_, hw'⟩
        have : some m' = some m := hm'.symm.trans hm
        cases this
        rfl
  all_goals
    refine ⟨?_, fun w hw => ?_⟩
    · rw [k2, ← b1, c1]; simp
    · rw [k2] at hw; cases hw

/-- C122, predictors: they stand behind a blank line that follows the velocities, or the positions if there are none, one line per site in the
order of the sites, and are taken as they stand. -/
theorem C122_predictors (t : Str) (e : Entries) (h : init { handler := some t } = .ok e) (k : Nat) (s : Site) (hk : HasSite e k s) :
    ∃ sel dir, Layout (readlines t) sel dir ∧
      ∀ v, s.predictors = some v →
        (s.velocities = none ∧ BlankAt (readlines t) (firstSite sel + siteCount e) ∧
          VectorAt (readlines t) (firstSite sel + siteCount e + 1 + k) v) ∨
        (s.velocities.isSome = true ∧ BlankAt (readlines t) (firstSite sel + siteCount e + 1 + siteCount e) ∧
          VectorAt (readlines t) (firstSite sel + siteCount e + 1 + siteCount e + 1 + k) v) := by
  obtain ⟨P, m, hP, hm, rfl⟩ := (init_handler _ _).1 h
  rw [hasSite_file] at hk
  rw [siteCount_file]
  obtain ⟨hd, raws, tl, v, q, a1, a2, a3, a4, rfl, a5⟩ := parse_parts hP
  obtain ⟨hlay, hmax, -⟩ := readHeader_layout a1
  have hlen := readSites_length _ _ _ _ _ _ _ a3
  obtain ⟨b1, b2, b3⟩ := readTail_says a4
  have hfirst : firstSite hd.selective + (assemble raws v q).length = hd.atoms.sum.toNat + hd.loopmax := by
    rw [assemble_length, hlen, hmax]; unfold firstSite; omega
  dsimp only at hk ⊢
  refine ⟨hd.selective, hd.direct, hlay, fun w hw => ?_⟩
  rw [hfirst, assemble_length, hlen]
  obtain ⟨k1, k2, k3⟩ := assemble_at hk
  rw [k3] at hw
  rcases a5 with ⟨c1, ⟨vs, rfl, c2⟩, c3⟩ | ⟨c1, c2, rfl, qs, rfl, c3⟩ | ⟨c1, c2, rfl, rfl⟩
  · right
    obtain ⟨d1, -⟩ := readVecs_at c2
    cases q with
    | none => cases hw
    | some qs =>
      obtain ⟨f1, f2, f3⟩ := (readPredAfter_at c3).1 qs rfl
      refine ⟨?_, ?_, ?_⟩
      · rw [k2, Option.bind_some, List.getElem?_eq_getElem (by omega)]; rfl
      · rw [Nat.add_comm]; exact f1
      · have := f3 k w hw
        rw [Nat.add_comm hd.atoms.sum.toNat (hd.atoms.sum.toNat + hd.loopmax + 1)] at this
        exact this
  · left
    obtain ⟨d1, d2⟩ := readVecs_at c3
    obtain ⟨u, hu, hc⟩ := d2 k w hw
    cases hc
    exact ⟨k2, (b3.1 c2).1, hu⟩
  · cases hw

/-- C122, predictors are found: if numbers follow the blank line, every site has a predictor. -/
theorem C122_predictors_found (t : Str) (e : Entries) (h : init { handler := some t } = .ok e) (k : Nat) (s : Site) (hk : HasSite e k s)
    (sel dir : Bool) (hl : Layout (readlines t) sel dir)
    (hb : (s.velocities = none ∧ BlankAt (readlines t) (firstSite sel + siteCount e) ∧ firstSite sel + siteCount e + 1 < (readlines t).length) ∨
      (s.velocities.isSome = true ∧ BlankAt (readlines t) (firstSite sel + siteCount e + 1 + siteCount e) ∧
        ∃ (l w : Str) (d : Dec), (readlines t)[firstSite sel + siteCount e + 1 + siteCount e + 1]? = some l ∧ (words l)[0]? = some w ∧
          pyFloat w = some (.fin d))) : s.predictors.isSome = true := by
  obtain ⟨P, m, hP, hm, rfl⟩ := (init_handler _ _).1 h
  rw [hasSite_file] at hk
  rw [siteCount_file] at hb
  obtain ⟨hd, raws, tl, v, q, a1, a2, a3, a4, rfl, a5⟩ := parse_parts hP
  obtain ⟨hlay, hmax, -⟩ := readHeader_layout a1
  obtain ⟨rfl, rfl⟩ := layout_unique hlay hl
  have hlen := readSites_length _ _ _ _ _ _ _ a3
  obtain ⟨b1, b2, b3⟩ := readTail_says a4
  have hfirst : firstSite hd.selective + (assemble raws v q).length = hd.atoms.sum.toNat + hd.loopmax := by
    rw [assemble_length, hlen, hmax]; unfold firstSite; omega
  dsimp only at hk hb
  rw [hfirst, assemble_length, hlen] at hb
  obtain ⟨k1, k2, k3⟩ := assemble_at hk
  rw [k3]
  rcases a5 with ⟨c1, ⟨vs, rfl, c2⟩, c3⟩ | ⟨c1, c2, rfl, qs, rfl, c3⟩ | ⟨c1, c2, rfl, rfl⟩
  · obtain ⟨d1, -⟩ := readVecs_at c2
    rcases hb with ⟨hb, _⟩ | ⟨_, hb, l, w, d, g1, g2, g3⟩
    · rw [k2, Option.bind_some, List.getElem?_eq_getElem (by omega)] at hb; cases hb
    · rw [Nat.add_comm (hd.atoms.sum.toNat + hd.loopmax + 1)] at hb g1
      have hq := (readPredAfter_at c3).2 hb ⟨l, w, g1, g2, by unfold isNumber; rw [g3]; rfl⟩
      cases q with
      | none => exact absurd rfl hq
      | some qs =>
        obtain ⟨f1, f2, f3⟩ := (readPredAfter_at c3).1 qs rfl
        rw [Option.bind_some, List.getElem?_eq_getElem (by omega)]; rfl
  · obtain ⟨d1, d2⟩ := readVecs_at c3
    rw [Option.bind_some, List.getElem?_eq_getElem (by omega)]; rfl
  · rcases hb with ⟨_, hb, hlt⟩ | ⟨hb, _⟩
    · rw [b3.2 ⟨hb, hlt⟩] at c2; cases c2
    · rw [k2] at hb; cases hb

/-- C122 is false for cartesian positions followed by velocities under a `Direct` header: the velocities, though direct, are converted as if
they were cartesian, without a complaint. -/
theorem C122_violation_mixed (t : Str) (e : Entries) (h : init { handler := some t } = .ok e) (sel : Bool) (hl : Layout (readlines t) sel false)
    (hd : StartsWith (readlines t) (firstSite sel + siteCount e) 'd' 'D') (k : Nat) (s : Site) (hk : HasSite e k s) :
    ∃ v x c, s.velocities = some v ∧ VectorAt (readlines t) (firstSite sel + siteCount e + 1 + k) x ∧
      e.get? c!"unitcell" = some (.cell (some c)) ∧ dirToCart v c = x := by
  obtain ⟨sel', dir', h1, h2, h3⟩ := C122_velocities_partial t e h k s hk
  obtain ⟨rfl, rfl⟩ := layout_unique hl h1
  obtain ⟨v, hv⟩ := Option.isSome_iff_exists.1 (h2.2 (.inl hd))
  obtain ⟨x, hx, _, hc⟩ := h3 v hv
  obtain ⟨c, hc1, hc2⟩ := hc (.inl rfl)
  exact ⟨v, x, c, hv, hx, hc1, hc2⟩

/-- C122 is false for the files VASP itself writes (CONTCAR), where a blank line, without a header, separates positions and velocities: the
vectors behind it are returned as predictors and no site has a velocity. -/
theorem C122_violation_blank (t : Str) (e : Entries) (h : init { handler := some t } = .ok e) (sel dir : Bool) (hl : Layout (readlines t) sel dir)
    (hb : BlankAt (readlines t) (firstSite sel + siteCount e)) (hlt : firstSite sel + siteCount e + 1 < (readlines t).length)
    (k : Nat) (s : Site) (hk : HasSite e k s) :
    s.velocities = none ∧ ∃ x, s.predictors = some x ∧ VectorAt (readlines t) (firstSite sel + siteCount e + 1 + k) x := by
  obtain ⟨sel', dir', h1, h2, _⟩ := C122_velocities_partial t e h k s hk
  obtain ⟨rfl, rfl⟩ := layout_unique hl h1
  have hnone : s.velocities = none := by
    cases hv : s.velocities with
    | none => rfl
    | some v =>
      exfalso
      have key : ∀ a b : Char, a ≠ ' ' → a ≠ '\n' → b ≠ ' ' → b ≠ '\n' → ¬ StartsWith (readlines t) (firstSite sel + siteCount e) a b := by
        rintro a b n1 n2 n3 n4 ⟨l, c, g1, g2, g3⟩
        obtain ⟨l', f1, i, j, rfl⟩ := hb
        rw [g1] at f1; cases f1
        cases i with
        | zero => cases g2; rcases g3 with g3 | g3 <;> first | exact n2 g3.symm | exact n4 g3.symm
        | succ i => cases g2; rcases g3 with g3 | g3 <;> first | exact n1 g3.symm | exact n3 g3.symm
      rcases h2.1 (by rw [hv]; rfl) with hx | hx
      · exact key _ _ (by decide) (by decide) (by decide) (by decide) hx
      · exact key _ _ (by decide) (by decide) (by decide) (by decide) hx
  obtain ⟨x, hx⟩ := Option.isSome_iff_exists.1 (C122_predictors_found t e h k s hk sel dir hl (.inl ⟨hnone, hb, hlt⟩))
  obtain ⟨sel'', dir'', h3, h4⟩ := C122_predictors t e h k s hk
  obtain ⟨rfl, rfl⟩ := layout_unique hl h3
  rcases h4 x hx with ⟨_, _, h5⟩ | ⟨h5, _⟩
  · exact ⟨hnone, x, hx, h5⟩
  · rw [hnone] at h5; cases h5

/-! ### the hypotheses are met -/

/-- Velocities and predictors of the sites. -/
def motion (t : Str) : Res (List (Option Vec × Option Vec)) := parse (readlines t) >>= fun p => .ok (p.sites.map fun s => (s.velocities, s.predictors))

/-- Direct positions, direct velocities, predictors. -/
example : motion c!"c\n1\n2 0 0\n0 2 0\n0 0 2\nH\n2\nDirect\n0 0 0\n0.5 0 0\ndirect\n1 2 3\n4 5 6\n\n7 8 9\n10 11 12\n" =
    .ok [(some ⟨1, 2, 3⟩, some ⟨7, 8, 9⟩), (some ⟨4, 5, 6⟩, some ⟨10, 11, 12⟩)] := by decide +kernel
/-- Direct positions, cartesian velocities. -/
example : motion c!"c\n1\n2 0 0\n0 2 0\n0 0 2\nH\n2\nDirect\n0 0 0\n0.5 0 0\nCart\n1 2 3\n4 5 6\n" =
    .ok [(some ⟨1/2, 1, 3/2⟩, none), (some ⟨2, 5/2, 3⟩, none)] := by decide +kernel
/-- Cartesian positions, direct velocities: converted all the same. -/
example : motion c!"c\n1\n2 0 0\n0 2 0\n0 0 2\nH\n2\nCart\n0 0 0\n0.5 0 0\nDirect\n1 2 3\n4 5 6\n" =
    .ok [(some ⟨1/2, 1, 3/2⟩, none), (some ⟨2, 5/2, 3⟩, none)] := by decide +kernel
/-- Velocities as VASP writes them are taken for predictors. -/
example : motion c!"c\n1\n2 0 0\n0 2 0\n0 0 2\nH\n2\nDirect\n0 0 0\n0.5 0 0\n  \n1 2 3\n4 5 6\n" =
    .ok [(none, some ⟨1, 2, 3⟩), (none, some ⟨4, 5, 6⟩)] := by decide +kernel

end Verif.Poscar
