import Verif.Props.KpointsEdit
import Verif.Props.CutPoscar
/-! # KPOINTS files cut off (C99) -/
set_option autoImplicit false
namespace Verif.Kpoints
open Verif

theorem idx_iff {α : Type} {l : List α} {i : Nat} {a : α} : idx l i = .ok a ↔ l[i]? = some a := by
  unfold idx
  cases l[i]? <;> simp

theorem idx_mono {α : Type} {l m : List α} {i : Nat} {a : α} (h : idx l i = .ok a) : idx (l ++ m) i = .ok a :=
  idx_iff.2 (idx_prefix_ok m (idx_iff.1 h))

theorem mapM'_mono {α β : Type} {f g : α → Res β} {l : List α} {r : List β} (hfg : ∀ a b, f a = .ok b → g a = .ok b)
    (h : Res.mapM' f l = .ok r) : Res.mapM' g l = .ok r :=
  Res.mapM'_eq_ok.2 ((Res.mapM'_eq_ok.1 h).imp fun a b => hfg a b)

/-- What a cut may do to the tetrahedra: nothing, all of them lost, or all but the word `Tetrahedra` lost. -/
theorem parseTetra_cut {A B : List Str} {n : Nat} {t t' : Option (List (List Int)) × Option Rat}
    (h : parseTetra A n = .ok t) (h' : parseTetra (A ++ B) n = .ok t') :
    t = t' ∨ t = (none, none) ∨ t = (some [], none) := by
  unfold parseTetra at h h'
  split at h
  · rename_i hn
    rw [if_pos (show n < (A ++ B).length by simp; omega)] at h'
    obtain ⟨l, hl, h⟩ := Res.bind_eq_ok.1 h
    rw [idx_mono hl, Res.ok_bind] at h'
    obtain ⟨c, hc, h⟩ := Res.bind_eq_ok.1 h
    rw [hc, Res.ok_bind] at h'
    split at h
    · rename_i hct
      rw [if_pos hct] at h'
      split at h
      · rename_i hn1
        rw [if_pos (show n + 1 < (A ++ B).length by simp; omega)] at h'
        obtain ⟨first, hf, h⟩ := Res.bind_eq_ok.1 h
        rw [idx_mono hf, Res.ok_bind] at h'
        obtain ⟨w, hw, h⟩ := Res.bind_eq_ok.1 h
        rw [hw, Res.ok_bind] at h'
        obtain ⟨num, hnum, h⟩ := Res.bind_eq_ok.1 h
        rw [hnum, Res.ok_bind] at h'
        obtain ⟨v, hv, h⟩ := Res.bind_eq_ok.1 h
        rw [hv, Res.ok_bind] at h'
        obtain ⟨vol, hvol, h⟩ := Res.bind_eq_ok.1 h
        rw [hvol, Res.ok_bind] at h'
        obtain ⟨ts, hts, h⟩ := Res.bind_eq_ok.1 h
        have := mapM'_mono (g := fun t => idx (A ++ B) (t + (n + 2)) >>= parseTetraLine) (by
          intro a b hab
          obtain ⟨x, hx, hab⟩ := Res.bind_eq_ok.1 hab
          rw [idx_mono hx, Res.ok_bind]
          exact hab) hts
        rw [this, Res.ok_bind] at h'
        cases h
        cases h'
        exact .inl rfl
      · cases h; exact .inr (.inr rfl)
    · cases h; exact .inr (.inl rfl)
  · cases h; exact .inr (.inl rfl)

/-- What is read of a beginning of the lines, compared with what is read of all lines. -/
structure CutOf (p p' : Parsed) : Prop where
  comment : p.comment = p'.comment
  num : p.num = p'.num
  mode : p.mode = p'.mode
  centering : p.centering = p'.centering
  divisions : p.divisions = p'.divisions
  vectors : p.vectors = p'.vectors
  shifts : p.shifts = p'.shifts ∨ p.shifts = none ∨ p'.shifts = none
  points : p.mode ≠ c!"line" ∧ p.points = p'.points ∨ p.mode = c!"line" ∧ ∃ ps ps', p.points = some ps ∧ p'.points = some ps' ∧ ps <+: ps'
  tetra : (p.tetra, p.tetraVol) = (p'.tetra, p'.tetraVol) ∨ (p.tetra, p.tetraVol) = (none, none) ∨ (p.tetra, p.tetraVol) = (some [], none)

theorem CutOf.refl (p : Parsed) (hm : p.mode ≠ c!"line") : CutOf p p := ⟨rfl, rfl, rfl, rfl, rfl, rfl, .inl rfl, .inl ⟨hm, rfl⟩, .inl rfl⟩

theorem parseExplicit_cut {A B : List Str} {p q q' : Parsed} {c : Char} (hm : p.mode ≠ c!"line") (h : parseExplicit A p c = .ok q)
    (h' : parseExplicit (A ++ B) p c = .ok q') : CutOf q q' := by
  unfold parseExplicit at h h'
  split at h
  · cases h
  rename_i hc
  rw [if_neg hc] at h'
  obtain ⟨ps, hps, h⟩ := Res.bind_eq_ok.1 h
  have := mapM'_mono (g := fun k => idx (A ++ B) (k + 3) >>= parsePoint) (by
    intro a b hab
    obtain ⟨x, hx, hab⟩ := Res.bind_eq_ok.1 hab
    rw [idx_mono hx, Res.ok_bind]
    exact hab) hps
  rw [this, Res.ok_bind] at h'
  obtain ⟨t, ht, h⟩ := Res.bind_eq_ok.1 h
  obtain ⟨t', ht', h'⟩ := Res.bind_eq_ok.1 h'
  cases h
  cases h'
  exact ⟨rfl, rfl, rfl, rfl, rfl, rfl, .inl rfl, .inl ⟨hm, rfl⟩, parseTetra_cut ht ht'⟩

theorem parseAutomatic_cut {A B : List Str} {p q q' : Parsed} {c : Char} (hs : p.shifts = none) (hm : p.mode ≠ c!"line") (h : parseAutomatic A p c = .ok q)
    (h' : parseAutomatic (A ++ B) p c = .ok q') : CutOf q q' := by
  unfold parseAutomatic at h h'
  split at h
  · cases h
  rename_i c1
  rw [if_neg c1] at h'
  split at h
  · rename_i c2
    rw [if_pos c2] at h'
    obtain ⟨l3, hl3, h⟩ := Res.bind_eq_ok.1 h
    rw [idx_mono hl3, Res.ok_bind] at h'
    obtain ⟨div, hdiv, h⟩ := Res.bind_eq_ok.1 h
    rw [hdiv, Res.ok_bind] at h'
    obtain ⟨s, hs1, h⟩ := Res.bind_eq_ok.1 h
    obtain ⟨s', hs1', h'⟩ := Res.bind_eq_ok.1 h'
    cases h
    cases h'
    refine ⟨rfl, rfl, rfl, rfl, rfl, rfl, ?_, .inl ⟨hm, rfl⟩, .inl rfl⟩
    show s = s' ∨ s = none ∨ s' = none
    split at hs1
    · split at hs1'
      · rename_i e1 e2
        have : B = [] := by
          rw [List.length_append] at e2
          exact List.length_eq_zero_iff.1 (by omega)
        subst this
        rw [List.append_nil, hs1] at hs1'
        cases hs1'
        exact .inl rfl
      · cases hs1'; exact .inr (.inr hs)
    · cases hs1; exact .inr (.inl hs)
  rename_i c2
  rw [if_neg c2] at h'
  split at h
  · rename_i c3
    rw [if_pos c3] at h'
    obtain ⟨gv, hgv, h⟩ := Res.bind_eq_ok.1 h
    have := mapM'_mono (g := fun k => idx (A ++ B) k >>= fun l => Res.mapM' toFloat (words l)) (by
      intro a b hab
      obtain ⟨x, hx, hab⟩ := Res.bind_eq_ok.1 hab
      rw [idx_mono hx, Res.ok_bind]
      exact hab) hgv
    rw [this, Res.ok_bind] at h'
    obtain ⟨l6, hl6, h⟩ := Res.bind_eq_ok.1 h
    rw [idx_mono hl6, Res.ok_bind, h] at h'
    cases h'
    obtain ⟨s, _, h⟩ := Res.bind_eq_ok.1 h
    cases h
    exact CutOf.refl _ hm
  rename_i c3
  rw [if_neg c3] at h'
  split at h
  · cases h
  rename_i c4
  rw [if_neg c4] at h'
  cases h
  cases h'
  exact CutOf.refl _ hm

theorem parseLineMode_cut {A B : List Str} {p q q' : Parsed} (hm : p.mode = c!"line") (h : parseLineMode A p = .ok q)
    (h' : parseLineMode (A ++ B) p = .ok q') : CutOf q q' := by
  unfold parseLineMode at h h'
  obtain ⟨l3, hl3, h⟩ := Res.bind_eq_ok.1 h
  rw [idx_mono hl3, Res.ok_bind] at h'
  obtain ⟨w, hw, h⟩ := Res.bind_eq_ok.1 h
  rw [hw, Res.ok_bind] at h'
  obtain ⟨c, hc, h⟩ := Res.bind_eq_ok.1 h
  rw [hc, Res.ok_bind] at h'
  split at h
  · rename_i hc
    rw [if_pos hc] at h'
    obtain ⟨ps, hps, h⟩ := Res.bind_eq_ok.1 h
    obtain ⟨ps', hps', h'⟩ := Res.bind_eq_ok.1 h'
    cases h
    cases h'
    have h3 : 3 < A.length := by
      have := idx_iff.1 hl3
      by_contra hc
      rw [List.getElem?_eq_none (by omega)] at this
      cases this
    rw [List.drop_append_of_le_length (by omega), Incar.mapM'_append, hps, Res.ok_bind] at hps'
    obtain ⟨r, _, hr⟩ := Res.bind_eq_ok.1 hps'
    cases hr
    refine ⟨rfl, rfl, rfl, rfl, rfl, rfl, .inl rfl, .inr ⟨hm, _, _, rfl, rfl, ?_⟩, .inl rfl⟩
    rw [List.flatten_append]
    exact List.prefix_append _ _
  · cases h

theorem parse_cut {A B : List Str} {p p' : Parsed} (h : parse A = .ok p) (h' : parse (A ++ B) = .ok p') : CutOf p p' := by
  unfold parse at h h'
  obtain ⟨l0, h0, h⟩ := Res.bind_eq_ok.1 h
  rw [idx_mono h0, Res.ok_bind] at h'
  obtain ⟨l1, h1, h⟩ := Res.bind_eq_ok.1 h
  rw [idx_mono h1, Res.ok_bind] at h'
  obtain ⟨w, hw, h⟩ := Res.bind_eq_ok.1 h
  rw [hw, Res.ok_bind] at h'
  obtain ⟨num, hnum, h⟩ := Res.bind_eq_ok.1 h
  rw [hnum, Res.ok_bind] at h'
  obtain ⟨l2, h2, h⟩ := Res.bind_eq_ok.1 h
  rw [idx_mono h2, Res.ok_bind] at h'
  obtain ⟨c, hc, h⟩ := Res.bind_eq_ok.1 h
  rw [hc, Res.ok_bind] at h'
  dsimp only at h h'
  by_cases ha : num ≤ 0
  · by_cases hl : lowerC c = 'l'
    · have hauto : ∀ (L : List Str) (p : Parsed), parseAutomatic L p c = .ok p := by
        intro L p
        unfold parseAutomatic
        rw [hl]
        simp
      simp only [ha, hl, decide_true, Bool.not_true, Bool.false_and, Bool.false_eq_true, if_false, Res.ok_bind, if_true, hauto] at h h'
      exact parseLineMode_cut rfl h h'
    · simp only [ha, hl, decide_true, decide_false, Bool.not_true, Bool.false_and, Bool.false_eq_true, if_false, Res.ok_bind, if_true] at h h'
      obtain ⟨x, hx, h⟩ := Res.bind_eq_ok.1 h
      obtain ⟨x', hx', h'⟩ := Res.bind_eq_ok.1 h'
      cases h
      cases h'
      exact parseAutomatic_cut rfl (fun hc => by cases hc) hx hx'
  · by_cases hl : lowerC c = 'l'
    · simp only [ha, hl, decide_true, decide_false, Bool.not_true, Bool.and_false, Bool.false_eq_true, if_false, Res.ok_bind, if_true] at h h'
      exact parseLineMode_cut rfl h h'
    · simp only [ha, hl, decide_false, Bool.not_false, Bool.and_true, Bool.false_eq_true, if_false, Res.ok_bind, if_true] at h h'
      obtain ⟨x, hx, h⟩ := Res.bind_eq_ok.1 h
      obtain ⟨x', hx', h'⟩ := Res.bind_eq_ok.1 h'
      cases h
      cases h'
      exact parseExplicit_cut (fun hc => by cases hc) hx hx'

theorem init_handler {t : Str} {e : Entries} (h : init { handler := some t } = .ok e) :
    ∃ p, parse (readlines t) = .ok p ∧ e = p.toEntries := by
  have hl : ((fromList (readlines t)) >>= fun e => validate e >>= fun _ => Res.ok e) = .ok e := by
    rw [← h]
    unfold init load fromFile
    simp [guards]
  obtain ⟨e', hf, hl⟩ := Res.bind_eq_ok.1 hl
  obtain ⟨_, _, he⟩ := Res.bind_eq_ok.1 hl
  cases he
  unfold fromList at hf
  obtain ⟨p, hp, he⟩ := Res.bind_eq_ok.1 hf
  cases he
  exact ⟨p, hp, rfl⟩

/-- C99, partial: a KPOINTS cut at the end of a line, if accepted, has the comment, mode, number, centering, divisions and generating vectors
of the complete file, and its points (in line mode: the first of them); the tetrahedra are those of the complete file or lost, and the
shifts are equal unless one of the two files has none. Missing: that a cut file is refused, which is false in line mode
(`C99_violation_line`), for tetrahedra and for shifts (`C99_violation_shifts`), and cuts inside a line (`C99_violation_digit`). -/
theorem C99_cut_partial (p q : Str) (hp : LineEnd p) (e e' : Entries) (h : init { handler := some p } = .ok e)
    (h' : init { handler := some (p ++ q) } = .ok e') :
    (∀ k ∈ [c!"comment", c!"mode", c!"num_kpoints", c!"centering", c!"divisions", c!"generating_vectors"], e.get? k = e'.get? k) ∧
    (e.get? c!"mode" ≠ some (.str c!"line") → e.get? c!"points" = e'.get? c!"points") ∧
    (e.get? c!"mode" = some (.str c!"line") → ∃ ps ps' : List Kpoint, e.get? c!"points" = some (atomsVal .point ps) ∧
      e'.get? c!"points" = some (atomsVal .point ps') ∧ ps <+: ps') ∧
    ((e.get? c!"tetra" = e'.get? c!"tetra" ∧ e.get? c!"tetra_volume" = e'.get? c!"tetra_volume") ∨
      (e.get? c!"tetra_volume" = some .none ∧ (e.get? c!"tetra" = some .none ∨ e.get? c!"tetra" = some (.list [])))) ∧
    (e.get? c!"shifts" = e'.get? c!"shifts" ∨ e.get? c!"shifts" = some .none ∨ e'.get? c!"shifts" = some .none) := by
  obtain ⟨P, h1, rfl⟩ := init_handler h
  obtain ⟨P', h1', rfl⟩ := init_handler h'
  rw [readlines_lineEnd hp] at h1'
  have c := parse_cut h1 h1'
  have a := holds_toEntries P
  have b := holds_toEntries P'
  refine ⟨?_, ?_, ?_, ?_, ?_⟩
  · intro k hk
    simp only [List.mem_cons, List.not_mem_nil, or_false] at hk
    rcases hk with rfl | rfl | rfl | rfl | rfl | rfl
    · rw [a.comment, b.comment, c.comment]
    · rw [a.mode, b.mode, c.mode]
    · rw [a.num, b.num, c.num]
    · rw [a.centering, b.centering, c.centering]
    · rw [a.divisions, b.divisions, c.divisions]
    · rw [a.vectors, b.vectors, c.vectors]
  · intro hm
    rcases c.points with ⟨_, hc⟩ | ⟨hc, _⟩
    · rw [a.points, b.points, hc]
    · rw [a.mode, hc] at hm
      exact absurd rfl hm
  · intro hm
    rw [a.mode] at hm
    have hm : P.mode = c!"line" := by simpa using hm
    rcases c.points with ⟨hc, _⟩ | ⟨_, ps, ps', e1, e2, e3⟩
    · exact absurd hm hc
    · exact ⟨ps, ps', by rw [a.points, e1]; rfl, by rw [b.points, e2]; rfl, e3⟩
  · rcases c.tetra with hc | hc | hc
    · obtain ⟨h1, h2⟩ := Prod.mk.inj hc
      exact .inl ⟨by rw [a.tetra, b.tetra, h1], by rw [a.volume, b.volume, h2]⟩
    · obtain ⟨h1, h2⟩ := Prod.mk.inj hc
      exact .inr ⟨by rw [a.volume, h2]; rfl, .inl (by rw [a.tetra, h1]; rfl)⟩
    · obtain ⟨h1, h2⟩ := Prod.mk.inj hc
      exact .inr ⟨by rw [a.volume, h2]; rfl, .inr (by rw [a.tetra, h1]; rfl)⟩
  · rcases c.shifts with hc | hc | hc
    · exact .inl (by rw [a.shifts, b.shifts, hc])
    · exact .inr (.inl (by rw [a.shifts, hc]; rfl))
    · exact .inr (.inr (by rw [b.shifts, hc]; rfl))

theorem idx_down {α : Type} {l m : List α} {i : Nat} (h : i < l.length) : idx (l ++ m) i = idx l i := by
  unfold idx; rw [List.getElem?_append_left h]

theorem parseExplicit_mode {L : List Str} {p q : Parsed} {c : Char} (h : parseExplicit L p c = .ok q) : q.mode = p.mode := by
  unfold parseExplicit at h
  split at h
  · cases h
  obtain ⟨ps, _, h⟩ := Res.bind_eq_ok.1 h
  obtain ⟨t, _, h⟩ := Res.bind_eq_ok.1 h
  cases h
  rfl

theorem parseAutomatic_mode {L : List Str} {p q : Parsed} {c : Char} (h : parseAutomatic L p c = .ok q) : q.mode = p.mode := by
  unfold parseAutomatic at h
  split at h
  · cases h
  split at h
  · obtain ⟨l3, _, h⟩ := Res.bind_eq_ok.1 h
    obtain ⟨div, _, h⟩ := Res.bind_eq_ok.1 h
    obtain ⟨s, _, h⟩ := Res.bind_eq_ok.1 h
    cases h
    rfl
  split at h
  · obtain ⟨gv, _, h⟩ := Res.bind_eq_ok.1 h
    obtain ⟨l6, _, h⟩ := Res.bind_eq_ok.1 h
    obtain ⟨s, _, h⟩ := Res.bind_eq_ok.1 h
    cases h
    rfl
  split at h
  · cases h
  cases h
  rfl

/-- A file in line mode: the first three lines decide. -/
theorem parse_line {L : List Str} {P : Parsed} (h : parse L = .ok P) (hm : P.mode = c!"line") :
    ∃ (cm : Str) (num : Int), ∀ L' : List Str, (∀ i < 3, idx L' i = idx L i) →
      parse L' = parseLineMode L' { comment := cm, num := num, mode := c!"line" } := by
  unfold parse at h
  obtain ⟨l0, h0, h⟩ := Res.bind_eq_ok.1 h
  obtain ⟨l1, h1, h⟩ := Res.bind_eq_ok.1 h
  obtain ⟨w, hw, h⟩ := Res.bind_eq_ok.1 h
  obtain ⟨num, hnum, h⟩ := Res.bind_eq_ok.1 h
  obtain ⟨l2, h2, h⟩ := Res.bind_eq_ok.1 h
  obtain ⟨c, hc, h⟩ := Res.bind_eq_ok.1 h
  dsimp only at h
  by_cases hl : lowerC c = 'l'
  · refine ⟨strip (l0.filter (· != '#')), num, ?_⟩
    intro L' hL
    have hauto : ∀ (L : List Str) (p : Parsed), parseAutomatic L p c = .ok p := by
      intro L p
      unfold parseAutomatic
      rw [hl]
      simp
    unfold parse
    rw [hL 0 (by omega), hL 1 (by omega), hL 2 (by omega), h0, Res.ok_bind, h1, Res.ok_bind, hw, Res.ok_bind, hnum, Res.ok_bind, h2,
      Res.ok_bind, hc, Res.ok_bind]
    by_cases ha : num ≤ 0 <;> simp [ha, hl, hauto]
  · exfalso
    by_cases ha : num ≤ 0
    · simp only [ha, hl, decide_true, decide_false, Bool.not_true, Bool.false_and, Bool.false_eq_true, if_false, Res.ok_bind, if_true] at h
      obtain ⟨x, hx, h⟩ := Res.bind_eq_ok.1 h
      cases h
      rw [parseAutomatic_mode hx] at hm
      cases hm
    · simp only [ha, hl, decide_false, Bool.not_false, Bool.and_true, Bool.false_eq_true, if_false, Res.ok_bind, if_true] at h
      obtain ⟨x, hx, h⟩ := Res.bind_eq_ok.1 h
      cases h
      rw [parseExplicit_mode hx] at hm
      cases hm

theorem validate_line (cm : Str) (num : Int) (ps : List Kpoint) :
    validate (Parsed.toEntries { comment := cm, num := num, mode := c!"line", points := some ps }) = .ok () :=
  validate_holds (holds_toEntries _) ⟨.inr (.inl (by simp)), (fun _ h => nomatch h), (fun _ h => nomatch h), .inr (.inr rfl)⟩

/-- C99 is false of every KPOINTS in line mode: cut behind its fourth or any later line it is accepted, without the points behind the
cut; cut behind the fourth line there is none left. -/
theorem C99_violation_line (text : Str) (e : Entries) (h : init { handler := some text } = .ok e)
    (hm : e.get? c!"mode" = some (.str c!"line")) (k : Nat) (hk : 4 ≤ k) (hk2 : k ≤ (readlines text).length) :
    ∃ p q e1, text = p ++ q ∧ readlines p = (readlines text).take k ∧ init { handler := some p } = .ok e1 ∧
      e1.get? c!"mode" = some (.str c!"line") ∧ (k = 4 → e1.get? c!"points" = some (.list [])) := by
  obtain ⟨P, hP, rfl⟩ := init_handler h
  rw [(holds_toEntries P).mode] at hm
  have hm : P.mode = c!"line" := by simpa using hm
  obtain ⟨cm, num, hL⟩ := parse_line hP hm
  obtain ⟨p, q, rfl, r1, r2⟩ := cut_lines k _ hk2
  have hlen : (readlines p).length = k := by rw [r1, List.length_take]; omega
  have hsplit : readlines (p ++ q) = readlines p ++ readlines q := by rw [r1, r2, List.take_append_drop]
  have hidx : ∀ i < k, idx (readlines (p ++ q)) i = idx (readlines p) i := by
    intro i hi
    rw [hsplit, idx_down (by omega)]
  have hfull := hL _ (fun _ _ => rfl)
  have hcut := hL (readlines p) (fun i hi => (hidx i (by omega)).symm)
  rw [hP] at hfull
  have hfull := hfull.symm
  unfold parseLineMode at hfull hcut
  rw [hidx 3 (by omega)] at hfull
  obtain ⟨l3, hl3, hfull⟩ := Res.bind_eq_ok.1 hfull
  rw [hl3, Res.ok_bind] at hcut
  obtain ⟨w, hw, hfull⟩ := Res.bind_eq_ok.1 hfull
  rw [hw, Res.ok_bind] at hcut
  obtain ⟨c, hc, hfull⟩ := Res.bind_eq_ok.1 hfull
  rw [hc, Res.ok_bind] at hcut
  split at hfull
  · rename_i hrd
    rw [if_pos hrd] at hcut
    obtain ⟨ps, hps, hfull⟩ := Res.bind_eq_ok.1 hfull
    rw [hsplit, List.drop_append_of_le_length (by omega), Incar.mapM'_append] at hps
    obtain ⟨ps1, hps1, hps⟩ := Res.bind_eq_ok.1 hps
    rw [hps1, Res.ok_bind] at hcut
    refine ⟨p, q, Parsed.toEntries { comment := cm, num := num, mode := c!"line", points := some ps1.flatten }, rfl, r1, ?_, rfl, ?_⟩
    · have hi : init { handler := some p } = (fromList (readlines p) >>= fun e => validate e >>= fun _ => Res.ok e) := by
        unfold init load fromFile
        simp [guards]
      rw [hi]
      unfold fromList
      rw [hcut, Res.ok_bind, Res.ok_bind, validate_line, Res.ok_bind]
    · rintro rfl
      rw [List.drop_of_length_le (by omega)] at hps1
      cases hps1
      rfl
  · cases hfull

/-- A band structure path: both files of `C99_cut_partial` are accepted, the cut one has one point less. -/
example : ∃ p q : Str, ∃ e e', LineEnd p ∧ init { handler := some p } = .ok e ∧ init { handler := some (p ++ q) } = .ok e' ∧
    e.get? c!"mode" = some (.str c!"line") ∧
    e.get? c!"points" = some (atomsVal .point [⟨[0, 0, 0], some 1, true⟩]) ∧
    e'.get? c!"points" = some (atomsVal .point [⟨[0, 0, 0], some 1, true⟩, ⟨[1/2, 0, 0], some 1, true⟩]) :=
  ⟨c!"b\n20\nLine-mode\nrec\n 0 0 0\n", c!" 0.5 0 0\n", _, _, .inr (by decide +kernel), rfl, rfl, by decide +kernel, by decide +kernel, by decide +kernel⟩

/-- C99 is false for shifts: a mesh cut behind its divisions is accepted without shifts; with a sixth line the shifts are ignored. -/
theorem C99_violation_shifts : ∃ p q r : Str, ∃ e e' e'', LineEnd p ∧ LineEnd q ∧ init { handler := some p } = .ok e ∧
    init { handler := some (p ++ q) } = .ok e' ∧ init { handler := some (p ++ q ++ r) } = .ok e'' ∧
    e.get? c!"shifts" = some .none ∧ e'.get? c!"shifts" = some (atomsVal .float [1/2, 0, 0]) ∧ e''.get? c!"shifts" = some .none :=
  ⟨c!"m\n0\nGamma\n4 4 4\n", c!"0.5 0 0\n", c!"\n", _, _, _, .inr (by decide +kernel), .inr (by decide +kernel), rfl, rfl, rfl,
    by decide +kernel, by decide +kernel, by decide +kernel⟩

/-- C99 is false for the tetrahedra: cut behind the points the file is accepted without them. -/
theorem C99_violation_tetra : ∃ p q : Str, ∃ e e', LineEnd p ∧ init { handler := some p } = .ok e ∧ init { handler := some (p ++ q) } = .ok e' ∧
    e.get? c!"tetra" = some .none ∧ e'.get? c!"tetra" = some (rowsVal .int [[1, 1, 1, 1, 1]]) :=
  ⟨c!"m\n1\nDirect\n0 0 0 1\n", c!"Tetra\n1 0.5\n1 1 1 1 1\n", _, _, .inr (by decide +kernel), rfl, rfl, by decide +kernel, by decide +kernel⟩

/-- C99 is false inside a line: the file is accepted with another mesh. -/
theorem C99_violation_digit : ∃ p q : Str, ∃ e e', init { handler := some p } = .ok e ∧ init { handler := some (p ++ q) } = .ok e' ∧
    e.get? c!"divisions" = some (atomsVal .int [12, 12, 1]) ∧ e'.get? c!"divisions" = some (atomsVal .int [12, 12, 12]) :=
  ⟨c!"m\n0\nGamma\n12 12 1", c!"2\n", _, _, rfl, rfl, by decide +kernel, by decide +kernel⟩

end Verif.Kpoints
