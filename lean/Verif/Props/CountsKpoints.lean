import Verif.Props.KpointsEdit
import Verif.Props.Doscar
/-! C124 for KPOINTS: impossible numbers of points and tetrahedra. -/
set_option autoImplicit false
namespace Verif.Kpoints
open Verif Verif.Utils

theorem init_text (t : Str) (e : Entries) : init { handler := some t } = .ok e ↔ ∃ p, parse (readlines t) = .ok p ∧ e = p.toEntries ∧ validate e = .ok () := by
  have : init { handler := some t } = (parse (readlines t) >>= fun p => validate p.toEntries >>= fun _ => .ok p.toEntries) := by
    show (if false = true then _ else _) = _
    rw [if_neg (by decide)]
    unfold load fromFile fromList
    simp only [Option.isSome, Bool.or_true, if_true]
    cases parse (readlines t) <;> rfl
  rw [this]
  simp only [Res.bind_eq_ok]
  constructor
  · rintro ⟨p, hp, _, hv, he⟩
    cases he
    exact ⟨p, hp, rfl, hv⟩
  · rintro ⟨p, hp, rfl, hv⟩
    exact ⟨p, hp, _, hv, rfl⟩

/-- An explicit file announces at least one point. -/
theorem parse_count {lines : List Str} {p : Parsed} (h : parse lines = .ok p) (hm : p.mode = c!"explicit") : 0 < p.num := by
  unfold parse at h
  simp only [Res.bind_eq_ok] at h
  obtain ⟨l0, _, l1, _, w, _, num, _, l2, _, c, _, p1, h1, p2, h2, h3⟩ := h
  have hmode : p.mode = p2.mode ∧ p.num = p2.num := by
    split at h3
    · unfold parseLineMode at h3
      simp only [Res.bind_eq_ok] at h3
      obtain ⟨_, _, _, _, _, _, h3⟩ := h3
      split at h3
      · simp only [Res.bind_eq_ok] at h3
        obtain ⟨_, _, h3⟩ := h3
        cases h3; exact ⟨rfl, rfl⟩
      · cases h3
    · cases h3; exact ⟨rfl, rfl⟩
  have hmode2 : p2.mode = p1.mode ∧ p2.num = p1.num := by
    split at h2
    · unfold parseAutomatic at h2
      split at h2
      · cases h2
      · split at h2
        · simp only [Res.bind_eq_ok] at h2
          obtain ⟨_, _, _, _, _, _, h2⟩ := h2
          cases h2; exact ⟨rfl, rfl⟩
        · split at h2
          · simp only [Res.bind_eq_ok] at h2
            obtain ⟨_, _, _, _, _, _, h2⟩ := h2
            cases h2; exact ⟨rfl, rfl⟩
          · split at h2
            · cases h2
            · cases h2; exact ⟨rfl, rfl⟩
    · cases h2; exact ⟨rfl, rfl⟩
  have hmode1 : p1.mode = (if lowerC c = 'l' then c!"line" else if num ≤ 0 then c!"automatic" else c!"explicit") ∧ p1.num = num := by
    split at h1
    · unfold parseExplicit at h1
      split at h1
      · cases h1
      · simp only [Res.bind_eq_ok] at h1
        obtain ⟨_, _, _, _, h1⟩ := h1
        cases h1; simp
    · cases h1; simp
  rw [hmode.1, hmode2.1, hmode1.1] at hm
  rw [hmode.2, hmode2.2, hmode1.2]
  split at hm
  · cases hm
  · split at hm
    · cases hm
    · omega

/-- What stands behind the explicit points. -/
theorem parse_explicit_parts {lines : List Str} {p : Parsed} (h : parse lines = .ok p) (hm : p.mode = c!"explicit") :
    ∃ (l0 l1 w l2 : Str) (c : Char) (ps : List Kpoint), idx lines 0 = .ok l0 ∧ idx lines 1 = .ok l1 ∧ idx (words l1) 0 = .ok w ∧ toInt w = .ok p.num ∧
      idx lines 2 = .ok l2 ∧ idx (strip l2) 0 = .ok c ∧ 0 < p.num ∧ lowerC c ≠ 'l' ∧ ¬ (lowerC c = 'k' ∨ lowerC c = 'c') ∧
      Res.mapM' (fun k => idx lines (k + 3) >>= parsePoint) (List.range p.num.toNat) = .ok ps ∧
      parseTetra lines (p.num.toNat + 3) = .ok (p.tetra, p.tetraVol) ∧
      p = { comment := strip (l0.filter (· != '#')), num := p.num, mode := c!"explicit", points := some ps, tetra := p.tetra, tetraVol := p.tetraVol } := by
  have hpos := parse_count h hm
  unfold parse at h
  simp only [Res.bind_eq_ok] at h
  obtain ⟨l0, e0, l1, e1, w, ew, num, en, l2, e2, c, ec, p1, h1, p2, h2, h3⟩ := h
  by_cases hl : lowerC c = 'l'
  · exfalso
    simp only [hl, decide_true, Bool.not_true, Bool.and_false, Bool.false_eq_true, if_false, if_true] at h1 h3
    cases h1
    unfold parseLineMode at h3
    simp only [Res.bind_eq_ok] at h3
    obtain ⟨_, _, _, _, _, _, h3⟩ := h3
    have hp2 : p2.mode = c!"line" := by
      split at h2
      · unfold parseAutomatic at h2
        split at h2
        · cases h2
        · split at h2
          · simp only [Res.bind_eq_ok] at h2
            obtain ⟨_, _, _, _, _, _, h2⟩ := h2
            cases h2; rfl
          · split at h2
            · simp only [Res.bind_eq_ok] at h2
              obtain ⟨_, _, _, _, _, _, h2⟩ := h2
              cases h2; rfl
            · split at h2
              · cases h2
              · cases h2; rfl
      · cases h2; rfl
    split at h3
    · simp only [Res.bind_eq_ok] at h3
      obtain ⟨_, _, h3⟩ := h3
      cases h3
      rw [hp2] at hm; revert hm; decide
    · cases h3
  · simp only [hl, decide_false, Bool.false_eq_true, if_false] at h1 h3
    cases h3
    by_cases hn : num ≤ 0
    · exfalso
      simp only [hn, decide_true, Bool.not_true, Bool.false_and, Bool.false_eq_true, if_false, if_true] at h1 h2
      cases h1
      unfold parseAutomatic at h2
      split at h2
      · cases h2
      · split at h2
        · simp only [Res.bind_eq_ok] at h2
          obtain ⟨_, _, _, _, _, _, h2⟩ := h2
          cases h2; revert hm; simp
        · split at h2
          · simp only [Res.bind_eq_ok] at h2
            obtain ⟨_, _, _, _, _, _, h2⟩ := h2
            cases h2; revert hm; simp
          · split at h2
            · cases h2
            · cases h2; revert hm; simp
    · simp only [hn, decide_false, Bool.not_false, Bool.and_self, Bool.false_eq_true, if_false, if_true] at h1 h2
      cases h2
      unfold parseExplicit at h1
      split at h1
      · cases h1
      · rename_i hkc
        simp only [Res.bind_eq_ok] at h1
        obtain ⟨ps, hps, t, ht, h1⟩ := h1
        cases h1
        exact ⟨l0, l1, w, l2, c, ps, e0, e1, ew, en, e2, ec, hpos, hl, hkc, hps, ht, rfl⟩

theorem parse_of_explicit {lines : List Str} {p : Parsed} {l0 l1 w l2 : Str} {c : Char} {ps : List Kpoint} {tetra : Option (List (List Int))} {vol : Option Rat}
    {num : Int} (e0 : idx lines 0 = .ok l0) (e1 : idx lines 1 = .ok l1) (ew : idx (words l1) 0 = .ok w) (en : toInt w = .ok num) (e2 : idx lines 2 = .ok l2)
    (ec : idx (strip l2) 0 = .ok c) (hpos : 0 < num) (hl : lowerC c ≠ 'l') (hkc : ¬ (lowerC c = 'k' ∨ lowerC c = 'c'))
    (hps : Res.mapM' (fun k => idx lines (k + 3) >>= parsePoint) (List.range num.toNat) = .ok ps) (ht : parseTetra lines (num.toNat + 3) = .ok (tetra, vol))
    (hp : p = { comment := strip (l0.filter (· != '#')), num := num, mode := c!"explicit", points := some ps, tetra := tetra, tetraVol := vol }) :
    parse lines = .ok p := by
  have hn : ¬ num ≤ 0 := by omega
  unfold parse
  rw [e0, Res.ok_bind, e1, Res.ok_bind, ew, Res.ok_bind, en, Res.ok_bind, e2, Res.ok_bind, ec, Res.ok_bind]
  simp only [hl, hn, decide_false, Bool.not_false, Bool.and_self, Bool.false_eq_true, if_false, if_true]
  unfold parseExplicit
  rw [if_neg hkc]
  simp only
  rw [hps, Res.ok_bind, ht, Res.ok_bind, hp]
  rfl

/-- C124 for KPOINTS: a file that announces tetrahedra has as many as announced, none if less than zero are announced. Missing in the full claim:
numbers below zero are not refused, see `C124_violation_kpoints`. -/
theorem C124_kpoints_partial (t : Str) (e : Entries) (h : init { handler := some t } = .ok e) (hm : e.get? c!"mode" = some (.str c!"explicit")) :
    ∃ (n : Nat) (ps : List Kpoint), 0 < n ∧ e.get? c!"num_kpoints" = some (.int n) ∧ e.get? c!"points" = some (atomsVal .point ps) ∧ ps.length = n ∧
      ∀ rows, e.get? c!"tetra" = some (rowsVal .int rows) → (readlines t).length = n + 4 ∧ rows = [] ∨
        ∃ (l w : Str) (k : Int), (readlines t)[n + 4]? = some l ∧ (words l).head? = some w ∧ pyInt w = some k ∧ rows.length = k.toNat := by
  obtain ⟨p, hp, rfl, -⟩ := (init_text t e).1 h
  have hh := holds_toEntries p
  have hm' : p.mode = c!"explicit" := by
    rw [hh.mode] at hm
    simpa using hm
  obtain ⟨l0, l1, w, l2, c, ps, e0, e1, ew, en, e2, ec, hpos, hl, hkc, hps, ht, he⟩ := parse_explicit_parts hp hm'
  have hlen := mapM'_length hps
  rw [List.length_range] at hlen
  refine ⟨p.num.toNat, ps, by omega, ?_, ?_, hlen, ?_⟩
  · rw [hh.num]; congr 2; congr 1; omega
  · rw [hh.points, he]; rfl
  · intro rows hr
    have hr' : p.tetra = some rows := by
      have h1 : p.toEntries.get? c!"tetra" = some (optVal (rowsVal .int) p.tetra) := rfl
      rw [h1] at hr
      have h2 := Option.some.inj hr
      cases hpt : p.tetra with
      | none => rw [hpt] at h2; cases h2
      | some r =>
        rw [hpt] at h2
        have inj : ∀ (a b : List (List Int)), rowsVal Atom.int a = rowsVal Atom.int b → a = b := by
          intro a b hab
          simp only [rowsVal, Val.list.injEq] at hab
          refine List.map_injective_iff.2 ?_ hab
          intro x y hxy
          simp only [Elem.list.injEq] at hxy
          exact List.map_injective_iff.2 (fun _ _ h => by cases h; rfl) hxy
        rw [inj _ _ h2]
    unfold parseTetra at ht
    split at ht
    · rename_i hlt
      simp only [Res.bind_eq_ok] at ht
      obtain ⟨l, hl1, c', hc', ht⟩ := ht
      split at ht
      · split at ht
        · simp only [Res.bind_eq_ok] at ht
          obtain ⟨first, hf, n, hn, num, hnum, v, hv, vol, hvol, ts, hts, ht⟩ := ht
          right
          simp only [Res.ok.injEq, Prod.mk.injEq] at ht
          rw [hr'] at ht
          have hrows : ts = rows := Option.some.inj ht.1
          have hl := mapM'_length hts
          rw [List.length_range, hrows] at hl
          refine ⟨first, n, num, ?_, ?_, ?_, hl⟩
          · have := Doscar.idx_ok' hf; exact this
          · rw [List.head?_eq_getElem?]; exact Doscar.idx_ok' hn
          · unfold toInt at hnum
            cases hp : pyInt n with
            | none => rw [hp] at hnum; cases hnum
            | some m => rw [hp] at hnum; cases hnum; rfl
        · left
          simp only [Res.ok.injEq, Prod.mk.injEq] at ht
          rw [hr'] at ht
          exact ⟨by omega, (Option.some.inj ht.1).symm⟩
      · simp only [Res.ok.injEq, Prod.mk.injEq] at ht
        rw [hr'] at ht; cases ht.1
    · simp only [Res.ok.injEq, Prod.mk.injEq] at ht
      rw [hr'] at ht; cases ht.1

/-- C124 is false of KPOINTS files with a negative number of tetrahedra: take any accepted explicit file with tetrahedra and print a negative number in place of
the number of tetrahedra. The file is accepted, without any tetrahedra. -/
theorem C124_violation_kpoints (t t' : Str) (e : Entries) (h : init { handler := some t } = .ok e) (hm : e.get? c!"mode" = some (.str c!"explicit")) (n : Nat)
    (hn : e.get? c!"num_kpoints" = some (.int n)) (rows : List (List Int)) (hr : e.get? c!"tetra" = some (rowsVal .int rows)) (hlen : n + 4 < (readlines t).length)
    (l w v : Str) (ws : List Str) (k : Int) (vol : Rat) (ht : readlines t' = (readlines t).set (n + 4) l) (hw : words l = w :: v :: ws) (hk : pyInt w = some k)
    (hneg : k < 0) (hv : pyFloatRat v = some vol) : ∃ e', init { handler := some t' } = .ok e' ∧ e'.get? c!"tetra" = some (rowsVal .int []) ∧
      e'.get? c!"points" = e.get? c!"points" ∧ e'.get? c!"num_kpoints" = e.get? c!"num_kpoints" ∧ e'.get? c!"mode" = e.get? c!"mode" := by
  obtain ⟨p, hp, rfl, hval⟩ := (init_text t e).1 h
  have hh := holds_toEntries p
  have hm' : p.mode = c!"explicit" := by
    rw [hh.mode] at hm
    simpa using hm
  have hnum : p.num = n := by
    rw [hh.num] at hn
    simpa using hn
  obtain ⟨l0, l1, w0, l2, c, ps, e0, e1, ew, en, e2, ec, hpos, hl, hkc, hps, htet, he⟩ := parse_explicit_parts hp hm'
  have hset : ∀ j, j ≠ n + 4 → idx (readlines t') j = idx (readlines t) j := by
    intro j hj
    rw [ht]; unfold idx; rw [List.getElem?_set_ne (by omega)]
  have hlen' : (readlines t').length = (readlines t).length := by rw [ht, List.length_set]
  rw [hnum] at htet hps en hpos
  simp only [Int.toNat_natCast] at htet hps
  have hpt : p.tetra = some rows ∨ ∃ r, p.tetra = some r := by
    cases hpt : p.tetra with
    | none =>
      have h1 : p.toEntries.get? c!"tetra" = some (optVal (rowsVal .int) p.tetra) := rfl
      rw [h1, hpt] at hr; cases hr
    | some r => exact .inr ⟨r, rfl⟩
  obtain ⟨r0, hpt⟩ : ∃ r, p.tetra = some r := by rcases hpt with h | h; exact ⟨_, h⟩; exact h
  have htet' : parseTetra (readlines t') (n + 3) = .ok (some [], some vol) := by
    unfold parseTetra at htet ⊢
    rw [hpt] at htet
    rw [if_pos (by omega)] at htet ⊢
    simp only [Res.bind_eq_ok] at htet
    obtain ⟨l', hl1, c', hc', htet⟩ := htet
    rw [hset _ (by omega), hl1, Res.ok_bind, hc', Res.ok_bind]
    split at htet
    · rename_i hct
      rw [if_pos hct, if_pos (by omega)]
      have h1 : idx (readlines t') (n + 3 + 1) = .ok l := by
        rw [ht]; unfold idx; rw [List.getElem?_set_self (by omega)]
      have h2 : idx (words l) 0 = .ok w := by rw [hw]; rfl
      have h3 : idx (words l) 1 = .ok v := by rw [hw]; rfl
      have h4 : toInt w = .ok k := by unfold toInt; rw [hk]
      have h5 : toFloat v = .ok vol := (Doscar.toFloat_iff _ _).2 hv
      rw [h1, Res.ok_bind, h2, Res.ok_bind, h4, Res.ok_bind, h3, Res.ok_bind, h5, Res.ok_bind, Int.toNat_of_nonpos (by omega)]
      rfl
    · simp only [Res.ok.injEq, Prod.mk.injEq] at htet
      cases htet.1
  have hps' : Res.mapM' (fun k => idx (readlines t') (k + 3) >>= parsePoint) (List.range n) = .ok ps := by
    rw [← hps]
    have : ∀ (ks : List Nat), (∀ k ∈ ks, k < n) → Res.mapM' (fun k => idx (readlines t') (k + 3) >>= parsePoint) ks =
        Res.mapM' (fun k => idx (readlines t) (k + 3) >>= parsePoint) ks := by
      intro ks hks
      induction ks with
      | nil => rfl
      | cons k ks ih =>
        have hk := hks k (by simp)
        simp only [Res.mapM', hset (k + 3) (by omega), ih fun k hk => hks k (by simp [hk])]
    exact this _ fun k hk => List.mem_range.1 hk
  have hp' := parse_of_explicit (p := { p with tetra := some [], tetraVol := some vol }) (by rw [hset _ (by omega), e0]) (by rw [hset _ (by omega), e1]) ew en
    (by rw [hset _ (by omega), e2]) ec hpos hl hkc (by simpa using hps') (by simpa using htet') (by rw [he, hnum])
  refine ⟨({ p with tetra := some [], tetraVol := some vol } : Parsed).toEntries, ?_, rfl, rfl, rfl, rfl⟩
  have hval' : validate ({ p with tetra := some [], tetraVol := some vol } : Parsed).toEntries = .ok () := by
    unfold validate at hval ⊢
    simp only [Res.bind_eq_ok] at hval
    obtain ⟨_, v1, _, v2, _, v3, _, v4, _, v5, _, v6, _, v7, _, v8, _, v9, _, v10, v11⟩ := hval
    simp only [Res.bind_eq_ok]
    exact ⟨_, v1, _, v2, _, v3, _, v4, _, v5, _, v6, _, v7, _, v8, _, v9, (), rfl, rfl⟩
  exact (init_text t' _).2 ⟨_, hp', rfl, hval'⟩

/-- Non-vacuity. -/
example : (∃ e, init { handler := some c!"x\n1\nDirect\n0 0 0 1\nTetra\n1 0.25\n6 1 2 3 4\n" } = .ok e ∧ e.get? c!"tetra" = some (rowsVal .int [[6, 1, 2, 3, 4]]) ∧
      e.get? c!"mode" = some (.str c!"explicit") ∧ e.get? c!"num_kpoints" = some (.int (1 : Nat))) ∧
    (∃ e, init { handler := some c!"x\n1\nDirect\n0 0 0 1\nTetra\n-1 0.25\n6 1 2 3 4\n" } = .ok e ∧ e.get? c!"tetra" = some (rowsVal .int [])) ∧
    readlines c!"x\n1\nDirect\n0 0 0 1\nTetra\n-1 0.25\n6 1 2 3 4\n" = (readlines c!"x\n1\nDirect\n0 0 0 1\nTetra\n1 0.25\n6 1 2 3 4\n").set (1 + 4) c!"-1 0.25\n" :=
  ⟨⟨_, rfl, by decide +kernel, by decide +kernel, by decide +kernel⟩, ⟨_, rfl, by decide +kernel⟩, by decide +kernel⟩

end Verif.Kpoints
