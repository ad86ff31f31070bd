import Verif.Props.BlankEnd
/-! # Blank lines at the end of a KPOINTS file (C100) -/
set_option autoImplicit false
namespace Verif.Kpoints
open Verif

theorem bind_ok {α : Type} (r : Res α) : (r >>= fun a => Res.ok a) = r := by cases r <;> rfl

theorem forall₂_left {α β : Type} {R : α → β → Prop} {l : List α} {r : List β} (h : List.Forall₂ R l r) {a : α} (ha : a ∈ l) : ∃ b, R a b := by
  induction h with
  | nil => cases ha
  | cons h _ ih =>
    rcases List.mem_cons.1 ha with rfl | ha
    · exact ⟨_, h⟩
    · exact ih ha

/-- The first three lines decide about the mode. -/
theorem parse_modes {L : List Str} {P : Parsed} (h : parse L = .ok P) :
    ∃ (cm : Str) (num : Int) (c : Char),
      (P.mode = c!"line" ∧ ∀ L' : List Str, (∀ i < 3, idx L' i = idx L i) → parse L' = parseLineMode L' { comment := cm, num := num, mode := c!"line" }) ∨
      (P.mode = c!"automatic" ∧ num ≤ 0 ∧ ∀ L' : List Str, (∀ i < 3, idx L' i = idx L i) →
        parse L' = parseAutomatic L' { comment := cm, num := num, mode := c!"automatic" } c) ∨
      (P.mode = c!"explicit" ∧ 0 < num ∧ ∀ L' : List Str, (∀ i < 3, idx L' i = idx L i) →
        parse L' = parseExplicit L' { comment := cm, num := num, mode := c!"explicit" } c) := by
  by_cases hm : P.mode = c!"line"
  · obtain ⟨cm, num, hL⟩ := parse_line h hm
    exact ⟨cm, num, 'l', .inl ⟨hm, hL⟩⟩
  have h' := h
  unfold parse at h
  obtain ⟨l0, h0, h⟩ := Res.bind_eq_ok.1 h
  obtain ⟨l1, h1, h⟩ := Res.bind_eq_ok.1 h
  obtain ⟨w, hw, h⟩ := Res.bind_eq_ok.1 h
  obtain ⟨num, hnum, h⟩ := Res.bind_eq_ok.1 h
  obtain ⟨l2, h2, h⟩ := Res.bind_eq_ok.1 h
  obtain ⟨c, hc, h⟩ := Res.bind_eq_ok.1 h
  dsimp only at h
  by_cases hl : lowerC c = 'l'
  · exfalso
    have hauto : ∀ (L : List Str) (p : Parsed), parseAutomatic L p c = .ok p := by
      intro L p
      unfold parseAutomatic
      rw [hl]
      simp
    apply hm
    by_cases ha : num ≤ 0 <;> simp [ha, hl, hauto] at h <;>
    · unfold parseLineMode at h
      obtain ⟨l3, hl3, h⟩ := Res.bind_eq_ok.1 h
      obtain ⟨w, hw, h⟩ := Res.bind_eq_ok.1 h
      obtain ⟨c, hc, h⟩ := Res.bind_eq_ok.1 h
      split at h
      · obtain ⟨ps, _, h⟩ := Res.bind_eq_ok.1 h
        cases h
        rfl
      · cases h
  · refine ⟨strip (l0.filter (· != '#')), num, c, .inr ?_⟩
    by_cases ha : num ≤ 0
    · left
      simp only [ha, hl, decide_true, decide_false, Bool.not_true, Bool.false_and, Bool.false_eq_true, if_false, Res.ok_bind, if_true] at h
      obtain ⟨x, hx, h⟩ := Res.bind_eq_ok.1 h
      cases h
      refine ⟨parseAutomatic_mode hx, ha, ?_⟩
      intro L' hL
      unfold parse
      rw [hL 0 (by omega), hL 1 (by omega), hL 2 (by omega), h0, Res.ok_bind, h1, Res.ok_bind, hw, Res.ok_bind, hnum, Res.ok_bind, h2,
        Res.ok_bind, hc, Res.ok_bind]
      simp only [ha, hl, decide_true, decide_false, Bool.not_true, Bool.false_and, Bool.false_eq_true, if_false, Res.ok_bind, if_true]
      exact bind_ok _
    · right
      simp only [ha, hl, decide_false, Bool.not_false, Bool.and_true, Bool.false_eq_true, if_false, Res.ok_bind, if_true] at h
      obtain ⟨x, hx, h⟩ := Res.bind_eq_ok.1 h
      cases h
      refine ⟨parseExplicit_mode hx, by omega, ?_⟩
      intro L' hL
      unfold parse
      rw [hL 0 (by omega), hL 1 (by omega), hL 2 (by omega), h0, Res.ok_bind, h1, Res.ok_bind, hw, Res.ok_bind, hnum, Res.ok_bind, h2,
        Res.ok_bind, hc, Res.ok_bind]
      simp only [ha, hl, decide_false, Bool.not_false, Bool.and_true, Bool.false_eq_true, if_false, Res.ok_bind, if_true]
      exact bind_ok _

/-- A file that is read has three lines, so lines at its end do not decide about the mode. -/
theorem parse_three {L : List Str} {P : Parsed} (h : parse L = .ok P) (B : List Str) : ∀ i < 3, idx (L ++ B) i = idx L i := by
  unfold parse at h
  obtain ⟨l0, h0, h⟩ := Res.bind_eq_ok.1 h
  obtain ⟨l1, h1, h⟩ := Res.bind_eq_ok.1 h
  obtain ⟨w, hw, h⟩ := Res.bind_eq_ok.1 h
  obtain ⟨num, hnum, h⟩ := Res.bind_eq_ok.1 h
  obtain ⟨l2, h2, h⟩ := Res.bind_eq_ok.1 h
  have h2 : 2 < L.length := (List.getElem?_eq_some_iff.1 (idx_iff.1 h2)).1
  intro i hi
  exact idx_down (by omega)

theorem init_eq (t : Str) : init { handler := some t } = (fromList (readlines t) >>= fun e => validate e >>= fun _ => Res.ok e) := by
  unfold init load fromFile
  simp [guards]

theorem init_congr {t t' : Str} (h : parse (readlines t) = parse (readlines t')) : init { handler := some t } = init { handler := some t' } := by
  rw [init_eq, init_eq]
  unfold fromList
  rw [h]

/-- C100 for KPOINTS in line mode: empty lines at the end change nothing. -/
theorem C100_kpoints_line (t : Str) (ht : LineEnd t) (e : Entries) (h : init { handler := some t } = .ok e)
    (hm : e.get? c!"mode" = some (.str c!"line")) (n : Nat) : init { handler := some (t ++ List.replicate n '\n') } = .ok e := by
  have hs : ∀ n : Nat, readlines (List.replicate n '\n') = List.replicate n ['\n'] := by
    intro n
    induction n with
    | zero => rfl
    | succ n ih => rw [List.replicate_succ, List.replicate_succ, ← ih]; rfl
  obtain ⟨P, hP, rfl⟩ := init_handler h
  rw [(holds_toEntries P).mode] at hm
  have hm : P.mode = c!"line" := by simpa using hm
  obtain ⟨cm, num, hL⟩ := parse_line hP hm
  rw [← h]
  refine init_congr ?_
  rw [readlines_lineEnd ht, hs, hL _ (parse_three hP _), hP]
  have hfull := hL _ (fun _ _ => rfl)
  rw [hP] at hfull
  rw [hfull]
  have hfull := hfull.symm
  unfold parseLineMode at hfull ⊢
  obtain ⟨l3, hl3, hfull⟩ := Res.bind_eq_ok.1 hfull
  obtain ⟨w, hw, hfull⟩ := Res.bind_eq_ok.1 hfull
  obtain ⟨c, hc, hfull⟩ := Res.bind_eq_ok.1 hfull
  split at hfull
  · rename_i hrd
    obtain ⟨ps, hps, hfull⟩ := Res.bind_eq_ok.1 hfull
    have h3 : 3 < (readlines t).length := (List.getElem?_eq_some_iff.1 (idx_iff.1 hl3)).1
    have hz : ∀ n : Nat, Res.mapM' parseLinePoint (List.replicate n ['\n']) = .ok (List.replicate n []) := by
      intro n
      induction n with
      | zero => rfl
      | succ n ih =>
        rw [List.replicate_succ, List.replicate_succ]
        unfold Res.mapM'
        rw [ih]
        rfl
    rw [idx_mono hl3, hl3, Res.ok_bind, Res.ok_bind, hw, Res.ok_bind, Res.ok_bind, hc, Res.ok_bind, Res.ok_bind, if_pos hrd, if_pos hrd,
      List.drop_append_of_le_length (by omega), Incar.mapM'_append, hps, Res.ok_bind, hz, Res.ok_bind, Res.ok_bind]
    simp
  · cases hfull

/-- C100 for KPOINTS with generating vectors: whatever follows, so blank lines, too, changes nothing. -/
theorem C100_kpoints_vectors (t s : Str) (ht : LineEnd t) (e : Entries) (h : init { handler := some t } = .ok e)
    (hc : e.get? c!"centering" = some (.str c!"Reciprocal")) : init { handler := some (t ++ s) } = .ok e := by
  obtain ⟨P, hP, rfl⟩ := init_handler h
  rw [(holds_toEntries P).centering] at hc
  have hc : P.centering = some c!"Reciprocal" := by
    cases hp : P.centering with
    | none => rw [hp] at hc; cases hc
    | some x => rw [hp] at hc; simpa [optVal] using hc
  rw [← h]
  refine init_congr ?_
  rw [readlines_lineEnd ht]
  obtain ⟨cm, num, c, ⟨_, hL⟩ | ⟨_, _, hL⟩ | ⟨_, _, hL⟩⟩ := parse_modes hP
  · have hfull := (hL _ (fun _ _ => rfl)).symm.trans hP
    exfalso
    unfold parseLineMode at hfull
    obtain ⟨l3, hl3, hfull⟩ := Res.bind_eq_ok.1 hfull
    obtain ⟨w, hw, hfull⟩ := Res.bind_eq_ok.1 hfull
    obtain ⟨c, hc, hfull⟩ := Res.bind_eq_ok.1 hfull
    split at hfull
    · obtain ⟨ps, hps, hfull⟩ := Res.bind_eq_ok.1 hfull
      cases hfull
      cases hc
    · cases hfull
  · have hfull := (hL _ (fun _ _ => rfl)).symm.trans hP
    rw [hL _ (parse_three hP _), hP]
    unfold parseAutomatic at hfull ⊢
    split at hfull
    · cases hfull
    rename_i c1
    rw [if_neg c1]
    split at hfull
    · exfalso
      obtain ⟨l3, hl3, h⟩ := Res.bind_eq_ok.1 hfull
      obtain ⟨div, hdiv, h⟩ := Res.bind_eq_ok.1 h
      obtain ⟨s, hs1, h⟩ := Res.bind_eq_ok.1 h
      cases h
      simp only [Option.some.injEq] at hc
      split at hc <;> cases hc
    rename_i c2
    rw [if_neg c2]
    split at hfull
    · rename_i c3
      rw [if_pos c3]
      obtain ⟨gv, hgv, h⟩ := Res.bind_eq_ok.1 hfull
      have := mapM'_mono (g := fun k => idx (readlines t ++ readlines s) k >>= fun l => Res.mapM' toFloat (words l)) (by
        intro a b hab
        obtain ⟨x, hx, hab⟩ := Res.bind_eq_ok.1 hab
        rw [idx_mono hx, Res.ok_bind]
        exact hab) hgv
      obtain ⟨l6, hl6, h⟩ := Res.bind_eq_ok.1 h
      rw [this, Res.ok_bind, idx_mono hl6, Res.ok_bind]
      exact h
    exfalso
    split at hfull
    · cases hfull
    · cases hfull; cases hc
  · have hfull := (hL _ (fun _ _ => rfl)).symm.trans hP
    exfalso
    unfold parseExplicit at hfull
    split at hfull
    · cases hfull
    obtain ⟨ps, hps, h⟩ := Res.bind_eq_ok.1 hfull
    obtain ⟨t, ht, h⟩ := Res.bind_eq_ok.1 h
    cases h
    cases hc

theorem parseTetra_more {A B : List Str} {n : Nat} {t : Option (List (List Int)) × Option Rat} (h : parseTetra A n = .ok t)
    (hn : n + 1 < A.length) : parseTetra (A ++ B) n = .ok t := by
  unfold parseTetra at h ⊢
  rw [if_pos (show n < A.length by omega)] at h
  rw [if_pos (show n < (A ++ B).length by simp; omega)]
  obtain ⟨l, hl, h⟩ := Res.bind_eq_ok.1 h
  obtain ⟨c, hc, h⟩ := Res.bind_eq_ok.1 h
  rw [idx_mono hl, Res.ok_bind, hc, Res.ok_bind]
  split at h
  · rename_i hct
    rw [if_pos hct, if_pos (show n + 1 < (A ++ B).length by simp; omega)]
    obtain ⟨first, hf, h⟩ := Res.bind_eq_ok.1 h
    obtain ⟨w, hw, h⟩ := Res.bind_eq_ok.1 h
    obtain ⟨num, hnum, h⟩ := Res.bind_eq_ok.1 h
    obtain ⟨v, hv, h⟩ := Res.bind_eq_ok.1 h
    obtain ⟨vol, hvol, h⟩ := Res.bind_eq_ok.1 h
    obtain ⟨ts, hts, h⟩ := Res.bind_eq_ok.1 h
    have := mapM'_mono (g := fun t => idx (A ++ B) (t + (n + 2)) >>= parseTetraLine) (by
      intro a b hab
      obtain ⟨x, hx, hab⟩ := Res.bind_eq_ok.1 hab
      rw [idx_mono hx, Res.ok_bind]
      exact hab) hts
    rw [idx_mono hf, Res.ok_bind, hw, Res.ok_bind, hnum, Res.ok_bind, hv, Res.ok_bind, hvol, Res.ok_bind, this, Res.ok_bind]
    exact h
  · rename_i hct
    rw [if_neg hct]
    exact h

/-- The parts of an accepted list of points. -/
theorem parse_explicit {L : List Str} {P : Parsed} (h : parse L = .ok P) (hm : P.mode = c!"explicit") :
    ∃ (cm : Str) (c : Char), 0 < P.num ∧ P.num.toNat + 3 ≤ L.length ∧
      parseExplicit L { comment := cm, num := P.num, mode := c!"explicit" } c = .ok P ∧
      ∀ B, parse (L ++ B) = parseExplicit (L ++ B) { comment := cm, num := P.num, mode := c!"explicit" } c := by
  obtain ⟨cm, num, c, ⟨hm', _⟩ | ⟨hm', _⟩ | ⟨_, hn, hL⟩⟩ := parse_modes h
  · rw [hm] at hm'; cases hm'
  · rw [hm] at hm'; cases hm'
  have hfull := (hL _ (fun _ _ => rfl)).symm.trans h
  have hlen : P.num = num ∧ num.toNat + 3 ≤ L.length := by
    unfold parseExplicit at hfull
    split at hfull
    · cases hfull
    obtain ⟨ps, hps, h⟩ := Res.bind_eq_ok.1 hfull
    obtain ⟨t, ht, h⟩ := Res.bind_eq_ok.1 h
    cases h
    refine ⟨rfl, ?_⟩
    have : ∃ b, idx L ((num.toNat - 1) + 3) = .ok b := by
      have hmem : num.toNat - 1 ∈ List.range num.toNat := by simp; omega
      obtain ⟨b, hb⟩ := forall₂_left (Res.mapM'_eq_ok.1 hps) hmem
      obtain ⟨x, hx, _⟩ := Res.bind_eq_ok.1 hb
      exact ⟨x, hx⟩
    obtain ⟨b, hb⟩ := this
    have := (List.getElem?_eq_some_iff.1 (idx_iff.1 hb)).1
    omega
  obtain ⟨rfl, hlen⟩ := hlen
  exact ⟨cm, c, hn, hlen, hfull, fun B => hL _ (parse_three h B)⟩

/-- C100 for KPOINTS with a list of points: with more than one line behind the points (tetrahedra), whatever follows changes nothing. -/
theorem C100_kpoints_tetra (t s : Str) (ht : LineEnd t) (e : Entries) (n : Nat) (h : init { handler := some t } = .ok e)
    (hm : e.get? c!"mode" = some (.str c!"explicit")) (hn : e.get? c!"num_kpoints" = some (.int n)) (hlen : n + 5 ≤ (readlines t).length) :
    init { handler := some (t ++ s) } = .ok e := by
  obtain ⟨P, hP, rfl⟩ := init_handler h
  rw [(holds_toEntries P).mode] at hm
  rw [(holds_toEntries P).num] at hn
  have hm : P.mode = c!"explicit" := by simpa using hm
  have hn : P.num = n := by simpa using hn
  rw [← h]
  refine init_congr ?_
  rw [readlines_lineEnd ht]
  obtain ⟨cm, c, h0, hl, hfull, hL⟩ := parse_explicit hP hm
  rw [hL, hP]
  unfold parseExplicit at hfull ⊢
  split at hfull
  · cases hfull
  rename_i c1
  rw [if_neg c1]
  obtain ⟨ps, hps, h⟩ := Res.bind_eq_ok.1 hfull
  obtain ⟨tt, htt, h⟩ := Res.bind_eq_ok.1 h
  have := mapM'_mono (g := fun k => idx (readlines t ++ readlines s) (k + 3) >>= parsePoint) (by
    intro a b hab
    obtain ⟨x, hx, hab⟩ := Res.bind_eq_ok.1 hab
    rw [idx_mono hx, Res.ok_bind]
    exact hab) hps
  rw [this, Res.ok_bind, parseTetra_more htt (by simp only [hn]; simp; omega), Res.ok_bind]
  exact h

/-- C100 is false of every KPOINTS that ends with its list of points: with a blank line behind it the file is refused with an
`IndexError`. -/
theorem C100_violation_points (t s : Str) (ht : LineEnd t) (hs : BlankLines s) (hne : s ≠ []) (e : Entries) (n : Nat)
    (h : init { handler := some t } = .ok e) (hm : e.get? c!"mode" = some (.str c!"explicit"))
    (hn : e.get? c!"num_kpoints" = some (.int n)) (hlen : (readlines t).length = n + 3) :
    init { handler := some (t ++ s) } = .raise .indexError := by
  obtain ⟨P, hP, rfl⟩ := init_handler h
  rw [(holds_toEntries P).mode] at hm
  rw [(holds_toEntries P).num] at hn
  have hm : P.mode = c!"explicit" := by simpa using hm
  have hn : P.num = n := by simpa using hn
  obtain ⟨cm, c, h0, hl, hfull, hL⟩ := parse_explicit hP hm
  suffices parse (readlines (t ++ s)) = .raise .indexError by
    rw [init_eq]
    unfold fromList
    rw [this]
    rfl
  rw [readlines_lineEnd ht, hL]
  unfold parseExplicit at hfull ⊢
  split at hfull
  · cases hfull
  rename_i c1
  rw [if_neg c1]
  obtain ⟨ps, hps, h⟩ := Res.bind_eq_ok.1 hfull
  have := mapM'_mono (g := fun k => idx (readlines t ++ readlines s) (k + 3) >>= parsePoint) (by
    intro a b hab
    obtain ⟨x, hx, hab⟩ := Res.bind_eq_ok.1 hab
    rw [idx_mono hx, Res.ok_bind]
    exact hab) hps
  rw [this, Res.ok_bind]
  have hb : ∃ b bs, readlines s = b :: bs := by
    cases hr : readlines s with
    | nil => exact absurd (by rw [← readlines_flatten s, hr]; rfl) hne
    | cons b bs => exact ⟨b, bs, rfl⟩
  obtain ⟨b, bs, hb⟩ := hb
  have hbl : BlankLines b := hs.line (by rw [hb]; simp)
  unfold parseTetra
  rw [if_pos (by simp [hb, hn, hlen])]
  have hi : idx (readlines t ++ readlines s) (n + 3) = .ok b := by
    rw [idx_iff, List.getElem?_append_right (by omega), hlen, hb]
    simp
  simp only [hn, Int.toNat_natCast]
  rw [hi, Res.ok_bind, hbl.strip]
  rfl

/-- What is read of a mesh, without its shifts. -/
theorem parse_mesh {L : List Str} {P : Parsed} (h : parse L = .ok P) (x : Str) (hc : P.centering = some x) (hx : x ≠ c!"Reciprocal") :
    ∃ P0 : Parsed, P0.shifts = none ∧ 4 ≤ L.length ∧
      ∀ B, parse (L ++ B) = ((if (L ++ B).length = 5 then idx (L ++ B) 4 >>= fun l4 => Res.mapM' toFloat (words l4) >>= fun s => .ok (some s)
        else .ok none) >>= fun shifts => .ok { P0 with shifts := shifts }) := by
  obtain ⟨cm, num, c, ⟨_, hL⟩ | ⟨_, _, hL⟩ | ⟨_, _, hL⟩⟩ := parse_modes h
  · have hfull := (hL _ (fun _ _ => rfl)).symm.trans h
    exfalso
    unfold parseLineMode at hfull
    obtain ⟨l3, hl3, hfull⟩ := Res.bind_eq_ok.1 hfull
    obtain ⟨w, hw, hfull⟩ := Res.bind_eq_ok.1 hfull
    obtain ⟨c, hc, hfull⟩ := Res.bind_eq_ok.1 hfull
    split at hfull
    · obtain ⟨ps, hps, hfull⟩ := Res.bind_eq_ok.1 hfull
      cases hfull
      cases hc
    · cases hfull
  · have hfull := (hL _ (fun _ _ => rfl)).symm.trans h
    unfold parseAutomatic at hfull
    split at hfull
    · cases hfull
    rename_i c1
    split at hfull
    · rename_i c2
      obtain ⟨l3, hl3, h'⟩ := Res.bind_eq_ok.1 hfull
      obtain ⟨div, hdiv, h'⟩ := Res.bind_eq_ok.1 h'
      refine ⟨{ comment := cm
                num := num
                mode := c!"automatic"
                centering := some (if lowerC c = 'g' then c!"Gamma" else c!"Monkhorst-Pack")
                divisions := some div }, rfl, ?_, ?_⟩
      · have := (List.getElem?_eq_some_iff.1 (idx_iff.1 hl3)).1
        omega
      · intro B
        rw [hL _ (parse_three h B)]
        unfold parseAutomatic
        rw [if_neg c1, if_pos c2, idx_mono hl3, Res.ok_bind, hdiv, Res.ok_bind]
    split at hfull
    · obtain ⟨gv, hgv, h'⟩ := Res.bind_eq_ok.1 hfull
      obtain ⟨l6, hl6, h'⟩ := Res.bind_eq_ok.1 h'
      obtain ⟨s, hs, h'⟩ := Res.bind_eq_ok.1 h'
      cases h'
      cases hc
      exact absurd rfl hx
    exfalso
    split at hfull
    · cases hfull
    · cases hfull; cases hc
  · have hfull := (hL _ (fun _ _ => rfl)).symm.trans h
    exfalso
    unfold parseExplicit at hfull
    split at hfull
    · cases hfull
    obtain ⟨ps, hps, h⟩ := Res.bind_eq_ok.1 hfull
    obtain ⟨t, ht, h⟩ := Res.bind_eq_ok.1 h
    cases h
    cases hc

theorem readlines_ne {s : Str} (hne : s ≠ []) : ∃ b bs, readlines s = b :: bs := by
  cases hr : readlines s with
  | nil => exact absurd (by rw [← readlines_flatten s, hr]; rfl) hne
  | cons b bs => exact ⟨b, bs, rfl⟩

/-- A mesh. -/
def IsMesh (e : Entries) : Prop := e.get? c!"centering" = some (.str c!"Gamma") ∨ e.get? c!"centering" = some (.str c!"Monkhorst-Pack")

theorem IsMesh.parsed {P : Parsed} (h : IsMesh P.toEntries) : ∃ x, P.centering = some x ∧ x ≠ c!"Reciprocal" := by
  unfold IsMesh at h
  rw [(holds_toEntries P).centering] at h
  cases hp : P.centering with
  | none => rw [hp] at h; rcases h with h | h <;> cases h
  | some x =>
    refine ⟨x, rfl, ?_⟩
    rintro rfl
    rw [hp] at h
    rcases h with h | h <;> exact absurd h (by decide)

/-- C100 is false of every mesh with shifts on its fifth and last line: a blank line behind it, and, if the file is still accepted, it is
read without the shifts. -/
theorem C100_violation_shifts (t s : Str) (ht : LineEnd t) (hne : s ≠ []) (e e' : Entries) (h : init { handler := some t } = .ok e)
    (hm : IsMesh e) (hlen : (readlines t).length = 5) (h' : init { handler := some (t ++ s) } = .ok e') :
    (∃ x : List Rat, e.get? c!"shifts" = some (atomsVal .float x)) ∧ e'.get? c!"shifts" = some .none := by
  obtain ⟨P, hP, rfl⟩ := init_handler h
  obtain ⟨P', hP', rfl⟩ := init_handler h'
  obtain ⟨x, hx, hr⟩ := hm.parsed
  obtain ⟨P0, h0, h4, hL⟩ := parse_mesh hP x hx hr
  obtain ⟨b, bs, hb⟩ := readlines_ne hne
  rw [readlines_lineEnd ht, hL, if_neg (by rw [List.length_append, hlen, hb]; simp), Res.ok_bind] at hP'
  cases hP'
  have hfull := hL []
  rw [List.append_nil, if_pos hlen, hP] at hfull
  obtain ⟨sh, hsh, hfull⟩ := Res.bind_eq_ok.1 hfull.symm
  obtain ⟨l4, _, hsh⟩ := Res.bind_eq_ok.1 hsh
  obtain ⟨v, _, hsh⟩ := Res.bind_eq_ok.1 hsh
  cases hsh
  cases hfull
  exact ⟨⟨v, rfl⟩, rfl⟩

/-- C100 is false of every mesh without shifts: one blank line behind its four lines is read as an empty list of shifts. -/
theorem C100_violation_mesh (t s : Str) (ht : LineEnd t) (hs : BlankLines s) (e e' : Entries) (h : init { handler := some t } = .ok e)
    (hm : IsMesh e) (hlen : (readlines t).length = 4) (hone : (readlines s).length = 1) (h' : init { handler := some (t ++ s) } = .ok e') :
    e.get? c!"shifts" = some .none ∧ e'.get? c!"shifts" = some (atomsVal .float []) := by
  obtain ⟨P, hP, rfl⟩ := init_handler h
  obtain ⟨P', hP', rfl⟩ := init_handler h'
  obtain ⟨x, hx, hr⟩ := hm.parsed
  obtain ⟨P0, h0, h4, hL⟩ := parse_mesh hP x hx hr
  obtain ⟨b, hb⟩ := List.length_eq_one_iff.1 hone
  have hbl : BlankLines b := hs.line (by rw [hb]; simp)
  have hi : idx (readlines t ++ readlines s) 4 = .ok b := by
    rw [idx_iff, List.getElem?_append_right (by omega), hlen, hb]
    rfl
  rw [readlines_lineEnd ht, hL, if_pos (by rw [List.length_append, hlen, hb]; rfl), hi, Res.ok_bind, hbl.words] at hP'
  cases hP'
  have hfull := hL []
  rw [List.append_nil, if_neg (by omega), hP] at hfull
  cases hfull
  exact ⟨rfl, rfl⟩

/-- C100, concretely: both meshes of the violations, a list of points, a path and generating vectors, each read with and without a blank
line at the end. -/
example : ∃ e e' : Entries, init { handler := some c!"m\n0\nGamma\n4 4 4\n0.5 0 0\n" } = .ok e ∧ IsMesh e ∧
    init { handler := some (c!"m\n0\nGamma\n4 4 4\n0.5 0 0\n" ++ c!"\n") } = .ok e' ∧
    e.get? c!"shifts" = some (atomsVal .float [1/2, 0, 0]) ∧ e'.get? c!"shifts" = some .none :=
  ⟨_, _, rfl, .inl (by decide +kernel), rfl, by decide +kernel, by decide +kernel⟩
example : ∃ e e' : Entries, init { handler := some c!"m\n0\nGamma\n4 4 4\n" } = .ok e ∧ IsMesh e ∧
    init { handler := some (c!"m\n0\nGamma\n4 4 4\n" ++ c!"\n") } = .ok e' ∧
    e.get? c!"shifts" = some .none ∧ e'.get? c!"shifts" = some (.list []) :=
  ⟨_, _, rfl, .inl (by decide +kernel), rfl, by decide +kernel, by decide +kernel⟩
example : ∃ e : Entries, init { handler := some c!"m\n1\nDirect\n0 0 0 1\n" } = .ok e ∧ e.get? c!"mode" = some (.str c!"explicit") ∧
    e.get? c!"num_kpoints" = some (.int (1 : Nat)) ∧ init { handler := some (c!"m\n1\nDirect\n0 0 0 1\n" ++ c!"\n") } = .raise .indexError :=
  ⟨_, rfl, by decide +kernel, by decide +kernel, rfl⟩
example : ∃ e : Entries, init { handler := some c!"m\n1\nDirect\n0 0 0 1\nTetra\n1 0.5\n1 1 1 1 1\n" } = .ok e ∧
    e.get? c!"mode" = some (.str c!"explicit") ∧ e.get? c!"num_kpoints" = some (.int (1 : Nat)) :=
  ⟨_, rfl, by decide +kernel, by decide +kernel⟩
example : ∃ e : Entries, init { handler := some c!"b\n20\nLine-mode\nrec\n 0 0 0\n 0.5 0 0\n" } = .ok e ∧
    e.get? c!"mode" = some (.str c!"line") :=
  ⟨_, rfl, by decide +kernel⟩
example : ∃ e : Entries, init { handler := some c!"b\n0\nReciprocal\n0.25 0 0\n0 0.25 0\n0 0 0.25\n0.5 0.5 0.5\n" } = .ok e ∧
    e.get? c!"centering" = some (.str c!"Reciprocal") :=
  ⟨_, rfl, by decide +kernel⟩

/-- C100 is false in line mode for a line of blanks: it is read as a point without coordinates. -/
theorem C100_violation_line : ∃ e : Entries, init { handler := some (c!"b\n20\nLine-mode\nrec\n 0 0 0\n" ++ c!"  \n") } = .ok e ∧
    e.get? c!"points" = some (atomsVal .point [⟨[0, 0, 0], some 1, true⟩, ⟨[], some 1, true⟩]) :=
  ⟨_, rfl, by decide +kernel⟩

end Verif.Kpoints
