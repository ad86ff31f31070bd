import Verif.Props.OutcarTables
import Verif.Lemmas.Cut
/-! # OUTCAR files cut off at any character (C91)

A run that was killed, or a disk that filled up, leaves a beginning `p` of the file `p ++ q` that would have been written. -/
set_option autoImplicit false
namespace Verif.Outcar
open Verif Verif.Utils
open Verif.Kpoints (idx toFloat toInt)

/-! ### iteration lines -/

theorem digit_ne_I {c : Char} (h : isDigit c = true) : c ≠ 'I' := by rintro rfl; revert h; decide

theorem iterOf_I {s : Str} {r : Nat × Nat} (h : iterOf s = some r) : ∃ u v, s = u ++ 'I' :: v := by
  induction s with
  | nil => cases h
  | cons c cs ih =>
    unfold iterOf at h
    split at h
    · rename_i r' hr
      obtain ⟨n, m⟩ := r'
      obtain ⟨b1, d1, b2, d2, post, e, _⟩ := (iterHere_iff _ _ _).1 hr
      exact ⟨[], c!"teration" ++ b1 ++ d1 ++ ['('] ++ b2 ++ d2 ++ [')'] ++ post, by rw [e]; simp⟩
    · obtain ⟨u, v, rfl⟩ := ih h
      exact ⟨c :: u, v, rfl⟩

theorem iterHere_append {s x : Str} {r : Nat × Nat} (h : iterHere s = some r) : iterHere (s ++ x) = some r := by
  obtain ⟨n, m⟩ := r
  rw [iterHere_iff] at h ⊢
  obtain ⟨b1, d1, b2, d2, post, rfl, rest⟩ := h
  exact ⟨b1, d1, b2, d2, post ++ x, by simp, rest⟩

/-- What a cut line says about the iteration the complete line says, too. -/
theorem iterOf_append {s x : Str} {r : Nat × Nat} (h : iterOf s = some r) : iterOf (s ++ x) = some r := by
  induction s with
  | nil => cases h
  | cons c cs ih =>
    unfold iterOf at h
    rw [List.cons_append]
    unfold iterOf
    split at h
    · rename_i r' hr
      cases h
      have := iterHere_append (x := x) hr
      rw [List.cons_append] at this
      rw [this]
    · rename_i hn
      cases hh : iterHere (c :: (cs ++ x)) with
      | none => exact ih h
      | some r' =>
        exfalso
        obtain ⟨n, m⟩ := r'
        obtain ⟨b1, d1, b2, d2, post, e, h1, h2, n1, n2, g1, g2, rfl, rfl⟩ := (iterHere_iff _ _ _).1 hh
        obtain ⟨u, v, rfl⟩ := iterOf_I h
        have hno : 'I' ∉ c!"teration" ++ b1 ++ d1 ++ ['('] ++ b2 ++ d2 ++ [')'] := by
          simp only [List.mem_append, not_or, List.mem_singleton]
          refine ⟨⟨⟨⟨⟨⟨by decide, ?_⟩, ?_⟩, by decide⟩, ?_⟩, ?_⟩, by decide⟩
          · intro hm; exact absurd (h1 _ hm) (by decide)
          · intro hm; exact digit_ne_I (g1 _ hm) rfl
          · intro hm; exact absurd (h2 _ hm) (by decide)
          · intro hm; exact digit_ne_I (g2 _ hm) rfl
        have hM : ∀ z : Str, c :: (u ++ 'I' :: v) = (c!"Iteration" ++ b1 ++ d1 ++ ['('] ++ b2 ++ d2 ++ [')']) ++ z → False := by
          intro z hz
          have : iterHere (c :: (u ++ 'I' :: v)) = some (ofDigits (d1.map digitVal), ofDigits (d2.map digitVal)) :=
            (iterHere_iff _ _ _).2 ⟨b1, d1, b2, d2, z, hz, h1, h2, n1, n2, g1, g2, rfl, rfl⟩
          rw [hn] at this; cases this
        have e' : (c :: u) ++ ('I' :: (v ++ x)) = (c!"Iteration" ++ b1 ++ d1 ++ ['('] ++ b2 ++ d2 ++ [')']) ++ post := by
          rw [← e]; simp
        rcases List.append_eq_append_iff.1 e' with ⟨a, ha, hb⟩ | ⟨a, ha, hb⟩
        · cases a with
          | nil => exact hM ('I' :: v) (by rw [ha]; simp)
          | cons y ys =>
            simp only [List.cons_append, List.cons.injEq] at hb
            have hb1 := hb.1
            subst hb1
            have : c!"Iteration" ++ b1 ++ d1 ++ ['('] ++ b2 ++ d2 ++ [')'] =
                'I' :: (c!"teration" ++ b1 ++ d1 ++ ['('] ++ b2 ++ d2 ++ [')']) := by simp
            rw [this] at ha
            have ha' := (List.cons.inj ha).2
            exact hno (by rw [ha']; simp)
        · exact hM (a ++ 'I' :: v) (by rw [← List.append_assoc, ← ha]; rfl)

theorem iters_append (a b : List Str) : iters (a ++ b) = iters a ++ iters b := by simp [iters]

/-- The iterations of a cut text are the first ones of the complete text. -/
theorem iters_prefix (p q : Str) : iters (readlines p) <+: iters (readlines (p ++ q)) := by
  rcases readlines_append p q with ⟨_, h⟩ | ⟨A, l, r, B, _, _, h2, h3⟩
  · rw [h, iters_append]; exact List.prefix_append _ _
  · rw [h2, h3, iters_append, iters_append]
    refine List.prefix_append_right_inj _ |>.2 ?_
    cases hl : iterOf l with
    | none => simp [iters, hl]
    | some i => simp [iters, hl, iterOf_append hl]

/-! ### the loop does not look behind what it needs -/

theorem idx_more {l m : List Str} {i : Nat} {a : Str} (h : idx l i = .ok a) : idx (l ++ m) i = .ok a := by
  unfold idx at h ⊢
  split at h
  · rename_i b hb
    cases h
    rw [idx_prefix_ok m hb]
  · cases h

theorem mapM'_congr_ok {α β : Type} {f g : α → Res β} {l : List α} {r : List β} (hfg : ∀ a b, f a = .ok b → g a = .ok b)
    (h : Res.mapM' f l = .ok r) : Res.mapM' g l = .ok r := by
  rw [Res.mapM'_eq_ok] at h ⊢
  exact h.imp fun a b hab => hfg a b hab

theorem readTensor_more {l m : List Str} {t : Tensor} (h : readTensor l = .ok t) : readTensor (l ++ m) = .ok t := by
  unfold readTensor at h ⊢
  refine mapM'_congr_ok ?_ h
  intro i b hb
  obtain ⟨x, hx, hb⟩ := Res.bind_eq_ok.1 hb
  exact Res.bind_eq_ok.2 ⟨x, idx_more hx, hb⟩

theorem readElastic_more {header key line : Str} {rest m : List Str} {e e' : Dict Str (Option Tensor)}
    (h : readElastic header key line rest e = .ok e') : readElastic header key line (rest ++ m) e = .ok e' := by
  unfold readElastic at h ⊢
  split at h
  · rename_i hc
    rw [if_pos hc]
    obtain ⟨t, ht, h⟩ := Res.bind_eq_ok.1 h
    exact Res.bind_eq_ok.2 ⟨t, readTensor_more ht, h⟩
  · rename_i hc
    rw [if_neg hc]; exact h

theorem readMag_more {s s' : Sphere} {l m : List Str} (h : readMag s l = .ok s') : readMag s (l ++ m) = .ok s' := by
  induction l generalizing s with
  | nil => cases h
  | cons x xs ih =>
    rw [List.cons_append]
    unfold readMag at h ⊢
    split at h
    · rename_i hc; rw [if_pos hc]; exact h
    · rename_i hc
      rw [if_neg hc]
      split at h
      · rename_i hc2; rw [if_pos hc2]; exact h
      · rename_i hc2
        rw [if_neg hc2]
        split at h
        · rename_i hc3; rw [if_pos hc3]; exact ih h
        · rename_i hc3
          rw [if_neg hc3]
          obtain ⟨w, hw, h⟩ := Res.bind_eq_ok.1 h
          obtain ⟨n, hn, h⟩ := Res.bind_eq_ok.1 h
          obtain ⟨t, ht, h⟩ := Res.bind_eq_ok.1 h
          rw [hw, Res.ok_bind, hn, Res.ok_bind, ht, Res.ok_bind]
          exact ih h

theorem readSphere_more {c : Char} {line : Str} {rest m : List Str} {s s' : Sphere} (h : readSphere c line rest s = .ok s') :
    readSphere c line (rest ++ m) s = .ok s' := by
  unfold readSphere at h ⊢
  split at h
  · rename_i hc
    rw [if_pos hc]
    have hl : 3 ≤ rest.length := by
      by_contra hlt
      rw [List.drop_eq_nil_of_le (by omega)] at h
      cases h
    rw [List.drop_append_of_le_length hl]
    exact readMag_more h
  · rename_i hc
    rw [if_neg hc]; exact h

theorem readPricel_more {y y' : Symmetry} {dyn : Bool} {line : Str} {rest m : List Str} (h : readPricel y dyn line rest = .ok y') :
    readPricel y dyn line (rest ++ m) = .ok y' := by
  unfold readPricel at h ⊢
  split at h
  · rename_i hc
    rw [if_pos hc]
    obtain ⟨t, ht, h⟩ := Res.bind_eq_ok.1 h
    exact Res.bind_eq_ok.2 ⟨t, idx_more ht, h⟩
  · rename_i hc
    rw [if_neg hc]; exact h

theorem readSetgrp_more {y y' : Symmetry} {dyn : Bool} {line : Str} {rest m : List Str} (h : readSetgrp y dyn line rest = .ok y') :
    readSetgrp y dyn line (rest ++ m) = .ok y' := by
  unfold readSetgrp at h ⊢
  split at h
  · rename_i hc
    rw [if_pos hc]
    obtain ⟨t, ht, h⟩ := Res.bind_eq_ok.1 h
    exact Res.bind_eq_ok.2 ⟨t, idx_more ht, h⟩
  · rename_i hc
    rw [if_neg hc]; exact h

theorem readSymmetry_more {s s' : State} {line : Str} {rest m : List Str} (h : readSymmetry s line rest = .ok s') :
    readSymmetry s line (rest ++ m) = .ok s' := by
  unfold readSymmetry at h ⊢
  split at h
  · exact h
  · obtain ⟨y1, h1, h⟩ := Res.bind_eq_ok.1 h
    obtain ⟨y2, h2, h⟩ := Res.bind_eq_ok.1 h
    rw [readPricel_more h1, Res.ok_bind, readSetgrp_more h2, Res.ok_bind]
    exact h

theorem step_more {s s' : State} {line : Str} {rest m : List Str} (h : step s line rest = .ok s') :
    step s line (rest ++ m) = .ok s' := by
  unfold step at h ⊢
  split at h
  · exact h
  · obtain ⟨s1, h1, h⟩ := Res.bind_eq_ok.1 h
    obtain ⟨s2, h2, h⟩ := Res.bind_eq_ok.1 h
    obtain ⟨s3, h3, h⟩ := Res.bind_eq_ok.1 h
    rw [h1, Res.ok_bind, readSymmetry_more h2, Res.ok_bind]
    have e3 : readElastics s2 line (rest ++ m) = .ok s3 := by
      unfold readElastics at h3 ⊢
      obtain ⟨e1, k1, h3⟩ := Res.bind_eq_ok.1 h3
      obtain ⟨e2, k2, h3⟩ := Res.bind_eq_ok.1 h3
      obtain ⟨e3, k3, h3⟩ := Res.bind_eq_ok.1 h3
      rw [readElastic_more k1, Res.ok_bind, readElastic_more k2, Res.ok_bind, readElastic_more k3, Res.ok_bind]
      exact h3
    rw [e3, Res.ok_bind]
    unfold readMagnetization at h ⊢
    obtain ⟨x, k1, h⟩ := Res.bind_eq_ok.1 h
    obtain ⟨y, k2, h⟩ := Res.bind_eq_ok.1 h
    obtain ⟨z, k3, h⟩ := Res.bind_eq_ok.1 h
    rw [readSphere_more k1, Res.ok_bind, readSphere_more k2, Res.ok_bind, readSphere_more k3, Res.ok_bind]
    exact h

/-- Lines behind an accepted beginning are read from where the beginning left off. -/
theorem scan_append {s s' : State} {a : List Str} (b : List Str) (h : scan s a = .ok s') : scan s (a ++ b) = scan s' b := by
  induction a generalizing s with
  | nil => cases h; rfl
  | cons l ls ih =>
    rw [List.cons_append]
    unfold scan at h
    obtain ⟨s1, h1, h⟩ := Res.bind_eq_ok.1 h
    rw [scan, step_more h1, Res.ok_bind]
    exact ih h

theorem grown {p q : Str} {d d' : Data} (hp : LineEnd p) (h : init none (some p) = .ok d) (h' : init none (some (p ++ q)) = .ok d') :
    scan d.state (readlines q) = .ok d'.state := by
  have e := fromList_scan (lines := readlines p) h
  have e' := fromList_scan (lines := readlines (p ++ q)) h'
  rw [readlines_lineEnd hp, scan_append _ e] at e'
  exact e'

/-! ### C91 -/

/-- The announcement of the run time information at the end. -/
def announcement : Str := c!"timing and accounting informations"

/-- C91: an OUTCAR cut off anywhere before the announcement, if accepted, is reported unfinished and in no way converged. -/
theorem C91_unfinished (p : Str) (d : Data) (h : init none (some p) = .ok d) (hn : ¬ announcement <:+: p) :
    d.state.finished = false ∧ d.verdict.ionic = some false ∧ d.verdict.electronic = false := by
  have hf : ¬ Finished (readlines p) := by
    rintro ⟨l, hl, hc⟩
    have hl' : l ∈ readlines p := (List.mem_filter.1 hl).1
    exact hn (((contains_iff _ _).1 hc).trans (infix_of_mem_readlines hl'))
  refine ⟨?_, C29_unfinished (readlines p) d h hf⟩
  have := scan_finished (fromList_scan (lines := readlines p) h)
  simp only [Bool.false_eq_true, false_or] at this
  cases hfin : d.state.finished with
  | false => rfl
  | true => exact absurd (this.1 hfin) hf

/-- C91: wherever it is cut, the last iteration reported is one the complete file prints, and no ionic step has more electronic steps than
in the complete file. -/
theorem C91_counts (p q : Str) (d d' : Data) (h : init none (some p) = .ok d) (h' : init none (some (p ++ q)) = .ok d') :
    d.last ∈ iters (readlines (p ++ q)) ∧ iters (readlines p) <+: iters (readlines (p ++ q)) ∧
    ∀ n, (d.state.steps.get? n).getD 0 ≤ (d'.state.steps.get? n).getD 0 := by
  have hpre := iters_prefix p q
  obtain ⟨a1, a2⟩ := C30_counts (readlines p) d h
  obtain ⟨b1, b2⟩ := C30_counts (readlines (p ++ q)) d' h'
  refine ⟨hpre.subset (List.mem_of_getLast? a1), hpre, fun n => ?_⟩
  rw [a2 n, b2 n]
  exact (hpre.map Prod.fst).sublist.count_le n

/-- C91: cut at the end of a line, the lists of the symmetry analysis are beginnings of those of the complete file, and a finished run stays
finished. -/
theorem C91_lists (p q : Str) (hp : LineEnd p) (d d' : Data) (h : init none (some p) = .ok d) (h' : init none (some (p ++ q)) = .ok d') :
    (d.state.finished = true → d'.state.finished = true) ∧
    d.state.symmetry.opsStatic <+: d'.state.symmetry.opsStatic ∧ d.state.symmetry.opsDynamic <+: d'.state.symmetry.opsDynamic ∧
    d.state.symmetry.original.static <+: d'.state.symmetry.original.static ∧
    d.state.symmetry.original.dynamic <+: d'.state.symmetry.original.dynamic ∧
    d.state.symmetry.symmetrized.static <+: d'.state.symmetry.symmetrized.static ∧
    d.state.symmetry.symmetrized.dynamic <+: d'.state.symmetry.symmetrized.dynamic := by
  have hs := grown hp h h'
  obtain ⟨x1, ⟨x2, x3, _⟩, ⟨x4, x5, _⟩⟩ := scan_symmetry hs false
  obtain ⟨y1, ⟨y2, y3, _⟩, ⟨y4, y5, _⟩⟩ := scan_symmetry hs true
  refine ⟨fun hf => (scan_finished hs).2 (.inl hf), ⟨x2, x3.symm⟩, ⟨y2, y3.symm⟩, ⟨_, x1.symm⟩, ⟨_, y1.symm⟩, ⟨x4, x5.symm⟩, ⟨y4, y5.symm⟩⟩

/-- C91: cut at the end of a line, a table is reported as in the complete file unless the rest of the file prints that table again. -/
theorem C91_tables (p q : Str) (hp : LineEnd p) (d d' : Data) (h : init none (some p) = .ok d) (h' : init none (some (p ++ q)) = .ok d') :
    (∀ header key, (header, key) ∈ tables → (∀ l ∈ readlines q, ¬ IsHeader header l) →
      d.state.elastic.get? key = d'.state.elastic.get? key) ∧
    ((∀ l ∈ readlines q, ¬ IsHeader c!"number of electron" l) → d.state.fullCell = d'.state.fullCell) ∧
    ((∀ l ∈ readlines q, ¬ IsHeader c!"magnetization (x)" l) → d.state.magX = d'.state.magX) ∧
    ((∀ l ∈ readlines q, ¬ IsHeader c!"magnetization (y)" l) → d.state.magY = d'.state.magY) ∧
    ((∀ l ∈ readlines q, ¬ IsHeader c!"magnetization (z)" l) → d.state.magZ = d'.state.magZ) := by
  have hs := grown hp h h'
  have mag : ∀ (c : Char) (f : State → Sphere), (∀ s s' line rest, Other s s' line rest → readSphere c line rest (f s) = .ok (f s')) →
      (∀ (s : State) it st, f { s with iter := it, steps := st } = f s) →
      (∀ l ∈ readlines q, ¬ IsHeader (c!"magnetization (" ++ [c, ')']) l) → f d.state = f d'.state := by
    intro c f hf hi
    generalize d.state = s0 at hs
    generalize readlines q = ls at hs
    intro hno
    induction ls generalizing s0 with
    | nil => cases hs; rfl
    | cons l ls ih =>
      unfold scan at hs
      obtain ⟨s1, h1, hs⟩ := Res.bind_eq_ok.1 hs
      rw [← ih _ hs fun x hx => hno x (by simp [hx])]
      cases hl : iterOf l with
      | some n => rw [step_iter hl] at h1; cases h1; exact (hi _ _ _).symm
      | none =>
        have := hf _ _ _ _ (step_other hl h1)
        unfold readSphere at this
        rw [if_neg (fun hc => hno l (by simp) ⟨hl, hc⟩)] at this
        exact Res.ok.inj this
  refine ⟨fun header key hk hno => (((scan_elastic hs).2 _ hk).1 hno).symm, fun hno => ((scan_fullCell hs).1 hno).symm, ?_, ?_, ?_⟩
  · exact mag 'x' (·.magX) (fun _ _ _ _ ho => ho.magX) (fun _ _ _ => rfl)
  · exact mag 'y' (·.magY) (fun _ _ _ _ ho => ho.magY) (fun _ _ _ => rfl)
  · exact mag 'z' (·.magZ) (fun _ _ _ _ ho => ho.magZ) (fun _ _ _ => rfl)

/-- Non-vacuity: a relaxation cut in the middle of an iteration line, and at the end of a line. -/
example : init none (some (exampleOutcar.take 118)) >>= (fun d => .ok (d.state.steps, d.verdict.ionic, d.last)) =
    .ok ([(1, 2)], some false, (1, 2)) := by decide +kernel
example : LineEnd (exampleOutcar.take 106) ∧ ¬ announcement <:+: exampleOutcar.take 118 := by
  refine ⟨.inr (by decide +kernel), ?_⟩
  rw [← contains_iff]; decide +kernel

end Verif.Outcar
