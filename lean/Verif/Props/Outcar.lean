import Verif.Model.Outcar
import Verif.Lemmas.Dict
import Verif.Lemmas.Exits
import Verif.Props.Utils
/-! # OUTCAR: convergence verdict, counting of steps, refusal (C28-C31) -/
set_option autoImplicit false
namespace Verif.Outcar
open Verif Verif.Utils
open Verif.Kpoints (idx toFloat toInt)

/-! ### specification -/

/-- The (ionic, electronic) indices printed on the iteration lines, in order. -/
def iters (lines : List Str) : List (Nat × Nat) := lines.filterMap iterOf

/-- Number of electronic steps printed for ionic step `n`. -/
def stepsOf (lines : List Str) (n : Nat) : Nat := ((iters lines).map Prod.fst).count n

/-- The lines that are no iteration lines. -/
def others (lines : List Str) : List Str := lines.filter fun l => (iterOf l).isNone

/-- Does some line announce the end of the run? -/
def Finished (lines : List Str) : Prop := ∃ l ∈ others lines, contains c!"timing and accounting informations" l = true

/-- The integer printed last for a parameter (see `C57_sets` for what a match is). -/
def lastParam (key : Str) (lines : List Str) : Option Int := ((others lines).filterMap fun l => (matchIntParam key l).bind pyInt).getLast?

/-- `s` begins with `Iteration n( m)`. -/
def IterText (s : Str) (n m : Nat) : Prop :=
  ∃ b1 d1 b2 d2 post, s = c!"Iteration" ++ b1 ++ d1 ++ ['('] ++ b2 ++ d2 ++ [')'] ++ post ∧ (∀ c ∈ b1, c = ' ') ∧ (∀ c ∈ b2, c = ' ') ∧
    d1 ≠ [] ∧ d2 ≠ [] ∧ (∀ c ∈ d1, isDigit c = true) ∧ (∀ c ∈ d2, isDigit c = true) ∧
    n = ofDigits (d1.map digitVal) ∧ m = ofDigits (d2.map digitVal)

theorem spanP_split (p : Char → Bool) (s : Str) : s = (spanP p s).1 ++ (spanP p s).2 := by
  induction s with
  | nil => rfl
  | cons c cs ih =>
    unfold spanP
    split
    · simp only [List.cons_append]; rw [← ih]
    · rfl

theorem spanP_all (p : Char → Bool) (s : Str) : ∀ c ∈ (spanP p s).1, p c = true := by
  induction s with
  | nil => intro c hc; cases hc
  | cons c cs ih =>
    unfold spanP
    split
    · rename_i h
      intro d hd
      rcases List.mem_cons.1 hd with rfl | hd
      · exact h
      · exact ih d hd
    · intro d hd; cases hd

theorem dropPrefix?_eq {p s r : Str} : dropPrefix? p s = some r ↔ s = p ++ r := by
  induction p generalizing s with
  | nil => simp [dropPrefix?]
  | cons a p ih =>
    cases s with
    | nil => simp [dropPrefix?]
    | cons b s =>
      unfold dropPrefix?
      split
      · rename_i h; subst h; simp [ih]
      · rename_i h
        constructor
        · intro h'; cases h'
        · intro h'; simp only [List.cons_append, List.cons.injEq] at h'; exact absurd h'.1.symm h

theorem spanP_app (p : Char → Bool) (a b : Str) (ha : ∀ c ∈ a, p c = true) (hb : ∀ c, b.head? = some c → p c = false) :
    spanP p (a ++ b) = (a, b) := by
  induction a with
  | nil =>
    cases b with
    | nil => rfl
    | cons c cs =>
      have := hb c rfl
      simp only [List.nil_append, spanP, this, Bool.false_eq_true, if_false]
  | cons c cs ih =>
    have := ha c (by simp)
    simp only [List.cons_append, spanP, this, if_true]
    rw [ih (fun d hd => ha d (by simp [hd]))]

theorem head_digit_ne {d : Str} (hne : d ≠ []) (hd : ∀ c ∈ d, isDigit c = true) (r : Str) :
    ∀ c, (d ++ r).head? = some c → (c == ' ') = false := by
  intro c hc
  obtain ⟨x, xs, rfl⟩ := List.exists_cons_of_ne_nil hne
  simp only [List.cons_append, List.head?_cons, Option.some.injEq] at hc
  subst hc
  have := hd x (by simp)
  cases hx : (x == ' ')
  · rfl
  · have := eq_of_beq hx; subst this; revert this; intro h; exact absurd (hd ' ' (by simp)) (by decide)

/-- What the search pattern matches at the beginning of a text. -/
theorem iterHere_iff (s : Str) (n m : Nat) : iterHere s = some (n, m) ↔ IterText s n m := by
  constructor
  · intro h
    unfold iterHere at h
    split at h
    · rename_i r hr
      split at h
      · rename_i a as r2 h1
        split at h
        · rename_i b bs r3 h2
          cases h
          have e1 := spanP_split (· == ' ') r
          have e2 := spanP_split isDigit (spanP (· == ' ') r).2
          have e3 := spanP_split (· == ' ') r2
          have e4 := spanP_split isDigit (spanP (· == ' ') r2).2
          have a1 := spanP_all (· == ' ') r
          have a2 := spanP_all isDigit (spanP (· == ' ') r).2
          have a3 := spanP_all (· == ' ') r2
          have a4 := spanP_all isDigit (spanP (· == ' ') r2).2
          rw [h1] at e2 a2
          rw [h2] at e4 a4
          refine ⟨(spanP (· == ' ') r).1, a :: as, (spanP (· == ' ') r2).1, b :: bs, r3, ?_, ?_, ?_, by simp, by simp, a2, a4, rfl, rfl⟩
          · rw [dropPrefix?_eq] at hr
            rw [hr]
            conv => lhs; rw [e1, e2, e3, e4]
            simp
          · intro c hc; simpa using a1 c hc
          · intro c hc; simpa using a3 c hc
        · cases h
      · cases h
    · cases h
  · rintro ⟨b1, d1, b2, d2, post, rfl, hb1, hb2, hn1, hn2, hd1, hd2, rfl, rfl⟩
    have e0 : dropPrefix? c!"Iteration" (c!"Iteration" ++ b1 ++ d1 ++ ['('] ++ b2 ++ d2 ++ [')'] ++ post) =
        some (b1 ++ (d1 ++ ('(' :: (b2 ++ (d2 ++ (')' :: post)))))) := by rw [dropPrefix?_eq]; simp
    unfold iterHere
    rw [e0]
    simp only []
    rw [spanP_app _ b1 _ (fun c hc => by simp [hb1 c hc]) (head_digit_ne hn1 hd1 _)]
    simp only []
    rw [spanP_app isDigit d1 _ hd1 (by intro c hc; simp at hc; subst hc; decide)]
    obtain ⟨x, xs, rfl⟩ := List.exists_cons_of_ne_nil hn1
    simp only []
    rw [spanP_app _ b2 _ (fun c hc => by simp [hb2 c hc]) (head_digit_ne hn2 hd2 _)]
    simp only []
    rw [spanP_app isDigit d2 _ hd2 (by intro c hc; simp at hc; subst hc; decide)]
    obtain ⟨y, ys, rfl⟩ := List.exists_cons_of_ne_nil hn2
    rfl

/-- A line is an iteration line exactly if the text occurs somewhere in it. -/
theorem iterOf_none (line : Str) : iterOf line = none ↔ ∀ pre s n m, line = pre ++ s → ¬ IterText s n m := by
  have hnil : ∀ n m, ¬ IterText [] n m := by
    intro n m h
    obtain ⟨b1, d1, b2, d2, post, h, _⟩ := h
    simp at h
  induction line with
  | nil =>
    refine ⟨fun _ pre s n m h => ?_, fun _ => rfl⟩
    have : s = [] := by
      have := congrArg List.length h
      simp at this
      exact List.eq_nil_of_length_eq_zero (by omega)
    subst this
    exact hnil n m
  | cons c cs ih =>
    unfold iterOf
    cases hh : iterHere (c :: cs) with
    | some r =>
      simp only [reduceCtorEq, false_iff, not_forall, not_not]
      exact ⟨[], c :: cs, r.1, r.2, rfl, (iterHere_iff _ _ _).1 hh⟩
    | none =>
      refine Iff.trans ih ?_
      constructor
      · intro h pre s n m he
        cases pre with
        | nil =>
          simp only [List.nil_append] at he
          subst he
          intro hi
          rw [← iterHere_iff, hh] at hi
          cases hi
        | cons p ps =>
          simp only [List.cons_append, List.cons.injEq] at he
          exact h ps s n m he.2
      · intro h pre s n m he
        exact h (c :: pre) s n m (by rw [he]; rfl)

/-- The indices of an iteration line are those of the first occurrence. -/
theorem iterOf_some (line : Str) (n m : Nat) (h : iterOf line = some (n, m)) :
    ∃ pre s, line = pre ++ s ∧ IterText s n m ∧ ∀ pre' s' n' m', line = pre' ++ s' → IterText s' n' m' → pre.length ≤ pre'.length := by
  induction line with
  | nil => cases h
  | cons c cs ih =>
    unfold iterOf at h
    cases hh : iterHere (c :: cs) with
    | some r =>
      rw [hh] at h
      simp only [Option.some.injEq] at h
      subst h
      exact ⟨[], c :: cs, rfl, (iterHere_iff _ _ _).1 hh, fun _ _ _ _ _ _ => by simp⟩
    | none =>
      rw [hh] at h
      obtain ⟨pre, s, he, hi, hmin⟩ := ih h
      refine ⟨c :: pre, s, by rw [he]; rfl, hi, ?_⟩
      intro pre' s' n' m' he' hi'
      cases pre' with
      | nil =>
        simp only [List.nil_append] at he'
        subst he'
        rw [← iterHere_iff, hh] at hi'
        cases hi'
      | cons p ps =>
        simp only [List.cons_append, List.cons.injEq] at he'
        have := hmin ps s' n' m' he'.2 hi'
        simp; exact this

/-! ### one step -/

/-- What a line that is no iteration line does. -/
structure Other (s s' : State) (line : Str) (rest : List Str) : Prop where
  iter : s'.iter = s.iter
  steps : s'.steps = s.steps
  finished : s'.finished = (s.finished || contains c!"timing and accounting informations" line)
  params : matchIntegerParam s.params c!"IBRION" line = .ok s'.params
  status : (matchIntegerParam s.status c!"NSW" line >>= fun st => matchIntegerParam st c!"NELM" line) = .ok s'.status
  elastic : (readElastic c!"ELASTIC MODULI  (kBar)" c!"non_symmetrized" line rest s.elastic >>= fun e1 =>
    readElastic c!"SYMMETRIZED ELASTIC MODULI" c!"symmetrized" line rest e1 >>= fun e2 =>
    readElastic c!"TOTAL ELASTIC MODULI" c!"total" line rest e2) = .ok s'.elastic
  magX : readSphere 'x' line rest s.magX = .ok s'.magX
  magY : readSphere 'y' line rest s.magY = .ok s'.magY
  magZ : readSphere 'z' line rest s.magZ = .ok s'.magZ
  fullCell : if startsWith c!"number of electron" (strip line) then
    ∃ v, Res.mapM' toFloat ((words line).drop 5) = .ok v ∧ s'.fullCell = some v else s'.fullCell = s.fullCell
  config : s'.config = (readConfig s line).config
  symmetry : match (readConfig s line).config with
    | none => s'.symmetry = s.symmetry
    | some dyn => (readPricel s.symmetry dyn line rest >>= fun y1 =>
      readSetgrp (readSuper y1 dyn line) dyn line rest >>= fun y2 => readGetgrp y2 dyn line) = .ok s'.symmetry

theorem readParams_ok {s s1 : State} {line : Str} (h : readParams s line = .ok s1) :
    matchIntegerParam s.params c!"IBRION" line = .ok s1.params ∧
    (matchIntegerParam s.status c!"NSW" line >>= fun st => matchIntegerParam st c!"NELM" line) = .ok s1.status ∧
    ∃ nb, s1 = { s with status := s1.status, params := s1.params, nbands := nb } := by
  unfold readParams at h
  obtain ⟨st1, h1, h⟩ := Res.bind_eq_ok.1 h
  obtain ⟨pa, h2, h⟩ := Res.bind_eq_ok.1 h
  obtain ⟨st2, h3, h⟩ := Res.bind_eq_ok.1 h
  split at h
  · obtain ⟨t, _, h⟩ := Res.bind_eq_ok.1 h
    obtain ⟨n, _, h⟩ := Res.bind_eq_ok.1 h
    cases h
    exact ⟨h2, by rw [h1]; exact h3, _, rfl⟩
  · cases h
    exact ⟨h2, by rw [h1]; exact h3, s.nbands, rfl⟩

theorem readSymmetry_ok {s s1 : State} {line : Str} {rest : List Str} (h : readSymmetry s line rest = .ok s1) :
    (∃ y, s1 = { s with symmetry := y }) ∧ match s.config with
    | none => s1.symmetry = s.symmetry
    | some dyn => (readPricel s.symmetry dyn line rest >>= fun y1 =>
      readSetgrp (readSuper y1 dyn line) dyn line rest >>= fun y2 => readGetgrp y2 dyn line) = .ok s1.symmetry := by
  unfold readSymmetry at h
  split at h
  · rename_i hc
    cases h
    exact ⟨⟨s.symmetry, rfl⟩, by rw [hc]⟩
  · rename_i dyn hc
    obtain ⟨y1, h1, h⟩ := Res.bind_eq_ok.1 h
    obtain ⟨y2, h2, h⟩ := Res.bind_eq_ok.1 h
    obtain ⟨y3, h3, h⟩ := Res.bind_eq_ok.1 h
    cases h
    refine ⟨⟨y3, rfl⟩, ?_⟩
    rw [hc]
    simp only [h1, Res.ok_bind, h2, h3]

theorem readElastics_ok {s s1 : State} {line : Str} {rest : List Str} (h : readElastics s line rest = .ok s1) :
    ∃ e, (readElastic c!"ELASTIC MODULI  (kBar)" c!"non_symmetrized" line rest s.elastic >>= fun e1 =>
      readElastic c!"SYMMETRIZED ELASTIC MODULI" c!"symmetrized" line rest e1 >>= fun e2 =>
      readElastic c!"TOTAL ELASTIC MODULI" c!"total" line rest e2) = .ok e ∧ s1 = { s with elastic := e } := by
  unfold readElastics at h
  obtain ⟨e1, h1, h⟩ := Res.bind_eq_ok.1 h
  obtain ⟨e2, h2, h⟩ := Res.bind_eq_ok.1 h
  obtain ⟨e3, h3, h⟩ := Res.bind_eq_ok.1 h
  cases h
  exact ⟨e3, by simp only [h1, Res.ok_bind, h2, h3], rfl⟩

theorem readMagnetization_ok {s s1 : State} {line : Str} {rest : List Str} (h : readMagnetization s line rest = .ok s1) :
    readSphere 'x' line rest s.magX = .ok s1.magX ∧ readSphere 'y' line rest s.magY = .ok s1.magY ∧
    readSphere 'z' line rest s.magZ = .ok s1.magZ ∧
    (if startsWith c!"number of electron" (strip line) then
      ∃ v, Res.mapM' toFloat ((words line).drop 5) = .ok v ∧ s1.fullCell = some v else s1.fullCell = s.fullCell) ∧
    s1 = { s with magX := s1.magX, magY := s1.magY, magZ := s1.magZ, fullCell := s1.fullCell } := by
  unfold readMagnetization at h
  obtain ⟨x, h1, h⟩ := Res.bind_eq_ok.1 h
  obtain ⟨y, h2, h⟩ := Res.bind_eq_ok.1 h
  obtain ⟨z, h3, h⟩ := Res.bind_eq_ok.1 h
  split at h
  · rename_i hc
    obtain ⟨v, h4, h⟩ := Res.bind_eq_ok.1 h
    cases h
    refine ⟨h1, h2, h3, ?_, rfl⟩
    rw [if_pos hc]
    exact ⟨v, h4, rfl⟩
  · rename_i hc
    cases h
    refine ⟨h1, h2, h3, ?_, rfl⟩
    rw [if_neg hc]

theorem step_other {s s' : State} {line : Str} {rest : List Str} (hl : iterOf line = none) (h : step s line rest = .ok s') :
    Other s s' line rest := by
  unfold step at h
  rw [hl] at h
  simp only at h
  obtain ⟨s1, h1, h⟩ := Res.bind_eq_ok.1 h
  obtain ⟨s2, h2, h⟩ := Res.bind_eq_ok.1 h
  obtain ⟨s3, h3, h⟩ := Res.bind_eq_ok.1 h
  obtain ⟨p1, p2, nb, p3⟩ := readParams_ok h1
  obtain ⟨⟨y, q1⟩, q2⟩ := readSymmetry_ok h2
  obtain ⟨e, r1, r2⟩ := readElastics_ok h3
  obtain ⟨m1, m2, m3, m4, m5⟩ := readMagnetization_ok h
  have ec : ∀ t : State, (readConfig t line).iter = t.iter ∧ (readConfig t line).steps = t.steps ∧ (readConfig t line).finished = t.finished ∧
      (readConfig t line).params = t.params ∧ (readConfig t line).status = t.status ∧ (readConfig t line).elastic = t.elastic ∧
      (readConfig t line).magX = t.magX ∧ (readConfig t line).magY = t.magY ∧ (readConfig t line).magZ = t.magZ ∧
      (readConfig t line).fullCell = t.fullCell ∧ (readConfig t line).symmetry = t.symmetry := by
    intro t
    unfold readConfig
    dsimp only
    split <;> split <;> simp
  have ee : ∀ t : State, (readEnd t line).iter = t.iter ∧ (readEnd t line).steps = t.steps ∧
      (readEnd t line).finished = (t.finished || contains c!"timing and accounting informations" line) ∧
      (readEnd t line).params = t.params ∧ (readEnd t line).status = t.status ∧ (readEnd t line).elastic = t.elastic ∧
      (readEnd t line).magX = t.magX ∧ (readEnd t line).magY = t.magY ∧ (readEnd t line).magZ = t.magZ ∧
      (readEnd t line).fullCell = t.fullCell ∧ (readEnd t line).symmetry = t.symmetry ∧ (readEnd t line).config = t.config := by
    intro t
    unfold readEnd
    split
    · rename_i hc; simp [hc]
    · rename_i hc; simp [hc]
  have ecfg : ∀ t u : State, t.config = u.config → (readConfig t line).config = (readConfig u line).config := by
    intro t u htu
    unfold readConfig
    dsimp only
    split <;> split <;> simp [htu]
  obtain ⟨c1, c2, c3, c4, c5, c6, c7, c8, c9, c10, c11⟩ := ec (readEnd s1 line)
  obtain ⟨d1, d2, d3, d4, d5, d6, d7, d8, d9, d10, d11, d12⟩ := ee s1
  have hcfg : (readConfig (readEnd s1 line) line).config = (readConfig s line).config := ecfg _ _ (by rw [d12, p3])
  generalize readConfig (readEnd s1 line) line = t at *
  generalize readEnd s1 line = u at *
  subst r2
  subst q1
  rw [m5]
  refine ⟨?_, ?_, ?_, ?_, ?_, ?_, ?_, ?_, ?_, ?_, ?_, ?_⟩
  · show t.iter = _; rw [c1, d1, p3]
  · show t.steps = _; rw [c2, d2, p3]
  · show t.finished = _; rw [c3, d3, p3]
  · show _ = Res.ok t.params; rw [c4, d4, p1]
  · show _ = Res.ok t.status; rw [c5, d5, p2]
  · show _ = Res.ok e
    have : s.elastic = t.elastic := by rw [c6, d6, p3]
    rw [this]; exact r1
  · have : s.magX = t.magX := by rw [c7, d7, p3]
    rw [this]; exact m1
  · have : s.magY = t.magY := by rw [c8, d8, p3]
    rw [this]; exact m2
  · have : s.magZ = t.magZ := by rw [c9, d9, p3]
    rw [this]; exact m3
  · have : s.fullCell = t.fullCell := by rw [c10, d10, p3]
    rw [this]; exact m4
  · exact hcfg
  · show match (readConfig s line).config with
      | none => y = s.symmetry
      | some dyn => (readPricel s.symmetry dyn line rest >>= fun y1 =>
        readSetgrp (readSuper y1 dyn line) dyn line rest >>= fun y2 => readGetgrp y2 dyn line) = .ok y
    have : s.symmetry = t.symmetry := by rw [c11, d11, p3]
    rw [← hcfg, this]
    exact q2

theorem step_iter {s : State} {line : Str} {rest : List Str} {n : Nat × Nat} (hl : iterOf line = some n) :
    step s line rest = .ok { s with iter := some n, steps := countStep s.steps n.1 } := by
  unfold step; rw [hl]

/-! ### the whole scan -/

theorem countStep_get? (steps : Dict Nat Nat) (n k : Nat) :
    ((countStep steps n).get? k).getD 0 = (steps.get? k).getD 0 + if n = k then 1 else 0 := by
  unfold countStep
  cases h : steps.get? n with
  | none =>
    simp only []
    rw [Dict.get?_set]
    split
    · rename_i hk; subst hk; rw [h]; rfl
    · simp
  | some j =>
    simp only []
    rw [Dict.get?_set]
    split
    · rename_i hk; subst hk; rw [h]; rfl
    · simp

theorem countStep_keys (steps : Dict Nat Nat) (n : Nat) : ∀ k, k ∈ (countStep steps n).keys ↔ k = n ∨ k ∈ steps.keys := by
  intro k
  unfold countStep
  split <;> exact Dict.keys_set_mem _ _ _ _

theorem countStep_nodup (steps : Dict Nat Nat) (n : Nat) (h : steps.keys.Nodup) : (countStep steps n).keys.Nodup := by
  unfold countStep
  split <;> exact Dict.keys_set_nodup _ _ _ h

theorem iters_cons_some {l : Str} {ls : List Str} {n : Nat × Nat} (h : iterOf l = some n) : iters (l :: ls) = n :: iters ls := by
  unfold iters; rw [List.filterMap_cons, h]
theorem iters_cons_none {l : Str} {ls : List Str} (h : iterOf l = none) : iters (l :: ls) = iters ls := by
  unfold iters; rw [List.filterMap_cons, h]
theorem others_cons_some {l : Str} {ls : List Str} {n : Nat × Nat} (h : iterOf l = some n) : others (l :: ls) = others ls := by
  unfold others; rw [List.filter_cons]; simp [h]
theorem others_cons_none {l : Str} {ls : List Str} (h : iterOf l = none) : others (l :: ls) = l :: others ls := by
  unfold others; rw [List.filter_cons]; simp [h]

/-- The iteration part of a scan. -/
theorem scan_iters {s s' : State} {lines : List Str} (h : scan s lines = .ok s') :
    s'.iter = ((iters lines).getLast?.or s.iter) ∧
    (∀ k, (s'.steps.get? k).getD 0 = (s.steps.get? k).getD 0 + ((iters lines).map Prod.fst).count k) ∧
    (∀ k, k ∈ s'.steps.keys ↔ k ∈ s.steps.keys ∨ k ∈ (iters lines).map Prod.fst) ∧
    (s.steps.keys.Nodup → s'.steps.keys.Nodup) := by
  induction lines generalizing s with
  | nil => cases h; simp [iters]
  | cons l ls ih =>
    unfold scan at h
    obtain ⟨s1, h1, h⟩ := Res.bind_eq_ok.1 h
    obtain ⟨i1, i2, i3, i4⟩ := ih h
    cases hl : iterOf l with
    | none =>
      have ho := step_other hl h1
      rw [iters_cons_none hl]
      rw [ho.iter] at i1
      rw [ho.steps] at i2 i3 i4
      exact ⟨i1, i2, i3, i4⟩
    | some n =>
      rw [step_iter hl] at h1
      cases h1
      rw [iters_cons_some hl]
      refine ⟨?_, ?_, ?_, ?_⟩
      · rw [i1]
        cases hi : iters ls with
        | nil => rfl
        | cons a as => simp [List.getLast?_cons_cons, List.getLast?_cons]
      · intro k
        rw [i2 k, countStep_get?, List.map_cons, List.count_cons]
        simp only [beq_iff_eq]
        omega
      · intro k
        rw [i3 k, countStep_keys, List.map_cons, List.mem_cons]
        constructor
        · rintro ((h | h) | h)
          · exact .inr (.inl h)
          · exact .inl h
          · exact .inr (.inr h)
        · rintro (h | h | h)
          · exact .inl (.inr h)
          · exact .inl (.inl h)
          · exact .inr h
      · intro hn
        exact i4 (countStep_nodup _ _ hn)

theorem scan_finished {s s' : State} {lines : List Str} (h : scan s lines = .ok s') :
    s'.finished = true ↔ s.finished = true ∨ Finished lines := by
  induction lines generalizing s with
  | nil => cases h; simp [Finished, others]
  | cons l ls ih =>
    unfold scan at h
    obtain ⟨s1, h1, h⟩ := Res.bind_eq_ok.1 h
    rw [ih h]
    unfold Finished
    cases hl : iterOf l with
    | none =>
      rw [(step_other hl h1).finished, others_cons_none hl]
      simp [or_assoc]
    | some n =>
      rw [step_iter hl] at h1
      cases h1
      rw [others_cons_some hl]

theorem matchIntegerParam_ok {d d' : Dict Str (Option Int)} {key l : Str} (h : matchIntegerParam d key l = .ok d') :
    ∀ k, number d' k = if lower key = k then ((matchIntParam key l).bind pyInt).or (number d k) else number d k := by
  intro k
  unfold matchIntegerParam at h
  split at h
  · rename_i g hg
    split at h
    · rename_i i hi
      cases h
      unfold number
      rw [Dict.get?_set, hg]
      split
      · simp [hi]
      · rfl
    · cases h
  · rename_i hg
    cases h
    rw [hg]
    split <;> rfl

theorem getLast?_filterMap_cons {α β} (f : α → Option β) (a : α) (l : List α) :
    ((a :: l).filterMap f).getLast? = ((l.filterMap f).getLast?).or (f a) := by
  rw [List.filterMap_cons]
  cases f a with
  | none => simp
  | some b =>
    simp only []
    cases l.filterMap f with
    | nil => rfl
    | cons x xs => simp [List.getLast?_cons]

theorem scan_params {s s' : State} {lines : List Str} (h : scan s lines = .ok s') :
    number s'.params c!"ibrion" = (lastParam c!"IBRION" lines).or (number s.params c!"ibrion") ∧
    number s'.status c!"nsw" = (lastParam c!"NSW" lines).or (number s.status c!"nsw") ∧
    number s'.status c!"nelm" = (lastParam c!"NELM" lines).or (number s.status c!"nelm") := by
  induction lines generalizing s with
  | nil => cases h; simp [lastParam, others]
  | cons l ls ih =>
    unfold scan at h
    obtain ⟨s1, h1, h⟩ := Res.bind_eq_ok.1 h
    obtain ⟨i1, i2, i3⟩ := ih h
    unfold lastParam at *
    cases hl : iterOf l with
    | none =>
      have ho := step_other hl h1
      rw [others_cons_none hl]
      obtain ⟨st, hs1, hs2⟩ := Res.bind_eq_ok.1 ho.status
      have e1 := matchIntegerParam_ok ho.params c!"ibrion"
      have e2 := matchIntegerParam_ok hs1 c!"nsw"
      have e3 := matchIntegerParam_ok hs2 c!"nsw"
      have e4 := matchIntegerParam_ok hs1 c!"nelm"
      have e5 := matchIntegerParam_ok hs2 c!"nelm"
      rw [if_pos (by decide)] at e1 e2 e5
      rw [if_neg (by decide)] at e3 e4
      rw [i1, i2, i3, e1, e3, e2, e5, e4]
      simp only [getLast?_filterMap_cons, Option.or_assoc]
      exact ⟨trivial, trivial, trivial⟩
    | some n =>
      rw [step_iter hl] at h1
      cases h1
      rw [others_cons_some hl]
      exact ⟨i1, i2, i3⟩

/-! ### sorting -/

theorem insertStep_perm (x : Nat × Nat) (l : List (Nat × Nat)) : (insertStep x l).Perm (x :: l) := by
  induction l with
  | nil => exact .refl _
  | cons y ys ih =>
    unfold insertStep
    split
    · exact .refl _
    · exact (ih.cons y).trans (.swap x y ys)

theorem sortSteps_perm (l : List (Nat × Nat)) : (sortSteps l).Perm l := by
  induction l with
  | nil => exact .refl _
  | cons x xs ih => exact (insertStep_perm x _).trans (ih.cons x)

theorem insertStep_sorted (x : Nat × Nat) (l : List (Nat × Nat)) (h : l.Pairwise fun a b => a.1 ≤ b.1) :
    (insertStep x l).Pairwise fun a b => a.1 ≤ b.1 := by
  induction l with
  | nil => simp [insertStep]
  | cons y ys ih =>
    unfold insertStep
    rw [List.pairwise_cons] at h
    split
    · rename_i hxy
      rw [List.pairwise_cons]
      refine ⟨?_, List.pairwise_cons.2 h⟩
      intro z hz
      rcases List.mem_cons.1 hz with rfl | hz
      · exact hxy
      · exact Nat.le_trans hxy (h.1 z hz)
    · rename_i hxy
      rw [List.pairwise_cons]
      refine ⟨?_, ih h.2⟩
      intro z hz
      rcases List.mem_cons.1 ((insertStep_perm x ys).mem_iff.1 hz) with rfl | hz
      · omega
      · exact h.1 z hz

theorem sortSteps_sorted (l : List (Nat × Nat)) : (sortSteps l).Pairwise fun a b => a.1 ≤ b.1 := by
  induction l with
  | nil => simp [sortSteps]
  | cons x xs ih => exact insertStep_sorted x _ ih

/-- In a list sorted by distinct keys, all but the last are exactly those below some other key. -/
theorem mem_dropLast_sorted {l : List (Nat × Nat)} (hs : l.Pairwise fun a b => a.1 < b.1) (p : Nat × Nat) :
    p ∈ l.dropLast ↔ p ∈ l ∧ ∃ q ∈ l, p.1 < q.1 := by
  rcases List.eq_nil_or_concat l with rfl | ⟨l', b, rfl⟩
  · simp
  · rw [List.concat_eq_append] at *
    rw [List.dropLast_concat]
    simp only [List.mem_append, List.mem_singleton]
    rw [List.pairwise_append] at hs
    constructor
    · intro hp
      exact ⟨.inl hp, b, .inr rfl, hs.2.2 p hp b (by simp)⟩
    · rintro ⟨hp | hp, q, hq, hlt⟩
      · exact hp
      · subst hp
        rcases hq with hq | rfl
        · have := hs.2.2 q hq p (by simp); omega
        · omega

/-! ### C30 -/

/-- C30: the last index is that of the last iteration line, and the electronic steps of ionic step `n` are the lines
`Iteration n( m)`; every other line is irrelevant. -/
theorem C30_counts (lines : List Str) (d : Data) (h : fromList lines = .ok d) :
    (iters lines).getLast? = some d.last ∧ ∀ n, (d.state.steps.get? n).getD 0 = stepsOf lines n := by
  unfold fromList at h
  obtain ⟨s, hs, h⟩ := Res.bind_eq_ok.1 h
  obtain ⟨i1, i2, _, _⟩ := scan_iters hs
  split at h
  · cases h
  · rename_i it hit
    obtain ⟨v, _, h⟩ := Res.bind_eq_ok.1 h
    obtain ⟨st, _, h⟩ := Res.bind_eq_ok.1 h
    cases h
    refine ⟨?_, ?_⟩
    · rw [hit] at i1
      simpa using i1.symm
    · intro n
      rw [i2 n]
      simp [Dict.get?, stepsOf]

/-! ### C28 -/

theorem mask_ok {nelm : Option Int} {steps : Dict Nat Nat} {m : List Bool} (hne : steps ≠ []) (h : mask nelm steps = .ok m) :
    ∃ n, nelm = some n ∧ m = (sortSteps steps).map fun p => decide (n ≤ (p.2 : Int)) := by
  unfold mask at h
  cases nelm with
  | none =>
    exfalso
    have hl := (sortSteps_perm steps).length_eq
    cases hss : sortSteps steps with
    | nil => rw [hss] at hl; exact hne (List.eq_nil_of_length_eq_zero (by simpa using hl.symm))
    | cons x xs => rw [hss] at h; cases h
  | some n =>
    refine ⟨n, rfl, ?_⟩
    simp only at h
    have := Res.mapM'_ok_of_forall (f := fun p : Nat × Nat => Res.ok (decide (n ≤ (p.2 : Int)))) (sortSteps steps) (fun _ _ => rfl)
    rw [this] at h
    cases h; rfl

theorem ionic_ok {ibrion : Int} {step : Int} {nsw : Option Int} {r : Option Bool} (h : ionicFinished ibrion step nsw = .ok r) :
    (r = some true ↔ ibrion > 0 ∧ ∃ n, nsw = some n ∧ step < n) ∧
    (r = none ↔ ibrion ≤ 0 ∨ ∃ n, nsw = some n ∧ n ≤ 1 ∧ n ≤ step) := by
  unfold ionicFinished ltOpt at h
  cases nsw with
  | none =>
    split at h
    · cases h
    · cases h
      constructor
      · simp
      · simp; omega
  | some n =>
    by_cases h0 : ibrion > 0
    · rw [if_pos h0] at h
      simp only [Res.ok_bind, decide_eq_true_eq] at h
      split at h
      · cases h
        rename_i hlt
        constructor
        · simp [h0, hlt]
        · simp; omega
      · rename_i hlt
        split at h
        · cases h
          constructor
          · simp [hlt]
          · simp; omega
        · split at h
          · cases h
            constructor
            · simp [hlt]
            · simp; omega
          · cases h
            constructor
            · simp [hlt]
            · simp; omega
    · rw [if_neg h0] at h
      cases h
      constructor
      · simp [h0]
      · simp; omega

/-- The facts about the run a verdict must be based on: the iteration lines, whether the run finished, and the parameters printed
last. -/
structure Documented (lines : List Str) (v : Verdict) (last : Nat × Nat) (nelm : Int) : Prop where
  ionicTrue : v.ionic = some true ↔ Finished lines ∧ (lastParam c!"IBRION" lines).getD (-1) > 0 ∧
    ∃ nsw, lastParam c!"NSW" lines = some nsw ∧ last.1 < nsw
  ionicNone : v.ionic = none ↔ Finished lines ∧ ((lastParam c!"IBRION" lines).getD (-1) ≤ 0 ∨
    ∃ nsw, lastParam c!"NSW" lines = some nsw ∧ nsw ≤ 1 ∧ nsw ≤ last.1)
  electronic : v.electronic = true ↔ Finished lines ∧ last.2 < nelm
  contains : v.contains = true ↔ ∃ n ∈ (iters lines).map Prod.fst, nelm ≤ stepsOf lines n
  consistentFinished : Finished lines → (v.consistent = true ↔ ∀ n ∈ (iters lines).map Prod.fst, nelm ≤ stepsOf lines n)
  consistentUnfinished : ¬ Finished lines → (v.consistent = true ↔ 1 < last.1 ∧
    ∀ n ∈ (iters lines).map Prod.fst, (∃ k ∈ (iters lines).map Prod.fst, n < k) → nelm ≤ stepsOf lines n)

/-- C28: the verdict is the documented function of the printed data. In particular it does not depend on any other line. -/
theorem C28_verdict (lines : List Str) (d : Data) (h : fromList lines = .ok d) :
    ∃ nelm, lastParam c!"NELM" lines = some nelm ∧ (iters lines).getLast? = some d.last ∧ Documented lines d.verdict d.last nelm := by
  have hC30 := C30_counts lines d h
  unfold fromList at h
  obtain ⟨s, hs, h⟩ := Res.bind_eq_ok.1 h
  obtain ⟨i1, i2, i3, i4⟩ := scan_iters hs
  have hfin := scan_finished hs
  obtain ⟨p1, p2, p3⟩ := scan_params hs
  simp only [Bool.false_eq_true, false_or] at hfin
  have e1 : (number s.params c!"ibrion").getD (-1) = (lastParam c!"IBRION" lines).getD (-1) := by
    rw [p1]; cases lastParam c!"IBRION" lines <;> rfl
  have e2 : number s.status c!"nsw" = lastParam c!"NSW" lines := by rw [p2]; cases lastParam c!"NSW" lines <;> rfl
  have e3 : number s.status c!"nelm" = lastParam c!"NELM" lines := by rw [p3]; cases lastParam c!"NELM" lines <;> rfl
  split at h
  · cases h
  · rename_i it hit
    obtain ⟨v, hv, h⟩ := Res.bind_eq_ok.1 h
    obtain ⟨st, _, h⟩ := Res.bind_eq_ok.1 h
    cases h
    rw [e1, e2, e3] at hv
    unfold verdict at hv
    obtain ⟨ie, hie, hv⟩ := Res.bind_eq_ok.1 hv
    obtain ⟨m, hm, hv⟩ := Res.bind_eq_ok.1 hv
    have hkeys : ∀ k, k ∈ s.steps.keys ↔ k ∈ (iters lines).map Prod.fst := by
      intro k; rw [i3 k]; simp [Dict.keys]
    have hne : s.steps ≠ [] := by
      intro h0
      have hl := hC30.1
      have : it.1 ∈ (iters lines).map Prod.fst := List.mem_map.2 ⟨it, List.mem_of_getLast? hl, rfl⟩
      rw [← hkeys, h0] at this
      cases this
    obtain ⟨nelm, hn, hm⟩ := mask_ok hne hm
    refine ⟨nelm, hn, hC30.1, ?_⟩
    have hnd : s.steps.keys.Nodup := i4 (by simp [Dict.keys])
    have hcount : ∀ p ∈ s.steps, p.2 = stepsOf lines p.1 := by
      rintro ⟨k, c⟩ hp
      have := Dict.get?_eq_some_of_mem s.steps hnd hp
      have h2 := hC30.2 k
      simp only [this] at h2
      exact h2
    have hperm := sortSteps_perm s.steps
    have hsorted : (sortSteps s.steps).Pairwise fun a b => a.1 < b.1 := by
      have h1 := sortSteps_sorted s.steps
      have h2 : ((sortSteps s.steps).map Prod.fst).Nodup := (hperm.map Prod.fst).nodup_iff.2 hnd
      have h3 : (sortSteps s.steps).Pairwise fun a b => a.1 ≠ b.1 := List.pairwise_map.1 h2
      exact (List.pairwise_and_iff.2 ⟨h1, h3⟩).imp fun ⟨a, b⟩ => by omega
    have hmemkey : ∀ k, k ∈ (iters lines).map Prod.fst ↔ ∃ p ∈ s.steps, p.1 = k := by
      intro k; rw [← hkeys]; unfold Dict.keys; rw [List.mem_map]
    have hall : ∀ l : List (Nat × Nat), ((l.map fun p => decide (nelm ≤ (p.2 : Int))).all id = true ↔ ∀ p ∈ l, nelm ≤ (p.2 : Int)) := by
      intro l; simp [List.all_eq_true]
    rw [hm] at hv
    cases hv
    have hcontains : ((sortSteps s.steps).map fun p => decide (nelm ≤ (p.2 : Int))).any id = true ↔
        ∃ n ∈ (iters lines).map Prod.fst, nelm ≤ stepsOf lines n := by
      rw [List.any_eq_true]
      constructor
      · rintro ⟨b, hb, hbt⟩
        obtain ⟨p, hp, rfl⟩ := List.mem_map.1 hb
        have hle := of_decide_eq_true hbt
        have hp' := hperm.mem_iff.1 hp
        exact ⟨p.1, (hmemkey _).2 ⟨p, hp', rfl⟩, by rw [← hcount p hp']; exact hle⟩
      · rintro ⟨n, hn', hle⟩
        obtain ⟨p, hp, rfl⟩ := (hmemkey n).1 hn'
        exact ⟨_, List.mem_map.2 ⟨p, hperm.mem_iff.2 hp, rfl⟩, decide_eq_true (by rw [hcount p hp]; exact hle)⟩
    have hallk : (∀ p ∈ sortSteps s.steps, nelm ≤ (p.2 : Int)) ↔ ∀ n ∈ (iters lines).map Prod.fst, nelm ≤ stepsOf lines n := by
      constructor
      · intro hA n hn'
        obtain ⟨p, hp, rfl⟩ := (hmemkey n).1 hn'
        rw [← hcount p hp]
        exact hA p (hperm.mem_iff.2 hp)
      · intro hA p hp
        have hp' := hperm.mem_iff.1 hp
        rw [hcount p hp']
        exact hA p.1 ((hmemkey _).2 ⟨p, hp', rfl⟩)
    have hdrop : (∀ p ∈ (sortSteps s.steps).dropLast, nelm ≤ (p.2 : Int)) ↔
        ∀ n ∈ (iters lines).map Prod.fst, (∃ k ∈ (iters lines).map Prod.fst, n < k) → nelm ≤ stepsOf lines n := by
      constructor
      · intro hA n hn' ⟨k, hk, hlt⟩
        obtain ⟨p, hp, rfl⟩ := (hmemkey n).1 hn'
        obtain ⟨q, hq, rfl⟩ := (hmemkey k).1 hk
        rw [← hcount p hp]
        exact hA p ((mem_dropLast_sorted hsorted p).2 ⟨hperm.mem_iff.2 hp, q, hperm.mem_iff.2 hq, hlt⟩)
      · intro hA p hp
        obtain ⟨hp1, q, hq, hlt⟩ := (mem_dropLast_sorted hsorted p).1 hp
        have hp' := hperm.mem_iff.1 hp1
        rw [hcount p hp']
        exact hA p.1 ((hmemkey _).2 ⟨p, hp', rfl⟩) ⟨q.1, (hmemkey _).2 ⟨q, hperm.mem_iff.1 hq, rfl⟩, hlt⟩
    have hdl : ((sortSteps s.steps).map fun p => decide (nelm ≤ (p.2 : Int))).dropLast =
        (sortSteps s.steps).dropLast.map fun p => decide (nelm ≤ (p.2 : Int)) := by rw [List.map_dropLast]
    cases hf : s.finished with
    | true =>
      have hF := hfin.1 hf
      rw [hf] at hie
      simp only [if_true, Res.bind_eq_ok] at hie
      obtain ⟨i, hi, e, he, hie⟩ := hie
      cases hie
      obtain ⟨g1, g2⟩ := ionic_ok hi
      rw [hn] at he
      unfold ltOpt at he
      injection he with he
      refine ⟨?_, ?_, ?_, ?_, ?_, ?_⟩
      · simp only [g1, hF, true_and]
      · simp only [g2, hF, true_and]
      · simp only [← he, decide_eq_true_eq, hF, true_and]
      · exact hcontains
      · intro _
        simp only [Bool.true_and, Bool.not_true, Bool.false_and, Bool.or_false]
        rw [hall, hallk]
      · intro hnF; exact absurd hF hnF
    | false =>
      have hF : ¬ Finished lines := by rw [← hfin, hf]; decide
      rw [hf] at hie
      simp only [Bool.false_eq_true, if_false] at hie
      cases hie
      refine ⟨by simp [hF], by simp [hF], by simp [hF], hcontains, fun h => absurd h hF, ?_⟩
      intro _
      simp only [Bool.false_and, Bool.not_false, Bool.true_and, Bool.false_or, Bool.and_eq_true, decide_eq_true_eq]
      rw [hdl, hall, hdrop]
      constructor
      · rintro ⟨a, b⟩; exact ⟨b, a⟩
      · rintro ⟨a, b⟩; exact ⟨b, a⟩

/-! ### C29 -/

/-- C29, second half: an unfinished run is never reported converged. -/
theorem C29_unfinished (lines : List Str) (d : Data) (h : fromList lines = .ok d) (hf : ¬ Finished lines) :
    d.verdict.ionic = some false ∧ d.verdict.electronic = false := by
  obtain ⟨nelm, _, _, hd⟩ := C28_verdict lines d h
  constructor
  · cases hi : d.verdict.ionic with
    | none => exact absurd (hd.ionicNone.1 hi).1 hf
    | some b => cases b with
      | true => exact absurd (hd.ionicTrue.1 hi).1 hf
      | false => rfl
  · cases he : d.verdict.electronic with
    | false => rfl
    | true => exact absurd (hd.electronic.1 he).1 hf

/-- C29, first half, proved part: `consistent_nelm_breach` implies `contains_nelm_breach` for every finished run and for every
unfinished run whose iterations begin with the first ionic step. Missing: texts in which ionic step 1 does not occur
(`C29_violation`). -/
theorem C29_coherent_partial (lines : List Str) (d : Data) (h : fromList lines = .ok d)
    (hs : Finished lines ∨ 1 ∈ (iters lines).map Prod.fst) (hc : d.verdict.consistent = true) : d.verdict.contains = true := by
  obtain ⟨nelm, _, hlast, hd⟩ := C28_verdict lines d h
  have hmem : d.last.1 ∈ (iters lines).map Prod.fst := List.mem_map.2 ⟨d.last, List.mem_of_getLast? hlast, rfl⟩
  rw [hd.contains]
  by_cases hf : Finished lines
  · exact ⟨d.last.1, hmem, (hd.consistentFinished hf).1 hc _ hmem⟩
  · rcases hs with hs | hs
    · exact absurd hs hf
    · obtain ⟨h1, h2⟩ := (hd.consistentUnfinished hf).1 hc
      exact ⟨1, hs, h2 1 hs ⟨d.last.1, hmem, h1⟩⟩

/-- The entries of a verdict. -/
def flags (r : Res Data) : Res (Option Bool × Bool × Bool × Bool) :=
  r >>= fun d => .ok (d.verdict.ionic, d.verdict.electronic, d.verdict.consistent, d.verdict.contains)

/-- C29 is false: a single iteration line of ionic step 2 in an unfinished run is a consistent but not a contained breach. -/
theorem C29_violation : flags (init none (some c!"   NELM   =     60;\n--- Iteration      2(   1) ---\n")) =
    .ok (some false, false, true, false) := by decide +kernel

/-- Non-vacuity (C28-C30): a finished relaxation of two ionic steps, NELM reached in the first one. -/
def exampleOutcar : Str :=
  c!"   NELM   =      2;\n   IBRION =      2\n   NSW    =      5\n Iteration   1(   1)\n text\n Iteration   1(   2)\n Iteration   2(   1)\n General timing and accounting informations for this job:\n"

example : flags (init none (some exampleOutcar)) = .ok (some true, true, false, true) := by decide +kernel
example : iters (readlines exampleOutcar) = [(1, 1), (1, 2), (2, 1)] ∧ stepsOf (readlines exampleOutcar) 1 = 2 := by decide +kernel
example : lastParam c!"IBRION" (readlines exampleOutcar) = some 2 := by decide +kernel

/-! ### C31 -/

theorem toFloat_exits {S : Nat → Prop} (w : Str) : ExitsIn S (toFloat w) := by unfold toFloat; exits
theorem toInt_exits {S : Nat → Prop} (w : Str) : ExitsIn S (toInt w) := by unfold toInt; exits
theorem idx_exits {α} {S : Nat → Prop} (l : List α) (i : Nat) : ExitsIn S (idx l i) := by unfold idx; exits

theorem step_exits {S : Nat → Prop} (s : State) (l : Str) (ls : List Str) : ExitsIn S (step s l ls) := by
  have i1 : ∀ w, ExitsIn S (toFloat w) := toFloat_exits
  have i2 : ∀ w, ExitsIn S (toInt w) := toInt_exits
  have i3 : ∀ {α} (l : List α) i, ExitsIn S (idx l i) := fun l i => idx_exits l i
  have i4 : ∀ d k l, ExitsIn S (matchIntegerParam d k l) := by intro d k l; unfold matchIntegerParam; exits
  have i5 : ∀ p l, ExitsIn S (splitSecond p l) := by intro p l; unfold splitSecond; exits
  have i6 : ∀ l : List Str, ExitsIn S (Res.mapM' toFloat l) := fun l => ExitsIn.mapM' i1 l
  have i7 : ∀ r, ExitsIn S (readTensor r) := by
    intro r; unfold readTensor
    refine ExitsIn.mapM' ?_ _
    intro i; exits
  have i8 : ∀ h k l r e, ExitsIn S (readElastic h k l r e) := by intro h k l r e; unfold readElastic; exits
  have i9 : ∀ n cs m, ExitsIn S (orbitals n cs m) := by
    intro n cs
    induction cs generalizing n with
    | nil => intro m; unfold orbitals; exits
    | cons c cs ih => intro m; unfold orbitals; exits
  have i10 : ∀ l, ExitsIn S (readMoments l) := by intro l; unfold readMoments; exits
  have i11 : ∀ m ls, ExitsIn S (readMag m ls) := by
    intro m ls
    induction ls generalizing m with
    | nil => unfold readMag; exits
    | cons l ls ih => unfold readMag; exits
  have i12 : ∀ c l r m, ExitsIn S (readSphere c l r m) := by intro c l r m; unfold readSphere; exits
  have i13 : ∀ s l r, ExitsIn S (readMagnetization s l r) := by intro s l r; unfold readMagnetization; exits
  have i14 : ∀ s l, ExitsIn S (readParams s l) := by intro s l; unfold readParams; exits
  have i15 : ∀ s l r, ExitsIn S (readElastics s l r) := by intro s l r; unfold readElastics; exits
  have i16 : ∀ s l r, ExitsIn S (readSymmetry s l r) := by
    intro s l r; unfold readSymmetry readPricel readSetgrp readGetgrp; exits
  unfold step; exits

theorem scan_exits {S : Nat → Prop} (s : State) (lines : List Str) : ExitsIn S (scan s lines) := by
  induction lines generalizing s with
  | nil => exact ExitsIn.ok _
  | cons l ls ih => unfold scan; exact ExitsIn.bind (step_exits s l ls) ih

theorem verdict_exits {S : Nat → Prop} (f : Bool) (i : Int) (a b : Option Int) (it : Nat × Nat) (st : Dict Nat Nat) : ExitsIn S (verdict f i a b it st) := by
  have h1 : ∀ x y, ExitsIn S (ltOpt x y) := by intro x y; unfold ltOpt; exits
  have h2 : ∀ x y z, ExitsIn S (ionicFinished x y z) := by intro x y z; unfold ionicFinished; exits
  have h3 : ∀ x y, ExitsIn S (mask x y) := by
    intro x y; unfold mask
    refine ExitsIn.mapM' ?_ _
    intro p; exits
  unfold verdict; exits

theorem stats_exits {S : Nat → Prop} (d : Dict Str (Option PyFloat)) (ls : List Str) : ExitsIn S (stats d ls) := by
  have h1 : ∀ l, ExitsIn S (statLine l) := by
    intro l
    have i3 : ∀ {α} (l : List α) i, ExitsIn S (idx l i) := fun l i => idx_exits l i
    unfold statLine; exits
  induction ls generalizing d with
  | nil => exact ExitsIn.ok _
  | cons l ls ih =>
    unfold stats
    refine ExitsIn.bind (h1 l) fun r => ?_
    cases r with
    | none => exact ih d
    | some kv => exact ih _

/-- C31: the parser exits only with code 600, and only if there is no iteration line; such a text is never accepted. -/
theorem C31_exits (lines : List Str) :
    (∀ c, fromList lines = .exit c → c = 600 ∧ iters lines = []) ∧ (iters lines = [] → ∀ d, fromList lines ≠ .ok d) := by
  constructor
  · intro c hc
    unfold fromList at hc
    cases hs : scan {} lines with
    | exit k => exact absurd ((scan_exits (S := fun _ => False) {} lines).of k hs) id
    | raise e => rw [hs] at hc; cases hc
    | ok s =>
      rw [hs, Res.ok_bind] at hc
      obtain ⟨i1, _⟩ := scan_iters hs
      split at hc
      · rename_i hit
        cases hc
        refine ⟨rfl, ?_⟩
        rw [hit] at i1
        cases hi : iters lines with
        | nil => rfl
        | cons a as =>
          rw [hi] at i1
          simp only [List.getLast?_cons, Option.some_or] at i1
          cases i1
      · rename_i it hit
        have := ExitsIn.bind (verdict_exits (S := fun _ => False) s.finished ((number s.params c!"ibrion").getD (-1)) (number s.status c!"nsw")
          (number s.status c!"nelm") it s.steps) (fun v => ExitsIn.bind (stats_exits (S := fun _ => False) [] (lastN 50 lines))
            fun st => ExitsIn.ok (⟨s, v, it, st⟩ : Data))
        exact absurd (this.of c hc) id
  · intro hi d hd
    have := (C30_counts lines d hd).1
    rw [hi] at this
    cases this

/-- C31: a text with an iteration line does not exit 600. -/
theorem C31_iteration (lines : List Str) (l : Str) (hl : l ∈ lines) (n m : Nat) (hi : iterOf l = some (n, m)) :
    fromList lines ≠ .exit 600 := by
  intro h
  have := ((C31_exits lines).1 600 h).2
  have hm : (n, m) ∈ iters lines := List.mem_filterMap.2 ⟨l, hl, hi⟩
  rw [this] at hm
  cases hm

/-- Specification: a line that starts no table and prints no parameter; the texts the parser looks for. -/
def Quiet (l : Str) : Prop :=
  (∀ key ∈ [c!"NSW", c!"IBRION", c!"NELM"], ∀ g, matchIntParam key l = some g → (pyInt g).isSome) ∧
  contains c!"NBANDS=" l = false ∧
  ∀ h ∈ [c!"Subroutine PRICEL returns", c!"Routine SETGRP: Setting up the symmetry group for a", c!"Subroutine GETGRP returns",
    c!"ELASTIC MODULI  (kBar)", c!"SYMMETRIZED ELASTIC MODULI", c!"TOTAL ELASTIC MODULI", c!"magnetization (x)", c!"magnetization (y)",
    c!"magnetization (z)", c!"number of electron"], startsWith h (strip l) = false

theorem matchInt_quiet {d : Dict Str (Option Int)} {k l : Str} (h : ∀ g, matchIntParam k l = some g → (pyInt g).isSome) :
    ∃ d', matchIntegerParam d k l = .ok d' := by
  unfold matchIntegerParam
  cases hm : matchIntParam k l with
  | none => exact ⟨_, rfl⟩
  | some g =>
    obtain ⟨i, hi⟩ := Option.isSome_iff_exists.1 (h g hm)
    simp only [hi]
    exact ⟨_, rfl⟩

theorem step_quiet {s : State} {l : Str} {ls : List Str} (hi : iterOf l = none) (h : Quiet l) : ∃ s', step s l ls = .ok s' := by
  obtain ⟨h1, h2, h3⟩ := h
  obtain ⟨st1, e1⟩ := matchInt_quiet (d := s.status) (h1 c!"NSW" (by simp))
  obtain ⟨pa, e2⟩ := matchInt_quiet (d := s.params) (h1 c!"IBRION" (by simp))
  obtain ⟨st2, e3⟩ := matchInt_quiet (d := st1) (h1 c!"NELM" (by simp))
  have q1 := h3 _ (List.mem_cons_self ..)
  have q2 := h3 c!"Routine SETGRP: Setting up the symmetry group for a" (by simp)
  have q3 := h3 c!"Subroutine GETGRP returns" (by simp)
  have q4 := h3 c!"ELASTIC MODULI  (kBar)" (by simp)
  have q5 := h3 c!"SYMMETRIZED ELASTIC MODULI" (by simp)
  have q6 := h3 c!"TOTAL ELASTIC MODULI" (by simp)
  have q7 := h3 c!"magnetization (x)" (by simp)
  have q8 := h3 c!"magnetization (y)" (by simp)
  have q9 := h3 c!"magnetization (z)" (by simp)
  have q10 := h3 c!"number of electron" (by simp)
  unfold step
  rw [hi]
  simp only []
  unfold readParams
  rw [e1, Res.ok_bind, e2, Res.ok_bind, e3, Res.ok_bind, h2, if_neg (by decide), Res.ok_bind]
  generalize readConfig _ _ = t
  have hsym : ∃ t', readSymmetry t l ls = .ok t' := by
    unfold readSymmetry readPricel readSetgrp readGetgrp
    cases t.config with
    | none => exact ⟨_, rfl⟩
    | some dyn =>
      simp only [q1, q2, q3, Bool.false_eq_true, if_false, Res.ok_bind]
      exact ⟨_, rfl⟩
  obtain ⟨t', ht'⟩ := hsym
  rw [ht', Res.ok_bind]
  unfold readElastics readElastic
  simp only [q4, q5, q6, Bool.false_eq_true, if_false, Res.ok_bind]
  unfold readMagnetization readSphere
  simp only [List.cons_append, List.nil_append, q7, q8, q9, q10, Bool.false_eq_true, if_false, Res.ok_bind]
  exact ⟨_, rfl⟩

/-- C31, proved part: a text without iteration line whose lines are quiet exits 600. Missing: texts cut inside a table, or with
unreadable numbers (`C31_violation`), where an exception escapes instead. -/
theorem C31_refused_partial (lines : List Str) (hi : ∀ l ∈ lines, iterOf l = none) (hq : ∀ l ∈ lines, Quiet l) :
    fromList lines = .exit 600 := by
  have hs : ∃ s', scan {} lines = .ok s' := by
    generalize ({} : State) = s
    induction lines generalizing s with
    | nil => exact ⟨s, rfl⟩
    | cons l ls ih =>
      obtain ⟨s1, h1⟩ := step_quiet (s := s) (ls := ls) (hi l (by simp)) (hq l (by simp))
      unfold scan
      rw [h1, Res.ok_bind]
      exact ih (fun x hx => hi x (by simp [hx])) (fun x hx => hq x (by simp [hx])) s1
  obtain ⟨s', hs⟩ := hs
  obtain ⟨i1, _⟩ := scan_iters hs
  have : iters lines = [] := by
    unfold iters
    rw [List.filterMap_eq_nil_iff]
    exact hi
  rw [this] at i1
  unfold fromList
  rw [hs, Res.ok_bind]
  have : s'.iter = none := i1
  rw [this]

/-- C31 is false for a text that ends inside a table: `IndexError` instead of exit 600. -/
theorem C31_violation : init none (some c!" some text\n SYMMETRIZED ELASTIC MODULI (kBar)\n") = .raise .indexError := by decide +kernel

example : init none (some c!" running on 4 total cores\n   NSW    =      5\n") = .exit 600 := by decide +kernel

end Verif.Outcar
