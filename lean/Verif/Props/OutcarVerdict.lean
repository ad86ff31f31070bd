import Verif.Props.Outcar
/-! # The verdict on a run whose iterations are numbered in order (C133) -/
set_option autoImplicit false
namespace Verif.Outcar
open Verif Verif.Utils

/-! ### Specification -/

/-- The iteration lines of a run from ionic step `n` on, given the number of electronic steps in each: ionic steps are numbered on,
electronic steps within each from 1. -/
def numbered (n : Nat) : List Nat → List (Nat × Nat)
  | [] => []
  | k :: ks => ((List.range k).map fun i => (n, i + 1)) ++ numbered (n + 1) ks

/-- The verdict on a run with `init` electronic steps in the ionic steps but the last and `k` in the last. -/
structure Judged (init : List Nat) (k : Nat) (finished : Prop) (ibrion : Int) (nsw : Option Int) (nelm : Int) (v : Verdict) : Prop where
  ionicTrue : v.ionic = some true ↔ finished ∧ ibrion > 0 ∧ ∃ n, nsw = some n ∧ init.length + 1 < n
  ionicNone : v.ionic = none ↔ finished ∧ (ibrion ≤ 0 ∨ ∃ n, nsw = some n ∧ n ≤ 1 ∧ n ≤ init.length + 1)
  electronic : v.electronic = true ↔ finished ∧ k < nelm
  contains : v.contains = true ↔ ∃ x ∈ init ++ [k], nelm ≤ (x : Nat)
  consistent : v.consistent = true ↔ (∀ x ∈ init, nelm ≤ (x : Nat)) ∧ (finished ∧ nelm ≤ k ∨ ¬ finished ∧ init ≠ [])

/-! ### Proofs -/

theorem numbered_count (n : Nat) (ks : List Nat) (m : Nat) :
    ((numbered n ks).map Prod.fst).count m = if n ≤ m then (ks[m - n]?).getD 0 else 0 := by
  induction ks generalizing n with
  | nil => simp [numbered]
  | cons k ks ih =>
    rw [numbered, List.map_append, List.count_append, ih]
    have h1 : (((List.range k).map fun i => (n, i + 1)).map Prod.fst).count m = if m = n then k else 0 := by
      rw [List.map_map]
      have : ((List.range k).map (Prod.fst ∘ fun i => (n, i + 1))) = List.replicate k n := by
        rw [List.eq_replicate_iff]; simp
      rw [this, List.count_replicate]
      by_cases h : m = n
      · simp [h]
      · simp [h, Ne.symm h]
    rw [h1]
    by_cases h : m = n
    · subst h; simp
    · rw [if_neg h]
      by_cases h2 : n ≤ m
      · obtain ⟨j, rfl⟩ : ∃ j, m = n + 1 + j := ⟨m - n - 1, by omega⟩
        rw [if_pos (by omega), if_pos (by omega), show n + 1 + j - n = j + 1 by omega, show n + 1 + j - (n + 1) = j by omega]
        simp
      · rw [if_neg (by omega), if_neg (by omega)]

theorem numbered_mem (n : Nat) (ks : List Nat) (hp : ∀ k ∈ ks, 0 < k) (m : Nat) :
    m ∈ (numbered n ks).map Prod.fst ↔ n ≤ m ∧ m - n < ks.length := by
  rw [← List.count_pos_iff, numbered_count]
  split
  · rename_i h
    by_cases h2 : m - n < ks.length
    · rw [List.getElem?_eq_getElem h2]
      simp [h, h2, hp]
    · rw [List.getElem?_eq_none (by omega)]
      simp [h2]
  · simp; omega

theorem numbered_append (n : Nat) (a b : List Nat) : numbered n (a ++ b) = numbered n a ++ numbered (n + a.length) b := by
  induction a generalizing n with
  | nil => rfl
  | cons k a ih =>
    rw [List.cons_append, numbered, numbered, ih, List.append_assoc, List.length_cons]
    congr 3
    omega

theorem numbered_last (n : Nat) (init : List Nat) (k : Nat) (hk : 0 < k) : (numbered n (init ++ [k])).getLast? = some (n + init.length, k) := by
  rw [numbered_append, List.getLast?_append]
  obtain ⟨j, rfl⟩ : ∃ j, k = j + 1 := ⟨k - 1, by omega⟩
  simp [numbered, List.range_succ]

/-- C133: the verdict on every OUTCAR in which the iterations are numbered in order, as a function of the numbers of electronic steps, of
whether the run finished, and of the values of `NELM`, `NSW` and `IBRION` printed last. -/
theorem C133_verdict (lines : List Str) (d : Data) (h : fromList lines = .ok d) (init : List Nat) (k : Nat)
    (hp : ∀ x ∈ init ++ [k], 0 < x) (hi : iters lines = numbered 1 (init ++ [k])) :
    ∃ nelm, lastParam c!"NELM" lines = some nelm ∧
      Judged init k (Finished lines) ((lastParam c!"IBRION" lines).getD (-1)) (lastParam c!"NSW" lines) nelm d.verdict := by
  obtain ⟨nelm, hn, hlast, hd⟩ := C28_verdict lines d h
  refine ⟨nelm, hn, ?_⟩
  rw [hi, numbered_last 1 init k (hp k (by simp))] at hlast
  injection hlast with hlast
  have hl1 : d.last.1 = 1 + init.length := by rw [← hlast]
  have hl2 : d.last.2 = k := by rw [← hlast]
  have hmem : ∀ m, m ∈ (iters lines).map Prod.fst ↔ 1 ≤ m ∧ m - 1 < (init ++ [k]).length := by
    intro m; rw [hi]; exact numbered_mem 1 _ hp m
  have hst : ∀ j x, (init ++ [k])[j]? = some x → stepsOf lines (1 + j) = x := by
    intro j x hj
    unfold stepsOf
    rw [hi, numbered_count, if_pos (by omega), show 1 + j - 1 = j by omega, hj]; rfl
  have hall : ∀ P : Nat → Prop, (∀ m ∈ (iters lines).map Prod.fst, P (stepsOf lines m)) ↔ ∀ x ∈ init ++ [k], P x := by
    intro P
    constructor
    · intro hP x hx
      obtain ⟨j, hj⟩ := List.getElem?_of_mem hx
      have hjl := (List.getElem?_eq_some_iff.1 hj).1
      rw [← hst j x hj]
      exact hP _ ((hmem _).2 ⟨by omega, by omega⟩)
    · intro hP m hm
      obtain ⟨h1, h2⟩ := (hmem m).1 hm
      have h3 : (init ++ [k])[m - 1]? = some (init ++ [k])[m - 1] := List.getElem?_eq_getElem h2
      have h4 := hst _ _ h3
      rw [show 1 + (m - 1) = m by omega] at h4
      rw [h4]
      exact hP _ (List.getElem_mem h2)
  have hinit : ∀ P : Nat → Prop, (∀ m ∈ (iters lines).map Prod.fst, (∃ q ∈ (iters lines).map Prod.fst, m < q) → P (stepsOf lines m)) ↔
      ∀ x ∈ init, P x := by
    intro P
    constructor
    · intro hP x hx
      obtain ⟨j, hj⟩ := List.getElem?_of_mem hx
      have hjl := (List.getElem?_eq_some_iff.1 hj).1
      have h3 : (init ++ [k])[j]? = some x := by rw [List.getElem?_append_left hjl]; exact hj
      rw [← hst j x h3]
      refine hP _ ((hmem _).2 ⟨by omega, ?_⟩) ⟨1 + init.length, (hmem _).2 ⟨by omega, ?_⟩, by omega⟩
      · simp; omega
      · simp
    · rintro hP m hm ⟨q, hq, hlt⟩
      obtain ⟨h1, h2⟩ := (hmem m).1 hm
      obtain ⟨_, h3⟩ := (hmem q).1 hq
      simp only [List.length_append, List.length_cons, List.length_nil] at h2 h3
      have h4 : m - 1 < init.length := by omega
      have h5 : (init ++ [k])[m - 1]? = some init[m - 1] := by rw [List.getElem?_append_left h4, List.getElem?_eq_getElem h4]
      have h6 := hst _ _ h5
      rw [show 1 + (m - 1) = m by omega] at h6
      rw [h6]
      exact hP _ (List.getElem_mem h4)
  constructor
  · rw [hd.ionicTrue, hl1]; simp only [Nat.cast_add, Nat.cast_one, Int.add_comm]
  · rw [hd.ionicNone, hl1]; simp only [Nat.cast_add, Nat.cast_one, Int.add_comm]
  · rw [hd.electronic, hl2]
  · rw [hd.contains]
    have := not_congr (hall fun x => ¬ nelm ≤ (x : Nat))
    push Not at this
    simpa using this
  · by_cases hf : Finished lines
    · rw [hd.consistentFinished hf, hall fun x => nelm ≤ (x : Nat)]
      simp only [List.mem_append, List.mem_singleton, hf, true_and, not_true, false_and, or_false]
      constructor
      · intro h; exact ⟨fun x hx => h x (.inl hx), h k (.inr rfl)⟩
      · rintro ⟨h1, h2⟩ x (hx | rfl)
        · exact h1 x hx
        · exact h2
    · rw [hd.consistentUnfinished hf, hinit fun x => nelm ≤ (x : Nat), hl1]
      have : 1 < 1 + init.length ↔ init ≠ [] := by
        cases init <;> simp
      rw [this]
      simp only [hf, false_and, not_false_eq_true, true_and, false_or]
      exact and_comm

/-- C133: on such a run the flags agree with one another: a consistent breach is a breach, an electronically converged run has no consistent
breach, and a finished run that is not converged has a breach. -/
theorem C133_coherent (lines : List Str) (d : Data) (h : fromList lines = .ok d) (init : List Nat) (k : Nat)
    (hp : ∀ x ∈ init ++ [k], 0 < x) (hi : iters lines = numbered 1 (init ++ [k])) :
    (d.verdict.consistent = true → d.verdict.contains = true ∧ d.verdict.electronic = false) ∧
    (Finished lines → d.verdict.electronic = false → d.verdict.contains = true) := by
  obtain ⟨nelm, _, hj⟩ := C133_verdict lines d h init k hp hi
  refine ⟨fun hc => ⟨?_, ?_⟩, fun hf he => ?_⟩
  · rw [hj.contains]
    obtain ⟨h1, ⟨_, h2⟩ | ⟨_, h2⟩⟩ := hj.consistent.1 hc
    · exact ⟨k, by simp, h2⟩
    · obtain ⟨x, xs, rfl⟩ := List.exists_cons_of_ne_nil h2
      exact ⟨x, by simp, h1 x (by simp)⟩
  · cases he : d.verdict.electronic with
    | false => rfl
    | true =>
      obtain ⟨h1, h2⟩ := hj.electronic.1 he
      obtain ⟨_, ⟨_, h3⟩ | ⟨h3, _⟩⟩ := hj.consistent.1 hc
      · omega
      · exact absurd h1 h3
  · rw [hj.contains]
    refine ⟨k, by simp, ?_⟩
    by_contra hlt
    have := hj.electronic.2 ⟨hf, by omega⟩
    rw [he] at this; cases this

/-- C133: exactly the texts for which the breach is reported as consistent but not as contained: the run is unfinished, all iteration lines
are of one ionic step, this is not the first, and there are fewer of them than `NELM`. -/
theorem C133_lone (lines : List Str) (d : Data) (h : fromList lines = .ok d) :
    (d.verdict.consistent = true ∧ d.verdict.contains = false) ↔
      ¬ Finished lines ∧ ∃ n nelm, 1 < n ∧ lastParam c!"NELM" lines = some nelm ∧ (∀ p ∈ iters lines, p.1 = n) ∧ ((iters lines).length : Int) < nelm := by
  obtain ⟨nelm, hn, hlast, hd⟩ := C28_verdict lines d h
  have hmem : d.last.1 ∈ (iters lines).map Prod.fst := List.mem_map.2 ⟨d.last, List.mem_of_getLast? hlast, rfl⟩
  have hone : ∀ n, (∀ p ∈ iters lines, p.1 = n) → stepsOf lines n = (iters lines).length := by
    intro n hq
    unfold stepsOf
    rw [List.count_eq_length.2, List.length_map]
    intro b hb
    obtain ⟨p, hp, rfl⟩ := List.mem_map.1 hb
    exact (hq p hp).symm
  constructor
  · rintro ⟨hc, hk⟩
    have hk : ∀ m ∈ (iters lines).map Prod.fst, ¬ nelm ≤ stepsOf lines m := by
      intro m hm hle
      have := hd.contains.2 ⟨m, hm, hle⟩
      rw [hk] at this; cases this
    by_cases hf : Finished lines
    · exact absurd ((hd.consistentFinished hf).1 hc _ hmem) (hk _ hmem)
    · obtain ⟨h1, h2⟩ := (hd.consistentUnfinished hf).1 hc
      have hle : ∀ m ∈ (iters lines).map Prod.fst, ∀ q ∈ (iters lines).map Prod.fst, q ≤ m := by
        intro m hm q hq
        by_contra hlt
        exact hk m hm (h2 m hm ⟨q, hq, by omega⟩)
      have hall : ∀ p ∈ iters lines, p.1 = d.last.1 := by
        intro p hp
        have hp' : p.1 ∈ (iters lines).map Prod.fst := List.mem_map_of_mem hp
        have a := hle _ hmem _ hp'
        have b := hle _ hp' _ hmem
        omega
      refine ⟨hf, d.last.1, nelm, h1, hn, hall, ?_⟩
      have := hk _ hmem
      rw [hone _ hall] at this
      omega
  · rintro ⟨hf, n, nelm', h1, h2, h3, h4⟩
    rw [hn] at h2
    cases h2
    have hln : d.last.1 = n := h3 _ (List.mem_of_getLast? hlast)
    have heq : ∀ m ∈ (iters lines).map Prod.fst, m = n := by
      intro m hm
      obtain ⟨p, hp, rfl⟩ := List.mem_map.1 hm
      exact h3 p hp
    constructor
    · rw [hd.consistentUnfinished hf, hln]
      refine ⟨h1, ?_⟩
      rintro m hm ⟨q, hq, hlt⟩
      rw [heq m hm, heq q hq] at hlt
      omega
    · cases hk : d.verdict.contains with
      | false => rfl
      | true =>
        obtain ⟨m, hm, hle⟩ := hd.contains.1 hk
        rw [heq m hm, hone n h3] at hle
        omega

/-- Non-vacuity: the finished relaxation of two ionic steps, with two and one electronic steps. -/
example : iters (readlines exampleOutcar) = numbered 1 ([2] ++ [1]) ∧ ∃ d, fromList (readlines exampleOutcar) = .ok d := by
  refine ⟨by decide +kernel, ?_⟩
  cases h : fromList (readlines exampleOutcar) with
  | ok d => exact ⟨d, rfl⟩
  | exit n =>
    have : flags (fromList (readlines exampleOutcar)) = .ok (some true, true, false, true) := by decide +kernel
    rw [h] at this; cases this
  | raise e =>
    have : flags (fromList (readlines exampleOutcar)) = .ok (some true, true, false, true) := by decide +kernel
    rw [h] at this; cases this

end Verif.Outcar
