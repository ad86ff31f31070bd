import Verif.Props.CutVasprunData
import Verif.Props.VasprunSteps
/-! # C113: energies and ionic steps of a vasprun.xml that is cut off -/
set_option autoImplicit false
namespace Verif.Vasprun
open Verif Verif.Utils Verif.Xml Verif.VasprunEvent
open Verif.Kpoints (idx toFloat toInt)

variable {full cut : Node} {kbb all : Bool} {d d' : Data}

/-- An element that is left: it is at the same place, perhaps cut off itself, which only happens to the last one. -/
theorem CutAll.get {l l' : List Node} (h : CutAll l l') {k : Nat} {c' : Node} (hk : l'[k]? = some c') :
    ∃ c, l[k]? = some c ∧ CutAll [c] [c'] ∧ (k + 1 < l'.length → c' = c) := by
  induction h generalizing k with
  | stop cs => simp at hk
  | inside tag attrs text text' ds ds' cs hne h ih =>
    cases k with
    | zero =>
      simp only [List.getElem?_cons_zero, Option.some.injEq] at hk
      subst hk
      exact ⟨_, rfl, .inside _ _ _ _ _ _ _ hne h, fun hl => by simp at hl⟩
    | succ k => simp at hk
  | keep c cs cs' h ih =>
    cases k with
    | zero =>
      simp only [List.getElem?_cons_zero, Option.some.injEq] at hk
      subst hk
      exact ⟨_, rfl, CutAll.refl _, fun _ => rfl⟩
    | succ k =>
      obtain ⟨a, h1, h2, h3⟩ := ih (k := k) (by simpa using hk)
      exact ⟨a, by simpa using h1, h2, fun hl => h3 (by simpa using hl)⟩

theorem CutAll.one {c c' : Node} {cs cs' : List Node} (h : CutAll (c :: cs) (c' :: cs')) : CutAll [c] [c'] := by
  obtain ⟨a, h1, h2, _⟩ := h.get (k := 0) (c' := c') rfl
  cases h1
  exact h2

theorem Ordinary.below {n : Node} (ho : Ordinary full) (hn : n ∈ Xml.below full) : Ordinary n where
  apart := fun a ha => ho.apart a (below_trans hn ha)
  leaf := fun a ha => ho.leaf a (below_trans hn ha)
  rows := fun a ha => ho.rows a (below_trans hn ha)

/-! ### energies -/

theorem fetchEnergy_cut {c c' : Node} (ho : Ordinary c) (hc : CutOff c c') {e : EType} {xs xs' : List Rat} {y y' : Option Rat}
    (h : fetchEnergy c e = .ok (some (xs, y))) (h' : fetchEnergy c' e = .ok (some (xs', y'))) : xs' <+: xs ∧ y' = y := by
  have p1 := ho.prefix hc (t c!"scstep") [t c!"energy"] (tn c!"i" e.key) (by decide) (show c!"i" ∈ _ by decide)
  have p2 := ho.prefixRel hc (t c!"energy") [] (tn c!"i" e.key) (show c!"i" ∈ _ by decide)
  unfold fetchEnergy at h h'
  simp only [List.cons_append, List.nil_append] at p1 p2
  generalize findAny c (t c!"scstep") [t c!"energy", tn c!"i" e.key] = A at p1 h
  generalize findAny c' (t c!"scstep") [t c!"energy", tn c!"i" e.key] = A' at p1 h'
  generalize findRel c [t c!"energy", tn c!"i" e.key] = B at p2 h
  generalize findRel c' [t c!"energy", tn c!"i" e.key] = B' at p2 h'
  cases A with
  | nil => simp at h
  | cons a A =>
    cases A' with
    | nil => simp at h'
    | cons a' A' =>
      simp only at h h'
      obtain ⟨r, hr, h⟩ := Res.bind_eq_ok.1 h
      obtain ⟨r', hr', h'⟩ := Res.bind_eq_ok.1 h'
      cases B' with
      | nil => simp at h'
      | cons f' B' =>
        cases B with
        | nil => simp at h
        | cons f B =>
          obtain ⟨rfl, _⟩ := List.cons_prefix_cons.1 p2
          simp only at h h'
          obtain ⟨z, hz, h⟩ := Res.bind_eq_ok.1 h
          obtain ⟨z', hz', h'⟩ := Res.bind_eq_ok.1 h'
          rw [hz] at hz'
          cases hz'
          cases h; cases h'
          exact ⟨mapM'_prefix p1 hr hr', rfl⟩

/-- The energies of a step in the cut document: the final ones are the same, of the electronic steps there are the first ones. -/
def EnergiesCut (en en' : Energies) : Prop :=
  ∀ e, ∃ xs xs' y, en.sc.get? e = some xs ∧ en'.sc.get? e = some xs' ∧ xs' <+: xs ∧ en.final.get? e = some y ∧ en'.final.get? e = some y

theorem fetchStepEnergies_get {c : Node} {es : List EType} {en : Energies} (h : fetchStepEnergies c es = .ok (some en)) :
    ∀ e ∈ es, ∃ xs y, fetchEnergy c e = .ok (some (xs, y)) ∧ en.sc.get? e = some xs ∧ en.final.get? e = some y := by
  induction es generalizing en with
  | nil => intro e he; cases he
  | cons a es ih =>
    rw [fetchStepEnergies] at h
    obtain ⟨q, hq, h⟩ := Res.bind_eq_ok.1 h
    cases q with
    | none => simp at h
    | some q =>
      obtain ⟨xs, y⟩ := q
      simp only at h
      obtain ⟨m, hm, h⟩ := Res.bind_eq_ok.1 h
      cases m with
      | none => simp at h
      | some m =>
        cases h
        intro e he
        by_cases hee : a = e
        · subst hee
          exact ⟨xs, y, hq, by simp [Dict.get?], by simp [Dict.get?]⟩
        · obtain ⟨xs', y', h1, h2, h3⟩ := ih hm e ((List.mem_cons.1 he).resolve_left fun h => hee h.symm)
          exact ⟨xs', y', h1, by simp [Dict.get?, hee, h2], by simp [Dict.get?, hee, h3]⟩

theorem fetchAllEnergies_get {cs : List Node} {i : Nat} {m : Dict Nat Energies} (h : fetchAllEnergies i cs = .ok (some m)) :
    ∃ ens, m = number i ens ∧ List.Forall₂ (fun c en => fetchStepEnergies c [.extrapolated, .free, .noEntropy] = .ok (some en)) cs ens := by
  induction cs generalizing i m with
  | nil => cases h; exact ⟨[], rfl, .nil⟩
  | cons c cs ih =>
    rw [fetchAllEnergies] at h
    obtain ⟨q, hq, h⟩ := Res.bind_eq_ok.1 h
    cases q with
    | none => simp at h
    | some en =>
      simp only at h
      obtain ⟨r, hr, h⟩ := Res.bind_eq_ok.1 h
      cases r with
      | none => simp at h
      | some r =>
        cases h
        obtain ⟨ens, rfl, h2⟩ := ih hr
        exact ⟨en :: ens, rfl, .cons hq h2⟩

theorem fetchTotens_get {root : Node} {m : Dict Nat Energies} (h : fetchTotens root = .ok (some m)) :
    ∃ ens, m = number 1 ens ∧
      List.Forall₂ (fun c en => fetchStepEnergies c [.extrapolated, .free, .noEntropy] = .ok (some en)) (calculations root) ens := by
  unfold fetchTotens at h
  change (match calculations root with
    | [] => (Res.ok none : Res (Option (Dict Nat Energies)))
    | cs => fetchAllEnergies 1 cs) = .ok (some m) at h
  generalize calculations root = cs at h
  cases cs with
  | nil => simp at h
  | cons c cs => exact fetchAllEnergies_get h

/-- C113, energies: there are some for the steps left, they are the same for all steps but the last one, which has the same final energies and those
of the first electronic steps. (If the last step left has no final energies there are no energies at all, see `C113_violation_energies`.) Missing: the last case, for which the claim is false. -/
theorem C113_energies_partial (ho : Ordinary full) (hc : CutOff full cut) (h : parsew full kbb all = .ok d) (h' : parsew cut kbb all = .ok d')
    (m m' : Dict Nat Energies) (hm : d.totens = some m) (hm' : d'.totens = some m') :
    (∀ k, m'.get? k ≠ none ↔ 1 ≤ k ∧ k ≤ (calculations cut).length) ∧
    ∀ k en', m'.get? k = some en' → ∃ en, m.get? k = some en ∧ EnergiesCut en en' ∧ (k < (calculations cut).length → en' = en) := by
  have g := (parts h).totens
  have g' := (parts h').totens
  rw [hm] at g
  rw [hm'] at g'
  obtain ⟨ens, rfl, hF⟩ := fetchTotens_get g
  obtain ⟨ens', rfl, hF'⟩ := fetchTotens_get g'
  have hl := hF.length_eq
  have hl' := hF'.length_eq
  have hcc : CutAll (calculations full) (calculations cut) := ho.cut hc _ [] (by decide)
  refine ⟨fun k => ?_, fun k en' hk => ?_⟩
  · by_cases hk : k < 1
    · rw [number_get_none 1 k ens' hk]
      constructor
      · intro h0; exact absurd rfl h0
      · intro h0; omega
    · obtain ⟨j, rfl⟩ : ∃ j, k = 1 + j := ⟨k - 1, by omega⟩
      rw [number_get]
      by_cases hj : j < ens'.length
      · rw [List.getElem?_eq_getElem hj]
        exact ⟨fun _ => by omega, fun _ h0 => by cases h0⟩
      · rw [List.getElem?_eq_none (by omega)]
        exact ⟨fun h0 => absurd rfl h0, fun h0 => by omega⟩
  · by_cases hk1 : k < 1
    · rw [number_get_none 1 k ens' hk1] at hk; cases hk
    · obtain ⟨j, rfl⟩ : ∃ j, k = 1 + j := ⟨k - 1, by omega⟩
      rw [number_get] at hk
      obtain ⟨hj, hje⟩ := List.getElem?_eq_some_iff.1 hk
      have hj' : j < (calculations cut).length := by omega
      have f' := hF'.get (i := j) hj' hj
      obtain ⟨c, c1, c2, c3⟩ := hcc.get (List.getElem?_eq_getElem hj')
      obtain ⟨hjf, c1⟩ := List.getElem?_eq_some_iff.1 c1
      have f := hF.get (i := j) hjf (by omega)
      simp only [List.get_eq_getElem] at f f'
      rw [c1] at f
      rw [hje] at f'
      rw [number_get]
      refine ⟨ens[j]'(by omega), List.getElem?_eq_getElem _, ?_, ?_⟩
      · intro e
        obtain ⟨xs, y, a1, a2, a3⟩ := fetchStepEnergies_get f e (mem_types e)
        obtain ⟨xs', y', b1, b2, b3⟩ := fetchStepEnergies_get f' e (mem_types e)
        have hcm : c ∈ Xml.below full := by
          rw [← c1]
          exact mem_findAny (List.getElem_mem hjf)
        obtain ⟨r1, r2⟩ := fetchEnergy_cut (ho.below hcm) c2 a1 b1
        exact ⟨xs, xs', y, a2, b2, r1, a3, by rw [b3, r2]⟩
      · intro hlt
        rw [c3 (by omega), f] at f'
        simpa using f'.symm

/-! ### ionic steps -/

/-- The element number `k` (from zero) of the complete document is in the cut one, and unchanged. -/
def Kept (sets sets' : List Node) (k : Nat) : Prop := k < sets.length ∧ sets'[k]? = sets[k]?

/-- The entry of step `k` is what the complete document prints for it. -/
def EntryOf (sets : List Node) (k : Nat) (q : Option Steps) : Prop := ∃ s x, q = some s ∧ s.get? (k + 1) = some (some x) ∧ StepTable sets k x

theorem CutAll.kept {l l' : List Node} (h : CutAll l l') {k : Nat} (hk : Kept l l' k) : l'.take (k + 1) = l.take (k + 1) := by
  obtain ⟨h1, h2⟩ := hk
  have hl : k < l'.length := by
    rw [List.getElem?_eq_getElem h1] at h2
    exact (List.getElem?_eq_some_iff.1 h2).1
  refine List.ext_getElem? fun i => ?_
  by_cases hi : i < k + 1
  · rw [List.getElem?_take_of_lt hi, List.getElem?_take_of_lt hi]
    by_cases hik : i = k
    · subst hik; exact h2
    · obtain ⟨c, c1, _, c3⟩ := h.get (List.getElem?_eq_getElem (show i < l'.length by omega))
      rw [c1, List.getElem?_eq_getElem (show i < l'.length by omega), c3 (by omega)]
  · rw [List.getElem?_eq_none (by rw [List.length_take]; omega), List.getElem?_eq_none (by rw [List.length_take]; omega)]

theorem kept_rows {sets sets' : List Node} {n m k : Nat} (hp : PerStep sets n m) (hc : CutAll sets sets') (hk : Kept sets sets' k) :
    (k + 1) * m ≤ (sets'.flatMap vIn).length ∧
      ∃ x, StepTable sets k x ∧ convert2D (((sets'.flatMap vIn).drop (k * m)).take m) 3 = .ok x := by
  have e := hc.kept hk
  have hs : sets'.flatMap vIn = (sets.take (k + 1)).flatMap vIn ++ (sets'.drop (k + 1)).flatMap vIn := by
    rw [← e, ← List.flatMap_append, List.take_append_drop]
  have hlen : ((sets.take (k + 1)).flatMap vIn).length = (k + 1) * m := by
    have hall : ∀ s ∈ sets.take (k + 1), (vIn s).length = m := fun s hs => (hp.2 s (List.mem_of_mem_take hs)).1
    have : PerStep (sets.take (k + 1)) (k + 1) m := ⟨by rw [List.length_take]; have := hk.1; omega,
      fun s hs => hp.2 s (List.mem_of_mem_take hs)⟩
    exact this.length
  refine ⟨by rw [hs, List.length_append, hlen]; omega, ?_⟩
  have hk1 : k < (sets.take (k + 1)).length := by rw [List.length_take]; have := hk.1; omega
  have hb : ((sets'.flatMap vIn).drop (k * m)).take m = vIn (sets[k]'hk.1) := by
    rw [hs, List.drop_append_of_le_length (by rw [hlen, Nat.add_mul]; omega), List.take_append_of_le_length (by
      rw [List.length_drop, hlen, Nat.add_mul]; omega)]
    rw [flatMap_block (fun s hs => (hp.2 s (List.mem_of_mem_take hs)).1) hk1]
    rw [List.getElem_take]
  rw [hb]
  obtain ⟨rows, hr⟩ := AllPrint.rows (hp.2 _ (List.getElem_mem hk.1)).2
  exact ⟨rows, ⟨_, List.getElem?_eq_getElem hk.1, hr.imp fun _ _ h => h.1⟩, convert2D_rows hr⟩

theorem furtherSteps_get {m : Nat} {es : List Node} {l : List Nat} {q r : Steps} (hl : l.Nodup) (h : furtherSteps m es l q = .ok r) :
    (∀ i ∈ l, ∃ x, convert2D ((es.drop (i * m)).take m) 3 = .ok x ∧ r.get? (i + 1) = some (some x)) ∧
      ∀ j, (∀ i ∈ l, j ≠ i + 1) → r.get? j = q.get? j := by
  induction l generalizing q with
  | nil => cases h; exact ⟨fun i hi => (by cases hi), fun _ _ => rfl⟩
  | cons i l ih =>
    rw [furtherSteps] at h
    obtain ⟨x, hx, h⟩ := Res.bind_eq_ok.1 h
    obtain ⟨hi, hl⟩ := List.nodup_cons.1 hl
    obtain ⟨h1, h2⟩ := ih hl h
    refine ⟨fun j hj => ?_, fun j hj => ?_⟩
    · rcases List.mem_cons.1 hj with rfl | hj
      · refine ⟨x, hx, ?_⟩
        rw [h2 (j + 1) fun i' hi' e => hi (by rwa [show j = i' by omega]), Dict.get?_set, if_pos rfl]
      · exact h1 j hj
    · rw [h2 j fun i' hi' => hj i' (List.mem_cons_of_mem _ hi'), Dict.get?_set, if_neg fun e => hj i (List.mem_cons_self ..) e.symm]

theorem sameIfMissing_some {q : Steps} {j : Nat} {x : Table} (h : q.get? j = some (some x)) : (sameIfMissing q).get? j = some (some x) := by
  unfold sameIfMissing
  split
  · exact h
  · rename_i hq
    rw [Dict.get?_set]
    by_cases hj : 2 = j
    · subst hj; exact absurd h (hq x)
    · rw [if_neg hj]; exact h

theorem allSteps_kept {sets sets' : List Node} {n m n' k : Nat} {more : Bool} {q : Steps} (hm : 0 < m) (hp : sets = [] ∨ PerStep sets n m)
    (hc : CutAll sets sets') (hk : Kept sets sets' k) (hkn : k < n') (hmore : k = 0 ∨ more = true)
    (h : allSteps m n' more (sets'.flatMap vIn) = .ok q) : EntryOf sets k (some q) := by
  have hp : PerStep sets n m := hp.resolve_left (by intro e; rw [e] at hk; exact absurd hk.1 (by simp))
  obtain ⟨hlen, x, hx, hconv⟩ := kept_rows hp hc hk
  refine ⟨q, x, rfl, ?_, hx⟩
  unfold allSteps at h
  obtain ⟨a, ha, h⟩ := Res.bind_eq_ok.1 h
  obtain ⟨b, hb, h⟩ := Res.bind_eq_ok.1 h
  obtain ⟨r, hr, h⟩ := Res.bind_eq_ok.1 h
  rw [← Res.ok.inj h]
  refine sameIfMissing_some ?_
  have hne : sets'.flatMap vIn ≠ [] := by
    intro e
    rw [e, Nat.add_mul] at hlen
    simp at hlen
    omega
  have hd : ((List.range n').drop 1).Nodup := List.Nodup.sublist (List.drop_sublist _ _) List.nodup_range
  by_cases hk0 : k = 0
  · subst hk0
    have h0 : a = some x := by
      rw [Nat.zero_mul, List.drop_zero] at hconv
      unfold opt at ha
      generalize sets'.flatMap vIn = l at hne hconv ha
      cases l with
      | nil => exact absurd rfl hne
      | cons e es => simp only at ha; rw [hconv, Res.ok_bind] at ha; exact (Res.ok.inj ha).symm
    subst h0
    split at hr
    · rw [(furtherSteps_get hd hr).2 1 (fun i hi => ?_)]
      · rfl
      · obtain ⟨i', hi', rfl⟩ : ∃ i', i' < n' - 1 ∧ i = 1 + i' := by
          rw [List.drop_one, List.range_eq_range', List.tail_range'] at hi
          have := List.mem_range'_1.1 hi
          exact ⟨i - 1, by omega, by omega⟩
        omega
    · cases hr; rfl
  · have hmore := hmore.resolve_left hk0
    rw [if_pos (by rw [hmore]; simpa using hne)] at hr
    obtain ⟨x', h1, h2⟩ := (furtherSteps_get hd hr).1 k (by
      rw [List.drop_one, List.range_eq_range', List.tail_range']
      exact List.mem_range'_1.2 ⟨by omega, by omega⟩)
    rw [hconv] at h1
    cases h1
    exact h2

/-- C113, ionic steps, all steps extracted: if the list of species is complete and the structure of step `k` has begun, the cell, positions, forces and stress
that are complete are returned for step `k` as for the complete file, provided `k` is the first step or the cells of three steps are complete. Missing: the last step of a cut file, for which the claim is false (`C113_violation_*`). -/
theorem C113_steps_partial (ho : Ordinary full) (hc : CutOff full cut) (h : parsew full kbb true = .ok d) (h' : parsew cut kbb true = .ok d')
    (sp : List Nat) (hsp : d.species = some sp) (hs : d'.species = d.species) (ha : 0 < sp.length) (n : Nat) (hcell : PerStep (cellSets full) n 3)
    (hpos : PerStep (positionSets full) n sp.length) (hforce : forceSets full = [] ∨ PerStep (forceSets full) n sp.length)
    (hstress : stressSets full = [] ∨ PerStep (stressSets full) n 3) (k : Nat) (hk : k < (structures cut).length)
    (hthree : k = 0 ∨ Kept (cellSets full) (cellSets cut) 2) :
    (Kept (cellSets full) (cellSets cut) k → EntryOf (cellSets full) k d'.unitcell) ∧
    (Kept (positionSets full) (positionSets cut) k → EntryOf (positionSets full) k d'.positions) ∧
    (Kept (forceSets full) (forceSets cut) k → EntryOf (forceSets full) k d'.forces) ∧
    (Kept (stressSets full) (stressSets cut) k → EntryOf (stressSets full) k d'.stress) := by
  have hu := (parts h').upfs
  rw [hs, hsp] at hu
  unfold fetchUpfs at hu
  simp only [Bool.not_true, Bool.false_eq_true, if_false] at hu
  have e1 : stepRows cut [t c!"structure", t c!"crystal", tn c!"varray" c!"basis", t c!"v"] = (cellSets cut).flatMap vIn := by
    rw [← follow_v, cellSets, ← findAny_append]; rfl
  have e2 : stepRows cut [t c!"structure", tn c!"varray" c!"positions", t c!"v"] = (positionSets cut).flatMap vIn := by
    rw [← follow_v, positionSets, ← findAny_append]; rfl
  have e3 : stepRows cut [tn c!"varray" c!"forces", t c!"v"] = (forceSets cut).flatMap vIn := by
    rw [← follow_v, forceSets, ← findAny_append]; rfl
  have e4 : stepRows cut [tn c!"varray" c!"stress", t c!"v"] = (stressSets cut).flatMap vIn := by
    rw [← follow_v, stressSets, ← findAny_append]; rfl
  have e5 : (stepRows cut [t c!"structure"]).length = (structures cut).length := rfl
  rw [e1, e2, e3, e4, e5, if_neg (by omega)] at hu
  generalize hmore : decide (max ((stressSets cut).flatMap vIn).length (max ((forceSets cut).flatMap vIn).length
    (max ((cellSets cut).flatMap vIn).length ((positionSets cut).flatMap vIn).length)) > 6) = more at hu
  have kc : CutAll (cellSets full) (cellSets cut) := ho.cut hc _ _ (by decide)
  have kp : CutAll (positionSets full) (positionSets cut) := ho.cut hc _ _ (by decide)
  have kf : CutAll (forceSets full) (forceSets cut) := ho.cut hc _ _ (by decide)
  have ks : CutAll (stressSets full) (stressSets cut) := ho.cut hc _ _ (by decide)
  have hm : k = 0 ∨ more = true := hthree.imp_right fun h3 => by
    have := (kept_rows hcell kc h3).1
    rw [← hmore, decide_eq_true_eq]
    omega
  obtain ⟨rc, c1, hu⟩ := Res.bind_eq_ok.1 hu
  obtain ⟨rp, p1, hu⟩ := Res.bind_eq_ok.1 hu
  obtain ⟨rf, f1, hu⟩ := Res.bind_eq_ok.1 hu
  obtain ⟨rs, s1, hu⟩ := Res.bind_eq_ok.1 hu
  simp only [Res.ok.injEq, Prod.mk.injEq] at hu
  obtain ⟨u1, u2, u3, u4⟩ := hu
  rw [← u1, ← u2, ← u3, ← u4]
  exact ⟨fun hK => allSteps_kept (by omega) (.inr hcell) kc hK hk hm c1, fun hK => allSteps_kept ha (.inr hpos) kp hK hk hm p1,
    fun hK => allSteps_kept ha hforce kf hK hk hm f1, fun hK => allSteps_kept (by omega) hstress ks hK hk hm s1⟩


/-! ### a cut between two ionic steps -/

/-- Each ionic step has one table of this kind, with `m` rows of three numbers. -/
def OneTable (root : Node) (ss : List Step) (m : Nat) : Prop :=
  ∀ c ∈ calculations root, ∃ s, findRel c ss = [s] ∧ (vIn s).length = m ∧ AllPrint 3 (vIn s)

theorem findAny_calculations (root : Node) (ss : List Step) : findAny root (t c!"calculation") ss = (calculations root).flatMap fun c => findRel c ss := by
  rw [← follow_linear, calculations, ← findAny_append]; rfl

theorem oneTable_length {cs : List Node} {ss : List Step} (h : ∀ c ∈ cs, ∃ s, findRel c ss = [s]) : (cs.flatMap fun c => findRel c ss).length = cs.length := by
  induction cs with
  | nil => rfl
  | cons c cs ih =>
    obtain ⟨s, hs⟩ := h c (by simp)
    rw [List.flatMap_cons, hs, List.length_append, ih fun c hc => h c (by simp [hc])]
    simp; omega

theorem oneTable_cut {ss : List Step} {m : Nat} (h : OneTable full ss m) (hp : calculations cut <+: calculations full) :
    PerStep (findAny cut (t c!"calculation") ss) (calculations cut).length m ∧
      findAny cut (t c!"calculation") ss <+: findAny full (t c!"calculation") ss := by
  rw [findAny_calculations, findAny_calculations]
  have hsub : ∀ c ∈ calculations cut, ∃ s, findRel c ss = [s] ∧ (vIn s).length = m ∧ AllPrint 3 (vIn s) := fun c hc => h c (hp.subset hc)
  refine ⟨⟨oneTable_length fun c hc => (hsub c hc).imp fun _ h => h.1, fun s hs => ?_⟩, ?_⟩
  · obtain ⟨c, hc, hs⟩ := List.mem_flatMap.1 hs
    obtain ⟨s', h1, h2⟩ := hsub c hc
    rw [h1] at hs
    cases List.mem_singleton.1 hs
    exact h2
  · obtain ⟨r, hr⟩ := hp
    rw [← hr, List.flatMap_append]
    exact List.prefix_append _ _

theorem StepTable.more {sets sets' : List Node} (hp : sets' <+: sets) {k : Nat} {x : Table} (h : StepTable sets' k x) : StepTable sets k x := by
  obtain ⟨s, hs, h⟩ := h
  obtain ⟨r, rfl⟩ := hp
  exact ⟨s, by rw [List.getElem?_append_left (List.getElem?_eq_some_iff.1 hs).1, hs], h⟩

theorem StepsOf.more {sets sets' : List Node} (hp : sets' <+: sets) {n : Nat} {q : Option Steps} (h : StepsOf sets' n q) : StepsOf sets n q := by
  obtain ⟨⟨x, h1, h2⟩, ⟨y, h3, h4⟩, a, h5, h6, h7⟩ := h
  refine ⟨⟨x, h1.more hp, h2⟩, ⟨y, h3.more hp, h4⟩, a, h5, fun k hk => ?_, h7⟩
  obtain ⟨z, hz, hz'⟩ := h6 k hk
  exact ⟨z, hz.more hp, hz'⟩

/-- C113, a cut between two ionic steps: after `n` of the steps the getters return the first, the last (which is step `n`) and all of these steps. Missing: cuts inside a step, for which the claim is false (`C113_violation_*`). -/
theorem C113_between_partial (hp : calculations cut <+: calculations full) (h' : parsew cut kbb true = .ok d') (sp : List Nat) (hsp : d'.species = some sp)
    (ha : 0 < sp.length) (n : Nat) (hn : 0 < n) (hlen : (calculations cut).length = n) (hstr : ∀ c ∈ calculations full, ∃ s, findRel c [t c!"structure"] = [s])
    (hcell : OneTable full [t c!"structure", t c!"crystal", tn c!"varray" c!"basis"] 3)
    (hpos : OneTable full [t c!"structure", tn c!"varray" c!"positions"] sp.length)
    (hforce : OneTable full [tn c!"varray" c!"forces"] sp.length) (hstress : OneTable full [tn c!"varray" c!"stress"] 3)
    (hex : ¬ (sp.length = 1 ∧ n = 2)) :
    StepsOf (cellSets full) n d'.unitcell ∧ StepsOf (positionSets full) n d'.positions ∧ StepsOf (forceSets full) n d'.forces ∧
    StepsOf (stressSets full) n d'.stress := by
  have hs : (structures cut).length = n := by
    rw [← hlen, structures, findAny_calculations]
    exact oneTable_length fun c hc => hstr c (hp.subset hc)
  obtain ⟨c1, c2⟩ := oneTable_cut hcell hp
  obtain ⟨p1, p2⟩ := oneTable_cut hpos hp
  obtain ⟨f1, f2⟩ := oneTable_cut hforce hp
  obtain ⟨s1, s2⟩ := oneTable_cut hstress hp
  rw [hlen] at c1 p1 f1 s1
  obtain ⟨g1, g2, g3, g4⟩ := C49_steps_partial cut kbb d' h' sp hsp ha n hn hs c1 p1 (.inr f1) (.inr s1) hex
  rw [if_neg (by intro e; have := f1.1; rw [show findAny cut (t c!"calculation") [tn c!"varray" c!"forces"] = [] from e] at this; simp at this; omega)] at g3
  rw [if_neg (by intro e; have := s1.1; rw [show findAny cut (t c!"calculation") [tn c!"varray" c!"stress"] = [] from e] at this; simp at this; omega)] at g4
  exact ⟨g1.more c2, g2.more p2, g3.more f2, g4.more s2⟩

end Verif.Vasprun
