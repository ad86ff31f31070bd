import Verif.Props.SpecialOutcar
import Verif.Props.OutcarAccepts
/-! # C125: which OUTCAR files are accepted, if numbers may be infinite or NaN -/
set_option autoImplicit false
namespace Verif.OutcarFull
open Verif Verif.Utils
open Verif.Kpoints (idx toInt)
open Verif.Outcar (iterOf countStep readParams readEnd readConfig readSymmetry Verdict verdict number stats lastN IsHeader Blank TotRow Rule rows endRow
  site idx_ok site_of keys_set_head kindAfter kindAt SeenAt ok_params ok_symmetry not_tot_of_blank config_eq seen_step iters others
  iters_cons_none iters_cons_some others_cons_none others_cons_some Finished lastParam ok_verdict ok_stats ok_statLine
  matchIntegerParam_ok getLast?_filterMap_cons readParams_ok readSymmetry_ok countStep_keys)
open Verif.Chgcar (FirstAt Before)

/-! ### specification -/

/-- The word is a number, perhaps an infinite one or NaN. -/
def IsNumber (w : Str) : Prop := (pyFloat w).isSome

/-- Six rows of numbers (the first word of each is not read), beginning at the third line below. -/
def SixRows (below : List Str) : Prop := ∀ i, 2 ≤ i → i ≤ 7 → ∃ l, below[i]? = some l ∧ ∀ w ∈ (words l).drop 1, IsNumber w

/-- A row of moments: at most four orbitals and a total. -/
structure MomentRow (row : Str) : Prop where
  atMost : (words row).length ≤ 6
  numbers : ∀ w ∈ (words row).drop 1, IsNumber w
  total : ∃ w, (words row).getLast? = some w ∧ IsNumber w

/-- A table of moments (`seen`: a row was printed in an earlier table of the direction): rows of numbered sites up to a row `tot` or a blank
line; the latter only if there is some row. -/
structure MomentTable (seen : Prop) (table : List Str) : Prop where
  sites : ∀ r ∈ rows table, MomentRow r ∧ (site r).isSome
  ends : ∃ e, endRow table = some e ∧ (TotRow e → MomentRow e) ∧ (Blank e → seen ∨ rows table ≠ [])

/-- What must hold of a line that is not an iteration line, for the parser to get past it. `kind`: the analysis of symmetry it belongs to;
`seen c`: sites were printed in an earlier table of direction `c`; `below`: the lines below it. -/
structure Readable (kind : Option Bool) (seen : Char → Prop) (l : Str) (below : List Str) : Prop where
  params : ∀ key ∈ [c!"NSW", c!"IBRION", c!"NELM"], ∀ g, matchIntParam key l = some g → IsInt g
  nbands : ∀ a b v, FirstAt c!"NBANDS=" l a b → Before c!"NBANDS=" b v → IsInt v
  cell : kind ≠ none → startsWith c!"Subroutine PRICEL returns" (strip l) = true ∨
    startsWith c!"Routine SETGRP: Setting up the symmetry group for a" (strip l) = true → below ≠ []
  operations : kind ≠ none → startsWith c!"Subroutine GETGRP returns" (strip l) = true → ∃ w, (words l)[4]? = some w ∧ IsInt w
  elastic : ∀ h ∈ [c!"ELASTIC MODULI  (kBar)", c!"SYMMETRIZED ELASTIC MODULI", c!"TOTAL ELASTIC MODULI"],
    startsWith h (strip l) = true → SixRows below
  moments : ∀ c ∈ ['x', 'y', 'z'], startsWith (c!"magnetization (" ++ [c, ')']) (strip l) = true → MomentTable (seen c) (below.drop 3)
  electrons : startsWith c!"number of electron" (strip l) = true → ∀ w ∈ (words l).drop 5, IsNumber w

/-- Every line that is not an iteration line is readable. -/
def AllReadable (lines : List Str) : Prop :=
  ∀ (i : Nat) (l : Str), lines[i]? = some l → iterOf l = none → Readable (kindAt lines i) (SeenAt lines i) l (lines.drop (i + 1))

/-! ### what is not a number -/

theorem ok_toNum (w : Str) : Ok (toNum w) ↔ IsNumber w := by
  unfold Ok toNum IsNumber
  cases pyFloat w with
  | none => simp
  | some x => cases x <;> simp

/-- What a line that is no iteration line does to the rest. -/
structure Skeleton (s s' : Outcar.State) (line : Str) : Prop where
  iter : s'.iter = s.iter
  steps : s'.steps = s.steps
  finished : s'.finished = (s.finished || contains c!"timing and accounting informations" line)
  params : matchIntegerParam s.params c!"IBRION" line = .ok s'.params
  status : (matchIntegerParam s.status c!"NSW" line >>= fun st => matchIntegerParam st c!"NELM" line) = .ok s'.status
  config : s'.config = kindAfter s.config line

theorem skeleton_ok {s s1 s2 : Outcar.State} {line : Str} {rest : List Str} (hl : iterOf line = none) (h1 : readParams s line = .ok s1)
    (h2 : readSymmetry (readConfig (readEnd s1 line) line) line rest = .ok s2) : Skeleton s s2 line := by
  obtain ⟨p1, p2, nb, p3⟩ := readParams_ok h1
  obtain ⟨⟨y, q1⟩, -⟩ := readSymmetry_ok h2
  have ec : ∀ t : Outcar.State, (readConfig t line).iter = t.iter ∧ (readConfig t line).steps = t.steps ∧
      (readConfig t line).finished = t.finished ∧ (readConfig t line).params = t.params ∧ (readConfig t line).status = t.status := by
    intro t
    unfold readConfig
    dsimp only
    split <;> split <;> simp
  have ee : ∀ t : Outcar.State, (readEnd t line).iter = t.iter ∧ (readEnd t line).steps = t.steps ∧
      (readEnd t line).finished = (t.finished || contains c!"timing and accounting informations" line) ∧
      (readEnd t line).params = t.params ∧ (readEnd t line).status = t.status ∧ (readEnd t line).config = t.config := by
    intro t
    unfold readEnd
    split
    · rename_i hc; simp [hc]
    · rename_i hc; simp [hc]
  obtain ⟨c1, c2, c3, c4, c5⟩ := ec (readEnd s1 line)
  obtain ⟨d1, d2, d3, d4, d5, d6⟩ := ee s1
  have hcfg := config_eq (readEnd s1 line) line hl
  have e1 : s1.iter = s.iter := by rw [p3]
  have e2 : s1.steps = s.steps := by rw [p3]
  have e3 : s1.finished = s.finished := by rw [p3]
  have e4 : s1.config = s.config := by rw [p3]
  generalize readConfig (readEnd s1 line) line = t at *
  generalize readEnd s1 line = u at *
  refine ⟨?_, ?_, ?_, ?_, ?_, ?_⟩
  · rw [q1]; exact c1.trans (d1.trans e1)
  · rw [q1]; exact c2.trans (d2.trans e2)
  · rw [q1, ← e3]; exact c3.trans d3
  · rw [p1, q1]; exact congrArg Res.ok (c4.trans d4).symm
  · rw [p2, q1]; exact congrArg Res.ok (c5.trans d5).symm
  · rw [q1, ← e4, ← d6]; exact hcfg

theorem step_skeleton {s s' : State} {line : Str} {rest : List Str} (hl : iterOf line = none) (h : step s line rest = .ok s') :
    Skeleton s.other s'.other line := by
  unfold step at h
  rw [hl] at h
  simp only at h
  obtain ⟨s1, h1, h⟩ := Res.bind_eq_ok.1 h
  obtain ⟨s2, h2, h⟩ := Res.bind_eq_ok.1 h
  obtain ⟨s3, h3, h⟩ := Res.bind_eq_ok.1 h
  have e3 : s3.other = s2 := by
    unfold readElastics at h3
    obtain ⟨_, _, h3⟩ := Res.bind_eq_ok.1 h3
    obtain ⟨_, _, h3⟩ := Res.bind_eq_ok.1 h3
    obtain ⟨_, _, h3⟩ := Res.bind_eq_ok.1 h3
    rw [← Res.ok.inj h3]
  have e4 : s'.other = s3.other := by
    unfold readMagnetization at h
    obtain ⟨_, _, h⟩ := Res.bind_eq_ok.1 h
    obtain ⟨_, _, h⟩ := Res.bind_eq_ok.1 h
    obtain ⟨_, _, h⟩ := Res.bind_eq_ok.1 h
    split at h
    · obtain ⟨_, _, h⟩ := Res.bind_eq_ok.1 h
      rw [← Res.ok.inj h]
    · rw [← Res.ok.inj h]
  rw [e4, e3]
  exact skeleton_ok hl h1 h2

theorem scan_iters {s s' : State} {lines : List Str} (h : scan s lines = .ok s') :
    s'.other.iter = ((iters lines).getLast?.or s.other.iter) ∧
    (∀ k, k ∈ s'.other.steps.keys ↔ k ∈ s.other.steps.keys ∨ k ∈ (iters lines).map Prod.fst) := by
  induction lines generalizing s with
  | nil => cases h; simp [iters]
  | cons l ls ih =>
    unfold scan at h
    obtain ⟨s1, h1, h⟩ := Res.bind_eq_ok.1 h
    obtain ⟨i1, i3⟩ := ih h
    cases hl : iterOf l with
    | none =>
      have ho := step_skeleton hl h1
      rw [iters_cons_none hl]
      rw [ho.iter] at i1
      rw [ho.steps] at i3
      exact ⟨i1, i3⟩
    | some n =>
      rw [step_iter hl] at h1
      cases h1
      rw [iters_cons_some hl]
      refine ⟨?_, ?_⟩
      · rw [i1]
        cases hi : iters ls with
        | nil => rfl
        | cons a as => simp [List.getLast?_cons_cons, List.getLast?_cons]
      · intro k
        rw [i3 k, countStep_keys, List.map_cons, List.mem_cons]
        tauto

theorem scan_finished {s s' : State} {lines : List Str} (h : scan s lines = .ok s') :
    s'.other.finished = true ↔ s.other.finished = true ∨ Finished lines := by
  induction lines generalizing s with
  | nil => cases h; simp [Finished, others]
  | cons l ls ih =>
    unfold scan at h
    obtain ⟨s1, h1, h⟩ := Res.bind_eq_ok.1 h
    rw [ih h]
    unfold Finished
    cases hl : iterOf l with
    | none =>
      rw [(step_skeleton hl h1).finished, others_cons_none hl]
      simp [or_assoc]
    | some n =>
      rw [step_iter hl] at h1
      cases h1
      rw [others_cons_some hl]

theorem scan_params {s s' : State} {lines : List Str} (h : scan s lines = .ok s') :
    number s'.other.params c!"ibrion" = (lastParam c!"IBRION" lines).or (number s.other.params c!"ibrion") ∧
    number s'.other.status c!"nsw" = (lastParam c!"NSW" lines).or (number s.other.status c!"nsw") ∧
    number s'.other.status c!"nelm" = (lastParam c!"NELM" lines).or (number s.other.status c!"nelm") := by
  induction lines generalizing s with
  | nil => cases h; simp [lastParam, others]
  | cons l ls ih =>
    unfold scan at h
    obtain ⟨s1, h1, h⟩ := Res.bind_eq_ok.1 h
    obtain ⟨i1, i2, i3⟩ := ih h
    unfold lastParam at *
    cases hl : iterOf l with
    | none =>
      have ho := step_skeleton hl h1
      rw [others_cons_none hl]
      obtain ⟨st, hs1, hs2⟩ := Res.bind_eq_ok.1 ho.status
      have e1 := matchIntegerParam_ok ho.params c!"ibrion"
      have e2 := matchIntegerParam_ok hs1 c!"nsw"
      have e3 := matchIntegerParam_ok hs2 c!"nsw"
      have e4 := matchIntegerParam_ok hs1 c!"nelm"
      have e5 := matchIntegerParam_ok hs2 c!"nelm"
      rw [if_pos (by decide)] at e1 e2 e5
      rw [if_neg (by decide)] at e3 e4
      rw [i1, i2, i3, e1, e3, e2, e5, e4]
      simp only [getLast?_filterMap_cons, Option.or_assoc]
      exact ⟨trivial, trivial, trivial⟩
    | some n =>
      rw [step_iter hl] at h1
      cases h1
      rw [others_cons_some hl]
      exact ⟨i1, i2, i3⟩

theorem scan_iter_none {s : State} {lines : List Str} (h : scan {} lines = .ok s) : s.other.iter = none ↔ iters lines = [] := by
  rw [(scan_iters h).1]
  simp

/-! ### exits -/

theorem step_exits {S : Nat → Prop} (s : State) (l : Str) (ls : List Str) : ExitsIn S (step s l ls) := by
  have i1 : ∀ w, ExitsIn S (toNum w) := by intro w; unfold toNum; exits
  have i2 : ∀ w, ExitsIn S (toInt w) := Outcar.toInt_exits
  have i3 : ∀ {α} (l : List α) i, ExitsIn S (idx l i) := fun l i => Outcar.idx_exits l i
  have i4 : ∀ d k l, ExitsIn S (matchIntegerParam d k l) := by intro d k l; unfold matchIntegerParam; exits
  have i5 : ∀ p l, ExitsIn S (Outcar.splitSecond p l) := by intro p l; unfold Outcar.splitSecond; exits
  have i6 : ∀ l : List Str, ExitsIn S (Res.mapM' toNum l) := fun l => ExitsIn.mapM' i1 l
  have i7 : ∀ r, ExitsIn S (readTensor r) := by
    intro r; unfold readTensor
    refine ExitsIn.mapM' ?_ _
    intro i; exits
  have i8 : ∀ h k l r e, ExitsIn S (readElastic h k l r e) := by intro h k l r e; unfold readElastic; exits
  have i9 : ∀ n cs m, ExitsIn S (orbitals n cs m) := by
    intro n cs
    induction cs generalizing n with
    | nil => intro m; unfold orbitals; exits
    | cons c cs ih => intro m; unfold orbitals; exits
  have i10 : ∀ l, ExitsIn S (readMoments l) := by intro l; unfold readMoments; exits
  have i11 : ∀ m ls, ExitsIn S (readMag m ls) := by
    intro m ls
    induction ls generalizing m with
    | nil => unfold readMag; exits
    | cons l ls ih => unfold readMag; exits
  have i12 : ∀ c l r m, ExitsIn S (readSphere c l r m) := by intro c l r m; unfold readSphere; exits
  have i13 : ∀ s l r, ExitsIn S (readMagnetization s l r) := by intro s l r; unfold readMagnetization; exits
  have i14 : ∀ s l, ExitsIn S (readParams s l) := by intro s l; unfold readParams; exits
  have i15 : ∀ s l r, ExitsIn S (readElastics s l r) := by intro s l r; unfold readElastics; exits
  have i16 : ∀ s l r, ExitsIn S (readSymmetry s l r) := by
    intro s l r; unfold readSymmetry Outcar.readPricel Outcar.readSetgrp Outcar.readGetgrp; exits
  unfold step; exits

theorem scan_exits {S : Nat → Prop} (s : State) (lines : List Str) : ExitsIn S (scan s lines) := by
  induction lines generalizing s with
  | nil => exact ExitsIn.ok _
  | cons l ls ih => unfold scan; exact ExitsIn.bind (step_exits s l ls) ih

/-! ### single steps -/

theorem ok_tensor (rest : List Str) : Ok (readTensor rest) ↔ SixRows rest := by
  unfold readTensor
  rw [ok_mapM']
  have key : ∀ i, Ok (idx rest i >>= fun l => Res.mapM' toNum ((words l).drop 1)) ↔ ∃ l, rest[i]? = some l ∧ ∀ w ∈ (words l).drop 1, IsNumber w := by
    intro i
    rw [ok_bind]
    simp only [idx_ok, ok_mapM', ok_toNum]
  simp only [key]
  unfold SixRows
  constructor
  · intro h i h1 h2
    refine h i ?_
    simp only [List.mem_cons, List.not_mem_nil, or_false]
    omega
  · intro h i hi
    simp only [List.mem_cons, List.not_mem_nil, or_false] at hi
    exact h i (by omega) (by omega)

theorem ok_elastic (header key l : Str) (rest : List Str) (e : Dict Str (Option Tensor)) :
    Ok (readElastic header key l rest e) ↔ (startsWith header (strip l) = true → SixRows rest) := by
  unfold readElastic
  split
  · rename_i h
    simp only [h, forall_const]
    rw [ok_bind_const (P := True), ok_tensor, and_true]
    intro a _
    simp [ok_ok]
  · rename_i h
    simp [h, ok_ok]

theorem ok_elastics (s : State) (l : Str) (rest : List Str) : Ok (readElastics s l rest) ↔
    ∀ h ∈ [c!"ELASTIC MODULI  (kBar)", c!"SYMMETRIZED ELASTIC MODULI", c!"TOTAL ELASTIC MODULI"],
      startsWith h (strip l) = true → SixRows rest := by
  simp only [List.mem_cons, List.not_mem_nil, or_false, forall_eq_or_imp, forall_eq]
  unfold readElastics
  rw [ok_bind_const (P := (startsWith c!"SYMMETRIZED ELASTIC MODULI" (strip l) = true → SixRows rest) ∧
    (startsWith c!"TOTAL ELASTIC MODULI" (strip l) = true → SixRows rest)), ok_elastic]
  intro e _
  rw [ok_bind_const (P := startsWith c!"TOTAL ELASTIC MODULI" (strip l) = true → SixRows rest), ok_elastic]
  intro e _
  rw [ok_bind_const (P := True), ok_elastic, and_true]
  intro e _
  simp [ok_ok]

theorem ok_orbitals (names cs : List Str) (m : Moments) : Ok (orbitals names cs m) ↔ cs.length ≤ names.length ∧ ∀ w ∈ cs, IsNumber w := by
  induction cs generalizing names m with
  | nil => simp [orbitals, ok_ok]
  | cons c cs ih =>
    unfold orbitals
    cases names with
    | nil =>
      rw [ok_bind_const (P := False)]
      · simp
      · intro a _
        simp [Ok]
    | cons n ns =>
      rw [ok_bind_const (P := cs.length ≤ ns.length ∧ ∀ w ∈ cs, IsNumber w), ok_toNum]
      · simp only [List.length_cons, Nat.add_le_add_iff_right, List.mem_cons, forall_eq_or_imp]
        tauto
      · intro a _
        exact ih ns _

theorem ok_moments (row : Str) : Ok (readMoments row) ↔ MomentRow row := by
  unfold readMoments
  simp only
  rw [ok_bind_const (P := ∃ w, (words row).getLast? = some w ∧ IsNumber w), ok_orbitals]
  · simp only [List.length_dropLast, List.length_drop, List.length_cons, List.length_nil]
    constructor
    · rintro ⟨⟨h1, h2⟩, w, h3, h4⟩
      refine ⟨by omega, fun x hx => ?_, w, h3, h4⟩
      rcases List.eq_nil_or_concat ((words row).drop 1) with h | ⟨i, z, h⟩
      · rw [h] at hx; cases hx
      · rw [h, List.concat_eq_append] at hx h2
        rw [List.dropLast_concat] at h2
        rcases List.mem_append.1 hx with hx | hx
        · exact h2 x hx
        · simp only [List.mem_singleton] at hx
          have : (words row).getLast? = some z := by
            have h5 : ((words row).drop 1).getLast? = some z := by rw [h, List.concat_eq_append]; simp
            rw [List.getLast?_drop] at h5
            split at h5
            · cases h5
            · exact h5
          rw [this] at h3
          injection h3 with h3
          rw [hx, h3]
          exact h4
    · rintro ⟨h1, h2, h3⟩
      exact ⟨⟨by omega, fun w hw => h2 w (List.mem_of_mem_dropLast hw)⟩, h3⟩
  · intro m _
    cases hg : (words row).getLast? with
    | none => simp [Ok]
    | some t =>
      simp only [Option.some.injEq, exists_eq_left']
      rw [ok_bind_const (P := True), ok_toNum, and_true]
      intro x _
      simp [ok_ok]

theorem ok_mag (m : Sphere) (ls : List Str) : Ok (readMag m ls) ↔ MomentTable (m.sites ≠ []) ls := by
  induction ls generalizing m with
  | nil =>
    refine ⟨fun ⟨a, h⟩ => (by cases h), fun h => ?_⟩
    obtain ⟨e, he, _⟩ := h.ends
    cases he
  | cons l ls ih =>
    unfold readMag
    split
    · rename_i hb
      have hb' : Blank l := hb
      have hr : rows (l :: ls) = [] := by unfold rows; rw [List.takeWhile_cons]; simp [hb']
      have he : endRow (l :: ls) = some l := by unfold endRow; rw [List.dropWhile_cons]; simp [hb']
      have key : MomentTable (m.sites ≠ []) (l :: ls) ↔ m.sites ≠ [] := by
        constructor
        · intro h
          obtain ⟨e, h1, h2, h3⟩ := h.ends
          rw [he] at h1
          cases h1
          rw [hr] at h3
          simpa using h3 hb'
        · intro h
          refine ⟨by rw [hr]; simp, l, he, fun ht => absurd ht (not_tot_of_blank hb'), fun _ => .inl h⟩
      rw [key]
      cases hm : m.sites with
      | nil => simp [Ok]
      | cons x xs => simp [ok_ok]
    · rename_i hb
      have hb' : ¬ Blank l := hb
      split
      · rename_i ht
        have ht' : TotRow l := ht
        have hr : rows (l :: ls) = [] := by unfold rows; rw [List.takeWhile_cons]; simp [ht']
        have he : endRow (l :: ls) = some l := by unfold endRow; rw [List.dropWhile_cons]; simp [ht']
        rw [ok_bind_const (P := True) (fun _ _ => by simp [ok_ok]), ok_moments, and_true]
        constructor
        · intro h
          exact ⟨by rw [hr]; simp, l, he, fun _ => h, fun hb => absurd hb hb'⟩
        · intro h
          obtain ⟨e, h1, h2, -⟩ := h.ends
          rw [he] at h1
          cases h1
          exact h2 ht'
      · rename_i ht
        have ht' : ¬ TotRow l := ht
        have he : endRow (l :: ls) = endRow ls := by unfold endRow; rw [List.dropWhile_cons]; simp [hb', ht']
        split
        · rename_i hd
          have hd' : Rule l := hd
          have hr : rows (l :: ls) = rows ls := by unfold rows; rw [List.takeWhile_cons]; simp [hb', ht', hd']
          rw [ih]
          constructor
          · rintro ⟨h1, h2⟩; exact ⟨by rw [hr]; exact h1, by rw [he, hr]; exact h2⟩
          · rintro ⟨h1, h2⟩; exact ⟨by rw [← hr]; exact h1, by rw [← he, ← hr]; exact h2⟩
        · rename_i hd
          have hd' : ¬ Rule l := hd
          have hr : rows (l :: ls) = l :: rows ls := by unfold rows; rw [List.takeWhile_cons]; simp [hb', ht', hd']
          have hset : ∀ n t, (m.sites.set n t : Dict Int Moments) ≠ [] := by
            intro n t h
            have h1 := Dict.get?_set m.sites n n t
            rw [h, if_pos rfl] at h1
            cases h1
          rw [ok_bind]
          constructor
          · rintro ⟨w, hw, h⟩
            obtain ⟨n, hn, h⟩ := ok_bind.1 h
            obtain ⟨t, h1, h⟩ := ok_bind.1 h
            have hs := site_of hw hn
            obtain ⟨i1, e, i2, i3, i4⟩ := (ih _).1 h
            refine ⟨?_, e, by rw [he]; exact i2, i3, fun _ => .inr (by rw [hr]; simp)⟩
            intro r hr'
            rw [hr] at hr'
            rcases List.mem_cons.1 hr' with rfl | hr'
            · exact ⟨(ok_moments _).1 ⟨t, h1⟩, by rw [hs]; rfl⟩
            · exact i1 r hr'
          · intro h
            obtain ⟨h1, e, h2, h3, h4⟩ := h
            obtain ⟨hm, hs⟩ := h1 l (by rw [hr]; simp)
            obtain ⟨n, hn⟩ := Option.isSome_iff_exists.1 hs
            obtain ⟨t, ht⟩ := (ok_moments l).2 hm
            unfold site at hn
            obtain ⟨w, hw, hn⟩ := Option.bind_eq_some_iff.1 hn
            have hn' : toInt w = .ok n := by unfold toInt; rw [hn]
            refine ⟨w, ?_, ok_bind.2 ⟨n, hn', ok_bind.2 ⟨t, ht, (ih _).2 ⟨?_, e, by rw [← he]; exact h2, h3, fun _ => .inl (hset n t)⟩⟩⟩⟩
            · rw [idx_ok]
              cases hwl : words l with
              | nil => rw [hwl] at hw; cases hw
              | cons a as => rw [hwl] at hw; simpa using hw
            · intro r hr'
              exact h1 r (by rw [hr]; simp [hr'])

theorem ok_sphere (c : Char) (l : Str) (rest : List Str) (m : Sphere) : Ok (readSphere c l rest m) ↔
    (startsWith (c!"magnetization (" ++ [c, ')']) (strip l) = true → MomentTable (m.sites ≠ []) (rest.drop 3)) := by
  unfold readSphere
  split
  · rename_i h
    simp only [h, forall_const]
    exact ok_mag m _
  · rename_i h
    exact ⟨fun _ h' => absurd h' h, fun _ => ok_ok _⟩

/-- The moments of a direction. -/
def sphere (s : State) (c : Char) : Sphere := if c = 'x' then s.magX else if c = 'y' then s.magY else s.magZ

theorem ok_magnetization (s : State) (l : Str) (rest : List Str) : Ok (readMagnetization s l rest) ↔
    (∀ c ∈ ['x', 'y', 'z'], startsWith (c!"magnetization (" ++ [c, ')']) (strip l) = true → MomentTable ((sphere s c).sites ≠ []) (rest.drop 3)) ∧
    (startsWith c!"number of electron" (strip l) = true → ∀ w ∈ (words l).drop 5, IsNumber w) := by
  simp only [List.mem_cons, List.not_mem_nil, or_false, forall_eq_or_imp, forall_eq]
  have ex : sphere s 'x' = s.magX := rfl
  have ey : sphere s 'y' = s.magY := rfl
  have ez : sphere s 'z' = s.magZ := rfl
  rw [ex, ey, ez, ← ok_sphere, ← ok_sphere, ← ok_sphere]
  unfold readMagnetization
  rw [ok_bind_const (P := Ok (readSphere 'y' l rest s.magY) ∧ Ok (readSphere 'z' l rest s.magZ) ∧
    (startsWith c!"number of electron" (strip l) = true → ∀ w ∈ (words l).drop 5, IsNumber w))]
  · tauto
  intro x _
  rw [ok_bind_const (P := Ok (readSphere 'z' l rest s.magZ) ∧
    (startsWith c!"number of electron" (strip l) = true → ∀ w ∈ (words l).drop 5, IsNumber w))]
  intro y _
  rw [ok_bind_const (P := startsWith c!"number of electron" (strip l) = true → ∀ w ∈ (words l).drop 5, IsNumber w)]
  intro z _
  split
  · rename_i h
    simp only [h, forall_const]
    rw [ok_bind_const (P := True) (fun _ _ => by simp [ok_ok]), ok_mapM', and_true]
    simp only [ok_toNum]
  · rename_i h
    simp [h, ok_ok]

theorem step_readable (s : State) (l : Str) (rest : List Str) (hl : iterOf l = none) :
    Ok (step s l rest) ↔ Readable (kindAfter s.other.config l) (fun c => (sphere s c).sites ≠ []) l rest := by
  unfold step
  rw [hl]
  simp only
  have keep : ∀ t : Outcar.State, (readConfig (readEnd t l) l).config = kindAfter t.config l := by
    intro t
    rw [config_eq _ _ hl]
    unfold readEnd
    split <;> rfl
  have key : Ok (readParams s.other l >>= fun s1 => readSymmetry (readConfig (readEnd s1 l) l) l rest >>= fun s2 =>
      readElastics { s with other := s2 } l rest >>= fun s3 => readMagnetization s3 l rest) ↔
      Ok (readParams s.other l) ∧ Ok (readSymmetry { s.other with config := kindAfter s.other.config l } l rest) ∧ Ok (readElastics s l rest) ∧
        Ok (readMagnetization s l rest) := by
    refine ok_bind_const fun s1 h1 => ?_
    obtain ⟨_, _, nb, e1⟩ := readParams_ok h1
    have c1 : s1.config = s.other.config := by rw [e1]
    rw [ok_bind_const (P := Ok (readElastics s l rest) ∧ Ok (readMagnetization s l rest))]
    · rw [ok_symmetry, ok_symmetry, keep s1, c1]
    intro s2 h2
    rw [ok_bind_const (P := Ok (readMagnetization s l rest))]
    · rw [ok_elastics, ok_elastics]
    intro s3 h3
    have m3 : ∀ c, sphere s3 c = sphere s c := by
      intro c
      unfold readElastics at h3
      obtain ⟨_, _, h3⟩ := Res.bind_eq_ok.1 h3
      obtain ⟨_, _, h3⟩ := Res.bind_eq_ok.1 h3
      obtain ⟨_, _, h3⟩ := Res.bind_eq_ok.1 h3
      rw [← Res.ok.inj h3]
      rfl
    rw [ok_magnetization, ok_magnetization]
    simp only [m3]
  rw [key, ok_params, ok_symmetry, ok_elastics, ok_magnetization]
  constructor
  · rintro ⟨⟨h1, h2⟩, ⟨h3, h4⟩, h5, h6, h7⟩
    exact ⟨h1, h2, h3, h4, h5, h6, h7⟩
  · rintro ⟨h1, h2, h3, h4, h5, h6, h7⟩
    exact ⟨⟨h1, h2⟩, ⟨h3, h4⟩, h5, h6, h7⟩

theorem MomentTable.congr {a b : Prop} (h : a ↔ b) {t : List Str} : MomentTable a t ↔ MomentTable b t := by rw [propext h]

theorem Readable.congr {k : Option Bool} {a b : Char → Prop} (h : ∀ c ∈ ['x', 'y', 'z'], (a c ↔ b c)) {l : Str} {below : List Str} :
    Readable k a l below ↔ Readable k b l below := by
  constructor
  · rintro ⟨h1, h2, h3, h4, h5, h6, h7⟩
    exact ⟨h1, h2, h3, h4, h5, fun c hc hs => (MomentTable.congr (h c hc)).1 (h6 c hc hs), h7⟩
  · rintro ⟨h1, h2, h3, h4, h5, h6, h7⟩
    exact ⟨h1, h2, h3, h4, h5, fun c hc hs => (MomentTable.congr (h c hc)).2 (h6 c hc hs), h7⟩

theorem sphere_seen {s s' : State} {l : Str} {rest : List Str} (hl : iterOf l = none) (h : step s l rest = .ok s') :
    ∀ c ∈ ['x', 'y', 'z'], ((sphere s' c).sites ≠ [] ↔ (sphere s c).sites ≠ [] ∨
      IsHeader (c!"magnetization (" ++ [c, ')']) l ∧ rows (rest.drop 3) ≠ []) := by
  have key : ∀ (c : Char) (m m' : Sphere), readSphere c l rest m = .ok m' → (m'.sites ≠ [] ↔ m.sites ≠ [] ∨
      IsHeader (c!"magnetization (" ++ [c, ')']) l ∧ rows (rest.drop 3) ≠ []) := by
    intro c m m' h
    unfold readSphere at h
    split at h
    · rename_i hb
      obtain ⟨-, r2, r3, -⟩ := readMag_ok h
      have hk : ∀ d : Dict Int Moments, d.keys.head? = none ↔ d = [] := by
        intro d; cases d <;> simp [Dict.keys]
      have hh : IsHeader (c!"magnetization (" ++ [c, ')']) l := ⟨hl, hb⟩
      have : m'.sites = [] ↔ m.sites = [] ∧ rows (rest.drop 3) = [] := by
        rw [← hk, r3, ← hk m.sites, List.head?_append]
        cases hm : m.sites.keys.head? with
        | some a => simp
        | none =>
          simp only [Option.none_or, true_and]
          constructor
          · intro h
            cases hr : rows (rest.drop 3) with
            | nil => rfl
            | cons r rs =>
              exfalso
              obtain ⟨n, hn⟩ := Option.isSome_iff_exists.1 (r2 r (by rw [hr]; simp))
              rw [hr, List.filterMap_cons, hn] at h
              cases h
          · intro h; rw [h]; rfl
      simp only [ne_eq, this, hh, true_and]
      tauto
    · rename_i hb
      cases h
      have hh : ¬ IsHeader (c!"magnetization (" ++ [c, ')']) l := fun hh => hb hh.2
      simp only [hh, false_and, or_false]
  have o := step_other hl h
  intro c hc
  simp only [List.mem_cons, List.not_mem_nil, or_false] at hc
  rcases hc with rfl | rfl | rfl
  · exact key _ _ _ o.magX
  · exact key _ _ _ o.magY
  · exact key _ _ _ o.magZ

theorem scan_readable (lines : List Str) : ∀ (post pre : List Str) (s : State), lines = pre ++ post →
    s.other.config = pre.foldl kindAfter none → (∀ c ∈ ['x', 'y', 'z'], ((sphere s c).sites ≠ [] ↔ SeenAt lines pre.length c)) →
    (Ok (scan s post) ↔ ∀ i l, pre.length ≤ i → lines[i]? = some l → iterOf l = none →
      Readable (kindAt lines i) (SeenAt lines i) l (lines.drop (i + 1))) := by
  intro post
  induction post with
  | nil =>
    intro pre s e _ _
    refine ⟨fun _ i l hi hl => ?_, fun _ => ok_ok _⟩
    rw [e, List.append_nil] at hl
    have := (List.getElem?_eq_some_iff.1 hl).1
    omega
  | cons l post ih =>
    intro pre s e hk hs
    have e' : lines = (pre ++ [l]) ++ post := by rw [e]; simp
    have hlen : (pre ++ [l]).length = pre.length + 1 := by simp
    have hl : lines[pre.length]? = some l := by rw [e]; simp
    have hd : lines.drop (pre.length + 1) = post := by rw [e', ← hlen, List.drop_left]
    have hka : kindAt lines pre.length = kindAfter s.other.config l := by
      unfold kindAt
      rw [e', ← hlen, List.take_left, List.foldl_append, hk]
      rfl
    have hsplit : (∀ i l, pre.length ≤ i → lines[i]? = some l → iterOf l = none →
        Readable (kindAt lines i) (SeenAt lines i) l (lines.drop (i + 1))) ↔
        (iterOf l = none → Readable (kindAfter s.other.config l) (fun c => (sphere s c).sites ≠ []) l post) ∧
        ∀ i l, (pre ++ [l]).length ≤ i → lines[i]? = some l → iterOf l = none →
        Readable (kindAt lines i) (SeenAt lines i) l (lines.drop (i + 1)) := by
      constructor
      · intro h
        refine ⟨fun hn => ?_, fun i l' hi => h i l' (by simp at hi; omega)⟩
        have := h pre.length l le_rfl hl hn
        rw [hka, hd] at this
        exact (Readable.congr hs).2 this
      · rintro ⟨h1, h2⟩ i l' hi hl' hn
        rcases Nat.eq_or_lt_of_le hi with rfl | hi
        · rw [hl] at hl'
          cases hl'
          rw [hka, hd]
          exact (Readable.congr hs).1 (h1 hn)
        · exact h2 i l' (by simp; omega) hl' hn
    rw [hsplit]
    rw [scan]
    have hlen' : ∀ a : Str, (pre ++ [a]).length = (pre ++ [l]).length := fun a => by simp
    simp only [hlen']
    cases hn : iterOf l with
    | some n =>
      rw [step_iter hn, Res.ok_bind]
      simp only [reduceCtorEq, false_implies, true_and]
      refine ih (pre ++ [l]) _ e' ?_ ?_
      · have : kindAfter s.other.config l = s.other.config := by
          unfold kindAfter IsHeader
          simp [hn]
        rw [List.foldl_append, ← hk, List.foldl_cons, List.foldl_nil, this]
      · intro c hc
        rw [hlen, seen_step e]
        have h1 : ¬ IsHeader (c!"magnetization (" ++ [c, ')']) l := fun h => by have := h.1; rw [hn] at this; cases this
        simp only [h1, false_and, or_false]
        exact hs c hc
    | none =>
      simp only [forall_const]
      rw [← step_readable s l post hn]
      refine ok_bind_const fun s' h => ?_
      refine ih (pre ++ [l]) s' e' ?_ ?_
      · rw [(step_skeleton hn h).config, List.foldl_append, ← hk, List.foldl_cons, List.foldl_nil]
      · intro c hc
        rw [hlen, seen_step e, sphere_seen hn h c hc, hs c hc]

theorem scan_ok (lines : List Str) : Ok (scan {} lines) ↔ AllReadable lines := by
  rw [scan_readable lines lines [] {} rfl rfl]
  · simp [AllReadable]
  · intro c hc
    simp only [List.length_nil]
    constructor
    · intro h
      simp only [List.mem_cons, List.not_mem_nil, or_false] at hc
      rcases hc with rfl | rfl | rfl <;> exact absurd rfl h
    · rintro ⟨j, hj, _⟩
      omega

/-- C125, acceptance: an OUTCAR is accepted exactly if it has an iteration line, every other line is readable, NELM is printed, NSW is
printed if the run finished and IBRION is positive, and each of the last fifty lines with `(sec)` or `(kb)` has a colon. -/
theorem C125_outcar_accepted (lines : List Str) : (∃ d, fromList lines = .ok d) ↔
    iters lines ≠ [] ∧ AllReadable lines ∧ lastParam c!"NELM" lines ≠ none ∧
    (Finished lines → 0 < (lastParam c!"IBRION" lines).getD (-1) → lastParam c!"NSW" lines ≠ none) ∧
    ∀ l ∈ lines.drop (lines.length - 50), contains c!"(sec)" l = true ∨ contains c!"(kb)" l = true → ':' ∈ l := by
  rw [← scan_ok]
  have hst : (∀ l ∈ lines.drop (lines.length - 50), contains c!"(sec)" l = true ∨ contains c!"(kb)" l = true → ':' ∈ l) ↔
      Ok (stats [] (lastN 50 lines)) := by
    rw [ok_stats]
    simp only [ok_statLine]
    rfl
  rw [hst]
  show Ok (fromList lines) ↔ _
  unfold fromList
  rw [ok_bind]
  constructor
  · rintro ⟨s, hs, h⟩
    have hi := scan_iter_none hs
    obtain ⟨p1, p2, p3⟩ := scan_params hs
    cases hit : s.other.iter with
    | none => rw [hit] at h; obtain ⟨a, h⟩ := h; cases h
    | some it =>
      rw [hit] at h
      have hne : iters lines ≠ [] := fun e => by rw [hi.2 e] at hit; cases hit
      obtain ⟨v, hv, h⟩ := ok_bind.1 h
      obtain ⟨st, hst, -⟩ := ok_bind.1 h
      have hsne : s.other.steps ≠ [] := by
        intro e
        cases hil : iters lines with
        | nil => exact hne hil
        | cons x xs =>
          have := ((scan_iters hs).2 x.1).2 (.inr (by rw [hil]; simp))
          rw [e] at this
          cases this
      obtain ⟨v1, v2⟩ := (ok_verdict hsne).1 ⟨v, hv⟩
      have e1 : (number s.other.params c!"ibrion").getD (-1) = (lastParam c!"IBRION" lines).getD (-1) := by
        rw [p1]; cases lastParam c!"IBRION" lines <;> rfl
      have e2 : number s.other.status c!"nsw" = lastParam c!"NSW" lines := by rw [p2]; cases lastParam c!"NSW" lines <;> rfl
      have e3 : number s.other.status c!"nelm" = lastParam c!"NELM" lines := by rw [p3]; cases lastParam c!"NELM" lines <;> rfl
      rw [e1, e2] at v2
      rw [e3] at v1
      refine ⟨hne, ⟨s, hs⟩, v1, fun hf => v2 ?_, st, hst⟩
      rw [scan_finished hs]
      exact .inr hf
  · rintro ⟨hne, ⟨s, hs⟩, v1, v2, hst⟩
    have hi := scan_iter_none hs
    obtain ⟨p1, p2, p3⟩ := scan_params hs
    refine ⟨s, hs, ?_⟩
    cases hit : s.other.iter with
    | none => exact absurd (hi.1 hit) hne
    | some it =>
      simp only
      have hsne : s.other.steps ≠ [] := by
        intro e
        cases hil : iters lines with
        | nil => exact hne hil
        | cons x xs =>
          have := ((scan_iters hs).2 x.1).2 (.inr (by rw [hil]; simp))
          rw [e] at this
          cases this
      have e1 : (number s.other.params c!"ibrion").getD (-1) = (lastParam c!"IBRION" lines).getD (-1) := by
        rw [p1]; cases lastParam c!"IBRION" lines <;> rfl
      have e2 : number s.other.status c!"nsw" = lastParam c!"NSW" lines := by rw [p2]; cases lastParam c!"NSW" lines <;> rfl
      have e3 : number s.other.status c!"nelm" = lastParam c!"NELM" lines := by rw [p3]; cases lastParam c!"NELM" lines <;> rfl
      obtain ⟨v, hv⟩ := (ok_verdict (f := s.other.finished) (ibrion := (number s.other.params c!"ibrion").getD (-1)) (nsw := number s.other.status c!"nsw")
        (nelm := number s.other.status c!"nelm") (it := it) hsne).2 ⟨by rw [e3]; exact v1, fun hf => by
        rw [e1, e2]
        refine v2 ?_
        rcases (scan_finished hs).1 hf with h | h
        · cases h
        · exact h⟩
      obtain ⟨st, hst⟩ := hst
      exact ok_bind.2 ⟨v, hv, ok_bind.2 ⟨st, hst, ok_ok _⟩⟩

/-- C125, refusal: the exit code 600 is given exactly if there is no iteration line and every line is readable; otherwise an uncaught
exception escapes. -/
theorem C125_outcar_refused (lines : List Str) : fromList lines = .exit 600 ↔ iters lines = [] ∧ AllReadable lines := by
  rw [← scan_ok]
  constructor
  · intro h
    unfold fromList at h
    cases hs : scan {} lines with
    | exit k => exact absurd ((scan_exits (S := fun _ => False) {} lines).of k hs) id
    | raise e => rw [hs] at h; cases h
    | ok s =>
      refine ⟨(scan_iter_none hs).1 ?_, ok_ok _⟩
      rw [hs, Res.ok_bind] at h
      cases hit : s.other.iter with
      | none => rfl
      | some it =>
        exfalso
        rw [hit] at h
        have := ExitsIn.bind (Outcar.verdict_exits (S := fun _ => False) s.other.finished ((number s.other.params c!"ibrion").getD (-1))
          (number s.other.status c!"nsw") (number s.other.status c!"nelm") it s.other.steps)
          (fun v => ExitsIn.bind (Outcar.stats_exits (S := fun _ => False) [] (lastN 50 lines)) fun st => ExitsIn.ok (⟨s, v, it, st⟩ : Data))
        exact absurd (this.of 600 h) id
  · rintro ⟨hi, s, hs⟩
    unfold fromList
    rw [hs, Res.ok_bind, (scan_iter_none hs).2 hi]

/-! ### the hypotheses are met -/

-- The text with infinite numbers and NaN in its tables is accepted; cut before the row of the totals, it has a line that is not readable.
example : (∃ d, fromList (readlines exampleNan) = .ok d) ∧ AllReadable (readlines exampleNan) ∧
    ¬ AllReadable ((readlines exampleNan).take 17) := by
  have h : ∃ d, fromList (readlines exampleNan) = .ok d :=
    (match h : fromList (readlines exampleNan) with
    | .ok d => ⟨d, rfl⟩
    | .exit c => absurd (show (fromList (readlines exampleNan)).isOk = true by decide +kernel) (by rw [h]; exact Bool.false_ne_true)
    | .raise e => absurd (show (fromList (readlines exampleNan)).isOk = true by decide +kernel) (by rw [h]; exact Bool.false_ne_true))
  refine ⟨h, ((C125_outcar_accepted _).1 h).2.1, fun hr => ?_⟩
  have h' : (scan {} ((readlines exampleNan).take 17)).isOk = false := by decide +kernel
  obtain ⟨s, hs⟩ := (scan_ok _).2 hr
  rw [hs] at h'
  cases h'


end Verif.OutcarFull
