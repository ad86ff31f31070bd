import Verif.Props.OutcarTables
import Verif.Props.Chgcar
import Verif.Props.Utils
import Verif.Lemmas.Words
import Verif.Lemmas.Ok
/-! # C148: which OUTCAR files are accepted -/
set_option autoImplicit false
namespace Verif.Outcar
open Verif Verif.Utils
open Verif.Kpoints (idx toFloat toInt)
open Verif.Chgcar (FirstAt Before cut_some cut_none cut_fst)

/-! ### specification -/

/-- The word is a (finite) number. -/
def IsNum (w : Str) : Prop := (num w).isSome

/-- Six rows of numbers (the first word of each is not read), beginning at the third line below. -/
def SixRows (below : List Str) : Prop := ∀ i, 2 ≤ i → i ≤ 7 → ∃ l, below[i]? = some l ∧ ∀ w ∈ (words l).drop 1, IsNum w

/-- A row of moments: at most four orbitals and a total. -/
structure MomentRow (row : Str) : Prop where
  atMost : (words row).length ≤ 6
  numbers : ∀ w ∈ (words row).drop 1, IsNum w
  total : ∃ w, (words row).getLast? = some w ∧ IsNum w

/-- A table of moments (`seen`: a row was printed in an earlier table of the direction): rows of numbered sites up to a row `tot` or a blank
line; the latter only if there is some row. -/
structure MomentTable (seen : Prop) (table : List Str) : Prop where
  sites : ∀ r ∈ rows table, MomentRow r ∧ (site r).isSome
  ends : ∃ e, endRow table = some e ∧ (TotRow e → MomentRow e) ∧ (Blank e → seen ∨ rows table ≠ [])

/-- What must hold of a line that is not an iteration line, for the parser to get past it. `kind`: the analysis of symmetry it belongs to;
`seen c`: sites were printed in an earlier table of direction `c`; `below`: the lines below it. -/
structure Readable (kind : Option Bool) (seen : Char → Prop) (l : Str) (below : List Str) : Prop where
  params : ∀ key ∈ [c!"NSW", c!"IBRION", c!"NELM"], ∀ g, matchIntParam key l = some g → IsInt g
  nbands : ∀ a b v, FirstAt c!"NBANDS=" l a b → Before c!"NBANDS=" b v → IsInt v
  cell : kind ≠ none → startsWith c!"Subroutine PRICEL returns" (strip l) = true ∨
    startsWith c!"Routine SETGRP: Setting up the symmetry group for a" (strip l) = true → below ≠ []
  operations : kind ≠ none → startsWith c!"Subroutine GETGRP returns" (strip l) = true → ∃ w, (words l)[4]? = some w ∧ IsInt w
  elastic : ∀ h ∈ [c!"ELASTIC MODULI  (kBar)", c!"SYMMETRIZED ELASTIC MODULI", c!"TOTAL ELASTIC MODULI"],
    startsWith h (strip l) = true → SixRows below
  moments : ∀ c ∈ ['x', 'y', 'z'], startsWith (c!"magnetization (" ++ [c, ')']) (strip l) = true → MomentTable (seen c) (below.drop 3)
  electrons : startsWith c!"number of electron" (strip l) = true → ∀ w ∈ (words l).drop 5, IsNum w

/-- The analysis of symmetry that line `i` belongs to. -/
def kindAt (lines : List Str) (i : Nat) : Option Bool := (lines.take (i + 1)).foldl kindAfter none

/-- A site was printed in a table of direction `c` that begins before line `i`. -/
def SeenAt (lines : List Str) (i : Nat) (c : Char) : Prop :=
  ∃ j < i, ∃ h, lines[j]? = some h ∧ IsHeader (c!"magnetization (" ++ [c, ')']) h ∧ rows (lines.drop (j + 4)) ≠ []

/-- Every line that is not an iteration line is readable. -/
def AllReadable (lines : List Str) : Prop :=
  ∀ (i : Nat) (l : Str), lines[i]? = some l → iterOf l = none → Readable (kindAt lines i) (SeenAt lines i) l (lines.drop (i + 1))

/-! ### single steps -/

theorem ok_toFloat (w : Str) : Ok (toFloat w) ↔ IsNum w := by
  unfold Ok IsNum num
  cases toFloat w <;> simp [Res.toOption]

theorem ok_param (d : Dict Str (Option Int)) (key l : Str) :
    Ok (matchIntegerParam d key l) ↔ ∀ g, matchIntParam key l = some g → IsInt g := by
  unfold matchIntegerParam
  cases matchIntParam key l with
  | none => simp [Ok]
  | some g =>
    simp only [Option.some.injEq, forall_eq']
    unfold IsInt
    cases pyInt g <;> simp [Ok]

theorem ok_nbands (l : Str) : (contains c!"NBANDS=" l = true → Ok (splitSecond c!"NBANDS=" l >>= toInt)) ↔
    ∀ a b v, FirstAt c!"NBANDS=" l a b → Before c!"NBANDS=" b v → IsInt v := by
  have hp : c!"NBANDS=" ≠ [] := by decide
  unfold splitSecond
  cases hc : cut c!"NBANDS=" l with
  | mk x y =>
    cases y with
    | none =>
      obtain ⟨_, hn⟩ := (cut_none hp).1 hc
      constructor
      · intro _ a b v hf _
        exact absurd ⟨a, b, hf.1.symm⟩ hn
      · intro _ h
        exact absurd ((contains_iff _ _).1 h) hn
    | some b =>
      have hf := (cut_some hp).1 hc
      have hcon : contains c!"NBANDS=" l = true := (contains_iff _ _).2 ⟨x, b, hf.1.symm⟩
      simp only [hcon, forall_const, Res.ok_bind, ok_toInt]
      constructor
      · intro h a' b' v hf' hv
        have := (cut_some hp).2 hf'
        rw [hc] at this
        injection this with h1 h2
        injection h2 with h2
        subst h2
        rwa [(cut_fst hp).2 hv] at h
      · intro h
        exact h x b _ hf ((cut_fst hp).1 rfl)

theorem ok_params (s : State) (l : Str) : Ok (readParams s l) ↔
    (∀ key ∈ [c!"NSW", c!"IBRION", c!"NELM"], ∀ g, matchIntParam key l = some g → IsInt g) ∧
    ∀ a b v, FirstAt c!"NBANDS=" l a b → Before c!"NBANDS=" b v → IsInt v := by
  rw [← ok_nbands]
  unfold readParams
  rw [ok_bind_const (P := (∀ g, matchIntParam c!"IBRION" l = some g → IsInt g) ∧ (∀ g, matchIntParam c!"NELM" l = some g → IsInt g) ∧
    (contains c!"NBANDS=" l = true → Ok (splitSecond c!"NBANDS=" l >>= toInt))), ok_param]
  · simp only [List.mem_cons, List.not_mem_nil, or_false, forall_eq_or_imp, forall_eq]
    tauto
  intro st1 _
  rw [ok_bind_const (P := (∀ g, matchIntParam c!"NELM" l = some g → IsInt g) ∧
    (contains c!"NBANDS=" l = true → Ok (splitSecond c!"NBANDS=" l >>= toInt))), ok_param]
  intro pa _
  rw [ok_bind_const (P := contains c!"NBANDS=" l = true → Ok (splitSecond c!"NBANDS=" l >>= toInt)), ok_param]
  intro st2 _
  split
  · rename_i h
    simp only [h, forall_const]
    constructor
    · intro h
      obtain ⟨t, h1, h2⟩ := ok_bind.1 h
      obtain ⟨n, h3, _⟩ := ok_bind.1 h2
      exact ok_bind.2 ⟨t, h1, n, h3⟩
    · intro h
      obtain ⟨t, h1, n, h2⟩ := ok_bind.1 h
      exact ok_bind.2 ⟨t, h1, ok_bind.2 ⟨n, h2, ok_ok _⟩⟩
  · rename_i h
    simp [h, ok_ok]

theorem ok_symmetry (s : State) (l : Str) (rest : List Str) : Ok (readSymmetry s l rest) ↔
    (s.config ≠ none → startsWith c!"Subroutine PRICEL returns" (strip l) = true ∨
      startsWith c!"Routine SETGRP: Setting up the symmetry group for a" (strip l) = true → rest ≠ []) ∧
    (s.config ≠ none → startsWith c!"Subroutine GETGRP returns" (strip l) = true → ∃ w, (words l)[4]? = some w ∧ IsInt w) := by
  unfold readSymmetry
  cases hc : s.config with
  | none => simp [ok_ok]
  | some dyn =>
    simp only [ne_eq, reduceCtorEq, not_false_eq_true, forall_const]
    have hne : Ok (idx rest 0) ↔ rest ≠ [] := by rw [ok_idx]; cases rest <;> simp
    have h1 : ∀ y, Ok (readPricel y dyn l rest) ↔ (startsWith c!"Subroutine PRICEL returns" (strip l) = true → rest ≠ []) := by
      intro y
      unfold readPricel
      split
      · rename_i h
        simp only [h, forall_const]
        rw [ok_bind_const (P := True), hne, and_true]
        intro a _
        split <;> simp [ok_ok]
      · rename_i h
        simp [h, ok_ok]
    have h2 : ∀ y, Ok (readSetgrp y dyn l rest) ↔ (startsWith c!"Routine SETGRP: Setting up the symmetry group for a" (strip l) = true → rest ≠ []) := by
      intro y
      unfold readSetgrp
      split
      · rename_i h
        simp only [h, forall_const]
        rw [ok_bind_const (P := True), hne, and_true]
        intro a _
        simp [ok_ok]
      · rename_i h
        simp [h, ok_ok]
    have h3 : ∀ y, Ok (readGetgrp y dyn l) ↔ (startsWith c!"Subroutine GETGRP returns" (strip l) = true → ∃ w, (words l)[4]? = some w ∧ IsInt w) := by
      intro y
      unfold readGetgrp
      split
      · rename_i h
        simp only [h, forall_const]
        rw [ok_bind]
        constructor
        · rintro ⟨w, hw, hn⟩
          obtain ⟨n, hn, _⟩ := ok_bind.1 hn
          exact ⟨w, idx_ok.1 hw, (ok_toInt w).1 ⟨n, hn⟩⟩
        · rintro ⟨w, hw, hn⟩
          obtain ⟨n, hn⟩ := (ok_toInt w).2 hn
          exact ⟨w, idx_ok.2 hw, ok_bind.2 ⟨n, hn, ok_ok _⟩⟩
      · rename_i h
        simp [h, ok_ok]
    rw [ok_bind_const (P := (startsWith c!"Routine SETGRP: Setting up the symmetry group for a" (strip l) = true → rest ≠ []) ∧
      (startsWith c!"Subroutine GETGRP returns" (strip l) = true → ∃ w, (words l)[4]? = some w ∧ IsInt w)), h1]
    · tauto
    intro y _
    rw [ok_bind_const (P := startsWith c!"Subroutine GETGRP returns" (strip l) = true → ∃ w, (words l)[4]? = some w ∧ IsInt w), h2]
    intro y _
    rw [ok_bind_const (P := True), h3, and_true]
    intro y _
    simp [ok_ok]

theorem ok_tensor (rest : List Str) : Ok (readTensor rest) ↔ SixRows rest := by
  unfold readTensor
  rw [ok_mapM']
  have key : ∀ i, Ok (idx rest i >>= fun l => Res.mapM' toFloat ((words l).drop 1)) ↔ ∃ l, rest[i]? = some l ∧ ∀ w ∈ (words l).drop 1, IsNum w := by
    intro i
    rw [ok_bind]
    simp only [idx_ok, ok_mapM', ok_toFloat]
  simp only [key]
  unfold SixRows
  constructor
  · intro h i h1 h2
    refine h i ?_
    simp only [List.mem_cons, List.not_mem_nil, or_false]
    omega
  · intro h i hi
    simp only [List.mem_cons, List.not_mem_nil, or_false] at hi
    exact h i (by omega) (by omega)

theorem ok_elastic (header key l : Str) (rest : List Str) (e : Dict Str (Option Tensor)) :
    Ok (readElastic header key l rest e) ↔ (startsWith header (strip l) = true → SixRows rest) := by
  unfold readElastic
  split
  · rename_i h
    simp only [h, forall_const]
    rw [ok_bind_const (P := True), ok_tensor, and_true]
    intro a _
    simp [ok_ok]
  · rename_i h
    simp [h, ok_ok]

theorem ok_elastics (s : State) (l : Str) (rest : List Str) : Ok (readElastics s l rest) ↔
    ∀ h ∈ [c!"ELASTIC MODULI  (kBar)", c!"SYMMETRIZED ELASTIC MODULI", c!"TOTAL ELASTIC MODULI"],
      startsWith h (strip l) = true → SixRows rest := by
  simp only [List.mem_cons, List.not_mem_nil, or_false, forall_eq_or_imp, forall_eq]
  unfold readElastics
  rw [ok_bind_const (P := (startsWith c!"SYMMETRIZED ELASTIC MODULI" (strip l) = true → SixRows rest) ∧
    (startsWith c!"TOTAL ELASTIC MODULI" (strip l) = true → SixRows rest)), ok_elastic]
  intro e _
  rw [ok_bind_const (P := startsWith c!"TOTAL ELASTIC MODULI" (strip l) = true → SixRows rest), ok_elastic]
  intro e _
  rw [ok_bind_const (P := True), ok_elastic, and_true]
  intro e _
  simp [ok_ok]

/-! ### moments -/

theorem ok_orbitals (names cs : List Str) (m : Moments) : Ok (orbitals names cs m) ↔ cs.length ≤ names.length ∧ ∀ w ∈ cs, IsNum w := by
  induction cs generalizing names m with
  | nil => simp [orbitals, ok_ok]
  | cons c cs ih =>
    unfold orbitals
    cases names with
    | nil =>
      rw [ok_bind_const (P := False)]
      · simp
      · intro a _
        simp [Ok]
    | cons n ns =>
      rw [ok_bind_const (P := cs.length ≤ ns.length ∧ ∀ w ∈ cs, IsNum w), ok_toFloat]
      · simp only [List.length_cons, Nat.add_le_add_iff_right, List.mem_cons, forall_eq_or_imp]
        tauto
      · intro a _
        exact ih ns _

theorem ok_moments (row : Str) : Ok (readMoments row) ↔ MomentRow row := by
  unfold readMoments
  simp only
  rw [ok_bind_const (P := ∃ w, (words row).getLast? = some w ∧ IsNum w), ok_orbitals]
  · simp only [List.length_dropLast, List.length_drop, List.length_cons, List.length_nil]
    constructor
    · rintro ⟨⟨h1, h2⟩, w, h3, h4⟩
      refine ⟨by omega, fun x hx => ?_, w, h3, h4⟩
      rcases List.eq_nil_or_concat ((words row).drop 1) with h | ⟨i, z, h⟩
      · rw [h] at hx; cases hx
      · rw [h, List.concat_eq_append] at hx h2
        rw [List.dropLast_concat] at h2
        rcases List.mem_append.1 hx with hx | hx
        · exact h2 x hx
        · simp only [List.mem_singleton] at hx
          have : (words row).getLast? = some z := by
            have h5 : ((words row).drop 1).getLast? = some z := by rw [h, List.concat_eq_append]; simp
            rw [List.getLast?_drop] at h5
            split at h5
            · cases h5
            · exact h5
          rw [this] at h3
          injection h3 with h3
          rw [hx, h3]
          exact h4
    · rintro ⟨h1, h2, h3⟩
      exact ⟨⟨by omega, fun w hw => h2 w (List.mem_of_mem_dropLast hw)⟩, h3⟩
  · intro m _
    cases hg : (words row).getLast? with
    | none => simp [Ok]
    | some t =>
      simp only [Option.some.injEq, exists_eq_left']
      rw [ok_bind_const (P := True), ok_toFloat, and_true]
      intro x _
      simp [ok_ok]

theorem not_tot_of_blank {l : Str} (h : Blank l) : ¬ TotRow l := by
  intro ht
  unfold TotRow at ht
  unfold Blank at h
  have : strip l = [] := (strip_eq_nil_iff l).2 h
  rw [this] at ht
  exact absurd ht (by decide)

theorem ok_mag (m : Sphere) (ls : List Str) : Ok (readMag m ls) ↔ MomentTable (m.sites ≠ []) ls := by
  induction ls generalizing m with
  | nil =>
    refine ⟨fun ⟨a, h⟩ => (by cases h), fun h => ?_⟩
    obtain ⟨e, he, _⟩ := h.ends
    cases he
  | cons l ls ih =>
    unfold readMag
    split
    · rename_i hb
      have hb' : Blank l := hb
      have hr : rows (l :: ls) = [] := by unfold rows; rw [List.takeWhile_cons]; simp [hb']
      have he : endRow (l :: ls) = some l := by unfold endRow; rw [List.dropWhile_cons]; simp [hb']
      have key : MomentTable (m.sites ≠ []) (l :: ls) ↔ m.sites ≠ [] := by
        constructor
        · intro h
          obtain ⟨e, h1, h2, h3⟩ := h.ends
          rw [he] at h1
          cases h1
          rw [hr] at h3
          simpa using h3 hb'
        · intro h
          refine ⟨by rw [hr]; simp, l, he, fun ht => absurd ht (not_tot_of_blank hb'), fun _ => .inl h⟩
      rw [key]
      cases hm : m.sites with
      | nil => simp [Ok]
      | cons x xs => simp [ok_ok]
    · rename_i hb
      have hb' : ¬ Blank l := hb
      split
      · rename_i ht
        have ht' : TotRow l := ht
        have hr : rows (l :: ls) = [] := by unfold rows; rw [List.takeWhile_cons]; simp [ht']
        have he : endRow (l :: ls) = some l := by unfold endRow; rw [List.dropWhile_cons]; simp [ht']
        rw [ok_bind_const (P := True) (fun _ _ => by simp [ok_ok]), ok_moments, and_true]
        constructor
        · intro h
          exact ⟨by rw [hr]; simp, l, he, fun _ => h, fun hb => absurd hb hb'⟩
        · intro h
          obtain ⟨e, h1, h2, -⟩ := h.ends
          rw [he] at h1
          cases h1
          exact h2 ht'
      · rename_i ht
        have ht' : ¬ TotRow l := ht
        have he : endRow (l :: ls) = endRow ls := by unfold endRow; rw [List.dropWhile_cons]; simp [hb', ht']
        split
        · rename_i hd
          have hd' : Rule l := hd
          have hr : rows (l :: ls) = rows ls := by unfold rows; rw [List.takeWhile_cons]; simp [hb', ht', hd']
          rw [ih]
          constructor
          · rintro ⟨h1, h2⟩; exact ⟨by rw [hr]; exact h1, by rw [he, hr]; exact h2⟩
          · rintro ⟨h1, h2⟩; exact ⟨by rw [← hr]; exact h1, by rw [← he, ← hr]; exact h2⟩
        · rename_i hd
          have hd' : ¬ Rule l := hd
          have hr : rows (l :: ls) = l :: rows ls := by unfold rows; rw [List.takeWhile_cons]; simp [hb', ht', hd']
          have hset : ∀ n t, (m.sites.set n t : Dict Int Moments) ≠ [] := by
            intro n t h
            have h1 := Dict.get?_set m.sites n n t
            rw [h, if_pos rfl] at h1
            cases h1
          rw [ok_bind]
          constructor
          · rintro ⟨w, hw, h⟩
            obtain ⟨n, hn, h⟩ := ok_bind.1 h
            obtain ⟨t, h1, h⟩ := ok_bind.1 h
            have hs := site_of hw hn
            obtain ⟨i1, e, i2, i3, i4⟩ := (ih _).1 h
            refine ⟨?_, e, by rw [he]; exact i2, i3, fun _ => .inr (by rw [hr]; simp)⟩
            intro r hr'
            rw [hr] at hr'
            rcases List.mem_cons.1 hr' with rfl | hr'
            · exact ⟨(ok_moments _).1 ⟨t, h1⟩, by rw [hs]; rfl⟩
            · exact i1 r hr'
          · intro h
            obtain ⟨h1, e, h2, h3, h4⟩ := h
            obtain ⟨hm, hs⟩ := h1 l (by rw [hr]; simp)
            obtain ⟨n, hn⟩ := Option.isSome_iff_exists.1 hs
            obtain ⟨t, ht⟩ := (ok_moments l).2 hm
            unfold site at hn
            obtain ⟨w, hw, hn⟩ := Option.bind_eq_some_iff.1 hn
            have hn' : toInt w = .ok n := by unfold toInt; rw [hn]
            refine ⟨w, ?_, ok_bind.2 ⟨n, hn', ok_bind.2 ⟨t, ht, (ih _).2 ⟨?_, e, by rw [← he]; exact h2, h3, fun _ => .inl (hset n t)⟩⟩⟩⟩
            · rw [idx_ok]
              cases hwl : words l with
              | nil => rw [hwl] at hw; cases hw
              | cons a as => rw [hwl] at hw; simpa using hw
            · intro r hr'
              exact h1 r (by rw [hr]; simp [hr'])

theorem ok_sphere (c : Char) (l : Str) (rest : List Str) (m : Sphere) : Ok (readSphere c l rest m) ↔
    (startsWith (c!"magnetization (" ++ [c, ')']) (strip l) = true → MomentTable (m.sites ≠ []) (rest.drop 3)) := by
  unfold readSphere
  split
  · rename_i h
    simp only [h, forall_const]
    exact ok_mag m _
  · rename_i h
    exact ⟨fun _ h' => absurd h' h, fun _ => ok_ok _⟩

/-- The moments of a direction. -/
def sphere (s : State) (c : Char) : Sphere := if c = 'x' then s.magX else if c = 'y' then s.magY else s.magZ

theorem ok_magnetization (s : State) (l : Str) (rest : List Str) : Ok (readMagnetization s l rest) ↔
    (∀ c ∈ ['x', 'y', 'z'], startsWith (c!"magnetization (" ++ [c, ')']) (strip l) = true → MomentTable ((sphere s c).sites ≠ []) (rest.drop 3)) ∧
    (startsWith c!"number of electron" (strip l) = true → ∀ w ∈ (words l).drop 5, IsNum w) := by
  simp only [List.mem_cons, List.not_mem_nil, or_false, forall_eq_or_imp, forall_eq]
  have ex : sphere s 'x' = s.magX := rfl
  have ey : sphere s 'y' = s.magY := rfl
  have ez : sphere s 'z' = s.magZ := rfl
  rw [ex, ey, ez, ← ok_sphere, ← ok_sphere, ← ok_sphere]
  unfold readMagnetization
  rw [ok_bind_const (P := Ok (readSphere 'y' l rest s.magY) ∧ Ok (readSphere 'z' l rest s.magZ) ∧
    (startsWith c!"number of electron" (strip l) = true → ∀ w ∈ (words l).drop 5, IsNum w))]
  · tauto
  intro x _
  rw [ok_bind_const (P := Ok (readSphere 'z' l rest s.magZ) ∧
    (startsWith c!"number of electron" (strip l) = true → ∀ w ∈ (words l).drop 5, IsNum w))]
  intro y _
  rw [ok_bind_const (P := startsWith c!"number of electron" (strip l) = true → ∀ w ∈ (words l).drop 5, IsNum w)]
  intro z _
  split
  · rename_i h
    simp only [h, forall_const]
    rw [ok_bind_const (P := True) (fun _ _ => by simp [ok_ok]), ok_mapM', and_true]
    simp only [ok_toFloat]
  · rename_i h
    simp [h, ok_ok]

/-! ### one line -/

theorem config_eq (s : State) (l : Str) (hl : iterOf l = none) : (readConfig s l).config = kindAfter s.config l := by
  unfold readConfig kindAfter IsHeader
  simp only [hl, true_and]
  split
  · rfl
  · split <;> rfl

theorem step_readable (s : State) (l : Str) (rest : List Str) (hl : iterOf l = none) :
    Ok (step s l rest) ↔ Readable (kindAfter s.config l) (fun c => (sphere s c).sites ≠ []) l rest := by
  unfold step
  rw [hl]
  simp only
  have keep : ∀ t : State, (readConfig (readEnd t l) l).config = kindAfter t.config l ∧
      ∀ c, sphere (readConfig (readEnd t l) l) c = sphere t c := by
    intro t
    refine ⟨?_, fun c => ?_⟩
    · rw [config_eq _ _ hl]
      unfold readEnd
      split <;> rfl
    · have a : ∀ u : State, sphere (readConfig u l) c = sphere u c := by
        intro u
        unfold readConfig
        dsimp only
        split <;> split <;> rfl
      rw [a]
      unfold readEnd
      split <;> rfl
  have key : Ok (readParams s l >>= fun s1 => readSymmetry (readConfig (readEnd s1 l) l) l rest >>= fun s2 =>
      readElastics s2 l rest >>= fun s3 => readMagnetization s3 l rest) ↔
      Ok (readParams s l) ∧ Ok (readSymmetry { s with config := kindAfter s.config l } l rest) ∧ Ok (readElastics s l rest) ∧ Ok (readMagnetization s l rest) := by
    refine ok_bind_const fun s1 h1 => ?_
    obtain ⟨_, _, nb, e1⟩ := readParams_ok h1
    have c1 : s1.config = s.config := by rw [e1]
    have m1 : ∀ c, sphere s1 c = sphere s c := fun c => by rw [e1]; rfl
    rw [ok_bind_const (P := Ok (readElastics s l rest) ∧ Ok (readMagnetization s l rest))]
    · rw [ok_symmetry, ok_symmetry, (keep s1).1, c1]
    intro s2 h2
    obtain ⟨⟨y, e2⟩, _⟩ := readSymmetry_ok h2
    have m2 : ∀ c, sphere s2 c = sphere s c := fun c => by
      rw [e2, ← m1 c, ← (keep s1).2 c]; rfl
    rw [ok_bind_const (P := Ok (readMagnetization s l rest))]
    · rw [ok_elastics, ok_elastics]
    intro s3 h3
    obtain ⟨e, _, e3⟩ := readElastics_ok h3
    have m3 : ∀ c, sphere s3 c = sphere s c := fun c => by rw [e3, ← m2 c]; rfl
    rw [ok_magnetization, ok_magnetization]
    simp only [m3]
  rw [key, ok_params, ok_symmetry, ok_elastics, ok_magnetization]
  constructor
  · rintro ⟨⟨h1, h2⟩, ⟨h3, h4⟩, h5, h6, h7⟩
    exact ⟨h1, h2, h3, h4, h5, h6, h7⟩
  · rintro ⟨h1, h2, h3, h4, h5, h6, h7⟩
    exact ⟨⟨h1, h2⟩, ⟨h3, h4⟩, h5, h6, h7⟩

/-! ### all lines -/

theorem MomentTable.congr {a b : Prop} (h : a ↔ b) {t : List Str} : MomentTable a t ↔ MomentTable b t := by rw [propext h]

theorem Readable.congr {k : Option Bool} {a b : Char → Prop} (h : ∀ c ∈ ['x', 'y', 'z'], (a c ↔ b c)) {l : Str} {below : List Str} :
    Readable k a l below ↔ Readable k b l below := by
  constructor
  · rintro ⟨h1, h2, h3, h4, h5, h6, h7⟩
    exact ⟨h1, h2, h3, h4, h5, fun c hc hs => (MomentTable.congr (h c hc)).1 (h6 c hc hs), h7⟩
  · rintro ⟨h1, h2, h3, h4, h5, h6, h7⟩
    exact ⟨h1, h2, h3, h4, h5, fun c hc hs => (MomentTable.congr (h c hc)).2 (h6 c hc hs), h7⟩

theorem seen_step {lines pre post : List Str} {l : Str} (e : lines = pre ++ l :: post) (c : Char) :
    SeenAt lines (pre.length + 1) c ↔ SeenAt lines pre.length c ∨
      IsHeader (c!"magnetization (" ++ [c, ')']) l ∧ rows (post.drop 3) ≠ [] := by
  have hl : lines[pre.length]? = some l := by rw [e]; simp
  have hd : lines.drop (pre.length + 4) = post.drop 3 := by
    rw [e, List.drop_append, List.drop_eq_nil_of_le (by omega), List.nil_append]
    have : pre.length + 4 - pre.length = 3 + 1 := by omega
    rw [this, List.drop_succ_cons]
  constructor
  · rintro ⟨j, hj, h, h1, h2, h3⟩
    rcases Nat.lt_succ_iff_lt_or_eq.1 hj with hj | rfl
    · exact .inl ⟨j, hj, h, h1, h2, h3⟩
    · rw [hl] at h1
      cases h1
      rw [hd] at h3
      exact .inr ⟨h2, h3⟩
  · rintro (⟨j, hj, h⟩ | ⟨h1, h2⟩)
    · exact ⟨j, by omega, h⟩
    · exact ⟨pre.length, by omega, l, hl, h1, by rw [hd]; exact h2⟩

theorem sphere_seen {s s' : State} {l : Str} {rest : List Str} (hl : iterOf l = none) (h : step s l rest = .ok s') :
    ∀ c ∈ ['x', 'y', 'z'], ((sphere s' c).sites ≠ [] ↔ (sphere s c).sites ≠ [] ∨
      IsHeader (c!"magnetization (" ++ [c, ')']) l ∧ rows (rest.drop 3) ≠ []) := by
  have key : ∀ (c : Char) (m m' : Sphere), readSphere c l rest m = .ok m' → (m'.sites ≠ [] ↔ m.sites ≠ [] ∨
      IsHeader (c!"magnetization (" ++ [c, ')']) l ∧ rows (rest.drop 3) ≠ []) := by
    intro c m m' h
    unfold readSphere at h
    split at h
    · rename_i hb
      obtain ⟨-, r2, r3, -⟩ := readMag_ok h
      have hk : ∀ d : Dict Int Moments, d.keys.head? = none ↔ d = [] := by
        intro d; cases d <;> simp [Dict.keys]
      have hh : IsHeader (c!"magnetization (" ++ [c, ')']) l := ⟨hl, hb⟩
      have : m'.sites = [] ↔ m.sites = [] ∧ rows (rest.drop 3) = [] := by
        rw [← hk, r3, ← hk m.sites, List.head?_append]
        cases hm : m.sites.keys.head? with
        | some a => simp
        | none =>
          simp only [Option.none_or, true_and]
          constructor
          · intro h
            cases hr : rows (rest.drop 3) with
            | nil => rfl
            | cons r rs =>
              exfalso
              obtain ⟨n, hn⟩ := Option.isSome_iff_exists.1 (r2 r (by rw [hr]; simp))
              rw [hr, List.filterMap_cons, hn] at h
              cases h
          · intro h; rw [h]; rfl
      simp only [ne_eq, this, hh, true_and]
      tauto
    · rename_i hb
      cases h
      have hh : ¬ IsHeader (c!"magnetization (" ++ [c, ')']) l := fun hh => hb hh.2
      simp only [hh, false_and, or_false]
  have o := step_other hl h
  intro c hc
  simp only [List.mem_cons, List.not_mem_nil, or_false] at hc
  rcases hc with rfl | rfl | rfl
  · exact key _ _ _ o.magX
  · exact key _ _ _ o.magY
  · exact key _ _ _ o.magZ

theorem scan_readable (lines : List Str) : ∀ (post pre : List Str) (s : State), lines = pre ++ post →
    s.config = pre.foldl kindAfter none → (∀ c ∈ ['x', 'y', 'z'], ((sphere s c).sites ≠ [] ↔ SeenAt lines pre.length c)) →
    (Ok (scan s post) ↔ ∀ i l, pre.length ≤ i → lines[i]? = some l → iterOf l = none →
      Readable (kindAt lines i) (SeenAt lines i) l (lines.drop (i + 1))) := by
  intro post
  induction post with
  | nil =>
    intro pre s e _ _
    refine ⟨fun _ i l hi hl => ?_, fun _ => ok_ok _⟩
    rw [e, List.append_nil] at hl
    have := (List.getElem?_eq_some_iff.1 hl).1
    omega
  | cons l post ih =>
    intro pre s e hk hs
    have e' : lines = (pre ++ [l]) ++ post := by rw [e]; simp
    have hlen : (pre ++ [l]).length = pre.length + 1 := by simp
    have hl : lines[pre.length]? = some l := by rw [e]; simp
    have hd : lines.drop (pre.length + 1) = post := by rw [e', ← hlen, List.drop_left]
    have hka : kindAt lines pre.length = kindAfter s.config l := by
      unfold kindAt
      rw [e', ← hlen, List.take_left, List.foldl_append, hk]
      rfl
    have hsplit : (∀ i l, pre.length ≤ i → lines[i]? = some l → iterOf l = none →
        Readable (kindAt lines i) (SeenAt lines i) l (lines.drop (i + 1))) ↔
        (iterOf l = none → Readable (kindAfter s.config l) (fun c => (sphere s c).sites ≠ []) l post) ∧
        ∀ i l, (pre ++ [l]).length ≤ i → lines[i]? = some l → iterOf l = none →
        Readable (kindAt lines i) (SeenAt lines i) l (lines.drop (i + 1)) := by
      constructor
      · intro h
        refine ⟨fun hn => ?_, fun i l' hi => h i l' (by simp at hi; omega)⟩
        have := h pre.length l le_rfl hl hn
        rw [hka, hd] at this
        exact (Readable.congr hs).2 this
      · rintro ⟨h1, h2⟩ i l' hi hl' hn
        rcases Nat.eq_or_lt_of_le hi with rfl | hi
        · rw [hl] at hl'
          cases hl'
          rw [hka, hd]
          exact (Readable.congr hs).1 (h1 hn)
        · exact h2 i l' (by simp; omega) hl' hn
    rw [hsplit]
    rw [scan]
    have hlen' : ∀ a : Str, (pre ++ [a]).length = (pre ++ [l]).length := fun a => by simp
    simp only [hlen']
    cases hn : iterOf l with
    | some n =>
      rw [step_iter hn, Res.ok_bind]
      simp only [reduceCtorEq, false_implies, true_and]
      refine ih (pre ++ [l]) _ e' ?_ ?_
      · have : kindAfter s.config l = s.config := by
          unfold kindAfter IsHeader
          simp [hn]
        rw [List.foldl_append, ← hk, List.foldl_cons, List.foldl_nil, this]
      · intro c hc
        rw [hlen, seen_step e]
        have h1 : ¬ IsHeader (c!"magnetization (" ++ [c, ')']) l := fun h => by have := h.1; rw [hn] at this; cases this
        simp only [h1, false_and, or_false]
        exact hs c hc
    | none =>
      simp only [forall_const]
      rw [← step_readable s l post hn]
      refine ok_bind_const fun s' h => ?_
      refine ih (pre ++ [l]) s' e' ?_ ?_
      · rw [(step_other hn h).config, config_eq _ _ hn, List.foldl_append, ← hk, List.foldl_cons, List.foldl_nil]
      · intro c hc
        rw [hlen, seen_step e, sphere_seen hn h c hc, hs c hc]

theorem scan_ok (lines : List Str) : Ok (scan {} lines) ↔ AllReadable lines := by
  rw [scan_readable lines lines [] {} rfl rfl]
  · simp [AllReadable]
  · intro c hc
    simp only [List.length_nil]
    constructor
    · intro h
      simp only [List.mem_cons, List.not_mem_nil, or_false] at hc
      rcases hc with rfl | rfl | rfl <;> exact absurd rfl h
    · rintro ⟨j, hj, _⟩
      omega

/-! ### verdict and statistics -/

theorem ok_verdict {f : Bool} {ibrion : Int} {nsw nelm : Option Int} {it : Nat × Nat} {steps : Dict Nat Nat} (hne : steps ≠ []) :
    Ok (verdict f ibrion nsw nelm it steps) ↔ nelm ≠ none ∧ (f = true → 0 < ibrion → nsw ≠ none) := by
  have hm : Ok (mask nelm steps) ↔ nelm ≠ none := by
    constructor
    · rintro ⟨m, h⟩
      obtain ⟨n, h, _⟩ := mask_ok hne h
      rw [h]; simp
    · intro h
      cases nelm with
      | none => exact absurd rfl h
      | some n =>
        unfold mask
        exact ok_mapM'.2 fun x _ => ok_ok _
  have hv : ∀ r : Res (Option Bool × Bool), Ok (r >>= fun ie => mask nelm steps >>= fun m =>
      Res.ok (⟨ie.1, ie.2, (f && m.all id) || (!f && m.dropLast.all id && decide (it.1 > 1)), m.any id⟩ : Verdict)) ↔ Ok r ∧ nelm ≠ none := by
    intro r
    refine ok_bind_const fun ie _ => ?_
    rw [ok_bind_const (P := True) (fun _ _ => by simp [ok_ok]), hm, and_true]
  unfold verdict
  rw [hv]
  cases f with
  | false => simp [ok_ok]
  | true =>
    simp only [if_true, forall_const]
    have hi : Ok (ionicFinished ibrion it.1 nsw) ↔ (0 < ibrion → nsw ≠ none) := by
      unfold ionicFinished
      by_cases h0 : ibrion > 0
      · rw [if_pos h0]
        cases nsw with
        | none => simp [ltOpt, Ok, h0]
        | some n =>
          simp only [ltOpt, Res.ok_bind]
          refine ⟨fun _ _ => by simp, fun _ => ?_⟩
          split
          · exact ok_ok _
          split
          · exact ok_ok _
          split <;> exact ok_ok _
      · rw [if_neg h0]
        exact ⟨fun _ h => absurd h h0, fun _ => ok_ok _⟩
    cases nelm with
    | none => simp
    | some k =>
      rw [ok_bind_const (P := True), hi]
      · simp
      · intro i _
        simp [ltOpt, ok_ok]

theorem splitP_two {p : Char → Bool} {s : Str} {c : Char} (h : c ∈ s) (hp : p c = true) : 2 ≤ (splitP p s).length := by
  obtain ⟨a, b, rfl⟩ := List.append_of_mem h
  rw [splitP_append_sep _ _ _ _ hp, List.length_append]
  have h1 := List.length_pos_of_ne_nil (splitP_ne_nil p a)
  have h2 := List.length_pos_of_ne_nil (splitP_ne_nil p b)
  omega

theorem colon_strip (l : Str) : ':' ∈ strip l ↔ ':' ∈ l := by
  refine ⟨mem_of_mem_strip, fun h => ?_⟩
  rcases mem_strip_or h with h | h
  · exact h
  · exact absurd h (by decide)

theorem mem_chomp {c : Char} {s : Str} (h : c ∈ chomp s) : c ∈ s := by
  unfold chomp at h
  split at h
  · exact List.mem_of_mem_dropLast h
  · exact h

theorem ok_statLine (l : Str) : Ok (statLine l) ↔ (contains c!"(sec)" l = true ∨ contains c!"(kb)" l = true → ':' ∈ l) := by
  have ht : isTimeLine l = true ↔ contains c!"(sec)" l = true ∨ contains c!"(kb)" l = true := by
    unfold isTimeLine
    rw [Bool.or_eq_true]
  rw [← ht, ← colon_strip]
  unfold statLine
  split
  · rename_i h
    simp only [h, forall_const]
    constructor
    · intro hok
      by_contra hc
      rw [splitOn_free hc] at hok
      obtain ⟨a, h⟩ := hok
      cases h
    · intro hc
      have h2 : 2 ≤ (splitOn ':' (strip l)).length := splitP_two hc (by simp)
      rw [ok_bind_const (P := True), and_true]
      · exact ok_idx.2 (by omega)
      intro t0 _
      rw [ok_bind_const (P := True), and_true]
      · simp only [iff_true]; exact ok_idx.2 (by omega)
      intro t1 _
      simp [ok_ok]
  · rename_i h
    simp only [h, Bool.false_eq_true, false_implies, iff_true]
    split
    · rename_i hm
      unfold isMemLine at hm
      simp only [Bool.and_eq_true, List.contains_eq_mem, decide_eq_true_eq] at hm
      have hc : ':' ∈ strip l := (colon_strip l).2 (mem_chomp (List.mem_of_mem_take hm.2))
      have h2 := splitP_two (p := fun c => c == ':' || c == ' ') hc (by simp)
      have h3 : 2 ≤ (splitRuns (strip l)).length := by
        unfold splitRuns
        split
        · rename_i he; rw [he] at h2; simp at h2
        · rename_i a he; rw [he] at h2; simp at h2
        · simp only [List.length_cons, List.length_append, List.length_nil]; omega
      rw [if_neg (by omega)]
      rw [ok_bind_const (P := True), and_true]
      · exact ok_idx.2 (by omega)
      intro t0 _
      rw [ok_bind_const (P := True), and_true]
      · simp only [iff_true]; exact ok_idx.2 (by omega)
      intro t1 _
      simp [ok_ok]
    · exact ok_ok _

theorem ok_stats (d : Dict Str (Option PyFloat)) (ls : List Str) : Ok (stats d ls) ↔ ∀ l ∈ ls, Ok (statLine l) := by
  induction ls generalizing d with
  | nil => simp [stats, ok_ok]
  | cons l ls ih =>
    rw [stats, ok_bind_const (P := ∀ l ∈ ls, Ok (statLine l))]
    · simp
    intro r _
    cases r with
    | none => exact ih d
    | some kv => exact ih _

/-! ### C148 -/

theorem scan_iter_none {s : State} {lines : List Str} (h : scan {} lines = .ok s) : s.iter = none ↔ iters lines = [] := by
  rw [(scan_iters h).1]
  simp

/-- **C148**, acceptance: an OUTCAR is accepted exactly if it has an iteration line, every other line is readable, NELM is printed, NSW is
printed if the run finished and IBRION is positive, and each of the last fifty lines with `(sec)` or `(kb)` has a colon. -/
theorem C148_accepted (lines : List Str) : (∃ d, fromList lines = .ok d) ↔
    iters lines ≠ [] ∧ AllReadable lines ∧ lastParam c!"NELM" lines ≠ none ∧
    (Finished lines → 0 < (lastParam c!"IBRION" lines).getD (-1) → lastParam c!"NSW" lines ≠ none) ∧
    ∀ l ∈ lines.drop (lines.length - 50), contains c!"(sec)" l = true ∨ contains c!"(kb)" l = true → ':' ∈ l := by
  rw [← scan_ok]
  have hst : (∀ l ∈ lines.drop (lines.length - 50), contains c!"(sec)" l = true ∨ contains c!"(kb)" l = true → ':' ∈ l) ↔
      Ok (stats [] (lastN 50 lines)) := by
    rw [ok_stats]
    simp only [ok_statLine]
    rfl
  rw [hst]
  show Ok (fromList lines) ↔ _
  unfold fromList
  rw [ok_bind]
  constructor
  · rintro ⟨s, hs, h⟩
    have hi := scan_iter_none hs
    obtain ⟨p1, p2, p3⟩ := scan_params hs
    cases hit : s.iter with
    | none => rw [hit] at h; obtain ⟨a, h⟩ := h; cases h
    | some it =>
      rw [hit] at h
      have hne : iters lines ≠ [] := fun e => by rw [hi.2 e] at hit; cases hit
      obtain ⟨v, hv, h⟩ := ok_bind.1 h
      obtain ⟨st, hst, -⟩ := ok_bind.1 h
      have hsne : s.steps ≠ [] := by
        intro e
        cases hil : iters lines with
        | nil => exact hne hil
        | cons x xs =>
          have := ((scan_iters hs).2.2.1 x.1).2 (.inr (by rw [hil]; simp))
          rw [e] at this
          cases this
      obtain ⟨v1, v2⟩ := (ok_verdict hsne).1 ⟨v, hv⟩
      have e1 : (number s.params c!"ibrion").getD (-1) = (lastParam c!"IBRION" lines).getD (-1) := by
        rw [p1]; cases lastParam c!"IBRION" lines <;> rfl
      have e2 : number s.status c!"nsw" = lastParam c!"NSW" lines := by rw [p2]; cases lastParam c!"NSW" lines <;> rfl
      have e3 : number s.status c!"nelm" = lastParam c!"NELM" lines := by rw [p3]; cases lastParam c!"NELM" lines <;> rfl
      rw [e1, e2] at v2
      rw [e3] at v1
      refine ⟨hne, ⟨s, hs⟩, v1, fun hf => v2 ?_, st, hst⟩
      rw [scan_finished hs]
      exact .inr hf
  · rintro ⟨hne, ⟨s, hs⟩, v1, v2, hst⟩
    have hi := scan_iter_none hs
    obtain ⟨p1, p2, p3⟩ := scan_params hs
    refine ⟨s, hs, ?_⟩
    cases hit : s.iter with
    | none => exact absurd (hi.1 hit) hne
    | some it =>
      simp only
      have hsne : s.steps ≠ [] := by
        intro e
        cases hil : iters lines with
        | nil => exact hne hil
        | cons x xs =>
          have := ((scan_iters hs).2.2.1 x.1).2 (.inr (by rw [hil]; simp))
          rw [e] at this
          cases this
      have e1 : (number s.params c!"ibrion").getD (-1) = (lastParam c!"IBRION" lines).getD (-1) := by
        rw [p1]; cases lastParam c!"IBRION" lines <;> rfl
      have e2 : number s.status c!"nsw" = lastParam c!"NSW" lines := by rw [p2]; cases lastParam c!"NSW" lines <;> rfl
      have e3 : number s.status c!"nelm" = lastParam c!"NELM" lines := by rw [p3]; cases lastParam c!"NELM" lines <;> rfl
      obtain ⟨v, hv⟩ := (ok_verdict (f := s.finished) (ibrion := (number s.params c!"ibrion").getD (-1)) (nsw := number s.status c!"nsw")
        (nelm := number s.status c!"nelm") (it := it) hsne).2 ⟨by rw [e3]; exact v1, fun hf => by
        rw [e1, e2]
        refine v2 ?_
        rcases (scan_finished hs).1 hf with h | h
        · cases h
        · exact h⟩
      obtain ⟨st, hst⟩ := hst
      exact ok_bind.2 ⟨v, hv, ok_bind.2 ⟨st, hst, ok_ok _⟩⟩

/-- **C148**, refusal: the exit code 600 is given exactly if there is no iteration line and every line is readable; otherwise an uncaught
exception escapes. -/
theorem C148_refused (lines : List Str) : fromList lines = .exit 600 ↔ iters lines = [] ∧ AllReadable lines := by
  rw [← scan_ok]
  constructor
  · intro h
    refine ⟨((C31_exits lines).1 600 h).2, ?_⟩
    unfold fromList at h
    cases hs : scan {} lines with
    | ok s => exact ok_ok _
    | exit k => exact absurd ((scan_exits (S := fun _ => False) {} lines).of k hs) id
    | raise e => rw [hs] at h; cases h
  · rintro ⟨hi, s, hs⟩
    unfold fromList
    rw [hs, Res.ok_bind, (scan_iter_none hs).2 hi]

/-- **C148**, the class: by path and by handler. -/
theorem C148_class (text : Str) : (init (some (some text)) none = fromList (readlines text)) ∧ (∀ p, init p (some text) = fromList (readlines text)) :=
  ⟨rfl, fun _ => rfl⟩

/-! ### the hypotheses are met -/

/-- A text without iterations, with a complete table of elastic moduli and one of moments. -/
def exampleTables : Str :=
  c!" TOTAL ELASTIC MODULI (kBar)\n Direction\n ---\n XX 8\n YY 9\n ZZ 8\n XY 5\n YZ 6\n ZX 7\n magnetization (x)\n\n # of ion  s  p  d  tot\n -----\n  1  1 2 3 6\n tot 1 2 3 6\n"

-- All its lines are readable, so it is refused with 600; one line less, and it is not.
example : AllReadable (readlines exampleTables) ∧ fromList (readlines exampleTables) = .exit 600 ∧
    ¬ AllReadable ((readlines exampleTables).take 14) := by
  have h : fromList (readlines exampleTables) = .exit 600 := by decide +kernel
  have h' : fromList ((readlines exampleTables).take 14) = .raise .indexError := by decide +kernel
  refine ⟨((C148_refused _).1 h).2, h, fun hr => ?_⟩
  have hi : iters ((readlines exampleTables).take 14) = [] := by decide +kernel
  rw [(C148_refused _).2 ⟨hi, hr⟩] at h'
  cases h'

-- With an iteration line and NELM it is accepted, and its cut is not.
example : (∃ d, fromList (readlines (c!" NELM = 2;\n Iteration 1( 1)\n" ++ exampleTables)) = .ok d) ∧
    AllReadable (readlines (c!" NELM = 2;\n Iteration 1( 1)\n" ++ exampleTables)) := by
  have h : ∃ d, fromList (readlines (c!" NELM = 2;\n Iteration 1( 1)\n" ++ exampleTables)) = .ok d :=
    (match h : fromList (readlines (c!" NELM = 2;\n Iteration 1( 1)\n" ++ exampleTables)) with
    | .ok d => ⟨d, rfl⟩
    | .exit c => absurd (show (fromList (readlines (c!" NELM = 2;\n Iteration 1( 1)\n" ++ exampleTables))).isOk = true by decide +kernel) (by rw [h]; exact Bool.false_ne_true)
    | .raise e => absurd (show (fromList (readlines (c!" NELM = 2;\n Iteration 1( 1)\n" ++ exampleTables))).isOk = true by decide +kernel) (by rw [h]; exact Bool.false_ne_true))
  exact ⟨h, ((C148_accepted _).1 h).2.1⟩

end Verif.Outcar
