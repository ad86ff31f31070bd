import Verif.Props.VasprunDos
import Verif.Props.VasprunFile
/-! # vasprun.xml: total energies (C50) -/
set_option autoImplicit false
namespace Verif.Vasprun
open Verif Verif.Utils Verif.Xml
open Verif.Kpoints (idx toFloat toInt)

/-! ### specification -/

/-- The ionic steps. -/
def calculations (root : Node) : List Node := findAny root (t c!"calculation") []

/-- The energies of one type in the electronic steps of an ionic step. -/
def scEnergies (c : Node) (e : EType) : List Node := findAny c (t c!"scstep") [t c!"energy", tn c!"i" e.key]

/-- The energies of one type behind the electronic steps. -/
def finalEnergies (c : Node) (e : EType) : List Node := findRel c [t c!"energy", tn c!"i" e.key]

/-- Every electronic step of the ionic step prints one number for each of the three energies, and they are printed behind it. -/
def Complete (c : Node) : Prop :=
  ∃ n, 0 < n ∧ ∀ e, (scEnergies c e).length = n ∧ AllPrint 1 (scEnergies c e) ∧ finalEnergies c e ≠ []

/-- The name of an energy in the arguments of `get_energies`. -/
def EType.name : EType → Str
  | .extrapolated => c!"energy_extrapolated"
  | .free => c!"energy_free"
  | .noEntropy => c!"energy_no_entropy"

/-- The ionic steps a status stands for. -/
def chosen (status : Str) (cs : List Node) : List Node :=
  if status = c!"initial" then cs.take 1 else if status = c!"last" then cs.drop (cs.length - 1) else cs

/-- The energies of an ionic step: those of all electronic steps or only that of the last. -/
def Block (nosc : Bool) (e : EType) (c : Node) (b : List Rat) : Prop :=
  if nosc then ∃ n x, (scEnergies c e).getLast? = some n ∧ Prints n [x] ∧ b = [x]
  else List.Forall₂ (fun n x => Prints n [x]) (scEnergies c e) b

/-! ### reading -/

/-- The stored energies of an ionic step are the printed ones. -/
def Rec (c : Node) (en : Energies) : Prop :=
  ∀ e, ∃ xs y, en.sc.get? e = some xs ∧ en.final.get? e = some y ∧ List.Forall₂ (fun n x => Prints n [x]) (scEnergies c e) xs ∧
    FirstNumber (finalEnergies c e) y

/-- Keys counted from `i`. -/
def number {α : Type} : Nat → List α → Dict Nat α
  | _, [] => []
  | i, a :: as => (i, a) :: number (i + 1) as

theorem convert1D_forall {es : List Node} (h : AllPrint 1 es) : ∃ xs, convert1D es = .ok xs ∧ List.Forall₂ (fun n x => Prints n [x]) es xs := by
  obtain ⟨rows, hr⟩ := h.rows
  obtain ⟨xs, h1, h2⟩ := convert1D_rows hr
  refine ⟨xs, h1, ?_⟩
  subst h2
  rw [List.forall₂_map_right_iff] at hr
  exact hr.imp fun _ _ h => h.1

theorem fetchEnergy_ok {c : Node} {e : EType} {r : Option (List Rat × Option Rat)} (h : fetchEnergy c e = .ok r) (hn : scEnergies c e ≠ [])
    (hp : AllPrint 1 (scEnergies c e)) (hf : finalEnergies c e ≠ []) :
    ∃ xs y, r = some (xs, y) ∧ List.Forall₂ (fun n x => Prints n [x]) (scEnergies c e) xs ∧ FirstNumber (finalEnergies c e) y := by
  obtain ⟨xs, h1, h2⟩ := convert1D_forall hp
  unfold fetchEnergy at h
  change (match scEnergies c e with
    | [] => (Res.ok none : Res (Option (List Rat × Option Rat)))
    | sc => convert1D sc >>= fun xs => match finalEnergies c e with
      | [] => .ok none
      | f :: _ => convertF f >>= fun y => .ok (some (xs, y))) = .ok r at h
  generalize scEnergies c e = sc at h hn h1 h2
  cases sc with
  | nil => exact absurd rfl hn
  | cons a as =>
    simp only at h
    rw [h1, Res.ok_bind] at h
    cases hq : finalEnergies c e with
    | nil => exact absurd hq hf
    | cons f fs =>
      rw [hq] at h
      simp only at h
      obtain ⟨y, hy, h⟩ := Res.bind_eq_ok.1 h
      injection h with h
      exact ⟨xs, y, h.symm, h2, fetchF_ok (es := f :: fs) hy⟩

theorem fetchStepEnergies_ok {c : Node} (hc : Complete c) {es : List EType} {r : Option Energies} (h : fetchStepEnergies c es = .ok r) :
    ∃ en, r = some en ∧ ∀ e ∈ es, ∃ xs y, en.sc.get? e = some xs ∧ en.final.get? e = some y ∧
      List.Forall₂ (fun n x => Prints n [x]) (scEnergies c e) xs ∧ FirstNumber (finalEnergies c e) y := by
  induction es generalizing r with
  | nil => injection h with h; exact ⟨{}, h.symm, fun e he => (by cases he)⟩
  | cons e es ih =>
    rw [fetchStepEnergies] at h
    obtain ⟨q, hq, h⟩ := Res.bind_eq_ok.1 h
    obtain ⟨n, hn, hce⟩ := hc
    obtain ⟨g1, g2, g3⟩ := hce e
    obtain ⟨xs, y, rfl, f1, f2⟩ := fetchEnergy_ok hq (by intro h0; rw [h0] at g1; simp at g1; omega) g2 g3
    simp only at h
    obtain ⟨m, hm, h⟩ := Res.bind_eq_ok.1 h
    obtain ⟨en, rfl, hen⟩ := ih hm
    injection h with h
    refine ⟨_, h.symm, fun e' he' => ?_⟩
    by_cases hee : e = e'
    · subst hee
      exact ⟨xs, y, by simp [Dict.get?], by simp [Dict.get?], f1, f2⟩
    · obtain ⟨xs', y', a1, a2, a3⟩ := hen e' ((List.mem_cons.1 he').resolve_left fun h => hee h.symm)
      exact ⟨xs', y', by simp [Dict.get?, hee, a1], by simp [Dict.get?, hee, a2], a3⟩

theorem mem_types (e : EType) : e ∈ [EType.extrapolated, .free, .noEntropy] := by cases e <;> simp

theorem fetchAllEnergies_ok {cs : List Node} (hc : ∀ c ∈ cs, Complete c) {i : Nat} {r : Option (Dict Nat Energies)} (h : fetchAllEnergies i cs = .ok r) :
    ∃ ens, r = some (number i ens) ∧ List.Forall₂ Rec cs ens := by
  induction cs generalizing i r with
  | nil => injection h with h; exact ⟨[], h.symm, .nil⟩
  | cons c cs ih =>
    rw [fetchAllEnergies] at h
    obtain ⟨q, hq, h⟩ := Res.bind_eq_ok.1 h
    obtain ⟨en, rfl, hen⟩ := fetchStepEnergies_ok (hc c (List.mem_cons_self ..)) hq
    simp only at h
    obtain ⟨m, hm, h⟩ := Res.bind_eq_ok.1 h
    obtain ⟨ens, rfl, hens⟩ := ih (fun c h => hc c (List.mem_cons_of_mem _ h)) hm
    injection h with h
    exact ⟨en :: ens, h.symm, .cons (fun e => hen e (mem_types e)) hens⟩

theorem totens_ok {root : Node} {r : Option (Dict Nat Energies)} (h : fetchTotens root = .ok r) (hc : ∀ c ∈ calculations root, Complete c)
    (hne : calculations root ≠ []) : ∃ ens, r = some (number 1 ens) ∧ List.Forall₂ Rec (calculations root) ens := by
  unfold fetchTotens at h
  change (match calculations root with
    | [] => (Res.ok none : Res (Option (Dict Nat Energies)))
    | cs => fetchAllEnergies 1 cs) = .ok r at h
  generalize calculations root = cs at h hc hne
  cases cs with
  | nil => exact absurd rfl hne
  | cons c cs => exact fetchAllEnergies_ok hc h

/-! ### the getter -/

theorem appendStep_ok {c : Node} {en : Energies} (hc : Complete c) (hr : Rec c en) (e : EType) (nosc : Bool) (acc : EnergyColumn) :
    ∃ b y, appendStep e nosc acc en = .ok ⟨acc.sc ++ b, acc.final ++ [y], acc.steps ++ [if nosc then 1 else (scEnergies c e).length]⟩ ∧
      Block nosc e c b ∧ FirstNumber (finalEnergies c e) y := by
  obtain ⟨xs, y, h1, h2, h3, h4⟩ := hr e
  obtain ⟨n, hn, hce⟩ := hc
  have hl := h3.length_eq
  unfold appendStep item
  rw [h1, h2]
  simp only [Res.ok_bind]
  cases nosc with
  | false => exact ⟨xs, y, by simp [hl], h3, h4⟩
  | true =>
    have hn' : 0 < (scEnergies c e).length := by rw [(hce e).1]; exact hn
    have hx : 0 < xs.length := by omega
    have e1 : xs.getLast? = some (xs[xs.length - 1]'(by omega)) := by rw [List.getLast?_eq_getElem?, List.getElem?_eq_getElem]
    have e2 : (scEnergies c e).getLast? = some ((scEnergies c e)[(scEnergies c e).length - 1]'(by omega)) := by
      rw [List.getLast?_eq_getElem?, List.getElem?_eq_getElem]
    refine ⟨[xs[xs.length - 1]], y, ?_, ⟨_, _, e2, ?_, rfl⟩, h4⟩
    · simp only [if_true]; rw [e1]
    · have := h3.get (i := (scEnergies c e).length - 1) (by omega) (by omega)
      simp only [List.get_eq_getElem] at this
      simpa [hl] using this

theorem fold_ok {cs : List Node} {ens : List Energies} (hc : ∀ c ∈ cs, Complete c) (hr : List.Forall₂ Rec cs ens) (e : EType) (nosc : Bool) (i : Nat)
    (acc : EnergyColumn) :
    ∃ bs ys, Res.foldlM' (fun c s => appendStep e nosc c s.2) acc (number i ens) =
        .ok ⟨acc.sc ++ bs.flatten, acc.final ++ ys, acc.steps ++ cs.map fun c => if nosc then 1 else (scEnergies c e).length⟩ ∧
      List.Forall₂ (Block nosc e) cs bs ∧ List.Forall₂ (fun c y => FirstNumber (finalEnergies c e) y) cs ys := by
  induction hr generalizing i acc with
  | nil => exact ⟨[], [], by simp [number, Res.foldlM'], .nil, .nil⟩
  | @cons c en cs ens h _ ih =>
    obtain ⟨b, y, h1, h2, h3⟩ := appendStep_ok (hc c (List.mem_cons_self ..)) h e nosc acc
    obtain ⟨bs, ys, g1, g2, g3⟩ := ih (fun c h => hc c (List.mem_cons_of_mem _ h)) (i + 1) ⟨acc.sc ++ b, acc.final ++ [y],
      acc.steps ++ [if nosc then 1 else (scEnergies c e).length]⟩
    refine ⟨b :: bs, y :: ys, ?_, .cons h2 g2, .cons h3 g3⟩
    rw [number, Res.foldlM']
    simp only [h1]
    rw [g1]
    simp

theorem insertKey_number {α : Type} (i j : Nat) (a : α) (as : List α) (h : i < j) : insertKey (i, a) (number j as) = (i, a) :: number j as := by
  cases as with
  | nil => rfl
  | cons b bs => rw [number, insertKey]; simp only; rw [if_pos (by omega)]

theorem sortedItems_number {α : Type} (i : Nat) (as : List α) : sortedItems (number i as) = number i as := by
  induction as generalizing i with
  | nil => rfl
  | cons a as ih => rw [number, sortedItems, ih, insertKey_number _ _ _ _ (by omega)]

theorem number_get {α : Type} (i k : Nat) (as : List α) : (number i as).get? (i + k) = as[k]? := by
  induction as generalizing i k with
  | nil => rfl
  | cons a as ih =>
    rw [number, Dict.get?]
    cases k with
    | zero => simp
    | succ k =>
      rw [if_neg (by omega)]
      have : i + (k + 1) = (i + 1) + k := by omega
      rw [this, ih]; rfl

theorem number_get_none {α : Type} (i k : Nat) (as : List α) (h : k < i) : (number i as).get? k = none := by
  induction as generalizing i with
  | nil => rfl
  | cons a as ih => rw [number, Dict.get?, if_neg (by omega), ih _ (by omega)]

theorem number_keys {α : Type} (i : Nat) (as : List α) : (number i as).keys = List.range' i as.length := by
  induction as generalizing i with
  | nil => rfl
  | cons a as ih =>
    show i :: (number (i + 1) as).keys = _
    rw [ih]; rfl

theorem foldl_max_range' (i n : Nat) : (List.range' (i + 1) n).foldl max i = i + n := by
  induction n generalizing i with
  | zero => rfl
  | succ n ih =>
    rw [List.range'_succ, List.foldl_cons, Nat.max_eq_right (by omega), ih]; omega

theorem maxKey_number {α : Type} (i : Nat) (a : α) (as : List α) : maxKey (number i (a :: as)) = .ok (i + as.length) := by
  unfold maxKey
  rw [number_keys]
  simp only [List.length_cons, List.range'_succ, foldl_max_range']

theorem energyColumn_ok {cs : List Node} {ens : List Energies} (hc : ∀ c ∈ cs, Complete c) (hr : List.Forall₂ Rec cs ens) (hne : cs ≠ [])
    (status : Str) (hs : status ∈ known) (e : EType) (nosc : Bool) :
    ∃ bs ys, energyColumn (number 1 ens) status nosc e =
        .ok ⟨bs.flatten, ys, (chosen status cs).map fun c => if nosc then 1 else (scEnergies c e).length⟩ ∧
      List.Forall₂ (Block nosc e) (chosen status cs) bs ∧ List.Forall₂ (fun c y => FirstNumber (finalEnergies c e) y) (chosen status cs) ys := by
  unfold energyColumn chosen
  by_cases h1 : status = c!"initial"
  · rw [if_pos h1, if_pos h1]
    cases hr with
    | nil => exact absurd rfl hne
    | @cons c en cs ens h _ =>
      obtain ⟨b, y, g1, g2, g3⟩ := appendStep_ok (hc c (List.mem_cons_self ..)) h e nosc ⟨[], [], []⟩
      unfold item
      have : (number 1 (en :: ens)).get? 1 = some en := number_get 1 0 _
      rw [this]
      simp only [Res.ok_bind]
      rw [g1]
      exact ⟨[b], [y], by simp, .cons g2 .nil, .cons g3 .nil⟩
  · rw [if_neg h1, if_neg h1]
    by_cases h2 : status = c!"last"
    · rw [if_pos h2, if_pos h2]
      have hlen := hr.length_eq
      have hpos : 0 < cs.length := List.length_pos_iff.2 hne
      obtain ⟨en0, ens0, rfl⟩ := List.exists_cons_of_length_pos (l := ens) (by omega)
      rw [maxKey_number, Res.ok_bind]
      have hlt : ens0.length < (en0 :: ens0).length := by simp
      unfold item
      rw [number_get 1 ens0.length, List.getElem?_eq_getElem hlt]
      simp only [Res.ok_bind]
      have hlt' : ens0.length < cs.length := by rw [hlen]; exact hlt
      have hg := hr.get hlt' hlt
      obtain ⟨b, y, g1, g2, g3⟩ := appendStep_ok (hc _ (List.getElem_mem hlt')) hg e nosc ⟨[], [], []⟩
      have hd : cs.drop (cs.length - 1) = [cs[ens0.length]] := by
        have e1 : cs.length - 1 = ens0.length := by rw [hlen]; simp
        rw [e1, List.drop_eq_getElem_cons hlt']
        have : cs.drop (ens0.length + 1) = [] := List.drop_eq_nil_of_le (by rw [hlen]; simp)
        rw [this]
      rw [hd]
      simp only [List.get_eq_getElem] at g1
      rw [g1]
      exact ⟨[b], [y], by simp, .cons g2 .nil, .cons g3 .nil⟩
    · rw [if_neg h2, if_neg h2]
      have h3 : status = c!"all" := by simp only [known, List.mem_cons, List.not_mem_nil, or_false] at hs; tauto
      rw [if_pos h3, sortedItems_number]
      obtain ⟨bs, ys, g1, g2, g3⟩ := fold_ok hc hr e nosc 1 ⟨[], [], []⟩
      rw [g1]
      exact ⟨bs, ys, by simp, g2, g3⟩

/-- What is promised about one type of energy. -/
def ColumnOk (cs : List Node) (nosc : Bool) (e : EType) (p : List Rat × List (Option Rat)) : Prop :=
  ∃ blocks, p.1 = blocks.flatten ∧ List.Forall₂ (Block nosc e) cs blocks ∧ List.Forall₂ (fun c y => FirstNumber (finalEnergies c e) y) cs p.2

theorem energyTable_ok {cs : List Node} {ens : List Energies} (hc : ∀ c ∈ cs, Complete c) (hr : List.Forall₂ Rec cs ens) (hne : cs ≠ [])
    (status : Str) (hs : status ∈ known) (nosc : Bool) (es : List EType) (acc : Dict EType (List Rat × List (Option Rat))) (st : Option (List Nat))
    (hst : es ≠ [] ∨ st = some ((chosen status cs).map fun c => if nosc then 1 else (scEnergies c .free).length)) :
    ∃ tab, energyTable (number 1 ens) status nosc es acc st = .ok tab ∧
      tab.electronicSteps = ((chosen status cs).map fun c => if nosc then 1 else (scEnergies c .free).length) ∧
      (∀ e ∈ es, ∃ p, tab.columns.get? e = some p ∧ ColumnOk (chosen status cs) nosc e p) ∧ ∀ e, e ∉ es → tab.columns.get? e = acc.get? e := by
  induction es generalizing acc st with
  | nil =>
    rcases hst with hst | rfl
    · exact absurd rfl hst
    · exact ⟨_, rfl, rfl, fun e he => (by cases he), fun e _ => rfl⟩
  | cons e es ih =>
    obtain ⟨bs, ys, g1, g2, g3⟩ := energyColumn_ok hc hr hne status hs e nosc
    have hsteps : ((chosen status cs).map fun c => if nosc then 1 else (scEnergies c e).length) =
        (chosen status cs).map fun c => if nosc then 1 else (scEnergies c .free).length := by
      refine List.map_congr_left fun c hcc => ?_
      have hmem : c ∈ cs := by
        unfold chosen at hcc
        split at hcc
        · exact List.mem_of_mem_take hcc
        · split at hcc
          · exact List.mem_of_mem_drop hcc
          · exact hcc
      obtain ⟨n, _, hn⟩ := hc c hmem
      rw [(hn e).1, (hn .free).1]
    rw [energyTable, g1, Res.ok_bind]
    simp only
    obtain ⟨tab, h1, h2, h3, h4⟩ := ih (acc.set e (bs.flatten, ys)) (some ((chosen status cs).map fun c => if nosc then 1 else (scEnergies c e).length))
      (.inr (by rw [hsteps]))
    refine ⟨tab, h1, h2, fun e' he' => ?_, fun e' he' => ?_⟩
    · by_cases hin : e' ∈ es
      · exact h3 e' hin
      · have : e' = e := (List.mem_cons.1 he').resolve_right hin
        subst this
        exact ⟨_, by rw [h4 e' hin, Dict.get?_set, if_pos rfl], bs, rfl, g2, g3⟩
    · simp only [List.mem_cons, not_or] at he'
      rw [h4 e' he'.2, Dict.get?_set, if_neg fun h => he'.1 h.symm]

theorem types_ok (types : List EType) : Res.mapM' eTypeOf (types.map EType.name) = .ok types := by
  have := Res.mapM'_ok_of_forall (f := fun e : EType => eTypeOf e.name) (g := fun e => e) types fun e _ => by cases e <;> decide
  rw [List.map_id'] at this
  rw [← this]
  clear this
  induction types with
  | nil => rfl
  | cons e es ih => rw [List.map_cons, Res.mapM', Res.mapM', ih]

/-- **C50**, for any number of ionic and electronic steps and any choice of energies: in an accepted document whose ionic steps are complete,
`get_energies` returns for each type wanted the concatenation of the energies of the chosen ionic steps (or of only the last of
each), the energies behind the electronic steps, and the numbers of electronic steps. -/
theorem C50_energies (root : Node) (kbb all : Bool) (d : Data) (h : parsew root kbb all = .ok d) (hc : ∀ c ∈ calculations root, Complete c)
    (hne : calculations root ≠ []) (status : Str) (hs : status ∈ [c!"initial", c!"last", c!"all"]) (types : List EType) (ht : types ≠ []) (nosc : Bool) :
    ∃ tab, getEnergies d.totens status (some (types.map EType.name)) nosc = .ok (some tab) ∧
      tab.electronicSteps = ((chosen status (calculations root)).map fun c => if nosc then 1 else (scEnergies c .free).length) ∧
      (∀ e ∈ types, ∃ p, tab.columns.get? e = some p ∧ ColumnOk (chosen status (calculations root)) nosc e p) ∧
      ∀ e, e ∉ types → tab.columns.get? e = none := by
  obtain ⟨ens, hens, hr⟩ := totens_ok (parts h).totens hc hne
  obtain ⟨tab, h1, h2, h3, h4⟩ := energyTable_ok hc hr hne status hs nosc types [] none (.inl ht)
  refine ⟨tab, ?_, h2, h3, h4⟩
  unfold getEnergies
  simp only [Option.getD_some]
  rw [types_ok, Res.ok_bind, hens]
  simp only
  have : checkStatus status = .ok () := if_pos hs
  rw [this, Res.ok_bind, h1, Res.ok_bind]

/-- The default is the extrapolated energy. -/
theorem C50_default (totens : Option (Dict Nat Energies)) (status : Str) (nosc : Bool) :
    getEnergies totens status none nosc = getEnergies totens status (some [EType.extrapolated.name]) nosc := rfl

theorem block_length {nosc : Bool} {e : EType} {c : Node} {b : List Rat} (h : Block nosc e c b) : b.length = if nosc then 1 else (scEnergies c e).length := by
  unfold Block at h
  cases nosc with
  | true =>
    simp only [if_true] at h ⊢
    obtain ⟨_, x, _, _, rfl⟩ := h; rfl
  | false => simp only [Bool.false_eq_true, if_false] at h ⊢; exact h.length_eq.symm

/-- C50: the numbers of electronic steps sum to the length of each array. -/
theorem C50_sum (root : Node) (kbb all : Bool) (d : Data) (h : parsew root kbb all = .ok d) (hc : ∀ c ∈ calculations root, Complete c)
    (hne : calculations root ≠ []) (status : Str) (hs : status ∈ [c!"initial", c!"last", c!"all"]) (types : List EType) (nosc : Bool)
    (tab : EnergyTable) (hg : getEnergies d.totens status (some (types.map EType.name)) nosc = .ok (some tab)) (e : EType) (he : e ∈ types)
    (p : List Rat × List (Option Rat)) (hp : tab.columns.get? e = some p) :
    tab.electronicSteps.sum = p.1.length ∧ tab.electronicSteps.length = p.2.length ∧ p.2.length = (chosen status (calculations root)).length := by
  obtain ⟨tab', h1, h2, h3, _⟩ := C50_energies root kbb all d h hc hne status hs types (by intro e0; rw [e0] at he; cases he) nosc
  rw [hg] at h1; injection h1 with h1; injection h1 with h1; subst h1
  obtain ⟨p', hp', bs, g1, g2, g3⟩ := h3 e he
  rw [hp] at hp'; injection hp' with hp'; subst hp'
  refine ⟨?_, by rw [h2, List.length_map, g3.length_eq], g3.length_eq.symm⟩
  rw [h2, g1, List.length_flatten]
  have hcs : ∀ c ∈ chosen status (calculations root), Complete c := by
    intro c hcc
    refine hc c ?_
    unfold chosen at hcc
    split at hcc
    · exact List.mem_of_mem_take hcc
    · split at hcc
      · exact List.mem_of_mem_drop hcc
      · exact hcc
  clear h2 g1 g3 hg
  generalize chosen status (calculations root) = cs at g2 hcs
  congr 1
  induction g2 with
  | nil => rfl
  | @cons c b cs bs hb _ ih =>
    rw [List.map_cons, List.map_cons, ih fun c h => hcs c (List.mem_cons_of_mem _ h), block_length hb]
    obtain ⟨n, _, hn⟩ := hcs c (List.mem_cons_self ..)
    rw [(hn e).1, (hn .free).1]

/-! ### examples -/

/-- The three energies. -/
def energyBox (a b c : Str) : Node := box c!"energy" [item' c!"i" c!"e_fr_energy" a, item' c!"i" c!"e_wo_entrp" b, item' c!"i" c!"e_0_energy" c]

/-- Two ionic steps, with two electronic steps and one. -/
def energyDoc : Node := box c!"modeling" [
  box c!"calculation" [box c!"scstep" [energyBox c!" 1.0 " c!" 2.0 " c!" 3.0 "], box c!"scstep" [energyBox c!" 1.5 " c!" 2.5 " c!" 3.5 "],
    energyBox c!" 1.25 " c!" 2.25 " c!" 3.25 "],
  box c!"calculation" [box c!"scstep" [energyBox c!" 4.0 " c!" 5.0 " c!" 6.0 "], energyBox c!" 4.5 " c!" 5.5 " c!" 6.5 "]]

example : ∃ d, parsew energyDoc false true = .ok d ∧
    getEnergies d.totens c!"all" (some [c!"energy_free", c!"energy_extrapolated"]) false =
      .ok (some ⟨[(.free, ([1, 3/2, 4], [some (5/4), some (9/2)])), (.extrapolated, ([3, 7/2, 6], [some (13/4), some (13/2)]))], [2, 1]⟩) ∧
    getEnergies d.totens c!"last" none true = .ok (some ⟨[(.extrapolated, ([6], [some (13/2)]))], [1]⟩) ∧
    (calculations energyDoc).map (fun c => (scEnergies c .noEntropy).length) = [2, 1] :=
  ⟨_, rfl, by decide +kernel, by decide +kernel, by decide +kernel⟩

/-- Its ionic steps are complete. -/
example : calculations energyDoc ≠ [] ∧ ∀ c ∈ calculations energyDoc, Complete c := by
  refine ⟨by decide +kernel, ?_⟩
  have h : (calculations energyDoc).all (fun c => (scEnergies c .free).length ≠ 0 && [EType.extrapolated, .free, .noEntropy].all fun e =>
      decide ((scEnergies c e).length = (scEnergies c .free).length) && numbers 1 (scEnergies c e) && !(finalEnergies c e).isEmpty) = true := by decide +kernel
  intro c hc
  have := List.all_eq_true.1 h c hc
  simp only [Bool.and_eq_true, List.all_eq_true, decide_eq_true_eq] at this
  refine ⟨(scEnergies c .free).length, List.length_pos_iff.2 (by simpa using this.1), fun e => ?_⟩
  obtain ⟨⟨g1, g2⟩, g3⟩ := this.2 e (mem_types e)
  exact ⟨g1, allPrint_of g2, by simpa using g3⟩

/-- C50 fails without completeness: if the last electronic step lacks one of the energies, `electronic_steps`, taken from the last type,
does not fit the array of the other. -/
theorem C50_violation_incomplete : ∃ d, parsew (box c!"modeling" [box c!"calculation" [box c!"scstep" [energyBox c!" 1.0 " c!" 2.0 " c!" 3.0 "],
      box c!"scstep" [box c!"energy" [item' c!"i" c!"e_fr_energy" c!" 1.5 "]], energyBox c!" 1.25 " c!" 2.25 " c!" 3.25 "]]) false true = .ok d ∧
    getEnergies d.totens c!"all" (some [c!"energy_free", c!"energy_extrapolated"]) false =
      .ok (some ⟨[(.free, ([1, 3/2], [some (5/4)])), (.extrapolated, ([3], [some (13/4)]))], [1]⟩) := ⟨_, rfl, by decide +kernel⟩

/-- If a type is missing in one ionic step no energies are kept, also not those of the other steps. -/
theorem C50_missing (root : Node) (c : Node) (cs cs' : List Node) (hcs : calculations root = cs ++ c :: cs') (e : EType)
    (hm : scEnergies c e = []) (r : Option (Dict Nat Energies)) (h : fetchTotens root = .ok r) : r = none := by
  unfold fetchTotens at h
  change (match calculations root with
    | [] => (Res.ok none : Res (Option (Dict Nat Energies)))
    | cs => fetchAllEnergies 1 cs) = .ok r at h
  rw [hcs] at h
  have hstep : ∀ (es : List EType) (q : Option Energies), e ∈ es → fetchStepEnergies c es = .ok q → q = none := by
    intro es
    induction es with
    | nil => intro q he; cases he
    | cons a as ih =>
      intro q he hq
      rw [fetchStepEnergies] at hq
      obtain ⟨x, hx, hq⟩ := Res.bind_eq_ok.1 hq
      cases x with
      | none => injection hq with hq; exact hq.symm
      | some x =>
        rcases List.mem_cons.1 he with rfl | he
        · unfold fetchEnergy at hx
          change (match scEnergies c e with
            | [] => (Res.ok none : Res (Option (List Rat × Option Rat)))
            | sc => convert1D sc >>= fun xs => match finalEnergies c e with
              | [] => .ok none
              | f :: _ => convertF f >>= fun y => .ok (some (xs, y))) = .ok (some x) at hx
          rw [hm] at hx; cases hx
        · simp only at hq
          obtain ⟨m, hm', hq⟩ := Res.bind_eq_ok.1 hq
          rw [ih m he hm'] at hq
          injection hq with hq; exact hq.symm
  have hall : ∀ (cs : List Node) (i : Nat) (r : Option (Dict Nat Energies)), fetchAllEnergies i (cs ++ c :: cs') = .ok r →
      r = none := by
    intro cs
    induction cs with
    | nil =>
      intro i r h
      rw [List.nil_append, fetchAllEnergies] at h
      obtain ⟨q, hq, h⟩ := Res.bind_eq_ok.1 h
      rw [hstep _ q (mem_types e) hq] at h
      injection h with h; exact h.symm
    | cons a as ih =>
      intro i r h
      rw [List.cons_append, fetchAllEnergies] at h
      obtain ⟨q, hq, h⟩ := Res.bind_eq_ok.1 h
      cases q with
      | none => injection h with h; exact h.symm
      | some en =>
        simp only at h
        obtain ⟨m, hm', h⟩ := Res.bind_eq_ok.1 h
        rw [ih (i + 1) m hm'] at h
        injection h with h; exact h.symm
  cases cs with
  | nil => exact hall [] 1 r h
  | cons a as => exact hall (a :: as) 1 r h

end Verif.Vasprun
