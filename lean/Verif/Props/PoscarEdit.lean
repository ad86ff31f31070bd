import Verif.Props.PoscarRound
/-! # POSCAR: dictionaries, edits, constructor arguments (C09, C16, C18, C19, C27, C62, C63) -/
set_option autoImplicit false
namespace Verif.Poscar
open Verif Verif.Utils Verif.Lattice
open Verif.Kpoints (idx toFloat toInt pyIndex)

/-! ### C16: `get_dict` in both coordinate systems -/

/-- Two dictionary sites, one in direct and one in cartesian coordinates, are the same site in cell `c`. -/
structure SameDict (c : Cell) (d k : SiteDict) : Prop where
  specie : k.specie = d.specie
  selective : k.selective = d.selective
  predictors : k.predictors = d.predictors
  flags : d.direct = true ∧ k.direct = false
  position : k.position = dirToCart d.position c ∧ cartToDir k.position c = some d.position
  velocities : match d.velocities, k.velocities with
    | some v, some w => w = dirToCart v c ∧ cartToDir w c = some v
    | Option.none, Option.none => True
    | _, _ => False

theorem getDict_get? {e d : Entries} {direct : Bool} {c : Option Cell} (h : Res.mapM' (entryToDict direct c) e = .ok d) (k : Str) :
    (k ≠ c!"sites" → d.get? k = e.get? k) ∧
    ∀ l, e.get? c!"sites" = some (.sites l) → ∃ l', Res.mapM' (siteToDict direct c) l = .ok l' ∧ d.get? c!"sites" = some (.sites l') := by
  induction e generalizing d with
  | nil => cases h; exact ⟨fun _ => rfl, fun l hl => by cases hl⟩
  | cons kv r ih =>
    obtain ⟨k', v⟩ := kv
    rw [Res.mapM'_eq_ok] at h
    cases h with
    | cons h1 h2 =>
      rename_i y ds
      have hr := ih (Res.mapM'_eq_ok.2 h2)
      unfold entryToDict at h1
      dsimp only at h1
      split at h1
      · rename_i hk'
        subst hk'
        cases v with
        | sites l0 =>
          dsimp only at h1
          rw [Res.bind_eq_ok] at h1
          obtain ⟨l', hl', hy⟩ := h1
          cases hy
          constructor
          · intro hk
            simp only [Dict.get?, if_neg (Ne.symm hk)]
            exact hr.1 hk
          · intro l hl
            simp only [Dict.get?, if_true] at hl
            cases hl
            exact ⟨l', hl', by simp [Dict.get?]⟩
        | _ => cases h1
      · rename_i hk'
        cases h1
        constructor
        · intro hk
          simp only [Dict.get?]
          split
          · rfl
          · exact hr.1 hk
        · intro l hl
          simp only [Dict.get?, if_neg hk'] at hl ⊢
          exact hr.2 l hl

/-- The entry of the unit cell. -/
theorem Holds.cellOf {e : Entries} {cm : Option Str} {c : Cell} {sites : List Site} (h : Holds e cm c sites) : cellOf e = some c := by
  unfold Poscar.cellOf; rw [h.cell]

/-- A site as a dictionary in direct coordinates. -/
def asDirect (s : Site) : SiteDict := ⟨capitalize s.getSpecie, s.position, s.selective, s.velocities, s.predictors, s.direct⟩
/-- A site as a dictionary in cartesian coordinates. -/
def asCart (c : Cell) (s : Site) : SiteDict :=
  ⟨capitalize s.getSpecie, dirToCart s.position c, s.selective, s.velocities.map fun v => dirToCart v c, s.predictors, false⟩

theorem siteToDict_eq (direct : Bool) (c : Cell) (s : Site) :
    siteToDict direct (some c) (.site s) = .ok (.dict (if direct then asDirect s else asCart c s)) := by
  unfold siteToDict asDirect asCart toCart
  cases direct
  · simp only [Bool.false_eq_true, if_false, Res.ok_bind]
    cases s.velocities <;> rfl
  · rfl

theorem getDict_ok {e : Entries} {cm : Option Str} {c : Cell} {sites : List Site} (h : Holds e cm c sites) (hn : e.keys.Nodup) (direct : Bool) :
    ∃ d, getDict e direct = .ok d ∧ (∀ k, k ≠ c!"sites" → d.get? k = e.get? k) ∧
      d.get? c!"sites" = some (.sites (sites.map fun s => .dict (if direct then asDirect s else asCart c s))) := by
  have hs : Res.mapM' (siteToDict direct (some c)) (sites.map .site) = .ok (sites.map fun s => .dict (if direct then asDirect s else asCart c s)) := by
    rw [Res.mapM'_eq_ok, List.forall₂_map_left_iff, List.forall₂_map_right_iff]
    apply List.forall₂_same.2
    intro s _
    exact siteToDict_eq direct c s
  have hok : ∃ d, getDict e direct = .ok d := by
    unfold getDict
    rw [h.cellOf]
    refine ⟨_, Res.mapM'_ok_of_forall (g := fun kv => if kv.1 = c!"sites" then
      (kv.1, .sites (sites.map fun s => .dict (if direct then asDirect s else asCart c s))) else kv) e ?_⟩
    rintro ⟨k, v⟩ hm
    unfold entryToDict
    dsimp only
    split
    · rename_i hk
      subst hk
      have := Dict.get?_eq_some_of_mem e hn hm
      rw [h.stored] at this
      cases this
      dsimp only
      rw [hs]; rfl
    · rfl
  obtain ⟨d, hd⟩ := hok
  refine ⟨d, hd, ?_, ?_⟩
  · intro k hk
    unfold getDict at hd
    exact (getDict_get? hd k).1 hk
  · unfold getDict at hd
    rw [h.cellOf] at hd
    obtain ⟨l', hl', hl''⟩ := (getDict_get? hd []).2 _ h.stored
    rw [hs] at hl'
    cases hl'
    exact hl''

/-- C16: `get_dict(direct=False)` describes the same structure as `get_dict()`: the same comment, cell and any other entry, and site
by site the same species, flags and predictors, with positions and velocities that are the images of each other under the two
coordinate conversions. -/
theorem C16_get_dict (e : Entries) (cm : Option Str) (c : Cell) (sites : List Site) (h : Holds e cm c sites) (hn : e.keys.Nodup)
    (hc : c.toMatrix.det ≠ 0) :
    ∃ d k ds ks, getDict e true = .ok d ∧ getDict e false = .ok k ∧ (∀ x, x ≠ c!"sites" → d.get? x = e.get? x ∧ k.get? x = e.get? x) ∧
      d.get? c!"sites" = some (.sites (ds.map .dict)) ∧ k.get? c!"sites" = some (.sites (ks.map .dict)) ∧
      ds.length = sites.length ∧ List.Forall₂ (SameDict c) ds ks := by
  obtain ⟨d, hd, hd1, hd2⟩ := getDict_ok h hn true
  obtain ⟨k, hk, hk1, hk2⟩ := getDict_ok h hn false
  refine ⟨d, k, sites.map asDirect, sites.map (asCart c), hd, hk, fun x hx => ⟨hd1 x hx, hk1 x hx⟩, ?_, ?_, by simp, ?_⟩
  · rw [hd2, List.map_map]; rfl
  · rw [hk2, List.map_map]; rfl
  · rw [List.forall₂_map_left_iff, List.forall₂_map_right_iff]
    apply List.forall₂_same.2
    intro s hs
    have hinv := (C16_inverse c).1 hc
    refine ⟨rfl, rfl, rfl, ⟨h.direct s hs, rfl⟩, ⟨rfl, (hinv _).1⟩, ?_⟩
    unfold asDirect asCart
    cases s.velocities with
    | none => trivial
    | some v => exact ⟨rfl, (hinv v).1⟩

example : Holds fullEntries (some c!"Rust") ⟨⟨2, 0, 1/3⟩, ⟨0, 3, 0⟩, ⟨0, 1, 4⟩⟩ fullSites ∧ fullEntries.keys.Nodup ∧
    (⟨⟨2, 0, 1/3⟩, ⟨0, 3, 0⟩, ⟨0, 1, 4⟩⟩ : Cell).toMatrix.det ≠ 0 := by
  refine ⟨⟨rfl, rfl, rfl, by decide +kernel⟩, by decide +kernel, ?_⟩
  rw [det_toMatrix]; decide +kernel

theorem forall₂_right {α β} {R : α → β → Prop} {l : List α} {m : List β} (h : List.Forall₂ R l m) {b : β} (hb : b ∈ m) :
    ∃ a ∈ l, R a b := by
  induction h with
  | nil => cases hb
  | cons h1 _ ih =>
    rcases List.mem_cons.1 hb with rfl | hb
    · exact ⟨_, by simp, h1⟩
    · obtain ⟨a, ha, hr⟩ := ih hb
      exact ⟨a, by simp [ha], hr⟩

/-! ### C62: cartesian `Site` objects -/

/-- A cartesian site and the direct site made from it: the same site in cell `c`. -/
structure Converted (c : Cell) (s s' : Site) : Prop where
  specie : s'.specie = s.specie
  selective : s'.selective = s.selective
  predictors : s'.predictors = s.predictors
  direct : s'.direct = true
  position : if s.direct then s'.position = s.position else dirToCart s'.position c = s.position
  velocities : match s.velocities, s'.velocities with
    | some v, some w => if s.direct then w = v else dirToCart w c = v
    | Option.none, Option.none => True
    | _, _ => False

theorem toDirect_ok {c : Cell} (hc : c.toMatrix.det ≠ 0) (v : Vec) : ∃ w, toDirect v (some c) = .ok w ∧ dirToCart w c = v := by
  obtain ⟨w, hw, hw'⟩ := ((C16_inverse c).1 hc v).2
  exact ⟨w, by unfold toDirect; simp only [hw], hw'.1⟩

theorem convertElem_ok {c : Cell} (hc : c.toMatrix.det ≠ 0) (s : Site) :
    ∃ s', convertElem (some c) (.site s) = .ok (.site s') ∧ Converted c s s' := by
  cases hd : s.direct with
  | true =>
    refine ⟨s, by unfold convertElem; simp only [hd, if_true], rfl, rfl, rfl, hd, by rw [hd]; rfl, ?_⟩
    cases s.velocities <;> simp [hd]
  | false =>
    obtain ⟨p, hp, hp'⟩ := toDirect_ok hc s.position
    cases hv : s.velocities with
    | none =>
      refine ⟨{ s with position := p, direct := true }, ?_, rfl, rfl, rfl, rfl, ?_, ?_⟩
      · unfold convertElem; simp only [hd, Bool.false_eq_true, if_false, hp, Res.ok_bind, hv]
      · rw [hd]; exact hp'
      · simp only [hv]
    | some v =>
      obtain ⟨w, hw, hw'⟩ := toDirect_ok hc v
      refine ⟨{ s with position := p, velocities := some w, direct := true }, ?_, rfl, rfl, rfl, rfl, ?_, ?_⟩
      · unfold convertElem; simp only [hd, Bool.false_eq_true, if_false, hp, Res.ok_bind, hv, hw]
      · rw [hd]; exact hp'
      · simp only [hv, hd]; exact hw'

/-- C62: a dictionary with `Site` objects in direct or cartesian coordinates is accepted, and the object holds the same comment and
cell and the same sites in direct coordinates. -/
theorem C62_site_objects (e : Entries) (cm : Option Str) (c : Cell) (sites : List Site) (h1 : e.get? c!"comment" = some (commentVal cm))
    (h2 : e.get? c!"unitcell" = some (.cell (some c))) (h3 : e.get? c!"sites" = some (.sites (sites.map .site)))
    (hc : c.toMatrix.det ≠ 0) :
    ∃ e' sites', init { dict := some e } = .ok e' ∧ Holds e' cm c sites' ∧ List.Forall₂ (Converted c) sites sites' := by
  have hm : ∃ sites' : List Site, Res.mapM' (convertElem (some c)) (sites.map .site) = .ok (sites'.map .site) ∧ List.Forall₂ (Converted c) sites sites' := by
    clear h3
    induction sites with
    | nil => exact ⟨[], rfl, .nil⟩
    | cons s ss ih =>
      obtain ⟨ss', hss, hf⟩ := ih
      obtain ⟨s', hs, hs'⟩ := convertElem_ok hc s
      exact ⟨s' :: ss', by simp only [List.map_cons, Res.mapM', hs, hss], .cons hs' hf⟩
  obtain ⟨sites', hm, hf⟩ := hm
  have hcell : cellOf e = some c := by unfold cellOf; rw [h2]
  have hh : Holds (e.set c!"sites" (.sites (sites'.map .site))) cm c sites' := by
    refine ⟨?_, ?_, ?_, ?_⟩
    · rw [Dict.get?_set, if_neg (by decide)]; exact h1
    · rw [Dict.get?_set, if_neg (by decide)]; exact h2
    · rw [Dict.get?_set, if_pos rfl]
    · intro s hs
      obtain ⟨t, _, ht⟩ := forall₂_right hf hs
      exact ht.direct
  refine ⟨_, sites', ?_, hh, hf⟩
  unfold init load
  simp only [guards, Option.isSome_none, Option.isSome_some, Bool.and_false, Bool.and_true, Bool.or_false, Bool.not_false, Bool.not_true,
    Bool.false_eq_true, if_false, Res.ok_bind]
  unfold fromDict lookup
  rw [h3]
  simp only [Res.ok_bind, hcell, hm]
  rw [validate_holds hh, Res.ok_bind]

/-- Non-vacuity: one cartesian site with velocities in a skew cell. -/
example : ∃ e' s', init { dict := some [(c!"comment", .none), (c!"unitcell", .cell (some ⟨⟨2, 0, 1/3⟩, ⟨0, 3, 0⟩, ⟨0, 1, 4⟩⟩)),
      (c!"sites", .sites [.site ⟨c!"fe", ⟨2, 3, 1/3⟩, (true, false, true), some ⟨0, 4, 4⟩, Option.none, false⟩])] } = .ok e' ∧
    e'.get? c!"sites" = some (.sites [.site s']) ∧ s'.position = ⟨1, 1, 0⟩ ∧ s'.velocities = some ⟨0, 1, 1⟩ :=
  ⟨[(c!"comment", .none), (c!"unitcell", .cell (some ⟨⟨2, 0, 1/3⟩, ⟨0, 3, 0⟩, ⟨0, 1, 4⟩⟩)),
      (c!"sites", .sites [.site ⟨c!"fe", ⟨1, 1, 0⟩, (true, false, true), some ⟨0, 1, 1⟩, Option.none, true⟩])],
    ⟨c!"fe", ⟨1, 1, 0⟩, (true, false, true), some ⟨0, 1, 1⟩, Option.none, true⟩, by decide +kernel, by decide +kernel, rfl, rfl⟩

/-! ### C19: dictionary round trip -/

/-- C19 is false, for every structure with at least one site and both coordinate systems: `Poscar(poscar_dict=p.get_dict(direct))` is
accepted, but the object cannot be written (`AttributeError`), because its sites are still dictionaries. -/
theorem C19_violation (prec : Nat) (conserve direct direct' : Bool) (e : Entries) (cm : Option Str) (c : Cell) (sites : List Site)
    (h : Holds e cm c sites) (hn : e.keys.Nodup) (hc : c.toMatrix.det ≠ 0) (hne : sites ≠ []) :
    ∃ d e', getDict e direct = .ok d ∧ init { dict := some d } = .ok e' ∧ write prec conserve direct' e' = .raise .attributeError := by
  obtain ⟨d, hd, hd1, hd2⟩ := getDict_ok h hn direct
  have hcell : cellOf d = some c := by unfold cellOf; rw [hd1 _ (by decide), h.cell]
  generalize hl : (sites.map fun s => Elem.dict (if direct then asDirect s else asCart c s)) = l at hd2
  have hm : Res.mapM' (convertElem (cellOf d)) l = .ok l := by
    rw [hcell, ← hl, Res.mapM'_eq_ok]
    apply List.forall₂_same.2
    intro x hx
    obtain ⟨s, hs, rfl⟩ := List.mem_map.1 hx
    cases direct with
    | true =>
      unfold convertElem asDirect
      simp only [if_true, h.direct s hs]
    | false =>
      obtain ⟨p, hp, _⟩ := toDirect_ok hc (dirToCart s.position c)
      unfold convertElem asCart
      simp only [Bool.false_eq_true, if_false, hp, Res.ok_bind]
      cases s.velocities with
      | none => rfl
      | some v =>
        obtain ⟨w, hw, _⟩ := toDirect_ok hc (dirToCart v c)
        simp only [Option.map_some, hw, Res.ok_bind]
  have hg : ∀ k v, k ≠ c!"sites" → e.get? k = some v → (d.set c!"sites" (.sites l)).get? k = some v := by
    intro k v hk hv
    rw [Dict.get?_set, if_neg (Ne.symm hk), hd1 k hk, hv]
  have g1 := hg _ _ (by decide) h.comment
  have g2 := hg _ _ (by decide) h.cell
  have g3 : (d.set c!"sites" (.sites l)).get? c!"sites" = some (.sites l) := by rw [Dict.get?_set, if_pos rfl]
  have hval : validate (d.set c!"sites" (.sites l)) = .ok () := by
    unfold validate checkComment checkCell checkSites argOr lookup
    simp only [if_true, g1, g2, g3, Res.ok_bind]
    cases cm with
    | none => simp [commentVal]
    | some s => simp [commentVal]
  refine ⟨d, d.set c!"sites" (.sites l), hd, ?_, ?_⟩
  · unfold init load
    simp only [guards, Option.isSome_none, Option.isSome_some, Bool.and_false, Bool.and_true, Bool.or_false, Bool.not_false, Bool.not_true,
      Bool.false_eq_true, if_false, Res.ok_bind]
    unfold fromDict lookup
    rw [hd2]
    simp only [Res.ok_bind, hm, hval]
  · unfold write
    rw [hval, Res.ok_bind]
    unfold sortAndGroup lookup
    simp only [g1, g2, g3, Res.ok_bind]
    obtain ⟨s, ss, rfl⟩ := List.exists_cons_of_ne_nil hne
    rw [← hl]
    rfl

/-- C19, proved part: the object made from `get_dict()` holds the same comment and cell, and its sites are, in order, the
dictionaries of the original sites (same species, coordinates, flags, velocities and predictors). Missing: that it can be written
(`C19_violation`). -/
theorem C19_accepted_partial (e : Entries) (cm : Option Str) (c : Cell) (sites : List Site) (h : Holds e cm c sites) (hn : e.keys.Nodup) :
    ∃ d e' ds, getDict e true = .ok d ∧ init { dict := some d } = .ok e' ∧ (∀ k, k ≠ c!"sites" → e'.get? k = e.get? k) ∧
      e'.get? c!"sites" = some (.sites (ds.map .dict)) ∧
      List.Forall₂ (fun (s : Site) (x : SiteDict) => x.specie = s.getSpecie ∧ x.position = s.position ∧ x.selective = s.selective ∧
        x.velocities = s.velocities ∧ x.predictors = s.predictors ∧ x.direct = true) sites ds := by
  obtain ⟨d, hd, hd1, hd2⟩ := getDict_ok h hn true
  simp only [if_true] at hd2
  have hm : Res.mapM' (convertElem (cellOf d)) (sites.map fun s => .dict (asDirect s)) = .ok (sites.map fun s => .dict (asDirect s)) := by
    rw [Res.mapM'_eq_ok]
    apply List.forall₂_same.2
    intro x hx
    obtain ⟨s, hs, rfl⟩ := List.mem_map.1 hx
    unfold convertElem asDirect
    simp only [if_true, h.direct s hs]
  have hg : ∀ k, k ≠ c!"sites" → (d.set c!"sites" (.sites (sites.map fun s => .dict (asDirect s)))).get? k = e.get? k := by
    intro k hk
    rw [Dict.get?_set, if_neg (Ne.symm hk), hd1 k hk]
  have g1 := (hg _ (by decide)).trans h.comment
  have g2 := (hg _ (by decide)).trans h.cell
  have g3 : (d.set c!"sites" (.sites (sites.map fun s => .dict (asDirect s)))).get? c!"sites" = some (.sites (sites.map fun s => .dict (asDirect s))) := by
    rw [Dict.get?_set, if_pos rfl]
  have hval : validate (d.set c!"sites" (.sites (sites.map fun s => .dict (asDirect s)))) = .ok () := by
    unfold validate checkComment checkCell checkSites argOr lookup
    simp only [if_true, g1, g2, g3, Res.ok_bind]
    cases cm with
    | none => simp [commentVal]
    | some s => simp [commentVal]
  refine ⟨d, _, sites.map asDirect, hd, ?_, hg, by rw [g3, List.map_map]; rfl, ?_⟩
  · unfold init load
    simp only [guards, Option.isSome_none, Option.isSome_some, Bool.and_false, Bool.and_true, Bool.or_false, Bool.not_false, Bool.not_true,
      Bool.false_eq_true, if_false, Res.ok_bind]
    unfold fromDict lookup
    rw [hd2]
    simp only [Res.ok_bind, hm, hval]
  · rw [List.forall₂_map_right_iff]
    apply List.forall₂_same.2
    intro s hs
    exact ⟨capitalize_getSpecie s, rfl, rfl, rfl, rfl, h.direct s hs⟩

/-! ### C18: editing sites -/

/-- An edit of the list of sites by position. -/
inductive Edit
  | delete (i : Int)
  | replace (i : Int) (s : Site)

/-- The call that makes the edit. -/
def Edit.run (e : Entries) : Edit → Res Entries
  | .delete i => deleteSite e i
  | .replace i s => modifySite e c!"sites" (some (.site s)) i

/-- A history of edits that all return normally. -/
inductive Edits : Entries → List Edit → Entries → Prop
  | nil (e : Entries) : Edits e [] e
  | cons {e e' e'' : Entries} {x : Edit} {xs : List Edit} (h : x.run e = .ok e') (hs : Edits e' xs e'') : Edits e (x :: xs) e''

/-- Specification: what the edits should do to a list. -/
inductive Edited : List Elem → List Edit → List Elem → Prop
  | nil (l : List Elem) : Edited l [] l
  | delete {a b l' : List Elem} {x : Elem} {xs : List Edit} (h : Edited (a ++ b) xs l') : Edited (a ++ x :: b) (.delete a.length :: xs) l'
  | replace {a b l' : List Elem} {x : Elem} {s : Site} {xs : List Edit} (h : Edited (a ++ .site s :: b) xs l') :
    Edited (a ++ x :: b) (.replace a.length s :: xs) l'

/-- The position of an edit. -/
def Edit.at : Edit → Int
  | .delete i => i
  | .replace i _ => i

theorem run_in_range {e : Entries} {a b : List Elem} {x : Elem} (h : e.get? c!"sites" = some (.sites (a ++ x :: b))) (ed : Edit) (hi : ed.at = a.length) :
    ed.run e = .ok (e.set c!"sites" (.sites (match ed with | .delete _ => a ++ b | .replace _ s => a ++ .site s :: b))) := by
  have hp : pyIndex (a.length : Int) (a ++ x :: b).length = some a.length := by
    unfold pyIndex
    rw [if_pos (by omega), if_pos (by simp)]; simp
  have hn : ¬ (a.length : Int) > ((a ++ x :: b).length : Int) - 1 := by simp; omega
  cases ed with
  | delete i =>
    cases (show i = a.length from hi)
    unfold Edit.run deleteSite checkSites checkSiteNumber argOr lookup
    simp only [if_true, h, Res.ok_bind, if_neg hn, hp]
    rw [List.eraseIdx_append_of_length_le (by omega)]
    simp
  | replace i s =>
    cases (show i = a.length from hi)
    have hal : checkAllowed c!"sites" = .ok () := by decide
    unfold Edit.run modifySite checkSite checkSiteNumber lookup
    simp only [hal, Res.ok_bind, isSite, if_true, h, if_neg hn, hp]
    rw [List.set_append_right _ _ (by omega)]
    simp

/-- C18, proved part: a history of edits addressed by positions that exist (0, 1, ...) returns normally, changes exactly the addressed
sites, and leaves every other entry as it is. Missing: negative positions, see `C18_violation`. -/
theorem C18_history_partial (e : Entries) (l l' : List Elem) (xs : List Edit) (h : e.get? c!"sites" = some (.sites l)) (hs : Edited l xs l') :
    ∃ e', Edits e xs e' ∧ e'.get? c!"sites" = some (.sites l') ∧ ∀ k, k ≠ c!"sites" → e'.get? k = e.get? k := by
  induction hs generalizing e with
  | nil l => exact ⟨e, .nil e, h, fun _ _ => rfl⟩
  | delete _ ih =>
    obtain ⟨e', h1, h2, h3⟩ := ih (e.set c!"sites" (.sites _)) (by rw [Dict.get?_set, if_pos rfl])
    refine ⟨e', .cons (run_in_range h _ rfl) h1, h2, ?_⟩
    intro k hk
    rw [h3 k hk, Dict.get?_set, if_neg (Ne.symm hk)]
  | replace _ ih =>
    obtain ⟨e', h1, h2, h3⟩ := ih (e.set c!"sites" (.sites _)) (by rw [Dict.get?_set, if_pos rfl])
    refine ⟨e', .cons (run_in_range h _ rfl) h1, h2, ?_⟩
    intro k hk
    rw [h3 k hk, Dict.get?_set, if_neg (Ne.symm hk)]

/-- C18, proved part: a position beyond the last site is refused with 304. -/
theorem C18_beyond (e : Entries) (l : List Elem) (x : Edit) (h : e.get? c!"sites" = some (.sites l)) (hx : (l.length : Int) ≤ x.at) :
    x.run e = .exit 304 := by
  have hn : x.at > (l.length : Int) - 1 := by omega
  cases x with
  | delete i =>
    simp only [Edit.at] at hn
    unfold Edit.run deleteSite checkSites checkSiteNumber argOr lookup
    simp only [if_true, h, Res.ok_bind]
    rw [if_pos hn]; rfl
  | replace i s =>
    simp only [Edit.at] at hn
    have hal : checkAllowed c!"sites" = .ok () := by decide
    unfold Edit.run modifySite checkSite checkSiteNumber lookup
    simp only [hal, Res.ok_bind, isSite, if_true, h]
    rw [if_pos hn]; rfl

/-- C18, proved part: a position before the first site, even counted from the end, is refused (`IndexError`). -/
theorem C18_below (e : Entries) (l : List Elem) (x : Edit) (h : e.get? c!"sites" = some (.sites l)) (hx : x.at < -(l.length : Int)) :
    x.run e = .raise .indexError := by
  have hn : ¬ x.at > (l.length : Int) - 1 := by omega
  have hp : pyIndex x.at l.length = Option.none := by
    unfold pyIndex; rw [if_neg (by omega), if_neg (by omega)]
  cases x with
  | delete i =>
    simp only [Edit.at] at hn
    unfold Edit.run deleteSite checkSites checkSiteNumber argOr lookup
    simp only [if_true, h, Res.ok_bind]
    rw [if_neg hn]
    simp only [Edit.at] at hp
    simp only [Res.ok_bind, hp]
  | replace i s =>
    simp only [Edit.at] at hn
    have hal : checkAllowed c!"sites" = .ok () := by decide
    unfold Edit.run modifySite checkSite checkSiteNumber lookup
    simp only [hal, Res.ok_bind, isSite, if_true, h]
    rw [if_neg hn]
    simp only [Edit.at] at hp
    simp only [Res.ok_bind, hp]

/-- C18 is false for negative positions: `delete_site(-n)` deletes the `n`-th site from the end instead of being refused. -/
theorem C18_violation (e : Entries) (a b : List Elem) (x : Elem) (h : e.get? c!"sites" = some (.sites (a ++ x :: b))) :
    ∃ e', deleteSite e (-((b.length : Int) + 1)) = .ok e' ∧ e'.get? c!"sites" = some (.sites (a ++ b)) := by
  have hp : pyIndex (-((b.length : Int) + 1)) (a ++ x :: b).length = some a.length := by
    unfold pyIndex
    rw [if_neg (by omega), if_pos (by simp; omega)]
    simp; omega
  have hn : ¬ -((b.length : Int) + 1) > ((a ++ x :: b).length : Int) - 1 := by simp; omega
  refine ⟨e.set c!"sites" (.sites (a ++ b)), ?_, ?_⟩
  · unfold deleteSite checkSites checkSiteNumber argOr lookup
    simp only [if_true, h, Res.ok_bind, if_neg hn, hp]
    rw [List.eraseIdx_append_of_length_le (by omega)]
    simp
  · rw [Dict.get?_set, if_pos rfl]

/-- C18 is false for the entry name: `modify('comment', site, 0)` replaces site 0 and not the comment, on every object. -/
theorem C18_violation_name (e : Entries) (x : Elem) (b : List Elem) (s : Site) (h : e.get? c!"sites" = some (.sites (x :: b))) :
    ∃ e', modifySite e c!"comment" (some (.site s)) 0 = .ok e' ∧ e'.get? c!"sites" = some (.sites (.site s :: b)) ∧
      e'.get? c!"comment" = e.get? c!"comment" := by
  have h0 := run_in_range (a := []) h (.replace 0 s) rfl
  have hal : checkAllowed c!"comment" = checkAllowed c!"sites" := by decide
  refine ⟨e.set c!"sites" (.sites (.site s :: b)), ?_, ?_, ?_⟩
  · unfold Edit.run modifySite at h0
    unfold modifySite
    rw [hal]; exact h0
  · rw [Dict.get?_set, if_pos rfl]
  · rw [Dict.get?_set, if_neg (by decide)]

/-- Non-vacuity: in a list of three sites, replace the first, delete the second, delete the (now) second. -/
example (a b c : Elem) (s : Site) : Edited [a, b, c] [.replace 0 s, .delete 1, .delete 1] [.site s] :=
  .replace (a := []) (.delete (a := [.site s]) (.delete (a := [.site s]) (b := []) (.nil _)))

/-! ### C63: coordinates of a site -/

/-- Specification: the eighth line (and the ninth after `Selective dynamics`) say whether there are flags and which coordinates are
used, by their first letter. -/
structure Layout (lines : List Str) (sel dir : Bool) : Prop where
  selective : ∃ l c, lines[7]? = some l ∧ l[0]? = some c ∧ (sel = true ↔ c = 's' ∨ c = 'S')
  direct : ∃ l c, lines[if sel then 8 else 7]? = some l ∧ l[0]? = some c ∧ (dir = true ↔ c = 'd' ∨ c = 'D')

/-- Specification: word `i` of a line is the number `q`. -/
def WordIs (line : Str) (i : Nat) (q : Rat) : Prop := ∃ w d, (words line)[i]? = some w ∧ pyFloat w = some (.fin d) ∧ q = d.toRat

theorem lowerC_s (c : Char) : lowerC c = 's' ↔ c = 's' ∨ c = 'S' := by
  constructor
  · intro h
    have h1 := congrArg Char.toNat h
    rw [lowerC_toNat] at h1
    have h2 : ('s' : Char).toNat = 115 := rfl
    rw [h2] at h1
    have h3 : c.toNat = 115 ∨ c.toNat = 83 := by split at h1 <;> omega
    rcases h3 with h3 | h3
    · left; exact Char.toNat_inj.1 h3
    · right; exact Char.toNat_inj.1 h3
  · rintro (rfl | rfl) <;> decide

theorem lowerC_d (c : Char) : lowerC c = 'd' ↔ c = 'd' ∨ c = 'D' := by
  constructor
  · intro h
    have h1 := congrArg Char.toNat h
    rw [lowerC_toNat] at h1
    have h2 : ('d' : Char).toNat = 100 := rfl
    rw [h2] at h1
    have h3 : c.toNat = 100 ∨ c.toNat = 68 := by split at h1 <;> omega
    rcases h3 with h3 | h3
    · left; exact Char.toNat_inj.1 h3
    · right; exact Char.toNat_inj.1 h3
  · rintro (rfl | rfl) <;> decide

theorem toFloat_ok {w : Str} {q : Rat} (hw : toFloat w = .ok q) : ∃ d : Dec, pyFloat w = some (.fin d) ∧ q = d.toRat := by
  unfold toFloat at hw
  split at hw
  · rename_i d hd; cases hw; exact ⟨d, hd, rfl⟩
  · cases hw
  · cases hw

theorem wordIs {line w : Str} {i : Nat} {q : Rat} (h1 : idx (words line) i = .ok w) (h2 : toFloat w = .ok q) : WordIs line i q := by
  obtain ⟨d, hd, rfl⟩ := toFloat_ok h2
  exact ⟨w, d, idx_ok.1 h1, hd, rfl⟩

theorem readHeader_layout {lines : List Str} {hd : Header} (h : readHeader lines = .ok hd) :
    Layout lines hd.selective hd.direct ∧ hd.loopmax = (if hd.selective then 9 else 8) ∧ ∃ l1, lines[1]? = some l1 ∧ WordIs l1 0 hd.scaling := by
  unfold readHeader at h
  obtain ⟨l0, h0, h⟩ := Res.bind_eq_ok.1 h
  obtain ⟨l5, h5, h⟩ := Res.bind_eq_ok.1 h
  obtain ⟨l1, h1, h⟩ := Res.bind_eq_ok.1 h
  obtain ⟨w, hw, h⟩ := Res.bind_eq_ok.1 h
  obtain ⟨sc, hsc, h⟩ := Res.bind_eq_ok.1 h
  split at h
  · cases h
  split at h
  · cases h
  obtain ⟨l2, h2, h⟩ := Res.bind_eq_ok.1 h
  obtain ⟨a, ha, h⟩ := Res.bind_eq_ok.1 h
  obtain ⟨l3, h3, h⟩ := Res.bind_eq_ok.1 h
  obtain ⟨b, hb, h⟩ := Res.bind_eq_ok.1 h
  obtain ⟨l4, h4, h⟩ := Res.bind_eq_ok.1 h
  obtain ⟨c, hc, h⟩ := Res.bind_eq_ok.1 h
  obtain ⟨cell, hcell, h⟩ := Res.bind_eq_ok.1 h
  obtain ⟨l6, h6, h⟩ := Res.bind_eq_ok.1 h
  obtain ⟨atoms, hatoms, h⟩ := Res.bind_eq_ok.1 h
  obtain ⟨l7, h7, h⟩ := Res.bind_eq_ok.1 h
  obtain ⟨c7, hc7, h⟩ := Res.bind_eq_ok.1 h
  dsimp only at h
  split at h
  · rename_i hs
    obtain ⟨l8, h8, h⟩ := Res.bind_eq_ok.1 h
    obtain ⟨c8, hc8, h⟩ := Res.bind_eq_ok.1 h
    cases h
    refine ⟨⟨⟨l7, c7, idx_ok.1 h7, idx_ok.1 hc7, ?_⟩, ⟨l8, c8, idx_ok.1 h8, idx_ok.1 hc8, ?_⟩⟩, rfl, l1, idx_ok.1 h1, wordIs hw hsc⟩
    · simp [← lowerC_s, hs]
    · simp [← lowerC_d]
  · rename_i hs
    cases h
    refine ⟨⟨⟨l7, c7, idx_ok.1 h7, idx_ok.1 hc7, ?_⟩, ⟨l7, c7, idx_ok.1 h7, idx_ok.1 hc7, ?_⟩⟩, rfl, l1, idx_ok.1 h1, wordIs hw hsc⟩
    · simp [← lowerC_s, hs]
    · simp [← lowerC_d]

/-- C63: the coordinates and flags of site `k` are those printed on the `k`-th line after the coordinate line: its first three words
are the direct coordinates, or the cartesian coordinates up to the scaling factor, and the next three words the flags. -/
theorem C63_own_line (lines : List Str) (p : Parsed) (hp : parse lines = .ok p) (k : Nat) (s : Site) (hk : p.sites[k]? = some s) :
    ∃ sel dir line x y z, Layout lines sel dir ∧ lines[k + (if sel then 9 else 8)]? = some line ∧
      WordIs line 0 x ∧ WordIs line 1 y ∧ WordIs line 2 z ∧
      (dir = true → s.position = ⟨x, y, z⟩) ∧
      (dir = false → ∃ l1 scale c, lines[1]? = some l1 ∧ WordIs l1 0 scale ∧ p.cell = some c ∧
        dirToCart s.position c = ⟨x * scale, y * scale, z * scale⟩) ∧
      (sel = true → ∃ u v w : Str, (words line)[3]? = some u ∧ (words line)[4]? = some v ∧ (words line)[5]? = some w ∧
        s.selective = (!(lower u).contains 'f', !(lower v).contains 'f', !(lower w).contains 'f')) ∧
      (sel = false → s.selective = (true, true, true)) := by
  obtain ⟨h, raws, v, pr, hh, _, hr, rfl⟩ := parse_ok hp
  obtain ⟨hlay, hmax, l1, hl1, hsc⟩ := readHeader_layout hh
  dsimp only at hk
  unfold assemble at hk
  rw [List.getElem?_map, List.getElem?_zipIdx] at hk
  cases hrk : raws[k]? with
  | none => rw [hrk] at hk; cases hk
  | some r =>
    rw [hrk] at hk
    simp only [Option.map_some, Option.some.injEq] at hk
    subst hk
    obtain ⟨line, h1, h2, h3⟩ := readSites_lines h lines _ 0 0 1 raws hr k r hrk
    unfold readPos at h2
    rw [Res.bind_eq_ok] at h2
    obtain ⟨vec, hvec, h2⟩ := h2
    unfold readVec at hvec
    simp only [Res.bind_eq_ok] at hvec
    obtain ⟨a, ha, x, hx, b, hb, y, hy, c, hc, z, hz, he⟩ := hvec
    cases he
    refine ⟨h.selective, h.direct, line, x, y, z, hlay, by rw [← h1, hmax]; simp, wordIs ha hx, wordIs hb hy, wordIs hc hz, ?_, ?_, ?_, ?_⟩
    · intro hd
      rw [hd, if_pos rfl] at h2
      injection h2 with h2; exact h2.symm
    · intro hd
      rw [hd, if_neg (by decide)] at h2
      cases hcell : h.cell with
      | none => rw [hcell] at h2; cases h2
      | some m =>
        refine ⟨l1, h.scaling, m, hl1, hsc, rfl, ?_⟩
        rw [hcell] at h2
        by_cases hdet : m.toMatrix.det = 0
        · unfold toDirect at h2
          simp only [(C16_inverse m).2 hdet] at h2
          cases h2
        · obtain ⟨w, hw, hw'⟩ := toDirect_ok hdet ((⟨x, y, z⟩ : Vec).map (· * h.scaling))
          rw [hw] at h2
          injection h2 with h2
          show dirToCart r.position m = _
          rw [← h2, hw']; rfl
    · intro hsel
      unfold readFlags readFlag at h3
      simp only [hsel, if_true, Res.bind_eq_ok] at h3
      obtain ⟨_, ⟨u, hu, he1⟩, _, ⟨v', hv, he2⟩, _, ⟨w, hw, he3⟩, h3⟩ := h3
      cases he1; cases he2; cases he3
      refine ⟨u, v', w, idx_ok.1 hu, idx_ok.1 hv, idx_ok.1 hw, ?_⟩
      injection h3 with h3; exact h3.symm
    · intro hsel
      unfold readFlags at h3
      simp only [hsel, Bool.false_eq_true, if_false] at h3
      injection h3 with h3; exact h3.symm

/-- Non-vacuity: a cartesian file with flags and scaling 2 (direct coordinates do not depend on the scaling). -/
example : (parse (readlines c!"x\n2.0\n1 0 0\n0 1 0\n0 0 1\nH O\n1 1\nSel\nCart\n0 0 0 T T T\n0.5 0 0.25 T F T\n") >>= fun p =>
    .ok (p.sites.map fun s => (s.position, s.selective))) =
    .ok [(⟨0, 0, 0⟩, (true, true, true)), (⟨1/2, 0, 1/4⟩, (true, false, true))] := by decide +kernel

/-! ### C27 -/

/-- C27 is false for `Poscar`: `get` of an entry that is present raises `AttributeError`, for every object and entry. -/
theorem C27_poscar_violation (e : Entries) (tag : Str) (v : Val) (h : e.get? tag = some v) : get e tag = .raise .attributeError := by
  unfold get; rw [h]

/-- C27 (Poscar), partial: a missing entry gives `None`. Missing: entries that are present (`C27_poscar_violation`). -/
theorem C27_poscar_partial (e : Entries) (tag : Str) (h : e.get? tag = none) : get e tag = .ok none := by
  unfold get; rw [h]

/-! ### C09 -/

/-- Number of sources given. -/
def Sources.count (s : Sources) : Nat :=
  s.string.isSome.toNat + s.dict.isSome.toNat + s.path.isSome.toNat + s.handler.isSome.toNat

theorem fromList_exits (lines : List Str) : ExitsIn (fun k => k ≠ 10) (fromList lines) := by
  have i1 : ∀ {α} (l : List α) i, ExitsIn (fun k => k ≠ 10) (idx l i) := fun l i => idx_exits l i
  have i2 : ∀ w, ExitsIn (fun k => k ≠ 10) (toFloat w) := fun w => toFloat_exits w
  have i3 : ∀ w, ExitsIn (fun k => k ≠ 10) (toInt w) := fun w => toInt_exits w
  have i4 : ∀ l, ExitsIn (fun k => k ≠ 10) (readRow l) := fun l => readRow_exits l
  have i5 : ∀ s a b c, ExitsIn (fun k => k ≠ 10) (makeCell s a b c) := fun s a b c => makeCell_exits s a b c
  have i6 : ∀ l, ExitsIn (fun k => k ≠ 10) (readVec l) := by intro l; unfold readVec; exits
  have i7 : ∀ v c, ExitsIn (fun k => k ≠ 10) (toDirect v c) := by intro v c; unfold toDirect; exits
  have i8 : ∀ l s, ExitsIn (fun k => k ≠ 10) (readFlags l s) := by intro v c; unfold readFlags readFlag; exits
  have i9 : ∀ h l, ExitsIn (fun k => k ≠ 10) (readPos h l) := by intro h l; unfold readPos; exits
  have i10 : ∀ h lines n i s x, ExitsIn (fun k => k ≠ 10) (readSites h lines n i s x) := by
    intro h lines n
    induction n with
    | zero => intro i s x; exact ExitsIn.ok _
    | succ n ih => intro i s x; unfold readSites; exits
  have i11 : ∀ lines, ExitsIn (fun k => k ≠ 10) (readHeader lines) := by
    intro lines
    have : ∀ l : List Str, ExitsIn (fun k => k ≠ 10) (Res.mapM' toInt l) := fun l => ExitsIn.mapM' i3 l
    unfold readHeader; exits
  have i12 : ∀ lines p, ExitsIn (fun k => k ≠ 10) (readTail lines p) := by intro lines p; unfold readTail; exits
  have i13 : ∀ lines p n conv, (∀ v, ExitsIn (fun k => k ≠ 10) (conv v)) → ExitsIn (fun k => k ≠ 10) (readVecs lines p n conv) := by
    intro lines p n conv hc; unfold readVecs
    refine ExitsIn.mapM' ?_ _
    intro i; exits
  have i14 : ∀ lines p n, ExitsIn (fun k => k ≠ 10) (readPredAfter lines p n) := by
    intro lines p n
    have := i13 lines (p + 1) n .ok (fun v => ExitsIn.ok v)
    unfold readPredAfter; exits
  have i15 : ∀ lines, ExitsIn (fun k => k ≠ 10) (parse lines) := by
    intro lines
    unfold parse
    refine ExitsIn.bind (i11 _) fun h => ?_
    dsimp only
    refine ExitsIn.ite (ExitsIn.raise _) ?_
    refine ExitsIn.bind (i10 _ _ _ _ _ _) fun raws => ?_
    refine ExitsIn.bind (i12 _ _) fun t => ?_
    refine ExitsIn.ite ?_ (ExitsIn.ite ?_ (ExitsIn.ok _))
    · refine ExitsIn.bind (i13 _ _ _ _ ?_) fun vels => ?_
      · intro v; exits
      · refine ExitsIn.bind (i14 _ _ _) fun _ => ExitsIn.ok _
    · exact ExitsIn.bind (i13 _ _ _ _ (fun v => ExitsIn.ok v)) fun _ => ExitsIn.ok _
  unfold fromList
  exact ExitsIn.bind (i15 _) fun _ => ExitsIn.ok _

theorem finish_exits (d : Entries) : ExitsIn (fun k => k ≠ 10) (fromDict d >>= fun e => validate e >>= fun _ => .ok e) := by
  have i1 : ∀ e k, ExitsIn (fun k => k ≠ 10) (lookup e k) := by intro e k; unfold lookup; exits
  have i2 : ∀ e k v, ExitsIn (fun k => k ≠ 10) (argOr e k v) := by intro e k v; unfold argOr; exits
  have i3 : ∀ v c, ExitsIn (fun k => k ≠ 10) (toDirect v c) := by intro v c; unfold toDirect; exits
  have i4 : ∀ c x, ExitsIn (fun k => k ≠ 10) (convertElem c x) := by intro c x; unfold convertElem; exits
  have i5 : ∀ c l, ExitsIn (fun k => k ≠ 10) (Res.mapM' (convertElem c) l) := fun c l => ExitsIn.mapM' (i4 c) l
  have i6 : ∀ d, ExitsIn (fun k => k ≠ 10) (fromDict d) := by intro d; unfold fromDict; exits
  have i7 : ∀ e, ExitsIn (fun k => k ≠ 10) (validate e) := by
    intro e; unfold validate checkComment checkCell checkSites; exits
  exits

/-- C09 (Poscar), partial: no source exits 10; a string together with a dictionary or a path exits 10; exactly one source never
exits 10. Missing: the other combinations of several sources, which are accepted (`C09_poscar_violation`). -/
theorem C09_poscar_partial (s : Sources) :
    (s.count = 0 → init s = .exit 10) ∧
    (s.string.isSome → (s.dict.isSome ∨ s.path.isSome) → init s = .exit 10) ∧
    (s.dict.isSome → s.path.isSome → s.handler.isSome → init s = .exit 10) ∧
    (s.count = 1 → init s ≠ .exit 10) := by
  refine ⟨?_, ?_, ?_, ?_⟩
  · obtain ⟨a, b, c, d⟩ := s
    cases a <;> cases b <;> cases c <;> cases d <;> intro h <;> first | rfl | (simp [Sources.count] at h)
  · obtain ⟨a, b, c, d⟩ := s
    cases a <;> cases b <;> cases c <;> intro h1 h2 <;> first | rfl | (simp at h1; done) | (simp at h2; done)
  · obtain ⟨a, b, c, d⟩ := s
    cases a <;> cases b <;> cases c <;> cases d <;> intro h1 h2 h3 <;> first | rfl | (simp at h1; done) | (simp at h2; done) | (simp at h3; done)
  · intro h
    have hg : guards s = false := by
      obtain ⟨a, b, c, d⟩ := s
      cases a <;> cases b <;> cases c <;> cases d <;> first | rfl | (simp [Sources.count] at h; done)
    have h1 := fromList_exits
    have h2 := finish_exits
    have : ExitsIn (fun k => k ≠ 10) (init s) := by
      unfold init
      rw [hg, if_neg (by decide)]
      unfold load fromFile
      refine ExitsIn.bind ?_ h2
      exits
    intro h'; exact this.of 10 h' rfl

/-- C09 (Poscar) is violated: a dictionary together with a path is accepted (the dictionary is ignored). -/
theorem C09_poscar_violation : ∃ s : Sources, s.count = 2 ∧ s.dict.isSome ∧ s.path.isSome ∧ (init s).isOk = true :=
  ⟨{ dict := some [], path := some (some c!"x\n1\n1 0 0\n0 1 0\n0 0 1\nH\n1\nDirect\n0 0 0\n") }, by decide, by decide, by decide, by decide +kernel⟩

end Verif.Poscar
