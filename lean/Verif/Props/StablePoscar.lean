import Verif.Props.StableFloats
import Verif.Props.PoscarHeader
/-! # C101: a POSCAR that is read and written again does not change -/
set_option autoImplicit false
namespace Verif.Poscar
open Verif Verif.Lattice

/-! ### grouping -/

/-- What has to stay for a site to be grouped and flagged as before. -/
structure Alike (f : Site → Site) (s : Site) : Prop where
  specie : (f s).getSpecie = s.getSpecie
  frozen : (f s).frozen = s.frozen
  velocities : (f s).velocities.isSome = s.velocities.isSome
  predictors : (f s).predictors.isSome = s.predictors.isSome

theorem any_map_congr {α} {p : α → Bool} {f : α → α} {l : List α} (h : ∀ s ∈ l, p (f s) = p s) : (l.map f).any p = l.any p := by
  induction l with
  | nil => rfl
  | cons a l ih => simp only [List.map_cons, List.any_cons, h a (by simp), ih fun s hs => h s (by simp [hs])]

theorem group_map (conserve : Bool) {f : Site → Site} {sites : List Site} (h : ∀ s ∈ sites, Alike f s) :
    group conserve (sites.map f) = { group conserve sites with sites := (group conserve sites).sites.map f } := by
  have hn : (sites.map f).map Site.getSpecie = sites.map Site.getSpecie := by
    rw [List.map_map]; exact List.map_congr_left fun s hs => (h s hs).specie
  have h1 := any_map_congr (p := Site.frozen) fun s hs => (h s hs).frozen
  have h2 := any_map_congr (p := fun s => s.velocities.isSome) fun s hs => (h s hs).velocities
  have h3 := any_map_congr (p := fun s => s.predictors.isSome) fun s hs => (h s hs).predictors
  unfold group
  simp only [hn, h1, h2, h3]
  cases conserve with
  | true => rfl
  | false =>
    simp only [Bool.false_eq_true, if_false, List.map_flatMap]
    congr 1
    congr 1
    funext k
    rw [List.filter_map]
    congr 1
    apply List.filter_congr
    intro s hs
    simp only [Function.comp, (h s hs).specie]

/-- Grouped sites are in their groups. -/
theorem group_fix (conserve : Bool) {sites : List Site} (hd : ∀ s ∈ sites, s.direct = true) :
    group conserve (group conserve sites).sites = group conserve sites := by
  obtain ⟨hg, hperm⟩ := wellGrouped_group hd conserve
  obtain ⟨h1, h2⟩ := group_again conserve hd
  have h3 : (group conserve (group conserve sites).sites).sites = (group conserve sites).sites := by
    cases conserve with
    | true => rfl
    | false =>
      have e : ∀ l, (group false l).sites = (group false l).species.flatMap fun k => l.filter fun s => k == s.getSpecie := fun _ => rfl
      rw [e (group false sites).sites, h1]
      conv_rhs => rw [e sites]
      have hst : Stores [(c!"sites", .sites (sites.map .site))] sites := ⟨rfl, hd⟩
      obtain ⟨g, hg', _, hnd, _⟩ := C12_grouping _ sites hst
      rw [sortAndGroup_stores hst false] at hg'
      cases hg'
      rw [List.flatMap_def, List.flatMap_def]
      congr 1
      apply List.map_congr_left
      intro k hk
      have := blocks_filter (group false sites).species hnd sites k (.inl hk)
      rw [e sites]
      have hc : (fun s : Site => k == s.getSpecie) = fun s => s.getSpecie == k := by funext s; exact BEq.comm
      rw [hc]
      exact this
  have hs := any_perm (p := Site.frozen) hperm
  have hv := any_perm (p := fun s : Site => s.velocities.isSome) hperm
  have hp := any_perm (p := fun s : Site => s.predictors.isSome) hperm
  have f1 : ∀ l, (group conserve l).selective = l.any Site.frozen := by intro l; unfold group; cases conserve <;> rfl
  have f2 : ∀ l, (group conserve l).velocities = l.any fun s : Site => s.velocities.isSome := by intro l; unfold group; cases conserve <;> rfl
  have f3 : ∀ l, (group conserve l).predictors = l.any fun s : Site => s.predictors.isSome := by intro l; unfold group; cases conserve <;> rfl
  have g1 : (group conserve (group conserve sites).sites).selective = (group conserve sites).selective := by rw [f1, f1, hs]
  have g2 : (group conserve (group conserve sites).sites).velocities = (group conserve sites).velocities := by rw [f2, f2, hv]
  have g3 : (group conserve (group conserve sites).sites).predictors = (group conserve sites).predictors := by rw [f3, f3, hp]
  generalize group conserve (group conserve sites).sites = a at *
  generalize group conserve sites = b at *
  cases a; cases b
  simp only at h1 h2 h3 g1 g2 g3
  subst h1 h2 h3 g1 g2 g3
  rfl

/-! ### numbers -/

/-- Machine numbers that are not printed as a negative zero. -/
structure ShownV (N : Floats) (prec : Nat) (v : Vec) : Prop where
  x : N.Shown prec v.x
  y : N.Shown prec v.y
  z : N.Shown prec v.z

/-- All numbers of a structure are such. -/
structure ShownAll (N : Floats) (prec : Nat) (c : Cell) (sites : List Site) : Prop where
  a : ShownV N prec c.a
  b : ShownV N prec c.b
  c : ShownV N prec c.c
  position : ∀ s ∈ sites, ShownV N prec s.position
  velocities : ∀ s ∈ sites, ∀ v, s.velocities = some v → ShownV N prec v
  predictors : ∀ s ∈ sites, ∀ v, s.predictors = some v → ShownV N prec v

theorem vecLine_float {N : Floats} {prec : Nat} {v : Vec} (h : ShownV N prec v) : vecLine prec (floatV N (roundV prec v)) = vecLine prec v := by
  unfold vecLine floatV
  simp only [roundV, V3.map, List.map_cons, List.map_nil, fmtFixed, N.fmt_near h.x, N.fmt_near h.y, N.fmt_near h.z]

/-- A site as it is read from the text written for it. -/
def reread (N : Floats) (prec : Nat) (c : Cell) (s : Site) : Site :=
  (Site.new s.getSpecie (backV prec true c s.position) s.selective (s.velocities.map (backV prec true c)) (s.predictors.map (roundV prec)) true).machine N

theorem reread_alike (N : Floats) (prec : Nat) (c : Cell) (s : Site) : Alike (reread N prec c) s := by
  refine ⟨?_, rfl, ?_, ?_⟩
  · show capitalize (lower s.getSpecie) = s.getSpecie
    rw [capitalize_capitalize_lower, capitalize_getSpecie]
  · show ((s.velocities.map (backV prec true c)).map (floatV N)).isSome = _
    cases s.velocities <;> rfl
  · show ((s.predictors.map (roundV prec)).map (floatV N)).isSome = _
    cases s.predictors <;> rfl

theorem mapM'_map_congr {α β} {f : α → α} {g : α → Res β} {l : List α} (h : ∀ s ∈ l, g (f s) = g s) : Res.mapM' g (l.map f) = Res.mapM' g l := by
  induction l with
  | nil => rfl
  | cons a l ih => simp only [List.map_cons, Res.mapM', h a (by simp), ih fun s hs => h s (by simp [hs])]

/-- The grouped structure read from a text is written like the first one. -/
theorem writeGrouped_again {N : Floats} {prec : Nat} {cm cm' : Val} {c c0 : Cell} {g : Grouped} (hs : ShownAll N prec c g.sites)
    (hcm : headline (compound g.species g.nums) cm' = headline (compound g.species g.nums) cm) :
    writeGrouped prec true cm' (floatM N (roundM prec c)) { g with sites := g.sites.map (reread N prec c0) } = writeGrouped prec true cm c g := by
  have hpos : (g.sites.map (reread N prec c0)).map (posLine prec true (floatM N (roundM prec c)) g.selective) =
      g.sites.map (posLine prec true c g.selective) := by
    rw [List.map_map]
    apply List.map_congr_left
    intro s h
    show posLine prec true _ g.selective (reread N prec c0 s) = _
    unfold posLine
    have e : (reread N prec c0 s).position = floatV N (roundV prec s.position) := rfl
    have e2 : (reread N prec c0 s).selective = s.selective := rfl
    rw [if_pos rfl, if_pos rfl, e, e2, vecLine_float (hs.position s h)]
  have hvel : Res.mapM' (velLine prec true (floatM N (roundM prec c))) (g.sites.map (reread N prec c0)) = Res.mapM' (velLine prec true c) g.sites := by
    have h1 : Res.mapM' (velLine prec true (floatM N (roundM prec c))) (g.sites.map (reread N prec c0)) =
        Res.mapM' (velLine prec true c) (g.sites.map (reread N prec c0)) := by
      congr 1
    rw [h1]
    apply mapM'_map_congr
    intro s h
    unfold velLine
    have e : (reread N prec c0 s).velocities = (s.velocities.map (backV prec true c0)).map (floatV N) := rfl
    rw [e]
    cases hv : s.velocities with
    | none => rfl
    | some v => simp only [Option.map_some, if_pos]; exact congrArg Res.ok (vecLine_float (hs.velocities s h v hv))
  have hpred : Res.mapM' (predLine prec) (g.sites.map (reread N prec c0)) = Res.mapM' (predLine prec) g.sites := by
    apply mapM'_map_congr
    intro s h
    unfold predLine
    have e : (reread N prec c0 s).predictors = (s.predictors.map (roundV prec)).map (floatV N) := rfl
    rw [e]
    cases hv : s.predictors with
    | none => rfl
    | some v => simp only [Option.map_some]; exact congrArg Res.ok (vecLine_float (hs.predictors s h v hv))
  have ha : vecLine prec (floatM N (roundM prec c)).a = vecLine prec c.a := vecLine_float hs.a
  have hb : vecLine prec (floatM N (roundM prec c)).b = vecLine prec c.b := vecLine_float hs.b
  have hc : vecLine prec (floatM N (roundM prec c)).c = vecLine prec c.c := vecLine_float hs.c
  unfold writeGrouped
  simp only [hpos, hvel, hpred, ha, hb, hc, hcm]

/-! ### C101 -/

/-- The three ways to give a text. -/
def FromText (text : Str) (s : Sources) : Prop :=
  s = { path := some (some text) } ∨ s = { handler := some text } ∨ s = { string := some text }

theorem get?_map_machine (N : Floats) (e : Entries) (k : Str) :
    Dict.get? (e.map fun kv => (kv.1, kv.2.machine N)) k = (e.get? k).map (Val.machine N) := by
  induction e with
  | nil => rfl
  | cons a e ih =>
    simp only [List.map_cons, Dict.get?]
    split
    · rfl
    · exact ih

/-- What is read from the text written for a structure in direct coordinates. -/
theorem reread_holds {N : Floats} {prec : Nat} {conserve : Bool} {e : Entries} {cm : Option Str} {c : Cell} {sites : List Site} {text : Str}
    (h : Holds e cm c sites) (hpr : Printable cm sites) (hw : write prec conserve true e = .ok text) {s : Sources} (hs : FromText text s) :
    ∃ e', readFloats N s = .ok e' ∧
      Holds e' (some (readBack (headline (compound (group conserve sites).species (group conserve sites).nums) (commentVal cm))))
        (floatM N (roundM prec c)) ((group conserve sites).sites.map (reread N prec c)) := by
  obtain ⟨hr, _⟩ := write_read h hpr (fun hd => absurd hd (by decide)) hw
  have hi : init s = .ok (Parsed.mk (readBack (headline (compound (group conserve sites).species (group conserve sites).nums) (commentVal cm)))
      (some (roundM prec c)) (backSites prec true c (group conserve sites).sites)).toEntries := by
    rcases hs with rfl | rfl | rfl
    · exact hr.file
    · exact hr.handler
    · exact hr.string
  generalize readBack (headline (compound (group conserve sites).species (group conserve sites).nums) (commentVal cm)) = cm0 at hi
  generalize (group conserve sites).sites = l at hi
  refine ⟨(Parsed.mk cm0 (some (roundM prec c)) (backSites prec true c l)).toEntries.map fun kv => (kv.1, kv.2.machine N), ?_, ?_, ?_, ?_, ?_⟩
  · unfold readFloats
    rw [hi]; rfl
  · rw [get?_map_machine]; rfl
  · rw [get?_map_machine]; rfl
  · rw [get?_map_machine]
    show some (Val.sites _) = some (Val.sites _)
    congr 2
    rw [List.map_map, backSites, List.map_map, List.map_map]
    rfl
  · intro s hs
    obtain ⟨t, _, rfl⟩ := List.mem_map.1 hs
    rfl

/-- What C101 ranges over: a structure whose comment is one line, whose species names are words without `#` that are no number literals and whose
numbers are machine numbers not printed as a negative zero. -/
structure Stable (N : Floats) (prec : Nat) (e : Entries) (cm : Option Str) (c : Cell) (sites : List Site) : Prop where
  holds : Holds e cm c sites
  printable : Printable cm sites
  noHash : ∀ s ∈ sites, '#' ∉ s.getSpecie
  shown : ShownAll N prec c sites

theorem stable_reread {N : Floats} {prec : Nat} {conserve : Bool} {e e' : Entries} {cm : Option Str} {c : Cell} {sites : List Site}
    (h : Stable N prec e cm c sites)
    (he : Holds e' (some (readBack (headline (compound (group conserve sites).species (group conserve sites).nums) (commentVal cm))))
        (floatM N (roundM prec c)) ((group conserve sites).sites.map (reread N prec c))) :
    Stable N prec e' (some (readBack (headline (compound (group conserve sites).species (group conserve sites).nums) (commentVal cm))))
        (floatM N (roundM prec c)) ((group conserve sites).sites.map (reread N prec c)) := by
  obtain ⟨hg, hperm⟩ := wellGrouped_group h.holds.direct conserve
  have hv : ∀ v, ShownV N prec v → ShownV N prec (floatV N (roundV prec v)) := fun v hv =>
    ⟨N.shown_near hv.x, N.shown_near hv.y, N.shown_near hv.z⟩
  have hsp : ∀ k ∈ (group conserve sites).species, Token (capitalize k) := by
    intro k hk
    obtain ⟨s, hs, rfl⟩ := species_mem hg hk
    rw [capitalize_getSpecie]
    exact (h.printable.names s (hperm.mem_iff.1 hs)).1
  refine ⟨he, ⟨?_, ?_⟩, ?_, ⟨hv _ h.shown.a, hv _ h.shown.b, hv _ h.shown.c, ?_, ?_, ?_⟩⟩
  · intro s hs
    cases hs
    have hb := headline_noBreak (nums := (group conserve sites).nums) hsp h.printable.comment
    intro ch hch
    unfold readBack at hch
    exact hb ch (List.mem_filter.1 (mem_of_mem_strip hch)).1
  · intro s hs
    obtain ⟨t, ht, rfl⟩ := List.mem_map.1 hs
    rw [(reread_alike N prec c t).specie]
    exact h.printable.names t (hperm.mem_iff.1 ht)
  · intro s hs
    obtain ⟨t, ht, rfl⟩ := List.mem_map.1 hs
    rw [(reread_alike N prec c t).specie]
    exact h.noHash t (hperm.mem_iff.1 ht)
  · intro s hs
    obtain ⟨t, ht, rfl⟩ := List.mem_map.1 hs
    exact hv _ (h.shown.position t (hperm.mem_iff.1 ht))
  · intro s hs v hsv
    obtain ⟨t, ht, rfl⟩ := List.mem_map.1 hs
    have e1 : (reread N prec c t).velocities = (t.velocities.map (backV prec true c)).map (floatV N) := rfl
    rw [e1] at hsv
    cases htv : t.velocities with
    | none => rw [htv] at hsv; cases hsv
    | some w => rw [htv] at hsv; cases hsv; exact hv _ (h.shown.velocities t (hperm.mem_iff.1 ht) w htv)
  · intro s hs v hsv
    obtain ⟨t, ht, rfl⟩ := List.mem_map.1 hs
    have e1 : (reread N prec c t).predictors = (t.predictors.map (roundV prec)).map (floatV N) := rfl
    rw [e1] at hsv
    cases htv : t.predictors with
    | none => rw [htv] at hsv; cases hsv
    | some w => rw [htv] at hsv; cases hsv; exact hv _ (h.shown.predictors t (hperm.mem_iff.1 ht) w htv)

theorem withNewlines_cons (a : Str) (l : List Str) : withNewlines (a :: l) = a ++ '\n' :: withNewlines l := by
  simp [withNewlines]

/-- The first line and the rest of the text. -/
theorem writeGrouped_head {prec : Nat} {direct : Bool} {cm : Val} {c : Cell} {g : Grouped} {text : Str} (h : writeGrouped prec direct cm c g = .ok text) :
    ∃ rest, text = headline (compound g.species g.nums) cm ++ '\n' :: rest ∧
      ∀ cm', writeGrouped prec direct cm' c g = .ok (headline (compound g.species g.nums) cm' ++ '\n' :: rest) := by
  unfold writeGrouped at h
  dsimp only at h
  obtain ⟨vs, hvs, h⟩ := Res.bind_eq_ok.1 h
  obtain ⟨ps, hps, h⟩ := Res.bind_eq_ok.1 h
  cases h
  refine ⟨withNewlines (([fmtFixed (prec + 4) prec 1, vecLine prec c.a, vecLine prec c.b, vecLine prec c.c,
      rstrip (g.species.flatMap fun s => padRight 5 (capitalize s) ++ [' ']), rstrip (g.nums.flatMap fun (n : Nat) => fmtInt 5 n ++ [' '])] ++
      if g.selective then [c!"Selective dynamics"] else []) ++ [if direct then c!"Direct" else c!"Cartesian"] ++
      g.sites.map (posLine prec direct c g.selective) ++ vs ++ ps), ?_, ?_⟩
  · exact withNewlines_cons _ _
  · intro cm'
    unfold writeGrouped
    dsimp only
    rw [hvs, Res.ok_bind, hps, Res.ok_bind]
    exact congrArg Res.ok (withNewlines_cons _ _)

/-- The second text, whatever the comment: only the first line can differ. -/
theorem write_again {N : Floats} {prec : Nat} {conserve : Bool} {e : Entries} {cm : Option Str} {c : Cell} {sites : List Site} {text : Str}
    (h : Stable N prec e cm c sites) (hw : write prec conserve true e = .ok text) {e' : Entries} {cm' : Option Str}
    (he : Holds e' cm' (floatM N (roundM prec c)) ((group conserve sites).sites.map (reread N prec c))) :
    ∃ rest, text = headline (compound (group conserve sites).species (group conserve sites).nums) (commentVal cm) ++ '\n' :: rest ∧
      write prec conserve true e' =
        .ok (headline (compound (group conserve sites).species (group conserve sites).nums) (commentVal cm') ++ '\n' :: rest) := by
  obtain ⟨hg, hperm⟩ := wellGrouped_group h.holds.direct conserve
  rw [write_holds h.holds] at hw
  obtain ⟨rest, h1, h2⟩ := writeGrouped_head hw
  refine ⟨rest, h1, ?_⟩
  rw [write_holds he, group_map conserve (fun s _ => reread_alike N prec c s), group_fix conserve h.holds.direct]
  have hsh : ShownAll N prec c (group conserve sites).sites :=
    ⟨h.shown.a, h.shown.b, h.shown.c, fun s hs => h.shown.position s (hperm.mem_iff.1 hs), fun s hs => h.shown.velocities s (hperm.mem_iff.1 hs),
      fun s hs => h.shown.predictors s (hperm.mem_iff.1 hs)⟩
  rw [← h2 (commentVal cm')]
  exact writeGrouped_again hsh rfl

/-- C101 for POSCAR, proved part 1: with no comment, or a non-empty comment without `#` and without surrounding white space, the text written for a
structure (in direct coordinates, with or without `conserve_order`), read again and written again is the same text, byte for byte; for all
machine numbers and any correctly rounding `float()`. Missing: other comments (`C101_violation_comment`). -/
theorem C101_poscar_partial (N : Floats) (prec : Nat) (conserve : Bool) (e : Entries) (cm : Option Str) (c : Cell) (sites : List Site) (text : Str)
    (h : Stable N prec e cm c sites) (hcm : ∀ s, cm = some s → '#' ∉ s ∧ Stripped s ∧ s ≠ []) (hw : write prec conserve true e = .ok text)
    (s : Sources) (hs : FromText text s) : ∃ e', readFloats N s = .ok e' ∧ write prec conserve true e' = .ok text := by
  obtain ⟨e', hr, he⟩ := reread_holds (N := N) h.holds h.printable hw hs
  refine ⟨e', hr, ?_⟩
  obtain ⟨rest, h1, h2⟩ := write_again h hw he
  rw [h2, h1]
  congr 2
  have hsC := compound_stripped (group conserve sites).species (group conserve sites).nums
  have hne := compound_ne (group conserve sites).species (group conserve sites).nums
  obtain ⟨hg, hperm⟩ := wellGrouped_group h.holds.direct conserve
  have hh : '#' ∉ compound (group conserve sites).species (group conserve sites).nums := by
    apply compound_no_hash
    intro k hk
    obtain ⟨s, hs, rfl⟩ := species_mem hg hk
    rw [capitalize_getSpecie]
    exact h.noHash s (hperm.mem_iff.1 hs)
  generalize compound (group conserve sites).species (group conserve sites).nums = comp at hsC hne hh
  obtain ⟨g1, g2, g3⟩ := readBack_spec hsC hne hh cm
  rw [(headline_fix g1 g2 g3).1, headline_body, readBack_hash]
  have hb : '#' ∉ body comp cm ∧ Stripped (body comp cm) := by
    cases cm with
    | none => exact ⟨hh, hsC⟩
    | some s =>
      obtain ⟨k1, k2, k3⟩ := hcm s rfl
      simp only [body]
      split
      · exact ⟨k1, k2⟩
      · refine ⟨?_, ?_, ?_⟩
        · simp only [List.mem_append, not_or]
          exact ⟨⟨hh, by decide⟩, k1⟩
        · intro x hx
          apply hsC.1 x
          obtain ⟨y, ys, rfl⟩ := List.exists_cons_of_ne_nil hne
          simpa using hx
        · intro x hx
          apply k2.2 x
          rw [List.getLast?_append] at hx
          obtain ⟨z, hz⟩ := Option.isSome_iff_exists.1 (List.getLast?_isSome.2 k3)
          rw [hz] at hx ⊢
          simpa using hx
  rw [filter_no_hash hb.1, strip_eq_self hb.2]

/-- C101 for POSCAR, proved part 2: whatever the comment is, the second text differs from the first at most in its first line, and from the
second text on nothing changes any more. Missing: that the first line never changes (`C101_violation_comment`). -/
theorem C101_poscar_later_partial (N : Floats) (prec : Nat) (conserve : Bool) (e : Entries) (cm : Option Str) (c : Cell) (sites : List Site) (text : Str)
    (h : Stable N prec e cm c sites) (hw : write prec conserve true e = .ok text) (s : Sources) (hs : FromText text s) :
    ∃ e' text', readFloats N s = .ok e' ∧ write prec conserve true e' = .ok text' ∧ (readlines text').tail = (readlines text).tail ∧
      ∀ s', FromText text' s' → ∃ e'', readFloats N s' = .ok e'' ∧ write prec conserve true e'' = .ok text' := by
  obtain ⟨e', hr, he⟩ := reread_holds (N := N) h.holds h.printable hw hs
  obtain ⟨rest, h1, h2⟩ := write_again h hw he
  obtain ⟨hg, hperm⟩ := wellGrouped_group h.holds.direct conserve
  have hst := stable_reread h he
  have hh : '#' ∉ compound (group conserve sites).species (group conserve sites).nums := by
    apply compound_no_hash
    intro k hk
    obtain ⟨s, hs, rfl⟩ := species_mem hg hk
    rw [capitalize_getSpecie]
    exact h.noHash s (hperm.mem_iff.1 hs)
  have hsC := compound_stripped (group conserve sites).species (group conserve sites).nums
  have hne := compound_ne (group conserve sites).species (group conserve sites).nums
  have hsp : ∀ k ∈ (group conserve sites).species, Token (capitalize k) := by
    intro k hk
    obtain ⟨s, hs, rfl⟩ := species_mem hg hk
    rw [capitalize_getSpecie]
    exact (h.printable.names s (hperm.mem_iff.1 hs)).1
  have hnl : ∀ c : Option Str, (∀ s, c = some s → Free isLineBreak s) →
      '\n' ∉ headline (compound (group conserve sites).species (group conserve sites).nums) (commentVal c) := by
    intro c hc hm
    have := headline_noBreak (nums := (group conserve sites).nums) hsp hc '\n' hm
    revert this; decide
  refine ⟨e', _, hr, h2, ?_, ?_⟩
  · rw [h1, readlines_line_append _ (hnl _ hst.printable.comment), readlines_line_append _ (hnl _ h.printable.comment)]
    rfl
  · intro s' hs'
    refine C101_poscar_partial N prec conserve e' _ _ _ _ hst ?_ h2 s' hs'
    intro t ht
    cases ht
    obtain ⟨g1, g2, g3⟩ := readBack_spec hsC hne hh cm
    refine ⟨g2, g3, ?_⟩
    intro h0
    rw [h0] at g1
    exact hne (List.eq_nil_of_infix_nil g1)

/-! ### the hypotheses, and the comment that changes -/

theorem shown_of {p : Nat} (x : Rat) (m j : Int) (hm : m.natAbs < 2 ^ 53) (h1 : -1074 ≤ j) (h2 : j ≤ 971) (he : x = m * (2 : Rat) ^ j)
    (h : x < 0 → roundDec p x ≠ 0) : Floats.binary64.Shown p x := ⟨(Floats.binary64_mem x).2 ⟨m, j, hm, h1, h2, he⟩, h⟩

/-- A structure with velocities whose numbers are binary64 numbers, among them 0.1 and -1/3 as Python stores them. -/
def tenthSites : List Site :=
  [Site.new c!"O" ⟨3602879701896397 / 36028797018963968, 0, 1/4⟩ (true, false, true) (some ⟨-6004799503160661 / 18014398509481984, 0, 0⟩) none true,
   Site.new c!"Fe" ⟨1/2, 1/2, 0⟩ (true, true, true) (some ⟨0, 0, 0⟩) none true]

/-- An object holding it. -/
def tenthEntries : Entries :=
  [(c!"comment", .str c!"Rust"), (c!"unitcell", .cell (some ⟨⟨4, 0, 0⟩, ⟨0, 4, 0⟩, ⟨0, 0, 4⟩⟩)), (c!"sites", .sites (tenthSites.map .site))]

/-- The hypotheses of C101 are met, with numbers that change on the way. -/
theorem tenth_stable : Stable Floats.binary64 10 tenthEntries (some c!"Rust") ⟨⟨4, 0, 0⟩, ⟨0, 4, 0⟩, ⟨0, 0, 4⟩⟩ tenthSites := by
  have z : Floats.binary64.Shown 10 0 := shown_of 0 0 0 (by norm_num) (by norm_num) (by norm_num) (by norm_num) (by decide)
  have four : Floats.binary64.Shown 10 4 := shown_of 4 1 2 (by norm_num) (by norm_num) (by norm_num) (by norm_num) (by decide +kernel)
  have half : Floats.binary64.Shown 10 (1/2) := shown_of _ 1 (-1) (by norm_num) (by norm_num) (by norm_num) (by norm_num) (by decide +kernel)
  have quarter : Floats.binary64.Shown 10 (1/4) := shown_of _ 1 (-2) (by norm_num) (by norm_num) (by norm_num) (by norm_num) (by decide +kernel)
  have tenth : Floats.binary64.Shown 10 (3602879701896397 / 36028797018963968) :=
    shown_of _ 3602879701896397 (-55) (by norm_num) (by norm_num) (by norm_num) (by norm_num) (by decide +kernel)
  have third : Floats.binary64.Shown 10 (-6004799503160661 / 18014398509481984) :=
    shown_of _ (-6004799503160661) (-54) (by norm_num) (by norm_num) (by norm_num) (by norm_num) (by decide +kernel)
  refine ⟨⟨rfl, rfl, rfl, by decide +kernel⟩, ⟨?_, ?_⟩, by decide +kernel, ⟨⟨four, z, z⟩, ⟨z, four, z⟩, ⟨z, z, four⟩, ?_, ?_, ?_⟩⟩
  · intro s hs; cases hs; unfold Free; decide
  · intro s hs
    unfold Token Free
    revert s; decide +kernel
  · intro s hs
    simp only [tenthSites, List.mem_cons, List.not_mem_nil, or_false] at hs
    rcases hs with rfl | rfl
    · exact ⟨tenth, z, quarter⟩
    · exact ⟨half, half, z⟩
  · intro s hs v hv
    simp only [tenthSites, List.mem_cons, List.not_mem_nil, or_false] at hs
    rcases hs with rfl | rfl <;> cases hv
    · exact ⟨third, z, z⟩
    · exact ⟨z, z, z⟩
  · intro s hs v hv
    simp only [tenthSites, List.mem_cons, List.not_mem_nil, or_false] at hs
    rcases hs with rfl | rfl <;> cases hv

example : write 10 false true tenthEntries = .ok (c!"# Compound: OFe. Old comment: Rust\n  1.0000000000\n  4.0000000000   0.0000000000   0.0000000000\n  0.0000000000   4.0000000000   0.0000000000\n  0.0000000000   0.0000000000   4.0000000000\nO     Fe\n    1     1\nSelective dynamics\nDirect\n  0.1000000000   0.0000000000   0.2500000000 T F T\n  0.5000000000   0.5000000000   0.0000000000 T T T\nDirect\n -0.3333333333   0.0000000000   0.0000000000\n  0.0000000000   0.0000000000   0.0000000000\n") := by
  decide +kernel

/-- C101 is false for a comment with `#` (and for the empty one, `C17_violation_empty`): the second text is another one. -/
theorem C101_violation_comment : ∃ text text' e', write 2 false true (oneSite c!"run #2") = .ok text ∧
    readFloats Floats.binary64 { string := some text } = .ok e' ∧ write 2 false true e' = .ok text' ∧ text' ≠ text := by
  have z : Floats.binary64.Shown 2 0 := shown_of 0 0 0 (by norm_num) (by norm_num) (by norm_num) (by norm_num) (by decide)
  have one : Floats.binary64.Shown 2 1 := shown_of 1 1 0 (by norm_num) (by norm_num) (by norm_num) (by norm_num) (by decide +kernel)
  have h : Stable Floats.binary64 2 (oneSite c!"run #2") (some c!"run #2") ⟨⟨1, 0, 0⟩, ⟨0, 1, 0⟩, ⟨0, 0, 1⟩⟩ [siteAt c!"H" 0] := by
    refine ⟨⟨rfl, rfl, rfl, by decide +kernel⟩, ⟨?_, ?_⟩, by decide +kernel, ⟨⟨one, z, z⟩, ⟨z, one, z⟩, ⟨z, z, one⟩, ?_, ?_, ?_⟩⟩
    · intro s hs; cases hs; unfold Free; decide
    · intro s hs
      unfold Token Free
      revert s; decide +kernel
    · intro s hs
      rw [List.mem_singleton.1 hs]
      exact ⟨z, z, z⟩
    · intro s hs v hv
      rw [List.mem_singleton.1 hs] at hv
      cases hv
    · intro s hs v hv
      rw [List.mem_singleton.1 hs] at hv
      cases hv
  obtain ⟨text, hw⟩ : ∃ text, write 2 false true (oneSite c!"run #2") = .ok text := by
    have hok : (match write 2 false true (oneSite c!"run #2") with | .ok _ => true | _ => false) = true := by decide +kernel
    cases hr : write 2 false true (oneSite c!"run #2") with
    | ok t => exact ⟨t, rfl⟩
    | exit c => rw [hr] at hok; cases hok
    | raise x => rw [hr] at hok; cases hok
  obtain ⟨e', hr, he⟩ := reread_holds (N := Floats.binary64) h.holds h.printable hw (.inr (.inr rfl))
  obtain ⟨rest, h1, h2⟩ := write_again h hw he
  refine ⟨text, _, e', hw, hr, h2, ?_⟩
  rw [h1]
  intro heq
  have := congrArg List.length heq
  simp only [List.length_append, List.length_cons] at this
  have hl : (headline (compound (group false [siteAt c!"H" 0]).species (group false [siteAt c!"H" 0]).nums)
      (commentVal (some (readBack (headline (compound (group false [siteAt c!"H" 0]).species (group false [siteAt c!"H" 0]).nums) (commentVal (some c!"run #2"))))))).length <
      (headline (compound (group false [siteAt c!"H" 0]).species (group false [siteAt c!"H" 0]).nums) (commentVal (some c!"run #2"))).length := by decide +kernel
  omega

end Verif.Poscar
