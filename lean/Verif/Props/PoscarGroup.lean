import Verif.Model.Poscar
import Verif.Lemmas.Dict
import Mathlib.Data.List.Basic
import Mathlib.Data.List.Perm.Basic
import Mathlib.Data.List.Chain
/-! # POSCAR grouping of sites (C12, C13) -/
set_option autoImplicit false
namespace Verif.Poscar
open Verif

/-! ### specification -/

/-- Expansion of a species line by a count line: each name repeated as often as its count says. -/
def expand (species : List Str) (nums : List Nat) : List Str := (species.zip nums).flatMap fun (s, n) => List.replicate n s

/-- `a` comes before `b` among the blocks: it occurs less often, or equally often and appears first. -/
def Before (names : List Str) (a b : Str) : Prop :=
  names.count a < names.count b ∨ (names.count a = names.count b ∧ names.idxOf a < names.idxOf b)

/-! ### sorting -/

theorem mem_insertBy {α} (key : α → Nat) (x y : α) (l : List α) : y ∈ insertBy key x l ↔ y = x ∨ y ∈ l := by
  induction l with
  | nil => simp [insertBy]
  | cons z zs ih =>
    unfold insertBy
    split
    · simp
    · simp only [List.mem_cons, ih]; tauto

theorem insertBy_perm {α} (key : α → Nat) (x : α) (l : List α) : (insertBy key x l).Perm (x :: l) := by
  induction l with
  | nil => exact .refl _
  | cons z zs ih =>
    unfold insertBy
    split
    · exact .refl _
    · exact (List.Perm.cons z ih).trans (List.Perm.swap x z zs)

theorem sortBy_perm {α} (key : α → Nat) (l : List α) : (sortBy key l).Perm l := by
  induction l with
  | nil => exact .refl _
  | cons x xs ih => exact (insertBy_perm key x _).trans (ih.cons x)

theorem insertBy_pairwise {α} (key : α → Nat) (R : α → α → Prop) (x : α) (l : List α)
    (hx : ∀ y ∈ l, R x y) (hl : l.Pairwise fun a b => key a < key b ∨ (key a = key b ∧ R a b)) :
    (insertBy key x l).Pairwise fun a b => key a < key b ∨ (key a = key b ∧ R a b) := by
  induction l with
  | nil => simp [insertBy]
  | cons z zs ih =>
    rw [List.pairwise_cons] at hl
    unfold insertBy
    split
    · rename_i h
      rw [List.pairwise_cons]
      refine ⟨?_, List.pairwise_cons.2 hl⟩
      intro y hy
      have hr := hx y hy
      have hk : key z ≤ key y := by
        rcases List.mem_cons.1 hy with rfl | hy
        · exact le_refl _
        · rcases hl.1 y hy with h' | h'
          · exact le_of_lt h'
          · exact le_of_eq h'.1
      rcases Nat.lt_or_ge (key x) (key y) with h' | h'
      · exact .inl h'
      · exact .inr ⟨by omega, hr⟩
    · rename_i h
      rw [List.pairwise_cons]
      refine ⟨?_, ih (fun y hy => hx y (by simp [hy])) hl.2⟩
      intro y hy
      rcases (mem_insertBy key x y zs).1 hy with rfl | hy
      · exact .inl (by omega)
      · exact hl.1 y hy

theorem sortBy_pairwise {α} (key : α → Nat) (R : α → α → Prop) (l : List α) (hl : l.Pairwise R) :
    (sortBy key l).Pairwise fun a b => key a < key b ∨ (key a = key b ∧ R a b) := by
  induction l with
  | nil => simp [sortBy]
  | cons x xs ih =>
    rw [List.pairwise_cons] at hl
    refine insertBy_pairwise key R x _ ?_ (ih hl.2)
    intro y hy
    exact hl.1 y ((sortBy_perm key xs).mem_iff.1 hy)

/-! ### distinct names -/

theorem mem_uniques {l : List Str} {a : Str} : a ∈ uniques l ↔ a ∈ l := by
  induction l with
  | nil => simp [uniques]
  | cons x xs ih =>
    by_cases h : a = x <;> simp [uniques, ih, h]

theorem uniques_pairwise (l : List Str) : (uniques l).Pairwise fun a b => l.idxOf a < l.idxOf b := by
  induction l with
  | nil => simp [uniques]
  | cons x xs ih =>
    rw [uniques, List.pairwise_cons]
    have hidx : ∀ a ∈ (uniques xs).filter (· != x), (x :: xs).idxOf a = xs.idxOf a + 1 := by
      intro a ha
      have hne : a ≠ x := by simpa using (List.mem_filter.1 ha).2
      exact List.idxOf_cons_ne xs (Ne.symm hne)
    constructor
    · intro a ha
      rw [hidx a ha, List.idxOf_cons_self]
      omega
    · refine List.Pairwise.imp_of_mem ?_ (ih.filter _)
      intro a b ha hb hab
      rw [hidx a ha, hidx b hb]
      omega

/-! ### blocks -/

theorem blocks_perm (keys : List Str) (hn : keys.Nodup) (sites : List Site) (hall : ∀ s ∈ sites, s.getSpecie ∈ keys) :
    (keys.flatMap fun k => sites.filter fun s => k == s.getSpecie).Perm sites := by
  induction keys generalizing sites with
  | nil =>
    cases sites with
    | nil => exact .refl _
    | cons s ss => have := hall s (by simp); simp at this
  | cons k ks ih =>
    rw [List.nodup_cons] at hn
    have h1 := ih hn.2 (sites.filter fun s => !(k == s.getSpecie)) (by
      intro s hs
      obtain ⟨hs1, hs2⟩ := List.mem_filter.1 hs
      have := hall s hs1
      simp only [List.mem_cons] at this
      rcases this with h | h
      · simp [h] at hs2
      · exact h)
    have h2 : (ks.flatMap fun j => (sites.filter fun s => !(k == s.getSpecie)).filter fun s => j == s.getSpecie) =
        ks.flatMap fun j => sites.filter fun s => j == s.getSpecie := by
      apply List.flatMap_congr
      intro j hj
      rw [List.filter_filter]
      apply List.filter_congr
      intro s _
      have hne : j ≠ k := by rintro rfl; exact hn.1 hj
      by_cases h : j = s.getSpecie
      · subst h; simp [Ne.symm hne]
      · simp [h]
    rw [h2] at h1
    rw [List.flatMap_cons]
    exact (List.Perm.append_left _ h1).trans (List.filter_append_perm _ _)

theorem blocks_filter (keys : List Str) (hn : keys.Nodup) (sites : List Site) (k : Str) (hk : k ∈ keys ∨ ∀ s ∈ sites, s.getSpecie ≠ k) :
    ((keys.flatMap fun j => sites.filter fun s => j == s.getSpecie).filter fun s => s.getSpecie == k) =
      sites.filter fun s => s.getSpecie == k := by
  have hcomm : (fun s : Site => s.getSpecie == k) = fun s => k == s.getSpecie := by funext s; exact Bool.beq_comm
  have hout : ∀ ks : List Str, k ∉ ks →
      ((ks.flatMap fun j => sites.filter fun s => j == s.getSpecie).filter fun s => k == s.getSpecie) = [] := by
    intro ks hks
    rw [List.filter_eq_nil_iff]
    intro s hs
    obtain ⟨j, hj, hs⟩ := List.mem_flatMap.1 hs
    have := (List.mem_filter.1 hs).2
    simp only [beq_iff_eq] at this ⊢
    rintro rfl
    exact hks (this ▸ hj)
  rw [hcomm]
  by_cases hkm : k ∈ keys
  · induction keys with
    | nil => simp at hkm
    | cons j js ih =>
      rw [List.nodup_cons] at hn
      rw [List.flatMap_cons, List.filter_append]
      by_cases hjk : j = k
      · subst hjk
        rw [hout js hn.1, List.append_nil, List.filter_filter]
        simp
      · have hkjs : k ∈ js := by
          rcases List.mem_cons.1 hkm with h | h
          · exact absurd h.symm hjk
          · exact h
        rw [ih hn.2 (.inl hkjs) hkjs]
        have : (List.filter (fun s : Site => k == s.getSpecie) (List.filter (fun s => j == s.getSpecie) sites)) = [] := by
          rw [List.filter_eq_nil_iff]
          intro s hs
          have := (List.mem_filter.1 hs).2
          simp only [beq_iff_eq] at this ⊢
          rintro rfl
          exact hjk this
        rw [this, List.nil_append]
  · rcases hk with hk | hk
    · exact absurd hk hkm
    · rw [hout keys hkm, eq_comm, List.filter_eq_nil_iff]
      intro s hs
      have := hk s hs
      simp only [beq_iff_eq]
      exact fun hh => this hh.symm

theorem blocks_species (keys : List Str) (sites : List Site) :
    (keys.flatMap fun k => sites.filter fun s => k == s.getSpecie).map Site.getSpecie =
      expand keys (keys.map fun k => (sites.map Site.getSpecie).count k) := by
  unfold expand
  induction keys with
  | nil => rfl
  | cons k ks ih =>
    rw [List.flatMap_cons, List.map_append, ih, List.map_cons, List.zip_cons_cons, List.flatMap_cons]
    congr 1
    clear ih
    induction sites with
    | nil => simp
    | cons s ss ih =>
      by_cases h : k = s.getSpecie
      · subst h
        simp only [beq_self_eq_true, List.filter_cons_of_pos, List.map_cons, List.count_cons_self, List.replicate_succ, ih]
      · have h' : ¬ s.getSpecie = k := fun hh => h hh.symm
        simp [h, ih, h']

/-! ### C12 -/

/-- The stored sites of an object are exactly the given `Site` objects, all in direct coordinates. -/
structure Stores (e : Entries) (sites : List Site) : Prop where
  entry : e.get? c!"sites" = some (.sites (sites.map .site))
  direct : ∀ s ∈ sites, s.direct = true

theorem mapM'_takeSite (sites : List Site) (h : ∀ s ∈ sites, s.direct = true) :
    Res.mapM' takeSite (sites.map .site) = .ok sites := by
  induction sites with
  | nil => rfl
  | cons s ss ih =>
    simp only [List.map_cons, Res.mapM', takeSite, h s (by simp), if_true, ih (fun t ht => h t (by simp [ht]))]

theorem sortAndGroup_stores {e : Entries} {sites : List Site} (h : Stores e sites) (conserve : Bool) :
    sortAndGroup conserve e = .ok (group conserve sites) := by
  unfold sortAndGroup lookup
  rw [h.entry]
  simp only [Res.ok_bind]
  rw [mapM'_takeSite sites h.direct]
  rfl

/-- C12: without `conserve_order` the sites handed to the writer are a permutation of the stored ones; the names on the species
line are distinct, every name with as many sites as the count line says, one contiguous block each; blocks are ordered by
increasing count and then by first appearance; within a species the stored order is kept. -/
theorem C12_grouping (e : Entries) (sites : List Site) (h : Stores e sites) :
    ∃ g, sortAndGroup false e = .ok g ∧
      g.sites.Perm sites ∧
      g.species.Nodup ∧
      g.nums.length = g.species.length ∧
      g.sites.map Site.getSpecie = expand g.species g.nums ∧
      g.nums = g.species.map (fun k => (sites.map Site.getSpecie).count k) ∧
      (∀ k ∈ g.species, 0 < (sites.map Site.getSpecie).count k) ∧
      g.species.Pairwise (Before (sites.map Site.getSpecie)) ∧
      ∀ k, (g.sites.filter fun s => s.getSpecie == k) = sites.filter fun s => s.getSpecie == k := by
  refine ⟨_, sortAndGroup_stores h false, ?_⟩
  have hp := sortBy_perm (fun k => (sites.map Site.getSpecie).count k) (uniques (sites.map Site.getSpecie))
  have hpw := sortBy_pairwise (fun k => (sites.map Site.getSpecie).count k)
    (fun a b => (sites.map Site.getSpecie).idxOf a < (sites.map Site.getSpecie).idxOf b) _ (uniques_pairwise (sites.map Site.getSpecie))
  have hnd : (sortBy (fun k => (sites.map Site.getSpecie).count k) (uniques (sites.map Site.getSpecie))).Nodup := by
    refine hpw.imp ?_
    rintro a b (h | h) rfl
    · omega
    · omega
  have hmem : ∀ k, k ∈ sortBy (fun k => (sites.map Site.getSpecie).count k) (uniques (sites.map Site.getSpecie)) ↔
      k ∈ sites.map Site.getSpecie := fun k => hp.mem_iff.trans mem_uniques
  have hcov : ∀ s ∈ sites, s.getSpecie ∈ sortBy (fun k => (sites.map Site.getSpecie).count k) (uniques (sites.map Site.getSpecie)) :=
    fun s hs => (hmem _).2 (List.mem_map_of_mem hs)
  simp only [group, Bool.false_eq_true, if_false]
  refine ⟨blocks_perm _ hnd sites hcov, hnd, by simp, blocks_species _ sites, trivial, ?_, hpw, ?_⟩
  · intro k hk
    exact List.count_pos_iff.2 ((hmem k).1 hk)
  · intro k
    apply blocks_filter _ hnd
    by_cases hk : k ∈ sites.map Site.getSpecie
    · exact .inl ((hmem k).2 hk)
    · refine .inr ?_
      intro s hs hsk
      exact hk (hsk ▸ List.mem_map_of_mem hs)

/-! ### C13 -/

theorem expand_append (a b : List (Str × Nat)) :
    expand ((a ++ b).map Prod.fst) ((a ++ b).map Prod.snd) =
      expand (a.map Prod.fst) (a.map Prod.snd) ++ expand (b.map Prod.fst) (b.map Prod.snd) := by
  unfold expand
  have hz : ∀ l : List (Str × Nat), (l.map Prod.fst).zip (l.map Prod.snd) = l := by
    intro l; induction l with
    | nil => rfl
    | cons x xs ih => simp [ih]
  rw [hz, hz, hz, List.flatMap_append]

theorem runs_expand (l : List Str) (acc : List (Str × Nat)) :
    expand ((runs l acc).map Prod.fst) ((runs l acc).map Prod.snd) =
      expand (acc.reverse.map Prod.fst) (acc.reverse.map Prod.snd) ++ l := by
  induction l generalizing acc with
  | nil => simp [runs]
  | cons s ss ih =>
    cases acc with
    | nil =>
      rw [runs, ih]
      simp [expand]
    | cons p acc =>
      obtain ⟨t, n⟩ := p
      rw [runs]
      split
      · rename_i h
        subst h
        rw [ih, List.reverse_cons, List.reverse_cons, expand_append, expand_append, List.append_assoc, List.append_assoc]
        congr 1
        simp [expand, List.replicate_succ']
      · rw [ih, List.reverse_cons, expand_append, List.append_assoc]
        simp [expand]

theorem runs_chain (l : List Str) (acc : List (Str × Nat)) (h : (acc.map Prod.fst).IsChain (· ≠ ·)) (hp : ∀ p ∈ acc, 0 < p.2) :
    ((runs l acc).map Prod.fst).IsChain (· ≠ ·) ∧ ∀ p ∈ runs l acc, 0 < p.2 := by
  induction l generalizing acc with
  | nil =>
    refine ⟨?_, by simpa [runs] using hp⟩
    rw [runs, List.map_reverse, List.isChain_reverse]
    exact h.imp fun a b hab => Ne.symm hab
  | cons s ss ih =>
    cases acc with
    | nil => rw [runs]; exact ih _ (by simp) (by simp)
    | cons p acc =>
      obtain ⟨t, n⟩ := p
      rw [runs]
      split
      · refine ih _ (by simpa using h) ?_
        intro q hq
        rcases List.mem_cons.1 hq with rfl | hq
        · simp
        · exact hp q (by simp [hq])
      · rename_i hne
        refine ih _ ?_ ?_
        · simp only [List.map_cons] at h ⊢
          exact List.IsChain.cons_cons (fun hh => hne hh.symm) h
        · intro q hq
          rcases List.mem_cons.1 hq with rfl | hq
          · simp
          · exact hp q hq

/-- C13: with `conserve_order` the sites are handed to the writer as stored; expanding the species line by the count line gives
their names in order; neighbouring names differ and every count is positive. -/
theorem C13_conserve (e : Entries) (sites : List Site) (h : Stores e sites) :
    ∃ g, sortAndGroup true e = .ok g ∧
      g.sites = sites ∧
      g.nums.length = g.species.length ∧
      expand g.species g.nums = sites.map Site.getSpecie ∧
      g.species.IsChain (· ≠ ·) ∧
      ∀ n ∈ g.nums, 0 < n := by
  refine ⟨_, sortAndGroup_stores h true, ?_⟩
  simp only [group, if_true]
  have hc := runs_chain (sites.map Site.getSpecie) [] (by simp) (by simp)
  refine ⟨trivial, by simp, ?_, hc.1, ?_⟩
  · rw [runs_expand]; rfl
  · intro n hn
    obtain ⟨p, hp, rfl⟩ := List.mem_map.1 hn
    exact hc.2 p hp

/-! ### the hypotheses are met -/

/-- A site at the origin-ish position `x`. -/
def siteAt (specie : Str) (x : Rat) : Site := Site.new specie ⟨x, 0, 0⟩ (true, true, true) none none true

/-- O H Na H O O: two ties and an interleaved order. -/
def exampleSites : List Site :=
  [siteAt c!"O" 0, siteAt c!"H" 1, siteAt c!"NA" 2, siteAt c!"H" 3, siteAt c!"O" 4, siteAt c!"K" 5]

/-- An object holding them. -/
def exampleEntries : Entries :=
  [(c!"comment", .str c!"Salt"), (c!"unitcell", .cell (some ⟨⟨1, 0, 0⟩, ⟨0, 2, 0⟩, ⟨0, 1, 3⟩⟩)), (c!"sites", .sites (exampleSites.map .site))]

example : Stores exampleEntries exampleSites := ⟨rfl, by decide +kernel⟩
example : (group false exampleSites).species = [c!"Na", c!"K", c!"O", c!"H"] ∧ (group false exampleSites).nums = [1, 1, 2, 2] ∧
    (group false exampleSites).sites.map (·.position.x) = [2, 5, 0, 4, 1, 3] := by decide +kernel
example : (group true (exampleSites ++ [siteAt c!"k" 6])).species = [c!"O", c!"H", c!"Na", c!"H", c!"O", c!"K"] ∧
    (group true (exampleSites ++ [siteAt c!"k" 6])).nums = [1, 1, 1, 1, 1, 2] := by decide +kernel

end Verif.Poscar
