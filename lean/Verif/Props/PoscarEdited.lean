import Verif.Props.Positions
import Verif.Props.PoscarRound
/-! # Writing a POSCAR whose sites were edited (C137) -/
set_option autoImplicit false
namespace Verif.Poscar
open Verif Verif.Utils Verif.Positions

/-! ### Specification -/

/-- A site that can be put in and written: direct coordinates, a species name that is a word and no number. -/
def Writable (s : Site) : Prop := s.direct = true ∧ Token s.getSpecie ∧ pyFloat s.getSpecie = none

/-- All sites put in by the edits are writable. -/
def PutsWritable (cs : List Named) : Prop := ∀ c ∈ cs, ∀ p s, c.edit = .replace p s → Writable s

/-! ### Proofs -/

/-- What holds of the sites there were and of those put in holds of the sites left. -/
theorem history_all {P : Site → Prop} {l l' : List Site} (cs : List Named) (h : History l (cs.map (·.edit)) (.done l'))
    (hl : ∀ s ∈ l, P s) (hp : ∀ c ∈ cs, ∀ p s, c.edit = .replace p s → P s) : ∀ s ∈ l', P s := by
  generalize hx : cs.map (·.edit) = xs at h
  generalize hf : Fate.done l' = f at h
  induction h generalizing cs with
  | nil l => cases hf; exact hl
  | @cons l l1 x xs f hd _ ih =>
    cases cs with
    | nil => cases hx
    | cons c cs =>
      obtain ⟨hx1, hx2⟩ := List.cons.inj hx
      have hx1 : c.edit = x := hx1
      refine ih cs ?_ (fun c hc => hp c (by simp [hc])) hx2 hf
      cases hd with
      | delete a b y p hn => intro s hs; exact hl s (by simp at hs ⊢; tauto)
      | replace a b y z p hn =>
        intro s hs
        simp only [List.mem_append, List.mem_cons] at hs
        rcases hs with hs | rfl | hs
        · exact hl s (by simp [hs])
        · exact hp c (by simp) p _ hx1
        · exact hl s (by simp [hs])
  | after => cases hf
  | before => cases hf

/-- A history of deletions leaves some of the sites in order. -/
theorem history_sublist {l l' : List Site} (cs : List Named) (hd : ∀ c ∈ cs, ∃ p, c.edit = .delete p)
    (h : History l (cs.map (·.edit)) (.done l')) : l'.Sublist l ∧ l'.length + cs.length = l.length := by
  generalize hx : cs.map (·.edit) = xs at h
  generalize hf : Fate.done l' = f at h
  induction h generalizing cs with
  | nil l =>
    cases hf
    cases cs with
    | nil => exact ⟨List.Sublist.refl _, rfl⟩
    | cons c cs => cases hx
  | @cons l l1 x xs f hdo _ ih =>
    cases cs with
    | nil => cases hx
    | cons c cs =>
      obtain ⟨hx1, hx2⟩ := List.cons.inj hx
      have hx1 : c.edit = x := hx1
      obtain ⟨i1, i2⟩ := ih cs (fun c hc => hd c (by simp [hc])) hx2 hf
      cases hdo with
      | delete a b y p hn =>
        refine ⟨i1.trans (List.Sublist.append_left (List.sublist_cons_self _ _) _), ?_⟩
        simp at i2 ⊢; omega
      | replace a b y z p hn =>
        obtain ⟨q, hq⟩ := hd c (by simp)
        rw [hx1] at hq; cases hq
  | after => cases hf
  | before => cases hf

/-- C137: any history of `delete_site` and `modify(.., site_number)` with writable sites that runs to its end, leaving the sites `l'`, all or none
of them with velocities and likewise with predictors. The object can be written, and the text is read back, from file, handler and string, as
the sites `l'`: in their order with `conserve_order`, otherwise as many of them grouped by species, each with its species, flags, velocities and
predictors, numbers rounded to the decimals printed. -/
theorem C137_edited (prec : Nat) (conserve direct : Bool) (e : Entries) (cm : Option Str) (c : Cell) (sites l' : List Site)
    (h : Holds e cm c sites) (hpr : Printable cm sites) (hc : CellOk prec direct c) (cs : List Named) (ha : ∀ c ∈ cs, c.Allowed)
    (hw : PutsWritable cs) (hf : History sites (cs.map (·.edit)) (.done l')) (hv : AllOrNone Site.velocities l')
    (hp : AllOrNone Site.predictors l') :
    ∃ e' text e'' cm' sites' order, runNamed e cs = .ok e' ∧ write prec conserve direct e' = .ok text ∧ ReadsAs text e'' ∧
      Holds e'' (some cm') (roundM prec c) sites' ∧ order.Perm l' ∧ (conserve = true → order = l') ∧
      (∀ k, order.filter (fun s => s.getSpecie == k) = l'.filter fun s => s.getSpecie == k) ∧
      List.Forall₂ (SameSite prec direct c) order sites' := by
  obtain ⟨e', h1, h2, h3⟩ := C128_poscar e sites h.stored cs ha _ hf
  have hwr : ∀ s ∈ l', Writable s := history_all cs hf (fun s hs => ⟨h.direct s hs, hpr.names s hs⟩) hw
  have hh : Holds e' cm c l' := ⟨by rw [h3 _ (by decide)]; exact h.comment, by rw [h3 _ (by decide)]; exact h.cell, h2, fun s hs => (hwr s hs).1⟩
  have hpr' : Printable cm l' := ⟨hpr.comment, fun s hs => (hwr s hs).2⟩
  obtain ⟨text, ht⟩ := C15_writes prec conserve direct e' cm c l' hh hv hp
  obtain ⟨g, e'', cm', sites', hg, hr, hh', hlen, hsame⟩ := C15_round_trip prec conserve direct e' cm c l' text hh hpr' hc ht
  have hord : g.sites.Perm l' ∧ (conserve = true → g.sites = l') ∧
      ∀ k, g.sites.filter (fun s => s.getSpecie == k) = l'.filter fun s => s.getSpecie == k := by
    cases conserve with
    | true =>
      obtain ⟨g', hg', hs, _⟩ := C13_conserve e' l' hh.stores
      rw [hg] at hg'; cases hg'
      rw [hs]
      exact ⟨List.Perm.refl _, fun _ => rfl, fun _ => rfl⟩
    | false =>
      obtain ⟨g', hg', hs, _, _, _, _, _, _, hk⟩ := C12_grouping e' l' hh.stores
      rw [hg] at hg'; cases hg'
      exact ⟨hs, (by intro h; cases h), hk⟩
  refine ⟨e', text, e'', cm', sites', g.sites, h1, ht, hr, hh', hord.1, hord.2.1, hord.2.2, ?_⟩
  rw [List.forall₂_iff_get]
  refine ⟨hlen.symm, fun i h1 h2 => hsame i _ _ ?_ ?_⟩
  · rw [List.get_eq_getElem]; exact List.getElem?_eq_getElem h1
  · rw [List.get_eq_getElem]; exact List.getElem?_eq_getElem h2

/-- C137: after deletions alone nothing more is needed than what the object needed before: it can be written and is read back as the sites left,
one fewer for each deletion, in their order with `conserve_order`. -/
theorem C137_deleted (prec : Nat) (conserve direct : Bool) (e : Entries) (cm : Option Str) (c : Cell) (sites l' : List Site)
    (h : Holds e cm c sites) (hpr : Printable cm sites) (hc : CellOk prec direct c) (hv : AllOrNone Site.velocities sites)
    (hp : AllOrNone Site.predictors sites) (cs : List Named) (hd : ∀ c ∈ cs, ∃ p, c.edit = .delete p) (ha : ∀ c ∈ cs, c.Allowed)
    (hf : History sites (cs.map (·.edit)) (.done l')) :
    ∃ e' text e'' cm' sites' order, runNamed e cs = .ok e' ∧ write prec conserve direct e' = .ok text ∧ ReadsAs text e'' ∧
      Holds e'' (some cm') (roundM prec c) sites' ∧ order.Perm l' ∧ (conserve = true → order = l') ∧
      List.Forall₂ (SameSite prec direct c) order sites' ∧ sites'.length + cs.length = sites.length ∧ l'.Sublist sites := by
  obtain ⟨hs, hl⟩ := history_sublist cs hd hf
  have hall : ∀ f : Site → Option Vec, AllOrNone f sites → AllOrNone f l' := by
    rintro f (h | h)
    · exact .inl fun s hs' => h s (hs.subset hs')
    · exact .inr fun s hs' => h s (hs.subset hs')
  have hput : PutsWritable cs := by
    intro c hc p s hcs
    obtain ⟨q, hq⟩ := hd c hc
    rw [hq] at hcs; cases hcs
  obtain ⟨e', text, e'', cm', sites', order, a1, a2, a3, a4, a5, a6, _, a8⟩ :=
    C137_edited prec conserve direct e cm c sites l' h hpr hc cs ha hput hf (hall _ hv) (hall _ hp)
  refine ⟨e', text, e'', cm', sites', order, a1, a2, a3, a4, a5, a6, a8, ?_, hs⟩
  rw [← a8.length_eq, a5.length_eq]; exact hl

/-- Non-vacuity: of three sites the middle one is deleted, then the last replaced. -/
example (x y z s : Site) : History [x, y, z] ([⟨c!"sites", .delete 1⟩, ⟨c!"sites", .replace (-1) s⟩] |>.map fun c : Named => c.edit) (.done [x, s]) :=
  .cons (.delete [x] [z] y _ ⟨by simp, by simp⟩) (.cons (.replace [x] [] z s _ ⟨by simp, by simp⟩) (.nil _))

example : Writable (siteAt c!"Fe" (1 / 2)) := by
  refine ⟨rfl, ?_, by decide +kernel⟩
  unfold Token Free; decide +kernel

end Verif.Poscar
