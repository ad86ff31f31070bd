import Verif.Props.Output
import Verif.Props.Files
import Verif.Props.CutIncar
import Verif.Props.CutKpointsInside
/-!
# C119: reading a file whose writing was killed

`Props/Files.lean` says what a `write()` killed at any moment leaves on the disk (C87), `Cut*.lean` what is read of a text cut off anywhere
(C97-C99). Together with the single writes of `_write` (`Model/Output.lean`): what an object read from the path of a killed `write()` has to do
with the object that was being written.
-/
set_option autoImplicit false
namespace Verif.Output
open Verif Verif.Base Verif.Files

/-- Every beginning of the text can be what a killed `write()` leaves. -/
theorem C119_any (perm : Str → Bool) (d : Disk) (x : Item) (p t : Str) (ho : canOpen perm d p = true) (ht : t <+: x.writer.pieces.flatten) :
    Crash perm d x.writer { path := some (some p) } (d.set p t) := by
  obtain ⟨r, hr⟩ := ht
  refine ⟨.open p :: x.writer.pieces.map (Event.write (.file p)), _, ⟨(d.set p []).set p ([] ++ t), some (p, r), []⟩,
    by rw [(call_path ho).1, List.append_assoc], ?_, ?_⟩
  · refine Run.flush (exists_run d p x.writer.pieces) (Flush.part _ p t r [] ?_ (set_same d p []))
    simp only [hr]
  · funext q
    show ((d.set p []).set p ([] ++ t)) q = d.set p t q
    by_cases hq : q = p
    · subst hq; rw [set_same, set_same]; rfl
    · rw [set_other _ _ hq, set_other _ _ hq, set_other _ _ hq]

/-! ### the last character of a KPOINTS in line mode -/

/-- All pieces end with a newline. -/
def Eols (p : Prog) : Prop := ∀ s ∈ p.1, s.getLast? = some '\n'

theorem eols_put {s : Str} (h : s.getLast? = some '\n') : Eols (put s) := by
  intro t ht
  simp only [put, List.mem_singleton] at ht
  rw [ht]; exact h

theorem eols_skip : Eols skip := by intro t ht; simp [skip] at ht

theorem eols_seq {a b : Prog} (ha : Eols a) (hb : Eols b) : Eols (seq a b) := by
  intro t ht
  unfold seq at ht
  split at ht
  · rcases List.mem_append.1 ht with h | h
    · exact ha t h
    · exact hb t h
  · exact ha t ht
  · exact ha t ht

theorem eols_after {α : Type} {r : Res α} {f : α → Prog} (hf : ∀ a, r = .ok a → Eols (f a)) : Eols (after r f) := by
  cases r with
  | ok a => exact hf a rfl
  | exit c => intro t ht; simp [after] at ht
  | raise e => intro t ht; simp [after] at ht

theorem eols_linePoints (prec : Nat) (b : Bool) (l : List Kpoints.Elem) : Eols (linePoints prec b l) := by
  induction l generalizing b with
  | nil => exact eols_skip
  | cons p l ih =>
    refine eols_after fun s hs => eols_seq (eols_put ?_) (eols_seq ?_ (ih _))
    · unfold Kpoints.writeLinePoint at hs
      split at hs
      · obtain ⟨c, _, hs⟩ := Res.bind_eq_ok.1 hs
        cases hs
        unfold Kpoints.floatRow
        simp
      · cases hs
    · split
      · exact eols_put rfl
      · exact eols_skip

theorem eols_kpoints (prec : Nat) (e : Kpoints.Entries) (hm : e.get? c!"mode" = some (.atom (.str c!"line"))) : Eols (kpointsProg prec e) := by
  unfold kpointsProg
  refine eols_after fun _ _ => eols_after fun c _ => eols_seq (eols_put ?_) (eols_after fun m hm' => ?_)
  · unfold kpointsHead
    split
    · rw [List.getLast?_append]; rfl
    · rfl
  · have : m = .atom (.str c!"line") := by
      unfold Kpoints.lookup at hm'
      rw [hm] at hm'
      exact (Res.ok.inj hm').symm
    subst this
    rw [if_neg (by decide), if_neg (by decide), if_pos rfl]
    unfold lineProg
    refine eols_after fun n _ => ?_
    split
    · refine eols_seq (eols_put (by simp)) (eols_seq (eols_put rfl) (eols_seq (eols_put rfl) (eols_after fun pts _ => ?_)))
      split
      · exact eols_linePoints _ _ _
      · exact eols_skip
      · intro t ht; simp at ht
      · intro t ht; simp at ht
    · intro t ht; simp at ht

theorem flatten_getLast {l : List Str} (h : ∀ s ∈ l, s.getLast? = some '\n') (hne : l.flatten ≠ []) : l.flatten.getLast? = some '\n' := by
  rcases List.eq_nil_or_concat l with rfl | ⟨i, s, rfl⟩
  · exact absurd rfl hne
  · have := h s (by simp)
    rw [List.concat_eq_append, List.flatten_append]
    simp [List.getLast?_append, this]

/-- What `_write` writes: the text, in line mode with one more newline at the end. -/
theorem item_written (x : Item) (t : Str) (h : x.text = .ok t) :
    (¬ x.Line → x.writer.pieces.flatten = t) ∧ (x.Line → x.writer.pieces.flatten = t ++ ['\n']) := by
  obtain ⟨h1, h2, h3⟩ := item_pieces x t h
  refine ⟨fun hl => (h2 hl).2, fun hl => ?_⟩
  obtain ⟨-, c, h4⟩ := h3 hl
  have : x.writer.pieces.flatten.getLast? = some '\n' := by
    cases x with
    | kpoints prec e => exact flatten_getLast (eols_kpoints prec e hl) (kpoints_pieces prec e h1)
    | incar b d => exact absurd hl (by simp [Item.Line])
    | poscar prec c d e => exact absurd hl (by simp [Item.Line])
  rw [h4] at this ⊢
  simp at this
  rw [this]

/-- C119, what is on the disk: every other path is as before; the path itself too, or it holds a beginning of the text (in line mode possibly
all of it and a newline). -/
theorem C119_disk (perm : Str → Bool) (d d' : Disk) (x : Item) (text p q : Str) (hx : x.text = .ok text)
    (h : Crash perm d x.writer { path := some (some p) } d') :
    d' q = d q ∨ (q = p ∧ ∃ t, d' p = some (.file t) ∧ (t <+: text ∨ x.Line ∧ t = text ++ ['\n'])) := by
  rcases C87_crash_partial perm d d' x.writer _ h q with h | ⟨hn, _, t, ht, hd⟩
  · exact .inl h
  · have hqp : q = p := by
      obtain ⟨h, _⟩ := hn
      simpa using h.symm
    subst hqp
    refine .inr ⟨rfl, t, hd, ?_⟩
    by_cases hl : x.Line
    · rw [(item_written x text hx).2 hl] at ht
      rcases List.prefix_concat_iff.1 ht with h | h
      · exact .inr ⟨hl, h⟩
      · exact .inl h
    · rw [(item_written x text hx).1 hl] at ht
      exact .inl ht

/-- C119, INCAR: whatever is read from the path, if the path is not as before, has for every tag not assigned in its last line the value of the
object being written. Missing: the tags of the last line, for which the claim is false (`C119_violation_*`). -/
theorem C119_incar_partial (perm : Str → Bool) (disk disk' : Disk) (F : FloatEnv) (b : Bool) (d : Incar.Entries) (p : Str)
    (hk : d.keys.Nodup) (hd : ∀ e ∈ d, e.1 = e.2.tag ∧ Incar.StorableItem F e.2)
    (h : Crash perm disk (Item.incar b d).writer { path := some (some p) } disk') :
    disk' p = disk p ∨ ∃ t, disk' p = some (.file t) ∧ ∀ allowed vt d1, Incar.init F allowed vt { path := some (disk'.read p) } = .ok d1 →
      ∀ tag v, ¬ Incar.AssignedIn F ((readlines t).drop ((readlines t).length - 1)) tag → Incar.get d1 tag = some v → Incar.get d tag = some v := by
  rcases C119_disk perm disk disk' (.incar b d) _ p p rfl h with h | ⟨-, t, h, ht⟩
  · exact .inl h
  · refine .inr ⟨t, h, fun allowed vt d1 h1 => ?_⟩
    have ht : t <+: Incar.writeText b d := by
      rcases ht with h | ⟨h, _⟩
      · exact h
      · exact absurd h (by simp [Item.Line])
    have hr : disk'.read p = some t := by unfold Disk.read; rw [h]
    rw [hr] at h1
    exact Incar.C98_written_partial F b d hk hd allowed vt t ht d1 h1

/-- C119, POSCAR: the complete text reads as the structure `e'` of C15. What is read from the path, if the path is not as before, has the
comment and the cell of `e'` and its sites but for missing velocities and predictors and the last number or flag (`CutSites`). -/
theorem C119_poscar_partial (perm : Str → Bool) (disk disk' : Disk) (prec : Nat) (conserve direct : Bool) (e : Poscar.Entries)
    (cm : Option Str) (c : Poscar.Cell) (sites : List Poscar.Site) (p text : Str) (hh : Poscar.Holds e cm c sites)
    (hpr : Poscar.Printable cm sites) (hc : Poscar.CellOk prec direct c) (hw : Poscar.write prec conserve direct e = .ok text)
    (h : Crash perm disk (Item.poscar prec conserve direct e).writer { path := some (some p) } disk') :
    ∃ g comment sites', Poscar.sortAndGroup conserve e = .ok g ∧ sites'.length = g.sites.length ∧
      (∀ (k : Nat) (s s' : Poscar.Site), g.sites[k]? = some s → sites'[k]? = some s' → Poscar.SameSite prec direct c s s') ∧
      (disk' p = disk p ∨ ∀ e1, Poscar.init { path := some (disk'.read p) } = .ok e1 →
        ∃ sites1, e1 = Poscar.fileEntries comment (Poscar.roundM prec c) sites1 ∧ Poscar.CutSites sites1 sites') := by
  obtain ⟨g, e', cm', sites', h1, h2, h3, h4, h5⟩ := Poscar.C15_round_trip prec conserve direct e cm c sites text hh hpr hc hw
  obtain ⟨P, c', k1, k2, rfl⟩ := (Poscar.init_handler _ _).1 h2.handler
  have hs : P.sites = sites' := by
    have : some (Poscar.Val.sites (P.sites.map .site)) = some (Poscar.Val.sites (sites'.map .site)) := by
      rw [← h3.stored]; rfl
    simp only [Option.some.injEq, Poscar.Val.sites.injEq] at this
    have hinj : Function.Injective Poscar.Elem.site := fun a b h => by cases h; rfl
    exact List.map_injective_iff.2 hinj this
  have hcell : c' = Poscar.roundM prec c := by
    have : some (Poscar.Val.cell (some c')) = some (Poscar.Val.cell (some (Poscar.roundM prec c))) := by
      rw [← h3.cell]; rfl
    simpa using this
  subst hs
  subst hcell
  refine ⟨g, P.comment, P.sites, h1, h4, h5, ?_⟩
  rcases C119_disk perm disk disk' (.poscar prec conserve direct e) _ p p hw h with h | ⟨-, t, h, ht⟩
  · exact .inl h
  · right
    intro e1 he1
    have ht : t <+: text := by
      rcases ht with h | ⟨h, _⟩
      · exact h
      · exact absurd h (by simp [Item.Line])
    have hr : disk'.read p = some t := by unfold Disk.read; rw [h]
    rw [hr] at he1
    have he1 : Poscar.init { handler := some t } = .ok e1 := he1
    obtain ⟨q, hq⟩ := ht
    obtain ⟨comment, cell, s1, s2, g1, g2, g3⟩ := Poscar.C97_inside_partial t q e1 _ he1 (by rw [hq]; exact h2.handler)
    obtain ⟨rfl, rfl, rfl⟩ : P.comment = comment ∧ Poscar.roundM prec c = cell ∧ P.sites = s2 := by
      unfold Poscar.fileEntries at g2
      simp only [List.cons.injEq, Prod.mk.injEq, true_and, and_true, Poscar.Val.str.injEq, Poscar.Val.cell.injEq, Option.some.injEq,
        Poscar.Val.sites.injEq] at g2
      refine ⟨g2.1, g2.2.1, ?_⟩
      have hinj : Function.Injective Poscar.Elem.site := fun a b h => by cases h; rfl
      exact List.map_injective_iff.2 hinj g2.2.2
    exact ⟨s1, g1, g3⟩

/-- Specification: a k-point sampling of which the end of the file is missing (the conclusion of `C99_inside_partial`). -/
structure CutSampling (e e' : Kpoints.Entries) : Prop where
  same : ∀ k ∈ [c!"comment", c!"mode", c!"num_kpoints", c!"centering", c!"generating_vectors"], e.get? k = e'.get? k
  divisions : e.get? c!"divisions" = e'.get? c!"divisions" ∨ ∃ d d', e.get? c!"divisions" = some (Kpoints.atomsVal .int d) ∧
      e'.get? c!"divisions" = some (Kpoints.atomsVal .int d') ∧ Kpoints.CutRow d d'
  shifts : e.get? c!"shifts" = e'.get? c!"shifts" ∨ e.get? c!"shifts" = some .none ∨ e'.get? c!"shifts" = some .none ∨
      ∃ d d', e.get? c!"shifts" = some (Kpoints.atomsVal .float d) ∧ e'.get? c!"shifts" = some (Kpoints.atomsVal .float d') ∧ Kpoints.CutRow d d'
  points : e.get? c!"points" = e'.get? c!"points" ∨ ∃ ps z : List Kpoints.Kpoint,
      e'.get? c!"points" = some (Kpoints.atomsVal .point (ps ++ z)) ∧
      (e.get? c!"mode" ≠ some (.str c!"line") → z.length = 1) ∧
      (e.get? c!"points" = some (Kpoints.atomsVal .point ps) ∧ e.get? c!"mode" = some (.str c!"line") ∨
        ∃ k k', z.head? = some k' ∧ e.get? c!"points" = some (Kpoints.atomsVal .point (ps ++ [k])) ∧ Kpoints.CutPoint k k')
  tetra : (e.get? c!"tetra" = e'.get? c!"tetra" ∧ e.get? c!"tetra_volume" = e'.get? c!"tetra_volume") ∨
      e.get? c!"tetra" = some .none ∨ e.get? c!"tetra" = some (.list []) ∨
      (e.get? c!"tetra_volume" = e'.get? c!"tetra_volume" ∧ ∃ ts a a', e.get? c!"tetra" = some (Kpoints.rowsVal .int (ts ++ [a])) ∧
        e'.get? c!"tetra" = some (Kpoints.rowsVal .int (ts ++ [a'])) ∧ Kpoints.CutRow a a')

/-- C119, KPOINTS: what is read from the path, if the path is not as before, is what the completely written file reads as, but for its end. Missing: the end, for which the claim is false (`C119_violation_*`). -/
theorem C119_kpoints_partial (perm : Str → Bool) (disk disk' : Disk) (prec : Nat) (e e' : Kpoints.Entries) (p : Str)
    (hw : Kpoints.init { handler := some (Item.kpoints prec e).writer.pieces.flatten } = .ok e')
    (h : Crash perm disk (Item.kpoints prec e).writer { path := some (some p) } disk') :
    disk' p = disk p ∨ ∀ e1, Kpoints.init { path := some (disk'.read p) } = .ok e1 → CutSampling e1 e' := by
  rcases C87_crash_partial perm disk disk' _ _ h p with h | ⟨_, _, t, ⟨q, ht⟩, hd⟩
  · exact .inl h
  · right
    intro e1 h1
    have hr : disk'.read p = some t := by unfold Disk.read; rw [hd]
    rw [hr] at h1
    have h1 : Kpoints.init { handler := some t } = .ok e1 := h1
    rw [← ht] at hw
    obtain ⟨a, b, c, d, f⟩ := Kpoints.C99_inside_partial t q e1 e' h1 hw
    exact ⟨a, b, c, d, f⟩

/-- C119, explicit k-points: what is read from the path, if the path is not as before, are the points of the object, rounded to the printed
digits, but for the last one, whose last coordinate or weight can be wrong. Missing: the last point, for which the claim is false (`C119_violation_*`). -/
theorem C119_kpoints_explicit_partial (perm : Str → Bool) (disk disk' : Disk) (prec : Nat) (e : Kpoints.Entries) (path : Str)
    (cm : Option Str) (p : Kpoints.Parsed) (pts : List Kpoints.Kpoint)
    (tet : Option (List (List Int) × Rat)) (hh : Kpoints.Holds e cm p) (hs : Kpoints.Sound p) (hm : p.mode = c!"explicit")
    (hp : p.points = some pts) (hn : p.num = pts.length) (hne : pts ≠ []) (ht : p.tetra = tet.map Prod.fst)
    (hv : p.tetraVol = tet.map Prod.snd) (hpts : ∀ p ∈ pts, p.coord.length = 3) (hcm : Kpoints.OkComment cm)
    (h : Crash perm disk (Item.kpoints prec e).writer { path := some (some path) } disk') :
    disk' path = disk path ∨ ∀ e1, Kpoints.init { path := some (disk'.read path) } = .ok e1 →
      ∃ read : List Kpoints.Kpoint, e1.get? c!"points" = some (Kpoints.atomsVal .point read) ∧ read.length = pts.length ∧
        ∀ (i : Nat) (k : Kpoints.Kpoint), i + 1 < pts.length → pts[i]? = some k →
          read[i]? = some ⟨k.coord.map (roundDec prec), some (roundDec prec (k.weight.getD 1)), true⟩ := by
  obtain ⟨text, hw, hr⟩ := Kpoints.C21_explicit_round_trip prec e cm p pts tet hh hs hm hp hn hne ht hv hpts hcm
  obtain ⟨e', he', hold⟩ := hr { handler := some text } (by first | exact .handler _ | (unfold Kpoints.FromText; simp))
  have hl : ¬ (Item.kpoints prec e).Line := by
    intro hl
    have : e.get? c!"mode" = some (.str p.mode) := hh.mode
    have h2 : e.get? c!"mode" = some (.atom (.str c!"line")) := hl
    rw [h2, hm] at this
    exact absurd this (by decide)
  have hflat := (item_written (.kpoints prec e) text hw).1 hl
  rcases C119_kpoints_partial perm disk disk' prec e e' path (by rw [hflat]; exact he') h with h | h
  · exact .inl h
  · right
    intro e1 he1
    have c := h e1 he1
    have hmode : e1.get? c!"mode" = some (.str c!"explicit") := by
      rw [c.same _ (by decide), hold.mode]
    have hpoints := hold.points
    rcases c.points with hc | ⟨ps, z, h1, h2, h3⟩
    · refine ⟨_, hc.trans hpoints, by simp, fun i k hi hk => ?_⟩
      rw [List.getElem?_map, hk]; rfl
    · have hz := h2 (by rw [hmode]; decide)
      rw [h1] at hpoints
      have hps : ps ++ z = pts.map fun k => (⟨k.coord.map (roundDec prec), some (roundDec prec (k.weight.getD 1)), true⟩ : Kpoints.Kpoint) := by
        simp only [Option.some.injEq] at hpoints
        have hinj : Function.Injective (fun k : Kpoints.Kpoint => Kpoints.Elem.atom (.point k)) := fun a b h => by cases h; rfl
        exact List.map_injective_iff.2 hinj (by injection hpoints)
      have hlen : ps.length + 1 = pts.length := by
        have := congrArg List.length hps
        simpa [hz] using this
      rcases h3 with ⟨-, h3⟩ | ⟨k, k', -, h3, -⟩
      · rw [hmode] at h3; exact absurd h3 (by decide)
      · refine ⟨ps ++ [k], h3, by simp [hlen], fun i k0 hi hk => ?_⟩
        rw [List.getElem?_append_left (by omega), ← List.getElem?_append_left (l₂ := z) (by omega), hps, List.getElem?_map, hk]
        rfl

/-- C119 is false for every POSCAR with velocities: a write killed behind the positions leaves a file that is accepted without them. -/
theorem C119_violation_velocities (perm : Str → Bool) (d : Disk) (prec : Nat) (conserve direct : Bool) (e : Poscar.Entries) (p text comment : Str)
    (cell : Poscar.Cell) (sites : List Poscar.Site) (hw : Poscar.write prec conserve direct e = .ok text) (ho : canOpen perm d p = true)
    (h : Poscar.init { handler := some text } = .ok (Poscar.fileEntries comment cell sites)) :
    ∃ d', Crash perm d (Item.poscar prec conserve direct e).writer { path := some (some p) } d' ∧
      Poscar.init { path := some (d'.read p) } = .ok (Poscar.fileEntries comment cell (sites.map Poscar.Site.withoutMotion)) := by
  obtain ⟨a, b, rfl, h2⟩ := Poscar.C97_violation_velocities text comment cell sites h
  refine ⟨d.set p a, C119_any perm d _ p a ho ?_, ?_⟩
  · rw [(item_written (.poscar prec conserve direct e) _ hw).1 (by simp [Item.Line])]
    exact List.prefix_append _ _
  · have : (d.set p a).read p = some a := by unfold Disk.read; rw [set_same]
    rw [this]; exact h2

/-- C119 is false for every KPOINTS in line mode: a write killed behind the fourth line leaves a file that is accepted without any points. -/
theorem C119_violation_line (perm : Str → Bool) (d : Disk) (prec : Nat) (e e' : Kpoints.Entries) (p text : Str)
    (hw : Kpoints.write prec e = .ok text) (ho : canOpen perm d p = true) (h : Kpoints.init { handler := some text } = .ok e')
    (hm : e'.get? c!"mode" = some (.str c!"line")) (hl : 4 ≤ (readlines text).length) :
    ∃ d' e1, Crash perm d (Item.kpoints prec e).writer { path := some (some p) } d' ∧ Kpoints.init { path := some (d'.read p) } = .ok e1 ∧
      e1.get? c!"points" = some (.list []) := by
  obtain ⟨a, b, e1, rfl, -, h1, -, h2⟩ := Kpoints.C99_violation_line text e' h hm 4 (le_refl _) hl
  refine ⟨d.set p a, e1, C119_any perm d _ p a ho ?_, ?_, h2 rfl⟩
  · have := item_written (.kpoints prec e) _ hw
    by_cases hx : (Item.kpoints prec e).Line
    · rw [this.2 hx, List.append_assoc]; exact List.prefix_append _ _
    · rw [this.1 hx]; exact List.prefix_append _ _
  · have : (d.set p a).read p = some a := by unfold Disk.read; rw [set_same]
    rw [this]; exact h1

/-- C119 is false for every INCAR: a write killed right after the file was opened leaves an empty file, which is accepted without any tag. -/
theorem C119_violation_empty (perm : Str → Bool) (d : Disk) (F : FloatEnv) (b : Bool) (e : Incar.Entries) (p : Str) (ho : canOpen perm d p = true) :
    ∃ d', Crash perm d (Item.incar b e).writer { path := some (some p) } d' ∧ Incar.init F [] false { path := some (d'.read p) } = .ok [] := by
  refine ⟨d.set p [], C119_any perm d _ p [] ho (List.nil_prefix), ?_⟩
  have : (d.set p []).read p = some [] := by unfold Disk.read; rw [set_same]
  rw [this]; rfl

/-! ### concrete cases -/

/-- An INCAR written where there was an older one: a killed write can leave its first line. -/
example : ∃ d d' : Disk, d c!"INCAR" = some (.file c!"ENCUT = 400\n") ∧
    Crash (fun _ => true) d (Item.incar true [(c!"nsw", ⟨c!"nsw", .one (.int 3), none⟩), (c!"isif", ⟨c!"isif", .one (.int 2), none⟩)]).writer
      { path := some (some c!"INCAR") } d' ∧
    d' c!"INCAR" = some (.file c!"ISIF = 2\n") := by
  refine ⟨Disk.set (fun _ => none) c!"INCAR" c!"ENCUT = 400\n", _, rfl, C119_any _ _ _ _ c!"ISIF = 2\n" rfl ?_, rfl⟩
  exact ⟨c!"NSW = 3\n", by decide +kernel⟩

/-- The line mode object of `Props/Output.lean` meets the hypotheses of `C119_violation_line`. -/
example : ∃ e' text, Kpoints.write 2 Kpoints.examplePath.toEntries = .ok text ∧ Kpoints.init { handler := some text } = .ok e' ∧
    e'.get? c!"mode" = some (.str c!"line") ∧ 4 ≤ (readlines text).length :=
  ⟨match Kpoints.init { handler := some (okText somePath.text) } with | .ok e => e | _ => [], okText somePath.text, by decide +kernel,
    by decide +kernel, by decide +kernel, by decide +kernel⟩

end Verif.Output
