import Verif.Props.Spacing
import Verif.Lemmas.Incar
import Verif.Lemmas.Cut
import Verif.Lemmas.Repr
/-! # C102 for INCAR -/
set_option autoImplicit false
namespace Verif.Incar
open Verif

/-- Two entries `TAG = value` that differ in blanks only: around and inside the tag and the value; the text of `SYSTEM`, `MAGMOM` and
`M_CONSTR` is the same up to blanks around it; and one is a bare newline only if the other is. -/
def SameEntry (x y : Str) : Prop :=
  List.Forall₂ SameWords (splitOn '=' x) (splitOn '=' y) ∧
  (∀ tag value tag' value' : Str, splitOn '=' x = [tag, value] → splitOn '=' y = [tag', value'] →
    (∃ w ∈ (words tag).head?, lower w ∈ rawTags) → strip value = strip value') ∧
  (x = ['\n'] ↔ y = ['\n'])

/-- Two lines that differ in blanks only: the same comment up to blanks around it, entry by entry the same up to blanks. -/
def SameLine (a b : Str) : Prop :=
  (split1 '#' a).2.map strip = (split1 '#' b).2.map strip ∧
  List.Forall₂ SameEntry (splitOn ';' (split1 '#' a).1) (splitOn ';' (split1 '#' b).1)

theorem cleanEntry_blanks (F : FloatEnv) {tag tag' value value' : Str} {c c' : Option Str} (ht : words tag = words tag') (hv : words value = words value')
    (hr : (∃ w ∈ (words tag).head?, lower w ∈ rawTags) → strip value = strip value') (hc : c.map strip = c'.map strip) :
    cleanEntry F tag (.one (.str value)) c = cleanEntry F tag' (.one (.str value')) c' := by
  unfold cleanEntry
  rw [← ht]
  cases hw : words tag with
  | nil => rfl
  | cons t ts =>
    dsimp only
    by_cases h : lower t ∈ rawTags
    · rw [if_pos h, if_pos h, hr ⟨t, by simp [hw], h⟩]
    · rw [if_neg h, if_neg h, hc]
      have : cleanString F value = cleanString F value' := by unfold cleanString; rw [hv]
      rw [this]

theorem parseEntry_blanks (F : FloatEnv) {c c' : Option Str} (hc : c.map strip = c'.map strip) {x y : Str} (h : SameEntry x y) (d : Entries) :
    parseEntry F c d x = parseEntry F c' d y := by
  obtain ⟨h1, h2, h3⟩ := h
  unfold parseEntry
  simp only [h3]
  split
  · rfl
  · generalize splitOn '=' x = A at h1 h2
    generalize splitOn '=' y = B at h1 h2
    match A, B, h1, h2 with
    | [], [], _, _ => rfl
    | [_], [_], _, _ => rfl
    | [t, v], [t', v'], .cons ht (.cons hv .nil), h2 =>
      dsimp only
      rw [cleanEntry_blanks F ht hv (h2 t v t' v' rfl rfl) hc]
    | _ :: _ :: _ :: _, _ :: _ :: _ :: _, _, _ => rfl

theorem foldlM'_forall₂ {α σ : Type} {f g : σ → α → Res σ} {R : α → α → Prop} {A B : List α} (h : List.Forall₂ R A B)
    (hfg : ∀ a b, R a b → ∀ s, f s a = g s b) : ∀ s : σ, Res.foldlM' f s A = Res.foldlM' g s B := by
  induction h with
  | nil => intro s; rfl
  | cons hab _ ih =>
    intro s
    simp only [Res.foldlM', hfg _ _ hab]
    congr 1
    funext s'
    exact ih s'

theorem blank_of {x y : Str} (h : List.Forall₂ SameEntry (splitOn ';' x) (splitOn ';' y)) (hx : words x = []) : words y = [] := by
  have hs := (words_eq_nil_iff x).1 hx
  have no : ∀ c : Char, isSpace c = false → c ∉ x := fun c hc hm => by rw [hs c hm] at hc; cases hc
  rw [splitOn_free (no ';' (by decide))] at h
  cases hB : splitOn ';' y with
  | nil => exact absurd hB (splitP_ne_nil _ _)
  | cons z zs =>
    rw [hB] at h
    obtain ⟨h1, h2⟩ := List.forall₂_cons.1 h
    cases h2
    have hz : z = y := by have := join_splitOn ';' y; rw [hB] at this; simpa [join] using this
    subst hz
    have h3 := h1.1
    rw [splitOn_free (no '=' (by decide))] at h3
    cases hC : splitOn '=' z with
    | nil => exact absurd hC (splitP_ne_nil _ _)
    | cons w ws =>
      rw [hC] at h3
      obtain ⟨h4, h5⟩ := List.forall₂_cons.1 h3
      cases h5
      have hw : w = z := by have := join_splitOn '=' z; rw [hC] at this; simpa [join] using this
      subst hw
      exact (show words x = words w from h4) ▸ hx

theorem SameEntry.symm {x y : Str} (h : SameEntry x y) : SameEntry y x := by
  refine ⟨List.Forall₂.flip (h.1.imp fun a b hab => Eq.symm hab), fun t v t' v' e e' hr => ?_, h.2.2.symm⟩
  have h1 := h.1
  rw [e, e'] at h1
  obtain ⟨ht, -⟩ := List.forall₂_cons.1 h1
  have ht : words t' = words t := ht
  exact (h.2.1 t' v' t v e' e (ht ▸ hr)).symm

theorem parseLine_blanks (F : FloatEnv) {a b : Str} (h : SameLine a b) (d : Entries) : parseLine F d a = parseLine F d b := by
  unfold parseLine
  rw [split1_fst_eq_head, split1_fst_eq_head]
  simp only [Option.getD_some, List.isEmpty_iff]
  have : words (split1 '#' a).1 = [] ↔ words (split1 '#' b).1 = [] :=
    ⟨blank_of h.2, blank_of (List.Forall₂.flip (h.2.imp fun _ _ => SameEntry.symm))⟩
  simp only [this]
  split
  · rfl
  · exact foldlM'_forall₂ h.2 (fun x y hxy d => parseEntry_blanks F h.1 hxy d) d

theorem fromList_blanks (F : FloatEnv) {A B : List Str} (h : List.Forall₂ SameLine A B) : fromList F A = fromList F B :=
  foldlM'_forall₂ h (fun _ _ hab d => parseLine_blanks F hab d) []

/-- C102 for INCAR: two texts whose lines differ in blanks only (around tags, values, `=`, `;` and comments, and between the words of a
value) are read alike, from a file as from a string: the same entries, or the same refusal. Missing: blanks behind a final `;` (`C102_violation_*`). -/
theorem C102_incar_partial (F : FloatEnv) (allowed : List Str) (vt : Bool) (t u : Str) :
    (List.Forall₂ SameLine (readlines t) (readlines u) → init F allowed vt { handler := some t } = init F allowed vt { handler := some u } ∧
      init F allowed vt { path := some (some t) } = init F allowed vt { path := some (some u) }) ∧
    (List.Forall₂ SameLine (splitlines t) (splitlines u) → init F allowed vt { string := some t } = init F allowed vt { string := some u }) := by
  refine ⟨fun h => ⟨?_, ?_⟩, fun h => ?_⟩ <;>
  · unfold init loadEntries fileLines parseSource
    simp only [Res.ok_bind, Option.isSome_some, Option.isSome_none, Bool.or_true, Bool.or_false, if_true, fromList_blanks F h,
      Bool.false_eq_true, if_false]

theorem SameEntry.mk {x y t v t' v' : Str} (hx : splitOn '=' x = [t, v]) (hy : splitOn '=' y = [t', v']) (ht : words t = words t')
    (hv : words v = words v') (hr : strip v = strip v' ∨ ∀ w ∈ (words t).head?, lower w ∉ rawTags) : SameEntry x y := by
  refine ⟨by rw [hx, hy]; exact .cons ht (.cons hv .nil), fun a b a' b' e e' h => ?_, ?_⟩
  · rw [hx] at e; rw [hy] at e'; cases e; cases e'
    rcases hr with hr | hr
    · exact hr
    · obtain ⟨w, h1, h2⟩ := h; exact absurd h2 (hr w h1)
  · constructor
    · rintro rfl; simp [splitOn, splitP, consHead] at hx
    · rintro rfl; simp [splitOn, splitP, consHead] at hy

/-- The hypotheses are met by texts with several kinds of blanks, a raw tag, two entries on a line and a comment. -/
example : List.Forall₂ SameLine (readlines c!"NSW=5;ALGO = Fast # quick\nSYSTEM = a  b\nDIPOL=1 2 3\n")
    (readlines c!"  NSW =\t5 ; ALGO=Fast   #   quick  \n SYSTEM=a  b   \nDIPOL   =  1   2\t3") :=
  .cons ⟨by decide +kernel, .cons
      (.mk (t := c!"NSW") (v := c!"5") (t' := c!"  NSW ") (v' := c!"\t5 ") (by decide +kernel) (by decide +kernel) (by decide +kernel) (by decide +kernel) (by decide +kernel)) (.cons
      (.mk (t := c!"ALGO ") (v := c!" Fast ") (t' := c!" ALGO") (v' := c!"Fast   ") (by decide +kernel) (by decide +kernel) (by decide +kernel) (by decide +kernel) (by decide +kernel)) .nil)⟩
  (.cons ⟨by decide +kernel, .cons
      (.mk (t := c!"SYSTEM ") (v := c!" a  b\n") (t' := c!" SYSTEM") (v' := c!"a  b   \n") (by decide +kernel) (by decide +kernel) (by decide +kernel) (by decide +kernel) (by decide +kernel)) .nil⟩
  (.cons ⟨by decide +kernel, .cons
      (.mk (t := c!"DIPOL") (v := c!"1 2 3\n") (t' := c!"DIPOL   ") (v' := c!"  1   2\t3") (by decide +kernel) (by decide +kernel) (by decide +kernel) (by decide +kernel)
        (.inr (by decide +kernel))) .nil⟩ .nil))

/-- C102 is false for INCAR files in general: a blank behind a `;` at the end of a line makes any file be refused with code 102 that is
accepted without it. -/
theorem C102_violation_incar (F : FloatEnv) (allowed : List Str) (vt : Bool) (p e bl q : Str) (d : Entries) (hp : LineEnd p)
    (hn : ∀ c ∈ e, c ≠ '\n' ∧ c ≠ '#') (hbl : bl ≠ []) (hb : ∀ c ∈ bl, c = ' ' ∨ c = '\t')
    (h : init F allowed vt { handler := some (p ++ (e ++ c!";\n") ++ q) } = .ok d) :
    init F allowed vt { handler := some (p ++ (e ++ c!";" ++ bl ++ c!"\n") ++ q) } = .exit 102 := by
  have loaded : ∀ t : Str, init F allowed vt { handler := some t } = (fromList F (readlines t) >>= fun x => validate vt allowed x >>= fun _ => .ok x) :=
    fun _ => rfl
  have line : ∀ s : Str, (∀ c ∈ s, c = ' ' ∨ c = '\t') → '\n' ∉ e ++ ';' :: s ∧ '#' ∉ e ++ ';' :: (s ++ ['\n']) ∧ ';' ∉ s ++ ['\n'] ∧ '=' ∉ s ++ ['\n'] := by
    intro s hs
    refine ⟨?_, ?_, ?_, ?_⟩ <;> intro hm <;> simp only [List.mem_append, List.mem_cons, List.not_mem_nil, or_false] at hm
    · rcases hm with hm | hm | hm
      · exact (hn _ hm).1 rfl
      · exact absurd hm (by decide)
      · exact absurd (hs _ hm) (by decide)
    · rcases hm with hm | hm | hm | hm
      · exact (hn _ hm).2 rfl
      · exact absurd hm (by decide)
      · exact absurd (hs _ hm) (by decide)
      · exact absurd hm (by decide)
    all_goals
      rcases hm with hm | hm
      · exact absurd (hs _ hm) (by decide)
      · exact absurd hm (by decide)
  have parsed : ∀ s : Str, (∀ c ∈ s, c = ' ' ∨ c = '\t') → ∀ d, parseLine F d (e ++ ';' :: (s ++ ['\n'])) =
      (Res.foldlM' (parseEntry F none) d (splitOn ';' e) >>= fun d' => Res.foldlM' (parseEntry F none) d' [s ++ ['\n']]) := by
    intro s hs d
    obtain ⟨-, g2, g3, -⟩ := line s hs
    have hw : words (e ++ ';' :: (s ++ ['\n'])) ≠ [] := by
      intro hc
      have := (words_eq_nil_iff _).1 hc ';' (by simp)
      exact absurd this (by decide)
    unfold parseLine
    rw [split1_free g2, splitOn_free g2]
    simp only [List.head?_cons, Option.getD_some, List.isEmpty_iff, hw, if_false]
    rw [splitOn_sep, splitOn_free g3, Res.foldlM'_append]
  have whole : ∀ s : Str, (∀ c ∈ s, c = ' ' ∨ c = '\t') → fromList F (readlines (p ++ (e ++ ';' :: (s ++ ['\n'])) ++ q)) =
      (Res.foldlM' (parseLine F) [] (readlines p) >>= fun d0 => Res.foldlM' (parseEntry F none) d0 (splitOn ';' e) >>= fun d' =>
        Res.foldlM' (parseEntry F none) d' [s ++ ['\n']] >>= fun d1 => Res.foldlM' (parseLine F) d1 (readlines q)) := by
    intro s hs
    have e1 : p ++ (e ++ ';' :: (s ++ ['\n'])) ++ q = p ++ ((e ++ ';' :: s) ++ '\n' :: q) := by simp
    rw [e1, readlines_lineEnd hp, readlines_line_append q (line s hs).1]
    unfold fromList
    rw [Res.foldlM'_append]
    congr 1; funext d0
    have e2 : e ++ ';' :: s ++ ['\n'] = e ++ ';' :: (s ++ ['\n']) := by simp
    rw [e2, Res.foldlM', parsed s hs]
    cases Res.foldlM' (parseEntry F none) d0 (splitOn ';' e) with
    | ok d' => simp only [Res.ok_bind]; cases Res.foldlM' (parseEntry F none) d' [s ++ ['\n']] <;> rfl
    | exit => rfl
    | raise => rfl
  have e0 : p ++ (e ++ c!";\n") ++ q = p ++ (e ++ ';' :: ([] ++ ['\n'])) ++ q := rfl
  have e1 : p ++ (e ++ c!";" ++ bl ++ c!"\n") ++ q = p ++ (e ++ ';' :: (bl ++ ['\n'])) ++ q := by
    simp
  rw [loaded, e0, whole [] (by simp)] at h
  rw [loaded, e1, whole bl hb]
  obtain ⟨x, hx, -⟩ := Res.bind_eq_ok.1 h
  obtain ⟨d0, h0, hx⟩ := Res.bind_eq_ok.1 hx
  obtain ⟨d1, h1, -⟩ := Res.bind_eq_ok.1 hx
  rw [h0, Res.ok_bind, h1, Res.ok_bind]
  have : Res.foldlM' (parseEntry F none) d1 [bl ++ ['\n']] = .exit 102 := by
    unfold Res.foldlM' parseEntry
    have hne : bl ++ ['\n'] ≠ ['\n'] := by
      intro hc
      have := congrArg List.length hc
      simp at this; exact hbl this
    rw [if_neg hne, splitOn_free (line bl hb).2.2.2]
  rw [this]; rfl

example : init exactEnv [c!"nsw"] true { handler := some (c!"" ++ (c!"NSW = 5" ++ c!";\n") ++ c!"") } = .ok [(c!"nsw", ⟨c!"nsw", .one (.int 5), none⟩)] := by
  decide +kernel

end Verif.Incar
