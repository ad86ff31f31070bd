import Verif.Props.Case
import Verif.Props.IncarWrite
import Verif.Props.Utils
import Verif.Lemmas.Cut
import Mathlib.Data.List.Infix
/-! # C106 for INCAR -/
set_option autoImplicit false
namespace Verif.Incar
open Verif Verif.Utils

/-- Wherever a text says `.true.` or `.false.` in some mixture of cases, it uses one of the three spellings parsevasp knows. -/
def Spelled (s : Str) : Prop := ∀ m : Str, m <:+: s →
  (lower m = c!".true." → m = c!".True." ∨ m = c!".TRUE." ∨ m = c!".true.") ∧
  (lower m = c!".false." → m = c!".False." ∨ m = c!".FALSE." ∨ m = c!".false.")

/-- The same value but for the case of letters in text. -/
inductive SameScalar : Scalar → Scalar → Prop
  | int (i : Int) : SameScalar (.int i) (.int i)
  | float (f : PyFloat) : SameScalar (.float f) (.float f)
  | bool (b : Bool) : SameScalar (.bool b) (.bool b)
  | str {s t : Str} : SameButCase s t → SameScalar (.str s) (.str t)

/-- The same value but for the case of letters in text. -/
inductive SameValue : Value → Value → Prop
  | one {a b : Scalar} : SameScalar a b → SameValue (.one a) (.one b)
  | list {l m : List Scalar} : List.Forall₂ SameScalar l m → SameValue (.list l) (.list m)

/-- The same tag, value and comment but for the case of letters in text and comment. -/
def SameItem (a b : Item) : Prop := a.tag = b.tag ∧ SameValue a.value b.value ∧ a.comment.map lower = b.comment.map lower

/-- The same tags in the same order, with the same items but for the case of letters in text and comment. -/
def SameEntries (d e : Entries) : Prop := List.Forall₂ (fun p q : Str × Item => p.1 = q.1 ∧ SameItem p.2 q.2) d e

/-- Both spelled as parsevasp expects, and the same but for case. -/
def Both (a b : Str) : Prop := lower a = lower b ∧ Spelled a ∧ Spelled b

theorem Spelled.infix {a s : Str} (h : Spelled s) (ha : a <:+: s) : Spelled a := fun m hm => h m (hm.trans ha)

theorem forall₂_of_map {A B : List Str} (h : A.map lower = B.map lower) (hA : ∀ a ∈ A, Spelled a) (hB : ∀ b ∈ B, Spelled b) : List.Forall₂ Both A B := by
  induction A generalizing B with
  | nil => cases B with
    | nil => exact .nil
    | cons b bs => cases h
  | cons a as ih => cases B with
    | nil => cases h
    | cons b bs =>
      simp only [List.map_cons, List.cons.injEq] at h
      exact .cons ⟨h.1, hA a (by simp), hB b (by simp)⟩ (ih h.2 (fun x hx => hA x (by simp [hx])) fun x hx => hB x (by simp [hx]))

theorem consHead_infix {x : Char} {xs : Str} {P : List Str} (h : (∀ w ws, P = w :: ws → w <+: xs) ∧ ∀ w ∈ P, w <:+: xs) :
    (∀ w ws, consHead x P = w :: ws → w <+: x :: xs) ∧ ∀ w ∈ consHead x P, w <:+: x :: xs := by
  cases P with
  | nil =>
    have hp : [x] <+: x :: xs := ⟨xs, rfl⟩
    refine ⟨fun w ws e => ?_, fun w hw => ?_⟩
    · cases e; exact hp
    · rcases List.mem_singleton.1 hw with rfl; exact hp.isInfix
  | cons v vs =>
    have hp : x :: v <+: x :: xs := (List.prefix_cons_inj x).2 (h.1 v vs rfl)
    refine ⟨fun w ws e => ?_, fun w hw => ?_⟩
    · cases e; exact hp
    · rcases List.mem_cons.1 hw with rfl | hw
      · exact hp.isInfix
      · exact (h.2 w (by simp [hw])).trans (List.infix_cons_iff.2 (.inr (List.infix_refl _)))

theorem cons_nil_infix {x : Char} {xs : Str} {P : List Str} (h : ∀ w ∈ P, w <:+: xs) :
    (∀ w ws, [] :: P = w :: ws → w <+: x :: xs) ∧ ∀ w ∈ [] :: P, w <:+: x :: xs := by
  refine ⟨fun w ws e => ?_, fun w hw => ?_⟩
  · cases e; exact List.nil_prefix
  · rcases List.mem_cons.1 hw with rfl | hw
    · exact List.nil_infix
    · exact (h w hw).trans (List.infix_cons_iff.2 (.inr (List.infix_refl _)))

theorem splitP_infix (p : Char → Bool) (s : Str) : (∀ w ws, splitP p s = w :: ws → w <+: s) ∧ ∀ w ∈ splitP p s, w <:+: s := by
  induction s with
  | nil =>
    refine ⟨fun w ws e => ?_, fun w hw => ?_⟩
    · cases e; exact List.prefix_refl _
    · rcases List.mem_singleton.1 hw with rfl; exact List.infix_refl _
  | cons x xs ih =>
    rw [splitP]
    split
    · exact cons_nil_infix ih.2
    · exact consHead_infix ih

theorem splitlines_infix (s : Str) : (∀ w ws, splitlines s = w :: ws → w <+: s) ∧ ∀ w ∈ splitlines s, w <:+: s := by
  induction s using splitlines.induct with
  | case1 => exact ⟨fun _ _ e => (by cases e), fun _ h => (by cases h)⟩
  | case2 xs ih =>
    rw [splitlines]
    exact cons_nil_infix fun w hw => (ih.2 w hw).trans (List.infix_cons_iff.2 (.inr (List.infix_refl _)))
  | case3 x xs hx hb ih =>
    rw [splitlines, if_pos hb]
    · exact cons_nil_infix ih.2
    · exact hx
  | case4 x xs hx hb ih =>
    rw [splitlines, if_neg hb]
    · exact consHead_infix ih
    · exact hx

theorem words_infix {s w : Str} (h : w ∈ words s) : w <:+: s := (splitP_infix isSpace s).2 w (List.mem_of_mem_filter h)

theorem Both.splitOn {c : Char} (hc : NoLetter c) {a b : Str} (h : Both a b) : List.Forall₂ Both (splitOn c a) (splitOn c b) :=
  forall₂_of_map (by rw [← splitOn_lower hc, ← splitOn_lower hc, h.1]) (fun _ hx => h.2.1.infix (splitOn_infix hx)) (fun _ hx => h.2.2.infix (splitOn_infix hx))

theorem Both.words {a b : Str} (h : Both a b) : List.Forall₂ Both (words a) (words b) :=
  forall₂_of_map (by rw [← words_lower, ← words_lower, h.1]) (fun _ hx => h.2.1.infix (words_infix hx)) (fun _ hx => h.2.2.infix (words_infix hx))

/-! ### words -/

theorem infix_lower (m s : Str) : m <:+: lower s ↔ ∃ n, n <:+: s ∧ lower n = m := by
  unfold lower
  rw [List.infix_map_iff]
  constructor
  · rintro ⟨n, h, e⟩; exact ⟨n, h, e.symm⟩
  · rintro ⟨n, h, e⟩; exact ⟨n, h, e.symm⟩

theorem short_t {n : Str} {x : Char} (hx : 97 ≤ x.toNat ∧ x.toNat ≤ 122) (h : lower n = ['.', x, '.']) : n = ['.', x, '.'] ∨ n = ['.', upperC x, '.'] := by
  obtain ⟨a, b, c, rfl⟩ : ∃ a b c, n = [a, b, c] := by
    rcases n with _ | ⟨a, _ | ⟨b, _ | ⟨c, _ | ⟨d, ds⟩⟩⟩⟩ <;> simp at h
    exact ⟨a, b, c, rfl⟩
  simp only [lower_cons, lower_nil, List.cons.injEq, lowerC_eq_iff (x := '.') (by decide), and_true] at h
  obtain ⟨rfl, hb, rfl⟩ := h
  have hb' := congrArg Char.toNat hb
  rw [lowerC_toNat] at hb'
  split at hb'
  · right
    have : b = upperC x := by
      apply char_ext_toNat
      rw [upperC_toNat, if_pos (by simpa using hx)]; omega
    rw [this]
  · left
    rw [char_ext_toNat hb']

theorem truth_lower {s : Str} (h : Spelled s) :
    ((contains c!".True." s || contains c!".TRUE." s || contains c!".true." s || contains c!".t." s || contains c!".T." s) = true ↔
      c!".true." <:+: lower s ∨ c!".t." <:+: lower s) ∧
    ((contains c!".False." s || contains c!".FALSE." s || contains c!".false." s || contains c!".f." s || contains c!".F." s) = true ↔
      c!".false." <:+: lower s ∨ c!".f." <:+: lower s) := by
  simp only [Bool.or_eq_true, contains_iff, infix_lower]
  constructor
  · constructor
    · rintro ((((h1 | h1) | h1) | h1) | h1)
      · exact .inl ⟨_, h1, by decide⟩
      · exact .inl ⟨_, h1, by decide⟩
      · exact .inl ⟨_, h1, by decide⟩
      · exact .inr ⟨_, h1, by decide⟩
      · exact .inr ⟨_, h1, by decide⟩
    · rintro (⟨n, hn, e⟩ | ⟨n, hn, e⟩)
      · rcases (h n hn).1 e with rfl | rfl | rfl <;> simp [hn]
      · rcases short_t (x := 't') (by decide) e with rfl | rfl
        · simp [hn]
        · right; exact hn
  · constructor
    · rintro ((((h1 | h1) | h1) | h1) | h1)
      · exact .inl ⟨_, h1, by decide⟩
      · exact .inl ⟨_, h1, by decide⟩
      · exact .inl ⟨_, h1, by decide⟩
      · exact .inr ⟨_, h1, by decide⟩
      · exact .inr ⟨_, h1, by decide⟩
    · rintro (⟨n, hn, e⟩ | ⟨n, hn, e⟩)
      · rcases (h n hn).2 e with rfl | rfl | rfl <;> simp [hn]
      · rcases short_t (x := 'f') (by decide) e with rfl | rfl
        · simp [hn]
        · right; exact hn

theorem testStringForBool_case {a b : Str} (h : Both a b) : SameScalar (testStringForBool a) (testStringForBool b) := by
  have ha := truth_lower h.2.1
  have hb := truth_lower h.2.2
  rw [← h.1] at hb
  have e1 := Bool.eq_iff_iff.2 (ha.1.trans hb.1.symm)
  have e2 := Bool.eq_iff_iff.2 (ha.2.trans hb.2.symm)
  unfold testStringForBool
  rw [e1, e2]
  split
  · exact .bool _
  · split
    · exact .bool _
    · exact .str h.1

theorem count_lower (s : Str) : (lower s).count '.' = s.count '.' := by
  induction s with
  | nil => rfl
  | cons x xs ih => simp only [lower_cons, List.count_cons, ih, lowerC_beq (x := '.') (by decide)]

theorem hasE_lower (s : Str) : ((lower s).contains 'e' || (lower s).contains 'E') = (s.contains 'e' || s.contains 'E') := by
  have key : ∀ l : Str, (l.contains 'e' || l.contains 'E') = l.any fun y => y == 'e' || y == 'E' := by
    intro l
    rw [Bool.eq_iff_iff]
    simp only [Bool.or_eq_true, List.contains_iff_mem, List.any_eq_true, beq_iff_eq]
    constructor
    · rintro (h | h)
      · exact ⟨_, h, .inl rfl⟩
      · exact ⟨_, h, .inr rfl⟩
    · rintro ⟨x, h, rfl | rfl⟩
      · exact .inl h
      · exact .inr h
  rw [key, key]
  unfold lower
  rw [List.any_map]
  congr 1
  funext y
  exact lowerC_e y

theorem testStringContent_lower (s : Str) : testStringContent (lower s) = testStringContent s := by
  unfold testStringContent
  rw [pyFloat_lower, count_lower]
  have := hasE_lower s
  have e : (!(lower s).contains 'e' && !(lower s).contains 'E') = (!s.contains 'e' && !s.contains 'E') := by
    rw [← Bool.not_or, ← Bool.not_or, this]
  rw [Bool.and_assoc, Bool.and_assoc, e]

theorem cleanToken_case (F : FloatEnv) {a b : Str} (h : Both a b) :
    Alike (fun p q => p.1 = q.1 ∧ SameScalar p.2 q.2) (cleanToken F a) (cleanToken F b) := by
  have e1 : testStringContent a = testStringContent b := by rw [← testStringContent_lower a, h.1, testStringContent_lower]
  have e2 : pyInt a = pyInt b := by rw [← pyInt_lower a, h.1, pyInt_lower]
  have e3 : pyFloatR F a = pyFloatR F b := by rw [← pyFloatR_lower F a, h.1, pyFloatR_lower]
  unfold cleanToken
  rw [e1, e2, e3]
  cases testStringContent b with
  | int => cases pyInt b with
    | some i => exact ⟨rfl, .int i⟩
    | none => exact rfl
  | float => cases pyFloatR F b with
    | some i => exact ⟨rfl, .float i⟩
    | none => exact rfl
  | string => exact ⟨rfl, testStringForBool_case h⟩

theorem mapM'_alike {α β : Type} {Q : α → α → Prop} {R : β → β → Prop} {f : α → Res β} (hf : ∀ a b, Q a b → Alike R (f a) (f b)) {l m : List α}
    (h : List.Forall₂ Q l m) : Alike (List.Forall₂ R) (Res.mapM' f l) (Res.mapM' f m) := by
  induction h with
  | nil => exact .nil
  | @cons a b as bs hab _ ih =>
    have := hf a b hab
    rw [Res.mapM', Res.mapM']
    cases ha : f a <;> cases hb : f b <;> rw [ha, hb] at this <;> try exact this.elim
    · rename_i x y
      cases hx : Res.mapM' f as <;> cases hy : Res.mapM' f bs <;> rw [hx, hy] at ih <;> try exact ih.elim
      · exact .cons this ih
      · exact ih
      · exact ih
    · exact this
    · exact this

theorem foldlM'_alike {α σ : Type} {Q : α → α → Prop} {R : σ → σ → Prop} {f g : σ → α → Res σ} (hf : ∀ s t a b, R s t → Q a b → Alike R (f s a) (g t b))
    {l m : List α} (h : List.Forall₂ Q l m) : ∀ s t : σ, R s t → Alike R (Res.foldlM' f s l) (Res.foldlM' g t m) := by
  induction h with
  | nil => intro s t h; exact h
  | @cons a b as bs hab _ ih =>
    intro s t hst
    have := hf s t a b hst hab
    rw [Res.foldlM', Res.foldlM']
    cases ha : f s a <;> cases hb : g t b <;> rw [ha, hb] at this <;> try exact this.elim
    · exact ih _ _ this
    · exact this
    · exact this

theorem cleanString_case (F : FloatEnv) {a b : Str} (h : Both a b) : Alike SameValue (cleanString F a) (cleanString F b) := by
  have := mapM'_alike (f := cleanToken F) (fun _ _ h => cleanToken_case F h) h.words
  unfold cleanString
  cases ha : Res.mapM' (cleanToken F) (words a) <;> cases hb : Res.mapM' (cleanToken F) (words b) <;> rw [ha, hb] at this <;> try exact this.elim
  · rename_i r s
    have h1 : r.map Prod.fst = s.map Prod.fst := by
      clear ha hb
      induction this with
      | nil => rfl
      | cons hp _ ih => simp [hp.1, ih]
    have h2 : List.Forall₂ SameScalar (r.map Prod.snd) (s.map Prod.snd) := by
      clear ha hb h1
      induction this with
      | nil => exact .nil
      | cons hp _ ih => exact .cons hp.2 ih
    simp only [h1]
    split
    · show SameValue _ _
      generalize r.map Prod.snd = x at h2
      generalize s.map Prod.snd = y at h2
      cases h2 with
      | nil => exact .list .nil
      | cons h3 h4 =>
        cases h4 with
        | nil => exact .one h3
        | cons h5 h6 => exact .list (.cons h3 (.cons h5 h6))
    · exact rfl
  · exact this
  · exact this

theorem cleanEntry_case (F : FloatEnv) {t t' s s' : Str} {c c' : Option Str} (ht : lower t = lower t') (hs : Both s s') (hc : c.map lower = c'.map lower) :
    Alike SameItem (cleanEntry F t (.one (.str s)) c) (cleanEntry F t' (.one (.str s')) c') := by
  have hw : (words t).map lower = (words t').map lower := by rw [← words_lower, ← words_lower, ht]
  have hc' : (c.map strip).map lower = (c'.map strip).map lower := by
    have : ∀ o : Option Str, (o.map strip).map lower = (o.map lower).map strip := by
      intro o; cases o with
      | none => rfl
      | some x => simp [strip_lower]
    rw [this, this, hc]
  unfold cleanEntry
  cases ha : words t with
  | nil =>
    rw [ha] at hw
    cases hb : words t' with
    | nil => exact rfl
    | cons => rw [hb] at hw; cases hw
  | cons x xs =>
    rw [ha] at hw
    cases hb : words t' with
    | nil => rw [hb] at hw; cases hw
    | cons y ys =>
      rw [hb] at hw
      simp only [List.map_cons, List.cons.injEq] at hw
      simp only [hw.1]
      split
      · exact ⟨rfl, .one (.str (by unfold SameButCase; rw [← strip_lower, ← strip_lower, hs.1])), rfl⟩
      · have := cleanString_case F hs
        cases h1 : cleanString F s <;> cases h2 : cleanString F s' <;> rw [h1, h2] at this <;> try exact this.elim
        · exact ⟨rfl, this, hc'⟩
        · exact this
        · exact this

theorem SameEntries.set {d e : Entries} (h : SameEntries d e) {i j : Item} (hij : SameItem i j) : SameEntries (d.set i.tag i) (e.set j.tag j) := by
  rw [hij.1]
  induction h with
  | nil => exact .cons ⟨rfl, hij⟩ .nil
  | @cons p q ps qs hpq hrest ih =>
    obtain ⟨k, v⟩ := p
    obtain ⟨k', v'⟩ := q
    obtain ⟨rfl, hv⟩ := hpq
    rw [Dict.set, Dict.set]
    split
    · exact .cons ⟨rfl, hij⟩ hrest
    · exact .cons ⟨rfl, hv⟩ ih

theorem parseEntry_case (F : FloatEnv) {c c' : Option Str} (hc : c.map lower = c'.map lower) {d e : Entries} (hd : SameEntries d e) {x y : Str} (h : Both x y) :
    Alike SameEntries (parseEntry F c d x) (parseEntry F c' e y) := by
  have hn : x = ['\n'] ↔ y = ['\n'] := by
    have key : ∀ z : Str, lower z = ['\n'] ↔ z = ['\n'] := by
      intro z
      cases z with
      | nil => simp
      | cons x xs => simp only [lower_cons, List.cons.injEq, lower_eq_nil, lowerC_eq_iff (x := '\n') (by decide)]
    rw [← key x, ← key y, h.1]
  unfold parseEntry
  simp only [hn]
  split
  · exact hd
  · have hs := h.splitOn (c := '=') (by decide)
    generalize splitOn '=' x = A at hs
    generalize splitOn '=' y = B at hs
    cases hs with
    | nil => exact rfl
    | cons h1 hs => cases hs with
      | nil => exact rfl
      | cons h2 hs => cases hs with
        | nil =>
          have := cleanEntry_case F h1.1 h2 hc
          rename_i a b a' b'
          simp only
          cases e1 : cleanEntry F a (.one (.str a')) c <;> cases e2 : cleanEntry F b (.one (.str b')) c' <;> rw [e1, e2] at this <;> try exact this.elim
          · exact hd.set this
          · exact this
          · exact this
        | cons h3 hs => exact rfl

theorem parseLine_case (F : FloatEnv) {d e : Entries} (hd : SameEntries d e) {x y : Str} (h : Both x y) :
    Alike SameEntries (parseLine F d x) (parseLine F e y) := by
  have hb : (words (((splitOn '#' x).head?).getD [])).isEmpty = (words (((splitOn '#' y).head?).getD [])).isEmpty := by
    have hs := h.splitOn (c := '#') (by decide)
    generalize splitOn '#' x = A at hs
    generalize splitOn '#' y = B at hs
    cases hs with
    | nil => rfl
    | @cons a b _ _ h1 _ =>
      show (words a).isEmpty = (words b).isEmpty
      have hw : (words a).map lower = (words b).map lower := by rw [← words_lower, ← words_lower, h1.1]
      have := congrArg List.isEmpty hw
      simpa using this
  have h1 := split1_lower (x := '#') (by decide) x
  have h2 := split1_lower (x := '#') (by decide) y
  rw [h.1] at h1
  rw [h2] at h1
  simp only [Prod.mk.injEq] at h1
  have hbody : Both (split1 '#' x).1 (split1 '#' y).1 := by
    have key : ∀ z : Str, (split1 '#' z).1 <:+: z := by
      intro z
      induction z with
      | nil => exact List.infix_refl _
      | cons c cs ih =>
        rw [split1]
        split
        · exact List.nil_infix
        · rename_i hcc
          have hp : ∀ w : Str, (split1 '#' w).1 <+: w := by
            intro w
            induction w with
            | nil => exact List.prefix_refl _
            | cons c cs ih =>
              rw [split1]; split
              · exact List.nil_prefix
              · exact (List.prefix_cons_inj c).2 ih
          exact ((List.prefix_cons_inj c).2 (hp cs)).isInfix
    exact ⟨h1.1.symm, h.2.1.infix (key x), h.2.2.infix (key y)⟩
  unfold parseLine
  rw [hb]
  split
  · exact hd
  · exact foldlM'_alike (Q := Both) (fun s t a b hst hab => parseEntry_case F h1.2.symm hst hab) (hbody.splitOn (by decide)) d e hd

theorem fromList_case (F : FloatEnv) {A B : List Str} (h : List.Forall₂ Both A B) : Alike SameEntries (fromList F A) (fromList F B) :=
  foldlM'_alike (Q := Both) (fun s t a b hst hab => parseLine_case F hst hab) h [] [] .nil

theorem SameEntries.keys {d e : Entries} (h : SameEntries d e) : d.keys = e.keys := by
  induction h with
  | nil => rfl
  | cons h _ ih => simp only [Dict.keys, List.map_cons, h.1] at ih ⊢; rw [ih]

/-- C106 for INCAR: texts that differ only in the case of letters, and spell truth values in one of the known ways, are read alike, from a file as
from a string: the same tags with the same numbers and truth values, text and comments up to the case of letters, or the same refusal. Missing: other spellings of truth values, for which the claim is false (`C106_violation_*`). -/
theorem C106_incar_partial (F : FloatEnv) (allowed : List Str) (vt : Bool) (t u : Str) (h : SameButCase t u) (ht : Spelled t) (hu : Spelled u) :
    Alike SameEntries (init F allowed vt { handler := some t }) (init F allowed vt { handler := some u }) ∧
    Alike SameEntries (init F allowed vt { path := some (some t) }) (init F allowed vt { path := some (some u) }) ∧
    Alike SameEntries (init F allowed vt { string := some t }) (init F allowed vt { string := some u }) := by
  have hr : List.Forall₂ Both (readlines t) (readlines u) :=
    forall₂_of_map (by rw [← readlines_lower, ← readlines_lower, h]) (fun _ hx => ht.infix (infix_of_mem_readlines hx))
      (fun _ hx => hu.infix (infix_of_mem_readlines hx))
  have hs : List.Forall₂ Both (splitlines t) (splitlines u) :=
    forall₂_of_map (by rw [← splitlines_lower, ← splitlines_lower, h]) (fun _ hx => ht.infix ((splitlines_infix t).2 _ hx))
      (fun _ hx => hu.infix ((splitlines_infix u).2 _ hx))
  have key : ∀ A B : List Str, List.Forall₂ Both A B → Alike SameEntries (fromList F A >>= fun entries => validate vt allowed entries >>= fun _ => Res.ok entries)
      (fromList F B >>= fun entries => validate vt allowed entries >>= fun _ => Res.ok entries) := by
    intro A B hAB
    refine (fromList_case F hAB).bind fun d e hde => ?_
    have : validate vt allowed d = validate vt allowed e := by unfold validate; rw [hde.keys]
    rw [this]
    cases validate vt allowed e with
    | ok => exact hde
    | exit => exact rfl
    | raise => exact rfl
  exact ⟨key _ _ hr, key _ _ hr, key _ _ hs⟩

theorem not_contains {p w : Str} (hl : w.length ≤ p.length) (hne : w ≠ p) : contains p w = false := by
  rw [Bool.eq_false_iff]
  intro h
  have h := (contains_iff _ _).1 h
  exact hne (h.eq_of_length_le hl).symm

theorem not_contains' {p w : Str} (h : contains (lower p) (lower w) = false) : contains p w = false := by
  rw [Bool.eq_false_iff] at h ⊢
  intro hc
  exact h ((contains_iff _ _).2 (((contains_iff _ _).1 hc).map lowerC))

/-- C106 is false of other spellings: a truth value written in another mixture of cases stays text, while the same letters in lower case are a truth
value. -/
theorem C106_violation_incar (F : FloatEnv) (d : Entries) (tag w : Str) (htag : Token tag) (hk : lower tag ∉ rawTags)
    (hw : lower w = c!".true." ∨ lower w = c!".false.")
    (hn : w ∉ [c!".True.", c!".TRUE.", c!".true.", c!".False.", c!".FALSE.", c!".false."]) :
    (∃ d', modify F d tag (.one (.str w)) none = .ok d' ∧ get d' (lower tag) = some (.one (.str w))) ∧
    (∃ d' b, modify F d tag (.one (.str (lower w))) none = .ok d' ∧ get d' (lower tag) = some (.one (.bool b))) := by
  have tok : Token w := by
    refine ⟨?_, ?_⟩
    · rintro rfl; rcases hw with h | h <;> cases h
    · intro c hc
      have hm : lowerC c ∈ lower w := List.mem_map.2 ⟨c, hc, rfl⟩
      rw [← isSpace_lowerC]
      rcases hw with h | h <;> rw [h] at hm <;> revert hm <;> generalize lowerC c = x <;> intro hm <;>
        simp only [List.mem_cons, List.not_mem_nil, or_false] at hm
      · rcases hm with rfl | rfl | rfl | rfl | rfl | rfl <;> decide
      · rcases hm with rfl | rfl | rfl | rfl | rfl | rfl | rfl <;> decide
  have hnum : pyFloat w = none := by
    rw [← pyFloat_lower]
    rcases hw with h | h <;> rw [h] <;> decide
  have hlen : (lower w).length = w.length := by simp [lower]
  simp only [List.mem_cons, List.not_mem_nil, or_false, not_or] at hn
  obtain ⟨n1, n2, n3, n4, n5, n6⟩ := hn
  have htext : testStringForBool w = .str w := by
    have a4 : contains c!".t." w = false := not_contains' (by rcases hw with h | h <;> rw [h] <;> decide)
    have a5 : contains c!".T." w = false := not_contains' (by rcases hw with h | h <;> rw [h] <;> decide)
    have b4 : contains c!".f." w = false := not_contains' (by rcases hw with h | h <;> rw [h] <;> decide)
    have b5 : contains c!".F." w = false := not_contains' (by rcases hw with h | h <;> rw [h] <;> decide)
    have a123 : ∀ p, p = c!".True." ∨ p = c!".TRUE." ∨ p = c!".true." → contains p w = false := by
      intro p hp
      rcases hw with h | h
      · refine not_contains ?_ ?_
        · rw [← hlen, h]; rcases hp with rfl | rfl | rfl <;> decide
        · rcases hp with rfl | rfl | rfl <;> assumption
      · refine not_contains' ?_
        rw [h]; rcases hp with rfl | rfl | rfl <;> decide
    have b123 : ∀ p, p = c!".False." ∨ p = c!".FALSE." ∨ p = c!".false." → contains p w = false := by
      intro p hp
      rcases hw with h | h
      · refine not_contains' ?_
        rw [h]; rcases hp with rfl | rfl | rfl <;> decide
      · refine not_contains ?_ ?_
        · rw [← hlen, h]; rcases hp with rfl | rfl | rfl <;> decide
        · rcases hp with rfl | rfl | rfl <;> assumption
    unfold testStringForBool
    rw [a123 _ (.inl rfl), a123 _ (.inr (.inl rfl)), a123 _ (.inr (.inr rfl)), a4, a5, b123 _ (.inl rfl), b123 _ (.inr (.inl rfl)), b123 _ (.inr (.inr rfl)), b4, b5]
    rfl
  obtain ⟨b, hbool⟩ : ∃ b, testStringForBool (lower w) = .bool b := by
    rcases hw with h | h <;> rw [h]
    · exact ⟨true, by decide⟩
    · exact ⟨false, by decide⟩
  have run : ∀ (v : Str) (x : Scalar), Token v → pyFloat v = none → testStringForBool v = x →
      ∃ d', modify F d tag (.one (.str v)) none = .ok d' ∧ get d' (lower tag) = some (.one x) := by
    intro v x hv hf hx
    have hc : cleanString F v = .ok (.one x) := by
      unfold cleanString
      rw [words_token hv]
      simp only [Res.mapM', cleanToken, testStringContent, hf, hx]
      rfl
    refine ⟨d.set (lower tag) ⟨lower tag, .one x, none⟩, ?_, ?_⟩
    · unfold modify cleanEntry
      rw [words_token htag]
      simp only [if_neg hk, hc]
      rfl
    · unfold get
      rw [Dict.get?_set, if_pos rfl]; rfl
  refine ⟨run w _ tok hnum htext, ?_⟩
  obtain ⟨d', h1, h2⟩ := run (lower w) (.bool b) tok.lower (by rw [pyFloat_lower]; exact hnum) hbool
  exact ⟨d', b, h1, h2⟩

example (F : FloatEnv) : ∃ d', modify F [] c!"LWAVE" (.one (.str c!".tRUE.")) none = .ok d' ∧ get d' c!"lwave" = some (.one (.str c!".tRUE.")) :=
  (C106_violation_incar F [] c!"LWAVE" c!".tRUE." ⟨by decide, by decide⟩ (by decide) (.inl (by decide)) (by decide)).1

theorem spelled_of_no_dot {s : Str} (h : '.' ∉ s) : Spelled s := by
  have key : ∀ m : Str, m <:+: s → ∀ r : Str, lower m ≠ '.' :: r := by
    intro m hm r e
    cases m with
    | nil => cases e
    | cons x xs =>
      simp only [lower_cons, List.cons.injEq] at e
      exact h (hm.subset (by rw [(lowerC_eq_iff (by decide) x).1 e.1]; simp))
  intro m hm
  exact ⟨fun e => absurd e (key m hm _), fun e => absurd e (key m hm _)⟩

example : SameButCase c!"Encut = 3E2\nSYSTEM = Gold\n" c!"ENCUT = 3e2\nsystem = gold\n" ∧ Spelled c!"Encut = 3E2\nSYSTEM = Gold\n" ∧
    Spelled c!"ENCUT = 3e2\nsystem = gold\n" :=
  ⟨by decide +kernel, spelled_of_no_dot (by decide), spelled_of_no_dot (by decide)⟩

theorem spelled_iff (s : Str) : Spelled s ↔ ∀ t ∈ s.tails, ∀ m ∈ t.inits,
    (lower m = c!".true." → m = c!".True." ∨ m = c!".TRUE." ∨ m = c!".true.") ∧
    (lower m = c!".false." → m = c!".False." ∨ m = c!".FALSE." ∨ m = c!".false.") := by
  constructor
  · intro h t ht m hm
    exact h m (List.infix_iff_prefix_suffix.2 ⟨t, (List.mem_inits _ _).1 hm, (List.mem_tails _ _).1 ht⟩)
  · intro h m hm
    obtain ⟨t, h1, h2⟩ := List.infix_iff_prefix_suffix.1 hm
    exact h t ((List.mem_tails _ _).2 h2) m ((List.mem_inits _ _).2 h1)

example : SameButCase c!"LWAVE = .FALSE.\nSYSTEM = Gold" c!"lwave = .False.\nSystem = gold" ∧ Spelled c!"LWAVE = .FALSE.\nSYSTEM = Gold" ∧
    Spelled c!"lwave = .False.\nSystem = gold" :=
  ⟨by decide +kernel, (spelled_iff _).2 (by decide +kernel), (spelled_iff _).2 (by decide +kernel)⟩

end Verif.Incar
