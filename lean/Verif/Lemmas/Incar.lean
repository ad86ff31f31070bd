import Verif.Model.Incar
import Verif.Spec.Incar
import Verif.Lemmas.Str
import Verif.Lemmas.Num
import Verif.Lemmas.Dict
/-! Helper lemmas about the INCAR model. -/
set_option autoImplicit false
namespace Verif.Incar
open Verif Verif.Utils Verif.IncarSpec

theorem split1_fst_takeWhile (c : Char) (s : Str) : (split1 c s).1 = s.takeWhile (· != c) := by
  induction s with
  | nil => rfl
  | cons x xs ih =>
    simp only [split1, List.takeWhile_cons]
    by_cases h : x = c
    · simp [h]
    · simp [h, ih]

theorem split1_snd (c : Char) (s : Str) :
    (split1 c s).2 = match s.dropWhile (· != c) with | [] => none | _ :: r => some r := by
  induction s with
  | nil => rfl
  | cons x xs ih =>
    simp only [split1, List.dropWhile_cons]
    by_cases h : x = c
    · simp [h]
    · simp [h, ih]

theorem words_eq_nil_iff (s : Str) : words s = [] ↔ ∀ c ∈ s, isSpace c = true := by
  constructor
  · intro h
    induction s with
    | nil => simp
    | cons x xs ih =>
      by_cases hx : isSpace x = true
      · rw [words_space_cons _ _ hx] at h
        simp only [List.mem_cons, forall_eq_or_imp]; exact ⟨hx, ih h⟩
      · exfalso
        simp only [words, splitP, hx] at h
        cases hs : splitP isSpace xs with
        | nil => exact splitP_ne_nil _ _ hs
        | cons w ws => simp [hs, consHead] at h
  · intro h
    have := words_spaces_append s [] h
    simpa using this

/-- One assignment interpreted. -/
def itemOf (F : FloatEnv) (p : Str × Option Str) : Res Item :=
  match splitOn '=' p.1 with
  | [tag, value] => cleanEntry F tag (.one (.str value)) p.2
  | _ :: _ :: _ :: _ => .exit 101
  | _ => .exit 102

theorem parseEntry_eq (F : FloatEnv) (c : Option Str) (d : Entries) (p : Str) :
    parseEntry F c d p = if p = ['\n'] then .ok d else (itemOf F (p, c) >>= fun i => .ok (d.set i.tag i)) := by
  unfold parseEntry itemOf
  split
  · rfl
  · dsimp only
    match splitOn '=' p with
    | [] => rfl
    | [_] => rfl
    | [tag, value] => dsimp only; cases cleanEntry F tag (.one (.str value)) c <;> rfl
    | _ :: _ :: _ :: _ => rfl

theorem foldl_entries (F : FloatEnv) (c : Option Str) (d : Entries) (ps : List Str) :
    Res.foldlM' (parseEntry F c) d ps =
      (Res.mapM' (fun p => itemOf F (p, c)) (ps.filter fun p => !decide (p = ['\n'])) >>= fun is =>
        .ok (is.foldl (fun d i => d.set i.tag i) d)) := by
  induction ps generalizing d with
  | nil => rfl
  | cons p ps ih =>
    rw [Res.foldlM', parseEntry_eq]
    by_cases hp : p = ['\n']
    · simp [hp, ih]
    · simp only [hp, if_false, decide_false, List.filter_cons, Bool.not_false, if_true, Res.mapM']
      cases itemOf F (p, c) with
      | ok i =>
        simp only [Res.ok_bind, ih]
        cases Res.mapM' (fun p => itemOf F (p, c)) _ <;> simp
      | exit => rfl
      | raise => rfl

theorem parseLine_eq (F : FloatEnv) (d : Entries) (line : Str) :
    parseLine F d line =
      (Res.mapM' (fun p => itemOf F (p, remark line)) (assignTexts line) >>= fun is =>
        .ok (is.foldl (fun d i => d.set i.tag i) d)) := by
  have h1 : ((splitOn '#' line).head?).getD [] = code line := by
    rw [split1_fst_eq_head, Option.getD_some, split1_fst_takeWhile]; rfl
  have h2 : (split1 '#' line).2 = remark line := by rw [split1_snd]; rfl
  have h3 : (split1 '#' line).1 = code line := split1_fst_takeWhile _ _
  unfold parseLine
  simp only [h1, h2, h3, assignTexts]
  by_cases hb : Blank line
  · have : words (code line) = [] := (words_eq_nil_iff _).2 hb
    simp [this, hb, Res.mapM']
  · have : words (code line) ≠ [] := fun h => hb ((words_eq_nil_iff _).1 h)
    have h4 : (words (code line)).isEmpty = false := by simpa using this
    simp only [h4, hb, if_false, Bool.false_eq_true]
    rw [foldl_entries]

theorem mapM'_append {α β} (f : α → Res β) (a b : List α) :
    Res.mapM' f (a ++ b) = (Res.mapM' f a >>= fun x => Res.mapM' f b >>= fun y => .ok (x ++ y)) := by
  induction a with
  | nil => simp [Res.mapM']; cases Res.mapM' f b <;> rfl
  | cons a as ih =>
    simp only [List.cons_append, Res.mapM', ih]
    cases f a <;> cases Res.mapM' f as <;> cases Res.mapM' f b <;> simp

theorem mapM'_map {α β γ} (f : β → Res γ) (g : α → β) (l : List α) :
    Res.mapM' f (l.map g) = Res.mapM' (fun a => f (g a)) l := by
  induction l with
  | nil => rfl
  | cons a as ih => simp only [List.map_cons, Res.mapM', ih]

theorem foldlM'_parse (F : FloatEnv) (d : Entries) (lines : List Str) :
    Res.foldlM' (parseLine F) d lines =
      (Res.mapM' (itemOf F) (assigns lines) >>= fun is => .ok (is.foldl (fun d i => d.set i.tag i) d)) := by
  induction lines generalizing d with
  | nil => rfl
  | cons l ls ih =>
    simp only [Res.foldlM', assigns, List.flatMap_cons]
    rw [parseLine_eq, mapM'_append, mapM'_map]
    cases Res.mapM' (fun a => itemOf F (a, remark l)) (assignTexts l) with
    | ok is =>
      simp only [Res.ok_bind, ih]
      change _ = (Res.mapM' (itemOf F) (assigns ls) >>= _) >>= _
      cases Res.mapM' (itemOf F) (assigns ls) <;> simp
    | exit => rfl
    | raise => rfl

/-- The parser: interpret all assignments in order, store them in order. -/
theorem fromList_eq (F : FloatEnv) (lines : List Str) :
    fromList F lines = (Res.mapM' (itemOf F) (assigns lines) >>= fun is =>
      .ok (is.foldl (fun d i => Dict.set d i.tag i) [])) := foldlM'_parse F [] lines

theorem get?_foldl_set (d : Entries) (is : List Item) (t : Str) :
    (is.foldl (fun d i => Dict.set d i.tag i) d).get? t = (lastFor Item.tag t is).or (d.get? t) := by
  induction is generalizing d with
  | nil => simp [lastFor]
  | cons i is ih =>
    rw [List.foldl_cons, ih, Dict.get?_set]
    simp only [lastFor, List.filter_cons]
    by_cases h : i.tag = t
    · simp only [h, decide_true, if_true, List.getLast?_cons]
      cases (is.filter fun a => decide (a.tag = t)).getLast? <;> simp
    · simp [h]

theorem keys_foldl_nodup (d : Entries) (is : List Item) (h : d.keys.Nodup) :
    (is.foldl (fun d i => Dict.set d i.tag i) d).keys.Nodup := by
  induction is generalizing d with
  | nil => exact h
  | cons i is ih => exact ih _ (Dict.keys_set_nodup _ _ _ h)

/-! ### number of `=` -/

theorem length_splitP (p : Char → Bool) (s : Str) : (splitP p s).length = s.countP p + 1 := by
  induction s with
  | nil => rfl
  | cons x xs ih =>
    simp only [splitP]
    by_cases h : p x = true
    · simp [h, ih]
    · have hne := splitP_ne_nil p xs
      cases hs : splitP p xs with
      | nil => exact absurd hs hne
      | cons w ws => rw [hs] at ih; simp [h, consHead] at ih ⊢; omega

theorem length_splitOn (c : Char) (s : Str) : (splitOn c s).length = s.count c + 1 := by
  rw [splitOn, length_splitP]; rfl

/-! ### newline at the end -/

/-- Append a character to the last piece. -/
def snocLast (x : Char) : List Str → List Str
  | [] => [[x]]
  | [w] => [w ++ [x]]
  | w :: w' :: ws => w :: snocLast x (w' :: ws)

theorem splitP_snoc (p : Char → Bool) (s : Str) (x : Char) (hx : p x = false) :
    splitP p (s ++ [x]) = snocLast x (splitP p s) := by
  induction s with
  | nil => simp [splitP, hx, consHead, snocLast]
  | cons y ys ih =>
    simp only [List.cons_append, splitP, ih]
    have hne := splitP_ne_nil p ys
    cases hs : splitP p ys with
    | nil => exact absurd hs hne
    | cons w ws =>
      cases ws with
      | nil => split <;> simp [snocLast, consHead]
      | cons w' ws => split <;> simp [snocLast, consHead]

theorem words_newline (s : Str) : words (s ++ ['\n']) = words s := words_append_space s '\n' (by decide)

theorem strip_snoc_space (s : Str) (c : Char) (h : isSpace c = true) : strip (s ++ [c]) = strip s := by
  have key : ∀ s : Str, lstrip (s ++ [c]) = lstrip s ++ [c] ∨ (lstrip (s ++ [c]) = [] ∧ lstrip s = []) := by
    intro s
    induction s with
    | nil => right; simp [lstrip, h]
    | cons x xs ih =>
      by_cases hx : isSpace x = true
      · simpa [lstrip, hx] using ih
      · left; simp [lstrip, hx]
  unfold strip
  rcases key s with h' | ⟨h1, h2⟩
  · rw [h', rstrip_append_spaces _ _ (by simpa using h)]
  · rw [h1, h2]

theorem cleanEntry_str (F : FloatEnv) (tag s : Str) (c : Option Str) :
    cleanEntry F tag (.one (.str s)) c = match words tag with
      | [] => .raise .indexError
      | t :: _ => if lower t ∈ rawTags then .ok ⟨lower t, .one (.str (strip s)), none⟩
        else (cleanString F s >>= fun v => .ok ⟨lower t, v, c.map strip⟩) := by
  unfold cleanEntry
  cases words tag with
  | nil => rfl
  | cons t ts => dsimp only; split
                 · rfl
                 · cases cleanString F s <;> rfl

theorem cleanEntry_value_newline (F : FloatEnv) (tag v : Str) (c : Option Str) :
    cleanEntry F tag (.one (.str (v ++ ['\n']))) c = cleanEntry F tag (.one (.str v)) c := by
  rw [cleanEntry_str, cleanEntry_str]
  unfold cleanString
  rw [words_newline, strip_snoc_space _ _ (by decide)]

theorem cleanEntry_comment_newline (F : FloatEnv) (tag : Str) (v : Value) (c : Str) :
    cleanEntry F tag v (some (c ++ ['\n'])) = cleanEntry F tag v (some c) := by
  unfold cleanEntry
  simp [strip_snoc_space c '\n' (by decide)]

theorem itemOf_newline (F : FloatEnv) (p : Str) (c : Option Str) : itemOf F (p ++ ['\n'], c) = itemOf F (p, c) := by
  unfold itemOf splitOn
  dsimp only
  rw [splitP_snoc _ _ _ (by decide)]
  match splitP (· == '=') p with
  | [] => rfl
  | [w] => rfl
  | [w, v] => simp only [snocLast]; exact cleanEntry_value_newline F w v c
  | w :: v :: x :: xs => cases xs <;> rfl

theorem itemOf_comment_newline (F : FloatEnv) (p : Str) (c : Str) :
    itemOf F (p, some (c ++ ['\n'])) = itemOf F (p, some c) := by
  unfold itemOf
  dsimp only
  split
  · exact cleanEntry_comment_newline F _ _ c
  · rfl
  · rfl

theorem code_eq_split1 (l : Str) : code l = (split1 '#' l).1 := (split1_fst_takeWhile _ _).symm
theorem remark_eq_split1 (l : Str) : remark l = (split1 '#' l).2 := by rw [split1_snd]; rfl

theorem code_eq_self {l : Str} (h : '#' ∉ l) : code l = l := by rw [code_eq_split1, split1_free h]
theorem remark_none {l : Str} (h : '#' ∉ l) : remark l = none := by rw [remark_eq_split1, split1_free h]
theorem code_hash {l : Str} (c : Str) (h : '#' ∉ l) : code (l ++ '#' :: c) = l := by rw [code_eq_split1, split1_sep c h]
theorem remark_hash {l : Str} (c : Str) (h : '#' ∉ l) : remark (l ++ '#' :: c) = some c := by
  rw [remark_eq_split1, split1_sep c h]

/-- Every line is either free of `#` or splits at its first `#`. -/
theorem hash_cases (l : Str) : '#' ∉ l ∨ ∃ a c, '#' ∉ a ∧ l = a ++ '#' :: c := by
  induction l with
  | nil => left; simp
  | cons x xs ih =>
    by_cases hx : x = '#'
    · right; exact ⟨[], xs, by simp, by simp [hx]⟩
    · rcases ih with h | ⟨a, c, ha, he⟩
      · left; simp only [List.mem_cons, not_or]; exact ⟨Ne.symm hx, h⟩
      · right; refine ⟨x :: a, c, ?_, by simp [he]⟩
        simp only [List.mem_cons, not_or]; exact ⟨Ne.symm hx, ha⟩

end Verif.Incar
