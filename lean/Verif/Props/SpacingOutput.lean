import Verif.Props.Spacing
import Verif.Props.CutEigenval
import Verif.Props.CutDoscar
/-! # C102 for DOSCAR and EIGENVAL -/
set_option autoImplicit false
namespace Verif

theorem lineToType_words {α : Type} (conv : Str → Res α) {a b : Str} (h : words a = words b) :
    Utils.lineToType conv a = Utils.lineToType conv b := by unfold Utils.lineToType; rw [h]

theorem mapM'_forall₂ {α β : Type} {f : α → Res β} {A B : List α} (h : List.Forall₂ (fun a b => f a = f b) A B) :
    Res.mapM' f A = Res.mapM' f B := by
  induction h with
  | nil => rfl
  | cons h _ ih => simp only [Res.mapM', h, ih]

theorem forall₂_drop {α β : Type} {R : α → β → Prop} (k : Nat) {A : List α} {B : List β} (h : List.Forall₂ R A B) : List.Forall₂ R (A.drop k) (B.drop k) := by
  induction h generalizing k with
  | nil => simp
  | cons h hs ih =>
    cases k with
    | zero => exact .cons h hs
    | succ k => exact ih k

namespace Doscar
open Verif.Spacing Verif.Utils
open Verif.Kpoints (idx toFloat toInt)

theorem fromList_respaced (nc : Bool) {A B : List Str} (hw : Respaced A B)
    (hn : ∀ a b : Str, A[4]? = some a → B[4]? = some b → strip a = strip b) : fromList nc A = fromList nc B := by
  have hl := hw.length_eq
  have h : ∀ (i : Nat) (a b : Str), A[i]? = some a → B[i]? = some b → words a = words b := forall₂_get hw
  have hd : Res.mapM' (lineToType toFloat) (A.drop 6) = Res.mapM' (lineToType toFloat) (B.drop 6) :=
    mapM'_forall₂ ((forall₂_drop 6 hw).imp fun a b hab => lineToType_words _ hab)
  unfold fromList
  refine idx_congr hl 0 fun a b ha hb => ?_
  rw [lineToType_words _ (h _ _ _ ha hb)]
  congr 1; funext v0
  congr 1; funext h0
  refine idx_congr hl 3 fun a b ha hb => ?_
  rw [lineToType_words _ (h _ _ _ ha hb)]
  congr 1; funext coord
  refine idx_congr hl 4 fun a4 b4 ha4 hb4 => ?_
  refine idx_congr hl 5 fun a b ha hb => ?_
  rw [lineToType_words _ (h _ _ _ ha hb), hd]
  unfold lineToTypeNoSplit
  rw [hn a4 b4 ha4 hb4]

/-- C102 for DOSCAR: two texts with the same words on every line (and the same blanks inside the name on the fifth line) are read
alike: the same data, or the same refusal. -/
theorem C102_doscar (nc : Bool) (t u : Str) (hw : Respaced (readlines t) (readlines u))
    (hn : ∀ a b : Str, (readlines t)[4]? = some a → (readlines u)[4]? = some b → strip a = strip b) :
    init none (some t) nc = init none (some u) nc ∧ init (some (some t)) none nc = init (some (some u)) none nc :=
  ⟨fromList_respaced nc hw hn, fromList_respaced nc hw hn⟩

end Doscar

namespace Eigenval
open Verif.Spacing Verif.Utils
open Verif.Kpoints (idx toFloat toInt)
open Verif.Doscar (unpack cartesianOf)

theorem skip_forall₂ {L M : List Str} (h : List.Forall₂ SameWords L M) : List.Forall₂ SameWords (skip L) (skip M) := by
  induction h with
  | nil => simp [skip]
  | cons h hs ih =>
    cases hs with
    | nil => simpa [skip] using h
    | cons h' hs' =>
      unfold skip
      have h1 : words _ = words _ := h
      rw [h1]
      split
      · exact ih
      · exact .cons h (.cons h' hs')

theorem join_skip_length (M : List Str) : (join ['\n'] (skip M)).length ≤ (join ['\n'] M).length := by
  induction M with
  | nil => simp [skip]
  | cons a as ih =>
    cases as with
    | nil => simp [skip]
    | cons b bs =>
      unfold skip
      split
      · refine le_trans ih ?_
        simp only [join, List.length_append]
        omega
      · exact le_refl _

/-- The blocks depend on the words of the lines only. -/
theorem blocks_respaced : ∀ (k : Nat) (L M : List Str) (n m : Nat), L.length ≤ k → (∀ l ∈ L, Lf l) → (∀ l ∈ M, Lf l) → List.Forall₂ SameWords L M →
    (join ['\n'] L).length ≤ n → (join ['\n'] M).length ≤ m →
    (splitEmpty n (join ['\n'] L)).map bw = (splitEmpty m (join ['\n'] M)).map bw
  | _, [], [], n, m, _, _, _, _, _, _ => by cases n <;> cases m <;> rfl
  | 0, l :: L, M, n, m, hk, _, _, _, _, _ => by simp at hk
  | k + 1, [l], [l'], n, m, _, hf, hf', h, hn, hm => by
    have hl := hf l (by simp)
    have hl' := hf' l' (by simp)
    have hww : words l = words l' := by cases h; assumption
    have one : ∀ (l : Str) (n : Nat), Lf l → (join ['\n'] [l]).length ≤ n → (splitEmpty n (join ['\n'] [l])).map bw = [bw l] := by
      intro l n hl hn
      simp only [join] at hn ⊢
      have := splitEmpty_prefix hl [] (n - l.length)
      rw [List.append_nil, Nat.add_sub_cancel' hn] at this
      rw [this]
      have hs : splitEmpty (n - l.length) [] = [[]] := by cases n - l.length <;> rfl
      rw [hs]
      simp [consStr]
    rw [one l n hl hn, one l' m hl' hm, bw_line hl, bw_line hl', hww]
  | k + 1, l :: x :: xs, l' :: x' :: xs', n, m, hk, hf, hf', h, hn, hm => by
    obtain ⟨h1, h2⟩ := List.forall₂_cons.1 h
    obtain ⟨h3, h4⟩ := List.forall₂_cons.1 h2
    have h1 : words l = words l' := h1
    have h3 : words x = words x' := h3
    have step : ∀ (l x : Str) (xs : List Str) (n : Nat), (∀ y ∈ l :: x :: xs, Lf y) → (join ['\n'] (l :: x :: xs)).length ≤ n →
        (join ['\n'] (x :: xs)).length ≤ n - l.length - 1 ∧
        (splitEmpty n (join ['\n'] (l :: x :: xs))).map bw =
          if xs ≠ [] ∧ words x = [] then bw l :: (splitEmpty (n - l.length - 1) (join ['\n'] (skip (x :: xs)))).map bw
          else match (splitEmpty (n - l.length - 1) (join ['\n'] (x :: xs))).map bw with
            | b :: bs => ((if words l = [] then [] else [words l]) ++ b) :: bs
            | [] => [] := by
      intro l x xs n hf hn
      have hl := hf l (by simp)
      have hfr : ∀ y ∈ x :: xs, Lf y := fun y hy => hf y (by simp [hy])
      have e : join ['\n'] (l :: x :: xs) = l ++ '\n' :: join ['\n'] (x :: xs) := by simp [join]
      rw [e] at hn ⊢
      have hlen : l.length + 1 + (join ['\n'] (x :: xs)).length ≤ n := by simp at hn; omega
      refine ⟨by omega, ?_⟩
      have hsp := splitEmpty_prefix hl ('\n' :: join ['\n'] (x :: xs)) (n - l.length - 1 + 1)
      rw [show l.length + (n - l.length - 1 + 1) = n by omega, splitEmpty, if_pos isNl_nl, skipBlank_join (x :: xs) hfr (by simp)] at hsp
      have no : ∀ {o : Option Str}, o = none → splitEmpty n (l ++ '\n' :: join ['\n'] (x :: xs)) = consStr l
          (match o with
          | some r => [] :: splitEmpty (n - l.length - 1) r
          | none => consHead '\n' (splitEmpty (n - l.length - 1) (join ['\n'] (x :: xs)))) →
          (splitEmpty n (l ++ '\n' :: join ['\n'] (x :: xs))).map bw =
          match (splitEmpty (n - l.length - 1) (join ['\n'] (x :: xs))).map bw with
            | b :: bs => ((if words l = [] then [] else [words l]) ++ b) :: bs
            | [] => [] := by
        intro o ho hsp
        subst ho
        rw [hsp]
        cases hs : splitEmpty (n - l.length - 1) (join ['\n'] (x :: xs)) with
        | nil => exact absurd hs (splitEmpty_ne_nil _ _)
        | cons w ws => simp only [consHead, consStr, List.map_cons, bw_cons _ hl]
      cases xs with
      | nil =>
        rw [if_neg (by simp)]
        exact no rfl hsp
      | cons y ys =>
        by_cases hx : words x = []
        · rw [if_pos ⟨by simp, hx⟩, hsp]
          simp only [hx, if_true, consStr, List.append_nil, List.map_cons]
        · rw [if_neg (by simp [hx])]
          exact no (if_neg hx) hsp
    obtain ⟨g1, g2⟩ := step l x xs n hf hn
    obtain ⟨g1', g2'⟩ := step l' x' xs' m hf' hm
    have hfr : ∀ y ∈ x :: xs, Lf y := fun y hy => hf y (by simp [hy])
    have hfr' : ∀ y ∈ x' :: xs', Lf y := fun y hy => hf' y (by simp [hy])
    have hxs : xs ≠ [] ↔ xs' ≠ [] := by cases h4 <;> simp
    rw [g2, g2', h1, h3, bw_line (hf l (by simp)), bw_line (hf' l' (by simp)), h1,
      blocks_respaced k (x :: xs) (x' :: xs') _ _ (by simp at hk ⊢; omega) hfr hfr' h2 g1 g1',
      blocks_respaced k (skip (x :: xs)) (skip (x' :: xs')) _ _ (le_trans (skip_length _) (by simp at hk ⊢; omega))
        (fun z hz => hfr z (skip_mem hz)) (fun z hz => hfr' z (skip_mem hz)) (skip_forall₂ h2)
        (le_trans (join_skip_length _) g1) (le_trans (join_skip_length _) g1')]
    simp only [hxs]
  | _, [], _ :: _, _, _, _, _, _, h, _, _ => by cases h
  | _, _ :: _, [], _, _, _, _, _, h, _, _ => by cases h
  | _ + 1, [_], _ :: _ :: _, _, _, _, _, _, h, _, _ => by cases h with | cons _ h => cases h
  | _ + 1, _ :: _ :: _, [_], _, _, _, _, _, h, _, _ => by cases h with | cons _ h => cases h

/-- The words of the pieces between newlines: those of the lines, and an empty piece behind a last newline. -/
theorem splitOn_words_end : ∀ (n : Nat) (u : Str), u.length ≤ n →
    (splitOn '\n' u).map words = (readlines u).map words ++ (if u = [] ∨ u.getLast? = some '\n' then [[]] else [])
  | 0, u, h => by
    cases u with
    | nil => decide
    | cons x xs => simp at h
  | n + 1, u, h => by
    by_cases hm : '\n' ∈ u
    · obtain ⟨a, b, rfl, ha⟩ := List.eq_append_cons_of_mem hm
      rw [readlines_line_append b ha, splitOn_sep, splitOn_free ha]
      simp only [List.map_append, List.map_cons, List.map_nil, words_append_space a '\n' isSpace_nl, List.singleton_append]
      rw [splitOn_words_end n b (by simp at h; omega)]
      have : (b = [] ∨ b.getLast? = some '\n') ↔ (a ++ '\n' :: b = [] ∨ (a ++ '\n' :: b).getLast? = some '\n') := by
        cases b with
        | nil => simp
        | cons y ys => simp
      simp only [this, List.cons_append]
    · cases u with
      | nil => decide
      | cons x xs =>
        have hne : ¬ ((x :: xs : Str) = [] ∨ (x :: xs : Str).getLast? = some '\n') := by
          rintro (h | h)
          · cases h
          · exact hm (List.mem_of_getLast? h)
        rw [if_neg hne, readlines_noeol hm (by simp), splitOn_free hm]; rfl

theorem getLast?_flatten {L : List Str} (h : ∀ l ∈ L, l ≠ []) : L.flatten.getLast? = L.getLast?.bind List.getLast? := by
  rcases List.eq_nil_or_concat L with rfl | ⟨M, l, rfl⟩
  · rfl
  · have := h l (by simp)
    simp [List.getLast?_append]
    cases hl : l.getLast? with
    | none => exact absurd (List.getLast?_eq_none_iff.1 hl) this
    | some c => rfl

theorem drop_lineEnd (k : Nat) (t : Str) : (((readlines t).drop k).flatten = [] ∨ ((readlines t).drop k).flatten.getLast? = some '\n') ↔
    (readlines t).length ≤ k ∨ t.getLast? = some '\n' := by
  have hne : ∀ l ∈ readlines t, l ≠ [] := fun l hl => readlines_ne_nil hl
  have hne' : ∀ l ∈ (readlines t).drop k, l ≠ [] := fun l hl => hne l (List.mem_of_mem_drop hl)
  rw [getLast?_flatten hne', ← flatten_readlines t, flatten_readlines t]
  by_cases hk : (readlines t).length ≤ k
  · simp [List.drop_eq_nil_of_le hk, hk]
  · have h1 : ((readlines t).drop k).flatten ≠ [] := by
      intro hf
      cases hd : (readlines t).drop k with
      | nil => simp at hd; omega
      | cons x xs =>
        rw [hd] at hf hne'
        simp at hf
        exact hne' x (by simp) hf.1
    have h2 : t.getLast? = (readlines t).getLast?.bind List.getLast? := by
      conv_lhs => rw [← flatten_readlines t]
      exact getLast?_flatten hne
    rw [h2, List.getLast?_drop, if_neg hk]
    simp [h1, hk]

theorem blocks_text {t u : Str} (hw : Respaced (readlines t) (readlines u)) (he : t.getLast? = some '\n' ↔ u.getLast? = some '\n')
    (hbt : ∀ c ∈ t, isLineBreak c = true → c = '\n') (hbu : ∀ c ∈ u, isLineBreak c = true → c = '\n') :
    blocks ((readlines t).drop 6).flatten = blocks ((readlines u).drop 6).flatten := by
  have key : ∀ t : Str, (∀ c ∈ t, isLineBreak c = true → c = '\n') → ∀ l ∈ splitOn '\n' ((readlines t).drop 6).flatten, Lf l := by
    intro t hb l hl c hc
    have := mem_splitP_sub hl hc
    by_contra hne
    have := hb c (mem_flatten_drop this.1) (by simpa using hne)
    subst this
    simp at *
  have h1 := splitOn_words_end _ ((readlines t).drop 6).flatten le_rfl
  have h2 := splitOn_words_end _ ((readlines u).drop 6).flatten le_rfl
  rw [readlines_drop] at h1 h2
  have hm : (splitOn '\n' ((readlines t).drop 6).flatten).map words = (splitOn '\n' ((readlines u).drop 6).flatten).map words := by
    rw [h1, h2]
    congr 1
    · have : ∀ {A B : List Str}, Respaced A B → A.map words = B.map words := by
        intro A B h
        induction h with
        | nil => rfl
        | cons h _ ih => simp only [List.map_cons, ih]; rw [show words _ = words _ from h]
      exact this (forall₂_drop 6 hw)
    · simp only [drop_lineEnd, hw.length_eq, he]
  have hF : List.Forall₂ SameWords (splitOn '\n' ((readlines t).drop 6).flatten) (splitOn '\n' ((readlines u).drop 6).flatten) := by
    have : ∀ {A B : List Str}, A.map words = B.map words → List.Forall₂ SameWords A B := by
      intro A
      induction A with
      | nil => intro B h; cases B with
        | nil => exact .nil
        | cons b bs => simp at h
      | cons a as ih => intro B h; cases B with
        | nil => simp at h
        | cons b bs => simp at h; exact .cons h.1 (ih (by simpa using h.2))
    exact this hm
  have := blocks_respaced _ _ _ ((readlines t).drop 6).flatten.length ((readlines u).drop 6).flatten.length le_rfl (key t hbt) (key u hbu) hF
    (by rw [join_splitOn]) (by rw [join_splitOn])
  rw [join_splitOn, join_splitOn] at this
  exact this

/-- C102 for EIGENVAL: two texts with the same words on every line (and the same blanks inside the name on the fifth line), both with or
both without a newline at the end and with no other line breaks than newlines, are read alike: the same data, or the same refusal. Missing: other line breaks, which also split lines. -/
theorem C102_eigenval_partial (t u : Str) (hw : Respaced (readlines t) (readlines u)) (he : t.getLast? = some '\n' ↔ u.getLast? = some '\n')
    (hbt : ∀ c ∈ t, isLineBreak c = true → c = '\n') (hbu : ∀ c ∈ u, isLineBreak c = true → c = '\n')
    (hn : ∀ a b : Str, (readlines t)[4]? = some a → (readlines u)[4]? = some b → strip a = strip b) :
    init none (some t) = init none (some u) ∧ init (some (some t)) none = init (some (some u)) none := by
  have key : fromList (readlines t) = fromList (readlines u) := by
    have hl := hw.length_eq
    have h : ∀ (i : Nat) (a b : Str), (readlines t)[i]? = some a → (readlines u)[i]? = some b → words a = words b := forall₂_get hw
    unfold fromList
    rw [blocks_text hw he hbt hbu]
    refine idx_congr hl 0 fun a b ha hb => ?_
    rw [lineToType_words _ (h _ _ _ ha hb)]
    congr 1; funext v0
    refine idx_congr hl 1 fun a b ha hb => ?_
    rw [lineToType_words _ (h _ _ _ ha hb)]
    congr 1; funext v1
    refine idx_congr hl 2 fun a b ha hb => ?_
    rw [lineToType_words _ (h _ _ _ ha hb)]
    congr 1; funext v2
    refine idx_congr hl 3 fun a b ha hb => ?_
    rw [lineToType_words _ (h _ _ _ ha hb)]
    congr 1; funext coord
    refine idx_congr hl 4 fun a4 b4 ha4 hb4 => ?_
    refine idx_congr hl 5 fun a b ha hb => ?_
    rw [lineToType_words _ (h _ _ _ ha hb)]
    unfold lineToTypeNoSplit
    rw [hn a4 b4 ha4 hb4]
  exact ⟨key, key⟩

end Eigenval
end Verif
