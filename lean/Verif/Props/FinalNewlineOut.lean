import Verif.Props.FinalNewline
import Verif.Props.SpacingChgcar
import Verif.Props.CutOutcar
import Verif.Props.CutChgcar
import Verif.Props.CutPotcar
import Verif.Props.StreamApi
/-! # C103: whether the last line ends with a newline does not matter (EIGENVAL, CHGCAR, POTCAR, OUTCAR, standard output) -/
set_option autoImplicit false
namespace Verif

/-- A text without newlines does not reach into the newline at the end. -/
theorem infix_final {g s : Str} (hg : g ≠ []) (hn : '\n' ∉ g) : g <:+: s ++ ['\n'] ↔ g <:+: s := by
  constructor
  · rintro ⟨a, b, e⟩
    rcases List.eq_nil_or_concat b with rfl | ⟨b', x, rfl⟩
    · exfalso
      rw [List.append_nil] at e
      have h1 := congrArg List.getLast? e
      rw [List.getLast?_append] at h1
      cases hl : g.getLast? with
      | none => exact hg (List.getLast?_eq_none_iff.1 hl)
      | some c =>
        rw [hl] at h1
        simp at h1
        subst h1
        exact hn (List.mem_of_getLast? hl)
    · rw [List.concat_eq_append, ← List.append_assoc] at e
      obtain ⟨e1, -⟩ := List.append_inj' e rfl
      exact ⟨a, b', e1⟩
  · rintro ⟨a, b, rfl⟩
    exact ⟨a, b ++ ['\n'], by simp⟩

theorem contains_final {g : Str} (hg : g ≠ []) (hn : '\n' ∉ g) (s : Str) : contains g (s ++ ['\n']) = contains g s := by
  rw [Bool.eq_iff_iff, Utils.contains_iff, Utils.contains_iff, infix_final hg hn]

namespace Eigenval
open Verif.Spacing Verif.Utils
open Verif.Kpoints (idx toFloat toInt)

theorem nl_space {c : Char} (h : isNl c = true) : isSpace c = true := by
  unfold isNl at h
  simp only [Bool.or_eq_true, beq_iff_eq] at h
  rcases h with rfl | rfl <;> decide

theorem skipBlank_final {s : Str} (h : EndsInText s) : skipBlank (s ++ ['\n']) = (skipBlank s).map (· ++ ['\n']) ∧
    ∀ r, skipBlank s = some r → EndsInText r ∧ r.length < s.length := by
  induction s with
  | nil => exact absurd rfl h.ne_nil
  | cons c cs ih =>
    rw [List.cons_append, skipBlank, skipBlank]
    by_cases hc : isSpace c = true
    · obtain ⟨h1, h2⟩ := ih (h.tail hc)
      rw [if_pos hc, if_pos hc, h1]
      cases hs : skipBlank cs with
      | some r =>
        refine ⟨rfl, fun r' hr => ?_⟩
        cases hr
        obtain ⟨g1, g2⟩ := h2 r hs
        exact ⟨g1, by simp; omega⟩
      | none =>
        dsimp only [Option.map]
        by_cases hn : isNl c = true
        · rw [if_pos hn, if_pos hn]
          refine ⟨rfl, fun r' hr => ?_⟩
          cases hr
          exact ⟨h.tail hc, by simp⟩
        · rw [if_neg hn, if_neg hn]
          exact ⟨rfl, fun r' hr => by cases hr⟩
    · rw [if_neg hc, if_neg hc]
      exact ⟨rfl, fun r' hr => by cases hr⟩

theorem splitEmpty_final : ∀ (n m : Nat) (s : Str), EndsInText s → s.length ≤ n → s.length + 1 ≤ m →
    ∃ A b, EndsInText b ∧ splitEmpty n s = A ++ [b] ∧ splitEmpty m (s ++ ['\n']) = A ++ [b ++ ['\n']]
  | _, _, [], h, _, _ => absurd rfl h.ne_nil
  | 0, _, c :: cs, _, hn, _ => by simp at hn
  | _, 0, c :: cs, _, _, hm => by simp at hm
  | n + 1, m + 1, c :: cs, h, hn, hm => by
    have hn' : cs.length ≤ n := by simpa using hn
    have hm' : cs.length + 1 ≤ m := by simpa using hm
    have plain : EndsInText cs ∨ cs = [] → ∃ A b, EndsInText b ∧ consHead c (splitEmpty n cs) = A ++ [b] ∧
        consHead c (splitEmpty m (cs ++ ['\n'])) = A ++ [b ++ ['\n']] := by
      intro hcs
      rcases hcs with hcs | rfl
      · obtain ⟨A, b, h1, h2, h3⟩ := splitEmpty_final n m cs hcs hn' hm'
        rw [h2, h3]
        cases A with
        | nil => exact ⟨[], c :: b, h1.left [c], rfl, rfl⟩
        | cons a as => exact ⟨(c :: a) :: as, b, h1, rfl, rfl⟩
      · obtain ⟨k, rfl⟩ : ∃ k, m = k + 1 := ⟨m - 1, by simp at hm'; omega⟩
        refine ⟨[], [c], h, ?_, ?_⟩
        · cases n <;> rfl
        · have : splitEmpty (k + 1) ['\n'] = [['\n']] := by
            have : splitEmpty k [] = [[]] := by cases k <;> rfl
            simp [splitEmpty, isNl, skipBlank, this, consHead]
          rw [List.nil_append, this]; rfl
    rw [List.cons_append, splitEmpty, splitEmpty]
    by_cases hc : isNl c = true
    · have hcs := h.tail (nl_space hc)
      obtain ⟨h1, h2⟩ := skipBlank_final hcs
      rw [if_pos hc, if_pos hc, h1]
      cases hs : skipBlank cs with
      | some r =>
        obtain ⟨g1, g2⟩ := h2 r hs
        obtain ⟨A, b, k1, k2, k3⟩ := splitEmpty_final n m r g1 (by omega) (by omega)
        exact ⟨[] :: A, b, k1, by dsimp only; rw [k2]; rfl, by dsimp only [Option.map]; rw [k3]; rfl⟩
      | none => exact plain (.inl hcs)
    · rw [if_neg hc, if_neg hc]
      refine plain ?_
      cases cs with
      | nil => exact .inr rfl
      | cons y ys => exact .inl (h.right (a := [c]) (by simp))

theorem blocks_final {s : Str} (h : EndsInText s) : blocks (s ++ ['\n']) = blocks s := by
  unfold blocks
  obtain ⟨A, b, h1, h2, h3⟩ := splitEmpty_final s.length (s ++ ['\n']).length s h le_rfl (by simp)
  rw [h2, h3]
  simp only [List.map_append, List.map_cons, List.map_nil, (splitlines_final h1).1]

/-- C103 for EIGENVAL: with and without a newline behind the last word the same data, or the same refusal. -/
theorem C103_eigenval (u : Str) (h : EndsInText u) : init none (some (u ++ ['\n'])) = init none (some u) ∧
    init (some (some (u ++ ['\n']))) none = init (some (some u)) none := by
  have key : fromList (readlines (u ++ ['\n'])) = fromList (readlines u) := by
    obtain ⟨A, l, h1, -, h3, h4⟩ := readlines_final h
    have hb : blocks ((readlines (u ++ ['\n'])).drop 6).flatten = blocks ((readlines u).drop 6).flatten := by
      rw [h3, h4]
      by_cases hk : A.length < 6
      · rw [List.drop_eq_nil_of_le (by simp; omega), List.drop_eq_nil_of_le (by simp; omega)]
      · rw [List.drop_append_of_le_length (by omega), List.drop_append_of_le_length (by omega)]
        have e1 : (A.drop 6 ++ [l ++ ['\n']]).flatten = (A.drop 6 ++ [l]).flatten ++ ['\n'] := by simp
        have e2 : (A.drop 6 ++ [l]).flatten = (A.drop 6).flatten ++ l := by simp
        rw [e1]
        refine blocks_final ?_
        rw [e2]
        exact h1.left _
    have hw : Respaced (readlines (u ++ ['\n'])) (readlines u) := by
      rw [h3, h4]
      exact List.Forall₂.flip ((respaced_final A l).imp fun a b hab => Eq.symm hab)
    have hs : ∀ a b : Str, (readlines (u ++ ['\n']))[4]? = some a → (readlines u)[4]? = some b → strip a = strip b := by
      intro a b ha hb
      rw [h4] at ha; rw [h3] at hb
      rcases final_get hb ha with rfl | ⟨rfl, rfl⟩
      · rfl
      · exact Incar.strip_snoc_space _ '\n' (by decide)
    have hl := hw.length_eq
    have hwi : ∀ (i : Nat) (a b : Str), (readlines (u ++ ['\n']))[i]? = some a → (readlines u)[i]? = some b → words a = words b := forall₂_get hw
    unfold fromList
    rw [hb]
    refine idx_congr hl 0 fun a b ha hb => ?_
    rw [lineToType_words _ (hwi _ _ _ ha hb)]
    congr 1; funext v0
    refine idx_congr hl 1 fun a b ha hb => ?_
    rw [lineToType_words _ (hwi _ _ _ ha hb)]
    congr 1; funext v1
    refine idx_congr hl 2 fun a b ha hb => ?_
    rw [lineToType_words _ (hwi _ _ _ ha hb)]
    congr 1; funext v2
    refine idx_congr hl 3 fun a b ha hb => ?_
    rw [lineToType_words _ (hwi _ _ _ ha hb)]
    congr 1; funext coord
    refine idx_congr hl 4 fun a4 b4 ha4 hb4 => ?_
    refine idx_congr hl 5 fun a b ha hb => ?_
    rw [lineToType_words _ (hwi _ _ _ ha hb)]
    unfold lineToTypeNoSplit
    rw [hs a4 b4 ha4 hb4]
  exact ⟨key, key⟩

example : ∃ u, EndsInText u ∧ init none (some u) = .ok exampleData ∧ u ++ ['\n'] = exampleText :=
  ⟨exampleText.dropLast, ⟨'5', by decide +kernel, by decide⟩, by decide +kernel, by decide +kernel⟩

end Eigenval

namespace Chgcar
open Verif.Spacing Verif.Utils
open Verif.Kpoints (idx toFloat toInt)
open Verif.Outcar (cut)

theorem pieces_final {g s : Str} {ps : List Str} (hg : g ≠ []) (hn : '\n' ∉ g) (h : Pieces g s ps) :
    ∃ ini l, ps = ini ++ [l] ∧ Pieces g (s ++ ['\n']) (ini ++ [l ++ ['\n']]) := by
  induction h with
  | last h => exact ⟨[], _, rfl, .last (by rwa [infix_final hg hn])⟩
  | cons h1 _ ih =>
    obtain ⟨ini, l, rfl, h2⟩ := ih
    exact ⟨_ :: ini, l, rfl, .cons (h1.append _) h2⟩

theorem sameNumbers_refl (p : Str) : SameNumbers p p :=
  ⟨_, _, (cut_fst (by decide)).1 rfl, (cut_fst (by decide)).1 rfl, rfl⟩

theorem sameNumbers_final (l : Str) : SameNumbers l (l ++ ['\n']) := by
  cases hc : cut c!"augmentation occupancies" l with
  | mk a y =>
    cases y with
    | some b => exact ⟨a, a, .inl ⟨b, (cut_some (by decide)).1 hc⟩, .inl ⟨_, ((cut_some (by decide)).1 hc).append _⟩, rfl⟩
    | none =>
      obtain ⟨rfl, hn⟩ := (cut_none (by decide)).1 hc
      refine ⟨a, a ++ ['\n'], .inr ⟨rfl, hn⟩, .inr ⟨rfl, ?_⟩, (words_append_space a '\n' (by decide)).symm⟩
      rwa [infix_final (by decide) (by decide)]

/-- C103 for CHGCAR: with and without a newline behind the last word the same data, or the same refusal, unless the text ends with the grid
line. -/
theorem C103_chgcar (u : Str) (h : EndsInText u) (hr : ∀ a r, FirstAt c!"\n\n" u a r → '\n' ∈ r) :
    init none (some (u ++ ['\n'])) = init none (some u) ∧ init (some (some (u ++ ['\n']))) none = init (some (some u)) none := by
  have key : fromText (u ++ ['\n']) = fromText u := by
    cases hc : cut c!"\n\n" u with
    | mk a y =>
      cases y with
      | none =>
        obtain ⟨rfl, hn⟩ := (cut_none (by decide)).1 hc
        have hn' : ¬ c!"\n\n" <:+: a ++ ['\n'] := by
          rintro ⟨x, z, e⟩
          rcases List.eq_nil_or_concat z with rfl | ⟨z', c, rfl⟩
          · have e' : (x ++ ['\n']) ++ ['\n'] = a ++ ['\n'] := by rw [← e]; simp
            obtain ⟨e1, -⟩ := List.append_inj' e' rfl
            obtain ⟨c, g1, g2⟩ := h
            rw [← e1] at g1
            simp at g1
            subst g1
            revert g2; decide
          · rw [List.concat_eq_append, ← List.append_assoc] at e
            obtain ⟨e1, -⟩ := List.append_inj' e rfl
            exact hn ⟨x, z', e1⟩
        unfold fromText
        rw [hc, (cut_none (by decide)).2 ⟨rfl, hn'⟩]
        rfl
      | some r =>
        have f1 := (cut_some (by decide)).1 hc
        obtain ⟨g, b, e, hg⟩ := List.eq_append_cons_of_mem (hr a r f1)
        have f2 : FirstAt c!"\n" r g b := by
          refine ⟨by rw [e]; simp, fun i hi hp => ?_⟩
          rw [e, List.drop_append_of_le_length (by omega)] at hp
          cases hd : g.drop i with
          | nil => simp at hd; omega
          | cons x xs =>
            rw [hd] at hp
            obtain ⟨t, ht⟩ := hp
            cases ht
            exact hg (List.mem_of_mem_drop (by rw [hd]; simp))
        by_cases hg0 : g = []
        · subst hg0
          unfold fromText
          simp only [hc, (cut_some (by decide)).2 f2, (cut_some (by decide)).2 (f1.append ['\n']), (cut_some (by decide)).2 (f2.append ['\n']),
            second, Res.ok_bind]
          rfl
        · obtain ⟨ini, l, e1, hp'⟩ := pieces_final hg0 hg ((splitStr_iff hg0 _ b _ le_rfl).1 rfl)
          have hp := (splitStr_iff hg0 _ b _ le_rfl).1 rfl
          rw [e1] at hp
          have := (C102_chgcar_partial u (u ++ ['\n']) a a r (r ++ ['\n']) g b (b ++ ['\n']) _ _ f1 (f1.append _) f2 (f2.append _)
            (List.forall₂_same.2 fun _ _ => rfl) hp hp'
            (List.rel_append (List.forall₂_same.2 fun _ _ => sameNumbers_refl _) (.cons (sameNumbers_final l) .nil))).1
          exact this.symm
  exact ⟨key, key⟩

/-- Every accepted text. -/
theorem C103_chgcar_accepted (u : Str) (h : EndsInText u) (d : Data) (hd : init none (some u) = .ok d) : init none (some (u ++ ['\n'])) = .ok d := by
  rw [(C103_chgcar u h fun a r f1 => ?_).1]
  · exact hd
  · obtain ⟨sc, c, nx, ny, nz, ps, p0, hf, -⟩ := (C41_grid_partial u d).1 hd
    obtain ⟨header, rest, grid, body, -, -, -, -, f1', f2, -⟩ := hf.parts
    obtain ⟨-, rfl⟩ := FirstAt.unique (by decide) f1 f1'
    rw [f2.1]; simp

example : ∃ u, EndsInText u ∧ (init none (some u)).isOk = true ∧ u ++ ['\n'] = exampleText :=
  ⟨exampleText.dropLast, ⟨'2', by decide +kernel, by decide⟩, by decide +kernel, by decide +kernel⟩

end Chgcar

namespace Potcar

/-- C103 for POTCAR. -/
theorem C103_potcar (u : Str) : init none (some (u ++ ['\n'])) = init none (some u) ∧
    init (some (some (u ++ ['\n']))) none = init (some (some u)) none := by
  have key : init none (some (u ++ ['\n'])) = init none (some u) := by
    by_cases h : HasParameters u
    · exact ((C95_cut u ['\n']).1 h).symm
    · rw [(C95_cut u []).2 h]
      refine (C95_cut (u ++ ['\n']) []).2 ?_
      rintro ⟨a, m, b, e⟩
      rcases List.eq_nil_or_concat b with rfl | ⟨b', c, rfl⟩
      · have := congrArg List.getLast? e
        rw [List.append_nil, List.getLast?_append, List.getLast?_append] at this
        cases this
      · rw [List.concat_eq_append, ← List.append_assoc] at e
        obtain ⟨e1, -⟩ := List.append_inj' e rfl
        exact h ⟨a, m, b', e1⟩
  exact ⟨key, key⟩

end Potcar

namespace Outcar
open Verif.Spacing Verif.Utils
open Verif.Kpoints (idx toFloat toInt)
open Verif.Chgcar (cut_some cut_none)

/-- Two lines, the second the first one or the first one with a newline. -/
def SameOrEnded (a b : Str) : Prop := b = a ∨ (b = a ++ ['\n'] ∧ EndsInText a ∧ '\n' ∉ a)

theorem SameOrEnded.words {a b : Str} (h : SameOrEnded a b) : words b = words a := by
  rcases h with rfl | ⟨rfl, -⟩
  · rfl
  · exact words_append_space a '\n' (by decide)

theorem SameOrEnded.strip {a b : Str} (h : SameOrEnded a b) : strip b = strip a := by
  rcases h with rfl | ⟨rfl, -⟩
  · rfl
  · exact Incar.strip_snoc_space a '\n' (by decide)

theorem SameOrEnded.contains {a b : Str} (h : SameOrEnded a b) {g : Str} (hg : g ≠ []) (hn : '\n' ∉ g) : contains g b = contains g a := by
  rcases h with rfl | ⟨rfl, -⟩
  · rfl
  · exact contains_final hg hn a

theorem iterHere_final {a : Str} (h : iterHere a = none) : iterHere (a ++ ['\n']) = none := by
  cases hs : iterHere (a ++ ['\n']) with
  | none => rfl
  | some r =>
    obtain ⟨n, m⟩ := r
    obtain ⟨b1, d1, b2, d2, post, e, rest⟩ := (iterHere_iff _ _ _).1 hs
    rcases List.eq_nil_or_concat post with rfl | ⟨post', x, rfl⟩
    · have := congrArg List.getLast? e
      rw [List.append_nil, List.getLast?_append, List.getLast?_append] at this
      cases this
    · rw [List.concat_eq_append, ← List.append_assoc] at e
      obtain ⟨e1, -⟩ := List.append_inj' e rfl
      have := (iterHere_iff a n m).2 ⟨b1, d1, b2, d2, post', e1, rest⟩
      rw [h] at this; cases this

theorem iterOf_final (a : Str) : iterOf (a ++ ['\n']) = iterOf a := by
  cases h : iterOf a with
  | some r => exact iterOf_append h
  | none =>
    induction a with
    | nil => decide
    | cons c cs ih =>
      unfold iterOf at h
      rw [List.cons_append]
      unfold iterOf
      split at h
      · cases h
      · rename_i hn
        have := iterHere_final hn
        rw [List.cons_append] at this
        rw [this]
        exact ih h

theorem SameOrEnded.iterOf {a b : Str} (h : SameOrEnded a b) : iterOf b = iterOf a := by
  rcases h with rfl | ⟨rfl, -⟩
  · rfl
  · exact iterOf_final a

theorem spanP_final {p : Char → Bool} (hp : p '\n' = false) (s : Str) : spanP p (s ++ ['\n']) = ((spanP p s).1, (spanP p s).2 ++ ['\n']) := by
  induction s with
  | nil => simp [spanP, hp]
  | cons c cs ih =>
    rw [List.cons_append, spanP, spanP]
    split
    · rw [ih]
    · rfl

theorem dropPrefix?_final {k : Str} (hk : '\n' ∉ k) (s : Str) : dropPrefix? k (s ++ ['\n']) = (dropPrefix? k s).map (· ++ ['\n']) := by
  induction k generalizing s with
  | nil => rfl
  | cons a k ih =>
    have hk' : '\n' ∉ k := fun h => hk (by simp [h])
    have ha : a ≠ '\n' := by rintro rfl; simp at hk
    cases s with
    | nil => simp [dropPrefix?, ha]
    | cons b s =>
      rw [List.cons_append, dropPrefix?, dropPrefix?]
      split
      · exact ih hk' s
      · rfl

theorem matchIntParam_final {k : Str} (hk : '\n' ∉ k) (s : Str) : matchIntParam k (s ++ ['\n']) = matchIntParam k s := by
  unfold matchIntParam
  rw [spanP_final (by decide)]
  cases h1 : spanP (· == ' ') s with
  | mk x r1 =>
    cases x with
    | nil => rfl
    | cons y ys =>
      dsimp only
      rw [dropPrefix?_final hk]
      cases h2 : dropPrefix? k r1 with
      | none => rfl
      | some r2 =>
        dsimp only [Option.map]
        rw [spanP_final (by decide)]
        cases h3 : (spanP (· == ' ') r2).2 with
        | nil => rfl
        | cons z r3 =>
          by_cases hz : z = '='
          · subst hz
            show (match spanP (fun c => c == '-' || isDigit c) (spanP (· == ' ') (r3 ++ ['\n'])).2 with
                | (c :: cs, _) => some (c :: cs)
                | _ => none) = (match spanP (fun c => c == '-' || isDigit c) (spanP (· == ' ') r3).2 with
                | (c :: cs, _) => some (c :: cs)
                | _ => none)
            rw [spanP_final (p := (· == ' ')) (by decide), spanP_final (p := fun c => c == '-' || isDigit c) (by decide)]
            cases h4 : spanP (fun c => c == '-' || isDigit c) (spanP (· == ' ') r3).2 with
            | mk p q => cases p <;> rfl
          · simp only [List.cons_append]
            split
            · rename_i heq; cases heq; exact absurd rfl hz
            · split
              · rename_i heq; cases heq; exact absurd rfl hz
              · rfl

theorem SameOrEnded.param {a b : Str} (h : SameOrEnded a b) {k : Str} (hk : '\n' ∉ k) (d : Dict Str (Option Int)) :
    matchIntegerParam d k b = matchIntegerParam d k a := by
  rcases h with rfl | ⟨rfl, -⟩
  · rfl
  · unfold matchIntegerParam; rw [matchIntParam_final hk]

theorem toInt_final (s : Str) : toInt (s ++ ['\n']) = toInt s := by
  unfold toInt pyInt
  rw [Incar.strip_snoc_space s '\n' (by decide)]

theorem SameOrEnded.second {a b : Str} (h : SameOrEnded a b) {p : Str} (hp : p ≠ []) (hn : '\n' ∉ p) :
    (splitSecond p b >>= toInt) = (splitSecond p a >>= toInt) := by
  rcases h with rfl | ⟨rfl, -⟩
  · rfl
  · unfold splitSecond
    cases h1 : cut p a with
    | mk x y =>
      cases y with
      | none =>
        obtain ⟨rfl, hno⟩ := (cut_none hp).1 h1
        rw [(cut_none hp).2 ⟨rfl, by rwa [infix_final hp hn]⟩]
      | some r =>
        rw [(cut_some hp).2 (((cut_some hp).1 h1).append ['\n'])]
        dsimp only [Res.ok_bind]
        show toInt _ = toInt _
        cases h2 : cut p r with
        | mk x' y' =>
          cases y' with
          | none =>
            obtain ⟨rfl, hno⟩ := (cut_none hp).1 h2
            rw [(cut_none hp).2 ⟨rfl, by rwa [infix_final hp hn]⟩]
            exact toInt_final _
          | some r' => rw [(cut_some hp).2 (((cut_some hp).1 h2).append ['\n'])]

theorem readParams_final {a b : Str} (h : SameOrEnded a b) (s : State) : readParams s b = readParams s a := by
  unfold readParams
  rw [h.param (by decide)]
  congr 1; funext st1
  rw [h.param (by decide)]
  congr 1; funext pa
  rw [h.param (by decide)]
  congr 1; funext st2
  rw [h.contains (by decide) (by decide)]
  split
  · have := h.second (p := c!"NBANDS=") (by decide) (by decide)
    have assoc : ∀ (x : Res Str) (f : Int → Res State), (x >>= fun t => toInt t >>= f) = ((x >>= toInt) >>= f) := by
      intro x f; cases x <;> rfl
    rw [assoc, assoc, this]
  · rfl

theorem readMag_final {A B : List Str} (h : List.Forall₂ SameOrEnded A B) : ∀ m : Sphere, readMag m B = readMag m A := by
  induction h with
  | nil => intro m; rfl
  | cons hab _ ih =>
    intro m
    unfold readMag
    have hm : ∀ {a b : Str}, SameOrEnded a b → readMoments b = readMoments a := by
      intro a b h; unfold readMoments; rw [h.words]
    simp only [hab.words, hab.strip, hm hab, ih]

theorem rest_idx {γ : Type} {A B : List Str} (h : List.Forall₂ SameOrEnded A B) (i : Nat) {f : Str → Res γ} (hf : ∀ a b, SameOrEnded a b → f b = f a) :
    (idx B i >>= f) = (idx A i >>= f) :=
  (idx_congr h.length_eq i fun a b ha hb => (hf a b (forall₂_get h i a b ha hb)).symm).symm

theorem step_final {a b : Str} {A B : List Str} (h : SameOrEnded a b) (hr : List.Forall₂ SameOrEnded A B) (s : State) : step s b B = step s a A := by
  unfold step
  rw [h.iterOf]
  split
  · rfl
  · rw [readParams_final h]
    congr 1; funext s1
    have e1 : readEnd s1 b = readEnd s1 a := by unfold readEnd; rw [h.contains (by decide) (by decide)]
    have e2 : ∀ s, readConfig s b = readConfig s a := by intro s; unfold readConfig; rw [h.strip]
    have e3 : ∀ s, readSymmetry s b B = readSymmetry s a A := by
      intro s
      unfold readSymmetry
      split
      · rfl
      · have p1 : ∀ y dyn, readPricel y dyn b B = readPricel y dyn a A := by
          intro y dyn
          unfold readPricel
          rw [h.strip]
          split
          · exact rest_idx hr 0 fun x z hxz => by rw [hxz.strip]
          · rfl
        have p2 : ∀ y dyn, readSuper y dyn b = readSuper y dyn a := by
          intro y dyn
          unfold readSuper
          rw [h.contains (by decide) (by decide), h.words]
        have p3 : ∀ y dyn, readSetgrp y dyn b B = readSetgrp y dyn a A := by
          intro y dyn
          unfold readSetgrp
          rw [h.strip]
          split
          · exact rest_idx hr 0 fun x z hxz => by rw [hxz.strip]
          · rfl
        have p4 : ∀ y dyn, readGetgrp y dyn b = readGetgrp y dyn a := by
          intro y dyn
          unfold readGetgrp
          rw [h.strip, h.words]
        simp only [p1, p2, p3, p4]
    have e4 : ∀ s, readElastics s b B = readElastics s a A := by
      intro s
      have t : readTensor B = readTensor A := by
        unfold readTensor
        refine mapM'_congr _ fun i _ => rest_idx hr i fun x z hxz => by rw [hxz.words]
      have : ∀ hd k e, readElastic hd k b B e = readElastic hd k a A e := by
        intro hd k e
        unfold readElastic
        rw [h.strip, t]
      unfold readElastics
      simp only [this]
    have e5 : ∀ s, readMagnetization s b B = readMagnetization s a A := by
      intro s
      have : ∀ c m, readSphere c b B m = readSphere c a A m := by
        intro c m
        unfold readSphere
        rw [h.strip, readMag_final (forall₂_drop 3 hr)]
      unfold readMagnetization
      simp only [this, h.strip, h.words]
    rw [e1, e2, e3]
    simp only [e4, e5]

theorem scan_final {A B : List Str} (h : List.Forall₂ SameOrEnded A B) : ∀ s : State, scan s B = scan s A := by
  induction h with
  | nil => intro s; rfl
  | cons hab hs ih =>
    intro s
    simp only [scan, step_final hab hs, ih]

theorem statLine_final {a b : Str} (h : SameOrEnded a b) : statLine b = statLine a := by
  unfold statLine
  have e1 : isTimeLine b = isTimeLine a := by
    unfold isTimeLine; rw [h.contains (by decide) (by decide), h.contains (by decide) (by decide)]
  have e2 : isMemLine b = isMemLine a := by
    rcases h with rfl | ⟨rfl, -, hn⟩
    · rfl
    · have c1 : chomp (a ++ ['\n']) = a := by simp [chomp]
      have c2 : chomp a = a := by
        unfold chomp
        rw [if_neg]
        intro hl
        exact hn (List.mem_of_getLast? hl)
      unfold isMemLine
      rw [c1, c2]
  rw [e1, e2, h.strip]

theorem stats_final {A B : List Str} (h : List.Forall₂ SameOrEnded A B) : ∀ d, stats d B = stats d A := by
  induction h with
  | nil => intro d; rfl
  | cons hab _ ih =>
    intro d
    simp only [stats, statLine_final hab]
    congr 1
    funext r
    cases r with
    | none => exact ih d
    | some p => exact ih _

/-- C103 for OUTCAR: with and without a newline behind the last word the same data, or the same refusal. -/
theorem C103_outcar (u : Str) (h : EndsInText u) : init none (some (u ++ ['\n'])) = init none (some u) ∧
    init (some (some (u ++ ['\n']))) none = init (some (some u)) none := by
  have key : fromList (readlines (u ++ ['\n'])) = fromList (readlines u) := by
    obtain ⟨A, l, h1, h2, h3, h4⟩ := readlines_final h
    have hF : List.Forall₂ SameOrEnded (readlines u) (readlines (u ++ ['\n'])) := by
      rw [h3, h4]
      exact List.rel_append (List.forall₂_same.2 fun _ _ => .inl rfl) (.cons (.inr ⟨rfl, h1, h2⟩) .nil)
    unfold fromList lastN
    rw [scan_final hF, ← hF.length_eq, stats_final (forall₂_drop _ hF)]
  exact ⟨key, key⟩

example : ∃ u, EndsInText u ∧ (init none (some u)).isOk = true ∧ u ++ ['\n'] = exampleOutcar :=
  ⟨exampleOutcar.dropLast, by
    have : ∃ c, exampleOutcar.dropLast.getLast? = some c ∧ isSpace c = false := by decide +kernel
    exact this, by decide +kernel, by decide +kernel⟩

end Outcar

namespace Stream
variable {Rx : Type}

theorem flat_mem {T : Table Rx} {p : (Str × Nat) × Trigger Rx} (h : p ∈ flat T) : ∃ q ∈ T, p.2 ∈ q.2 := by
  unfold flat at h
  obtain ⟨q, hq, hm⟩ := List.mem_flatMap.1 h
  obtain ⟨x, hx, rfl⟩ := List.mem_map.1 hm
  exact ⟨q, hq, List.fst_mem_of_mem_zipIdx hx⟩

/-- C103 for the standard output: if no configured pattern tells a line from the same line with a newline behind it, the newline at the end
of the text changes nothing: the same triggers, the same reports in the same order. -/
theorem C103_stream (E : Engine Rx) (dflt : Config Rx) (user : Option (Config Rx)) (hist : Bool) (u : Str) (h : EndsInText u) (o : Object Rx)
    (ho : init E dflt user hist none (some u) = .ok o)
    (hE : ∀ p ∈ o.configured, ∀ t ∈ p.2, ∀ rx ∈ t.regex, ∀ l, EndsInText l → '\n' ∉ l → E.search rx (l ++ ['\n']) = E.search rx l) :
    init E dflt user hist none (some (u ++ ['\n'])) = .ok o := by
  obtain ⟨A, l, h1, h2, h3, h4⟩ := readlines_final h
  unfold init at ho ⊢
  simp only [Option.isNone_some, Bool.false_eq_true, and_false, if_false, Res.ok_bind] at ho ⊢
  obtain ⟨kinds, k1, ho⟩ := Res.bind_eq_ok.1 ho
  rw [k1, Res.ok_bind]
  obtain ⟨tt, k2, ho⟩ := Res.bind_eq_ok.1 ho
  rw [k2, Res.ok_bind]
  obtain ⟨st, k3, ho⟩ := Res.bind_eq_ok.1 ho
  have hconf : o.configured = extend kinds tt.1 tt.2 := by cases Res.ok.inj ho; rfl
  have hs : scan E hist (flat (extend kinds tt.1 tt.2)) {} (readlines (u ++ ['\n'])) = .ok st := by
    rw [← k3, h3, h4]
    unfold scan
    rw [Res.foldlM'_append, Res.foldlM'_append]
    congr 1; funext s
    have : ∀ (F : List ((Str × Nat) × Trigger Rx)), (∀ p ∈ F, p ∈ flat (extend kinds tt.1 tt.2)) → ∀ s : State Rx,
        Res.foldlM' (checkOne E hist (l ++ ['\n'])) s F = Res.foldlM' (checkOne E hist l) s F := by
      intro F hF
      induction F with
      | nil => intro s; rfl
      | cons p ps ih =>
        intro s
        have hp : checkOne E hist (l ++ ['\n']) s p = checkOne E hist l s p := by
          unfold checkOne checkLine
          cases hx : p.2.regex with
          | none => rfl
          | some rx =>
            obtain ⟨q, q1, q2⟩ := flat_mem (hF p (by simp))
            dsimp only
            rw [hE q (hconf ▸ q1) p.2 q2 rx hx l h1 h2]
        simp only [Res.foldlM', hp, ih fun x hx => hF x (by simp [hx])]
    simp only [Res.foldlM', this _ fun _ hp => hp]
  rw [hs]
  exact ho

theorem occurs_final {phrase l : Str} (hp : phrase ≠ []) (hn : '\n' ∉ phrase) : Occurs phrase (l ++ ['\n']) ↔ Occurs phrase l := by
  constructor
  · rintro ⟨b, m, a, e, hm⟩
    have hno : m ≠ [] ∧ '\n' ∉ m := by
      constructor
      · rintro rfl; cases hm; exact hp rfl
      · have : ∀ {p m : Str}, List.Forall₂ (fun p c => p = '.' ∧ c ≠ '\n' ∨ p ≠ '.' ∧ p = c) p m → '\n' ∉ p → '\n' ∉ m := by
          intro p m hf
          induction hf with
          | nil => intro h; exact h
          | cons hx _ ih =>
            intro h hm
            rcases List.mem_cons.1 hm with rfl | hm
            · rcases hx with ⟨_, hx⟩ | ⟨_, rfl⟩
              · exact hx rfl
              · simp at h
            · exact ih (fun hh => h (by simp [hh])) hm
        exact this hm hn
    obtain ⟨b', a', e'⟩ := (infix_final hno.1 hno.2).1 ⟨b, a, e.symm⟩
    exact ⟨b', m, a', e'.symm, hm⟩
  · rintro ⟨b, m, a, rfl, hm⟩
    exact ⟨b, m, a ++ ['\n'], by simp, hm⟩

/-- C103 for the standard output with the shipped configuration. -/
theorem C103_stream_shipped (hist : Bool) (u : Str) (h : EndsInText u) :
    init dotEngine (streamYml (List Char)) none hist none (some (u ++ ['\n'])) = init dotEngine (streamYml (List Char)) none hist none (some u) := by
  obtain ⟨o, ho, ht⟩ := shipped_init hist u
  rw [ho]
  refine C103_stream _ _ _ _ u h o ho fun p hp t htp rx hrx l _ _ => ?_
  have hm : shown t ∈ o.triggers.map shown := List.mem_map.2 ⟨t, List.mem_flatMap.2 ⟨p, hp, htp⟩, rfl⟩
  rw [ht] at hm
  have hall : ∀ x ∈ shipped.map (fun p => (p.1, some p.2, false)) ++ [(c!"nostart", some c!"vasp.", true)], ∀ r ∈ x.2.1, r ≠ [] ∧ '\n' ∉ r := by
    decide +kernel
  obtain ⟨g1, g2⟩ := hall _ hm rx hrx
  show fits rx (l ++ ['\n']) = fits rx l
  rw [Bool.eq_iff_iff, fits_iff, fits_iff, occurs_final g1 g2]

example : EndsInText c!" running on 4 total cores\n WARNING: CNORMN: search vector ill defined" := ⟨'d', by decide, by decide⟩

end Stream
end Verif
