import Verif.Props.LineEnds
import Verif.Props.FinalNewlineOut
/-! # C120: line ends do not matter (OUTCAR, POTCAR, EIGENVAL, standard output; files given by their path) -/
set_option autoImplicit false
namespace Verif.Newlines
open Verif Verif.Utils

theorem infix_snoc {x : Char} {g s : Str} (hg : g ≠ []) (hn : x ∉ g) : g <:+: s ++ [x] ↔ g <:+: s := by
  constructor
  · rintro ⟨a, b, e⟩
    rcases List.eq_nil_or_concat b with rfl | ⟨b', y, rfl⟩
    · exfalso
      rw [List.append_nil] at e
      have h1 := congrArg List.getLast? e
      rw [List.getLast?_append] at h1
      cases hl : g.getLast? with
      | none => exact hg (List.getLast?_eq_none_iff.1 hl)
      | some c =>
        rw [hl] at h1
        simp at h1
        subst h1
        exact hn (List.mem_of_getLast? hl)
    · rw [List.concat_eq_append, ← List.append_assoc] at e
      obtain ⟨e1, -⟩ := List.append_inj' e rfl
      exact ⟨a, b', e1⟩
  · rintro ⟨a, b, rfl⟩
    exact ⟨a, b ++ [x], by simp⟩

theorem contains_snoc {x : Char} {g : Str} (hg : g ≠ []) (hn : x ∉ g) (s : Str) : contains g (s ++ [x]) = contains g s := by
  rw [Bool.eq_iff_iff, Utils.contains_iff, Utils.contains_iff, infix_snoc hg hn]

theorem spanP_snoc {p : Char → Bool} {x : Char} (hp : p x = false) (s : Str) : spanP p (s ++ [x]) = ((spanP p s).1, (spanP p s).2 ++ [x]) := by
  induction s with
  | nil => simp [spanP, hp]
  | cons c cs ih =>
    rw [List.cons_append, spanP, spanP]
    split
    · rw [ih]
    · rfl

theorem dropPrefix?_snoc {k : Str} {x : Char} (hk : x ∉ k) (s : Str) : dropPrefix? k (s ++ [x]) = (dropPrefix? k s).map (· ++ [x]) := by
  induction k generalizing s with
  | nil => rfl
  | cons a k ih =>
    have hk' : x ∉ k := fun h => hk (by simp [h])
    have ha : a ≠ x := by rintro rfl; simp at hk
    cases s with
    | nil => simp [dropPrefix?, ha]
    | cons b s =>
      rw [List.cons_append, dropPrefix?, dropPrefix?]
      split
      · exact ih hk' s
      · rfl

end Verif.Newlines

namespace Verif.Outcar
open Verif.Spacing Verif.Utils Verif.Newlines
open Verif.Kpoints (idx toFloat toInt)
open Verif.Chgcar (cut_some cut_none)

theorem iterHere_snoc {x : Char} (hx : x ≠ ')') {a : Str} (h : iterHere a = none) : iterHere (a ++ [x]) = none := by
  cases hs : iterHere (a ++ [x]) with
  | none => rfl
  | some r =>
    obtain ⟨n, m⟩ := r
    obtain ⟨b1, d1, b2, d2, post, e, rest⟩ := (iterHere_iff _ _ _).1 hs
    rcases List.eq_nil_or_concat post with rfl | ⟨post', y, rfl⟩
    · have := congrArg List.getLast? e
      rw [List.append_nil, List.getLast?_append, List.getLast?_append] at this
      simp at this
      exact absurd this hx
    · rw [List.concat_eq_append, ← List.append_assoc] at e
      obtain ⟨e1, -⟩ := List.append_inj' e rfl
      have := (iterHere_iff a n m).2 ⟨b1, d1, b2, d2, post', e1, rest⟩
      rw [h] at this; cases this

theorem iterOf_snoc {x : Char} (hx : isSpace x = true) (a : Str) : iterOf (a ++ [x]) = iterOf a := by
  have hx' : x ≠ ')' := by rintro rfl; revert hx; decide
  have hI : x ≠ 'I' := by rintro rfl; revert hx; decide
  cases h : iterOf a with
  | some r => exact iterOf_append h
  | none =>
    induction a with
    | nil =>
      have := iterHere_snoc hx' (a := []) (by decide)
      rw [List.nil_append] at this ⊢
      unfold iterOf
      rw [this]; rfl
    | cons c cs ih =>
      unfold iterOf at h
      rw [List.cons_append]
      unfold iterOf
      split at h
      · cases h
      · rename_i hn
        have := iterHere_snoc hx' hn
        rw [List.cons_append] at this
        rw [this]
        exact ih h

theorem matchIntParam_snoc {x : Char} (hx : isSpace x = true) (hb : x ≠ ' ') {k : Str} (hk : x ∉ k) (s : Str) : matchIntParam k (s ++ [x]) = matchIntParam k s := by
  have g1 : (x == ' ') = false := by simpa using hb
  have g2 : (x == '-' || isDigit x) = false := by
    have h1 : x ≠ '-' := by rintro rfl; revert hx; decide
    cases hd : isDigit x with
    | false => simp [h1]
    | true => exact absurd hx (by rw [digit_not_space hd]; decide)
  unfold matchIntParam
  rw [spanP_snoc (p := (· == ' ')) g1]
  cases h1 : spanP (· == ' ') s with
  | mk x' r1 =>
    cases x' with
    | nil => rfl
    | cons y ys =>
      dsimp only
      rw [dropPrefix?_snoc hk]
      cases h2 : dropPrefix? k r1 with
      | none => rfl
      | some r2 =>
        dsimp only [Option.map]
        rw [spanP_snoc (p := (· == ' ')) g1]
        cases h3 : (spanP (· == ' ') r2).2 with
        | nil =>
          have : x ≠ '=' := by rintro rfl; revert hx; decide
          simp only [List.nil_append]
          split
          · rename_i heq; cases heq; exact absurd rfl this
          · rfl
        | cons z r3 =>
          by_cases hz : z = '='
          · subst hz
            show (match spanP (fun c => c == '-' || isDigit c) (spanP (· == ' ') (r3 ++ [x])).2 with
                | (c :: cs, _) => some (c :: cs)
                | _ => none) = (match spanP (fun c => c == '-' || isDigit c) (spanP (· == ' ') r3).2 with
                | (c :: cs, _) => some (c :: cs)
                | _ => none)
            rw [spanP_snoc (p := (· == ' ')) g1, spanP_snoc (p := fun c => c == '-' || isDigit c) g2]
            cases h4 : spanP (fun c => c == '-' || isDigit c) (spanP (· == ' ') r3).2 with
            | mk p q => cases p <;> rfl
          · simp only [List.cons_append]
            split
            · rename_i heq; cases heq; exact absurd rfl hz
            · split
              · rename_i heq; cases heq; exact absurd rfl hz
              · rfl

theorem toInt_snoc {x : Char} (hx : isSpace x = true) (s : Str) : toInt (s ++ [x]) = toInt s := by
  unfold toInt pyInt
  rw [Incar.strip_snoc_space s x hx]

theorem second_snoc {x : Char} (hx : isSpace x = true) (a : Str) {p : Str} (hp : p ≠ []) (hn : x ∉ p) :
    (splitSecond p (a ++ [x]) >>= toInt) = (splitSecond p a >>= toInt) := by
  unfold splitSecond
  cases h1 : cut p a with
  | mk u y =>
    cases y with
    | none =>
      obtain ⟨rfl, hno⟩ := (cut_none hp).1 h1
      rw [(cut_none hp).2 ⟨rfl, by rwa [infix_snoc hp hn]⟩]
    | some r =>
      rw [(cut_some hp).2 (((cut_some hp).1 h1).append [x])]
      dsimp only [Res.ok_bind]
      show toInt _ = toInt _
      cases h2 : cut p r with
      | mk x' y' =>
        cases y' with
        | none =>
          obtain ⟨rfl, hno⟩ := (cut_none hp).1 h2
          rw [(cut_none hp).2 ⟨rfl, by rwa [infix_snoc hp hn]⟩]
          exact toInt_snoc hx _
        | some r' => rw [(cut_some hp).2 (((cut_some hp).1 h2).append [x])]

/-- The parser sees no difference between two lines, except perhaps in the memory statistics. -/
structure Alike (a b : Str) : Prop where
  words : Verif.words b = Verif.words a
  strip : Verif.strip b = Verif.strip a
  contains : ∀ {g : Str}, g ≠ [] → '\r' ∉ g → '\n' ∉ g → Verif.contains g b = Verif.contains g a
  iterOf : Outcar.iterOf b = Outcar.iterOf a
  param : ∀ {k : Str}, '\r' ∉ k → '\n' ∉ k → ∀ d : Dict Str (Option Int), matchIntegerParam d k b = matchIntegerParam d k a
  second : ∀ {p : Str}, p ≠ [] → '\r' ∉ p → '\n' ∉ p → (splitSecond p b >>= toInt) = (splitSecond p a >>= toInt)

theorem Alike.refl (a : Str) : Alike a a := ⟨rfl, rfl, fun _ _ _ => rfl, rfl, fun _ _ _ => rfl, fun _ _ _ => rfl⟩
theorem Alike.symm {a b : Str} (h : Alike a b) : Alike b a :=
  ⟨h.words.symm, h.strip.symm, fun h1 h2 h3 => (h.contains h1 h2 h3).symm, h.iterOf.symm, fun h1 h2 d => (h.param h1 h2 d).symm, fun h1 h2 h3 => (h.second h1 h2 h3).symm⟩
theorem Alike.trans {a b c : Str} (h : Alike a b) (k : Alike b c) : Alike a c :=
  ⟨k.words.trans h.words, k.strip.trans h.strip, fun h1 h2 h3 => (k.contains h1 h2 h3).trans (h.contains h1 h2 h3), k.iterOf.trans h.iterOf,
    fun h1 h2 d => (k.param h1 h2 d).trans (h.param h1 h2 d), fun h1 h2 h3 => (k.second h1 h2 h3).trans (h.second h1 h2 h3)⟩

theorem Alike.snoc (a : Str) {x : Char} (hx : x = '\r' ∨ x = '\n') : Alike a (a ++ [x]) := by
  have hs : isSpace x = true := by rcases hx with rfl | rfl <;> decide
  have hb : x ≠ ' ' := by rcases hx with rfl | rfl <;> decide
  have hm : ∀ {g : Str}, '\r' ∉ g → '\n' ∉ g → x ∉ g := by rcases hx with rfl | rfl <;> intro g h1 h2 <;> assumption
  refine ⟨words_append_space a x hs, Incar.strip_snoc_space a x hs, fun h1 h2 h3 => contains_snoc h1 (hm h2 h3) a, iterOf_snoc hs a,
    fun h1 h2 d => ?_, fun h1 h2 h3 => second_snoc hs a h1 (hm h2 h3)⟩
  unfold matchIntegerParam; rw [matchIntParam_snoc hs hb (hm h1 h2)]

theorem otherEnd_alike {a b : Str} (h : OtherEnd a b) : Alike a b := by
  rcases h with ⟨-, rfl⟩ | ⟨c, rfl, rfl | rfl⟩
  · exact .refl _
  · have : c ++ ['\r', '\n'] = (c ++ ['\r']) ++ ['\n'] := by simp
    rw [this]
    exact ((Alike.snoc c (.inr rfl)).symm).trans ((Alike.snoc c (.inl rfl)).trans (Alike.snoc _ (.inr rfl)))
  · exact ((Alike.snoc c (.inr rfl)).symm).trans (Alike.snoc c (.inl rfl))

theorem readParams_alike {a b : Str} (h : Alike a b) (s : State) : readParams s b = readParams s a := by
  unfold readParams
  rw [h.param (by decide) (by decide)]
  congr 1; funext st1
  rw [h.param (by decide) (by decide)]
  congr 1; funext pa
  rw [h.param (by decide) (by decide)]
  congr 1; funext st2
  rw [h.contains (by decide) (by decide) (by decide)]
  split
  · have := h.second (p := c!"NBANDS=") (by decide) (by decide) (by decide)
    have assoc : ∀ (x : Res Str) (f : Int → Res State), (x >>= fun t => toInt t >>= f) = ((x >>= toInt) >>= f) := by
      intro x f; cases x <;> rfl
    rw [assoc, assoc, this]
  · rfl

theorem readMag_alike {A B : List Str} (h : List.Forall₂ Alike A B) : ∀ m : Sphere, readMag m B = readMag m A := by
  induction h with
  | nil => intro m; rfl
  | cons hab _ ih =>
    intro m
    unfold readMag
    have hm : ∀ {a b : Str}, Alike a b → readMoments b = readMoments a := by
      intro a b h; unfold readMoments; rw [h.words]
    simp only [hab.words, hab.strip, hm hab, ih]

theorem rest_idx_alike {γ : Type} {A B : List Str} (h : List.Forall₂ Alike A B) (i : Nat) {f : Str → Res γ} (hf : ∀ a b, Alike a b → f b = f a) :
    (idx B i >>= f) = (idx A i >>= f) :=
  (idx_congr h.length_eq i fun a b ha hb => (hf a b (forall₂_get h i a b ha hb)).symm).symm

theorem step_alike {a b : Str} {A B : List Str} (h : Alike a b) (hr : List.Forall₂ Alike A B) (s : State) : step s b B = step s a A := by
  unfold step
  rw [h.iterOf]
  split
  · rfl
  · rw [readParams_alike h]
    congr 1; funext s1
    have e1 : readEnd s1 b = readEnd s1 a := by unfold readEnd; rw [h.contains (by decide) (by decide) (by decide)]
    have e2 : ∀ s, readConfig s b = readConfig s a := by intro s; unfold readConfig; rw [h.strip]
    have e3 : ∀ s, readSymmetry s b B = readSymmetry s a A := by
      intro s
      unfold readSymmetry
      split
      · rfl
      · have p1 : ∀ y dyn, readPricel y dyn b B = readPricel y dyn a A := by
          intro y dyn
          unfold readPricel
          rw [h.strip]
          split
          · exact rest_idx_alike hr 0 fun x z hxz => by rw [hxz.strip]
          · rfl
        have p2 : ∀ y dyn, readSuper y dyn b = readSuper y dyn a := by
          intro y dyn
          unfold readSuper
          rw [h.contains (by decide) (by decide) (by decide), h.words]
        have p3 : ∀ y dyn, readSetgrp y dyn b B = readSetgrp y dyn a A := by
          intro y dyn
          unfold readSetgrp
          rw [h.strip]
          split
          · exact rest_idx_alike hr 0 fun x z hxz => by rw [hxz.strip]
          · rfl
        have p4 : ∀ y dyn, readGetgrp y dyn b = readGetgrp y dyn a := by
          intro y dyn
          unfold readGetgrp
          rw [h.strip, h.words]
        simp only [p1, p2, p3, p4]
    have e4 : ∀ s, readElastics s b B = readElastics s a A := by
      intro s
      have t : readTensor B = readTensor A := by
        unfold readTensor
        refine mapM'_congr _ fun i _ => rest_idx_alike hr i fun x z hxz => by rw [hxz.words]
      have : ∀ hd k e, readElastic hd k b B e = readElastic hd k a A e := by
        intro hd k e
        unfold readElastic
        rw [h.strip, t]
      unfold readElastics
      simp only [this]
    have e5 : ∀ s, readMagnetization s b B = readMagnetization s a A := by
      intro s
      have : ∀ c m, readSphere c b B m = readSphere c a A m := by
        intro c m
        unfold readSphere
        rw [h.strip, readMag_alike (forall₂_drop 3 hr)]
      unfold readMagnetization
      simp only [this, h.strip, h.words]
    rw [e1, e2, e3]
    simp only [e4, e5]

theorem scan_alike {A B : List Str} (h : List.Forall₂ Alike A B) : ∀ s : State, scan s B = scan s A := by
  induction h with
  | nil => intro s; rfl
  | cons hab hs ih =>
    intro s
    simp only [scan, step_alike hab hs, ih]


/-- A line that is only a line of the memory statistics (`...: ... kBytes`) and ends with a newline. -/
def OnlyMemory (l : Str) : Bool := l.getLast? == some '\n' && isMemLine l && !isTimeLine l

theorem statLine_otherEnd {a b : Str} (h : OtherEnd a b) (hb : b.getLast? = a.getLast?) : statLine b = if OnlyMemory a then .ok none else statLine a := by
  have hal := otherEnd_alike h
  have e1 : isTimeLine b = isTimeLine a := by
    unfold isTimeLine; rw [hal.contains (by decide) (by decide) (by decide), hal.contains (by decide) (by decide) (by decide)]
  rcases h with ⟨hn, rfl⟩ | ⟨c, rfl, rfl | rfl⟩
  · have : b.getLast? ≠ some '\n' := fun hl => hn (List.mem_of_getLast? hl)
    have : OnlyMemory b = false := by unfold OnlyMemory; simp [this]
    rw [this]; rfl
  · have e2 : isMemLine (c ++ ['\r', '\n']) = false := by
      have : chomp (c ++ ['\r', '\n']) = c ++ ['\r'] := by
        have : c ++ ['\r', '\n'] = (c ++ ['\r']) ++ ['\n'] := by simp
        rw [this]; simp [chomp]
      unfold isMemLine
      simp only [this, List.reverse_append]
      rfl
    unfold statLine
    rw [e1, e2, hal.strip]
    by_cases ht : isTimeLine (c ++ ['\n']) = true
    · have : OnlyMemory (c ++ ['\n']) = false := by unfold OnlyMemory; simp [ht]
      simp only [ht, if_true, this]
      rfl
    · by_cases hm : isMemLine (c ++ ['\n']) = true
      · have : OnlyMemory (c ++ ['\n']) = true := by unfold OnlyMemory; simp [ht, hm]
        simp [ht, this]
      · have : OnlyMemory (c ++ ['\n']) = false := by unfold OnlyMemory; simp [hm]
        simp [ht, this, hm]
  · simp at hb

theorem stats_otherEnd {A B : List Str} (h : List.Forall₂ (fun a b => OtherEnd a b ∧ b.getLast? = a.getLast?) A B) :
    ∀ d, stats d B = stats d (A.filter fun l => !OnlyMemory l) := by
  induction h with
  | nil => intro d; rfl
  | @cons a b A B hab _ ih =>
    intro d
    simp only [stats, statLine_otherEnd hab.1 hab.2, List.filter_cons]
    by_cases hm : OnlyMemory a = true
    · simp only [hm, if_true, Bool.not_true, Bool.false_eq_true, if_false, Res.ok_bind]
      exact ih d
    · simp only [hm, Bool.false_eq_true, if_false, Bool.not_false, if_true, stats]
      congr 1
      funext r
      cases r with
      | none => exact ih d
      | some p => exact ih _

theorem readlines_dos_last (t : Str) : List.Forall₂ (fun a b => OtherEnd a b ∧ b.getLast? = a.getLast?) (readlines t) (readlines (dos t)) := by
  have hc : ∀ {x : Char}, x ≠ '\n' → ∀ {A B : List Str}, List.Forall₂ (fun a b => OtherEnd a b ∧ b.getLast? = a.getLast?) A B →
      List.Forall₂ (fun a b => OtherEnd a b ∧ b.getLast? = a.getLast?) (consHead x A) (consHead x B) := by
    intro x hx A B h
    have h1 := ended_consHead hx (h.imp fun _ _ h => h.1)
    cases h with
    | nil => exact .cons ⟨by cases h1; assumption, rfl⟩ .nil
    | @cons a b A B hr hrs =>
      refine .cons ⟨by cases h1; assumption, ?_⟩ hrs
      rw [List.getLast?_cons, List.getLast?_cons, hr.2]
  induction t with
  | nil => exact .nil
  | cons x xs ih =>
    by_cases hx : x = '\n'
    · subst hx
      rw [dos_newline]
      simp only [readlines, beq_self_eq_true, if_true]
      exact .cons ⟨.inr ⟨[], rfl, .inl rfl⟩, rfl⟩ ih
    · rw [dos_cons hx, readlines, readlines, if_neg (by simpa using hx), if_neg (by simpa using hx)]
      exact hc hx ih

theorem readlines_ended : ∀ {t : Str}, t.getLast? = some '\n' → ∀ l ∈ readlines t, l.getLast? = some '\n'
  | [], h, _, _ => by cases h
  | x :: xs, h, l, hl => by
    rw [readlines] at hl
    by_cases hx : x = '\n'
    · subst hx
      simp only [beq_self_eq_true, if_true, List.mem_cons] at hl
      rcases hl with rfl | hl
      · rfl
      · cases xs with
        | nil => cases hl
        | cons y ys => exact readlines_ended (by rwa [List.getLast?_cons_cons] at h) l hl
    · rw [if_neg (by simpa using hx)] at hl
      cases xs with
      | nil => simp at h; exact absurd h hx
      | cons y ys =>
        rw [List.getLast?_cons_cons] at h
        have ih := fun l hl => readlines_ended h l hl
        cases hr : readlines (y :: ys) with
        | nil => have := congrArg List.flatten hr; rw [readlines_flatten] at this; cases this
        | cons a as =>
          rw [hr] at hl ih
          rcases List.mem_cons.1 hl with rfl | hl
          · rw [List.getLast?_cons, ih a (by simp)]; rfl
          · exact ih l (by simp [hl])

theorem stats_filter (p : Str → Bool) : ∀ (L : List Str) (d d' s : Dict Str (Option PyFloat)), stats d L = .ok s → ∃ s', stats d' (L.filter p) = .ok s'
  | [], _, d', _, _ => ⟨d', rfl⟩
  | l :: L, d, d', s, h => by
    unfold stats at h
    obtain ⟨r, h1, h⟩ := Res.bind_eq_ok.1 h
    rw [List.filter_cons]
    have ih : ∀ d', ∃ s', stats d' (L.filter p) = .ok s' := by
      cases r with
      | none => exact fun d' => stats_filter p L _ d' s h
      | some kv => exact fun d' => stats_filter p L _ d' s h
    split
    · unfold stats
      rw [h1, Res.ok_bind]
      cases r with
      | none => exact ih d'
      | some kv => exact ih _
    · exact ih d'

theorem stats_keys : ∀ (L : List Str) (d s : Dict Str (Option PyFloat)), stats d L = .ok s → ∀ k v, s.get? k = some v → d.get? k = some v ∨
    ∃ l ∈ L, statLine l = .ok (some (k, v))
  | [], d, s, h, k, v, hk => by cases h; exact .inl hk
  | l :: L, d, s, h, k, v, hk => by
    unfold stats at h
    obtain ⟨r, h1, h⟩ := Res.bind_eq_ok.1 h
    cases r with
    | none =>
      rcases stats_keys L d s h k v hk with h2 | ⟨l', h2, h3⟩
      · exact .inl h2
      · exact .inr ⟨l', by simp [h2], h3⟩
    | some kv =>
      rcases stats_keys L _ s h k v hk with h2 | ⟨l', h2, h3⟩
      · by_cases hkk : k = kv.1
        · subst hkk
          rw [Dict.get?_set, if_pos rfl] at h2
          cases h2
          exact .inr ⟨l, by simp, h1⟩
        · rw [Dict.get?_set, if_neg (Ne.symm hkk)] at h2
          exact .inl h2
      · exact .inr ⟨l', by simp [h2], h3⟩

theorem dos_fromList (t : Str) : scan {} (readlines (dos t)) = scan {} (readlines t) ∧
    stats [] (lastN 50 (readlines (dos t))) = stats [] ((lastN 50 (readlines t)).filter fun l => !OnlyMemory l) := by
  have hF := readlines_dos_last t
  refine ⟨scan_alike (hF.imp fun _ _ h => otherEnd_alike h.1) _, ?_⟩
  unfold lastN
  rw [← hF.length_eq]
  exact stats_otherEnd (forall₂_drop _ hF) []

/-- C120, OUTCAR from a file handler that does not translate line ends: a text without memory statistics (among its last 50 lines) gives the
same data with Windows line ends, or the same refusal. -/
theorem C120_outcar (t : Str) (h : ∀ l ∈ lastN 50 (readlines t), OnlyMemory l = false) : init none (some (dos t)) = init none (some t) := by
  obtain ⟨h1, h2⟩ := dos_fromList t
  show fromList _ = fromList _
  unfold fromList
  rw [h1, h2, List.filter_eq_self.2 fun l hl => by simp [h l hl]]

/-- C120, OUTCAR from a file handler that does not translate line ends: an accepted text is accepted with Windows line ends, with the same
parameters, symmetry, tensors, magnetization, step counts and verdict, and with the run statistics of its lines without those of the memory
statistics. Missing: the memory statistics, which are lost (`C120_violation_*`). -/
theorem C120_outcar_partial (t : Str) (d : Data) (h : init none (some t) = .ok d) :
    ∃ st, stats [] ((lastN 50 (readlines t)).filter fun l => !OnlyMemory l) = .ok st ∧ init none (some (dos t)) = .ok { d with stats := st } := by
  obtain ⟨h1, h2⟩ := dos_fromList t
  replace h : fromList (readlines t) = .ok d := h
  show ∃ st, _ ∧ fromList (readlines (dos t)) = _
  unfold fromList at h ⊢
  rw [h1, h2]
  obtain ⟨s, h3, h⟩ := Res.bind_eq_ok.1 h
  rw [h3, Res.ok_bind]
  cases h4 : s.iter with
  | none => rw [h4] at h; cases h
  | some it =>
    rw [h4] at h
    dsimp only at h ⊢
    obtain ⟨v, h5, h⟩ := Res.bind_eq_ok.1 h
    obtain ⟨st, h6, h⟩ := Res.bind_eq_ok.1 h
    obtain ⟨st', h7⟩ := stats_filter (fun l => !OnlyMemory l) _ [] [] st h6
    rw [h5, Res.ok_bind, h7]
    cases h
    exact ⟨st', rfl, rfl⟩

/-- C120 is false for every OUTCAR with memory statistics: with Windows line ends, from a file handler that does not translate them, it is accepted
but only the times are reported, no line `...: ... kBytes`. -/
theorem C120_violation_outcar (t : Str) (d : Data) (h : init none (some t) = .ok d) (he : t.getLast? = some '\n') :
    ∃ d', init none (some (dos t)) = .ok d' ∧ ∀ k v, d'.stats.get? k = some v → ∃ l ∈ readlines t, isTimeLine l = true ∧ statLine l = .ok (some (k, v)) := by
  obtain ⟨st, h1, h2⟩ := C120_outcar_partial t d h
  refine ⟨_, h2, fun k v hk => ?_⟩
  rcases stats_keys _ _ _ h1 k v hk with hc | ⟨l, hl, hs⟩
  · cases hc
  · obtain ⟨hl, hm⟩ := List.mem_filter.1 hl
    have hl : l ∈ readlines t := List.mem_of_mem_drop hl
    refine ⟨l, hl, ?_, hs⟩
    cases ht : isTimeLine l with
    | true => rfl
    | false =>
      exfalso
      unfold statLine at hs
      simp only [ht, Bool.false_eq_true, if_false] at hs
      split at hs
      · rename_i hmem
        have hend : l.getLast? = some '\n' := readlines_ended he l hl
        simp [OnlyMemory, hend, hmem, ht] at hm
      · cases hs

/-- Such a file: the memory is reported, and lost with Windows line ends. -/
example : ∃ (t : Str) (d d' : Data), t.getLast? = some '\n' ∧ init none (some t) = .ok d ∧ init none (some (dos t)) = .ok d' ∧
    (d.stats.get? c!"mem_usage_base").isSome = true ∧ d'.stats.get? c!"mem_usage_base" = none ∧ (d'.stats.get? c!"elapsed_time").isSome = true := by
  let t : Str := c!"   NELM   =     60;   NSW    =      0\n   IBRION =     -1\n Iteration      1(   1)\n   base      :      30000. kBytes\n  Elapsed time (sec):       12.5\n"
  have h : (match init none (some t), init none (some (dos t)) with
    | .ok d, .ok d' => (d.stats.get? c!"mem_usage_base").isSome && !(d'.stats.get? c!"mem_usage_base").isSome && (d'.stats.get? c!"elapsed_time").isSome
    | _, _ => false) = true := by decide +kernel
  cases h1 : init none (some t) with
  | ok d =>
    cases h2 : init none (some (dos t)) with
    | ok d' =>
      rw [h1, h2] at h
      simp only [Bool.and_eq_true, Bool.not_eq_true', Option.isSome_eq_false_iff, Option.isNone_iff_eq_none] at h
      exact ⟨t, d, d', by decide, h1, h2, h.1.1, h.1.2, h.2⟩
    | raise e => rw [h1, h2] at h; cases h
    | exit n => rw [h1, h2] at h; cases h
  | raise e => rw [h1] at h; cases h
  | exit n => rw [h1] at h; cases h

end Verif.Outcar
