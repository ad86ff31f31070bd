import Verif.Props.Outcar
/-! # OUTCAR: elastic moduli, magnetization, symmetry, run statistics (C32, C58, C64-C66) -/
set_option autoImplicit false
namespace Verif.Outcar
open Verif Verif.Utils
open Verif.Kpoints (idx toFloat toInt)

theorem idx_ok {α} {l : List α} {i : Nat} {a : α} : idx l i = .ok a ↔ l[i]? = some a := by
  unfold idx
  split
  · rename_i s h; rw [h]; simp
  · rename_i h; rw [h]; simp

/-! ### C32 -/

/-- A line that is read for tables and starts, after blanks, with a header. -/
def IsHeader (header line : Str) : Prop := iterOf line = none ∧ startsWith header (strip line) = true

instance (h l : Str) : Decidable (IsHeader h l) := by unfold IsHeader; infer_instance

/-- The numbers of the line, its first word dropped. -/
def RowOf (line : Str) (xs : List Rat) : Prop := List.Forall₂ (fun w x => toFloat w = .ok x) ((words line).drop 1) xs

/-- `t` is the table whose six rows begin two lines below the line behind its header. -/
def TableAt (below : List Str) (t : Tensor) : Prop :=
  t.length = 6 ∧ ∀ i (hi : i < t.length), ∃ line, below[i + 2]? = some line ∧ RowOf line t[i]

theorem readTensor_ok {rest : List Str} {t : Tensor} (h : readTensor rest = .ok t) : TableAt rest t := by
  unfold readTensor at h
  rw [Res.mapM'_eq_ok] at h
  have hlen := h.length_eq
  refine ⟨by simpa using hlen.symm, ?_⟩
  intro i hi
  have hi' : i < 6 := by rw [← hlen] at hi; exact hi
  have := (List.forall₂_iff_get.1 h).2 i (by simpa using hi') hi
  obtain ⟨l, h1, h2⟩ := Res.bind_eq_ok.1 this
  refine ⟨l, ?_, Res.mapM'_eq_ok.1 (by simpa using h2)⟩
  rw [idx_ok] at h1
  rw [← h1]
  congr 1
  have : ∀ j : Fin 6, ([2, 3, 4, 5, 6, 7] : List Nat).get j = j.1 + 2 := by decide
  exact (this ⟨i, hi'⟩).symm

theorem readElastic_ok {header key line : Str} {rest : List Str} {e e' : Dict Str (Option Tensor)}
    (h : readElastic header key line rest e = .ok e') :
    (∀ k, k ≠ key → e'.get? k = e.get? k) ∧
    (startsWith header (strip line) = true → ∃ t, e'.get? key = some (some t) ∧ TableAt rest t) ∧
    (startsWith header (strip line) = false → e' = e) := by
  unfold readElastic at h
  split at h
  · rename_i hc
    obtain ⟨t, ht, h⟩ := Res.bind_eq_ok.1 h
    cases h
    refine ⟨fun k hk => ?_, fun _ => ⟨t, ?_, readTensor_ok ht⟩, fun hf => by rw [hc] at hf; cases hf⟩
    · rw [Dict.get?_set, if_neg (fun h => hk h.symm)]
    · rw [Dict.get?_set, if_pos rfl]
  · rename_i hc
    cases h
    exact ⟨fun _ _ => rfl, fun ht => absurd ht hc, fun _ => rfl⟩

/-- The three tables: header and key. -/
def tables : List (Str × Str) :=
  [(c!"ELASTIC MODULI  (kBar)", c!"non_symmetrized"), (c!"SYMMETRIZED ELASTIC MODULI", c!"symmetrized"),
   (c!"TOTAL ELASTIC MODULI", c!"total")]

theorem other_elastic {s s' : State} {line : Str} {rest : List Str} (h : Other s s' line rest) :
    (∀ k, k ∉ tables.map Prod.snd → s'.elastic.get? k = s.elastic.get? k) ∧
    ∀ p ∈ tables, (startsWith p.1 (strip line) = true → ∃ t, s'.elastic.get? p.2 = some (some t) ∧ TableAt rest t) ∧
      (startsWith p.1 (strip line) = false → s'.elastic.get? p.2 = s.elastic.get? p.2) := by
  obtain ⟨e1, h1, h2⟩ := Res.bind_eq_ok.1 h.elastic
  obtain ⟨e2, h2, h3⟩ := Res.bind_eq_ok.1 h2
  obtain ⟨a1, a2, a3⟩ := readElastic_ok h1
  obtain ⟨b1, b2, b3⟩ := readElastic_ok h2
  obtain ⟨c1, c2, c3⟩ := readElastic_ok h3
  refine ⟨?_, ?_⟩
  · intro k hk
    simp only [tables, List.map_cons, List.map_nil, List.mem_cons, List.not_mem_nil, or_false, not_or] at hk
    rw [c1 k hk.2.2, b1 k hk.2.1, a1 k hk.1]
  · intro p hp
    simp only [tables, List.mem_cons, List.not_mem_nil, or_false] at hp
    rcases hp with rfl | rfl | rfl
    · constructor
      · intro hs
        obtain ⟨t, ht, hT⟩ := a2 hs
        refine ⟨t, ?_, hT⟩
        rw [c1 _ (by decide), b1 _ (by decide), ht]
      · intro hs
        rw [c1 _ (by decide), b1 _ (by decide), a3 hs]
    · constructor
      · intro hs
        obtain ⟨t, ht, hT⟩ := b2 hs
        refine ⟨t, ?_, hT⟩
        rw [c1 _ (by decide), ht]
      · intro hs
        rw [c1 _ (by decide), b3 hs, a1 _ (by decide)]
    · constructor
      · intro hs
        exact c2 hs
      · intro hs
        rw [c3 hs, b1 _ (by decide), a1 _ (by decide)]

theorem scan_elastic {s s' : State} {lines : List Str} (h : scan s lines = .ok s') :
    (∀ k, k ∉ tables.map Prod.snd → s'.elastic.get? k = s.elastic.get? k) ∧
    ∀ p ∈ tables, ((∀ l ∈ lines, ¬ IsHeader p.1 l) → s'.elastic.get? p.2 = s.elastic.get? p.2) ∧
      ∀ pre line post, lines = pre ++ line :: post → IsHeader p.1 line → (∀ l ∈ post, ¬ IsHeader p.1 l) →
        ∃ t, s'.elastic.get? p.2 = some (some t) ∧ TableAt post t := by
  induction lines generalizing s with
  | nil =>
    cases h
    refine ⟨fun _ _ => rfl, fun p _ => ⟨fun _ => rfl, ?_⟩⟩
    intro pre line post he
    simp at he
  | cons l ls ih =>
    unfold scan at h
    obtain ⟨s1, h1, h⟩ := Res.bind_eq_ok.1 h
    obtain ⟨i1, i2⟩ := ih h
    cases hl : iterOf l with
    | none =>
      obtain ⟨o1, o2⟩ := other_elastic (step_other hl h1)
      refine ⟨fun k hk => (i1 k hk).trans (o1 k hk), fun p hp => ⟨?_, ?_⟩⟩
      · intro hn
        rw [(i2 p hp).1 fun x hx => hn x (by simp [hx])]
        apply (o2 p hp).2
        have := hn l (by simp)
        unfold IsHeader at this
        cases hb : startsWith p.1 (strip l)
        · rfl
        · exact absurd ⟨hl, hb⟩ this
      · intro pre line post he hh hn
        cases pre with
        | nil =>
          simp only [List.nil_append, List.cons.injEq] at he
          obtain ⟨rfl, rfl⟩ := he
          rw [(i2 p hp).1 hn]
          exact (o2 p hp).1 hh.2
        | cons x xs =>
          simp only [List.cons_append, List.cons.injEq] at he
          exact (i2 p hp).2 xs line post he.2 hh hn
    | some n =>
      rw [step_iter hl] at h1
      cases h1
      refine ⟨i1, fun p hp => ⟨fun hn => (i2 p hp).1 fun x hx => hn x (by simp [hx]), ?_⟩⟩
      intro pre line post he hh hn
      cases pre with
      | nil =>
        simp only [List.nil_append, List.cons.injEq] at he
        obtain ⟨rfl, rfl⟩ := he
        have := hh.1
        rw [hl] at this; cases this
      | cons x xs =>
        simp only [List.cons_append, List.cons.injEq] at he
        exact (i2 p hp).2 xs line post he.2 hh hn

theorem fromList_scan {lines : List Str} {d : Data} (h : fromList lines = .ok d) : scan {} lines = .ok d.state := by
  unfold fromList at h
  obtain ⟨s, hs, h⟩ := Res.bind_eq_ok.1 h
  split at h
  · cases h
  · obtain ⟨v, _, h⟩ := Res.bind_eq_ok.1 h
    obtain ⟨st, _, h⟩ := Res.bind_eq_ok.1 h
    cases h
    exact hs

/-- C32 is false, for every accepted OUTCAR: the announced key `non-symmetrized` holds `None`, even if the file has the table. -/
theorem C32_violation (lines : List Str) (d : Data) (h : fromList lines = .ok d) :
    d.state.elastic.get? c!"non-symmetrized" = some none := by
  rw [(scan_elastic (fromList_scan h)).1 _ (by decide)]
  decide

/-- C32, proved part: under the keys `non_symmetrized` (not the announced one), `symmetrized` and `total` is the table below the
last header of its kind, without the first word of each row; without a header the entry keeps its initial value. Missing: the announced key (`C32_violation`). -/
theorem C32_tables_partial (lines : List Str) (d : Data) (h : fromList lines = .ok d) (header key : Str) (hk : (header, key) ∈ tables) :
    (∀ pre line post, lines = pre ++ line :: post → IsHeader header line → (∀ l ∈ post, ¬ IsHeader header l) →
      ∃ t, d.state.elastic.get? key = some (some t) ∧ TableAt post t) ∧
    ((∀ l ∈ lines, ¬ IsHeader header l) → d.state.elastic.get? key = if key = c!"non_symmetrized" then none else some none) := by
  obtain ⟨h1, h2⟩ := (scan_elastic (fromList_scan h)).2 _ hk
  refine ⟨h2, fun hn => ?_⟩
  rw [h1 hn]
  simp only [tables, List.mem_cons, List.not_mem_nil, or_false, Prod.mk.injEq] at hk
  rcases hk with ⟨rfl, rfl⟩ | ⟨rfl, rfl⟩ | ⟨rfl, rfl⟩ <;> decide

def exampleElastic : Str :=
  c!" NELM   =   2;\n Iteration 1(  1)\n  ELASTIC MODULI  (kBar)\n Direction XX\n ---\n XX 1 2.5\n YY 3\n ZZ 4\n XY 5\n YZ 6\n ZX -7\n TOTAL ELASTIC MODULI (kBar)\n Direction\n ---\n XX 8\n YY 9\n ZZ 8\n XY 5\n YZ 6\n ZX 7\n"

/-- Non-vacuity. -/
example : (init none (some exampleElastic) >>= fun d => .ok d.state.elastic) =
    .ok [(c!"non-symmetrized", none), (c!"symmetrized", none), (c!"total", some [[8], [9], [8], [5], [6], [7]]),
      (c!"non_symmetrized", some [[1, 5 / 2], [3], [4], [5], [6], [-7]])] := by decide +kernel
example : IsHeader c!"TOTAL ELASTIC MODULI" c!" TOTAL ELASTIC MODULI (kBar)\n" := by decide +kernel

/-! ### C64: magnetization of the whole cell -/

theorem scan_fullCell {s s' : State} {lines : List Str} (h : scan s lines = .ok s') :
    ((∀ l ∈ lines, ¬ IsHeader c!"number of electron" l) → s'.fullCell = s.fullCell) ∧
    ∀ pre line post, lines = pre ++ line :: post → IsHeader c!"number of electron" line → (∀ l ∈ post, ¬ IsHeader c!"number of electron" l) →
        ∃ v, s'.fullCell = some v ∧ List.Forall₂ (fun w x => toFloat w = .ok x) ((words line).drop 5) v := by
  induction lines generalizing s with
  | nil =>
    cases h
    refine ⟨fun _ => rfl, ?_⟩
    intro pre line post he
    simp at he
  | cons l ls ih =>
    unfold scan at h
    obtain ⟨s1, h1, h⟩ := Res.bind_eq_ok.1 h
    obtain ⟨i1, i2⟩ := ih h
    cases hl : iterOf l with
    | none =>
      have ho := (step_other hl h1).fullCell
      refine ⟨?_, ?_⟩
      · intro hn
        rw [i1 fun x hx => hn x (by simp [hx])]
        rw [if_neg (fun hb => hn l (by simp) ⟨hl, hb⟩)] at ho
        exact ho
      · intro pre line post he hh hn
        cases pre with
        | nil =>
          simp only [List.nil_append, List.cons.injEq] at he
          obtain ⟨rfl, rfl⟩ := he
          rw [i1 hn]
          rw [if_pos hh.2] at ho
          obtain ⟨v, hv, hs⟩ := ho
          exact ⟨v, hs, Res.mapM'_eq_ok.1 hv⟩
        | cons x xs =>
          simp only [List.cons_append, List.cons.injEq] at he
          exact i2 xs line post he.2 hh hn
    | some n =>
      rw [step_iter hl] at h1
      cases h1
      refine ⟨fun hn => i1 fun x hx => hn x (by simp [hx]), ?_⟩
      intro pre line post he hh hn
      cases pre with
      | nil =>
        simp only [List.nil_append, List.cons.injEq] at he
        obtain ⟨rfl, rfl⟩ := he
        have := hh.1
        rw [hl] at this; cases this
      | cons x xs =>
        simp only [List.cons_append, List.cons.injEq] at he
        exact i2 xs line post he.2 hh hn

/-- C64: the magnetization of the whole cell is what the last line about the number of electrons prints behind its first five
words; without such a line it stays empty. -/
theorem C64_full_cell (lines : List Str) (d : Data) (h : fromList lines = .ok d) :
    (∀ pre line post, lines = pre ++ line :: post → IsHeader c!"number of electron" line →
      (∀ l ∈ post, ¬ IsHeader c!"number of electron" l) →
      ∃ v, d.state.fullCell = some v ∧ List.Forall₂ (fun w x => toFloat w = .ok x) ((words line).drop 5) v) ∧
    ((∀ l ∈ lines, ¬ IsHeader c!"number of electron" l) → d.state.fullCell = none) := by
  obtain ⟨h1, h2⟩ := scan_fullCell (fromList_scan h)
  exact ⟨h2, h1⟩

example : (init none (some c!" NELM = 2;\n number of electron 8.0 magnetization 1.5\n Iteration 1( 1)\n number of electron 8.0 magnetization\n number of electron    8.00 magnetization    -2.5  1\n") >>=
    fun d => .ok d.state.fullCell) = .ok (some [-5 / 2, 1]) := by decide +kernel

/-! ### C65: magnetization of the sites -/

/-- A blank line. -/
def Blank (l : Str) : Prop := words l = []
/-- The row with the total. -/
def TotRow (l : Str) : Prop := startsWith c!"tot" (strip l) = true
/-- A rule. -/
def Rule (l : Str) : Prop := startsWith ['-'] (strip l) = true
instance (l : Str) : Decidable (Blank l) := by unfold Blank; infer_instance
instance (l : Str) : Decidable (TotRow l) := by unfold TotRow; infer_instance
instance (l : Str) : Decidable (Rule l) := by unfold Rule; infer_instance

/-- The rows of sites: the lines up to a blank line or the total, rules left out. -/
def rows (ls : List Str) : List Str := (ls.takeWhile fun l => ¬ Blank l ∧ ¬ TotRow l).filter fun l => ¬ Rule l
/-- The line that ends a table. -/
def endRow (ls : List Str) : Option Str := (ls.dropWhile fun l => ¬ Blank l ∧ ¬ TotRow l).head?

/-- The number of the site of a row. -/
def site (row : Str) : Option Int := (words row).head?.bind pyInt

/-- The number a word denotes. -/
def num (w : Str) : Option Rat := (toFloat w).toOption

/-- What a row says: after its first word the moments of s, p, d, f as far as printed, and the total in the last word. -/
structure Says (row : Str) (m : Moments) : Prop where
  total : m.get? c!"tot" = (words row).getLast?.bind num
  some : ∃ w, (words row).getLast? = some w ∧ (num w).isSome
  atMost : (words row).length ≤ 6
  orbital : ∀ i name, [c!"s", c!"p", c!"d", c!"f"][i]? = Option.some name →
    m.get? name = if i + 2 < (words row).length then (words row)[i + 1]?.bind num else Option.none

/-- The last row about site `n`. -/
def lastRow (n : Int) (rs : List Str) : Option Str := (rs.filter fun r => site r = some n).getLast?

/-- The rows of all tables with a header. -/
def allRows (header : Str) : List Str → List Str
  | [] => []
  | l :: ls => (if IsHeader header l then rows (ls.drop 3) else []) ++ allRows header ls

theorem orbitals_ok {names cs : List Str} {m m' : Moments} (hn : names.Nodup) (h : orbitals names cs m = .ok m') :
    cs.length ≤ names.length ∧ (∀ k, k ∉ names → m'.get? k = m.get? k) ∧
    (∀ i name, names[i]? = some name → m'.get? name = if i < cs.length then cs[i]?.bind num else m.get? name) := by
  induction cs generalizing names m with
  | nil => unfold orbitals at h; cases h; simp
  | cons c cs ih =>
    unfold orbitals at h
    obtain ⟨x, hx, h⟩ := Res.bind_eq_ok.1 h
    cases names with
    | nil => cases h
    | cons n ns =>
      simp only at h
      obtain ⟨i1, i2, i3⟩ := ih (List.nodup_cons.1 hn).2 h
      refine ⟨by simpa using i1, ?_, ?_⟩
      · intro k hk
        rw [i2 k (fun h => hk (by simp [h])), Dict.get?_set, if_neg]
        rintro rfl; exact hk (by simp)
      · intro i name hi
        cases i with
        | zero =>
          simp only [List.getElem?_cons_zero, Option.some.injEq] at hi
          subst hi
          rw [i2 _ (List.nodup_cons.1 hn).1, Dict.get?_set, if_pos rfl]
          simp [num, hx, Res.toOption]
        | succ i =>
          simp only [List.getElem?_cons_succ] at hi
          have hne : n ≠ name := by
            rintro rfl
            exact (List.nodup_cons.1 hn).1 (List.mem_of_getElem? hi)
          rw [i3 i name hi, Dict.get?_set, if_neg hne]
          simp

theorem readMoments_ok {row : Str} {m : Moments} (h : readMoments row = .ok m) : Says row m := by
  unfold readMoments at h
  obtain ⟨m0, h0, h⟩ := Res.bind_eq_ok.1 h
  split at h
  · rename_i t ht
    obtain ⟨x, hx, h⟩ := Res.bind_eq_ok.1 h
    cases h
    obtain ⟨o1, o2, o3⟩ := orbitals_ok (by decide) h0
    have hlen : ((words row).drop 1).dropLast.length = (words row).length - 2 := by simp; omega
    refine ⟨?_, ⟨t, ht, by simp [num, hx, Res.toOption]⟩, ?_, ?_⟩
    · rw [Dict.get?_set, if_pos rfl, ht]; simp [num, hx, Res.toOption]
    · rw [hlen] at o1; simp at o1; omega
    · intro i name hi
      have hne : c!"tot" ≠ name := by
        rintro rfl
        have := List.mem_of_getElem? hi
        revert this; decide
      rw [Dict.get?_set, if_neg hne, o3 i name hi, hlen]
      by_cases hc : i + 2 < (words row).length
      · rw [if_pos (by omega), if_pos hc]
        congr 1
        rw [List.getElem?_dropLast, if_pos (by simp; omega), List.getElem?_drop]
        congr 1; omega
      · rw [if_neg (by omega), if_neg hc]; rfl
  · cases h

/-- `sites` is `base` updated by the rows. -/
def Updated (rs : List Str) (base sites : Dict Int Moments) : Prop :=
  ∀ n, (∀ row, lastRow n rs = some row → ∃ m, sites.get? n = some m ∧ Says row m) ∧ (lastRow n rs = none → sites.get? n = base.get? n)

theorem Updated.nil (b : Dict Int Moments) : Updated [] b b := fun n => ⟨fun row h => by simp [lastRow] at h, fun _ => rfl⟩

theorem lastRow_append (n : Int) (a b : List Str) : lastRow n (a ++ b) = (lastRow n b).or (lastRow n a) := by
  unfold lastRow
  rw [List.filter_append, List.getLast?_append]

theorem Updated.append {a b : List Str} {x y z : Dict Int Moments} (h1 : Updated a x y) (h2 : Updated b y z) : Updated (a ++ b) x z := by
  intro n
  rw [lastRow_append]
  cases hb : lastRow n b with
  | some r => exact ⟨fun row h => by cases h; exact (h2 n).1 r hb, fun h => by cases h⟩
  | none =>
    rw [(h2 n).2 hb]
    exact h1 n

theorem Updated.single {row : Str} {n : Int} {m : Moments} (b : Dict Int Moments) (hs : site row = some n) (hm : Says row m) :
    Updated [row] b (b.set n m) := by
  intro k
  rw [Dict.get?_set]
  by_cases hk : n = k
  · subst hk
    simp only [if_true]
    refine ⟨fun r hr => ?_, fun hr => ?_⟩
    · simp [lastRow, hs] at hr; subst hr; exact ⟨m, rfl, hm⟩
    · simp [lastRow, hs] at hr
  · simp only [if_neg hk]
    refine ⟨fun r hr => ?_, fun _ => by simp⟩
    simp [lastRow, hs, hk] at hr

theorem keys_set_head {κ ν} [DecidableEq κ] (d : Dict κ ν) (k : κ) (v : ν) : (d.set k v).keys.head? = (d.keys ++ [k]).head? := by
  cases d with
  | nil => rfl
  | cons p ps =>
    obtain ⟨a, b⟩ := p
    unfold Dict.set
    split <;> simp [Dict.keys]

theorem site_of {row w : Str} {n : Int} (h1 : idx (words row) 0 = .ok w) (h2 : toInt w = .ok n) : site row = some n := by
  rw [idx_ok] at h1
  unfold site
  rw [List.head?_eq_getElem?, h1]
  unfold toInt at h2
  simp only [Option.bind_some]
  split at h2
  · rename_i i hi; cases h2; exact hi
  · cases h2

theorem readMag_ok {ls : List Str} {m m' : Sphere} (h : readMag m ls = .ok m') :
    Updated (rows ls) m.sites m'.sites ∧ (∀ r ∈ rows ls, (site r).isSome) ∧
    m'.sites.keys.head? = (m.sites.keys ++ (rows ls).filterMap site).head? ∧
    ∃ l, endRow ls = some l ∧ (TotRow l ∧ Says l m'.total ∨ Blank l ∧ ∃ n, m'.sites.keys.head? = some n ∧ m'.sites.get? n = some m'.total) := by
  induction ls generalizing m with
  | nil => cases h
  | cons l ls ih =>
    unfold readMag at h
    split at h
    · rename_i hb
      have hb' : Blank l := hb
      have hr : rows (l :: ls) = [] := by unfold rows; rw [List.takeWhile_cons]; simp [hb']
      have he : endRow (l :: ls) = some l := by unfold endRow; rw [List.dropWhile_cons]; simp [hb']
      split at h
      · rename_i v rest hm
        cases h
        rw [hr]
        refine ⟨Updated.nil _, by simp, by simp, l, he, .inr ⟨hb', ?_⟩⟩
        simp only [hm]
        exact ⟨_, rfl, by simp [Dict.get?]⟩
      · cases h
    · rename_i hb
      have hb' : ¬ Blank l := hb
      split at h
      · rename_i ht
        have ht' : TotRow l := ht
        have hr : rows (l :: ls) = [] := by unfold rows; rw [List.takeWhile_cons]; simp [ht']
        have he : endRow (l :: ls) = some l := by unfold endRow; rw [List.dropWhile_cons]; simp [ht']
        obtain ⟨t, h1, h⟩ := Res.bind_eq_ok.1 h
        cases h
        rw [hr]
        exact ⟨Updated.nil _, by simp, by simp, l, he, .inl ⟨ht', readMoments_ok h1⟩⟩
      · rename_i ht
        have ht' : ¬ TotRow l := ht
        have he : endRow (l :: ls) = endRow ls := by unfold endRow; rw [List.dropWhile_cons]; simp [hb', ht']
        split at h
        · rename_i hd
          have hd' : Rule l := hd
          have hr : rows (l :: ls) = rows ls := by unfold rows; rw [List.takeWhile_cons]; simp [hb', ht', hd']
          rw [hr, he]
          exact ih h
        · rename_i hd
          have hd' : ¬ Rule l := hd
          have hr : rows (l :: ls) = l :: rows ls := by unfold rows; rw [List.takeWhile_cons]; simp [hb', ht', hd']
          obtain ⟨w, hw, h⟩ := Res.bind_eq_ok.1 h
          obtain ⟨n, hn, h⟩ := Res.bind_eq_ok.1 h
          obtain ⟨t, h1, h⟩ := Res.bind_eq_ok.1 h
          have hs := site_of hw hn
          obtain ⟨i1, i2, i3, i4⟩ := ih h
          rw [hr, he]
          refine ⟨(Updated.single m.sites hs (readMoments_ok h1)).append i1, ?_, ?_, i4⟩
          · intro r hr
            rcases List.mem_cons.1 hr with rfl | hr
            · rw [hs]; rfl
            · exact i2 r hr
          · rw [i3, List.filterMap_cons, hs]
            simp only [List.head?_append, keys_set_head]
            cases m.sites.keys.head? <;> simp

/-- What a parse of the lines must store for one direction. -/
structure SphereOf (header : Str) (lines : List Str) (base m : Sphere) : Prop where
  sites : Updated (allRows header lines) base.sites m.sites
  numbered : ∀ r ∈ allRows header lines, (site r).isSome
  first : m.sites.keys.head? = (base.sites.keys ++ (allRows header lines).filterMap site).head?
  absent : (∀ l ∈ lines, ¬ IsHeader header l) → m = base
  total : ∀ pre line post, lines = pre ++ line :: post → IsHeader header line → (∀ l ∈ post, ¬ IsHeader header l) →
    ∃ l, endRow (post.drop 3) = some l ∧
      (TotRow l ∧ Says l m.total ∨ Blank l ∧ ∃ n, m.sites.keys.head? = some n ∧ m.sites.get? n = some m.total)

theorem scan_sphere (c : Char) (f : State → Sphere)
    (hf : ∀ s s' line rest, Other s s' line rest → readSphere c line rest (f s) = .ok (f s'))
    (hi : ∀ (s : State) it st, f { s with iter := it, steps := st } = f s)
    {s s' : State} {lines : List Str} (h : scan s lines = .ok s') :
    SphereOf (c!"magnetization (" ++ [c, ')']) lines (f s) (f s') := by
  induction lines generalizing s with
  | nil =>
    cases h
    exact ⟨Updated.nil _, by simp [allRows], by simp [allRows], fun _ => rfl, by intro pre line post he; simp at he⟩
  | cons l ls ih =>
    unfold scan at h
    obtain ⟨s1, h1, h⟩ := Res.bind_eq_ok.1 h
    have I := ih h
    have key : ¬ IsHeader (c!"magnetization (" ++ [c, ')']) l → f s1 = f s → SphereOf (c!"magnetization (" ++ [c, ')']) (l :: ls) (f s) (f s') := by
      intro hnh hs
      rw [← hs]
      have ha : allRows (c!"magnetization (" ++ [c, ')']) (l :: ls) = allRows (c!"magnetization (" ++ [c, ')']) ls := by
        rw [allRows, if_neg hnh, List.nil_append]
      refine ⟨by rw [ha]; exact I.sites, by rw [ha]; exact I.numbered, by rw [ha]; exact I.first,
        fun hn => I.absent fun x hx => hn x (by simp [hx]), ?_⟩
      intro pre line post he hh hn
      cases pre with
      | nil =>
        simp only [List.nil_append, List.cons.injEq] at he
        obtain ⟨rfl, rfl⟩ := he
        exact absurd hh hnh
      | cons x xs =>
        simp only [List.cons_append, List.cons.injEq] at he
        exact I.total xs line post he.2 hh hn
    cases hl : iterOf l with
    | some n =>
      rw [step_iter hl] at h1
      cases h1
      exact key (fun hh => by have := hh.1; rw [hl] at this; cases this) (hi _ _ _)
    | none =>
      have ho := hf _ _ _ _ (step_other hl h1)
      unfold readSphere at ho
      split at ho
      · rename_i hb
        have hh : IsHeader (c!"magnetization (" ++ [c, ')']) l := ⟨hl, hb⟩
        obtain ⟨r1, r2, r3, r4⟩ := readMag_ok ho
        have ha : allRows (c!"magnetization (" ++ [c, ')']) (l :: ls) = rows (ls.drop 3) ++ allRows (c!"magnetization (" ++ [c, ')']) ls := by
          rw [allRows, if_pos hh]
        refine ⟨?_, ?_, ?_, fun hn => absurd hh (hn l (by simp)), ?_⟩
        · rw [ha]; exact r1.append I.sites
        · rw [ha]
          intro r hr
          rcases List.mem_append.1 hr with hr | hr
          · exact r2 r hr
          · exact I.numbered r hr
        · rw [ha, I.first, List.head?_append, r3, List.filterMap_append, ← List.append_assoc, List.head?_append (l := _ ++ _)]
        · intro pre line post he _ hn
          cases pre with
          | nil =>
            simp only [List.nil_append, List.cons.injEq] at he
            obtain ⟨rfl, rfl⟩ := he
            rw [I.absent hn]
            exact r4
          | cons x xs =>
            rename_i hh'
            simp only [List.cons_append, List.cons.injEq] at he
            exact I.total xs line post he.2 hh' hn
      · rename_i hb
        injection ho with ho
        exact key (fun hh => hb hh.2) ho.symm

/-- C65: for each direction, the moments of site `n` are those of the last row about it in any table of that direction, and there
are none if there is no such row; the total is that of the row `tot` of the last table or, if a blank line ends it, that of the
first site read. -/
theorem C65_spheres (lines : List Str) (d : Data) (h : fromList lines = .ok d) :
    SphereOf c!"magnetization (x)" lines {} d.state.magX ∧ SphereOf c!"magnetization (y)" lines {} d.state.magY ∧
    SphereOf c!"magnetization (z)" lines {} d.state.magZ := by
  have hs := fromList_scan h
  exact ⟨scan_sphere 'x' State.magX (fun _ _ _ _ o => o.magX) (fun _ _ _ => rfl) hs,
    scan_sphere 'y' State.magY (fun _ _ _ _ o => o.magY) (fun _ _ _ => rfl) hs,
    scan_sphere 'z' State.magZ (fun _ _ _ _ o => o.magZ) (fun _ _ _ => rfl) hs⟩

def exampleMag : Str :=
  c!" NELM = 2;\n Iteration 1( 1)\n magnetization (x)\n\n # of ion  s  p  d  tot\n -----\n  1  1 2 3 6\n  2  0.5 0 0 0.5\n ------\ntot 1.5 2 3 6.5\n magnetization (y)\n\n # of ion  s  p  d  tot\n -----\n  7  1 2 3\n\n"

/-- Non-vacuity: two sites with a total, and one site ended by a blank line. -/
example : (init none (some exampleMag) >>= fun d => .ok (d.state.magX, d.state.magY, d.state.magZ)) =
    .ok (⟨[(1, [(c!"s", 1), (c!"p", 2), (c!"d", 3), (c!"tot", 6)]), (2, [(c!"s", 1 / 2), (c!"p", 0), (c!"d", 0), (c!"tot", 1 / 2)])],
        [(c!"s", 3 / 2), (c!"p", 2), (c!"d", 3), (c!"tot", 13 / 2)]⟩,
      ⟨[(7, [(c!"s", 1), (c!"p", 2), (c!"tot", 3)])], [(c!"s", 1), (c!"p", 2), (c!"tot", 3)]⟩, {}) := by decide +kernel
example : lastRow 2 (allRows c!"magnetization (x)" (readlines exampleMag)) = some c!"  2  0.5 0 0 0.5\n" := by decide +kernel

/-! ### C66: symmetry -/

/-- The kind of analysis (`some false`: static, `some true`: dynamic) in force after a line. -/
def kindAfter (k : Option Bool) (l : Str) : Option Bool :=
  if IsHeader c!"Analysis of symmetry for dynamics" l then some true
  else if IsHeader c!"Analysis of symmetry for initial positions (statically)" l then some false
  else k

/-- The lines, with what is below them, that belong to an analysis of kind `dyn`. -/
def under (dyn : Bool) : Option Bool → List Str → List (Str × List Str)
  | _, [] => []
  | k, l :: ls => (if iterOf l = none ∧ kindAfter k l = some dyn then [(l, ls)] else []) ++ under dyn (kindAfter k l) ls

/-- The three lists of a kind. -/
def Symmetry.ops (y : Symmetry) (dyn : Bool) : List Int := if dyn then y.opsDynamic else y.opsStatic
def Pair.of (p : Pair) (dyn : Bool) : List Str := if dyn then p.dynamic else p.static

/-- `xs` is what the lines starting with `header` say, in order. -/
def Collected {α} (header : Str) (tells : Str → List Str → α → Prop) (ls : List (Str × List Str)) (xs : List α) : Prop :=
  List.Forall₂ (fun p x => tells p.1 p.2 x) (ls.filter fun p => startsWith header (strip p.1)) xs

/-- Specification: a list of words as Python prints it. -/
def printedWords : List Str → Str
  | [] => c!"[]"
  | w :: ws => c!"['" ++ join c!"', '" (w :: ws) ++ c!"']"

theorem join_quoted (w : Str) (ws : List Str) :
    join c!", " ((w :: ws).map fun x => ['\''] ++ x ++ ['\'']) = ['\''] ++ join c!"', '" (w :: ws) ++ ['\''] := by
  induction ws generalizing w with
  | nil => rfl
  | cons v vs ih =>
    have := ih v
    simp only [List.map_cons] at this ⊢
    simp only [join]
    rw [this]
    simp

theorem listRepr_eq (ws : List Str) : listRepr ws = printedWords ws := by
  cases ws with
  | nil => rfl
  | cons w ws =>
    unfold listRepr printedWords
    rw [join_quoted]
    simp

/-- The texts about the original cell a line contributes. -/
def originalOf (l : Str) (below : List Str) : List Str :=
  (if startsWith c!"Subroutine PRICEL returns" (strip l) && below.head?.any (fun n => strip n ≠ []) then [c!"primitive cell"] else []) ++
  (if contains c!"primitive cells build up your supercell" l then [printedWords (words l) ++ c!" primitive cells"] else [])

theorem Pair.of_push (p : Pair) (a b : Bool) (t : Str) : (p.push a t).of b = p.of b ++ if a = b then [t] else [] := by
  unfold Pair.push Pair.of
  cases a <;> cases b <;> simp

theorem Symmetry.ops_push (y : Symmetry) (a b : Bool) (n : Int) : (y.pushOps a n).ops b = y.ops b ++ if a = b then [n] else [] := by
  unfold Symmetry.pushOps Symmetry.ops
  cases a <;> cases b <;> simp

theorem other_kind {s s' : State} {l : Str} {rest : List Str} (hl : iterOf l = none) (h : Other s s' l rest) :
    (readConfig s l).config = kindAfter s.config l ∧ s'.config = kindAfter s.config l := by
  have : (readConfig s l).config = kindAfter s.config l := by
    unfold readConfig kindAfter IsHeader
    simp only [hl, true_and]
    split <;> split <;> simp_all
  exact ⟨this, h.config.trans this⟩

theorem readPricel_ok {y y' : Symmetry} {dyn : Bool} {l : Str} {rest : List Str} (h : readPricel y dyn l rest = .ok y') :
    y'.opsStatic = y.opsStatic ∧ y'.opsDynamic = y.opsDynamic ∧ y'.symmetrized = y.symmetrized ∧
    ∀ b, (readSuper y' dyn l).original.of b = y.original.of b ++ if dyn = b then originalOf l rest else [] := by
  have hsup : ∀ z : Symmetry, ∀ b, (readSuper z dyn l).original.of b = z.original.of b ++
      if dyn = b then (if contains c!"primitive cells build up your supercell" l then [printedWords (words l) ++ c!" primitive cells"] else []) else [] := by
    intro z b
    unfold readSuper
    split
    · rename_i hc
      simp only [Pair.of_push, listRepr_eq]
    · rename_i hc
      simp
  unfold readPricel at h
  split at h
  · rename_i hc
    obtain ⟨n, hn, h⟩ := Res.bind_eq_ok.1 h
    rw [idx_ok] at hn
    have hd : rest.head? = some n := by rw [List.head?_eq_getElem?]; exact hn
    split at h
    · rename_i hb
      cases h
      refine ⟨rfl, rfl, rfl, fun b => ?_⟩
      rw [hsup]
      unfold originalOf
      simp [hc, hd, hb]
    · rename_i hb
      cases h
      refine ⟨rfl, rfl, rfl, fun b => ?_⟩
      rw [hsup]
      simp only [Pair.of_push]
      unfold originalOf
      simp only [hc, hd, Option.any_some, ne_eq, hb, not_false_eq_true, decide_true, Bool.and_self, if_true]
      split <;> simp
  · rename_i hc
    cases h
    refine ⟨rfl, rfl, rfl, fun b => ?_⟩
    rw [hsup]
    unfold originalOf
    simp [hc]

theorem readSuper_same (y : Symmetry) (dyn : Bool) (l : Str) :
    (readSuper y dyn l).opsStatic = y.opsStatic ∧ (readSuper y dyn l).opsDynamic = y.opsDynamic ∧
    (readSuper y dyn l).symmetrized = y.symmetrized := by
  unfold readSuper; split <;> simp

theorem readSetgrp_ok {y y' : Symmetry} {dyn : Bool} {l : Str} {rest : List Str} (h : readSetgrp y dyn l rest = .ok y') :
    y'.opsStatic = y.opsStatic ∧ y'.opsDynamic = y.opsDynamic ∧ y'.original = y.original ∧
    (startsWith c!"Routine SETGRP: Setting up the symmetry group for a" (strip l) = true →
      ∃ n, rest.head? = some n ∧ ∀ b, y'.symmetrized.of b = y.symmetrized.of b ++ if dyn = b then [lower (strip n)] else []) ∧
    (startsWith c!"Routine SETGRP: Setting up the symmetry group for a" (strip l) = false → y'.symmetrized = y.symmetrized) := by
  unfold readSetgrp at h
  split at h
  · rename_i hc
    obtain ⟨n, hn, h⟩ := Res.bind_eq_ok.1 h
    rw [idx_ok] at hn
    cases h
    refine ⟨rfl, rfl, rfl, fun _ => ⟨n, by rw [List.head?_eq_getElem?]; exact hn, fun b => Pair.of_push _ _ _ _⟩, fun hf => by rw [hc] at hf; cases hf⟩
  · rename_i hc
    cases h
    exact ⟨rfl, rfl, rfl, fun ht => absurd ht hc, fun _ => rfl⟩

theorem readGetgrp_ok {y y' : Symmetry} {dyn : Bool} {l : Str} (h : readGetgrp y dyn l = .ok y') :
    y'.symmetrized = y.symmetrized ∧ y'.original = y.original ∧
    (startsWith c!"Subroutine GETGRP returns" (strip l) = true →
      ∃ n, (words l)[4]?.bind pyInt = some n ∧ ∀ b, y'.ops b = y.ops b ++ if dyn = b then [n] else []) ∧
    (startsWith c!"Subroutine GETGRP returns" (strip l) = false → y' = y) := by
  unfold readGetgrp at h
  split at h
  · rename_i hc
    obtain ⟨w, hw, h⟩ := Res.bind_eq_ok.1 h
    obtain ⟨n, hn, h⟩ := Res.bind_eq_ok.1 h
    rw [idx_ok] at hw
    cases h
    refine ⟨by unfold Symmetry.pushOps; split <;> rfl, by unfold Symmetry.pushOps; split <;> rfl, fun _ => ⟨n, ?_, fun b => Symmetry.ops_push _ _ _ _⟩,
      fun hf => by rw [hc] at hf; cases hf⟩
    rw [hw]
    unfold toInt at hn
    simp only [Option.bind_some]
    split at hn
    · rename_i i hi; cases hn; exact hi
    · cases hn
  · rename_i hc
    cases h
    exact ⟨rfl, rfl, fun ht => absurd ht hc, fun _ => rfl⟩

/-- What a line that is no iteration line adds to the three lists of each kind. -/
theorem other_symmetry {s s' : State} {l : Str} {rest : List Str} (hl : iterOf l = none) (h : Other s s' l rest) (b : Bool) :
    let here : List (Str × List Str) := if iterOf l = none ∧ kindAfter s.config l = some b then [(l, rest)] else []
    s'.symmetry.original.of b = s.symmetry.original.of b ++ here.flatMap (fun p => originalOf p.1 p.2) ∧
    (∃ xs, s'.symmetry.ops b = s.symmetry.ops b ++ xs ∧
      Collected c!"Subroutine GETGRP returns" (fun l _ n => (words l)[4]?.bind pyInt = some n) here xs) ∧
    (∃ xs, s'.symmetry.symmetrized.of b = s.symmetry.symmetrized.of b ++ xs ∧
      Collected c!"Routine SETGRP: Setting up the symmetry group for a" (fun _ r t => ∃ n, r.head? = some n ∧ t = lower (strip n)) here xs) := by
  intro here
  have hk := (other_kind hl h).1
  have hsym := h.symmetry
  rw [hk] at hsym
  cases hkk : kindAfter s.config l with
  | none =>
    rw [hkk] at hsym
    simp only at hsym
    have : here = [] := by simp [here, hkk]
    rw [this, hsym]
    exact ⟨by simp, ⟨[], by simp, by simp [Collected]⟩, ⟨[], by simp, by simp [Collected]⟩⟩
  | some dyn =>
    rw [hkk] at hsym
    simp only at hsym
    obtain ⟨y1, h1, h2⟩ := Res.bind_eq_ok.1 hsym
    obtain ⟨y2, h2, h3⟩ := Res.bind_eq_ok.1 h2
    obtain ⟨a1, a2, a3, a4⟩ := readPricel_ok h1
    obtain ⟨u1, u2, u3⟩ := readSuper_same y1 dyn l
    obtain ⟨b1, b2, b3, b4, b5⟩ := readSetgrp_ok h2
    obtain ⟨c1, c2, c3, c4⟩ := readGetgrp_ok h3
    have hops : y2.ops b = s.symmetry.ops b := by
      unfold Symmetry.ops; rw [b1, b2, u1, u2, a1, a2]
    have hhere : here = if dyn = b then [(l, rest)] else [] := by simp [here, hkk, hl]
    rw [hhere]
    refine ⟨?_, ?_, ?_⟩
    · rw [c2, b3, a4 b]
      split <;> simp
    · cases hg : startsWith c!"Subroutine GETGRP returns" (strip l) with
      | true =>
        obtain ⟨n, hn, hb⟩ := c3 hg
        refine ⟨if dyn = b then [n] else [], by rw [hb b, hops], ?_⟩
        unfold Collected
        split
        · simp only [List.filter_cons, hg, if_true, List.filter_nil]; exact .cons hn .nil
        · exact .nil
      | false =>
        refine ⟨[], by rw [c4 hg, hops, List.append_nil], ?_⟩
        unfold Collected
        split
        · simp [List.filter_cons, hg]
        · exact .nil
    · rw [c1]
      cases hg : startsWith c!"Routine SETGRP: Setting up the symmetry group for a" (strip l) with
      | true =>
        obtain ⟨n, hn, hb⟩ := b4 hg
        refine ⟨if dyn = b then [lower (strip n)] else [], by rw [hb b, u3, a3], ?_⟩
        unfold Collected
        split
        · simp only [List.filter_cons, hg, if_true, List.filter_nil]; exact .cons ⟨n, hn, rfl⟩ .nil
        · exact .nil
      | false =>
        refine ⟨[], by rw [b5 hg, u3, a3, List.append_nil], ?_⟩
        unfold Collected
        split
        · simp [List.filter_cons, hg]
        · exact .nil

theorem Collected.append {α} {header : Str} {f : Str → List Str → α → Prop} {l1 l2 : List (Str × List Str)} {x1 x2 : List α}
    (h1 : Collected header f l1 x1) (h2 : Collected header f l2 x2) : Collected header f (l1 ++ l2) (x1 ++ x2) := by
  unfold Collected at *
  rw [List.filter_append]
  exact List.rel_append h1 h2

theorem scan_symmetry {s s' : State} {lines : List Str} (h : scan s lines = .ok s') (b : Bool) :
    s'.symmetry.original.of b = s.symmetry.original.of b ++ (under b s.config lines).flatMap (fun p => originalOf p.1 p.2) ∧
    (∃ xs, s'.symmetry.ops b = s.symmetry.ops b ++ xs ∧
      Collected c!"Subroutine GETGRP returns" (fun l _ n => (words l)[4]?.bind pyInt = some n) (under b s.config lines) xs) ∧
    (∃ xs, s'.symmetry.symmetrized.of b = s.symmetry.symmetrized.of b ++ xs ∧
      Collected c!"Routine SETGRP: Setting up the symmetry group for a" (fun _ r t => ∃ n, r.head? = some n ∧ t = lower (strip n))
        (under b s.config lines) xs) := by
  induction lines generalizing s with
  | nil =>
    cases h
    exact ⟨by simp [under], ⟨[], by simp, by simp [under, Collected]⟩, ⟨[], by simp, by simp [under, Collected]⟩⟩
  | cons l ls ih =>
    unfold scan at h
    obtain ⟨s1, h1, h⟩ := Res.bind_eq_ok.1 h
    obtain ⟨i1, ⟨x2, i2, i2'⟩, ⟨x3, i3, i3'⟩⟩ := ih h
    unfold under
    cases hl : iterOf l with
    | some n =>
      rw [step_iter hl] at h1
      cases h1
      have hk : kindAfter s.config l = s.config := by unfold kindAfter IsHeader; simp [hl]
      rw [if_neg (by simp), List.nil_append, hk]
      exact ⟨i1, ⟨x2, i2, i2'⟩, ⟨x3, i3, i3'⟩⟩
    | none =>
      have ho := step_other hl h1
      have hk := (other_kind hl ho).2
      obtain ⟨o1, ⟨y2, o2, o2'⟩, ⟨y3, o3, o3'⟩⟩ := other_symmetry hl ho b
      rw [hl] at o1 o2' o3'
      rw [hk] at i1 i2' i3'
      refine ⟨?_, ⟨y2 ++ x2, ?_, o2'.append i2'⟩, ⟨y3 ++ x3, ?_, o3'.append i3'⟩⟩
      · rw [i1, o1, List.append_assoc, List.flatMap_append]
      · rw [i2, o2, List.append_assoc]
      · rw [i3, o3, List.append_assoc]

/-- C66: for the static and for the dynamic analysis, the lists hold exactly what the lines of that analysis print, in order: one
number of operations per `GETGRP` line, one lower-case cell type per `SETGRP` line (from the line below), and the texts about the
original cell. -/
theorem C66_symmetry (lines : List Str) (d : Data) (h : fromList lines = .ok d) (dyn : Bool) :
    Collected c!"Subroutine GETGRP returns" (fun l _ n => (words l)[4]?.bind pyInt = some n) (under dyn none lines) (d.state.symmetry.ops dyn) ∧
    Collected c!"Routine SETGRP: Setting up the symmetry group for a" (fun _ r t => ∃ n, r.head? = some n ∧ t = lower (strip n))
      (under dyn none lines) (d.state.symmetry.symmetrized.of dyn) ∧
    d.state.symmetry.original.of dyn = (under dyn none lines).flatMap (fun p => originalOf p.1 p.2) := by
  obtain ⟨i1, ⟨x2, i2, i2'⟩, ⟨x3, i3, i3'⟩⟩ := scan_symmetry (fromList_scan h) dyn
  have e1 : ({} : State).symmetry.ops dyn = [] := by cases dyn <;> rfl
  have e2 : ({} : State).symmetry.symmetrized.of dyn = [] := by cases dyn <;> rfl
  have e3 : ({} : State).symmetry.original.of dyn = [] := by cases dyn <;> rfl
  rw [e1, List.nil_append] at i2
  rw [e2, List.nil_append] at i3
  rw [e3, List.nil_append] at i1
  rw [i2, i3]
  exact ⟨i2', i3', i1⟩

def exampleSym : Str :=
  c!" NELM = 2;\n Subroutine GETGRP returns: Found 99 space\n Analysis of symmetry for initial positions (statically):\n Subroutine PRICEL returns:\n Original cell was already a primitive cell.\n Routine SETGRP: Setting up the symmetry group for a\n Simple Cubic supercell.\n Subroutine GETGRP returns: Found 48 space group operations\n Analysis of symmetry for dynamics (positions and initial velocities):\n Subroutine GETGRP returns: Found 12 space group operations\n Iteration 1( 1)\n"

/-- Non-vacuity. -/
example : (init none (some exampleSym) >>= fun d => .ok d.state.symmetry) =
    .ok ⟨[48], [12], ⟨[c!"primitive cell"], []⟩, ⟨[c!"simple cubic supercell."], []⟩⟩ := by decide +kernel

example : printedWords (words c!"  4 primitive cells build up your supercell.\n") =
    c!"['4', 'primitive', 'cells', 'build', 'up', 'your', 'supercell.']" := by decide +kernel

/-! ### C58 -/

theorem stats_ok {d d' : Dict Str (Option PyFloat)} {ls : List Str} (h : stats d ls = .ok d') :
    ∃ items, List.Forall₂ (fun l r => statLine l = .ok r) ls items ∧
      ∀ k, d'.get? k = (((items.filterMap id).filter fun p => p.1 = k).getLast?.map Prod.snd).or (d.get? k) := by
  induction ls generalizing d with
  | nil => cases h; exact ⟨[], .nil, fun k => by simp⟩
  | cons l ls ih =>
    unfold stats at h
    obtain ⟨r, hr, h⟩ := Res.bind_eq_ok.1 h
    cases r with
    | none =>
      obtain ⟨items, i1, i2⟩ := ih h
      exact ⟨none :: items, .cons hr i1, fun k => by rw [i2 k]; rfl⟩
    | some kv =>
      obtain ⟨k0, v0⟩ := kv
      obtain ⟨items, i1, i2⟩ := ih h
      refine ⟨some (k0, v0) :: items, .cons hr i1, fun k => ?_⟩
      rw [i2 k, Dict.get?_set]
      simp only [List.filterMap_cons, id_eq, List.filter_cons]
      by_cases hk : k0 = k
      · subst hk
        simp only [decide_true, if_true]
        generalize (items.filterMap (fun x => x)).filter (fun p => decide (p.1 = k0)) = F
        cases F with
        | nil => rfl
        | cons a as => simp [List.getLast?_cons]
      · simp [hk]

theorem fromList_stats {lines : List Str} {d : Data} (h : fromList lines = .ok d) : stats [] (lastN 50 lines) = .ok d.stats := by
  unfold fromList at h
  obtain ⟨s, _, h⟩ := Res.bind_eq_ok.1 h
  split at h
  · cases h
  · obtain ⟨v, _, h⟩ := Res.bind_eq_ok.1 h
    obtain ⟨st, hst, h⟩ := Res.bind_eq_ok.1 h
    cases h
    exact hst

/-- C58: the statistics depend on the last 50 lines only. -/
theorem C58_last_lines (pre pre' post : List Str) (hp : post.length = 50) (d d' : Data) (h : fromList (pre ++ post) = .ok d)
    (h' : fromList (pre' ++ post) = .ok d') : d.stats = d'.stats := by
  have e : ∀ q : List Str, lastN 50 (q ++ post) = post := by
    intro q
    unfold lastN
    rw [List.length_append, hp, Nat.add_sub_cancel, List.drop_left]
  have h1 := fromList_stats h
  have h2 := fromList_stats h'
  rw [e] at h1 h2
  rw [h1] at h2
  injection h2

/-- C58: an item is what the last of the last 50 lines with that name says; other lines contribute nothing. -/
theorem C58_items (lines : List Str) (d : Data) (h : fromList lines = .ok d) :
    ∃ items, List.Forall₂ (fun l r => statLine l = .ok r) (lines.drop (lines.length - 50)) items ∧
      ∀ k, d.stats.get? k = ((items.filterMap id).filter fun p => p.1 = k).getLast?.map Prod.snd := by
  obtain ⟨items, h1, h2⟩ := stats_ok (fromList_stats h)
  exact ⟨items, h1, fun k => by rw [h2 k]; simp⟩

/-- C58: a line with `(sec)` or `(kb)`: the item is named after the words before the colon but the last, its value is the number
behind the colon (up to the next colon), or `None` if that is no number. -/
theorem C58_time_line (line a b rest : Str) (ht : contains c!"(sec)" line = true ∨ contains c!"(kb)" line = true)
    (hs : strip line = a ++ ':' :: (b ++ rest)) (ha : ':' ∉ a) (hb : ':' ∉ b) (hr : rest = [] ∨ ∃ r, rest = ':' :: r) :
    statLine line = .ok (some (join ['_'] ((words a).dropLast.map lower), pyFloat (strip b))) := by
  unfold statLine
  rw [if_pos (by unfold isTimeLine; rcases ht with h | h <;> simp [h])]
  have hsp : ∃ tl, splitOn ':' (strip line) = a :: b :: tl := by
    rw [hs, splitOn_sep, splitOn_free ha]
    rcases hr with rfl | ⟨r, rfl⟩
    · rw [List.append_nil, splitOn_free hb]; exact ⟨[], rfl⟩
    · rw [splitOn_sep, splitOn_free hb]; exact ⟨_, rfl⟩
  obtain ⟨tl, hsp⟩ := hsp
  simp only [hsp]
  rfl

/-- C58: such a line without a colon is an `IndexError`. -/
theorem C58_time_line_no_colon (line : Str) (ht : contains c!"(sec)" line = true ∨ contains c!"(kb)" line = true)
    (hs : ':' ∉ strip line) : statLine line = .raise .indexError := by
  unfold statLine
  rw [if_pos (by unfold isTimeLine; rcases ht with h | h <;> simp [h])]
  simp only [splitOn_free hs]
  rfl

theorem splitP_run {p : Char → Bool} (a sep b : Str) (hne : sep ≠ []) (hsep : ∀ c ∈ sep, p c = true) :
    ∃ k, splitP p (a ++ sep ++ b) = splitP p a ++ List.replicate k [] ++ splitP p b := by
  induction sep generalizing a with
  | nil => exact absurd rfl hne
  | cons c cs ih =>
    have hc := hsep c (by simp)
    cases cs with
    | nil => exact ⟨0, by simpa using splitP_append_sep p a c b hc⟩
    | cons c2 cs2 =>
      obtain ⟨k, hk⟩ := ih [] (by simp) (fun d hd => hsep d (by simp [hd]))
      refine ⟨k + 1, ?_⟩
      rw [List.append_assoc, List.cons_append, splitP_append_sep p a c _ hc]
      rw [List.nil_append] at hk
      rw [hk]
      simp [splitP, List.replicate_succ]

/-- C58: a memory line `name: … value kBytes`: the item is `mem_usage_name`, the value the number before `kBytes` or `None`. -/
theorem C58_mem_line (line name sep mid sep2 value sep3 : Str) (hn : contains c!"(sec)" line = false ∧ contains c!"(kb)" line = false)
    (hm : isMemLine line = true)
    (hs : strip line = name ++ sep ++ mid ++ sep2 ++ value ++ sep3 ++ c!"kBytes")
    (h1 : sep ≠ [] ∧ ∀ c ∈ sep, c = ':' ∨ c = ' ') (h2 : sep2 ≠ [] ∧ ∀ c ∈ sep2, c = ':' ∨ c = ' ') (h3 : sep3 ≠ [] ∧ ∀ c ∈ sep3, c = ':' ∨ c = ' ')
    (hname : ':' ∉ name ∧ ' ' ∉ name) (hv : value ≠ [] ∧ ':' ∉ value ∧ ' ' ∉ value) :
    statLine line = .ok (some (c!"mem_usage_" ++ name, pyFloat value)) := by
  have hp : ∀ sep : Str, (∀ c ∈ sep, c = ':' ∨ c = ' ') → ∀ c ∈ sep, (c == ':' || c == ' ') = true := by
    intro sep h c hc; rcases h c hc with rfl | rfl <;> rfl
  have hfree : ∀ w : Str, ':' ∉ w → ' ' ∉ w → Free (fun c => c == ':' || c == ' ') w := by
    intro w h1 h2 c hc
    simp only [Bool.or_eq_false_iff, beq_eq_false_iff_ne, ne_eq]
    exact ⟨by rintro rfl; exact h1 hc, by rintro rfl; exact h2 hc⟩
  obtain ⟨k3, e3⟩ := splitP_run (p := fun c => c == ':' || c == ' ') (name ++ sep ++ mid ++ sep2 ++ value) sep3 c!"kBytes" h3.1 (hp _ h3.2)
  obtain ⟨k2, e2⟩ := splitP_run (p := fun c => c == ':' || c == ' ') (name ++ sep ++ mid) sep2 value h2.1 (hp _ h2.2)
  obtain ⟨k1, e1⟩ := splitP_run (p := fun c => c == ':' || c == ' ') name sep mid h1.1 (hp _ h1.2)
  have ename := splitP_free (hfree name hname.1 hname.2)
  have evalue := splitP_free (hfree value hv.2.1 hv.2.2)
  have ekb : splitP (fun c => c == ':' || c == ' ') c!"kBytes" = [c!"kBytes"] := by decide
  have hsplit : splitP (fun c => c == ':' || c == ' ') (strip line) =
      name :: (List.replicate k1 [] ++ splitP (fun c => c == ':' || c == ' ') mid ++ List.replicate k2 [] ++ [value] ++ List.replicate k3 [] ++ [c!"kBytes"]) := by
    rw [hs, e3, e2, e1, ename, evalue, ekb]
    simp
  have hruns : ∃ X, splitRuns (strip line) = name :: (X ++ [value, c!"kBytes"]) := by
    refine ⟨(List.replicate k1 [] ++ splitP (fun c => c == ':' || c == ' ') mid ++ List.replicate k2 []).filter (fun w => !w.isEmpty), ?_⟩
    unfold splitRuns
    rw [hsplit]
    generalize hY : List.replicate k1 [] ++ splitP (fun c => c == ':' || c == ' ') mid ++ List.replicate k2 [] ++ [value] ++ List.replicate k3 [] = Y
    have hYf : Y.filter (fun w => !w.isEmpty) =
        (List.replicate k1 [] ++ splitP (fun c => c == ':' || c == ' ') mid ++ List.replicate k2 []).filter (fun w => !w.isEmpty) ++ [value] := by
      rw [← hY]
      rw [List.filter_append, List.filter_append (l₂ := [value])]
      have : List.filter (fun w : Str => !w.isEmpty) (List.replicate k3 []) = [] := by
        rw [List.filter_eq_nil_iff]; intro a ha; rw [List.eq_of_mem_replicate ha]; simp
      rw [this, List.append_nil]
      simp [hv.1]
    cases Y with
    | nil => simp at hYf
    | cons y ys =>
      simp only [List.cons_append]
      have : (y :: (ys ++ [c!"kBytes"])).dropLast = y :: ys := by
        rw [← List.cons_append, List.dropLast_concat]
      rw [this, hYf]
      have h2 : (y :: (ys ++ [c!"kBytes"])).getLast (by simp) = c!"kBytes" := by simp
      rw [h2]
      simp
  obtain ⟨X, hX⟩ := hruns
  unfold statLine
  rw [if_neg (by unfold isTimeLine; simp [hn]), if_pos hm]
  simp only [hX]
  have i0 : idx (name :: (X ++ [value, c!"kBytes"])) 0 = .ok name := rfl
  have i1 : idx (name :: (X ++ [value, c!"kBytes"])) ((name :: (X ++ [value, c!"kBytes"])).length - 2) = .ok value := by
    rw [idx_ok]
    have : (name :: (X ++ [value, c!"kBytes"])).length - 2 = X.length + 1 := by simp
    rw [this]
    simp
  rw [i0, Res.ok_bind, if_neg (by simp), i1, Res.ok_bind]

/-- C58: a line without `(sec)` and `(kb)` that has no colon or does not end in `kBytes` contributes nothing. -/
theorem C58_other_line (line : Str) (hn : contains c!"(sec)" line = false ∧ contains c!"(kb)" line = false)
    (h : ':' ∉ line ∨ ∀ a, line ≠ a ++ c!"kBytes" ∧ line ≠ a ++ c!"kBytes" ++ ['\n']) : statLine line = .ok none := by
  unfold statLine
  rw [if_neg (by unfold isTimeLine; simp [hn]), if_neg]
  intro hm
  unfold isMemLine at hm
  simp only [Bool.and_eq_true, List.contains_eq_mem, decide_eq_true_eq] at hm
  obtain ⟨h1, h2⟩ := hm
  have hch : ∃ e, line = chomp line ++ e ∧ (e = [] ∨ e = ['\n']) := by
    unfold chomp
    split
    · rename_i hl
      refine ⟨['\n'], ?_, .inr rfl⟩
      obtain ⟨ys, hys⟩ := List.getLast?_eq_some_iff.1 hl
      rw [hys, List.dropLast_concat]
    · exact ⟨[], by simp, .inl rfl⟩
  obtain ⟨e, he, hee⟩ := hch
  rcases h with h | h
  · apply h
    rw [he]
    exact List.mem_append_left _ (List.mem_of_mem_take h2)
  · rw [startsWith_iff] at h1
    obtain ⟨t, ht⟩ := h1
    replace ht := ht.symm
    have : chomp line = t.reverse ++ c!"kBytes" := by
      have := congrArg List.reverse ht
      simpa using this
    rcases hee with rfl | rfl
    · exact (h t.reverse).1 (by rw [he, this]; simp)
    · exact (h t.reverse).2 (by rw [he, this])

/-- Non-vacuity. -/
example : statLine c!"                  Total CPU time used (sec):       12.5\n" = .ok (some (c!"total_cpu_time_used", some (.fin ⟨false, 125, -1⟩))) := by decide +kernel
example : statLine c!"   Minor page faults (kb):   \n" = .ok (some (c!"minor_page_faults", none)) := by decide +kernel
example : statLine c!"   base      :      30000. kBytes\n" = .ok (some (c!"mem_usage_base", some (.fin ⟨false, 30000, 0⟩))) := by decide +kernel

end Verif.Outcar
