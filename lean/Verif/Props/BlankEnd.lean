import Verif.Props.CutIncar
import Verif.Props.CutKpoints
import Verif.Props.CutPotcar
import Verif.Props.CutOutcar
/-! # Blank lines at the end of a file (C100): INCAR, KPOINTS, POSCAR, POTCAR, OUTCAR -/
set_option autoImplicit false
namespace Verif
/-- Blank lines: nothing but blanks and newlines. -/
def BlankLines (s : Str) : Prop := ∀ c ∈ s, c = ' ' ∨ c = '\n'

theorem BlankLines.line {s l : Str} (h : BlankLines s) (hl : l ∈ readlines s) : BlankLines l :=
  fun c hc => h c ((infix_of_mem_readlines hl).subset hc)

theorem BlankLines.space {s : Str} (h : BlankLines s) : ∀ c ∈ s, isSpace c = true := by
  intro c hc
  rcases h c hc with rfl | rfl <;> decide

theorem BlankLines.words {s : Str} (h : BlankLines s) : words s = [] := (Incar.words_eq_nil_iff s).2 h.space

theorem BlankLines.strip {s : Str} (h : BlankLines s) : strip s = [] := by
  cases he : Verif.strip s with
  | nil => rfl
  | cons c cs =>
    have h1 := strip_head s c (by rw [he]; rfl)
    have h2 := h.space c ((Incar.strip_infix s).subset (by rw [he]; simp))
    rw [h1] at h2
    cases h2

theorem BlankLines.contains {s : Str} (h : BlankLines s) {p : Str} {c : Char} (hc : c ∈ p) (hb : c ≠ ' ') (hn : c ≠ '\n') :
    contains p s = false := by
  cases he : Verif.contains p s with
  | false => rfl
  | true =>
    rcases h c (((Utils.contains_iff p s).1 he).subset hc) with rfl | rfl
    · exact absurd rfl hb
    · exact absurd rfl hn
end Verif

namespace Verif.Incar
open Verif Verif.Utils Verif.IncarSpec

theorem assigns_blanks {ls : List Str} (h : ∀ l ∈ ls, BlankLines l) : assigns ls = [] := by
  induction ls with
  | nil => rfl
  | cons l ls ih =>
    have hb : Blank l := fun c hc => (h l (by simp)).space c ((List.takeWhile_prefix _).subset hc)
    have := assigns_append [l] ls
    rw [List.singleton_append] at this
    rw [this, assigns_blank l hb, ih fun l' hl => h l' (by simp [hl])]
    rfl

/-- C100 for INCAR: blank lines at the end of a file change nothing. -/
theorem C100_incar (F : FloatEnv) (allowed : List Str) (vt : Bool) (t s : Str) (ht : LineEnd t) (hs : BlankLines s) :
    init F allowed vt { handler := some (t ++ s) } = init F allowed vt { handler := some t } := by
  rw [init_handler, init_handler, readlines_lineEnd ht, fromList_eq, fromList_eq, assigns_append,
    assigns_blanks fun l hl => hs.line hl, List.append_nil]

end Verif.Incar

namespace Verif.Potcar
/-- C100 for POTCAR: whatever follows the parameters, so blank lines, too, changes nothing. -/
theorem C100_potcar (t s : Str) (h : HasParameters t) : init none (some (t ++ s)) = init none (some t) := ((C95_cut t s).1 h).symm
end Verif.Potcar

namespace Verif.Outcar
open Verif Verif.Utils

theorem startsWith_nil {p : Str} (h : p ≠ []) : startsWith p [] = false := by
  cases he : startsWith p [] with
  | false => rfl
  | true => exact absurd (List.prefix_nil.1 ((startsWith_iff p []).1 he)) h

theorem step_blank {l : Str} (hl : BlankLines l) (s : State) (rest : List Str) : step s l rest = .ok s := by
  have hi : iterOf l = none := by
    cases h : iterOf l with
    | none => rfl
    | some r =>
      obtain ⟨u, v, rfl⟩ := iterOf_I h
      rcases hl 'I' (by simp) with h | h <;> exact absurd h (by decide)
  have hm : ∀ (d : Dict Str (Option Int)) (key : Str) (c : Char), key.head? = some c → c ≠ ' ' → c ≠ '\n' →
      matchIntegerParam d key l = .ok d := by
    intro d key c hc h1 h2
    refine C57_ignores d key l (by rintro rfl; cases hc) (fun c' h' => by rw [hc] at h'; cases h'; exact h1) ?_
    rintro g ⟨n, m, k, rest, rfl, _⟩
    have : c ∈ key := by
      cases key with
      | nil => cases hc
      | cons a as => cases hc; simp
    rcases hl c (by simp [this]) with h | h
    · exact h1 h
    · exact h2 h
  unfold step
  rw [hi]
  have hst := hl.strip
  have c1 := hl.contains (p := c!"NBANDS=") (c := 'N') (by decide) (by decide) (by decide)
  have c2 := hl.contains (p := c!"timing and accounting informations") (c := 't') (by decide) (by decide) (by decide)
  have c3 := hl.contains (p := c!"primitive cells build up your supercell") (c := 'p') (by decide) (by decide) (by decide)
  have hp : readParams s l = .ok s := by
    unfold readParams
    rw [hm _ _ 'N' (by decide) (by decide) (by decide), Res.ok_bind, hm _ _ 'I' (by decide) (by decide) (by decide), Res.ok_bind,
      hm _ _ 'N' (by decide) (by decide) (by decide), Res.ok_bind, c1]
    rfl
  have he : readEnd s l = s := by unfold readEnd; rw [c2]; rfl
  have hc : readConfig s l = s := by
    unfold readConfig
    rw [hst]
    rfl
  have hy : readSymmetry s l rest = .ok s := by
    unfold readSymmetry readPricel readSetgrp readGetgrp readSuper
    obtain ⟨cfg, _, _, _, _, _, _, _, _, _, _, _, _⟩ := s
    cases cfg with
    | none => rfl
    | some dyn => simp [hst, c3, startsWith_nil]
  have hel : readElastics s l rest = .ok s := by
    unfold readElastics readElastic
    rw [hst]
    rfl
  have hma : readMagnetization s l rest = .ok s := by
    unfold readMagnetization readSphere
    rw [hst]
    rfl
  dsimp only
  rw [hp, Res.ok_bind, he, hc, hy, Res.ok_bind, hel, Res.ok_bind, hma]

theorem scan_blank {ls : List Str} (h : ∀ l ∈ ls, BlankLines l) (s : State) : scan s ls = .ok s := by
  induction ls with
  | nil => rfl
  | cons l ls ih =>
    unfold scan
    rw [step_blank (h l (by simp)), Res.ok_bind]
    exact ih fun l' hl => h l' (by simp [hl])

theorem statLine_blank {l : Str} (hl : BlankLines l) : statLine l = .ok none := by
  have c1 := hl.contains (p := c!"(sec)") (c := 's') (by decide) (by decide) (by decide)
  have c2 := hl.contains (p := c!"(kb)") (c := 'k') (by decide) (by decide) (by decide)
  have c3 : isMemLine l = false := by
    unfold isMemLine
    rw [Bool.and_eq_false_iff]
    right
    cases h : (List.take ((chomp l).length - 6) (chomp l)).contains ':' with
    | false => rfl
    | true =>
      have h1 : ':' ∈ chomp l := (List.take_subset _ _) (by simpa using h)
      have h2 : chomp l ⊆ l := by
        unfold chomp
        split
        · exact List.dropLast_subset l
        · exact fun _ h => h
      rcases hl _ (h2 h1) with h | h <;> exact absurd h (by decide)
  unfold statLine isTimeLine
  rw [c1, c2, c3]
  rfl

theorem stats_cons (d : Dict Str (Option PyFloat)) (l : Str) (ls : List Str) : stats d (l :: ls) = (statLine l >>= fun r => match r with
    | some (k, v) => stats (d.set k v) ls
    | none => stats d ls) := rfl

theorem stats_append (d : Dict Str (Option PyFloat)) (a b : List Str) : stats d (a ++ b) = (stats d a >>= fun d' => stats d' b) := by
  induction a generalizing d with
  | nil => rfl
  | cons l ls ih =>
    rw [List.cons_append, stats_cons, stats_cons]
    cases h : statLine l with
    | ok r =>
      rw [Res.ok_bind, Res.ok_bind]
      cases r with
      | none => exact ih d
      | some kv => exact ih _
    | raise e => rfl
    | exit n => rfl

theorem stats_quiet {ls : List Str} (h : ∀ l ∈ ls, statLine l = .ok none) (d : Dict Str (Option PyFloat)) : stats d ls = .ok d := by
  induction ls with
  | nil => rfl
  | cons l ls ih =>
    unfold stats
    rw [h l (by simp), Res.ok_bind]
    exact ih fun l' hl => h l' (by simp [hl])

theorem stats_total {ls : List Str} (h : ∀ l ∈ ls, ∃ r, statLine l = .ok r) (d : Dict Str (Option PyFloat)) : ∃ d', stats d ls = .ok d' := by
  induction ls generalizing d with
  | nil => exact ⟨d, rfl⟩
  | cons l ls ih =>
    unfold stats
    obtain ⟨r, hr⟩ := h l (by simp)
    rw [hr, Res.ok_bind]
    cases r with
    | none => exact ih (fun l' hl => h l' (by simp [hl])) _
    | some kv => exact ih (fun l' hl => h l' (by simp [hl])) _

theorem stats_lines {ls : List Str} {d d' : Dict Str (Option PyFloat)} (h : stats d ls = .ok d') : ∀ l ∈ ls, ∃ r, statLine l = .ok r := by
  induction ls generalizing d with
  | nil => intro l hl; cases hl
  | cons x xs ih =>
    unfold stats at h
    obtain ⟨r, hr, h⟩ := Res.bind_eq_ok.1 h
    intro l hl
    rcases List.mem_cons.1 hl with rfl | hl
    · exact ⟨r, hr⟩
    · cases r with
      | none => exact ih h l hl
      | some kv => exact ih h l hl

theorem lastN_append (n : Nat) (a b : List Str) : lastN n (a ++ b) = lastN (n - b.length) a ++ lastN n b := by
  unfold lastN
  rw [List.drop_append, List.length_append]
  congr 1
  · by_cases h : b.length ≤ n
    · congr 1; omega
    · rw [List.drop_eq_nil_of_le (by omega), List.drop_eq_nil_of_le (by omega)]
  · congr 1; omega

theorem lastN_subset {m n : Nat} (h : m ≤ n) (a : List Str) : ∀ l ∈ lastN m a, l ∈ lastN n a := by
  intro l hl
  unfold lastN at hl ⊢
  have : a.length - m = (a.length - n) + (a.length - m - (a.length - n)) := by omega
  rw [this, ← List.drop_drop] at hl
  exact List.drop_subset _ _ hl

/-- C100 for OUTCAR: blank lines at the end of a complete file change neither the data nor the verdict; the run statistics are those of the
last lines that are still among the last fifty. Missing: the run statistics, which are lost behind fifty blank lines (`C100_violation_*`). -/
theorem C100_outcar_partial (t s : Str) (ht : LineEnd t) (hs : BlankLines s) (d : Data) (h : init none (some t) = .ok d) :
    ∃ st, stats [] (lastN (50 - (readlines s).length) (readlines t)) = .ok st ∧
      init none (some (t ++ s)) = .ok { d with stats := st } := by
  have hb : ∀ l ∈ readlines s, BlankLines l := fun l hl => hs.line hl
  have h : fromList (readlines t) = .ok d := h
  show ∃ st, _ ∧ fromList (readlines (t ++ s)) = _
  unfold fromList at h ⊢
  obtain ⟨x, hx, h⟩ := Res.bind_eq_ok.1 h
  rw [readlines_lineEnd ht, scan_append _ hx, scan_blank hb, Res.ok_bind]
  split at h
  · cases h
  rename_i it hit
  obtain ⟨v, hv, h⟩ := Res.bind_eq_ok.1 h
  obtain ⟨st, hst, h⟩ := Res.bind_eq_ok.1 h
  cases h
  obtain ⟨st', hst'⟩ := stats_total (ls := lastN (50 - (readlines s).length) (readlines t))
    (fun l hl => stats_lines hst l (lastN_subset (by omega) _ l hl)) []
  refine ⟨st', hst', ?_⟩
  rw [hv, Res.ok_bind, lastN_append, stats_append, hst', Res.ok_bind,
    stats_quiet (ls := lastN 50 (readlines s)) fun l hl => statLine_blank (hb l (List.drop_subset _ _ hl)), Res.ok_bind]

/-- C100 for OUTCAR: if the lines the blank ones push out of the last fifty carry no statistics, nothing changes at all. -/
theorem C100_outcar_same (t s : Str) (ht : LineEnd t) (hs : BlankLines s) (d : Data) (h : init none (some t) = .ok d)
    (hq : ∀ l ∈ (lastN 50 (readlines t)).take (readlines s).length, statLine l = .ok none) : init none (some (t ++ s)) = .ok d := by
  obtain ⟨st, h1, h2⟩ := C100_outcar_partial t s ht hs d h
  have h3 : stats [] (lastN 50 (readlines t)) = .ok d.stats := by
    have h : fromList (readlines t) = .ok d := h
    unfold fromList at h
    obtain ⟨x, hx, h⟩ := Res.bind_eq_ok.1 h
    split at h
    · cases h
    obtain ⟨v, hv, h⟩ := Res.bind_eq_ok.1 h
    obtain ⟨st, hst, h⟩ := Res.bind_eq_ok.1 h
    cases h
    exact hst
  suffices st = d.stats by rw [h2, this]
  by_cases hlen : (readlines t).length ≤ 50 - (readlines s).length
  · have e1 : lastN (50 - (readlines s).length) (readlines t) = readlines t := by
      unfold lastN; rw [Nat.sub_eq_zero_of_le hlen]; rfl
    have e2 : lastN 50 (readlines t) = readlines t := by
      unfold lastN; rw [Nat.sub_eq_zero_of_le (by omega)]; rfl
    rw [e1] at h1
    rw [e2, h1] at h3
    exact Res.ok.inj h3
  · rw [← List.take_append_drop ((readlines t).length - (50 - (readlines s).length) - ((readlines t).length - 50)) (lastN 50 (readlines t)), stats_append,
      stats_quiet (fun l hl => hq l ((List.take_subset_take_left _ (by omega)) hl)), Res.ok_bind] at h3
    unfold lastN at h1 h3
    rw [List.drop_drop, show (readlines t).length - 50 + ((readlines t).length - (50 - (readlines s).length) - ((readlines t).length - 50)) =
      (readlines t).length - (50 - (readlines s).length) by omega, h1] at h3
    exact Res.ok.inj h3

/-- C100 is false: fifty blank lines at the end of any OUTCAR hide all run statistics. -/
theorem C100_violation_outcar (t s : Str) (ht : LineEnd t) (hs : BlankLines s) (hn : 50 ≤ (readlines s).length) (d : Data)
    (h : init none (some t) = .ok d) : init none (some (t ++ s)) = .ok { d with stats := [] } := by
  obtain ⟨st, h1, h2⟩ := C100_outcar_partial t s ht hs d h
  have : lastN (50 - (readlines s).length) (readlines t) = [] := by
    unfold lastN; rw [show 50 - (readlines s).length = 0 by omega]; simp
  rw [this] at h1
  cases h1
  exact h2

/-- A finished run with statistics, with blank lines at its end. -/
example : LineEnd (exampleOutcar ++ c!" Total CPU time used (sec): 12.5\n") ∧
    init none (some (exampleOutcar ++ c!" Total CPU time used (sec): 12.5\n")) >>= (fun d => .ok (d.stats.keys, d.last)) =
      .ok ([c!"total_cpu_time_used"], (2, 1)) ∧
    init none (some (exampleOutcar ++ c!" Total CPU time used (sec): 12.5\n" ++ List.replicate 49 '\n')) >>= (fun d => .ok (d.stats.keys, d.last)) =
      .ok ([c!"total_cpu_time_used"], (2, 1)) ∧
    init none (some (exampleOutcar ++ c!" Total CPU time used (sec): 12.5\n" ++ List.replicate 50 '\n')) >>= (fun d => .ok (d.stats.keys, d.last)) =
      .ok ([], (2, 1)) :=
  ⟨.inr (by decide +kernel), by decide +kernel, by decide +kernel, by decide +kernel⟩

end Verif.Outcar
