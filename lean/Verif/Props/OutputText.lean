import Verif.Model.Output
import Verif.Props.Files
import Verif.Props.KpointsEdit
/-!
# The single writes of `_write` make up its text
-/
set_option autoImplicit false
namespace Verif.Output
open Verif Verif.Base

/-! ### the pieces make up the text -/

/-- The text of a piece that ended well. -/
def Prog.text (p : Prog) : Res Str := p.2 >>= fun _ => .ok p.1.flatten

theorem text_put (s : Str) : Prog.text (put s) = .ok s := by simp [Prog.text, put, Res.ok_bind]

theorem text_skip : Prog.text skip = .ok [] := by simp [Prog.text, skip, Res.ok_bind]

theorem text_raise (l : List Str) (e : Exc) : Prog.text (l, .raise e) = .raise e := rfl

theorem text_seq (a b : Prog) : Prog.text (seq a b) = Prog.text a >>= fun x => Prog.text b >>= fun y => .ok (x ++ y) := by
  obtain ⟨p, r⟩ := a
  obtain ⟨q, r'⟩ := b
  cases r with
  | ok u => cases u; cases r' <;> simp [Prog.text, seq, bind, Res.bind]
  | exit c => rfl
  | raise e => rfl

theorem text_after {α : Type} (r : Res α) (f : α → Prog) : Prog.text (after r f) = r >>= fun a => Prog.text (f a) := by
  cases r <;> rfl

theorem text_each {α : Type} (f : α → Res Str) (l : List α) : Prog.text (each f l) = Res.mapM' f l >>= fun ls => .ok ls.flatten := by
  induction l with
  | nil => simp [each, text_skip, Res.mapM', bind, Res.bind]
  | cons a l ih =>
    simp only [each, text_after, text_seq, text_put, ih, Res.mapM']
    cases f a with
    | ok s => cases h : Res.mapM' f l <;> simp [bind, Res.bind]
    | exit c => rfl
    | raise e => rfl

theorem text_ite {c : Prop} [Decidable c] (a b : Prog) : Prog.text (if c then a else b) = if c then Prog.text a else Prog.text b := by
  split <;> rfl

theorem res_assoc {α β γ : Type} (x : Res α) (f : α → Res β) (g : β → Res γ) : (x >>= f) >>= g = x >>= fun a => f a >>= g := by
  cases x <;> rfl

theorem argOr_ok {e : Kpoints.Entries} {k : Str} {w : Kpoints.Val} (h : Kpoints.argOr e k .none = .ok w) : Kpoints.lookup e k = .ok w := by
  unfold Kpoints.argOr at h
  rw [if_pos rfl] at h
  unfold Kpoints.lookup
  cases hg : e.get? k with
  | none => rw [hg] at h; cases h
  | some v => rw [hg] at h; exact h

theorem valid_num {e : Kpoints.Entries} (h : Kpoints.validate e = .ok ()) : ∃ n, Kpoints.lookup e c!"num_kpoints" = .ok (.atom (.int n)) := by
  obtain ⟨-, -, -, -, -, -, -, -, h, -, -⟩ := (Kpoints.validate_ok_iff e).1 h
  unfold Kpoints.checkNum at h
  obtain ⟨w, hw, h⟩ := Res.bind_eq_ok.1 h
  split at h
  · exact ⟨_, argOr_ok hw⟩
  · cases h

theorem valid_vol {e : Kpoints.Entries} (h : Kpoints.validate e = .ok ()) : ∃ v, Kpoints.lookup e c!"tetra_volume" = .ok v := by
  obtain ⟨-, -, -, -, -, -, -, -, -, -, h⟩ := (Kpoints.validate_ok_iff e).1 h
  unfold Kpoints.checkTetraVolume at h
  obtain ⟨w, hw, h⟩ := Res.bind_eq_ok.1 h
  exact ⟨w, argOr_ok hw⟩

theorem valid_mode {e : Kpoints.Entries} (h : Kpoints.validate e = .ok ()) : ∃ m, Kpoints.lookup e c!"mode" = .ok m ∧
    (m = .none ∨ m = .atom (.str c!"explicit") ∨ m = .atom (.str c!"automatic") ∨ m = .atom (.str c!"line")) := by
  obtain ⟨-, -, -, -, -, -, -, h, -, -, -⟩ := (Kpoints.validate_ok_iff e).1 h
  unfold Kpoints.checkMode at h
  obtain ⟨w, hw, h⟩ := Res.bind_eq_ok.1 h
  refine ⟨w, argOr_ok hw, ?_⟩
  split at h
  · exact .inl rfl
  · rename_i s
    split at h
    · rename_i hs
      right
      simpa using hs
    · cases h
  · cases h

theorem text_eachPoint (v : Kpoints.Val) (f : Kpoints.Elem → Res Str) :
    Prog.text (eachPoint v f) = Kpoints.overPoints v f >>= fun ls => .ok ls.flatten := by
  match v with
  | .list l => exact text_each f l
  | .atom (.str []) => rfl
  | .atom (.str (_ :: _)) => rfl
  | .atom .none => rfl
  | .atom (.int _) => rfl
  | .atom (.float _) => rfl
  | .atom (.point _) => rfl
  | .atom .other => rfl

theorem text_tetra (prec : Nat) (e : Kpoints.Entries) (t vol : Kpoints.Val) (hv : Kpoints.lookup e c!"tetra_volume" = .ok vol) :
    Prog.text (tetraProg prec e t) = Kpoints.writeTetra prec t vol := by
  cases t with
  | atom a => exact text_skip
  | list rows =>
    unfold tetraProg Kpoints.writeTetra
    simp only [text_seq, text_put, text_after, hv, Res.ok_bind]
    cases vol with
    | list l => rfl
    | atom a =>
      cases a with
      | float x =>
        simp only [text_seq, text_put, text_each, Res.ok_bind, res_assoc]
        simp only [List.append_assoc]
      | _ => rfl

theorem text_explicit (prec : Nat) (e : Kpoints.Entries) (n : Int) (vol : Kpoints.Val) (hn : Kpoints.lookup e c!"num_kpoints" = .ok (.atom (.int n)))
    (hv : Kpoints.lookup e c!"tetra_volume" = .ok vol) : Prog.text (explicitProg prec e) = Kpoints.writeExplicit prec e n := by
  unfold explicitProg Kpoints.writeExplicit
  simp only [text_seq, text_put, text_after, hn, hv, Res.ok_bind, text_eachPoint, res_assoc, text_tetra prec e _ vol hv]
  congr 1; funext pts
  congr 1; funext ls
  congr 1; funext t
  congr 1; funext tt
  simp

theorem text_divisions (prec : Nat) (v : Kpoints.Val) : Prog.text (divisionsProg prec v) = Kpoints.writeDivisions prec v := by
  cases v with
  | atom a => exact text_skip
  | list l => simp only [divisionsProg, Kpoints.writeDivisions, text_after, text_put, res_assoc]

theorem text_vectors (prec : Nat) (v : Kpoints.Val) : Prog.text (vectorsProg prec v) = Kpoints.writeVectors prec v := by
  cases v with
  | atom a => exact text_skip
  | list l => exact text_each _ _

theorem text_automatic (prec : Nat) (e : Kpoints.Entries) : Prog.text (automaticProg prec e) = Kpoints.writeAutomatic prec e := by
  unfold automaticProg Kpoints.writeAutomatic
  simp only [text_seq, text_put, text_after, Res.ok_bind, res_assoc]
  congr 1; funext cen
  cases cen with
  | list l => rfl
  | atom a =>
    cases a with
    | str s =>
      simp only [text_seq, text_put, text_after, Res.ok_bind, res_assoc, text_divisions, text_vectors]
      congr 1; funext d
      congr 1; funext dt
      congr 1; funext g
      congr 1; funext gt
      congr 1; funext sh
      congr 1; funext st
      simp
    | _ => rfl

/-- The rest of the points, if the first of them completes a pair. -/
def pairEnd : List Str → Str
  | [] => []
  | a :: r => a ++ ['\n'] ++ Kpoints.pairUp r

theorem pairUp_cons (a : Str) (r : List Str) : Kpoints.pairUp (a :: r) = a ++ pairEnd r := by
  cases r with
  | nil => simp [Kpoints.pairUp, pairEnd]
  | cons b r => simp [Kpoints.pairUp, pairEnd]

theorem text_linePoints (prec : Nat) (l : List Kpoints.Elem) (b : Bool) : Prog.text (linePoints prec b l) =
    Res.mapM' (Kpoints.writeLinePoint prec) l >>= fun ls => .ok (if b then pairEnd ls else Kpoints.pairUp ls) := by
  induction l generalizing b with
  | nil => cases b <;> rfl
  | cons p ps ih =>
    simp only [linePoints, text_after, text_seq, text_put, Res.mapM', ih]
    cases Kpoints.writeLinePoint prec p with
    | exit c => rfl
    | raise e => rfl
    | ok s =>
      simp only [Res.ok_bind]
      cases hm : Res.mapM' (Kpoints.writeLinePoint prec) ps with
      | exit c => cases b <;> rfl
      | raise e => cases b <;> rfl
      | ok ls =>
        cases b
        · simp [text_skip, pairUp_cons]
        · simp [text_put, pairEnd]

theorem text_line (prec : Nat) (e : Kpoints.Entries) (n : Int) (hn : Kpoints.lookup e c!"num_kpoints" = .ok (.atom (.int n))) :
    Prog.text (lineProg prec e) = Kpoints.lookup e c!"points" >>= fun pts => Kpoints.overPoints pts (Kpoints.writeLinePoint prec) >>= fun ls =>
      .ok ((fmtInt 6 n ++ ['\n']) ++ c!"Line-mode\n" ++ c!"Direct\n" ++ Kpoints.pairUp ls) := by
  unfold lineProg
  simp only [text_seq, text_put, text_after, hn, Res.ok_bind, res_assoc]
  congr 1; funext pts
  match pts with
  | .list l =>
    simp only [Kpoints.overPoints, text_linePoints, res_assoc, Res.ok_bind, Bool.false_eq_true, if_false]
    congr 1; funext ls
    simp
  | .atom (.str []) => simp [Kpoints.overPoints, text_skip, Kpoints.pairUp]
  | .atom (.str (_ :: _)) => rfl
  | .atom .none => rfl
  | .atom (.int _) => rfl
  | .atom (.float _) => rfl
  | .atom (.point _) => rfl
  | .atom .other => rfl

theorem kpoints_text (prec : Nat) (e : Kpoints.Entries) : Kpoints.write prec e = Prog.text (kpointsProg prec e) >>= fun t =>
    .ok (if e.get? c!"mode" = some (.atom (.str c!"line")) then t.dropLast else t) := by
  unfold Kpoints.write kpointsProg
  simp only [text_after, res_assoc]
  cases hval : Kpoints.validate e with
  | exit c => rfl
  | raise x => rfl
  | ok u =>
    cases u
    obtain ⟨n, hn⟩ := valid_num hval
    obtain ⟨vol, hv⟩ := valid_vol hval
    obtain ⟨m, hm, hcase⟩ := valid_mode hval
    have hg : e.get? c!"mode" = some m := by
      unfold Kpoints.lookup at hm
      split at hm
      · rename_i v hv; rw [hv]; injection hm with hm; rw [hm]
      · cases hm
    simp only [Res.ok_bind, hm, hn, text_seq, text_put, text_after, res_assoc, hg]
    congr 1; funext c
    have key : ∀ hd : Str, kpointsHead c = hd → (match m with
        | .atom (.str m) =>
          if m = c!"explicit" then Kpoints.writeExplicit prec e n >>= fun t => Res.ok (hd ++ t)
          else if m = c!"automatic" then Kpoints.writeAutomatic prec e >>= fun t => .ok (hd ++ t)
          else
            Kpoints.lookup e c!"points" >>= fun pts => Kpoints.overPoints pts (Kpoints.writeLinePoint prec) >>= fun ls =>
            .ok (Kpoints.removeNewline (hd ++ (fmtInt 6 n ++ ['\n']) ++ c!"Line-mode\n" ++ c!"Direct\n" ++ Kpoints.pairUp ls))
        | _ => .ok hd) = Prog.text (if m = .atom (.str c!"explicit") then explicitProg prec e
            else if m = .atom (.str c!"automatic") then automaticProg prec e
            else if m = .atom (.str c!"line") then lineProg prec e else skip) >>= fun a =>
          .ok (if m = .atom (.str c!"line") then (kpointsHead c ++ a).dropLast else kpointsHead c ++ a) := by
      rintro hd rfl
      rcases hcase with rfl | rfl | rfl | rfl
      · simp [text_skip, Kpoints.Val.none]
      · simp [text_explicit prec e n vol hn hv]
      · simp [text_automatic]
      · simp [text_line prec e n hn, res_assoc, Kpoints.removeNewline]
    have hm' := key _ rfl
    simp only [Option.some.injEq]
    rw [← hm']
    rcases hcase with rfl | rfl | rfl | rfl <;> cases c with
    | list l => rfl
    | atom a => cases a <;> rfl

theorem kpointsWriter_writes (prec : Nat) (e : Kpoints.Entries) : Files.Writes (kpointsWriter prec e) (Kpoints.write prec e) := by
  rw [kpoints_text]
  unfold Prog.text kpointsWriter
  cases hr : (kpointsProg prec e).2 with
  | ok u => cases u; simp [Files.Writes]
  | exit c => simp [Files.Writes]
  | raise x => simp [Files.Writes]

theorem text_sites (prec : Nat) (direct : Bool) (c : Poscar.Cell) (sel : Bool) (ss : List Poscar.Site) :
    Prog.text (sitesProg prec direct c sel ss) = .ok (Poscar.withNewlines (ss.map (Poscar.posLine prec direct c sel))) := by
  induction ss with
  | nil => rfl
  | cons s ss ih =>
    simp only [sitesProg, text_seq, siteProg, text_put, ih, Res.ok_bind, Poscar.withNewlines, List.map_cons, List.flatten_cons, Poscar.posLine]
    cases sel
    · simp [text_skip]
    · simp [text_put]

theorem text_lines {f : Poscar.Site → Res Str} (l : List Poscar.Site) :
    Prog.text (each (fun s => f s >>= fun x => .ok (x ++ ['\n'])) l) = Res.mapM' f l >>= fun ls => .ok (Poscar.withNewlines ls) := by
  induction l with
  | nil => rfl
  | cons s ss ih =>
    simp only [each, text_after, text_seq, text_put, ih, Res.mapM', res_assoc]
    cases f s with
    | exit c => rfl
    | raise x => rfl
    | ok x => cases h : Res.mapM' f ss <;> simp [Poscar.withNewlines]

theorem poscar_text (prec : Nat) (conserve direct : Bool) (e : Poscar.Entries) :
    Poscar.write prec conserve direct e = Prog.text (poscarProg prec conserve direct e) := by
  unfold Poscar.write poscarProg
  simp only [text_after]
  congr 1; funext _
  congr 1; funext cm
  congr 1; funext cell
  congr 1; funext g
  match cell with
  | .none => rfl
  | .str _ => rfl
  | .sites _ => rfl
  | .other => rfl
  | .cell .none => rfl
  | .cell (some c) =>
    show Poscar.writeGrouped prec direct cm c g = Prog.text (groupedProg prec direct cm c g)
    unfold Poscar.writeGrouped groupedProg
    simp only [text_seq, text_put, text_sites, Res.ok_bind, text_ite, text_lines, res_assoc]
    cases g.selective <;> cases g.velocities <;> cases g.predictors <;> cases direct <;>
      simp [text_put, text_skip, text_seq, text_lines, res_assoc, Poscar.withNewlines]

theorem poscarWriter_writes (prec : Nat) (conserve direct : Bool) (e : Poscar.Entries) :
    Files.Writes (poscarWriter prec conserve direct e) (Poscar.write prec conserve direct e) := by
  rw [poscar_text]
  unfold Prog.text poscarWriter
  cases hr : (poscarProg prec conserve direct e).2 with
  | ok u => cases u; simp [Files.Writes]
  | exit c => simp [Files.Writes]
  | raise x => simp [Files.Writes]

end Verif.Output
