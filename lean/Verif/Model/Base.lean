import Verif.Py.Str
import Verif.Py.Res
/-! # Model of /repo/parsevasp/base.py: `BaseParser.write` and the file primitives it uses -/
set_option autoImplicit false
namespace Verif.Base
open Verif

/-- The object `_write` gets as file handler: the file opened for a path, the caller's handler, or something without a `write`
method (the default `''` of base.py:88, or `None` passed by the caller). -/
inductive Target
  | file (path : Str)
  | handler
  | bad
  deriving DecidableEq, Repr

/-- Effects visible outside. -/
inductive Event
  | open (path : Str)
  | write (t : Target) (text : Str)
  | chop (t : Target)
  | close (t : Target)
  deriving DecidableEq, Repr

/-- What a specific `_write` does: the pieces it writes, in order, how it ends, and whether it ends by cutting off the last
character (kpoints.py:966 with utils.py:226-246 `remove_newline`, `truncate(tell() - 1)`; only a writer that wrote something
and did not fail gets there). A handler with `write` is taken to have `tell` and `truncate`. -/
structure Writer where
  pieces : List Str
  result : Res Unit
  chop : Bool := false

/-- The keyword arguments of `write`. `none`: key absent. The inner option of `path`: `None` or `''` (both falsy) against a
non-empty path; of `handler`: an object without `write` against a file object. -/
structure Args where
  path : Option (Option Str) := none
  handler : Option Bool := none

/-- Running `_write(file_handler)`: on an object without `write` the first `write` call raises `AttributeError`. -/
def runWriter (w : Writer) : Target → List Event × Res Unit
  | .bad => match w.pieces with
    | [] => ([], w.result)
    | _ :: _ => ([], .raise .attributeError)
  | t => (w.pieces.map (Event.write t) ++ (if w.chop && w.result.isOk then [.chop t] else []), w.result)

/-- base.py:130-174 `open_close_file_handler(file_name, status='w')`: `open` or exit 14. -/
def openFile (openable : Str → Bool) (p : Str) : List Event × Res Target :=
  if openable p then ([.open p], .ok (.file p)) else ([], .exit 14)

/-- base.py:64-99 `write`. Result: the events in order and how the call ends. -/
def write (openable : Str → Bool) (w : Writer) (a : Args) : List Event × Res Unit :=
  if (a.path.isSome && a.handler.isSome) || (!a.path.isSome && !a.handler.isSome) then ([], .exit 10)
  else
    match a.path with
    | some (some p) =>
      match openFile openable p with
      | (ev, .ok t) =>
        match runWriter w t with
        | (ev', .ok ()) => (ev ++ ev' ++ [.close t], .ok ())
        | (ev', r) => (ev ++ ev', r)
      | (ev, .exit c) => (ev, .exit c)
      | (ev, .raise e) => (ev, .raise e)
    | _ =>
      let t := match a.handler with
        | some true => Target.handler
        | _ => Target.bad
      runWriter w t

end Verif.Base
