/-! # Python dictionaries: insertion-ordered association lists (models CPython, no file of /repo) -/
set_option autoImplicit false
namespace Verif

/-- A Python `dict`. -/
abbrev Dict (κ ν : Type _) := List (κ × ν)

namespace Dict
variable {κ : Type _} {ν : Type _} [DecidableEq κ]

/-- `d.get(k)`. -/
def get? (d : Dict κ ν) (k : κ) : Option ν :=
  match d with
  | [] => none
  | (k', v) :: r => if k' = k then some v else get? r k

/-- `d[k] = v`: an existing key keeps its place, a new key goes to the end. -/
def set (d : Dict κ ν) (k : κ) (v : ν) : Dict κ ν :=
  match d with
  | [] => [(k, v)]
  | (k', v') :: r => if k' = k then (k', v) :: r else (k', v') :: set r k v

/-- `del d[k]` (no effect if absent; callers that need `KeyError` test first). -/
def del (d : Dict κ ν) (k : κ) : Dict κ ν := List.filter (fun e => !decide (e.1 = k)) d

/-- `list(d.keys())`. -/
def keys (d : Dict κ ν) : List κ := d.map Prod.fst

/-- `k in d`. -/
def has (d : Dict κ ν) (k : κ) : Bool := (d.get? k).isSome

end Dict
end Verif
