import Verif.Model.Outcar
import Verif.Model.Tables
import Verif.Py.Dict
/-!
# XML element trees and the searches vasprun.py makes on them

No file of /repo is modelled here: this is the part of lxml/ElementTree that vasprun.py uses. XML text is turned into a tree by lxml, which is
not modelled; the text behind a child (`tail`) is never used by vasprun.py and is left out.
-/
set_option autoImplicit false
namespace Verif.Xml
open Verif

/-- An element. -/
inductive Node
  | node (tag : Str) (attrs : Dict Str Str) (text : Option Str) (children : List Node)

namespace Node
/-- `element.tag`. -/
def tag : Node → Str
  | .node t _ _ _ => t
/-- `element.attrib`. -/
def attrs : Node → Dict Str Str
  | .node _ a _ _ => a
/-- `element.text`. -/
def text : Node → Option Str
  | .node _ _ t _ => t
/-- The children, in order. -/
def children : Node → List Node
  | .node _ _ _ cs => cs
end Node

mutual
/-- All elements below an element in document order, without itself. -/
def below : Node → List Node
  | .node _ _ _ cs => belowAll cs
/-- The elements of a list of trees in document order. -/
def belowAll : List Node → List Node
  | [] => []
  | c :: cs => c :: (below c ++ belowAll cs)
end

/-- One step of a path: a tag, possibly with `[@attribute="value"]`. -/
structure Step where
  tag : Str
  pred : Option (Str × Str) := none

/-- Does a step select this element? -/
def Step.selects (s : Step) (n : Node) : Bool :=
  decide (n.tag = s.tag) && match s.pred with
    | none => true
    | some (a, v) => decide (n.attrs.get? a = some v)

/-- Following the steps of a path from the elements found so far. -/
def follow : List Step → List Node → List Node
  | [], ns => ns
  | s :: ss, ns => follow ss (ns.flatMap fun n => n.children.filter s.selects)

/-- `findall` for a path without leading `.//`. -/
def findRel (root : Node) (ss : List Step) : List Node := follow ss [root]

/-- `findall` for `.//step/steps`. -/
def findAny (root : Node) (s : Step) (ss : List Step) : List Node := follow ss ((below root).filter s.selects)

/-- A step without predicate. -/
def t (tag : Str) : Step := ⟨tag, none⟩
/-- A step `tag[@name="v"]`. -/
def tn (tag v : Str) : Step := ⟨tag, some (c!"name", v)⟩
/-- A step `tag[@comment="v"]`. -/
def tc (tag v : Str) : Step := ⟨tag, some (c!"comment", v)⟩

end Verif.Xml
