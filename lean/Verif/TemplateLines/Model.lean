import Verif.Common.Dict
/-!
The lines of a Django template on which a breakpoint may be: `/repo/pydevd_plugins/django_debug.py` `_DjangoValidationInfo`
(`_collect_valid_lines_in_template_uncached` 41-49, `_get_lineno` 51-54, `_iternodes` 56-70) and the cache of them in
`/repo/pydevd_plugins/pydevd_line_validation.py` `_collect_valid_lines_in_template` (28-43).

A node is what the code looks at of it: its line, whether its class is ignored, its `child_nodelists` (`none` where there is no such attribute) and its
attributes that are lists of nodes. Simplified: the nodes are a finite tree (so the recursion of the generator is given as much fuel as the tree is deep).
-/

namespace TemplateLines
open Py

/-- Names of attributes -/
abbrev Attr := Nat

inductive Node where
  | mk (line : Option Nat) (ignored : Bool) (lists : Option (List Attr)) (attrs : List (Attr × List Node))

def Node.line : Node → Option Nat | .mk l _ _ _ => l
/-- `node.__class__.__name__ in _IGNORE_RENDER_OF_CLASSES` -/
def Node.ignored : Node → Bool | .mk _ i _ _ => i
/-- `node.child_nodelists` -/
def Node.lists : Node → Option (List Attr) | .mk _ _ l _ => l
def Node.attrs : Node → List (Attr × List Node) | .mk _ _ _ a => a

/-- `getattr(node, attr, None)`, the empty list where there is none (both are false) -/
def Node.list (n : Node) (a : Attr) : List Node := (Dict.get n.attrs a).getD []

/-- The loop over `children` (64-70): `node` is the node of the outer loop at first and, as the inner loop has a variable of the same name, the last node given
by it from then on. `iter` is `self._iternodes`. -/
def children (iter : List Node → List Node) : Node → List Attr → List Node
  | _, [] => []
  | node, a :: rest =>
    let nodelist := node.list a
    if nodelist.isEmpty then children iter node rest
    else
      let given := iter nodelist
      given ++ children iter (given.getLast?.getD node) rest

/-- `_iternodes` (56-70) -/
def iternodes : Nat → List Node → List Node
  | 0, _ => []
  | fuel + 1, nodes => nodes.flatMap fun n => n :: (match n.lists with | none => [] | some as => children (iternodes fuel) n as)

mutual
def Node.depth : Node → Nat
  | .mk _ _ _ attrs => depthAttrs attrs + 1
def depthAttrs : List (Attr × List Node) → Nat
  | [] => 0
  | (_, ns) :: rest => max (depthList ns) (depthAttrs rest)
def depthList : List Node → Nat
  | [] => 0
  | n :: rest => max n.depth (depthList rest)
end

/-- `_collect_valid_lines_in_template_uncached` (41-49) -/
def validLines (nodelist : List Node) : List Nat :=
  (iternodes (depthList nodelist) nodelist).filterMap fun n => if n.ignored then none else n.line

end TemplateLines
