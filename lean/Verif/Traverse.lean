import Verif.Basic

/-!
# Model of the traversals in `mapry/__init__.py`

Types are Python objects compared by identity (none of the classes in `/repo/mapry/__init__.py`
defines `__eq__`), possibly shared and with cycles. The object graph is a heap: a list of nodes; the
identity of a type is its index.

The recursion of the Python functions is bounded by the fuel (the recursion limit of the
interpreter); `none` means that the limit has been exceeded.
-/

namespace Mapry.Traverse

/-! ## The two recursions over an arbitrary object graph -/

section Generic

variable {α : Type} [DecidableEq α]

/-- `set.add` -/
def insertNew (a : α) (s : List α) : List α := if a ∈ s then s else a :: s

/-- The loops of `/repo/mapry/__init__.py:372-407`: every child which has not been visited is
searched after *the parent* has been marked as visited. The loops over classes, embeds, properties
and values have the same body, so they are one loop over all the children. -/
def needsLoop (search : α → List α → Option (Bool × List α)) (a : α) :
    List α → List α → Option (Bool × List α)
  | [], visited => some (false, visited)
  | c :: cs, visited =>
    if c ∈ visited then needsLoop search a cs visited
    else match search c (insertNew a visited) with
      | none => none
      | some (true, visited') => some (true, visited')
      | some (false, visited') => needsLoop search a cs visited'

/-- `/repo/mapry/__init__.py:346-409` `_needs_type`; the visited set is mutable in Python, hence it
is returned here. -/
def needsAux (children : α → List α) (query : α → Bool) :
    Nat → α → List α → Option (Bool × List α)
  | 0, _, _ => none
  | fuel + 1, a, visited =>
    if query a then some (true, visited)
    else needsLoop (needsAux children query fuel) a (children a) visited

/-- The loops of `/repo/mapry/__init__.py:446-453`. -/
def refsLoop (search : α → List α → Option (List α × List α)) :
    List α → List α → Option (List α × List α)
  | [], visited => some ([], visited)
  | c :: cs, visited =>
    match search c visited with
    | none => none
    | some (found, visited') =>
      match refsLoop search cs visited' with
      | none => none
      | some (found', visited'') => some (found ++ found', visited'')

/-- `/repo/mapry/__init__.py:428-460` `_references`. The result is a set in Python; here it is a list
whose order and duplicates do not matter. -/
def refsAux (children : α → List α) (isClass : α → Bool) :
    Nat → α → List α → Option (List α × List α)
  | 0, _, _ => none
  | fuel + 1, a, visited =>
    if a ∈ visited then some ([], visited)
    else
      match refsLoop (refsAux children isClass fuel) (children a) (a :: visited) with
      | none => none
      | some (found, visited') => some ((if isClass a then [a] else []) ++ found, visited')

/-- The loop over the properties in `/repo/mapry/__init__.py:470-473` with a fresh visited set for
every property. -/
def refsOfAll (children : α → List α) (isClass : α → Bool) (fuel : Nat) :
    List α → Option (List α)
  | [] => some []
  | c :: cs =>
    match refsAux children isClass fuel c [] with
    | none => none
    | some (found, _) =>
      match refsOfAll children isClass fuel cs with
      | none => none
      | some found' => some (found ++ found')

end Generic

/-! ## The heap of types -/

/-- The class of a Python type object. -/
inductive Tag where
  | boolean | integer | float | string | path | date | time | datetime | timeZone | duration
  | array | map | embed | cls | graph
  deriving DecidableEq, Repr

/-- A type object with the identities of the objects it refers to
(`/repo/mapry/__init__.py:13-307`); only the attributes used by the traversals. -/
inductive Node where
  /-- a primitive type -/
  | prim (tag : Tag)
  | array (values : Nat)
  | map (values : Nat)
  | embed (name : Str) (props : List Nat)
  | cls (name : Str) (props : List Nat)
  | graph (classes embeds props : List Nat)
  deriving DecidableEq, Repr

/-- The class of the object; a node `prim` with the tag of an aggregate or composite does not occur
in a well-formed heap. -/
def Node.tag : Node → Tag
  | .prim t => t
  | .array _ => .array
  | .map _ => .map
  | .embed _ _ => .embed
  | .cls _ _ => .cls
  | .graph _ _ _ => .graph

/-- The objects which `_needs_type` follows, in the order of the loops
(`/repo/mapry/__init__.py:372-407`). -/
def Node.needsChildren : Node → List Nat
  | .prim _ => []
  | .array v => [v]
  | .map v => [v]
  | .embed _ ps => ps
  | .cls _ ps => ps
  | .graph cs es ps => cs ++ es ++ ps

/-- The objects which `_references` follows (`/repo/mapry/__init__.py:446-458`). -/
def Node.refsChildren : Node → List Nat
  | .prim _ => []
  | .array v => [v]
  | .map v => [v]
  | .embed _ ps => ps
  | .cls _ ps => ps
  | .graph _ _ _ => []

/-- The type objects of a program. -/
abbrev Heap := List Node

/-- All the identities mentioned in the heap exist. -/
def Heap.Closed (h : Heap) : Prop :=
  ∀ n ∈ h, ∀ c ∈ n.needsChildren, c < h.length

instance (h : Heap) : Decidable h.Closed := by unfold Heap.Closed; infer_instance

/-- Children of an identity for `_needs_type`. -/
def Heap.children (h : Heap) (i : Nat) : List Nat :=
  match h[i]? with
  | some n => n.needsChildren
  | none => []

/-- Children of an identity for `_references`. -/
def Heap.refChildren (h : Heap) (i : Nat) : List Nat :=
  match h[i]? with
  | some n => n.refsChildren
  | none => []

/-- `isinstance(a_type, query)`; the query is any set of classes (e.g., of a single class, or of all
classes for the base class `Type`). -/
def Heap.isInstance (h : Heap) (query : Tag → Bool) (i : Nat) : Bool :=
  match h[i]? with
  | some n => query n.tag
  | none => false

/-- `isinstance(a_type, Class)` -/
def Heap.isClass (h : Heap) (i : Nat) : Bool :=
  match h[i]? with
  | some (.cls _ _) => true
  | _ => false

/-- `cls.name` -/
def Heap.className (h : Heap) (i : Nat) : Str :=
  match h[i]? with
  | some (.cls name _) => name
  | _ => []

/-- `/repo/mapry/__init__.py:412-425` `needs_type` -/
def needsType (h : Heap) (query : Tag → Bool) (fuel : Nat) (a : Nat) : Option Bool :=
  (needsAux h.children (h.isInstance query) fuel a []).map Prod.fst

/-- Comparison of Python strings: lexicographic by code points. -/
def strLe : Str → Str → Bool
  | [], _ => true
  | _ :: _, [] => false
  | a :: as, b :: bs => a.toNat < b.toNat || (a.toNat = b.toNat && strLe as bs)

/-- One step of a stable insertion sort. -/
def insertSorted {α : Type} (le : α → α → Bool) (a : α) : List α → List α
  | [] => [a]
  | b :: bs => if le a b then a :: b :: bs else b :: insertSorted le a bs

/-- `list.sort` (stable). -/
def sortBy {α : Type} (le : α → α → Bool) (l : List α) : List α := l.foldr (insertSorted le) []

/-- The set of the elements of a list. -/
def toSet {α : Type} [DecidableEq α] (l : List α) : List α := l.foldr insertNew []

/-- `/repo/mapry/__init__.py:463-478` `references`: the union over the properties as a set, then
sorted by the name of the class (the sort is stable; the order of equal names is arbitrary in
Python since it comes from a set). -/
def references (h : Heap) (fuel : Nat) (a : Nat) : Option (List Nat) :=
  match h[a]? with
  | some (.cls _ ps) | some (.embed _ ps) =>
    (refsOfAll h.refChildren h.isClass fuel ps).map fun found =>
      sortBy (fun x y => strLe (h.className x) (h.className y)) (toSet found)
  | _ => none

end Mapry.Traverse
