import Verif.Schema
import Verif.Traverse

/-!
# `needs_type` and `references` on the definitions of a graph

`Verif/Traverse.lean` models the traversals for arbitrary objects. Here the objects are those of a `Graph`:
the graph itself, a class and an embed (one object for each name) and, for every place of a property, the type
object at this place (the type objects of two places are different objects even if they are alike).
-/

namespace Mapry.TypeGraph

open Mapry.Traverse

/-- The composite which holds a property. -/
inductive Owner where
  | graph
  | cls (name : Str)
  | embed (name : Str)
  deriving DecidableEq, Repr

/-- A type object. The type of the property number `k` of the owner is at the depth 0; the values of an array or a
map are one level deeper. The last component of `val` is the type found there. -/
inductive Obj where
  | graph
  | cls (name : Str)
  | embed (name : Str)
  | val (owner : Owner) (k depth : Nat) (ty : Ty)
  deriving DecidableEq, Repr

/-- The Python class of a value type (`/repo/mapry/__init__.py:13-179`). -/
def tyTag : Ty → Tag
  | .boolean => .boolean
  | .integer _ => .integer
  | .float _ => .float
  | .string _ => .string
  | .path _ => .path
  | .date _ => .date
  | .time _ => .time
  | .datetime _ => .datetime
  | .timeZone => .timeZone
  | .duration => .duration
  | .array .. => .array
  | .map _ => .map
  | .cls _ => .cls
  | .embed _ => .embed

/-- The Python class of an object. -/
def Obj.tag : Obj → Tag
  | .graph => .graph
  | .cls _ => .cls
  | .embed _ => .embed
  | .val _ _ _ t => tyTag t

/-- The object at a place: a class or an embed is the object of its definition. -/
def resolve (o : Owner) (k d : Nat) : Ty → Obj
  | .cls n => .cls n
  | .embed n => .embed n
  | t => .val o k d t

/-- `prop.type for prop in composite.properties.values()` -/
def propObjs (o : Owner) (ps : List Property) : List Obj :=
  ps.zipIdx.map fun p => resolve o p.2 0 p.1.ty

/-- The properties of a composite. -/
def ownerProps (g : Graph) : Owner → List Property
  | .graph => g.properties
  | .cls n => ((g.cls? n).map (·.properties)).getD []
  | .embed n => ((g.embed? n).map (·.properties)).getD []

/-- The objects which `_needs_type` follows, in the order of the loops (`/repo/mapry/__init__.py:372-407`). -/
def children (g : Graph) : Obj → List Obj
  | .graph => g.classes.map (fun c => .cls c.name) ++ g.embeds.map (fun e => .embed e.name) ++
      propObjs .graph g.properties
  | .cls n => propObjs (.cls n) (ownerProps g (.cls n))
  | .embed n => propObjs (.embed n) (ownerProps g (.embed n))
  | .val o k d (.array t _ _) => [resolve o k (d + 1) t]
  | .val o k d (.map t) => [resolve o k (d + 1) t]
  | .val .. => []

/-- The objects which `_references` follows (`/repo/mapry/__init__.py:446-458`). -/
def refChildren (g : Graph) : Obj → List Obj
  | .graph => []
  | x => children g x

/-- The objects at the place of a property. -/
def objsTy (o : Owner) (k d : Nat) : Ty → List Obj
  | .array t lo hi => .val o k d (.array t lo hi) :: objsTy o k (d + 1) t
  | .map t => .val o k d (.map t) :: objsTy o k (d + 1) t
  | t => [resolve o k d t]

def objsOf (o : Owner) (ps : List Property) : List Obj :=
  ps.zipIdx.flatMap fun p => objsTy o p.2 0 p.1.ty

/-- All the objects of a graph; their number bounds the depth of the recursion. -/
def univ (g : Graph) : List Obj :=
  .graph :: g.classes.map (fun c => Obj.cls c.name) ++ g.embeds.map (fun e => Obj.embed e.name) ++
  (g.classes.flatMap fun c => objsOf (.cls c.name) c.properties) ++
  (g.embeds.flatMap fun e => objsOf (.embed e.name) e.properties) ++ objsOf .graph g.properties

/-- `/repo/mapry/__init__.py:345-425` `needs_type(a_type=graph, query=...)`. `none` stands for an endless recursion;
`needs_total` shows that it does not occur. -/
def needs? (g : Graph) (q : Tag) : Option Bool :=
  (needsAux (children g) (fun o => o.tag == q) (2 * (univ g).length + 1) .graph []).map Prod.fst

/-- The answer as a condition of an `if`. -/
def needs (g : Graph) (q : Tag) : Bool := needs? g q == some true

/-- `isinstance(a_type, Class)` and the name of the class. -/
def Obj.className : Obj → Str
  | .cls n => n
  | _ => []

/-- `/repo/mapry/__init__.py:428-478` `_references` and `references`: the names of the referenced classes, sorted. -/
def references? (g : Graph) (o : Owner) : Option (List Str) :=
  (refsOfAll (refChildren g) (fun x => x.tag == .cls) ((univ g).length + 1) (propObjs o (ownerProps g o))).map
    fun found => (sortBy (fun x y => strLe x.className y.className) (toSet found)).map Obj.className

end Mapry.TypeGraph
