import Verif.Basic

/-!
# Model of the data definitions of `mapry/__init__.py`

Types are trees; a class or an embed used as a type is its name (in Python: a pointer to the
definition of that name; `Verif/Traverse.lean` models the pointers).
-/

namespace Mapry

/-- Bounds of integers and floats (`/repo/mapry/__init__.py:21-66`). After parsing the schema, the
bounds of both are Python `int`s (`/repo/mapry/parse.py:125-141`). -/
structure Bounds where
  min : Option Int := none
  exMin : Bool := false
  max : Option Int := none
  exMax : Bool := false
  deriving DecidableEq, Repr

/-- `/repo/mapry/__init__.py:13-179`: the value types. -/
inductive Ty where
  | boolean
  | integer (b : Bounds)
  | float (b : Bounds)
  | string (pattern : Option Str)
  | path (pattern : Option Str)
  | date (format : Str)
  | time (format : Str)
  | datetime (format : Str)
  | timeZone
  | duration
  | array (values : Ty) (minSize maxSize : Option Int)
  | map (values : Ty)
  | cls (name : Str)
  | embed (name : Str)
  deriving DecidableEq, Repr

/-- `/repo/mapry/__init__.py:182-206` `Property`; the back pointer `composite` is omitted. -/
structure Property where
  ref : Str := []
  name : Str
  ty : Ty
  description : Str := []
  json : Str
  optional : Bool := false
  deriving DecidableEq, Repr

/-- `/repo/mapry/__init__.py:209-231` `Embed`; the ordered dictionary of properties is the list of its
values (each property carries its name). -/
structure Embed where
  name : Str
  description : Str := []
  ref : Str := []
  properties : List Property := []
  deriving DecidableEq, Repr

/-- `/repo/mapry/__init__.py:234-268` `Class` -/
structure Class where
  name : Str
  plural : Str
  description : Str := []
  ref : Str := []
  idPattern : Option Str := none
  properties : List Property := []
  deriving DecidableEq, Repr

/-- `/repo/mapry/__init__.py:271-288` `Graph` -/
structure Graph where
  ref : Str := []
  name : Str
  description : Str := []
  classes : List Class := []
  embeds : List Embed := []
  properties : List Property := []
  deriving DecidableEq, Repr

/-- `graph.classes[name]` -/
def Graph.cls? (g : Graph) (name : Str) : Option Class := g.classes.find? (fun c => c.name == name)

/-- `graph.embeds[name]` -/
def Graph.embed? (g : Graph) (name : Str) : Option Embed := g.embeds.find? (fun e => e.name == name)

/-- What classes, embeds and graphs have in common. -/
structure Composite where
  ref : Str
  properties : List Property

def Class.composite (c : Class) : Composite := ⟨c.ref, c.properties⟩
def Embed.composite (e : Embed) : Composite := ⟨e.ref, e.properties⟩
def Graph.composite (g : Graph) : Composite := ⟨g.ref, g.properties⟩

/-- `/repo/mapry/__init__.py:481-493` `_iterate_over_types_recursively` -/
def iterateTy : Ty → Str → List (Ty × Str)
  | .array values lo hi, ref =>
    (.array values lo hi, ref) :: iterateTy values (ref ++ c!"/values")
  | .map values, ref => (.map values, ref) :: iterateTy values (ref ++ c!"/values")
  | t, ref => [(t, ref)]

/-- `/repo/mapry/__init__.py:496-506` `_iterate_over_composite_types` -/
def iterateComposite (c : Composite) : List (Ty × Str) :=
  c.properties.flatMap fun p => iterateTy p.ty (c.ref ++ c!"/" ++ p.name)

/-- `/repo/mapry/__init__.py:509-525` `iterate_over_types` -/
def iterateOverTypes (g : Graph) : List (Ty × Str) :=
  (g.classes.flatMap fun c => iterateComposite c.composite) ++
  (g.embeds.flatMap fun e => iterateComposite e.composite) ++
  iterateComposite g.composite

end Mapry
