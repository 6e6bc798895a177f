import Verif.GoCode

/-!
# The types of the generated Go code

`/repo/mapry/go/generate/types.py` and `type_repr` of `/repo/mapry/go/generate/__init__.py` with the structure of the types;
`GoCode.typesFile` has only their names. The comments are left out.
-/

namespace Mapry.GoTypes

open Mapry.TypeGraph Mapry.Naming
open Mapry.GoCode (isPointer)

/-- A type of Go as far as it is generated -/
inductive GTy where
  | bool | int64 | float64 | string
  /-- `time.Time` -/
  | time
  /-- `time.Duration` -/
  | duration
  /-- `time.Location` -/
  | location
  | ptr (t : GTy)
  | slice (t : GTy)
  /-- a map from strings -/
  | map (t : GTy)
  /-- a type which is declared in the package -/
  | named (n : Str)
  /-- `interface{}` -/
  | any
  | int
  | error
  /-- `regexp.Regexp` -/
  | regexp
  deriving DecidableEq, Repr

/-- `/repo/mapry/go/generate/__init__.py:32-86` `type_repr` -/
def typeRepr : Ty → Except Exc GTy
  | .boolean => .ok .bool
  | .integer _ => .ok .int64
  | .float _ => .ok .float64
  | .string _ => .ok .string
  | .path _ => .ok .string
  | .date _ => .ok .time
  | .time _ => .ok .time
  | .datetime _ => .ok .time
  | .timeZone => .ok (.ptr .location)
  | .duration => .ok .duration
  | .array t _ _ => do pure (.slice (← typeRepr t))
  | .map t => do pure (.map (← typeRepr t))
  | .cls n => do pure (.ptr (.named (← ucamelCase n)))
  | .embed n => do pure (.named (← ucamelCase n))

/-- `/repo/mapry/go/generate/types.py:33-49` `_property_type_repr` -/
def propertyType (p : Property) : Except Exc GTy := do
  let t ← typeRepr p.ty
  pure (if p.optional then (if isPointer p.ty then t else .ptr t) else t)

/-- A field of a structure: `/repo/mapry/go/generate/types.py:69`, `:111`, `:155` -/
def field (p : Property) : Except Exc (Str × GTy) := do pure (← ucamelCase p.name, ← propertyType p)

/-- `type … struct { … }` -/
structure TypeDef where
  name : Str
  fields : List (Str × GTy)
  deriving DecidableEq, Repr

/-- `/repo/mapry/go/generate/types.py:52-89` `_define_class` -/
def defineClass (c : Class) : Except Exc TypeDef := do
  pure ⟨← ucamelCase c.name, (c!"ID", .string) :: (← c.properties.mapM field)⟩

/-- `/repo/mapry/go/generate/types.py:93-129` `_define_embed` -/
def defineEmbed (e : Embed) : Except Exc TypeDef := do
  pure ⟨← ucamelCase e.name, ← e.properties.mapM field⟩

/-- A registry of the graph: `/repo/mapry/go/generate/types.py:146` -/
def registry (c : Class) : Except Exc (Str × GTy) := do
  pure (← ucamelCase c.plural, .map (.ptr (.named (← ucamelCase c.name))))

/-- `/repo/mapry/go/generate/types.py:133-174` `_define_graph` -/
def defineGraph (g : Graph) : Except Exc TypeDef := do
  pure ⟨← ucamelCase g.name, (← g.classes.mapM registry) ++ (← g.properties.mapM field)⟩

/-- `/repo/mapry/go/generate/types.py:179-204` `generate`: the declarations in their order -/
def typeDefs (g : Graph) : Except Exc (List TypeDef) := do
  pure ((← g.embeds.mapM defineEmbed) ++ (← g.classes.mapM defineClass) ++ [← defineGraph g])

/-! ## The rules of Go -/

/-- The types whose names are in the type -/
def GTy.names : GTy → List Str
  | .ptr t | .slice t | .map t => t.names
  | .named n => [n]
  | _ => []

/-- A value of `a` contains a value of `b`; pointers, slices and maps only refer to others (The Go Programming Language
Specification, section Struct types). -/
def Contains (ds : List TypeDef) (a b : Str) : Prop := ∃ d ∈ ds, d.name = a ∧ ∃ f ∈ d.fields, f.2 = .named b

/-- The compiler accepts the declarations: the types are different from each other, the fields of a type are different from
each other, the types of the fields are declared, and no type contains itself. -/
structure DefsOk (ds : List TypeDef) : Prop where
  types : (ds.map (·.name)).Nodup
  fields : ∀ d ∈ ds, (d.fields.map (·.1)).Nodup
  declared : ∀ d ∈ ds, ∀ f ∈ d.fields, ∀ n ∈ f.2.names, n ∈ ds.map (·.name)
  finite : ∀ n, ¬ Relation.TransGen (Contains ds) n n

end Mapry.GoTypes
