import Verif.Basic

/-!
# Model of the generated error containers

Every container is a state machine: the state after a history of `add` calls.
-/

namespace Mapry

/-- `Error` of `/repo/mapry/py/generate/parse.py:27-40` (and of the Go and C++ templates). -/
structure Err where
  ref : Str
  message : Str
  deriving DecidableEq, Repr

/-- Python `Errors` (`/repo/mapry/py/generate/parse.py:43-81`); the cap is any Python integer. -/
structure Errors where
  cap : Int
  values : List Err
  deriving DecidableEq, Repr

namespace Errors

/-- `__init__` (`/repo/mapry/py/generate/parse.py:50-57`) -/
def new (cap : Int) : Errors := ⟨cap, []⟩

/-- `add` (`/repo/mapry/py/generate/parse.py:59-67`) -/
def add (e : Errors) (x : Err) : Errors :=
  if (e.values.length : Int) < e.cap then { e with values := e.values ++ [x] } else e

/-- `full` (`/repo/mapry/py/generate/parse.py:69-71`) -/
def full (e : Errors) : Bool := (e.values.length : Int) = e.cap

/-- `empty` (`/repo/mapry/py/generate/parse.py:73-75`) -/
def empty (e : Errors) : Bool := e.values.length = 0

/-- `count` (`/repo/mapry/py/generate/parse.py:77-79`) -/
def count (e : Errors) : Nat := e.values.length

end Errors

/-- Go `Errors` (`/repo/mapry/go/generate/parse.py:20-66`). -/
structure GoErrors where
  cap : Nat
  values : List Err
  deriving DecidableEq, Repr

namespace GoErrors

/-- `NewErrors` (`/repo/mapry/go/generate/parse.py:34-38`). Simplification: Go reserves memory for
`cap` errors here, which may panic for an absurdly large cap. -/
def new (cap : Nat) : GoErrors := ⟨cap, []⟩

/-- `Add` (`/repo/mapry/go/generate/parse.py:52-56`) -/
def add (e : GoErrors) (x : Err) : GoErrors :=
  if e.cap = 0 ∨ e.values.length < e.cap then { e with values := e.values ++ [x] } else e

/-- `Full` (`/repo/mapry/go/generate/parse.py:59-61`) -/
def full (e : GoErrors) : Bool := e.cap ≠ 0 && e.values.length = e.cap

/-- `Empty` (`/repo/mapry/go/generate/parse.py:64-66`) -/
def empty (e : GoErrors) : Bool := e.values.length = 0

end GoErrors

/-- C++ `Errors` (`/repo/mapry/cpp/generate/parse_impl.py:20-43`). -/
structure CppErrors where
  cap : Nat
  values : List Err
  deriving DecidableEq, Repr

namespace CppErrors

/-- The constructor. -/
def new (cap : Nat) : CppErrors := ⟨cap, []⟩

/-- `add` (`/repo/mapry/cpp/generate/parse_impl.py:27-31`) -/
def add (e : CppErrors) (x : Err) : CppErrors :=
  if e.values.length < e.cap then { e with values := e.values ++ [x] } else e

/-- `full` (`/repo/mapry/cpp/generate/parse_impl.py:33-35`) -/
def full (e : CppErrors) : Bool := e.values.length = e.cap

/-- `empty` (`/repo/mapry/cpp/generate/parse_impl.py:37-39`) -/
def empty (e : CppErrors) : Bool := e.values.isEmpty

end CppErrors

end Mapry
