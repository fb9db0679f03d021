import Verif.Table.Spec
import Verif.Json.Model

/-!
# What tables as JSON mean
-/

namespace Verif.TableJson
open Verif Verif.Table
open Verif.Json (Json)

/-- The value of a grid in a row under a name. -/
def look (ci : Bool) (g : Grid) (i : Nat) (n : Bytes) : Option Bytes :=
  ((g.find ci n).bind fun j => g.cells[i]?.bind (·[j]?)).bind id

/-- The value of an object under a name. -/
def member (ci : Bool) (o : List (Bytes × Bytes)) (n : Bytes) : Option Bytes :=
  (o.find? fun p => decide (Alike ci p.1 n)).map (·.2)

/-- An object whose values are strings. -/
def object (o : List (Bytes × Bytes)) : Json := .obj (o.map fun p => (p.1, .str p.2))

/-- An array of them. -/
def document (os : List (List (Bytes × Bytes))) : Json := .arr (os.map object)

end Verif.TableJson
