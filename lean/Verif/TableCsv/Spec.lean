import Verif.Table.Spec
import Verif.Csv.Props

/-!
# What loading CSV into a table means

In terms of grids (`Verif.Table.Grid`), nothing here uses the functions of the model.
-/

namespace Verif.TableCsv
open Verif Verif.Table

/-- The value of a row of CSV under a name. -/
def under (ci : Bool) (hd : List Bytes) (r : List (Option Bytes)) (n : Bytes) : Option Bytes :=
  ((hd.zip r).find? fun p => decide (Alike ci p.1 n)).bind (·.2)

/-- The names in a header that are not yet in a grid. -/
def fresh (ci : Bool) (g : Grid) (hd : List Bytes) : List Bytes := hd.filter fun n => (g.find ci n).isNone

/-- A grid with the columns of a header it does not have yet, and the rows of CSV below. -/
def joined (ci : Bool) (g : Grid) (hd : List Bytes) (rows : List (List (Option Bytes))) : Grid :=
  ⟨g.names ++ (fresh ci g hd).map some,
    g.cells.map (· ++ (fresh ci g hd).map fun _ => none) ++
      rows.map fun r => (g.names ++ (fresh ci g hd).map some).map fun n => n.bind (under ci hd r)⟩

/-- No two names of a header are names of the same column. -/
def Distinct (ci : Bool) (hd : List Bytes) : Prop := hd.Pairwise fun a b => ¬ Alike ci a b

end Verif.TableCsv
