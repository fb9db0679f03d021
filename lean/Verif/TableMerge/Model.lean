import Verif.Table.Model

/-!
# Merging tables: `formats/table/m_table.c`

Not modelled: null pointers for either table, destroying the source, and merging a table with itself (which destroys it while it
is in use).
-/

namespace Verif.TableMerge
open Verif Verif.Table

/-- `formats/table/m_table.c:803-807`, `M_table_merge`: the cells of one row of the source are put in the row with number `row`;
the results of `M_table_cell_set` are not looked at. -/
def setCells (row : Nat) : List (Option Bytes × Option Bytes) → Tbl → Option Tbl
  | [], t => some t
  | (n, v) :: ps, t => (set t row (n.getD []) v ⟨true, false⟩).bind fun x => setCells row ps x.1

/-- `formats/table/m_table.c:803-805`: the names and values of row `i` of the source. -/
def pairs (src : Tbl) (i : Nat) : List (Option Bytes × Option Bytes) :=
  (List.range src.cols.length).map fun j => (colName src j, cellAt src i j)

/-- `formats/table/m_table.c:799-808`, over the numbers of the rows of the source; the new row is the last. -/
def mergeRows (src : Tbl) : List Nat → Tbl → Option Tbl
  | [], t => some t
  | i :: is, t => (insRow t t.rows.length).bind fun x => (setCells t.rows.length (pairs src i) x.1).bind (mergeRows src is)

/-- `formats/table/m_table.c:788-797`: some column has no name. -/
def unnamed (t : Tbl) : Bool := (List.range t.cols.length).any fun j => ((colName t j).getD []).isEmpty

/-- `formats/table/m_table.c:761-812`, `M_table_merge`, for two tables: the destination afterwards, and what is returned. `none`
if the random numbers run out. -/
def merge (dest src : Tbl) : Option (Tbl × Bool) :=
  if unnamed dest then some (dest, false)
  else if unnamed src then some (dest, false)
  else (mergeRows src (List.range src.rows.length) dest).map (·, true)

end Verif.TableMerge
